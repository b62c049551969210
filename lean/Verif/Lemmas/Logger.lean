import Verif.Spec.Checkpoint
import Verif.Lemmas.H5

/-! # Lemmas about the loggers -/

namespace TK

noncomputable section

theorem itsKey_ne : itsKey ≠ valuesKey := by decide

theorem Dict.keys_set {β : Type} (d : Dict β) (k : Name) (v : β) :
    (d.set k v).map Prod.fst = if k ∈ d.map Prod.fst then d.map Prod.fst else d.map Prod.fst ++ [k] := by
  unfold Dict.set
  by_cases h : d.has k = true
  · rw [if_pos h, if_pos (Dict.has_iff.1 h), List.map_map]
    refine List.map_congr_left fun p _ => ?_
    simp only [Function.comp]
    split
    · rename_i h; exact h.symm
    · rfl
  · rw [if_neg h, if_neg (fun hc => h (Dict.has_iff.2 hc)), List.map_append]; rfl

theorem Dict.nodup_set {β : Type} {d : Dict β} (k : Name) (v : β) (h : (d.map Prod.fst).Nodup) :
    ((d.set k v).map Prod.fst).Nodup := by
  rw [Dict.keys_set]
  split
  · exact h
  · rename_i hk
    rw [List.nodup_append]
    refine ⟨h, List.nodup_singleton k, ?_⟩
    intro a ha b hb
    rw [List.mem_singleton] at hb
    rintro rfl
    exact hk (hb ▸ ha)

theorem Dict.has_set {β : Type} {d : Dict β} {k k' : Name} {v : β} :
    (d.set k v).has k' = true ↔ d.has k' = true ∨ k' = k := by
  rw [Dict.has_iff, Dict.keys_set, Dict.has_iff]
  split
  · rename_i h
    exact ⟨Or.inl, fun h' => h'.elim id fun e => e ▸ h⟩
  · simp

theorem writeIts_none {g : Group} {l : List Int} (h : g.dsets.find itsKey = none) :
    writeIts g l = .ok { g with dsets := g.dsets ++ [(itsKey, .iseq l)] } := by
  rw [writeIts, h]; simp only [Dict.create_ok h, bind_ok]; rfl

theorem writeIts_some {g : Group} {l old : List Int} (h : g.dsets.find itsKey = some (.iseq old)) :
    writeIts g l = .ok { g with dsets := g.dsets.set itsKey (.iseq (old ++ l)) } := by
  rw [writeIts, h]

theorem writeValues_none {g : Group} {l : List ℝ} (h : g.dsets.find valuesKey = none) :
    writeValues g l = .ok { g with dsets := g.dsets ++ [(valuesKey, .vseq l)] } := by
  rw [writeValues, h]; simp only [Dict.create_ok h, bind_ok]; rfl

theorem writeValues_some {g : Group} {l old : List ℝ} (h : g.dsets.find valuesKey = some (.vseq old)) :
    writeValues g l = .ok { g with dsets := g.dsets.set valuesKey (.vseq (old ++ l)) } := by
  rw [writeValues, h]

theorem writeGroup_new (l : Logger) :
    ∃ g, l.writeGroup Group.empty = .ok g ∧ g.dsets.find itsKey = some (.iseq l.latestIts) ∧
      g.dsets.find valuesKey = some (.vseq l.latestMetrics) := by
  have h1 : (Group.empty.dsets).find itsKey = none := rfl
  rw [Logger.writeGroup, writeIts_none h1, bind_ok, writeValues_none]
  · refine ⟨_, rfl, ?_, ?_⟩
    · rw [Dict.find_append, Dict.find_append, h1]; simp [Dict.find_cons]
    · rw [Dict.find_append, Dict.find_append, show (Group.empty.dsets).find valuesKey = none from rfl]
      simp [Dict.find_cons, itsKey_ne]
  · simp [Dict.find_append, Dict.find_cons, itsKey_ne, Group.empty]

theorem writeGroup_old (l : Logger) {g : Group} {its : List Int} {vals : List ℝ}
    (hi : g.dsets.find itsKey = some (.iseq its)) (hv : g.dsets.find valuesKey = some (.vseq vals)) :
    ∃ g', l.writeGroup g = .ok g' ∧ g'.dsets.find itsKey = some (.iseq (its ++ l.latestIts)) ∧
      g'.dsets.find valuesKey = some (.vseq (vals ++ l.latestMetrics)) := by
  rw [Logger.writeGroup, writeIts_some hi, bind_ok, writeValues_some (old := vals)]
  · refine ⟨_, rfl, ?_, ?_⟩
    · simp only
      rw [Dict.find_set_ne _ _ itsKey_ne.symm, Dict.find_set_self]
    · simp only
      rw [Dict.find_set_self]
  · simp only
    rw [Dict.find_set_ne _ _ itsKey_ne, hv]

/-- The logger after a write. -/
def Logger.flushed (l : Logger) : Logger := { l with prev := l.prev + l.latestIts.length }

/-- A write to a file that has no group of the logger. -/
theorem writeTo_new {f : H5File} {n : Name} (l : Logger) (hd : f.root.dsets.has n = false)
    (hf : f.groups.find n = none) :
    ∃ g, l.writeTo n f = .ok (l.flushed, { f with groups := f.groups.set n g }) ∧
      LogData { f with groups := f.groups.set n g } n l.latestIts l.latestMetrics := by
  obtain ⟨g, hg, h1, h2⟩ := writeGroup_new l
  refine ⟨g, ?_, g, ?_, h1, h2⟩
  · rw [Logger.writeTo, if_neg (by simp [hd]), hf, Option.getD_none, hg, bind_ok]; rfl
  · simp only [Dict.find_set_self]

/-- A write to a file that has one. -/
theorem writeTo_old {f : H5File} {n : Name} (l : Logger) {its : List Int} {vals : List ℝ}
    (hd : f.root.dsets.has n = false) (hf : LogData f n its vals) :
    ∃ g, l.writeTo n f = .ok (l.flushed, { f with groups := f.groups.set n g }) ∧
      LogData { f with groups := f.groups.set n g } n (its ++ l.latestIts) (vals ++ l.latestMetrics) := by
  obtain ⟨g0, hg0, hi, hv⟩ := hf
  obtain ⟨g, hg, h1, h2⟩ := writeGroup_old l hi hv
  refine ⟨g, ?_, g, ?_, h1, h2⟩
  · rw [Logger.writeTo, if_neg (by simp [hd]), hg0, Option.getD_some, hg, bind_ok]; rfl
  · simp only [Dict.find_set_self]

theorem LogData.inj {f : H5File} {n : Name} {i i' : List Int} {v v' : List ℝ} (h : LogData f n i v)
    (h' : LogData f n i' v') : i = i' ∧ v = v' := by
  obtain ⟨g, hg, h1, h2⟩ := h
  obtain ⟨g', hg', h1', h2'⟩ := h'
  rw [hg] at hg'; cases hg'
  rw [h1] at h1'; rw [h2] at h2'
  cases h1'; cases h2'
  exact ⟨rfl, rfl⟩

/-- Groups of other names are not touched. -/
theorem LogData.set_ne {f : H5File} {n k : Name} {i : List Int} {v : List ℝ} (h : LogData f n i v) {g : Group}
    (hne : k ≠ n) : LogData { f with groups := f.groups.set k g } n i v := by
  obtain ⟨g', hg', h1, h2⟩ := h
  exact ⟨g', by simp only [Dict.find_set_ne _ _ hne, hg'], h1, h2⟩

end
end TK
