import Verif.Model.Experiment
import Verif.Lemmas.H5
import Verif.Lemmas.Logger
import Verif.Lemmas.Decomposer
import Verif.Lemmas.CP

/-!
# `Experiment` (C86)
-/

namespace TK
open NDArray
open EStateM (Result)

noncomputable section

namespace Experiment

theorem ebind_ok {σ α β : Type} {x : EStateM PyErr σ α} {f : α → EStateM PyErr σ β} {w w' : σ} {a : α} (h : x w = .ok a w') :
    (x >>= f) w = f a w' := by
  show EStateM.bind x f w = _
  rw [EStateM.bind, h]

theorem ebind_error {σ α β : Type} {x : EStateM PyErr σ α} {f : α → EStateM PyErr σ β} {w w' : σ} {e : PyErr}
    (h : x w = .error e w') : (x >>= f) w = .error e w' := by
  show EStateM.bind x f w = _
  rw [EStateM.bind, h]

/-! ### attributes -/

theorem setParams_ok : ∀ (params : Dict AttrVal) (g : Group), ∃ g', setParams params g = .ok () g' ∧ g'.dsets = g.dsets ∧
    (∀ n, n = initKey ∨ n ∉ params.map Prod.fst → g'.attrs.find n = g.attrs.find n) ∧
    ((params.map Prod.fst).Nodup → ∀ p ∈ params, p.1 ≠ initKey → g'.attrs.find p.1 = some p.2)
  | [], g => ⟨g, rfl, rfl, fun _ _ => rfl, fun _ p hp => by simp at hp⟩
  | (k, v) :: l, g => by
    by_cases hk : k = initKey
    · obtain ⟨g', e, h1, h2, h3⟩ := setParams_ok l g
      refine ⟨g', by rw [setParams, if_pos hk, e], h1, fun n hn => h2 n ?_, fun hnd p hp hne => ?_⟩
      · rcases hn with hn | hn
        · exact .inl hn
        · exact .inr fun h => hn (by simp only [List.map_cons, List.mem_cons]; exact .inr h)
      · rcases List.mem_cons.1 hp with rfl | hp
        · exact absurd hk hne
        · exact h3 (List.nodup_cons.1 hnd).2 p hp hne
    · obtain ⟨g', e, h1, h2, h3⟩ := setParams_ok l (g.setAttr k v)
      refine ⟨g', by rw [setParams, if_neg hk]; exact e, h1, fun n hn => ?_, fun hnd p hp hne => ?_⟩
      · rw [h2 n]
        · refine Dict.find_set_ne _ _ ?_
          rintro rfl
          rcases hn with hn | hn
          · exact hk hn
          · simp at hn
        · rcases hn with hn | hn
          · exact .inl hn
          · exact .inr fun h => hn (by simp only [List.map_cons, List.mem_cons]; exact .inr h)
      · rcases List.mem_cons.1 hp with rfl | hp
        · rw [h2 k (.inr (List.nodup_cons.1 hnd).1)]
          exact Dict.find_set_self _ _ _
        · exact h3 (List.nodup_cons.1 hnd).2 p hp hne

/-! ### datasets -/

theorem put_ok {g : Group} {k : Name} {v : NDArray ℝ} (h : k ∉ g.dsets.map Prod.fst) :
    g.put k v = .ok { g with dsets := g.dsets ++ [(k, .arr v)] } := by
  rw [Group.put, Dict.create, if_neg (by rw [Dict.has_iff]; exact h), bind_ok]; rfl

theorem put_error {g : Group} {k : Name} {v : NDArray ℝ} (h : k ∈ g.dsets.map Prod.fst) :
    g.put k v = .error .nameExists := by
  rw [Group.put, Dict.create, if_pos (Dict.has_iff.2 h), bind_error]

/-- New datasets, all of them. -/
theorem storeAll_new : ∀ (l : Dict (NDArray ℝ)) (g : Group), (l.map Prod.fst).Nodup →
    (∀ n ∈ l.map Prod.fst, n ∉ g.dsets.map Prod.fst) →
    storeAll false l g = .ok () { g with dsets := g.dsets ++ l.map fun p => (p.1, DSet.arr p.2) }
  | [], g, _, _ => by simp [storeAll]; rfl
  | (k, v) :: l, g, hnd, hnew => by
    have hk := put_ok (v := v) (hnew k (by simp))
    have ih := storeAll_new l { g with dsets := g.dsets ++ [(k, .arr v)] } (List.nodup_cons.1 hnd).2 (fun n hn => by
      simp only [List.map_append, List.map_cons, List.map_nil, List.mem_append, List.mem_singleton, not_or]
      refine ⟨hnew n (List.mem_cons_of_mem _ hn), ?_⟩
      rintro rfl
      exact (List.nodup_cons.1 hnd).1 hn)
    rw [storeAll]
    have : atomic (fun g => g.put k v) g = .ok () { g with dsets := g.dsets ++ [(k, .arr v)] } := by
      rw [atomic, hk]
    simp only [Bool.not_false, if_true]
    rw [ebind_ok this, ih]
    simp

/-- A name that is taken: the loop raises, and no dataset that was there before has changed. -/
theorem storeAll_taken : ∀ (l : Dict (NDArray ℝ)) (g : Group), (∃ n ∈ l.map Prod.fst, n ∈ g.dsets.map Prod.fst) →
    ∃ g', storeAll false l g = .error .nameExists g' ∧ g'.attrs = g.attrs ∧
      ∀ n ∈ g.dsets.map Prod.fst, g'.dsets.find n = g.dsets.find n
  | [], _, h => by simp at h
  | (k, v) :: l, g, h => by
    rw [storeAll]
    simp only [Bool.not_false, if_true]
    by_cases hk : k ∈ g.dsets.map Prod.fst
    · refine ⟨g, ?_, rfl, fun _ _ => rfl⟩
      have : atomic (fun g => g.put k v) g = .error .nameExists g := by rw [atomic, put_error hk]
      rw [ebind_error this]
    · have : atomic (fun g => g.put k v) g = .ok () { g with dsets := g.dsets ++ [(k, .arr v)] } := by
        rw [atomic, put_ok hk]
      rw [ebind_ok this]
      obtain ⟨n, hn, hn'⟩ := h
      obtain ⟨g', e, h1, h2⟩ := storeAll_taken l { g with dsets := g.dsets ++ [(k, .arr v)] } ⟨n, by
        rcases List.mem_cons.1 hn with rfl | hn
        · exact absurd hn' hk
        · exact hn, by simp only [List.map_append, List.mem_append]; exact .inl hn'⟩
      refine ⟨g', e, h1, fun m hm => ?_⟩
      rw [h2 m (by simp only [List.map_append, List.mem_append]; exact .inl hm), Dict.find_append]
      cases hf : g.dsets.find m with
      | none => exact absurd hm (Dict.find_eq_none_iff.1 hf)
      | some x => rfl

/-- Overwriting datasets by arrays of the same shapes. -/
theorem storeAll_over : ∀ (l : Dict (NDArray ℝ)) (g : Group), (l.map Prod.fst).Nodup →
    (∀ p ∈ l, ∃ A, g.dsets.find p.1 = some (.arr A) ∧ A.shape = p.2.shape) →
    ∃ g', storeAll true l g = .ok () g' ∧ g'.attrs = g.attrs ∧ g'.dsets.map Prod.fst = g.dsets.map Prod.fst ∧
      (∀ p ∈ l, g'.dsets.find p.1 = some (.arr p.2)) ∧ ∀ n ∉ l.map Prod.fst, g'.dsets.find n = g.dsets.find n
  | [], g, _, _ => ⟨g, rfl, rfl, rfl, by simp, fun _ _ => rfl⟩
  | (k, v) :: l, g, hnd, h => by
    obtain ⟨A, hA, hs⟩ := h (k, v) (by simp)
    have hmem : k ∈ g.dsets.map Prod.fst := by
      by_contra hc
      rw [Dict.find_eq_none_iff.2 hc] at hA
      cases hA
    have hov : overwrite k v g = .ok { g with dsets := g.dsets.set k (.arr v) } := by
      rw [overwrite, Group.arr, Dict.item, hA]
      show (Except.ok A >>= _) = _
      rw [bind_ok, assignAll_same hs.symm]
      rfl
    have ha : atomic (fun g => overwrite k v g) g = .ok () { g with dsets := g.dsets.set k (.arr v) } := by rw [atomic, hov]
    obtain ⟨hk, hnd'⟩ := List.nodup_cons.1 hnd
    obtain ⟨g', e, h1, h2, h3, h4⟩ := storeAll_over l { g with dsets := g.dsets.set k (.arr v) } hnd' (fun p hp => by
      obtain ⟨A, hA, hs⟩ := h p (List.mem_cons_of_mem _ hp)
      refine ⟨A, ?_, hs⟩
      show (g.dsets.set k _).find _ = _
      rw [Dict.find_set_ne _ _ ?_, hA]
      intro hc
      exact hk (List.mem_map.2 ⟨p, hp, hc.symm⟩))
    refine ⟨g', ?_, h1, ?_, ?_, ?_⟩
    · rw [storeAll]
      simp only [Bool.not_true, Bool.false_eq_true, if_false]
      rw [ebind_ok ha, e]
    · rw [h2, Dict.keys_set, if_pos hmem]
    · intro p hp
      rcases List.mem_cons.1 hp with rfl | hp
      · rw [h4 k hk]; exact Dict.find_set_self _ _ _
      · exact h3 p hp
    · intro n hn
      rw [List.map_cons, List.mem_cons, not_or] at hn
      rw [h4 n hn.2]
      exact Dict.find_set_ne _ _ (Ne.symm hn.1)

/-! ### groups of a file -/

theorem inGroup_ok {β : Type} {ex : Name} {f : GroupM β} {h : H5File} {g g' : Group} {b : β} (hg : h.groups.find ex = some g)
    (hf : f g = .ok b g') : inGroup ex f h = .ok b { h with groups := h.groups.set ex g' } := by
  simp only [inGroup, hg, hf]

theorem inGroup_error {β : Type} {ex : Name} {f : GroupM β} {h : H5File} {g g' : Group} {e : PyErr}
    (hg : h.groups.find ex = some g) (hf : f g = .error e g') :
    inGroup ex f h = .error e { h with groups := h.groups.set ex g' } := by
  simp only [inGroup, hg, hf]

/-! ### C86 -/

/-- The groups other than `ex`, and the root group, are the same. -/
def SameElsewhere (ex : Name) (h h' : H5File) : Prop := h'.root = h.root ∧ ∀ n ≠ ex, h'.groups.find n = h.groups.find n

theorem sameElsewhere_set {ex : Name} {h h' : H5File} (s : SameElsewhere ex h h') (g : Group) :
    SameElsewhere ex h { h' with groups := h'.groups.set ex g } :=
  ⟨s.1, fun n hn => (Dict.find_set_ne _ _ (Ne.symm hn)).trans (s.2 n hn)⟩

theorem sameElsewhere_refl (ex : Name) (h : H5File) : SameElsewhere ex h h := ⟨rfl, fun _ _ => rfl⟩

end Experiment

open Experiment

/-- **C86** for a first run: if the experiment returns `outputs` and the evaluation `metrics`, with names that are not yet used in the
group of the experiment, then afterwards each output and each metric is a dataset of the group and each parameter, except for one
called `init`, an attribute; nothing else in the file has changed (`g1` is the group as the experiment left it). What is missing is
the parameter `init` (`C86_init_never_stored`). -/
theorem C86_run_partial {ex : Name} {h : H5File} {g g1 : Group} {experiment : GroupM (Dict (NDArray ℝ))}
    {outputs metrics : Dict (NDArray ℝ)} {finalEval : Dict (NDArray ℝ) → Py (Dict (NDArray ℝ))} {params : Dict AttrVal}
    (hex : h.groups.find ex = some g) (hf : experiment g = .ok outputs g1) (he : finalEval outputs = .ok metrics)
    (hnd : ((outputs ++ metrics).map Prod.fst).Nodup) (hnew : ∀ n ∈ (outputs ++ metrics).map Prod.fst, n ∉ g1.dsets.map Prod.fst)
    (hp : (params.map Prod.fst).Nodup) :
    ∃ h' g', Experiment.run ex experiment params finalEval false h = .ok () h' ∧ h'.groups.find ex = some g' ∧
      (∀ p ∈ outputs ++ metrics, g'.dsets.find p.1 = some (.arr p.2)) ∧
      (∀ n ∉ (outputs ++ metrics).map Prod.fst, g'.dsets.find n = g1.dsets.find n) ∧
      (∀ p ∈ params, p.1 ≠ "init".toList → g'.attrs.find p.1 = some p.2) ∧
      (∀ n, n = "init".toList ∨ n ∉ params.map Prod.fst → g'.attrs.find n = g1.attrs.find n) ∧
      SameElsewhere ex h h' := by
  rw [List.map_append] at hnd hnew
  obtain ⟨n1, n2, n3⟩ := List.nodup_append.1 hnd
  obtain ⟨g2, e2, d2, a2, a2'⟩ := setParams_ok params g1
  have e3 := storeAll_new outputs g2 n1 (fun n hn => by rw [d2]; exact hnew n (List.mem_append_left _ hn))
  have e4 := storeAll_new metrics { g2 with dsets := g2.dsets ++ outputs.map fun p => (p.1, DSet.arr p.2) } n2 (fun n hn => by
    simp only [List.map_append, List.map_map, List.mem_append, not_or]
    refine ⟨by rw [d2]; exact hnew n (List.mem_append_right _ hn), fun hc => ?_⟩
    obtain ⟨p, hp, rfl⟩ := List.mem_map.1 hc
    exact n3 p.1 (List.mem_map_of_mem hp) p.1 hn rfl)
  have r1 := inGroup_ok (ex := ex) hex hf
  have r2 := inGroup_ok (ex := ex) (h := { h with groups := h.groups.set ex g1 }) (f := do
    setParams params
    storeAll false outputs) (Dict.find_set_self _ _ _) ((ebind_ok e2).trans e3)
  have r3 := inGroup_ok (ex := ex) (h := { root := h.root, groups := (h.groups.set ex g1).set ex _ }) (Dict.find_set_self _ _ _) e4
  refine ⟨_, _, (by
      rw [Experiment.run, ebind_ok r1, ebind_ok r2]
      simp only [he]
      exact r3), Dict.find_set_self _ _ _, ?_, ?_, ?_, ?_, ?_⟩
  · intro p hp
    show Dict.find ((g2.dsets ++ _) ++ _) _ = _
    rw [List.append_assoc, ← List.map_append, Dict.find_append, d2, Dict.find_eq_none_iff.2 (hnew p.1 (by
      rw [← List.map_append]; exact List.mem_map_of_mem hp)), Option.none_or]
    have := Dict.find_of_mem (d := (outputs ++ metrics).map fun p => (p.1, DSet.arr p.2)) (by
      rw [List.map_map, List.map_append]; exact hnd) (y := (p.1, DSet.arr p.2)) (List.mem_map.2 ⟨p, hp, rfl⟩)
    exact this
  · intro n hn
    show Dict.find ((g2.dsets ++ _) ++ _) _ = _
    rw [List.append_assoc, ← List.map_append, Dict.find_append, d2]
    have : Dict.find ((outputs ++ metrics).map fun p => (p.1, DSet.arr p.2)) n = none := by
      rw [Dict.find_eq_none_iff, List.map_map]
      exact hn
    rw [this, Option.or_none]
  · intro p hp' hne
    exact a2' hp p hp' hne
  · intro n hn
    exact a2 n hn
  · exact sameElsewhere_set (sameElsewhere_set (sameElsewhere_set (sameElsewhere_refl ex h) _) _) _

/-- A file in which the group of the experiment was just created. -/
example : ∃ h' g', Experiment.run "e".toList (fun g => .ok [("x".toList, full [2] 1)] g) [("n".toList, .int 1)]
      (fun _ => .ok [("s".toList, full [] 10)]) false ⟨{}, [("e".toList, {}), ("other".toList, {})]⟩ = .ok () h' ∧
    h'.groups.find "e".toList = some g' ∧ g'.dsets.find "x".toList = some (.arr (full [2] 1)) ∧
    g'.attrs.find "n".toList = some (.int 1) := by
  obtain ⟨h', g', e, f, o, -, a, -, -⟩ := C86_run_partial (ex := "e".toList) (h := ⟨{}, [("e".toList, {}), ("other".toList, {})]⟩)
    (g := {}) (g1 := {}) (experiment := fun g => .ok [("x".toList, full [2] 1)] g) (outputs := [("x".toList, full [2] 1)])
    (metrics := [("s".toList, full [] 10)]) (finalEval := fun _ => .ok [("s".toList, full [] 10)])
    (params := [("n".toList, .int 1)]) rfl rfl rfl (by decide) (by simp) (by simp)
  exact ⟨h', g', e, f, o ("x".toList, full [2] 1) (by simp), a ("n".toList, .int 1) (by simp) (by decide)⟩

/-- **C86**, disagreement: a parameter called `init` is never written, also if `continue_old` is false, while the documentation says
that `continue_old=True` is what suppresses it. (This holds however the run ends, as long as the experiment itself does not write the
attribute.) -/
theorem C86_init_never_stored {ex : Name} {h : H5File} {g g1 : Group} {experiment : GroupM (Dict (NDArray ℝ))}
    {outputs : Dict (NDArray ℝ)} (finalEval : Dict (NDArray ℝ) → Py (Dict (NDArray ℝ))) (params : Dict AttrVal) (co : Bool)
    (hex : h.groups.find ex = some g) (hf : experiment g = .ok outputs g1) (h0 : g1.attrs.find "init".toList = none) {h' : H5File}
    (hr : Experiment.run ex experiment params finalEval co h = .ok () h') :
    ∃ g', h'.groups.find ex = some g' ∧ g'.attrs.find "init".toList = none := by
  have hstore : ∀ (l : Dict (NDArray ℝ)) (g : Group) (u : Unit) (g' : Group), storeAll co l g = .ok u g' → g'.attrs = g.attrs := by
    intro l
    induction l with
    | nil => intro g u g' e; cases e; rfl
    | cons p l ih =>
      obtain ⟨k, v⟩ := p
      intro g u g' e
      rw [storeAll] at e
      cases co with
      | false =>
        simp only [Bool.not_false, if_true] at e
        by_cases hk : k ∈ g.dsets.map Prod.fst
        · rw [ebind_error (w' := g) (e := .nameExists) (by rw [atomic, put_error hk])] at e; cases e
        · rw [ebind_ok (a := ()) (w' := { g with dsets := g.dsets ++ [(k, .arr v)] }) (by rw [atomic, put_ok hk])] at e
          rw [ih _ _ _ e]
      | true =>
        simp only [Bool.not_true, Bool.false_eq_true, if_false] at e
        cases ho : overwrite k v g with
        | error x => rw [ebind_error (w' := g) (e := x) (by rw [atomic, ho])] at e; cases e
        | ok g2 =>
          rw [ebind_ok (a := ()) (w' := g2) (by rw [atomic, ho])] at e
          rw [ih _ _ _ e]
          rw [overwrite] at ho
          cases hA : g.arr k with
          | error x => rw [hA, bind_error] at ho; cases ho
          | ok A =>
            rw [hA, bind_ok] at ho
            cases hB : assignAll A v with
            | error x => rw [hB] at ho; cases ho
            | ok B => rw [hB] at ho; cases ho; rfl
  obtain ⟨g2, e2, d2, a2, -⟩ := setParams_ok params g1
  have r1 := inGroup_ok (ex := ex) hex hf
  rw [Experiment.run, ebind_ok r1] at hr
  cases e3 : storeAll co outputs g2 with
  | error x g3 =>
    rw [ebind_error (inGroup_error (Dict.find_set_self _ _ _) ((ebind_ok e2).trans e3))] at hr
    cases hr
  | ok u g3 =>
    rw [ebind_ok (inGroup_ok (Dict.find_set_self _ _ _) ((ebind_ok e2).trans e3))] at hr
    cases he : finalEval outputs with
    | error x => rw [he] at hr; cases hr
    | ok metrics =>
      rw [he] at hr
      simp only at hr
      cases e4 : storeAll co metrics g3 with
      | error x g4 => rw [inGroup_error (Dict.find_set_self _ _ _) e4] at hr; cases hr
      | ok u' g4 =>
        rw [inGroup_ok (Dict.find_set_self _ _ _) e4] at hr
        cases hr
        refine ⟨g4, Dict.find_set_self _ _ _, ?_⟩
        rw [hstore _ _ _ _ e4, hstore _ _ _ _ e3]
        exact (a2 _ (.inl rfl)).trans h0

/-- **C86**, disagreement: a second run without `continue_old` that returns an output of the same name raises. The datasets are still
those of the first run, but the attributes are already the parameters of the second run: the file then describes results with
parameters that did not produce them. -/
theorem C86_rerun_mixes {ex : Name} {h : H5File} {g g1 : Group} {experiment : GroupM (Dict (NDArray ℝ))}
    {outputs : Dict (NDArray ℝ)} (finalEval : Dict (NDArray ℝ) → Py (Dict (NDArray ℝ))) {params : Dict AttrVal}
    (hex : h.groups.find ex = some g) (hf : experiment g = .ok outputs g1)
    (hold : ∃ n ∈ outputs.map Prod.fst, n ∈ g1.dsets.map Prod.fst) (hp : (params.map Prod.fst).Nodup) :
    ∃ h' g', Experiment.run ex experiment params finalEval false h = .error .nameExists h' ∧ h'.groups.find ex = some g' ∧
      (∀ n ∈ g1.dsets.map Prod.fst, g'.dsets.find n = g1.dsets.find n) ∧
      (∀ p ∈ params, p.1 ≠ "init".toList → g'.attrs.find p.1 = some p.2) ∧ SameElsewhere ex h h' := by
  obtain ⟨g2, e2, d2, -, a2⟩ := setParams_ok params g1
  obtain ⟨g3, e3, a3, d3⟩ := storeAll_taken outputs g2 (by rw [d2]; exact hold)
  have r1 := inGroup_ok (ex := ex) hex hf
  have r2 := inGroup_error (ex := ex) (h := { h with groups := h.groups.set ex g1 }) (f := do
    setParams params
    storeAll false outputs) (Dict.find_set_self _ _ _) ((ebind_ok e2).trans e3)
  refine ⟨_, g3, by rw [Experiment.run, ebind_ok r1, ebind_error r2], Dict.find_set_self _ _ _, fun n hn => ?_, fun p hp' hne => ?_,
    sameElsewhere_set (sameElsewhere_set (sameElsewhere_refl ex h) _) _⟩
  · rw [d3 n (by rw [d2]; exact hn), d2]
  · rw [a3]; exact a2 hp p hp' hne

/-- **C86.** With `continue_old=True`, a run whose outputs and metrics have the names and shapes of stored ones replaces them. -/
theorem C86_continue {ex : Name} {h : H5File} {g g1 : Group} {experiment : GroupM (Dict (NDArray ℝ))}
    {outputs metrics : Dict (NDArray ℝ)} {finalEval : Dict (NDArray ℝ) → Py (Dict (NDArray ℝ))} {params : Dict AttrVal}
    (hex : h.groups.find ex = some g) (hf : experiment g = .ok outputs g1) (he : finalEval outputs = .ok metrics)
    (hnd : ((outputs ++ metrics).map Prod.fst).Nodup)
    (hold : ∀ p ∈ outputs ++ metrics, ∃ A, g1.dsets.find p.1 = some (.arr A) ∧ A.shape = p.2.shape)
    (hp : (params.map Prod.fst).Nodup) :
    ∃ h' g', Experiment.run ex experiment params finalEval true h = .ok () h' ∧ h'.groups.find ex = some g' ∧
      (∀ p ∈ outputs ++ metrics, g'.dsets.find p.1 = some (.arr p.2)) ∧
      (∀ n ∉ (outputs ++ metrics).map Prod.fst, g'.dsets.find n = g1.dsets.find n) ∧
      (∀ p ∈ params, p.1 ≠ "init".toList → g'.attrs.find p.1 = some p.2) ∧ SameElsewhere ex h h' := by
  rw [List.map_append] at hnd
  obtain ⟨n1, n2, n3⟩ := List.nodup_append.1 hnd
  obtain ⟨g2, e2, d2, -, a2⟩ := setParams_ok params g1
  obtain ⟨g3, e3, a3, k3, o3, u3⟩ := storeAll_over outputs g2 n1 (fun p hp => by rw [d2]; exact hold p (List.mem_append_left _ hp))
  obtain ⟨g4, e4, a4, k4, o4, u4⟩ := storeAll_over metrics g3 n2 (fun p hp => by
    rw [u3 p.1 (fun hc => n3 p.1 hc p.1 (List.mem_map_of_mem hp) rfl), d2]
    exact hold p (List.mem_append_right _ hp))
  have r1 := inGroup_ok (ex := ex) hex hf
  have r2 := inGroup_ok (ex := ex) (h := { h with groups := h.groups.set ex g1 }) (f := do
    setParams params
    storeAll true outputs) (Dict.find_set_self _ _ _) ((ebind_ok e2).trans e3)
  have r3 := inGroup_ok (ex := ex) (h := { root := h.root, groups := (h.groups.set ex g1).set ex g3 }) (Dict.find_set_self _ _ _) e4
  refine ⟨_, g4, ?_, Dict.find_set_self _ _ _, ?_, ?_, ?_,
    sameElsewhere_set (sameElsewhere_set (sameElsewhere_set (sameElsewhere_refl ex h) g1) g3) g4⟩
  · rw [Experiment.run, ebind_ok r1, ebind_ok r2]
    simp only [he]
    exact r3
  · intro p hp
    rcases List.mem_append.1 hp with hp | hp
    · rw [u4 p.1 (fun hc => n3 p.1 (List.mem_map_of_mem hp) p.1 hc rfl), o3 p hp]
    · exact o4 p hp
  · intro n hn
    rw [List.map_append, List.mem_append, not_or] at hn
    rw [u4 n hn.2, u3 n hn.1, d2]
  · intro p hp' hne
    rw [a4, a3]
    exact a2 hp p hp' hne

/-- The output and the metric are there already, with the shapes of the new ones. -/
example : ∃ h' g', Experiment.run "e".toList (fun g => .ok [("x".toList, full [2] 1)] g) [("n".toList, .int 1)]
      (fun _ => .ok [("s".toList, full [] 10)]) true
      ⟨{}, [("e".toList, { dsets := [("x".toList, .arr (full [2] 0)), ("s".toList, .arr (full [] 0))] })]⟩ = .ok () h' ∧
    h'.groups.find "e".toList = some g' ∧ g'.dsets.find "x".toList = some (.arr (full [2] 1)) := by
  obtain ⟨h', g', e, f, o, -⟩ := C86_continue (ex := "e".toList)
    (h := ⟨{}, [("e".toList, { dsets := [("x".toList, .arr (full [2] 0)), ("s".toList, .arr (full [] 0))] })]⟩)
    (g := { dsets := [("x".toList, .arr (full [2] 0)), ("s".toList, .arr (full [] 0))] })
    (g1 := { dsets := [("x".toList, .arr (full [2] 0)), ("s".toList, .arr (full [] 0))] })
    (experiment := fun g => .ok [("x".toList, full [2] 1)] g) (outputs := [("x".toList, full [2] 1)])
    (metrics := [("s".toList, full [] 10)]) (finalEval := fun _ => .ok [("s".toList, full [] 10)])
    (params := [("n".toList, .int 1)]) rfl rfl rfl (by decide) (fun p hp => by
      rcases (by simpa using hp : p = ("x".toList, full [2] 1) ∨ p = ("s".toList, full [] 10)) with rfl | rfl
      · exact ⟨full [2] 0, rfl, rfl⟩
      · exact ⟨full [] 0, rfl, rfl⟩) (by simp)
  exact ⟨h', g', e, f, o ("x".toList, full [2] 1) (by simp)⟩

/-- **C86.** With `continue_old=True`, an output that was not stored before raises `KeyError`: a run that was interrupted before its
outputs were stored cannot be continued. -/
theorem C86_continue_interrupted {ex : Name} {h : H5File} {g g1 : Group} {experiment : GroupM (Dict (NDArray ℝ))}
    {k : Name} {v : NDArray ℝ} {outputs : Dict (NDArray ℝ)} (finalEval : Dict (NDArray ℝ) → Py (Dict (NDArray ℝ)))
    (params : Dict AttrVal) (hex : h.groups.find ex = some g) (hf : experiment g = .ok ((k, v) :: outputs) g1)
    (hnew : k ∉ g1.dsets.map Prod.fst) :
    ∃ h', Experiment.run ex experiment params finalEval true h = .error .keyError h' := by
  obtain ⟨g2, e2, d2, -, -⟩ := setParams_ok params g1
  have e3 : storeAll true ((k, v) :: outputs) g2 = .error .keyError g2 := by
    rw [storeAll]
    simp only [Bool.not_true, Bool.false_eq_true, if_false]
    refine ebind_error ?_
    have : overwrite k v g2 = .error .keyError := by
      rw [overwrite, Group.arr, Dict.item, d2, Dict.find_eq_none_iff.2 hnew]
      rfl
    rw [atomic, this]
  exact ⟨_, by rw [Experiment.run, ebind_ok (inGroup_ok hex hf), ebind_error (inGroup_error (Dict.find_set_self _ _ _)
    ((ebind_ok e2).trans e3))]⟩

example : ∃ h', Experiment.run "e".toList (fun g => .ok [("x".toList, full [2] 1)] g) [] (fun _ => .ok []) true
    ⟨{}, [("e".toList, {})]⟩ = .error .keyError h' :=
  C86_continue_interrupted (g := {}) (g1 := {}) (k := "x".toList) (v := full [2] 1) (outputs := []) _ [] rfl rfl (by simp)

/-! ### the constructor -/

namespace Experiment

theorem setAttrs_ok : ∀ (a : Dict AttrVal) (g : Group), ∃ g', setAttrs a g = .ok () g' ∧ g'.dsets = g.dsets ∧
    (∀ n ∉ a.map Prod.fst, g'.attrs.find n = g.attrs.find n) ∧
    ((a.map Prod.fst).Nodup → ∀ p ∈ a, g'.attrs.find p.1 = some p.2)
  | [], g => ⟨g, rfl, rfl, fun _ _ => rfl, fun _ p hp => by simp at hp⟩
  | (k, v) :: l, g => by
    obtain ⟨g', e, h1, h2, h3⟩ := setAttrs_ok l (g.setAttr k v)
    refine ⟨g', by rw [setAttrs]; exact e, h1, fun n hn => ?_, fun hnd p hp => ?_⟩
    · rw [List.map_cons, List.mem_cons, not_or] at hn
      rw [h2 n hn.2]
      exact Dict.find_set_ne _ _ (Ne.symm hn.1)
    · rcases List.mem_cons.1 hp with rfl | hp
      · rw [h2 k (List.nodup_cons.1 hnd).1]
        exact Dict.find_set_self _ _ _
      · exact h3 (List.nodup_cons.1 hnd).2 p hp

theorem putAll_eq (l : Dict (NDArray ℝ)) : putAll l = storeAll false l := by
  induction l with
  | nil => rfl
  | cons p l ih => rw [putAll, storeAll, ih]; rfl

/-- The file has groups only. -/
def GroupsOnly (h : H5File) : Prop := h.root.dsets = []

theorem ensureGroup_ok {h : H5File} (hg : GroupsOnly h) (ex : Name) : ∃ h' g, ensureGroup ex h = .ok () h' ∧
    h'.groups.find ex = some g ∧ g = (h.groups.find ex).getD Group.empty ∧ SameElsewhere ex h h' := by
  by_cases hn : h.groups.has ex = true
  · have hs : ∃ g, h.groups.find ex = some g := by
      rw [Dict.has_eq_isSome] at hn
      exact Option.isSome_iff_exists.1 hn
    obtain ⟨g, hf⟩ := hs
    exact ⟨h, g, by rw [ensureGroup, if_pos (by simp [H5File.hasName, hn])], hf, by rw [hf]; rfl, sameElsewhere_refl ex h⟩
  · have hf : h.groups.find ex = none := Dict.find_eq_none_iff.2 (fun hc => hn (Dict.has_iff.2 hc))
    have hr : h.root.dsets.has ex = false := by rw [show h.root.dsets = [] from hg]; rfl
    refine ⟨{ h with groups := h.groups ++ [(ex, Group.empty)] }, Group.empty, ?_, ?_, by rw [hf]; rfl, rfl, fun n hne => ?_⟩
    · rw [ensureGroup, if_neg (by simp [H5File.hasName, hn, hr]), H5File.createGroup, hr]
      simp only [Bool.false_eq_true, if_false]
      rw [Dict.create, if_neg hn, bind_ok]; rfl
    · show Dict.find (h.groups ++ _) _ = _
      rw [Dict.find_append, hf, Dict.find_cons, if_pos rfl]; rfl
    · show Dict.find (h.groups ++ _) _ = _
      rw [Dict.find_append, Dict.find_cons, if_neg (Ne.symm hne)]
      simp

theorem putAll_keys : ∀ (l : Dict (NDArray ℝ)) (g g' : Group) (u : Unit), storeAll false l g = .ok u g' →
    (∀ n ∈ g.dsets.map Prod.fst, n ∈ g'.dsets.map Prod.fst) ∧ ∀ n ∈ l.map Prod.fst, n ∈ g'.dsets.map Prod.fst
  | [], g, g', u, e => by cases e; exact ⟨fun _ h => h, by simp⟩
  | (k, v) :: l, g, g', u, e => by
    rw [storeAll] at e
    simp only [Bool.not_false, if_true] at e
    by_cases hk : k ∈ g.dsets.map Prod.fst
    · rw [ebind_error (w' := g) (e := .nameExists) (by rw [atomic, put_error hk])] at e; cases e
    · rw [ebind_ok (a := ()) (w' := { g with dsets := g.dsets ++ [(k, .arr v)] }) (by rw [atomic, put_ok hk])] at e
      obtain ⟨h1, h2⟩ := putAll_keys l _ _ _ e
      refine ⟨fun n hn => h1 n ?_, fun n hn => ?_⟩
      · simp only [List.map_append, List.mem_append]; exact .inl hn
      · rcases List.mem_cons.1 hn with rfl | hn
        · exact h1 _ (by simp)
        · exact h2 n hn

/-- Opening an experiment: what happens before the metadata are written. -/
theorem init_ok {ex : Name} {h : H5File} (hg : GroupsOnly h) (a : Option (Dict AttrVal)) (d : Dict (NDArray ℝ)) :
    ∃ h2 g, Experiment.init ex a (some d) h = inGroup metadataKey (putAll d) h2 ∧ h2.groups.find metadataKey = some g ∧
      GroupsOnly h2 ∧ (ex ≠ metadataKey → g = (h.groups.find metadataKey).getD Group.empty) := by
  obtain ⟨h1, g, e1, f1, -, s1⟩ := ensureGroup_ok hg ex
  have : ∃ h2, (match a with
      | some a => inGroup ex (setAttrs a)
      | none => inGroup ex (pure ())) h1 = .ok () h2 ∧ SameElsewhere ex h1 h2 := by
    cases a with
    | none => exact ⟨_, inGroup_ok f1 (f := pure ()) rfl, sameElsewhere_set (sameElsewhere_refl ex h1) _⟩
    | some a =>
      obtain ⟨g2, e2, -⟩ := setAttrs_ok a g
      exact ⟨_, inGroup_ok f1 e2, sameElsewhere_set (sameElsewhere_refl ex h1) _⟩
  obtain ⟨h2, e2, s2⟩ := this
  have g2 : GroupsOnly h2 := by
    unfold GroupsOnly; rw [s2.1, s1.1]; exact hg
  obtain ⟨h3, g', e3, f3, hg', s3⟩ := ensureGroup_ok g2 metadataKey
  refine ⟨h3, g', ?_, f3, by unfold GroupsOnly; rw [s3.1]; exact g2, fun hne => ?_⟩
  · rw [Experiment.init, ebind_ok e1]
    cases a with
    | none => exact (ebind_ok e2).trans (ebind_ok e3)
    | some a => exact (ebind_ok e2).trans (ebind_ok e3)
  · rw [hg', s2.2 _ (Ne.symm hne), s1.2 _ (Ne.symm hne)]

end Experiment

/-- **C86.** Opening an experiment without metadata always works: the group of the experiment exists, its datasets are as before (none,
if it is new), the attributes are set, and the rest of the file is as before. -/
theorem C86_open {ex : Name} {h : H5File} (hg : GroupsOnly h) {a : Dict AttrVal} (ha : (a.map Prod.fst).Nodup) :
    ∃ h' g', Experiment.init ex (some a) none h = .ok () h' ∧ h'.groups.find ex = some g' ∧
      g'.dsets = ((h.groups.find ex).getD Group.empty).dsets ∧ (∀ p ∈ a, g'.attrs.find p.1 = some p.2) ∧ SameElsewhere ex h h' := by
  obtain ⟨h1, g, e1, f1, rfl, s1⟩ := ensureGroup_ok hg ex
  obtain ⟨g2, e2, d2, -, a2⟩ := setAttrs_ok a ((h.groups.find ex).getD Group.empty)
  refine ⟨_, g2, ?_, Dict.find_set_self _ _ _, d2, a2 ha, sameElsewhere_set s1 g2⟩
  rw [Experiment.init, ebind_ok e1]
  exact ebind_ok (inGroup_ok f1 e2)

example : ∃ h', Experiment.init "e".toList (some [("n".toList, .int 1)]) none ⟨{}, [("other".toList, {})]⟩ = .ok () h' := by
  obtain ⟨h', g', e, -⟩ := C86_open (ex := "e".toList) (h := ⟨{}, [("other".toList, {})]⟩) rfl (a := [("n".toList, .int 1)]) (by simp)
  exact ⟨h', e⟩

/-- **C86**, disagreement: the metadata of all experiments of a file are kept in one group, and a name that is there already raises, with
whatever value. So a second experiment cannot be opened with the metadata of the first one, nor the same experiment again. -/
theorem C86_metadata_once {ex ex' : Name} {h h' : H5File} (hg : GroupsOnly h) (hne : ex' ≠ "metadata".toList)
    {a a' : Option (Dict AttrVal)} {d d' : Dict (NDArray ℝ)} (hd : ∃ n ∈ d.map Prod.fst, n ∈ d'.map Prod.fst)
    (h1 : Experiment.init ex a (some d) h = .ok () h') :
    ∃ h'', Experiment.init ex' a' (some d') h' = .error .nameExists h'' := by
  obtain ⟨h2, g, e, f2, g2, -⟩ := init_ok (ex := ex) hg a d
  rw [e] at h1
  cases e3 : putAll d g with
  | error x g3 => rw [inGroup_error f2 e3] at h1; cases h1
  | ok u g3 =>
    rw [inGroup_ok f2 e3] at h1
    cases h1
    rw [putAll_eq] at e3
    obtain ⟨h4, g4, e4, f4, -, hg4⟩ := init_ok (ex := ex') (h := { h2 with groups := h2.groups.set metadataKey g3 }) g2 a' d'
    have hg4 := hg4 hne
    rw [show Dict.find _ _ = _ from Dict.find_set_self h2.groups metadataKey g3] at hg4
    obtain rfl : g4 = g3 := hg4
    obtain ⟨n, hn, hn'⟩ := hd
    obtain ⟨g5, e5, -⟩ := storeAll_taken d' g4 ⟨n, hn', (putAll_keys _ _ _ _ e3).2 n hn⟩
    rw [← putAll_eq] at e5
    exact ⟨_, e4.trans (inGroup_error f4 e5)⟩

/-- **C86.** Opening an experiment with metadata under new names works: the metadata are datasets of the group `metadata`. -/
theorem C86_metadata {ex : Name} {h : H5File} (hg : GroupsOnly h) (hne : ex ≠ "metadata".toList) (a : Option (Dict AttrVal))
    {d : Dict (NDArray ℝ)} (hd : (d.map Prod.fst).Nodup)
    (hnew : ∀ n ∈ d.map Prod.fst, n ∉ ((h.groups.find "metadata".toList).getD Group.empty).dsets.map Prod.fst) :
    ∃ h' g', Experiment.init ex a (some d) h = .ok () h' ∧ h'.groups.find "metadata".toList = some g' ∧
      ∀ p ∈ d, g'.dsets.find p.1 = some (.arr p.2) := by
  obtain ⟨h2, g, e, f2, g2, hg'⟩ := init_ok (ex := ex) hg a d
  obtain rfl := hg' hne
  have e3 := storeAll_new d _ hd hnew
  rw [← putAll_eq] at e3
  refine ⟨_, _, e.trans (inGroup_ok f2 e3), Dict.find_set_self _ _ _, fun p hp => ?_⟩
  show Dict.find (_ ++ _) _ = _
  rw [Dict.find_append, Dict.find_eq_none_iff.2 (hnew p.1 (List.mem_map_of_mem hp)), Option.none_or]
  exact Dict.find_of_mem (d := d.map fun p => (p.1, DSet.arr p.2)) (by rw [List.map_map]; exact hd)
    (y := (p.1, DSet.arr p.2)) (List.mem_map.2 ⟨p, hp, rfl⟩)

/-- Two experiments of one file with different metadata. -/
example : ∃ h1 h2, Experiment.init "e".toList none (some [("m".toList, full [] 1)]) H5File.empty = .ok () h1 ∧
    Experiment.init "f".toList none (some [("k".toList, full [] 1)]) h1 = .ok () h2 := by
  refine ⟨⟨{}, [("e".toList, {}), ("metadata".toList, { dsets := [("m".toList, .arr (full [] 1))] })]⟩, ?_⟩
  obtain ⟨h2, g', e, -⟩ := C86_metadata (ex := "f".toList)
    (h := ⟨{}, [("e".toList, {}), ("metadata".toList, { dsets := [("m".toList, .arr (full [] 1))] })]⟩) rfl (by decide) none
    (d := [("k".toList, full [] 1)]) (by simp) (by
      intro n hn
      obtain rfl : n = "k".toList := by simpa using hn
      decide)
  exact ⟨h2, rfl, e⟩

/-- The same metadata twice (`C86_metadata_once`). -/
example : ∃ h1 h2, Experiment.init "e".toList none (some [("m".toList, full [] 1)]) H5File.empty = .ok () h1 ∧
    Experiment.init "f".toList none (some [("m".toList, full [] 1)]) h1 = .error .nameExists h2 := by
  obtain ⟨h1, g', e, -⟩ := C86_metadata (ex := "e".toList) (h := H5File.empty) rfl (by decide) none
    (d := [("m".toList, full [] 1)]) (by simp) (fun n _ => List.not_mem_nil)
  obtain ⟨h2, e2⟩ := C86_metadata_once (ex := "e".toList) (ex' := "f".toList) (h := H5File.empty) rfl (by decide) (a' := none)
    (d := [("m".toList, full [] 1)]) (d' := [("m".toList, full [] 1)]) ⟨"m".toList, by simp, by simp⟩ e
  exact ⟨h1, h2, e, e2⟩

/-! ### a whole life -/

/-- A new file, an experiment `e` with one output `x` and one metric `s`: opened, run with parameter `n = 1`, and run again with
parameter `n = 2` and another output. The second run raises, and the file holds the output of the first run together with the
parameter of the second. -/
theorem C86_example : ∃ h1 h2 h3 g, Experiment.init "e".toList (some []) (some [("m".toList, full [] 1)]) H5File.empty = .ok () h1 ∧
    Experiment.run "e".toList (fun g => .ok [("x".toList, full [] 1)] g) [("n".toList, .int 1)]
      (fun _ => .ok [("s".toList, full [] 10)]) false h1 = .ok () h2 ∧
    Experiment.run "e".toList (fun g => .ok [("x".toList, full [] 2)] g) [("n".toList, .int 2)]
      (fun _ => .ok [("s".toList, full [] 20)]) false h2 = .error .nameExists h3 ∧
    h3.groups.find "e".toList = some g ∧ g.dsets.find "x".toList = some (.arr (full [] 1)) ∧
    g.attrs.find "n".toList = some (.int 2) := by
  obtain ⟨h2', g', e', f', -, -⟩ := init_ok (ex := "e".toList) (h := H5File.empty) rfl (some []) [("m".toList, full [] 1)]
  refine ⟨⟨{}, [("e".toList, {}), ("metadata".toList, { dsets := [("m".toList, .arr (full [] 1))] })]⟩, ?_⟩
  obtain ⟨h2, g2, e2, f2, o2, -, -⟩ := C86_run_partial (ex := "e".toList) (h := ⟨{}, [("e".toList, {}),
    ("metadata".toList, { dsets := [("m".toList, .arr (full [] 1))] })]⟩) (g := {}) (g1 := {}) (experiment := fun g => .ok
    [("x".toList, full [] 1)] g) (outputs := [("x".toList, full [] 1)]) (metrics := [("s".toList, full [] 10)])
    (finalEval := fun _ => .ok [("s".toList, full [] 10)]) (params := [("n".toList, .int 1)]) rfl rfl rfl (by decide) (by simp) (by simp)
  have hx := o2 ("x".toList, full [] 1) (by simp)
  obtain ⟨h3, g3, e3, f3, d3, a3, -⟩ := C86_rerun_mixes (ex := "e".toList) (h := h2) (g := g2) (g1 := g2) (experiment := fun g => .ok
    [("x".toList, full [] 2)] g) (outputs := [("x".toList, full [] 2)])
    (fun _ => .ok [("s".toList, full [] 20)]) (params := [("n".toList, .int 2)]) f2 rfl ⟨"x".toList, by simp, by
      by_contra hc
      rw [Dict.find_eq_none_iff.2 hc] at hx
      cases hx⟩ (by simp)
  refine ⟨h2, h3, g3, rfl, e2, e3, f3, ?_, a3 ("n".toList, .int 2) (by simp) (by decide)⟩
  rw [d3 _ (by
    by_contra hc
    rw [Dict.find_eq_none_iff.2 hc] at hx
    cases hx)]
  exact hx

end
end TK
