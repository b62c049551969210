import Verif.Lemmas.Base

/-! # `flatten_factors` and `unflatten_factors` -/

namespace TK
open NDArray
variable {α : Type}

/-- The C-order entries of a list of arrays, one after the other. -/
def concatData (fs : List (NDArray α)) : List α := (fs.map fun f => f.data).flatten

@[simp] theorem concatData_nil : concatData ([] : List (NDArray α)) = [] := rfl
@[simp] theorem concatData_cons (f : NDArray α) (fs : List (NDArray α)) :
    concatData (f :: fs) = f.data ++ concatData fs := rfl

theorem length_concatData : ∀ fs : List (NDArray α),
    (concatData fs).length = (fs.map fun f => f.shape.prod).sum
  | [] => rfl
  | f :: fs => by simp [length_concatData fs, f.wf]

theorem getD_append {l m : List α} {p : ℕ} (d : α) :
    (l ++ m).getD p d = if p < l.length then l.getD p d else m.getD (p - l.length) d := by
  split
  · rename_i h; simp [List.getD, List.getElem?_append_left h]
  · rename_i h; simp [List.getD, List.getElem?_append_right (not_lt.1 h)]

variable [Zero α]

@[simp] theorem shape_flattenLoop : ∀ (fs : List (NDArray α)) (off : ℕ) (v : NDArray α),
    (flattenLoop off v fs).shape = v.shape
  | [], _, _ => rfl
  | f :: fs, off, v => by simp [flattenLoop, shape_flattenLoop fs, setSlice1]

theorem flat_flattenLoop : ∀ (fs : List (NDArray α)) (off : ℕ) (v : NDArray α) {p : ℕ},
    p < v.shape.prod → (flattenLoop off v fs).flat p
      = if off ≤ p ∧ p < off + (concatData fs).length then (concatData fs).getD (p - off) 0
        else v.flat p
  | [], off, v, p, _ => by
    simp [flattenLoop]
  | f :: fs, off, v, p, hp => by
    have hs : (setSlice1 v off f).shape = v.shape := rfl
    rw [flattenLoop, flat_flattenLoop fs _ _ (by rw [hs]; exact hp), setSlice1, flat_ofFlat hp]
    have hl : (concatData (f :: fs)).length = f.shape.prod + (concatData fs).length := by
      simp [f.wf]
    rw [hl]
    by_cases h1 : off + f.shape.prod ≤ p ∧ p < off + f.shape.prod + (concatData fs).length
    · have h2 : off ≤ p ∧ p < off + (f.shape.prod + (concatData fs).length) := by omega
      rw [if_pos h1, if_pos h2, concatData_cons, getD_append, f.wf, if_neg (by omega)]
      congr 1; omega
    · rw [if_neg h1]
      by_cases h2 : off ≤ p ∧ p < off + f.shape.prod
      · have h3 : off ≤ p ∧ p < off + (f.shape.prod + (concatData fs).length) := by omega
        rw [if_pos h2, if_pos h3, concatData_cons, getD_append, f.wf, if_pos (by omega)]; rfl
      · have h3 : ¬ (off ≤ p ∧ p < off + (f.shape.prod + (concatData fs).length)) := by omega
        rw [if_neg h2, if_neg h3]

omit [Zero α] in
theorem Factors.shape_ne_nil {fs : List (NDArray α)} {sizes : List ℕ} {R : ℕ} (h : Factors fs sizes R) :
    ∀ f ∈ fs, f.shape ≠ [] := by
  induction h with
  | nil => simp
  | cons h _ ih =>
    intro f hf
    rcases List.mem_cons.1 hf with rfl | hf
    · simp [h]
    · exact ih f hf

/-- `flatten_factors` is concatenation, whatever the initial memory. -/
theorem flattenFactors_eq (mem : ℕ → α) (fs : List (NDArray α)) (hn : fs ≠ []) (hs : ∀ f ∈ fs, f.shape ≠ []) :
    flattenFactors mem fs = .ok ⟨[(concatData fs).length], concatData fs, by simp⟩ := by
  have h0 : ¬ (fs = [] ∨ ∃ f ∈ fs, f.shape = []) := by
    rintro (h | ⟨f, hf, h⟩)
    · exact hn h
    · exact hs f hf h
  rw [flattenFactors, if_neg h0]
  refine congrArg Except.ok (ext_flat (by simp [length_concatData]) ?_)
  intro p hp
  have hp' : p < (concatData fs).length := by
    simpa [length_concatData] using hp
  rw [flat_flattenLoop _ _ _ (by simpa [length_concatData] using hp')]
  rw [if_pos (by omega)]; rfl

theorem unflattenLoop_cons {v : NDArray α} {R off s : ℕ} {sizes : List ℕ}
    (h : off + s * R ≤ v.shape.prod) :
    unflattenLoop v R off (s :: sizes) = (do
      let rest ← unflattenLoop v R (off + s * R) sizes
      pure ((ofFlat [s, R] fun p => v.flat (off + p)) :: rest)) := by
  rw [unflattenLoop]
  have hmin : min (off + s * R) v.shape.prod - min off v.shape.prod = s * R := by omega
  have : slice1 v off (off + s * R) = ofFlat [s * R] fun p => v.flat (off + p) := by
    rw [slice1, hmin]
  simp only [this]
  rw [reshape_ok' (by simp), bind_ok]
  have h2 : (ofFlat [s, R] (ofFlat [s * R] fun p => v.flat (off + p)).flat)
      = ofFlat [s, R] fun p => v.flat (off + p) := by
    refine ext_flat rfl ?_
    intro p hp
    rw [shape_ofFlat] at hp
    rw [flat_ofFlat hp, flat_ofFlat hp, flat_ofFlat (by simpa using hp)]
  rw [h2]

theorem unflattenLoop_of_concat {R : ℕ} {v : NDArray α} : ∀ {fs : List (NDArray α)} {sizes : List ℕ}
    (off : ℕ), Factors fs sizes R → off + (concatData fs).length ≤ v.shape.prod →
    (∀ p < (concatData fs).length, v.flat (off + p) = (concatData fs).getD p 0) →
    unflattenLoop v R off sizes = .ok fs
  | [], _, off, h, _, _ => by cases h; rfl
  | f :: fs, _, off, h, hl, hv => by
    cases h with
    | cons h1 h2 =>
    rename_i s sizes
    have hlen : (concatData (f :: fs)).length = s * R + (concatData fs).length := by
      simp [f.wf, h1]
    have hf : f.shape.prod = s * R := by simp [h1]
    rw [unflattenLoop_cons (by omega),
      unflattenLoop_of_concat (fs := fs) (off + s * R) h2 (by omega), bind_ok]
    · refine congrArg Except.ok ?_
      congr 1
      refine ext_flat h1.symm ?_
      intro p hp
      rw [shape_ofFlat] at hp
      have hp' : p < s * R := by simpa using hp
      rw [flat_ofFlat hp, hv p (by omega), concatData_cons, getD_append, f.wf, if_pos (by omega)]
      rfl
    · intro p hp
      rw [Nat.add_assoc, hv _ (by omega), concatData_cons, getD_append, f.wf, if_neg (by omega), hf]
      congr 1; omega

theorem concat_of_unflattenLoop {R : ℕ} {v : NDArray α} : ∀ {sizes : List ℕ} {fs : List (NDArray α)}
    (off : ℕ), off + (sizes.map (· * R)).sum ≤ v.shape.prod → unflattenLoop v R off sizes = .ok fs →
    Factors fs sizes R ∧ (concatData fs).length = (sizes.map (· * R)).sum ∧
    (∀ p < (concatData fs).length, v.flat (off + p) = (concatData fs).getD p 0)
  | [], fs, off, _, h => by cases h; exact ⟨.nil, by simp, by simp⟩
  | s :: sizes, fs, off, hl, h => by
    simp only [List.map_cons, List.sum_cons] at hl
    rw [unflattenLoop_cons (by omega)] at h
    cases hrest : unflattenLoop v R (off + s * R) sizes with
    | error e => rw [hrest] at h; cases h
    | ok rest =>
      rw [hrest, bind_ok] at h
      cases h
      obtain ⟨h1, h2, h3⟩ := concat_of_unflattenLoop (off + s * R) (by omega) hrest
      have hd : (ofFlat [s, R] fun p => v.flat (off + p)).data.length = s * R := by simp [ofFlat]
      refine ⟨.cons rfl h1, by simp [h2, hd], ?_⟩
      intro p hp
      rw [concatData_cons, getD_append, hd]
      rw [concatData_cons, List.length_append, hd] at hp
      split
      · rename_i hp'
        exact (flat_ofFlat (s := [s, R]) (f := fun p => v.flat (off + p)) (by simpa using hp')).symm
      · rename_i hp'
        rw [← h3 _ (by omega)]
        congr 1; omega

theorem unflattenLoop_isOk {R : ℕ} {v : NDArray α} : ∀ {sizes : List ℕ}
    (off : ℕ), off + (sizes.map (· * R)).sum ≤ v.shape.prod →
    ∃ fs, unflattenLoop v R off sizes = .ok fs
  | [], _, _ => ⟨[], rfl⟩
  | s :: sizes, off, hl => by
    simp only [List.map_cons, List.sum_cons] at hl
    obtain ⟨rest, hrest⟩ := unflattenLoop_isOk (R := R) (v := v) (sizes := sizes) (off + s * R) (by omega)
    rw [unflattenLoop_cons (by omega), hrest, bind_ok]
    exact ⟨_, rfl⟩

end TK
