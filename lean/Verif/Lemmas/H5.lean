import Verif.Model.Serialize
import Verif.Lemmas.Names
import Verif.Lemmas.Kruskal

/-! # Lemmas about the HDF5 model -/

namespace TK
open NDArray

noncomputable section

namespace Dict
variable {β : Type}

@[simp] theorem find_nil (k : Name) : find ([] : Dict β) k = none := rfl

theorem find_cons (p : Name × β) (d : Dict β) (k : Name) :
    find (p :: d) k = if p.1 = k then some p.2 else find d k := by
  unfold find
  rw [List.find?_cons]
  by_cases h : p.1 = k
  · simp [h]
  · have : (p.1 == k) = false := by simpa using h
    simp [this, h]

theorem find_append (d d' : Dict β) (k : Name) : find (d ++ d') k = (find d k).or (find d' k) := by
  induction d with
  | nil => simp
  | cons p d ih =>
    rw [List.cons_append, find_cons, find_cons, ih]
    split <;> simp

theorem has_iff {d : Dict β} {k : Name} : d.has k = true ↔ k ∈ d.map Prod.fst := by
  simp [has, List.any_eq_true]

theorem has_false_iff {d : Dict β} {k : Name} : d.has k = false ↔ k ∉ d.map Prod.fst := by
  rw [← has_iff]; simp

theorem find_eq_none_iff {d : Dict β} {k : Name} : d.find k = none ↔ k ∉ d.map Prod.fst := by
  induction d with
  | nil => simp
  | cons p d ih =>
    rw [find_cons]
    by_cases h : p.1 = k
    · simp [h]
    · rw [if_neg h, ih]; simp [Ne.symm h]

theorem has_eq_isSome (d : Dict β) (k : Name) : d.has k = (d.find k).isSome := by
  cases h : d.find k with
  | none => simpa [has_false_iff] using find_eq_none_iff.1 h
  | some v =>
    simp only [Option.isSome_some]
    rw [has_iff]
    by_contra hc
    rw [find_eq_none_iff.2 hc] at h; cases h

theorem find_set_self (d : Dict β) (k : Name) (v : β) : (d.set k v).find k = some v := by
  unfold set
  split
  · rename_i h
    rw [has_iff] at h
    induction d with
    | nil => simp at h
    | cons p d ih =>
      rw [List.map_cons, find_cons]
      by_cases hp : p.1 = k
      · simp [hp]
      · simp only [hp, if_false]
        exact ih (by simpa [Ne.symm hp] using h)
  · rename_i h
    have : d.find k = none := find_eq_none_iff.2 (by rw [← has_iff]; exact h)
    rw [find_append, this]; simp [find_cons]

theorem find_set_ne (d : Dict β) {k k' : Name} (v : β) (hne : k ≠ k') :
    (d.set k v).find k' = d.find k' := by
  unfold set
  split
  · clear * - hne
    induction d with
    | nil => rfl
    | cons p d ih =>
      rw [List.map_cons, find_cons, find_cons, ih]
      by_cases hp : p.1 = k
      · rw [if_pos hp]; simp only
        rw [if_neg hne, hp, if_neg hne]
      · rw [if_neg hp]
  · rw [find_append, find_cons]; simp [hne]

theorem mem_of_find {d : Dict β} {k : Name} {v : β} (h : d.find k = some v) : (k, v) ∈ d := by
  induction d with
  | nil => simp at h
  | cons p d ih =>
    rw [find_cons] at h
    split at h
    · rename_i hk
      cases h
      rw [← hk]; simp
    · exact List.mem_cons_of_mem _ (ih h)

theorem find_of_mem {d : Dict β} (hn : (d.map Prod.fst).Nodup) {y : Name × β} (h : y ∈ d) :
    d.find y.1 = some y.2 := by
  induction d with
  | nil => simp at h
  | cons p d ih =>
    rw [List.map_cons, List.nodup_cons] at hn
    rw [find_cons]
    rcases List.mem_cons.1 h with rfl | h
    · simp
    · rw [if_neg, ih hn.2 h]
      intro he
      exact hn.1 (List.mem_map.2 ⟨y, h, he.symm⟩)

theorem create_ok {d : Dict β} {k : Name} {v : β} (h : d.find k = none) :
    d.create k v = .ok (d ++ [(k, v)]) := by
  have := has_eq_isSome d k
  rw [h] at this
  simp [create, this]

theorem create_error {d : Dict β} {k : Name} {v : β} (h : d.has k = true) :
    d.create k v = .error .nameExists := by simp [create, h]

theorem item_ok {d : Dict β} {k : Name} {v : β} (h : d.find k = some v) : d.item k = .ok v := by
  simp [item, h]

end Dict

theorem Group.put_ok {g : Group} {k : Name} {A : NDArray ℝ} (h : g.dsets.find k = none) :
    g.put k A = .ok { g with dsets := g.dsets ++ [(k, .arr A)] } := by
  rw [Group.put, Dict.create_ok h, bind_ok]; rfl

theorem Group.arr_ok {g : Group} {k : Name} {A : NDArray ℝ} (h : g.dsets.find k = some (.arr A)) :
    g.arr k = .ok A := by
  rw [Group.arr, Dict.item_ok h, bind_ok]; rfl

theorem Group.intAttr_ok {g : Group} {k : Name} {n : Int} (h : g.attrs.find k = some (.int n)) :
    g.intAttr k = .ok n := by
  rw [Group.intAttr, Dict.item_ok h, bind_ok]; rfl

theorem Group.boolAttr_ok {g : Group} {k : Name} {b : Bool} (h : g.attrs.find k = some (.bool b)) :
    g.boolAttr k = .ok b := by
  rw [Group.boolAttr, Dict.item_ok h, bind_ok]; rfl

/-! ### Numbered datasets -/

/-- The datasets written for a list of matrices. -/
def numbered (pre : Name) : ℕ → List (NDArray ℝ) → Dict DSet
  | _, [] => []
  | i, A :: As => (pre ++ fmtNat 3 i, .arr A) :: numbered pre (i + 1) As

theorem numbered_name_inj {pre : Name} {i j : ℕ} : pre ++ fmtNat 3 i = pre ++ fmtNat 3 j ↔ i = j := by
  rw [List.append_cancel_left_eq]
  exact (fmtNat_injective 3).eq_iff

theorem find_numbered_none {pre k : Name} : ∀ {As : List (NDArray ℝ)} {i : ℕ},
    (∀ j, i ≤ j → k ≠ pre ++ fmtNat 3 j) → (numbered pre i As).find k = none
  | [], _, _ => rfl
  | A :: As, i, h => by
    rw [numbered, Dict.find_cons, if_neg (h i le_rfl).symm]
    exact find_numbered_none fun j hj => h j (by omega)

theorem find_numbered {pre : Name} : ∀ {As : List (NDArray ℝ)} {i j : ℕ} (h : j < As.length),
    (numbered pre i As).find (pre ++ fmtNat 3 (i + j)) = some (.arr As[j])
  | A :: As, i, 0, _ => by simp [numbered, Dict.find_cons]
  | A :: As, i, j + 1, h => by
    rw [numbered, Dict.find_cons, if_neg (by simp only [numbered_name_inj]; omega)]
    have := find_numbered (pre := pre) (As := As) (i := i + 1) (j := j) (by simpa using h)
    rw [show i + (j + 1) = i + 1 + j by ring]
    simpa using this

theorem putNumbered_ok {pre : Name} : ∀ {As : List (NDArray ℝ)} {i : ℕ} {g : Group},
    (∀ j, i ≤ j → g.dsets.find (pre ++ fmtNat 3 j) = none) →
    putNumbered pre i As g = .ok { g with dsets := g.dsets ++ numbered pre i As }
  | [], _, g, _ => by simp [putNumbered, numbered]
  | A :: As, i, g, h => by
    rw [putNumbered, Group.put_ok (h i le_rfl), bind_ok, putNumbered_ok]
    · simp [numbered]
    · intro j hj
      simp only [Dict.find_append, h j (by omega), Dict.find_cons]
      rw [if_neg (by rw [numbered_name_inj]; omega)]; rfl

theorem mapM_range_ok {β : Type} {f : ℕ → Py β} {l : List β} (h : ∀ i (hi : i < l.length), f i = .ok l[i]) :
    (List.range l.length).mapM f = .ok l := by
  rw [mapM_ok_iff, List.forall₂_iff_get]
  refine ⟨by simp, ?_⟩
  intro i h1 h2
  simpa using h i h2

theorem getNumbered_ok {pre : Name} {As : List (NDArray ℝ)} {g : Group} {d d' : Dict DSet}
    (hd : g.dsets = d ++ numbered pre 0 As ++ d') (h : ∀ j, d.find (pre ++ fmtNat 3 j) = none) :
    getNumbered pre (As.length : ℕ) g = .ok As := by
  rw [getNumbered, Int.toNat_natCast]
  apply mapM_range_ok
  intro i hi
  apply Group.arr_ok
  rw [hd, Dict.find_append, Dict.find_append, h i]
  have := find_numbered (pre := pre) (i := 0) hi
  rw [Nat.zero_add] at this
  rw [this]; rfl

end
end TK
