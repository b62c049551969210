import Verif.Model.Evolving
import Verif.Lemmas.Solvers

/-! # Lemmas about evolving tensors -/

namespace TK
open NDArray

noncomputable section

theorem getD_eq_getElem' {β : Type} {l : List β} {k : ℕ} (d : β) (h : k < l.length) : l.getD k d = l[k] := by
  simp [List.getD, h]

/-- Entry `(i, j)` of slice `k`: `Σ_r A[i, r] C[k, r] B_k[j, r]`. -/
def sliceEntry (A Bk C : NDArray ℝ) (R k i j : ℕ) : ℝ :=
  ∑ r ∈ Finset.range R, A.get [i, r] * C.get [k, r] * Bk.get [j, r]

theorem takeRow_ok {C : NDArray ℝ} {K R k : ℕ} (hC : C.shape = [K, R]) (hk : k < K) :
    takeRow C k = .ok (ofFn [R] fun idx => C.get [k, idx.getD 0 0]) := by
  rw [takeRow, dims2_ok hC, bind_ok]
  simp only [if_pos hk]; rfl

theorem takeRow_error {C : NDArray ℝ} {K R k : ℕ} (hC : C.shape = [K, R]) (hk : ¬ k < K) :
    takeRow C k = .error .indexError := by
  rw [takeRow, dims2_ok hC, bind_ok]
  simp only [if_neg hk]

theorem evolvingSlice_ok {A Bk C : NDArray ℝ} {I J K R k : ℕ} (hA : A.shape = [I, R]) (hB : Bk.shape = [J, R])
    (hC : C.shape = [K, R]) (hk : k < K) :
    evolvingSlice A Bk C k = .ok (ofMat I J (sliceEntry A Bk C R k)) := by
  rw [evolvingSlice, takeRow_ok hC hk, bind_ok, zipB_vec_mat _ (shape_ofFn _ _) hB, bind_ok,
    matmul_ok hA (shape_T (shape_ofMat _ _ _))]
  congr 1
  apply ofMat_congr
  intro i hi j hj
  apply Finset.sum_congr rfl
  intro r hr
  have hr := Finset.mem_range.1 hr
  rw [get_T (shape_ofMat _ _ _) hr hj, get_ofMat hj hr, get_ofFn (by simpa using hr)]
  simp [mul_assoc]

theorem evolvingSlicesFrom_ok {A C : NDArray ℝ} {I K R : ℕ} (hA : A.shape = [I, R]) (hC : C.shape = [K, R]) :
    ∀ {Bs : List (NDArray ℝ)} {Js : List ℕ} {k : ℕ}, Factors Bs Js R → k + Js.length ≤ K →
    ∃ Ss, evolvingSlicesFrom A C k Bs = .ok Ss ∧ Ss.length = Js.length ∧
      ∀ l (hl : l < Js.length) (hl' : l < Bs.length),
        Ss[l]? = some (ofMat I Js[l] (sliceEntry A Bs[l] C R (k + l))) := by
  intro Bs
  induction Bs with
  | nil => intro Js k h _; cases h; exact ⟨[], rfl, rfl, fun l hl => by simp at hl⟩
  | cons B Bs ih =>
    intro Js k h hk
    cases h with
    | cons h1 h =>
    rename_i J Js
    simp only [List.length_cons] at hk
    obtain ⟨Ss, e, hl, hs⟩ := ih (k := k + 1) h (by omega)
    refine ⟨ofMat I J (sliceEntry A B C R k) :: Ss, ?_, by simpa using hl, ?_⟩
    · rw [evolvingSlicesFrom, evolvingSlice_ok hA h1 hC (by omega), bind_ok, e, bind_ok]; rfl
    · intro l hl hl'
      cases l with
      | zero => simp
      | succ l =>
        have := hs l (by simpa using hl) (by simpa using hl')
        simp only [List.getElem?_cons_succ, List.getElem_cons_succ]
        rw [this, show k + 1 + l = k + (l + 1) by ring]

theorem writeSlice_ok {T S : NDArray ℝ} {I J K j k : ℕ} (hT : T.shape = [I, J, K]) (hS : S.shape = [I, j])
    (hj : j ≤ J) (hk : k < K) :
    writeSlice T S k = .ok (ofFn [I, J, K] fun idx =>
      if idx.getD 2 0 = k ∧ idx.getD 1 0 < j then S.get [idx.getD 0 0, idx.getD 1 0] else T.get idx) := by
  rw [writeSlice, hT, hS]
  simp [hk, hj]; rfl

theorem constructLoop_ok {A C : NDArray ℝ} {I K R J : ℕ} (hA : A.shape = [I, R]) (hC : C.shape = [K, R]) :
    ∀ {Bs : List (NDArray ℝ)} {Js : List ℕ} {k : ℕ} {T : NDArray ℝ}, Factors Bs Js R → k + Js.length ≤ K →
    (∀ j ∈ Js, j ≤ J) → T.shape = [I, J, K] →
    ∃ T', constructLoop A C k Bs T = .ok T' ∧ T'.shape = [I, J, K] ∧
      (∀ l (hl : l < Js.length) (hl' : l < Bs.length), ∀ i < I, ∀ j < J,
        T'.get [i, j, k + l] = if j < Js[l] then sliceEntry A Bs[l] C R (k + l) i j else T.get [i, j, k + l]) ∧
      ∀ l < K, l < k ∨ k + Js.length ≤ l → ∀ i < I, ∀ j < J, T'.get [i, j, l] = T.get [i, j, l] := by
  intro Bs
  induction Bs with
  | nil =>
    intro Js k T h _ _ hT
    cases h
    exact ⟨T, rfl, hT, fun l hl => by simp at hl, fun _ _ _ _ _ _ _ => rfl⟩
  | cons B Bs ih =>
    intro Js k T h hk hJ hT
    cases h with
    | cons h1 h =>
    rename_i J0 Js
    simp only [List.length_cons] at hk
    have hJ0 : J0 ≤ J := hJ _ (by simp)
    have hw := writeSlice_ok hT (shape_ofMat I J0 (sliceEntry A B C R k)) hJ0 (show k < K by omega)
    obtain ⟨T', e, hs, h1', h2'⟩ := ih (k := k + 1) h (by omega) (fun j hj => hJ j (by simp [hj]))
      (shape_ofFn _ _)
    refine ⟨T', ?_, hs, ?_, ?_⟩
    · rw [constructLoop, evolvingSlice_ok hA h1 hC (by omega), bind_ok, hw, bind_ok, e]
    · intro l hl hl' i hi j hj
      cases l with
      | zero =>
        rw [Nat.add_zero, h2' k (by omega) (Or.inl (by omega)) i hi j hj,
          get_ofFn (by simp [hi, hj]; omega)]
        simp only [List.getElem_cons_zero, List.getD_cons_succ, List.getD_cons_zero, true_and]
        split
        · rename_i hlt; rw [get_ofMat hi hlt]
        · rfl
      | succ l =>
        have := h1' l (by simpa using hl) (by simpa using hl') i hi j hj
        simp only [List.getElem_cons_succ]
        rw [show k + (l + 1) = k + 1 + l by ring, this]
        split
        · rfl
        · have hlt : l + 1 < Js.length + 1 := by simpa using hl
          rw [get_ofFn (by simp [hi, hj]; omega)]
          simp only [List.getD_cons_succ, List.getD_cons_zero]
          rw [if_neg (by omega)]
    · intro l hlK hl i hi j hj
      rw [h2' l hlK (by simp only [List.length_cons] at hl; omega) i hi j hj, get_ofFn (by simp [hi, hj, hlK])]
      simp only [List.getD_cons_succ, List.getD_cons_zero]
      rw [if_neg (by simp only [List.length_cons] at hl; omega)]

theorem checkAllSameSize_ok {Bs : List (NDArray ℝ)} {Js : List ℕ} {R : ℕ} (h : Factors Bs Js R) (hne : Js ≠ []) :
    checkAllSameSize Bs = .ok (Js.all fun j => j == Js.head hne) := by
  have hm := mapM_rows h
  cases h with
  | nil => exact absurd rfl hne
  | cons h1 h =>
    rename_i B J Bs Js
    have hp : pyGet (B :: Bs) 0 = .ok B := rfl
    rw [checkAllSameSize, hp, bind_ok, rows_ok h1, bind_ok, hm, bind_ok]; rfl

theorem sliceShapesOf_ok {A : NDArray ℝ} {I R R' : ℕ} (hA : A.shape = [I, R']) {Bs : List (NDArray ℝ)} {Js : List ℕ}
    (h : Factors Bs Js R) : sliceShapesOf A Bs = .ok (Js.map fun j => (I, j)) := by
  rw [sliceShapesOf, mapM_ok_iff, List.forall₂_map_right_iff]
  refine List.Forall₂.imp ?_ h
  intro B J hB
  rw [rows_ok hA, bind_ok, rows_ok hB, bind_ok]; rfl

theorem evolving_init_ok {A C : NDArray ℝ} {I R R' : ℕ} (hA : A.shape = [I, R']) {Bs : List (NDArray ℝ)} {Js : List ℕ}
    (h : Factors Bs Js R) (hne : Js ≠ []) (w : Bool) :
    EvolvingTensor.init A Bs C w = .ok ⟨R', A, Bs, C, w, Js.all fun j => j == Js.head hne,
      Js.map fun j => (I, j), Js.sum⟩ := by
  rw [EvolvingTensor.init, cols_ok hA, bind_ok, checkAllSameSize_ok h hne, bind_ok, sliceShapesOf_ok hA h, bind_ok]
  simp only [List.map_map]
  have : (Prod.snd ∘ fun j : ℕ => (I, j)) = id := rfl
  rw [this, List.map_id]; rfl

theorem le_foldr_max : ∀ {Js : List ℕ} {j : ℕ}, j ∈ Js → j ≤ Js.foldr max 0
  | _ :: Js, j, h => by
    rcases List.mem_cons.1 h with rfl | h
    · simp
    · have := le_foldr_max h; simp [this]

theorem foldr_max_mem : ∀ {Js : List ℕ}, Js ≠ [] → Js.foldr max 0 ∈ Js
  | [j], _ => by simp
  | j :: j' :: Js, _ => by
    have := foldr_max_mem (Js := j' :: Js) (by simp)
    rw [List.foldr_cons]
    rcases le_total j ((j' :: Js).foldr max 0) with h | h
    · rw [max_eq_right h]; exact List.mem_cons_of_mem _ this
    · rw [max_eq_left h]; simp

theorem Bs_ok {b : NDArray ℝ} {r R : ℕ} (hb : b.shape = [r, R]) {P : List (NDArray ℝ)} {Js : List ℕ}
    (hP : Factors P Js r) : ∃ B, Parafac2Tensor.Bs b P = .ok B ∧ Factors B Js R ∧
      List.Forall₂ (fun Pk Bk => matmul Pk b = .ok Bk) P B := by
  unfold Parafac2Tensor.Bs
  unfold Factors at *
  induction hP with
  | nil => exact ⟨[], rfl, .nil, .nil⟩
  | cons h1 h2 ih =>
    obtain ⟨B, e, hB, hB'⟩ := ih
    have := matmul_ok h1 hb
    exact ⟨_ :: B, by rw [List.mapM_cons, this, bind_ok, e, bind_ok]; rfl, .cons rfl hB, .cons this hB'⟩

end
end TK
