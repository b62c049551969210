import Verif.Lemmas.Solvers
import Verif.LinAlg.Exists

/-!
# Properties C11 - C14: the right-solvers of `base.py`
-/

namespace TK
open NDArray Matrix

noncomputable section

/-! ### C11 -/

/-- C11: `rightsolve` minimises `‖X A - B‖`, has the least norm among the minimisers, and solves
`X A = B` exactly whenever that is possible. -/
theorem C11_rightsolve {E : Ext} (hE : E.SVDOk) {A B : NDArray ℝ} {m n p : ℕ} (hA : A.shape = [m, n])
    (hB : B.shape = [p, n]) :
    ∃ X, rightsolve E A B = .ok X ∧ X.shape = [p, m] ∧
      (∀ Y : NDArray ℝ, resid X A B p m n ≤ resid Y A B p m n) ∧
      (∀ Y : NDArray ℝ, Y.shape = [p, m] → resid Y A B p m n ≤ resid X A B p m n →
        normSq X p m ≤ normSq Y p m ∧ (normSq Y p m ≤ normSq X p m → Y = X)) ∧
      (∀ Y : NDArray ℝ, resid Y A B p m n = 0 → matmul X A = .ok B) := by
  obtain ⟨X, e, s, hX⟩ := rightsolve_mat hE hA hB
  have hsvd := (hE A m n hA).svd
  have hmin : ∀ Y : NDArray ℝ, resid X A B p m n ≤ resid Y A B p m n := by
    intro Y
    rw [resid_eq, resid_eq, hX]
    exact LA.ls_optimal (LA.pinv_normal hsvd _)
  refine ⟨X, e, s, hmin, ?_, ?_⟩
  · intro Y hYs hY
    rw [resid_eq, resid_eq, hX] at hY
    have h1 := LA.pinv_min_norm hsvd _ hY
    have h2 := LA.fsq_nonneg (mat Y p m - mat B p n *
      LA.pinv (mat (E.svd A).1 m (min m n)) (vec (E.svd A).2.1 (min m n)) (mat (E.svd A).2.2 (min m n) n))
    rw [normSq_eq, normSq_eq, hX]
    refine ⟨by linarith, fun h => ?_⟩
    have h3 := LA.fsq_eq_zero_iff.1 (le_antisymm (by linarith) h2)
    apply mat_inj hYs s
    rw [hX]; exact sub_eq_zero.1 h3
  · intro Y hY
    have h0 := hmin Y
    rw [hY, resid_eq] at h0
    have h1 := LA.fsq_eq_zero_iff.1 (le_antisymm h0 (LA.fsq_nonneg _))
    obtain ⟨C, e1, s1, m1⟩ := matmul_mat s hA
    rw [e1]
    refine congrArg Except.ok (mat_inj s1 hB ?_)
    rw [m1]; exact sub_eq_zero.1 h1

/-! ### C13 -/

theorem nonneg_core {E : Ext} (hE : E.NNLSOk) {A B : NDArray ℝ} {m n p : ℕ} (hA : A.shape = [m, n])
    (hB : B.shape = [p, n]) :
    ∃ X, nonNegativeRightsolve E A B = .ok X ∧ X.shape = [p, m] ∧ NonNeg X p m ∧
      ∀ Y : NDArray ℝ, NonNeg Y p m → resid X A B p m n ≤ resid Y A B p m n := by
  have hrow : ∀ i, (rowVec B i).shape = [n] := fun i => by simp [rowVec, hB]
  have hget : ∀ i j, j < n → (rowVec B i).get [j] = B.get [i, j] := by
    intro i j hj
    rw [rowVec, get_ofFn (by simp [hB, hj])]; rfl
  refine ⟨ofMat p m fun i j => (E.nnls A.T (rowVec B i)).get [j], ?_, rfl, ?_, ?_⟩
  · simp [nonNegativeRightsolve, hB, dims2_ok hB, dims2_ok hA, bind_ok, pure, Except.pure]
  · intro i hi j hj
    rw [get_ofMat hi hj]
    exact (hE A.T (rowVec B i) n m (shape_T hA) (hrow i)).nonneg j hj
  · intro Y hY
    unfold resid
    apply Finset.sum_le_sum
    intro i hi
    have hi := Finset.mem_range.1 hi
    have h := (hE A.T (rowVec B i) n m (shape_T hA) (hrow i)).optimal (fun l => Y.get [i, l]) (hY i hi)
    have key : ∀ z : ℕ → ℝ, ∑ j ∈ Finset.range n,
          ((∑ l ∈ Finset.range m, A.T.get [j, l] * z l) - (rowVec B i).get [j]) ^ 2
        = ∑ j ∈ Finset.range n, ((∑ l ∈ Finset.range m, z l * A.get [l, j]) - B.get [i, j]) ^ 2 := by
      intro z
      apply Finset.sum_congr rfl
      intro j hj
      have hj := Finset.mem_range.1 hj
      rw [hget i j hj]
      congr 2
      apply Finset.sum_congr rfl
      intro l hl
      rw [get_T hA hj (Finset.mem_range.1 hl), mul_comm]
    rw [key, key] at h
    refine le_trans (le_of_eq ?_) h
    apply Finset.sum_congr rfl
    intro j hj
    congr 2
    apply Finset.sum_congr rfl
    intro l hl
    rw [get_ofMat hi (Finset.mem_range.1 hl)]

/-- C13 (part): for two-dimensional `B`, `non_negative_rightsolve` is feasible and optimal. Missing: the
statement for one-dimensional `B`, which is false, see `C13_one_dimensional_fails`. -/
theorem C13_nonneg_partial {E : Ext} (hE : E.NNLSOk) {A B : NDArray ℝ} {m n p : ℕ} (hA : A.shape = [m, n])
    (hB : B.shape = [p, n]) :
    ∃ X, nonNegativeRightsolve E A B = .ok X ∧ X.shape = [p, m] ∧ NonNeg X p m ∧
      ∀ Y : NDArray ℝ, NonNeg Y p m → resid X A B p m n ≤ resid Y A B p m n :=
  nonneg_core hE hA hB

/-- C13: a one-dimensional `B` is not treated as a single row: the call always fails. -/
theorem C13_one_dimensional_fails (E : Ext) (A B : NDArray ℝ) (n : ℕ) (hB : B.shape = [n]) :
    nonNegativeRightsolve E A B = .error .indexError := by
  simp [nonNegativeRightsolve, hB]

/-- C13: incompatible sizes are rejected. -/
theorem C13_bad_size (E : Ext) (A B : NDArray ℝ) {m n p q : ℕ} (hA : A.shape = [m, n]) (hB : B.shape = [p, q])
    (hp : 0 < p) (h : q ≠ n) : nonNegativeRightsolve E A B = .error .valueError := by
  simp [nonNegativeRightsolve, hB, dims2_ok hB, dims2_ok hA, bind_ok, hp, h]

/-! ### C12 -/

theorem ridge_reduce {solve : NDArray ℝ → NDArray ℝ → Py (NDArray ℝ)} {A B : NDArray ℝ} {m n p : ℕ} {l : ℝ}
    (hA : A.shape = [m, n]) (hB : B.shape = [p, n]) :
    addRightsolveRidge solve l A B = solve
      (ofMat m (n + m) fun i j => if j < n then A.get [i, j] else (scaledIdentity (Real.sqrt l) m).get [i, j - n])
      (ofMat p (n + m) fun i j => if j < n then B.get [i, j] else (full [p, m] (0:ℝ)).get [i, j - n]) := by
  rw [addRightsolveRidge, dims2_ok hA, bind_ok]
  simp only
  rw [dims2_ok hB, bind_ok]
  simp only
  rw [hcat_ok hA (n' := m) (by simp [scaledIdentity]), bind_ok, hcat_ok hB (n' := m) (by simp), bind_ok]

/-- C12: `add_rightsolve_ridge(rightsolve, l)` minimises `‖X A - B‖² + l ‖X‖²`; for `l > 0` it is the only
minimiser. -/
theorem C12_ridge {E : Ext} (hE : E.SVDOk) {A B : NDArray ℝ} {m n p : ℕ} {l : ℝ} (hl : 0 ≤ l)
    (hA : A.shape = [m, n]) (hB : B.shape = [p, n]) :
    ∃ X, addRightsolveRidge (rightsolve E) l A B = .ok X ∧ X.shape = [p, m] ∧
      (∀ Y : NDArray ℝ, resid X A B p m n + l * normSq X p m ≤ resid Y A B p m n + l * normSq Y p m) ∧
      (0 < l → ∀ Y : NDArray ℝ, Y.shape = [p, m] →
        resid Y A B p m n + l * normSq Y p m ≤ resid X A B p m n + l * normSq X p m → Y = X) := by
  obtain ⟨X, e, s, hX⟩ := rightsolve_mat hE
    (A := ofMat m (n + m) fun i j => if j < n then A.get [i, j] else (scaledIdentity (Real.sqrt l) m).get [i, j - n])
    (B := ofMat p (n + m) fun i j => if j < n then B.get [i, j] else (full [p, m] (0:ℝ)).get [i, j - n])
    (shape_ofMat _ _ _) (shape_ofMat _ _ _)
  have hsvd := (hE (ofMat m (n + m) fun i j =>
    if j < n then A.get [i, j] else (scaledIdentity (Real.sqrt l) m).get [i, j - n]) m (n + m)
    (shape_ofMat _ _ _)).svd
  have hn := LA.pinv_normal hsvd (mat (ofMat p (n + m) fun i j =>
    if j < n then B.get [i, j] else (full [p, m] (0:ℝ)).get [i, j - n]) p (n + m))
  rw [← hX] at hn
  have key : ∀ Y : NDArray ℝ, resid Y A B p m n + l * normSq Y p m
      = resid X A B p m n + l * normSq X p m
        + LA.fsq ((mat Y p m - mat X p m) * mat (ofMat m (n + m) fun i j =>
            if j < n then A.get [i, j] else (scaledIdentity (Real.sqrt l) m).get [i, j - n]) m (n + m)) := by
    intro Y
    rw [← resid_scaledIdentity hl, ← resid_scaledIdentity hl, ← resid_hcat, ← resid_hcat, resid_eq, resid_eq]
    exact LA.ls_pythagoras hn
  refine ⟨X, (ridge_reduce hA hB).trans e, s, ?_, ?_⟩
  · intro Y
    rw [key Y]
    have := LA.fsq_nonneg ((mat Y p m - mat X p m) * mat (ofMat m (n + m) fun i j =>
            if j < n then A.get [i, j] else (scaledIdentity (Real.sqrt l) m).get [i, j - n]) m (n + m))
    linarith
  · intro hl' Y hY hle
    rw [key Y] at hle
    have h0 := LA.fsq_eq_zero_iff.1 (le_antisymm (by linarith) (LA.fsq_nonneg ((mat Y p m - mat X p m) *
      mat (ofMat m (n + m) fun i j =>
            if j < n then A.get [i, j] else (scaledIdentity (Real.sqrt l) m).get [i, j - n]) m (n + m))))
    refine ext_mat hY s fun i hi j hj => ?_
    have h1 := congrFun (congrFun h0 ⟨i, hi⟩) ⟨n + j, by omega⟩
    simp only [mul_apply, Matrix.zero_apply] at h1
    rw [Finset.sum_eq_single ⟨j, hj⟩] at h1
    · rw [mat_ofMat] at h1
      simp only [not_lt_of_ge (Nat.le_add_right n j), if_false, Nat.add_sub_cancel_left, scaledIdentity] at h1
      rw [get_ofMat hj hj] at h1
      simp only [mat, Matrix.sub_apply, if_true, mul_one] at h1
      have := (Real.sqrt_pos.2 hl').ne'
      rcases mul_eq_zero.1 h1 with h | h
      · linarith
      · exact absurd h this
    · intro x _ hx
      rw [mat_ofMat]
      simp only [not_lt_of_ge (Nat.le_add_right n j), if_false, Nat.add_sub_cancel_left, scaledIdentity]
      rw [get_ofMat x.2 hj, if_neg (fun h => hx (Fin.ext h))]
      simp
    · intro h; exact absurd (Finset.mem_univ _) h

/-- C12: the non-negative variant minimises the same objective over non-negative matrices. -/
theorem C12_ridge_nonneg {E : Ext} (hE : E.NNLSOk) {A B : NDArray ℝ} {m n p : ℕ} {l : ℝ} (hl : 0 ≤ l)
    (hA : A.shape = [m, n]) (hB : B.shape = [p, n]) :
    ∃ X, addRightsolveRidge (nonNegativeRightsolve E) l A B = .ok X ∧ X.shape = [p, m] ∧ NonNeg X p m ∧
      ∀ Y : NDArray ℝ, NonNeg Y p m →
        resid X A B p m n + l * normSq X p m ≤ resid Y A B p m n + l * normSq Y p m := by
  obtain ⟨X, e, s, h1, h2⟩ := nonneg_core hE
    (A := ofMat m (n + m) fun i j => if j < n then A.get [i, j] else (scaledIdentity (Real.sqrt l) m).get [i, j - n])
    (B := ofMat p (n + m) fun i j => if j < n then B.get [i, j] else (full [p, m] (0:ℝ)).get [i, j - n])
    (shape_ofMat _ _ _) (shape_ofMat _ _ _)
  refine ⟨X, (ridge_reduce hA hB).trans e, s, h1, fun Y hY => ?_⟩
  have := h2 Y hY
  rwa [resid_hcat, resid_hcat, resid_scaledIdentity hl, resid_scaledIdentity hl] at this

/-! ### C14 -/

/-- The singular values the routine reports for `Bᵀ A` all exceed the code's threshold. -/
def AllKept (E : Ext) (A B : NDArray ℝ) (r m : ℕ) : Prop :=
  ∀ C, matmul B.T A = .ok C → ∀ i < min m r,
    orthTol (E.svd C).1 (E.svd C).2.1 < (E.svd C).2.1.get [i]

theorem keepVec_zero_or_one (U S : NDArray ℝ) (k : ℕ) (i : Fin k) :
    keepVec U S k i = 0 ∨ keepVec U S k i = 1 := by
  unfold keepVec; split <;> simp

theorem keepVec_eq_one_iff {U S : NDArray ℝ} {k : ℕ} {i : Fin k} :
    keepVec U S k i = 1 ↔ orthTol U S < S.get [(i : ℕ)] := by
  unfold keepVec
  split
  · next h => exact ⟨fun _ => h, fun _ => rfl⟩
  · next h => exact ⟨fun h' => by simp at h', fun h' => absurd h' h⟩

theorem vh_square {m r : ℕ} (hrm : r ≤ m) {Vh : Matrix (Fin (min m r)) (Fin r) ℝ} (h : Vh * Vhᵀ = 1) :
    Vhᵀ * Vh = 1 :=
  (Matrix.mul_eq_one_comm_of_card_eq _ _ _ (by simp [hrm])).1 h

/-- C14: the result has orthonormal rows exactly when no singular value of `BᵀA` is dropped. -/
theorem C14_orthonormal_iff {E : Ext} (hE : E.SVDOk) {A B : NDArray ℝ} {n r m : ℕ} (hA : A.shape = [n, r])
    (hB : B.shape = [n, m]) (hr : 0 < r) (hrm : r ≤ m) :
    ∃ X, orthogonalSolve E A B = .ok X ∧ X.shape = [r, m] ∧ (OrthoRows X r m ↔ AllKept E A B r m) := by
  obtain ⟨C, U, S, Vh, X, e0, hs, hC, hsvd, e, s, hX⟩ :=
    orthogonalSolve_mat hE hA hB hr (lt_of_lt_of_le hr hrm)
  refine ⟨X, e, s, ?_⟩
  have hV := vh_square hrm hsvd.svd.right
  have hk2 : (fun i => keepVec U S (min m r) i * keepVec U S (min m r) i) = keepVec U S (min m r) := by
    funext i; rcases keepVec_zero_or_one U S _ i with h | h <;> simp [h]
  rw [orthoRows_iff, hX, LA.procrustes_gram hsvd.svd.left, hk2]
  have h1 : (mat Vh (min m r) r)ᵀ * diagonal (keepVec U S (min m r)) * mat Vh (min m r) r = 1 ↔
      diagonal (keepVec U S (min m r)) = 1 := by
    constructor
    · intro h
      have := congrArg (fun M => mat Vh (min m r) r * M * (mat Vh (min m r) r)ᵀ) h
      simp only [Matrix.mul_one, hsvd.svd.right] at this
      rw [← this]
      have e1 : mat Vh (min m r) r * ((mat Vh (min m r) r)ᵀ * diagonal (keepVec U S (min m r)) *
          mat Vh (min m r) r) * (mat Vh (min m r) r)ᵀ
          = (mat Vh (min m r) r * (mat Vh (min m r) r)ᵀ) * diagonal (keepVec U S (min m r)) *
            (mat Vh (min m r) r * (mat Vh (min m r) r)ᵀ) := by simp only [Matrix.mul_assoc]
      rw [e1, hsvd.svd.right, Matrix.one_mul, Matrix.mul_one]
    · intro h; rw [h, Matrix.mul_one, hV]
  rw [h1, ← diagonal_one, diagonal_injective.eq_iff]
  constructor
  · intro h C' hC' i hi
    rw [e0] at hC'
    obtain rfl : C = C' := by injection hC'
    rw [hs]
    exact keepVec_eq_one_iff.1 (congrFun h ⟨i, hi⟩)
  · intro h
    funext i
    have := h C e0 i i.2
    rw [hs] at this
    exact keepVec_eq_one_iff.2 this

/-- C14 (part): if no singular value of `BᵀA` is dropped, `orthogonal_solve` has orthonormal rows and
minimises `‖A X - B‖` among all matrices with orthonormal rows. Missing: the case in which singular values
are dropped, where the claim is false, see `C14_orthonormal_iff` and `C14_zero_fails`. -/
theorem C14_orthogonal_solve_partial {E : Ext} (hE : E.SVDOk) {A B : NDArray ℝ} {n r m : ℕ}
    (hA : A.shape = [n, r]) (hB : B.shape = [n, m]) (hr : 0 < r) (hrm : r ≤ m) (hk : AllKept E A B r m) :
    ∃ X, orthogonalSolve E A B = .ok X ∧ X.shape = [r, m] ∧ OrthoRows X r m ∧
      ∀ Y : NDArray ℝ, OrthoRows Y r m → residL A X B n r m ≤ residL A Y B n r m := by
  obtain ⟨X, e, s, ho⟩ := C14_orthonormal_iff hE hA hB hr hrm
  refine ⟨X, e, s, ho.2 hk, fun Y hY => ?_⟩
  obtain ⟨C, U, S, Vh, X', e0, hs, hC, hsvd, e', s', hX⟩ :=
    orthogonalSolve_mat hE hA hB hr (lt_of_lt_of_le hr hrm)
  rw [e] at e'
  obtain rfl : X = X' := by injection e'
  have hb := LA.procrustes_bound (A := mat A n r) (B := mat B n m) (hC ▸ hsvd.svd)
    (keepVec_zero_or_one U S (min m r)) (orthoRows_iff.1 hY)
  rw [residL_eq, residL_eq, hX]
  refine hb.trans (le_of_eq ?_)
  have hone : ∀ i, keepVec U S (min m r) i = 1 := by
    intro i
    have := hk C e0 i i.2
    rw [hs] at this
    exact keepVec_eq_one_iff.2 this
  simp [hone]

/-- C14 (part): in every case the result is at most `2 Σ (dropped singular values)` worse than any matrix
with orthonormal rows, and the dropped singular values are at most `max(m, r) · σ₁ · 10⁻¹⁶`. -/
theorem C14_near_optimal_partial {E : Ext} (hE : E.SVDOk) {A B : NDArray ℝ} {n r m : ℕ}
    (hA : A.shape = [n, r]) (hB : B.shape = [n, m]) (hr : 0 < r) (hrm : r ≤ m) :
    ∃ X C, orthogonalSolve E A B = .ok X ∧ X.shape = [r, m] ∧ matmul B.T A = .ok C ∧
      ∀ Y : NDArray ℝ, OrthoRows Y r m → residL A X B n r m ≤ residL A Y B n r m
        + 2 * (r * (m * (E.svd C).2.1.get [0] * 1e-16)) := by
  obtain ⟨C, U, S, Vh, X, e0, hs, hC, hsvd, e, s, hX⟩ :=
    orthogonalSolve_mat hE hA hB hr (lt_of_lt_of_le hr hrm)
  refine ⟨X, C, e, s, e0, fun Y hY => ?_⟩
  have hb := LA.procrustes_bound (A := mat A n r) (B := mat B n m) (hC ▸ hsvd.svd)
    (keepVec_zero_or_one U S (min m r)) (orthoRows_iff.1 hY)
  rw [residL_eq, residL_eq, hX]
  refine hb.trans ?_
  have hmin : min m r = r := min_eq_right hrm
  have hS0 : 0 ≤ S.get [0] := hsvd.svd.nonneg ⟨0, by omega⟩
  have htol : orthTol U S = m * S.get [0] * 1e-16 := by
    unfold orthTol; rw [hsvd.shapeU]
    simp
  have h1 : ∑ i, vec S (min m r) i * (1 - keepVec U S (min m r) i) ≤ ∑ _i : Fin (min m r), orthTol U S := by
    apply Finset.sum_le_sum
    intro i _
    unfold keepVec
    split
    · next h =>
      simp only [sub_self, mul_zero]
      rw [htol]; positivity
    · next h => simpa using h
  rw [Finset.sum_const, Finset.card_univ, Fintype.card_fin, nsmul_eq_mul, htol] at h1
  rw [hs]
  simp only
  have hc : ((min m r : ℕ) : ℝ) = r := by rw [hmin]
  rw [hc] at h1
  linarith

/-- C14: the claim is false when singular values are dropped; for `A = 0` (every `B`) the result is the zero
matrix, which does not have orthonormal rows. -/
theorem C14_zero_fails {E : Ext} (hE : E.SVDOk) {A B : NDArray ℝ} {n r m : ℕ} (hA : A.shape = [n, r])
    (hA0 : ∀ i < n, ∀ j < r, A.get [i, j] = 0) (hB : B.shape = [n, m]) (hr : 0 < r) (hrm : r ≤ m) :
    ∃ X, orthogonalSolve E A B = .ok X ∧ X.shape = [r, m] ∧ ¬ OrthoRows X r m := by
  obtain ⟨X, e, s, ho⟩ := C14_orthonormal_iff hE hA hB hr hrm
  refine ⟨X, e, s, fun h => ?_⟩
  obtain ⟨C, U, S, Vh, X', e0, hs, hC, hsvd, e', s', hX⟩ :=
    orthogonalSolve_mat hE hA hB hr (lt_of_lt_of_le hr hrm)
  have hk := ho.1 h C e0 0 (by omega)
  rw [hs] at hk
  have hC0 : mat C m r = 0 := by
    rw [hC]
    have : mat A n r = 0 := by ext i j; exact hA0 i i.2 j j.2
    rw [this, Matrix.mul_zero]
  have hS0 : ∀ i, vec S (min m r) i = 0 := by
    have h1 := hsvd.svd.eq
    rw [hC0] at h1
    have h2 := congrArg (fun M => (mat U m (min m r))ᵀ * M * (mat Vh (min m r) r)ᵀ) h1
    have e1 : (mat U m (min m r))ᵀ * (mat U m (min m r) * diagonal (vec S (min m r)) * mat Vh (min m r) r)
        * (mat Vh (min m r) r)ᵀ = ((mat U m (min m r))ᵀ * mat U m (min m r)) * diagonal (vec S (min m r)) *
          (mat Vh (min m r) r * (mat Vh (min m r) r)ᵀ) := by simp only [Matrix.mul_assoc]
    simp only [e1, hsvd.svd.left, hsvd.svd.right, Matrix.mul_zero, Matrix.zero_mul, Matrix.one_mul,
      Matrix.mul_one] at h2
    intro i
    have := congrFun (congrFun h2.symm i) i
    simpa using this
  have h0 : S.get [0] = 0 := hS0 ⟨0, by omega⟩
  simp [orthTol, h0] at hk

/-- C14: `orthogonal_rightsolve` is the transposed counterpart. -/
theorem C14_orthogonal_rightsolve_partial {E : Ext} (hE : E.SVDOk) {A B : NDArray ℝ} {n r m : ℕ}
    (hA : A.shape = [r, n]) (hB : B.shape = [m, n]) (hr : 0 < r) (hrm : r ≤ m) (hk : AllKept E A.T B.T r m) :
    ∃ X, orthogonalRightsolve E A B = .ok X ∧ X.shape = [m, r] ∧ OrthoCols X m r ∧
      ∀ Y : NDArray ℝ, Y.shape = [m, r] → OrthoCols Y m r → resid X A B m r n ≤ resid Y A B m r n := by
  obtain ⟨X, e, s, ho, hopt⟩ := C14_orthogonal_solve_partial hE (shape_T hA) (shape_T hB) hr hrm hk
  have tr : ∀ Z : NDArray ℝ, Z.shape = [m, r] → OrthoCols Z m r → OrthoRows Z.T r m := by
    intro Z hZ h i hi j hj
    rw [← h i hi j hj]
    apply Finset.sum_congr rfl
    intro l hl
    have hl := Finset.mem_range.1 hl
    rw [get_T hZ hi hl, get_T hZ hj hl]
  have rr : ∀ Z W : NDArray ℝ, (∀ i < m, ∀ j < r, Z.get [i, j] = W.get [j, i]) →
      resid Z A B m r n = residL A.T W B.T n r m := by
    intro Z W h
    unfold resid residL
    rw [Finset.sum_comm]
    apply Finset.sum_congr rfl
    intro i hi
    apply Finset.sum_congr rfl
    intro j hj
    have hi := Finset.mem_range.1 hi
    have hj := Finset.mem_range.1 hj
    rw [get_T hB hi hj]
    congr 2
    apply Finset.sum_congr rfl
    intro l hl
    have hl := Finset.mem_range.1 hl
    rw [get_T hA hi hl, h j hj l hl, mul_comm]
  refine ⟨X.T, ?_, shape_T s, ?_, ?_⟩
  · rw [orthogonalRightsolve, e, bind_ok]; rfl
  · intro i hi j hj
    rw [← ho i hi j hj]
    apply Finset.sum_congr rfl
    intro l hl
    have hl := Finset.mem_range.1 hl
    rw [get_T s hl hi, get_T s hl hj]
  · intro Y hY hYo
    rw [rr X.T X fun i hi j hj => get_T s hi hj, rr Y Y.T fun i hi j hj => (get_T hY hj hi).symm]
    exact hopt _ (tr Y hY hYo)

/-! ### Non-vacuity -/

/-- A rank deficient `2 × 3` matrix. -/
def exSolveA : NDArray ℝ := ofMat 2 3 fun i j => ((i + 1) * (j + 1) : ℕ)

/-- A right hand side which is not in the row space. -/
def exSolveB : NDArray ℝ := ofMat 4 3 fun i j => if i = j then 1 else 0

/-- C11, C12, C13: the hypotheses are met by a rank deficient problem, with existing routines. -/
example : ∃ E : Ext, E.SVDOk ∧ E.NNLSOk ∧ exSolveA.shape = [2, 3] ∧ exSolveB.shape = [4, 3] ∧
    (∃ X, rightsolve E exSolveA exSolveB = .ok X) ∧ (∃ X, nonNegativeRightsolve E exSolveA exSolveB = .ok X) := by
  obtain ⟨E, h1, h2, _⟩ := exists_ext
  obtain ⟨X, hX, _⟩ := C11_rightsolve h1 (A := exSolveA) (B := exSolveB) (m := 2) (n := 3) (p := 4) rfl rfl
  obtain ⟨Y, hY, _⟩ := C13_nonneg_partial h2 (A := exSolveA) (B := exSolveB) (m := 2) (n := 3) (p := 4) rfl rfl
  exact ⟨E, h1, h2, rfl, rfl, ⟨X, hX⟩, ⟨Y, hY⟩⟩

/-- If `BᵀA` has orthonormal columns no singular value is dropped. -/
theorem allKept_of_orth {E : Ext} (hE : E.SVDOk) {A B : NDArray ℝ} {n r m : ℕ} (hA : A.shape = [n, r])
    (hB : B.shape = [n, m]) (hr : 0 < r) (hrm : r ≤ m) (hm : m < 1000)
    (h : ((mat B n m)ᵀ * mat A n r)ᵀ * ((mat B n m)ᵀ * mat A n r) = 1) : AllKept E A B r m := by
  obtain ⟨C, U, S, Vh, X, e0, hs, hC, hsvd, e, s, hX⟩ :=
    orthogonalSolve_mat hE hA hB hr (lt_of_lt_of_le hr hrm)
  rw [← hC, hsvd.svd.eq] at h
  have e1 : (mat U m (min m r) * diagonal (vec S (min m r)) * mat Vh (min m r) r)ᵀ *
      (mat U m (min m r) * diagonal (vec S (min m r)) * mat Vh (min m r) r)
      = (mat Vh (min m r) r)ᵀ * (diagonal (vec S (min m r)) * ((mat U m (min m r))ᵀ * mat U m (min m r)) *
        diagonal (vec S (min m r))) * mat Vh (min m r) r := by
    simp only [transpose_mul, diagonal_transpose, Matrix.mul_assoc]
  rw [e1, hsvd.svd.left, Matrix.mul_one, diagonal_mul_diagonal] at h
  have h2 := congrArg (fun M => mat Vh (min m r) r * M * (mat Vh (min m r) r)ᵀ) h
  have e2 : ∀ D, mat Vh (min m r) r * ((mat Vh (min m r) r)ᵀ * D * mat Vh (min m r) r) *
      (mat Vh (min m r) r)ᵀ = (mat Vh (min m r) r * (mat Vh (min m r) r)ᵀ) * D *
        (mat Vh (min m r) r * (mat Vh (min m r) r)ᵀ) := fun D => by simp only [Matrix.mul_assoc]
  simp only [e2, hsvd.svd.right, Matrix.one_mul, Matrix.mul_one] at h2
  have hone : ∀ i, i < min m r → S.get [i] = 1 := by
    intro i hi
    have h3 := congrFun (congrFun h2 ⟨i, hi⟩) ⟨i, hi⟩
    have h4 : S.get [i] * S.get [i] = 1 := by simpa [vec] using h3
    have h5 : 0 ≤ S.get [i] := hsvd.svd.nonneg ⟨i, hi⟩
    nlinarith
  intro C' hC' i hi
  rw [e0] at hC'
  obtain rfl : C = C' := by injection hC'
  rw [hs]
  simp only [orthTol, hsvd.shapeU]
  rw [hone i hi, hone 0 (by omega)]
  have hmm : ([m, min m r].foldr max 0 : ℕ) = m := by simp
  rw [hmm]
  have : (m : ℝ) < 1000 := by exact_mod_cast hm
  norm_num
  linarith

/-- C14: the hypotheses are met, e.g. by `A = B = I`. -/
example : ∃ E : Ext, E.SVDOk ∧ AllKept E (scaledIdentity 1 3) (scaledIdentity 1 3) 3 3 := by
  obtain ⟨E, h1, _, _⟩ := exists_ext
  refine ⟨E, h1, allKept_of_orth h1 (n := 3) rfl rfl (by omega) (by omega) (by omega) ?_⟩
  have : mat (scaledIdentity 1 3) 3 3 = 1 := by
    ext i j
    rw [scaledIdentity, mat_ofMat]
    simp [Matrix.one_apply, Fin.ext_iff]
  rw [this]; simp

end
end TK
