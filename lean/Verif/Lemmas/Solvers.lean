import Verif.Spec.Ext
import Verif.Spec.Resid
import Verif.Lemmas.Kruskal
import Mathlib.LinearAlgebra.Matrix.NonsingularInverse

/-! # Lemmas about the solvers -/

namespace TK
open NDArray Matrix

noncomputable section

@[simp] theorem mat_ofMat {m n : ℕ} (f : ℕ → ℕ → ℝ) (i : Fin m) (j : Fin n) :
    mat (ofMat m n f) m n i j = f i j := by
  simp [mat]

theorem mat_T {A : NDArray ℝ} {m n : ℕ} (h : A.shape = [m, n]) : mat A.T n m = (mat A m n)ᵀ := by
  ext i j
  simp [mat, get_T h]

theorem mat_inj {A B : NDArray ℝ} {m n : ℕ} (hA : A.shape = [m, n]) (hB : B.shape = [m, n])
    (h : mat A m n = mat B m n) : A = B := by
  refine ext_mat hA hB fun i hi j hj => ?_
  exact congrFun (congrFun h ⟨i, hi⟩) ⟨j, hj⟩

/-- Matrix product of arrays is matrix product. -/
theorem matmul_mat {A B : NDArray ℝ} {m k n : ℕ} (hA : A.shape = [m, k]) (hB : B.shape = [k, n]) :
    ∃ C, matmul A B = .ok C ∧ C.shape = [m, n] ∧ mat C m n = mat A m k * mat B k n := by
  refine ⟨_, matmul_ok hA hB, rfl, ?_⟩
  ext i j
  rw [mat_ofMat]
  simp [mul_apply, mat, Finset.sum_range]

/-- Scaling the columns of a matrix by a vector. -/
theorem scaleCols_mat {A v : NDArray ℝ} {m n : ℕ} (hA : A.shape = [m, n]) (hv : v.shape = [n]) :
    ∃ C, zipB (· * ·) A v = .ok C ∧ C.shape = [m, n] ∧ mat C m n = mat A m n * diagonal (vec v n) := by
  refine ⟨_, zipB_mat_vec _ hv hA, rfl, ?_⟩
  ext i j
  rw [mat_ofMat]
  simp [mat, vec, mul_diagonal]

theorem vec_map {S : NDArray ℝ} {n : ℕ} (h : S.shape = [n]) (f : ℝ → ℝ) :
    vec (S.map f) n = fun i => f (vec S n i) := by
  funext i
  simp only [vec]
  rw [get_map]
  simp [h]

/-- `rightsolve(A, B) = B A⁺`. -/
theorem rightsolve_mat {E : Ext} (hE : E.SVDOk) {A B : NDArray ℝ} {m n p : ℕ} (hA : A.shape = [m, n])
    (hB : B.shape = [p, n]) :
    ∃ X, rightsolve E A B = .ok X ∧ X.shape = [p, m] ∧ mat X p m = mat B p n *
      LA.pinv (mat (E.svd A).1 m (min m n)) (vec (E.svd A).2.1 (min m n))
        (mat (E.svd A).2.2 (min m n) n) := by
  have h := hE A m n hA
  rw [rightsolve]
  rcases hs : E.svd A with ⟨U, S, Vh⟩
  rw [hs] at h
  simp only at h ⊢
  have hS : (invNonzero S).shape = [min m n] := h.shapeS
  obtain ⟨VS, e1, s1, m1⟩ := scaleCols_mat (shape_T h.shapeVh) hS
  obtain ⟨P, e2, s2, m2⟩ := matmul_mat s1 (shape_T h.shapeU)
  obtain ⟨X, e3, s3, m3⟩ := matmul_mat hB s2
  refine ⟨X, ?_, s3, ?_⟩
  · rw [e1, bind_ok, e2, bind_ok, e3]
  · rw [m3, m2, m1, mat_T h.shapeVh, mat_T h.shapeU, invNonzero, vec_map h.shapeS]
    rfl

/-! ### Residuals -/

theorem resid_eq {Y A B : NDArray ℝ} {p m n : ℕ} :
    resid Y A B p m n = LA.fsq (mat Y p m * mat A m n - mat B p n) := by
  simp [resid, LA.fsq, mul_apply, mat, Finset.sum_range]

theorem normSq_eq {Y : NDArray ℝ} {p m : ℕ} : normSq Y p m = LA.fsq (mat Y p m) := by
  simp [normSq, LA.fsq, mat, Finset.sum_range]

theorem orthoRows_iff {X : NDArray ℝ} {r m : ℕ} :
    OrthoRows X r m ↔ mat X r m * (mat X r m)ᵀ = 1 := by
  constructor
  · intro h
    ext i j
    have := h i i.2 j j.2
    simp only [mul_apply, transpose_apply, mat]
    rw [Finset.sum_range] at this
    rw [this, one_apply]
    simp [Fin.ext_iff]
  · intro h i hi j hj
    have := congrFun (congrFun h ⟨i, hi⟩) ⟨j, hj⟩
    simp only [mul_apply, transpose_apply, mat, one_apply, Fin.mk.injEq] at this
    rw [Finset.sum_range]; exact this

theorem residL_eq {X A B : NDArray ℝ} {n r m : ℕ} :
    residL A X B n r m = LA.fsq (mat A n r * mat X r m - mat B n m) := by
  simp [residL, LA.fsq, mul_apply, mat, Finset.sum_range]

/-! ### concatenation -/

theorem hcat_ok {A B : NDArray ℝ} {m n n' : ℕ} (hA : A.shape = [m, n]) (hB : B.shape = [m, n']) :
    hcat A B = .ok (ofMat m (n + n') fun i j => if j < n then A.get [i, j] else B.get [i, j - n]) := by
  simp [hcat, dims2_ok hA, dims2_ok hB, bind_ok, pure, Except.pure]

theorem vcat_ok {A B : NDArray ℝ} {m m' n : ℕ} (hA : A.shape = [m, n]) (hB : B.shape = [m', n]) :
    vcat A B = .ok (ofMat (m + m') n fun i j => if i < m then A.get [i, j] else B.get [i - m, j]) := by
  simp [vcat, dims2_ok hA, dims2_ok hB, bind_ok, pure, Except.pure]

theorem resid_hcat {Y A A' B B' : NDArray ℝ} {p m n n' : ℕ} :
    resid Y (ofMat m (n + n') fun i j => if j < n then A.get [i, j] else A'.get [i, j - n])
      (ofMat p (n + n') fun i j => if j < n then B.get [i, j] else B'.get [i, j - n]) p m (n + n')
      = resid Y A B p m n + resid Y A' B' p m n' := by
  unfold resid
  rw [← Finset.sum_add_distrib]
  apply Finset.sum_congr rfl
  intro i hi
  have hi := Finset.mem_range.1 hi
  rw [Finset.sum_range_add]
  congr 1
  · apply Finset.sum_congr rfl
    intro j hj
    have hj := Finset.mem_range.1 hj
    have hj' : j < n + n' := by omega
    rw [get_ofMat hi hj', if_pos hj]
    congr 2
    apply Finset.sum_congr rfl
    intro l hl
    rw [get_ofMat (Finset.mem_range.1 hl) hj', if_pos hj]
  · apply Finset.sum_congr rfl
    intro j hj
    have hj := Finset.mem_range.1 hj
    have hj' : n + j < n + n' := by omega
    rw [get_ofMat hi hj', if_neg (by omega), Nat.add_sub_cancel_left]
    congr 2
    apply Finset.sum_congr rfl
    intro l hl
    rw [get_ofMat (Finset.mem_range.1 hl) hj', if_neg (by omega), Nat.add_sub_cancel_left]

theorem resid_scaledIdentity {Y : NDArray ℝ} {p n : ℕ} {l : ℝ} (hl : 0 ≤ l) :
    resid Y (scaledIdentity (Real.sqrt l) n) (full [p, n] 0) p n n = l * normSq Y p n := by
  unfold resid normSq
  rw [Finset.mul_sum]
  apply Finset.sum_congr rfl
  intro i hi
  rw [Finset.mul_sum]
  apply Finset.sum_congr rfl
  intro j hj
  have hi := Finset.mem_range.1 hi
  have hj' := Finset.mem_range.1 hj
  rw [get_full (by simp [hi, hj'])]
  have : ∑ x ∈ Finset.range n, Y.get [i, x] * (scaledIdentity (Real.sqrt l) n).get [x, j]
      = Y.get [i, j] * Real.sqrt l := by
    rw [Finset.sum_eq_single j]
    · rw [scaledIdentity, get_ofMat hj' hj']; simp
    · intro x hx hne
      rw [scaledIdentity, get_ofMat (Finset.mem_range.1 hx) hj']; simp [hne]
    · intro h; exact absurd hj h
  rw [this, sub_zero, mul_pow, Real.sq_sqrt hl]; ring

/-! ### Procrustes -/

theorem shouldKeep_ok {U S : NDArray ℝ} {k : ℕ} (hS : S.shape = [k]) (hk : 0 < k) :
    shouldKeep U S = .ok (S.map fun s =>
      if s > ((U.shape.foldr max 0 : ℕ) : ℝ) * S.get [0] * 1e-16 then 1 else 0) := by
  have hl : S.data.length = k := by rw [S.wf, hS]; simp
  rcases hd : S.data with _ | ⟨s0, rest⟩
  · rw [hd] at hl; simp at hl; omega
  · have h0 : S.get [0] = s0 := by simp [NDArray.get, NDArray.flat, hS, ravel, hd]
    simp only [shouldKeep, hd, h0]
    rfl

/-- The tolerance in `orthogonal_solve`. -/
def orthTol (U S : NDArray ℝ) : ℝ := ((U.shape.foldr max 0 : ℕ) : ℝ) * S.get [0] * 1e-16

/-- The vector of 0/1 flags. -/
def keepVec (U S : NDArray ℝ) (k : ℕ) : Fin k → ℝ := fun i => if vec S k i > orthTol U S then 1 else 0

theorem orthogonalSolve_mat {E : Ext} (hE : E.SVDOk) {A B : NDArray ℝ} {n r m : ℕ}
    (hA : A.shape = [n, r]) (hB : B.shape = [n, m]) (hr : 0 < r) (hm : 0 < m) :
    ∃ C U S Vh X, matmul B.T A = .ok C ∧ E.svd C = (U, S, Vh) ∧ mat C m r = (mat B n m)ᵀ * mat A n r ∧ IsSVD C U S Vh m r ∧
      orthogonalSolve E A B = .ok X ∧ X.shape = [r, m] ∧
      mat X r m = LA.procrustes (mat U m (min m r)) (keepVec U S (min m r)) (mat Vh (min m r) r) := by
  obtain ⟨C, e0, s0, m0⟩ := matmul_mat (shape_T hB) hA
  have h := hE C m r s0
  rcases hs : E.svd C with ⟨U, S, Vh⟩
  rw [hs] at h
  simp only at h
  have hk : 0 < min m r := by omega
  have e1 := shouldKeep_ok (U := U) h.shapeS hk
  have s1 : (S.map fun s => if s > ((U.shape.foldr max 0 : ℕ) : ℝ) * S.get [0] * 1e-16 then (1:ℝ) else 0).shape
      = [min m r] := h.shapeS
  obtain ⟨VK, e2, s2, m2⟩ := scaleCols_mat (shape_T h.shapeVh) s1
  obtain ⟨X, e3, s3, m3⟩ := matmul_mat s2 (shape_T h.shapeU)
  refine ⟨C, U, S, Vh, X, e0, hs, ?_, h, ?_, s3, ?_⟩
  · rw [m0, mat_T hB]
  · rw [orthogonalSolve, e0, bind_ok, hs]
    simp only
    rw [e1, bind_ok, e2, bind_ok, e3]
  · rw [m3, m2, mat_T h.shapeVh, mat_T h.shapeU, vec_map h.shapeS]
    rfl

end
end TK
