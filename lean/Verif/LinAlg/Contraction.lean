import Verif.LinAlg.LeastSquares

/-!
# Contractions, and the potential behind the monotonicity of PARAFAC2-ALS

The projection matrices that the code computes are partial isometries: with orthonormal columns if no singular value is
dropped, and contractions in general.
-/

namespace TK.LA
open Matrix

variable {m n k r : Type*} [Fintype m] [Fintype n] [Fintype k] [Fintype r]

/-- Multiplication from the right does not increase the Frobenius norm. -/
def Contr (Y : Matrix r m ℝ) : Prop := ∀ v : r → ℝ, ∑ j, (∑ i, v i * Y i j) ^ 2 ≤ ∑ i, v i ^ 2

theorem Contr.fsq_mul_le {Y : Matrix r m ℝ} (h : Contr Y) (A : Matrix n r ℝ) : fsq (A * Y) ≤ fsq A := by
  unfold fsq
  refine Finset.sum_le_sum fun i _ => ?_
  simpa [mul_apply] using h (A i)

theorem contr_of_fsq {Y : Matrix r m ℝ} (h : ∀ A : Matrix (Fin 1) r ℝ, fsq (A * Y) ≤ fsq A) : Contr Y := by
  intro v
  have := h (Matrix.of fun _ i => v i)
  simpa [fsq, mul_apply] using this

theorem contr_of_orth [DecidableEq r] {Y : Matrix r m ℝ} (h : Y * Yᵀ = 1) : Contr Y :=
  contr_of_fsq fun A => (fsq_mul_orth A h).le

theorem contr_procrustes [DecidableEq k] [DecidableEq r] {U : Matrix m k ℝ} {Vh : Matrix k r ℝ} (hU : Uᵀ * U = 1)
    (hV : Vh * Vhᵀ = 1) {keep : k → ℝ} (hk : ∀ i, keep i = 0 ∨ keep i = 1) : Contr (procrustes U keep Vh) :=
  contr_of_fsq fun A => fsq_mul_procrustes_le A hU hV hk

theorem Contr.diag_le_one [DecidableEq k] {U : Matrix m k ℝ} {Vh : Matrix k r ℝ}
    (hU : Uᵀ * U = 1) (hV : Vh * Vhᵀ = 1) {Y : Matrix r m ℝ} (hY : Contr Y) (i : k) : (Vh * Y * U) i i ≤ 1 := by
  have h1 : ∑ j, (Vh * Y) i j ^ 2 ≤ 1 := by
    have h0 : ∑ j, Vh i j ^ 2 = 1 := by
      have := congrFun (congrFun hV i) i
      simpa [mul_apply, pow_two] using this
    have := hY (Vh i)
    rw [h0] at this
    simpa [mul_apply] using this
  have h2 : ∑ j, U j i ^ 2 = 1 := by
    have := congrFun (congrFun hU i) i
    simpa [mul_apply, pow_two] using this
  have h3 : (Vh * Y * U) i i = ∑ j, (Vh * Y) i j * U j i := by simp [mul_apply]
  rw [h3]
  have h4 : ∑ j, (Vh * Y) i j * U j i ≤ ∑ j, ((Vh * Y) i j ^ 2 + U j i ^ 2) / 2 :=
    Finset.sum_le_sum fun j _ => by nlinarith [sq_nonneg ((Vh * Y) i j - U j i)]
  have h5 : ∑ j, ((Vh * Y) i j ^ 2 + U j i ^ 2) / 2 = (∑ j, (Vh * Y) i j ^ 2 + ∑ j, U j i ^ 2) / 2 := by
    rw [← Finset.sum_div, Finset.sum_add_distrib]
  linarith

theorem Contr.trace_le_sum [DecidableEq k] {C : Matrix m r ℝ} {U : Matrix m k ℝ}
    {s : k → ℝ} {Vh : Matrix k r ℝ} (h : ThinSVD C U s Vh) {Y : Matrix r m ℝ} (hY : Contr Y) :
    trace (C * Y) ≤ ∑ i, s i := by
  have e : trace (C * Y) = ∑ i, s i * (Vh * Y * U) i i := by
    rw [h.eq, Matrix.mul_assoc, Matrix.mul_assoc, trace_mul_comm, Matrix.mul_assoc]
    simp [trace, diagonal_mul]
  rw [e]
  refine Finset.sum_le_sum fun i _ => ?_
  have := hY.diag_le_one h.left h.right i
  nlinarith [h.nonneg i]

/-- The potential `‖X‖² - 2 ⟨M Y, X⟩ + ‖M‖²`. -/
noncomputable def pot (X : Matrix n m ℝ) (M : Matrix n r ℝ) (Y : Matrix r m ℝ) : ℝ := fsq X - 2 * fip (M * Y) X + fsq M

theorem Contr.le_pot {Y : Matrix r m ℝ} (h : Contr Y) (X : Matrix n m ℝ) (M : Matrix n r ℝ) :
    fsq (M * Y - X) ≤ pot X M Y := by
  rw [fsq_sub, pot]
  linarith [h.fsq_mul_le M]

theorem pot_eq_of_orth [DecidableEq r] {Y : Matrix r m ℝ} (h : Y * Yᵀ = 1) (X : Matrix n m ℝ) (M : Matrix n r ℝ) :
    pot X M Y = fsq (M * Y - X) := by
  rw [fsq_sub, pot, fsq_mul_orth M h]
  ring

/-- With `Y` fixed, the potential is the error on the projected data up to a constant. -/
theorem pot_eq_projected (X : Matrix n m ℝ) (M : Matrix n r ℝ) (Y : Matrix r m ℝ) :
    pot X M Y = fsq (X * Yᵀ - M) + (fsq X - fsq (X * Yᵀ)) := by
  have e : fip (M * Y) X = fip (X * Yᵀ) M := by
    rw [fip_mul_left, fip_comm]
  rw [fsq_sub, pot, e]
  ring

/-- With `M` fixed, the matrix computed by the code decreases the potential, up to the dropped singular values. -/
theorem pot_procrustes_le [DecidableEq k] [DecidableEq r] {X : Matrix n m ℝ} {M : Matrix n r ℝ} {U : Matrix m k ℝ} {s : k → ℝ}
    {Vh : Matrix k r ℝ} (h : ThinSVD (Xᵀ * M) U s Vh) (keep : k → ℝ) {Y : Matrix r m ℝ} (hY : Contr Y) :
    pot X M (procrustes U keep Vh) ≤ pot X M Y + 2 * ∑ i, s i * (1 - keep i) := by
  have h2 := hY.trace_le_sum h
  have h3 : ∑ i, s i * (1 - keep i) = ∑ i, s i - ∑ i, s i * keep i := by
    rw [← Finset.sum_sub_distrib]; exact Finset.sum_congr rfl fun _ _ => by ring
  rw [pot, pot, fip_eq_trace_swap, fip_eq_trace_swap, procrustes_trace h, h3]
  linarith

end TK.LA
