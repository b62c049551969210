import Mathlib.Data.Matrix.Mul
import Mathlib.Data.Matrix.Diagonal
import Mathlib.LinearAlgebra.Matrix.Trace
import Mathlib.Data.Real.Basic
import Mathlib.Algebra.Order.BigOperators.Group.Finset
import Mathlib.Algebra.Order.BigOperators.Ring.Finset
import Mathlib.Tactic.Ring
import Mathlib.Algebra.BigOperators.Field
import Mathlib.Tactic.Linarith
import Mathlib.Tactic.NoncommRing
import Mathlib.Tactic.Abel
import Mathlib.Tactic.FieldSimp
import Mathlib.Tactic.Push
import Mathlib.Tactic.LinearCombination

/-!
# Least squares with matrices

Frobenius inner product, normal equations, the pseudo-inverse built from a thin SVD, the orthogonal
Procrustes problem.
-/

set_option linter.unusedSectionVars false

namespace TK.LA
open Matrix

variable {m n p k : Type*} [Fintype m] [Fintype n] [Fintype p] [Fintype k]

/-- Frobenius inner product. -/
def fip (M N : Matrix m n ℝ) : ℝ := ∑ i, ∑ j, M i j * N i j

/-- Squared Frobenius norm. -/
def fsq (M : Matrix m n ℝ) : ℝ := ∑ i, ∑ j, M i j ^ 2

theorem fsq_eq_fip (M : Matrix m n ℝ) : fsq M = fip M M := by
  simp [fsq, fip, pow_two]

theorem fsq_nonneg (M : Matrix m n ℝ) : 0 ≤ fsq M :=
  Finset.sum_nonneg fun _ _ => Finset.sum_nonneg fun _ _ => sq_nonneg _

theorem fsq_eq_zero_iff {M : Matrix m n ℝ} : fsq M = 0 ↔ M = 0 := by
  constructor
  · intro h
    ext i j
    have h1 := (Finset.sum_eq_zero_iff_of_nonneg
      (fun i _ => Finset.sum_nonneg fun j _ => sq_nonneg (M i j))).1 h i (Finset.mem_univ _)
    have h2 := (Finset.sum_eq_zero_iff_of_nonneg (fun j _ => sq_nonneg (M i j))).1 h1 j (Finset.mem_univ _)
    simpa using h2
  · rintro rfl; simp [fsq]

theorem fip_comm (M N : Matrix m n ℝ) : fip M N = fip N M := by simp [fip, mul_comm]

theorem fip_add_left (M M' N : Matrix m n ℝ) : fip (M + M') N = fip M N + fip M' N := by
  simp [fip, add_mul, Finset.sum_add_distrib]

theorem fip_add_right (M N N' : Matrix m n ℝ) : fip M (N + N') = fip M N + fip M N' := by
  rw [fip_comm, fip_add_left, fip_comm N, fip_comm N']

theorem fip_neg_left (M N : Matrix m n ℝ) : fip (-M) N = - fip M N := by
  simp [fip]

theorem fip_sub_left (M M' N : Matrix m n ℝ) : fip (M - M') N = fip M N - fip M' N := by
  rw [sub_eq_add_neg, fip_add_left, fip_neg_left]; ring

theorem fip_sub_right (M N N' : Matrix m n ℝ) : fip M (N - N') = fip M N - fip M N' := by
  rw [fip_comm, fip_sub_left, fip_comm N, fip_comm N']

@[simp] theorem fip_zero_left (N : Matrix m n ℝ) : fip 0 N = 0 := by simp [fip]
@[simp] theorem fip_zero_right (N : Matrix m n ℝ) : fip N 0 = 0 := by simp [fip]

theorem fip_eq_trace (M N : Matrix m n ℝ) : fip M N = trace (M * Nᵀ) := by
  simp [fip, trace, mul_apply]

/-- Moving a factor to the other side. -/
theorem fip_mul_left (Y : Matrix m p ℝ) (A : Matrix p n ℝ) (R : Matrix m n ℝ) :
    fip (Y * A) R = fip Y (R * Aᵀ) := by
  rw [fip_eq_trace, fip_eq_trace, transpose_mul, transpose_transpose, Matrix.mul_assoc]

theorem fip_mul_left' (Q : Matrix m p ℝ) (Y : Matrix p n ℝ) (R : Matrix m n ℝ) :
    fip (Q * Y) R = fip Y (Qᵀ * R) := by
  rw [fip_comm, fip_eq_trace, fip_comm, fip_eq_trace, transpose_mul, ← Matrix.mul_assoc, trace_mul_comm,
    Matrix.mul_assoc]

theorem fip_transpose (M N : Matrix m n ℝ) : fip Mᵀ Nᵀ = fip M N := by
  rw [fip, Finset.sum_comm]; rfl

theorem fsq_transpose (M : Matrix m n ℝ) : fsq Mᵀ = fsq M := by
  rw [fsq_eq_fip, fip_transpose, fsq_eq_fip]

theorem fsq_neg (M : Matrix m n ℝ) : fsq (-M) = fsq M := by simp [fsq]

theorem fsq_add (M N : Matrix m n ℝ) : fsq (M + N) = fsq M + 2 * fip M N + fsq N := by
  simp only [fsq_eq_fip, fip_add_left, fip_add_right, fip_comm N M]; ring

theorem fsq_sub (M N : Matrix m n ℝ) : fsq (M - N) = fsq M - 2 * fip M N + fsq N := by
  simp only [fsq_eq_fip, fip_sub_left, fip_sub_right, fip_comm N M]; ring

theorem fsq_sub_comm (M N : Matrix m n ℝ) : fsq (M - N) = fsq (N - M) := by
  rw [fsq_sub, fsq_sub, fip_comm]; ring

/-- Pythagoras at a solution of the normal equations. -/
theorem ls_pythagoras {X Y : Matrix m p ℝ} {A : Matrix p n ℝ} {B : Matrix m n ℝ}
    (h : (X * A - B) * Aᵀ = 0) : fsq (Y * A - B) = fsq (X * A - B) + fsq ((Y - X) * A) := by
  have e : Y * A - B = (X * A - B) + (Y - X) * A := by rw [Matrix.sub_mul]; abel
  rw [e, fsq_add, fip_comm, fip_mul_left, h]; simp

theorem ls_optimal {X Y : Matrix m p ℝ} {A : Matrix p n ℝ} {B : Matrix m n ℝ}
    (h : (X * A - B) * Aᵀ = 0) : fsq (X * A - B) ≤ fsq (Y * A - B) := by
  rw [ls_pythagoras (Y := Y) h]
  have := fsq_nonneg ((Y - X) * A)
  linarith

variable [DecidableEq k]

/-- A thin singular value decomposition `A = U diag(s) Vh` (`np.linalg.svd(A, full_matrices=False)`):
orthonormal columns of `U`, orthonormal rows of `Vh`, non-negative singular values. (The ordering of the
singular values is stated separately.) -/
structure ThinSVD (A : Matrix m n ℝ) (U : Matrix m k ℝ) (s : k → ℝ) (Vh : Matrix k n ℝ) : Prop where
  left : Uᵀ * U = 1
  right : Vh * Vhᵀ = 1
  eq : A = U * diagonal s * Vh
  nonneg : ∀ i, 0 ≤ s i

/-- Reciprocal of the non-zero entries. -/
noncomputable def sInv (s : k → ℝ) (i : k) : ℝ := if s i ≠ 0 then 1 / s i else s i

/-- The pseudo-inverse `Vhᵀ diag(s⁺) Uᵀ`. -/
noncomputable def pinv (U : Matrix m k ℝ) (s : k → ℝ) (Vh : Matrix k n ℝ) : Matrix n m ℝ :=
  Vhᵀ * diagonal (sInv s) * Uᵀ

theorem sInv_mul_mul (s : k → ℝ) (i : k) : sInv s i * s i * s i = s i := by
  unfold sInv
  split
  · rename_i h; field_simp
  · rename_i h; push Not at h; simp [h]

theorem mul_sInv_sInv (s : k → ℝ) (i : k) : sInv s i * sInv s i * s i = sInv s i := by
  unfold sInv
  split
  · rename_i h; field_simp
  · rename_i h; push Not at h; simp [h]

omit [Fintype m] [Fintype n] in
variable [DecidableEq m] [DecidableEq n] in
theorem ThinSVD.transpose_eq {A : Matrix m n ℝ} {U : Matrix m k ℝ} {s : k → ℝ} {Vh : Matrix k n ℝ}
    (h : A = U * diagonal s * Vh) : Aᵀ = Vhᵀ * diagonal s * Uᵀ := by
  rw [h, transpose_mul, transpose_mul, diagonal_transpose, Matrix.mul_assoc]

/-- `A⁺ A Aᵀ = Aᵀ`. -/
theorem pinv_mul {A : Matrix m n ℝ} {U : Matrix m k ℝ} {s : k → ℝ} {Vh : Matrix k n ℝ}
    (h : ThinSVD A U s Vh) : pinv U s Vh * A * Aᵀ = Aᵀ := by
  classical
  rw [ThinSVD.transpose_eq h.eq, h.eq, pinv]
  have e1 : Vhᵀ * diagonal (sInv s) * Uᵀ * (U * diagonal s * Vh) * (Vhᵀ * diagonal s * Uᵀ)
      = Vhᵀ * (diagonal (sInv s) * (Uᵀ * U) * diagonal s * (Vh * Vhᵀ) * diagonal s) * Uᵀ := by
    simp only [Matrix.mul_assoc]
  rw [e1, h.left, h.right, Matrix.mul_one, Matrix.mul_one, diagonal_mul_diagonal, diagonal_mul_diagonal]
  simp only [sInv_mul_mul]

/-- `A⁺ = Z Aᵀ` for some `Z`. -/
theorem pinv_eq {A : Matrix m n ℝ} {U : Matrix m k ℝ} {s : k → ℝ} {Vh : Matrix k n ℝ}
    (h : ThinSVD A U s Vh) :
    pinv U s Vh = (Vhᵀ * diagonal (fun i => sInv s i * sInv s i) * Vh) * Aᵀ := by
  classical
  rw [ThinSVD.transpose_eq h.eq, pinv]
  have e1 : Vhᵀ * diagonal (fun i => sInv s i * sInv s i) * Vh * (Vhᵀ * diagonal s * Uᵀ)
      = Vhᵀ * (diagonal (fun i => sInv s i * sInv s i) * (Vh * Vhᵀ) * diagonal s) * Uᵀ := by
    simp only [Matrix.mul_assoc]
  rw [e1, h.right, Matrix.mul_one, diagonal_mul_diagonal]
  simp only [mul_sInv_sInv]

/-- `B A⁺` solves the normal equations. -/
theorem pinv_normal {A : Matrix m n ℝ} {U : Matrix m k ℝ} {s : k → ℝ} {Vh : Matrix k n ℝ}
    (h : ThinSVD A U s Vh) (B : Matrix p n ℝ) : (B * pinv U s Vh * A - B) * Aᵀ = 0 := by
  have := pinv_mul h
  rw [Matrix.sub_mul, Matrix.mul_assoc B, Matrix.mul_assoc B, this, sub_self]

/-- `B A⁺` has the least norm among all minimisers. -/
theorem pinv_min_norm {A : Matrix m n ℝ} {U : Matrix m k ℝ} {s : k → ℝ} {Vh : Matrix k n ℝ}
    (h : ThinSVD A U s Vh) (B : Matrix p n ℝ) {Y : Matrix p m ℝ}
    (hY : fsq (Y * A - B) ≤ fsq (B * pinv U s Vh * A - B)) :
    fsq Y = fsq (B * pinv U s Vh) + fsq (Y - B * pinv U s Vh) := by
  set X := B * pinv U s Vh with hX
  have h1 := ls_pythagoras (Y := Y) (pinv_normal h B)
  have h2 : fsq ((Y - X) * A) = 0 := le_antisymm (by rw [← hX] at h1; linarith) (fsq_nonneg _)
  have h3 := fsq_eq_zero_iff.1 h2
  obtain ⟨Z, hZ⟩ : ∃ Z, X = Z * Aᵀ := ⟨_, by rw [hX, pinv_eq h, ← Matrix.mul_assoc]⟩
  have h4 : fip X (Y - X) = 0 := by
    have : fip (Z * Aᵀ) (Y - X) = 0 := by rw [fip_mul_left, transpose_transpose, h3]; simp
    rwa [← hZ] at this
  have e : Y = X + (Y - X) := by abel
  conv_lhs => rw [e]
  rw [fsq_add, h4]; ring

/-! ### Orthogonal Procrustes -/

/-- Each diagonal entry of `Vh Y U` is at most one when `Y Yᵀ = 1`. -/
theorem diag_le_one {r : Type*} [Fintype r] [DecidableEq r] {U : Matrix m k ℝ} {Vh : Matrix k r ℝ}
    (hU : Uᵀ * U = 1) (hV : Vh * Vhᵀ = 1) {Y : Matrix r m ℝ} (hY : Y * Yᵀ = 1) (i : k) :
    (Vh * Y * U) i i ≤ 1 := by
  set P := Vh * Y with hP
  have hPP : P * Pᵀ = 1 := by
    rw [hP, transpose_mul, Matrix.mul_assoc, ← Matrix.mul_assoc Y, hY, Matrix.one_mul, hV]
  have h1 : ∑ j, P i j ^ 2 = 1 := by
    have := congrFun (congrFun hPP i) i
    simpa [mul_apply, pow_two] using this
  have h2 : ∑ j, U j i ^ 2 = 1 := by
    have := congrFun (congrFun hU i) i
    simpa [mul_apply, pow_two] using this
  have h3 : (P * U) i i = ∑ j, P i j * U j i := by simp [mul_apply]
  rw [h3]
  have h4 : ∑ j, P i j * U j i ≤ ∑ j, (P i j ^ 2 + U j i ^ 2) / 2 :=
    Finset.sum_le_sum fun j _ => by nlinarith [sq_nonneg (P i j - U j i)]
  have h5 : ∑ j, (P i j ^ 2 + U j i ^ 2) / 2 = 1 := by
    rw [← Finset.sum_div, Finset.sum_add_distrib, h1, h2]; norm_num
  linarith

/-- The trace that Procrustes maximises, bounded by the sum of the singular values. -/
theorem trace_le_sum {r : Type*} [Fintype r] [DecidableEq r] {C : Matrix m r ℝ} {U : Matrix m k ℝ}
    {s : k → ℝ} {Vh : Matrix k r ℝ} (h : ThinSVD C U s Vh) {Y : Matrix r m ℝ} (hY : Y * Yᵀ = 1) :
    trace (C * Y) ≤ ∑ i, s i := by
  have e : trace (C * Y) = ∑ i, s i * (Vh * Y * U) i i := by
    rw [h.eq, Matrix.mul_assoc, Matrix.mul_assoc, trace_mul_comm, Matrix.mul_assoc]
    simp [trace, diagonal_mul]
  rw [e]
  apply Finset.sum_le_sum
  intro i _
  have := diag_le_one h.left h.right hY i
  nlinarith [h.nonneg i]

/-- The candidate returned by the code: singular directions that are not kept are dropped. -/
def procrustes {r : Type*} (U : Matrix m k ℝ) (keep : k → ℝ) (Vh : Matrix k r ℝ) : Matrix r m ℝ :=
  Vhᵀ * diagonal keep * Uᵀ

theorem procrustes_trace {r : Type*} [Fintype r] [DecidableEq r] {C : Matrix m r ℝ} {U : Matrix m k ℝ}
    {s : k → ℝ} {Vh : Matrix k r ℝ} (h : ThinSVD C U s Vh) (keep : k → ℝ) :
    trace (C * procrustes U keep Vh) = ∑ i, s i * keep i := by
  rw [h.eq, procrustes]
  have e1 : U * diagonal s * Vh * (Vhᵀ * diagonal keep * Uᵀ)
      = U * (diagonal s * (Vh * Vhᵀ) * diagonal keep * Uᵀ) := by simp only [Matrix.mul_assoc]
  rw [e1, h.right, Matrix.mul_one, trace_mul_comm, Matrix.mul_assoc, h.left, Matrix.mul_one,
    diagonal_mul_diagonal]
  simp [trace]

/-- `X Xᵀ = Vhᵀ diag(keep²) Vh`. -/
theorem procrustes_gram {r : Type*} [Fintype r] [DecidableEq r] {U : Matrix m k ℝ}
    {Vh : Matrix k r ℝ} (hU : Uᵀ * U = 1) (keep : k → ℝ) :
    procrustes U keep Vh * (procrustes U keep Vh)ᵀ = Vhᵀ * diagonal (fun i => keep i * keep i) * Vh := by
  rw [procrustes]
  simp only [transpose_mul, transpose_transpose, diagonal_transpose]
  have e1 : Vhᵀ * diagonal keep * Uᵀ * (U * (diagonal keep * Vh))
      = Vhᵀ * (diagonal keep * (Uᵀ * U) * diagonal keep) * Vh := by simp only [Matrix.mul_assoc]
  rw [e1, hU, Matrix.mul_one, diagonal_mul_diagonal]

/-- `Xᵀ X = U diag(keep²) Uᵀ`. -/
theorem procrustes_gram' {r : Type*} [Fintype r] [DecidableEq r] {U : Matrix m k ℝ}
    {Vh : Matrix k r ℝ} (hV : Vh * Vhᵀ = 1) (keep : k → ℝ) :
    (procrustes U keep Vh)ᵀ * procrustes U keep Vh = U * diagonal (fun i => keep i * keep i) * Uᵀ := by
  rw [procrustes]
  simp only [transpose_mul, transpose_transpose, diagonal_transpose]
  have e1 : U * (diagonal keep * Vh) * (Vhᵀ * diagonal keep * Uᵀ)
      = U * (diagonal keep * (Vh * Vhᵀ) * diagonal keep) * Uᵀ := by simp only [Matrix.mul_assoc]
  rw [e1, hV, Matrix.mul_one, diagonal_mul_diagonal]

theorem fip_eq_trace_swap {r : Type*} [Fintype r] (A : Matrix n r ℝ) (B : Matrix n m ℝ) (Y : Matrix r m ℝ) :
    fip (A * Y) B = trace (Bᵀ * A * Y) := by
  rw [fip_eq_trace, trace_mul_comm, ← Matrix.mul_assoc]

theorem fsq_mul_orth {r : Type*} [Fintype r] [DecidableEq r] (A : Matrix n r ℝ) {Y : Matrix r m ℝ}
    (hY : Y * Yᵀ = 1) : fsq (A * Y) = fsq A := by
  rw [fsq_eq_fip, fip_mul_left, Matrix.mul_assoc, hY, Matrix.mul_one, ← fsq_eq_fip]

/-- Bessel: dropping coordinates in an orthonormal system does not increase the norm. -/
theorem fsq_mul_procrustes_le {r : Type*} [Fintype r] [DecidableEq r] (A : Matrix n r ℝ)
    {U : Matrix m k ℝ} {Vh : Matrix k r ℝ} (hU : Uᵀ * U = 1) (hV : Vh * Vhᵀ = 1) {keep : k → ℝ}
    (hk : ∀ i, keep i = 0 ∨ keep i = 1) : fsq (A * procrustes U keep Vh) ≤ fsq A := by
  set X := procrustes U keep Vh with hX
  have hk2 : (fun i => keep i * keep i) = keep := by
    funext i; rcases hk i with h | h <;> simp [h]
  have hG : X * Xᵀ = Vhᵀ * diagonal keep * Vh := by rw [hX, procrustes_gram hU, hk2]
  set G := X * Xᵀ with hGdef
  have hGG : G * G = G := by
    rw [hG]
    have e1 : Vhᵀ * diagonal keep * Vh * (Vhᵀ * diagonal keep * Vh)
        = Vhᵀ * (diagonal keep * (Vh * Vhᵀ) * diagonal keep) * Vh := by simp only [Matrix.mul_assoc]
    rw [e1, hV, Matrix.mul_one, diagonal_mul_diagonal, hk2]
  have hGT : Gᵀ = G := by rw [hGdef, transpose_mul, transpose_transpose]
  have e2 : fsq (A * X) = fip A (A * G) := by
    rw [fsq_eq_fip, fip_mul_left, Matrix.mul_assoc]
  have e3 : fsq (A * G) = fip A (A * G) := by
    rw [fsq_eq_fip, fip_mul_left, hGT, Matrix.mul_assoc, hGG]
  have e4 := fsq_sub A (A * G)
  have e5 := fsq_nonneg (A - A * G)
  rw [e2]; linarith

/-- Procrustes with truncation: the loss of the returned matrix is at most the loss of any matrix with
orthonormal rows plus twice the sum of the dropped singular values of `Bᵀ A`. -/
theorem procrustes_bound {r : Type*} [Fintype r] [DecidableEq r] {A : Matrix n r ℝ} {B : Matrix n m ℝ}
    {U : Matrix m k ℝ} {s : k → ℝ} {Vh : Matrix k r ℝ} (h : ThinSVD (Bᵀ * A) U s Vh) {keep : k → ℝ}
    (hk : ∀ i, keep i = 0 ∨ keep i = 1) {Y : Matrix r m ℝ} (hY : Y * Yᵀ = 1) :
    fsq (A * procrustes U keep Vh - B) ≤ fsq (A * Y - B) + 2 * ∑ i, s i * (1 - keep i) := by
  rw [fsq_sub, fsq_sub, fip_eq_trace_swap, fip_eq_trace_swap, procrustes_trace h, fsq_mul_orth A hY]
  have h1 := fsq_mul_procrustes_le A h.left h.right hk
  have h2 := trace_le_sum h hY
  have h3 : ∑ i, s i * (1 - keep i) = ∑ i, s i - ∑ i, s i * keep i := by
    rw [← Finset.sum_sub_distrib]; exact Finset.sum_congr rfl fun _ _ => by ring
  rw [h3]; linarith

end TK.LA
