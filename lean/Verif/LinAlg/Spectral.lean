import Verif.LinAlg.LeastSquares
import Mathlib.LinearAlgebra.Lagrange

/-!
# Functions of the singular values do not depend on the choice of the singular vectors

If `A = U diag(s) Vh = U' diag(s') Vh'` are two thin singular value decompositions and `φ 0 = 0`, then
`Vhᵀ diag(φ s) Uᵀ = Vh'ᵀ diag(φ s') U'ᵀ`: the matrix is a polynomial in `AᵀA` times `Aᵀ`.
-/

namespace TK.LA
open Matrix Polynomial

variable {m n k k' : Type*} [Fintype m] [Fintype n] [Fintype k] [Fintype k'] [DecidableEq m] [DecidableEq n]
  [DecidableEq k] [DecidableEq k']

/-- `(AᵀA)^j Aᵀ = Vhᵀ diag(s^(2j+1)) Uᵀ`. -/
theorem ThinSVD.pow_mul {A : Matrix m n ℝ} {U : Matrix m k ℝ} {s : k → ℝ} {Vh : Matrix k n ℝ} (h : ThinSVD A U s Vh)
    (j : ℕ) : (Aᵀ * A) ^ j * Aᵀ = Vhᵀ * diagonal (fun i => s i * (s i ^ 2) ^ j) * Uᵀ := by
  induction j with
  | zero =>
    simp only [pow_zero, Matrix.one_mul, mul_one]
    exact ThinSVD.transpose_eq h.eq
  | succ j ih =>
    rw [pow_succ', Matrix.mul_assoc, ih, ThinSVD.transpose_eq h.eq, h.eq]
    have e : Vhᵀ * diagonal s * Uᵀ * (U * diagonal s * Vh) * (Vhᵀ * diagonal (fun i => s i * (s i ^ 2) ^ j) * Uᵀ)
        = Vhᵀ * (diagonal s * (Uᵀ * U) * diagonal s * (Vh * Vhᵀ) * diagonal (fun i => s i * (s i ^ 2) ^ j)) * Uᵀ := by
      simp only [Matrix.mul_assoc]
    rw [e, h.left, h.right, Matrix.mul_one, Matrix.mul_one, diagonal_mul_diagonal, diagonal_mul_diagonal]
    congr 3
    funext i
    ring

/-- `p(AᵀA) Aᵀ = Vhᵀ diag(s p(s²)) Uᵀ`. -/
theorem ThinSVD.aeval_mul {A : Matrix m n ℝ} {U : Matrix m k ℝ} {s : k → ℝ} {Vh : Matrix k n ℝ} (h : ThinSVD A U s Vh)
    (p : ℝ[X]) : aeval (Aᵀ * A) p * Aᵀ = Vhᵀ * diagonal (fun i => s i * p.eval (s i ^ 2)) * Uᵀ := by
  induction p using Polynomial.induction_on' with
  | add p q hp hq =>
    rw [map_add, Matrix.add_mul, hp, hq, ← Matrix.add_mul, ← Matrix.mul_add, diagonal_add]
    congr 3
    funext i
    rw [eval_add]; ring
  | monomial j a =>
    rw [aeval_monomial, ← Algebra.smul_def, Matrix.smul_mul, h.pow_mul, ← Matrix.smul_mul, ← Matrix.mul_smul,
      ← diagonal_smul]
    congr 3
    funext i
    simp only [Pi.smul_apply, smul_eq_mul, eval_monomial]
    ring

/-- The matrix `Vhᵀ diag(φ s) Uᵀ` depends on the matrix and on `φ` only. -/
theorem ThinSVD.spectral_unique {A : Matrix m n ℝ} {U : Matrix m k ℝ} {s : k → ℝ} {Vh : Matrix k n ℝ}
    {U' : Matrix m k' ℝ} {s' : k' → ℝ} {Vh' : Matrix k' n ℝ} (h : ThinSVD A U s Vh) (h' : ThinSVD A U' s' Vh')
    (φ : ℝ → ℝ) (h0 : φ 0 = 0) :
    Vhᵀ * diagonal (fun i => φ (s i)) * Uᵀ = Vh'ᵀ * diagonal (fun i => φ (s' i)) * U'ᵀ := by
  classical
  set T : Finset ℝ := Finset.univ.image s ∪ Finset.univ.image s' with hT
  have hpos : ∀ x ∈ T, 0 ≤ x := by
    intro x hx
    rw [hT, Finset.mem_union, Finset.mem_image, Finset.mem_image] at hx
    rcases hx with ⟨i, -, rfl⟩ | ⟨i, -, rfl⟩
    · exact h.nonneg i
    · exact h'.nonneg i
  have hinj : Set.InjOn (fun x : ℝ => x ^ 2) T := by
    intro x hx y hy e
    exact (sq_eq_sq₀ (hpos x hx) (hpos y hy)).1 e
  set p : ℝ[X] := Lagrange.interpolate T (fun x : ℝ => x ^ 2) fun x => φ x / x with hp
  have hev : ∀ x ∈ T, x * p.eval (x ^ 2) = φ x := by
    intro x hx
    have := Lagrange.eval_interpolate_at_node (fun x => φ x / x) hinj hx
    rw [← hp] at this
    rw [this]
    rcases eq_or_ne x 0 with rfl | hne
    · simp [h0]
    · field_simp
  have e := h.aeval_mul p
  rw [h'.aeval_mul p] at e
  have a1 : (fun i => s i * p.eval (s i ^ 2)) = fun i => φ (s i) := by
    funext i
    exact hev _ (by simp [hT])
  have a2 : (fun i => s' i * p.eval (s' i ^ 2)) = fun i => φ (s' i) := by
    funext i
    exact hev _ (by simp [hT])
  rw [a1, a2] at e
  exact e.symm

/-- A non-zero singular value occurs in every decomposition. -/
theorem ThinSVD.value_mem {A : Matrix m n ℝ} {U : Matrix m k ℝ} {s : k → ℝ} {Vh : Matrix k n ℝ}
    {U' : Matrix m k' ℝ} {s' : k' → ℝ} {Vh' : Matrix k' n ℝ} (h : ThinSVD A U s Vh) (h' : ThinSVD A U' s' Vh')
    {i : k} (hne : s i ≠ 0) : ∃ j, s' j = s i := by
  classical
  by_contra hno
  push Not at hno
  have e := h.spectral_unique h' (fun x => if x = s i then 1 else 0) (by simp [hne.symm])
  have z : (fun j => if s' j = s i then (1 : ℝ) else 0) = fun _ => 0 := by
    funext j; simp [hno j]
  rw [z] at e
  have z' : (diagonal fun _ : k' => (0 : ℝ)) = 0 := by
    ext a b; simp [diagonal]
  rw [z', Matrix.mul_zero, Matrix.zero_mul] at e
  have e2 : Vh * (Vhᵀ * diagonal (fun j => if s j = s i then (1 : ℝ) else 0) * Uᵀ) * U
      = diagonal (fun j => if s j = s i then (1 : ℝ) else 0) := by
    have : Vh * (Vhᵀ * diagonal (fun j => if s j = s i then (1 : ℝ) else 0) * Uᵀ) * U
        = (Vh * Vhᵀ) * diagonal (fun j => if s j = s i then (1 : ℝ) else 0) * (Uᵀ * U) := by
      simp only [Matrix.mul_assoc]
    rw [this, h.left, h.right, Matrix.one_mul, Matrix.mul_one]
  rw [e, Matrix.mul_zero, Matrix.zero_mul] at e2
  have := congrFun (congrFun e2 i) i
  simp at this

end TK.LA
