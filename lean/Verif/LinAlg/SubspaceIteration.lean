import Verif.LinAlg.Exists
import Mathlib.LinearAlgebra.Matrix.NonsingularInverse
import Mathlib.LinearAlgebra.Matrix.DotProduct
import Mathlib.LinearAlgebra.Matrix.ToLinearEquiv
import Mathlib.LinearAlgebra.Matrix.Rank

/-!
# Leading singular vectors and alternating least squares for matrices
-/

set_option linter.unusedSectionVars false

namespace TK.LA
open Matrix

/-- Spec: the columns of `U` and `V` are left and right singular vectors of `M` with the singular values `d`, and `M` stretches
vectors orthogonal to the columns of `V` at most by `ρ`, which is not larger than any of the `d`. -/
structure Leading {m n r : Type*} [Fintype m] [Fintype n] [Fintype r] [DecidableEq r] (M : Matrix m n ℝ) (U : Matrix m r ℝ)
    (V : Matrix n r ℝ) (d : r → ℝ) (ρ : ℝ) : Prop where
  left : Uᵀ * U = 1
  right : Vᵀ * V = 1
  mulV : M * V = U * diagonal d
  mulU : Mᵀ * U = V * diagonal d
  rest : ∀ z, Vᵀ *ᵥ z = 0 → (M *ᵥ z) ⬝ᵥ (M *ᵥ z) ≤ ρ ^ 2 * (z ⬝ᵥ z)
  nonneg : 0 ≤ ρ
  le : ∀ r, ρ ≤ d r

section
variable {m n r p : Type*} [Fintype m] [Fintype n] [Fintype r] [Fintype p] [DecidableEq r]
  {M : Matrix m n ℝ} {U : Matrix m r ℝ} {V : Matrix n r ℝ} {d : r → ℝ} {ρ : ℝ}

theorem fsq_cols (A : Matrix m n ℝ) : fsq A = ∑ j, (Aᵀ j) ⬝ᵥ (Aᵀ j) := by
  rw [fsq, Finset.sum_comm]
  exact Finset.sum_congr rfl fun j _ => Finset.sum_congr rfl fun i _ => by simp [pow_two]

theorem dot_sq_le (x y : m → ℝ) : (x ⬝ᵥ y) ^ 2 ≤ (x ⬝ᵥ x) * (y ⬝ᵥ y) := by
  have := Finset.sum_mul_sq_le_sq_mul_sq Finset.univ x y
  simpa only [dotProduct, pow_two] using this

theorem dot_self_nonneg (x : m → ℝ) : 0 ≤ x ⬝ᵥ x := Finset.sum_nonneg fun i _ => mul_self_nonneg (x i)

theorem Leading.fsq_rest (h : Leading M U V d ρ) {Z : Matrix n p ℝ} (hZ : Vᵀ * Z = 0) : fsq (M * Z) ≤ ρ ^ 2 * fsq Z := by
  rw [fsq_cols, fsq_cols, Finset.mul_sum]
  refine Finset.sum_le_sum fun j _ => ?_
  have h1 : (M * Z)ᵀ j = M *ᵥ (Zᵀ j) := by ext i; simp [mul_apply, mulVec, dotProduct]
  rw [h1]
  refine h.rest _ ?_
  ext i
  have := congrFun (congrFun hZ i) j
  simpa [mul_apply, mulVec, dotProduct] using this

/-- The same for the transposed matrix. -/
theorem Leading.flip (h : Leading M U V d ρ) : Leading Mᵀ V U d ρ := by
  refine ⟨h.right, h.left, h.mulU, by rw [transpose_transpose]; exact h.mulV, fun w hw => ?_, h.nonneg, h.le⟩
  set z := Mᵀ *ᵥ w with hz
  have hzv : Vᵀ *ᵥ z = 0 := by
    rw [hz, mulVec_mulVec, ← transpose_mul, h.mulV, transpose_mul, ← mulVec_mulVec, hw, mulVec_zero]
  have h1 := h.rest z hzv
  have h2 : z ⬝ᵥ z = w ⬝ᵥ (M *ᵥ z) := by
    rw [dotProduct_mulVec w, ← mulVec_transpose]
  have h3 := dot_sq_le w (M *ᵥ z)
  have hw0 := dot_self_nonneg w
  rw [← h2] at h3
  rcases (dot_self_nonneg z).eq_or_lt with h0 | h0
  · rw [← h0]; positivity
  · have h4 : (z ⬝ᵥ z) * (z ⬝ᵥ z) ≤ (ρ ^ 2 * (w ⬝ᵥ w)) * (z ⬝ᵥ z) := by nlinarith [mul_le_mul_of_nonneg_left h1 hw0]
    exact le_of_mul_le_mul_right h4 h0

/-- Bessel's inequality. -/
theorem bessel [DecidableEq p] {Q : Matrix n p ℝ} (hQ : Qᵀ * Q = 1) (v : n → ℝ) : (Qᵀ *ᵥ v) ⬝ᵥ (Qᵀ *ᵥ v) ≤ v ⬝ᵥ v := by
  have h0 := dot_self_nonneg (v - Q *ᵥ (Qᵀ *ᵥ v))
  have h1 : v ⬝ᵥ (Q *ᵥ (Qᵀ *ᵥ v)) = (Qᵀ *ᵥ v) ⬝ᵥ (Qᵀ *ᵥ v) := by rw [dotProduct_mulVec, ← mulVec_transpose]
  have h2 : (Q *ᵥ (Qᵀ *ᵥ v)) ⬝ᵥ (Q *ᵥ (Qᵀ *ᵥ v)) = (Qᵀ *ᵥ v) ⬝ᵥ (Qᵀ *ᵥ v) := by
    rw [dotProduct_mulVec, ← mulVec_transpose, mulVec_mulVec, hQ, one_mulVec]
  rw [sub_dotProduct, dotProduct_sub, dotProduct_sub, h1, h2, dotProduct_comm (Q *ᵥ _) v, h1] at h0
  linarith

/-- Orthonormal columns capture at most what the leading singular vectors capture. -/
theorem Leading.capture [DecidableEq p] (h : Leading M U V d ρ) {Q : Matrix n p ℝ} (hQ : Qᵀ * Q = 1)
    (hp : Fintype.card p ≤ Fintype.card r) : fsq (M * Q) ≤ ∑ i, d i ^ 2 := by
  set W := Vᵀ * Q with hW
  set Z := Q - V * W with hZ
  have hVZ : Vᵀ * Z = 0 := by
    rw [hZ, Matrix.mul_sub, ← Matrix.mul_assoc, h.right, Matrix.one_mul, sub_self]
  have e1 : M * Q = U * (diagonal d * W) + M * Z := by
    rw [hZ, Matrix.mul_sub, ← Matrix.mul_assoc M, h.mulV, Matrix.mul_assoc]; abel
  have e2 : fip (U * (diagonal d * W)) (M * Z) = 0 := by
    rw [fip_mul_left', ← Matrix.mul_assoc Uᵀ, show Uᵀ * M = diagonal d * Vᵀ by
      rw [← transpose_transpose M, ← transpose_mul, h.mulU, transpose_mul, diagonal_transpose], Matrix.mul_assoc _ Vᵀ Z, hVZ,
      Matrix.mul_zero, fip_zero_right]
  have e3 : fsq (U * (diagonal d * W)) = fsq (diagonal d * W) := by
    rw [fsq_eq_fip, fip_mul_left', ← Matrix.mul_assoc Uᵀ, h.left, Matrix.one_mul, ← fsq_eq_fip]
  have e4 : fsq (diagonal d * W) = ∑ i, d i ^ 2 * ∑ j, W i j ^ 2 := by
    rw [fsq]
    refine Finset.sum_congr rfl fun i _ => ?_
    rw [Finset.mul_sum]
    exact Finset.sum_congr rfl fun j _ => by rw [diagonal_mul]; ring
  have e5 : fsq Q = Fintype.card p := by
    have : fsq Q = trace (Qᵀ * Q) := by
      rw [← fsq_transpose, fsq_eq_fip, fip_eq_trace, transpose_transpose]
    rw [this, hQ, trace_one]
  have e6 : fsq Z = fsq Q - ∑ i, ∑ j, W i j ^ 2 := by
    have e : fip Q (V * W) = fsq W := by rw [fip_comm, fip_mul_left', ← hW, ← fsq_eq_fip]
    have e' : fsq (V * W) = fsq W := by rw [fsq_eq_fip, fip_mul_left', ← Matrix.mul_assoc Vᵀ, h.right, Matrix.one_mul, ← fsq_eq_fip]
    rw [hZ, fsq_sub, e, e', fsq, fsq]; ring
  have hs : ∀ i, ∑ j, W i j ^ 2 ≤ 1 := by
    intro i
    have hb := bessel hQ (Vᵀ i)
    have h1 : (Vᵀ i) ⬝ᵥ (Vᵀ i) = 1 := by
      have := congrFun (congrFun h.right i) i
      simpa [mul_apply, dotProduct] using this
    rw [h1] at hb
    refine le_trans (le_of_eq ?_) hb
    rw [dotProduct]
    refine Finset.sum_congr rfl fun j _ => ?_
    have : W i j = (Qᵀ *ᵥ (Vᵀ i)) j := by simp [hW, mul_apply, mulVec, dotProduct, mul_comm]
    rw [this, pow_two]
  have h3 := h.fsq_rest hVZ
  rw [e1, fsq_add, e2, e3, e4]
  have h4 : ∑ i, d i ^ 2 * ∑ j, W i j ^ 2 + ρ ^ 2 * (Fintype.card r - ∑ i, ∑ j, W i j ^ 2) ≤ ∑ i, d i ^ 2 := by
    have : (Fintype.card r : ℝ) - ∑ i, ∑ j, W i j ^ 2 = ∑ i, (1 - ∑ j, W i j ^ 2) := by
      rw [Finset.sum_sub_distrib]; simp
    rw [this, Finset.mul_sum, ← Finset.sum_add_distrib]
    refine Finset.sum_le_sum fun i _ => ?_
    have h5 : ρ ^ 2 ≤ d i ^ 2 := pow_le_pow_left₀ h.nonneg (h.le i) 2
    nlinarith [hs i, mul_le_mul_of_nonneg_right h5 (sub_nonneg.2 (hs i))]
  have h5 : ρ ^ 2 * fsq Z ≤ ρ ^ 2 * (Fintype.card r - ∑ i, ∑ j, W i j ^ 2) := by
    refine mul_le_mul_of_nonneg_left ?_ (sq_nonneg _)
    rw [e6, e5]
    have : (Fintype.card p : ℝ) ≤ Fintype.card r := by exact_mod_cast hp
    linarith
  linarith

/-- The part of `M` beyond the leading singular vectors. -/
theorem Leading.mulV_sub (h : Leading M U V d ρ) : (M - U * diagonal d * Vᵀ) * V = 0 := by
  rw [Matrix.sub_mul, h.mulV, Matrix.mul_assoc, h.right, Matrix.mul_one, sub_self]

theorem Leading.fsq_sub (h : Leading M U V d ρ) : fsq (M - U * diagonal d * Vᵀ) = fsq M - ∑ i, d i ^ 2 := by
  have e1 : fip M (U * diagonal d * Vᵀ) = ∑ i, d i ^ 2 := by
    rw [fip_comm, fip_mul_left, transpose_transpose, h.mulV, ← fsq_eq_fip, fsq_eq_fip, fip_mul_left', ← Matrix.mul_assoc, h.left,
      Matrix.one_mul, ← fsq_eq_fip, fsq]
    refine Finset.sum_congr rfl fun i _ => ?_
    rw [Finset.sum_eq_single i (fun j _ hj => by rw [diagonal_apply_ne _ hj.symm]; simp) (by simp), diagonal_apply_eq]
  have e2 : fip (M - U * diagonal d * Vᵀ) (U * diagonal d * Vᵀ) = 0 := by
    rw [fip_comm, fip_mul_left, transpose_transpose, h.mulV_sub, fip_zero_right]
  have e3 : fsq (U * diagonal d * Vᵀ) = ∑ i, d i ^ 2 := by
    rw [fip_sub_left, e1] at e2
    rw [fsq_eq_fip]; linarith
  rw [LA.fsq_sub, e1, e3]; ring

end

section
variable {I J R : ℕ} {M : Matrix (Fin I) (Fin J) ℝ} {U : Matrix (Fin I) (Fin R) ℝ} {V : Matrix (Fin J) (Fin R) ℝ} {d : Fin R → ℝ}
  {ρ : ℝ}

/-- What is left of `M` by a matrix with orthonormal columns: projecting is best. -/
theorem fsq_project {m n p : Type*} [Fintype m] [Fintype n] [Fintype p] [DecidableEq p] (M : Matrix m n ℝ) {Q : Matrix n p ℝ}
    (hQ : Qᵀ * Q = 1) (A : Matrix m p ℝ) : fsq M - fsq (M * Q) ≤ fsq (M - A * Qᵀ) := by
  have e1 : fip M (A * Qᵀ) = fip (M * Q) A := by rw [fip_comm, fip_mul_left, transpose_transpose, fip_comm]
  have e2 : fsq (A * Qᵀ) = fsq A := fsq_mul_orth A (by rw [transpose_transpose]; exact hQ)
  have h := fsq_nonneg (M * Q - A)
  rw [LA.fsq_sub] at h
  rw [LA.fsq_sub, e1, e2]; linarith

/-- Every product of two matrices with `R` columns is one in which the second factor has orthonormal columns. -/
theorem exists_orth_factor (A : Matrix (Fin I) (Fin R) ℝ) (B : Matrix (Fin J) (Fin R) ℝ) :
    ∃ (Q : Matrix (Fin J) (Fin (min J R)) ℝ) (C : Matrix (Fin I) (Fin (min J R)) ℝ), Qᵀ * Q = 1 ∧ A * Bᵀ = C * Qᵀ := by
  obtain ⟨Q, s, Vh, h, -⟩ := exists_svd B _ rfl
  exact ⟨Q, A * (Vhᵀ * diagonal s), h.left, by rw [ThinSVD.transpose_eq h.eq, Matrix.mul_assoc]; simp only [Matrix.mul_assoc]⟩

/-- The Eckart-Young theorem: no product of matrices with `R` columns is closer to `M`. -/
theorem Leading.eckart_young (h : Leading M U V d ρ) (A : Matrix (Fin I) (Fin R) ℝ) (B : Matrix (Fin J) (Fin R) ℝ) :
    fsq M - ∑ i, d i ^ 2 ≤ fsq (M - A * Bᵀ) := by
  obtain ⟨Q, C, hQ, e⟩ := exists_orth_factor A B
  rw [e]
  have h1 := fsq_project M hQ C
  have h2 := h.capture hQ (by simp)
  linarith

/-! ## Alternating least squares -/

/-- Spec: the columns of `B` span the same space as those of `V + Z`, where `Z` is orthogonal to `V` and of size at most `τ`. -/
def Near (V B : Matrix (Fin J) (Fin R) ℝ) (Z : Matrix (Fin J) (Fin R) ℝ) (K : Matrix (Fin R) (Fin R) ℝ) : Prop :=
  Vᵀ * Z = 0 ∧ IsUnit K ∧ B = (V + Z) * K

theorem near_start (hV : Vᵀ * V = 1) {B : Matrix (Fin J) (Fin R) ℝ} (hB : IsUnit (Vᵀ * B)) :
    Near V B (B * (Vᵀ * B)⁻¹ - V) (Vᵀ * B) := by
  have hd := (isUnit_iff_isUnit_det _).1 hB
  refine ⟨?_, hB, ?_⟩
  · rw [Matrix.mul_sub, ← Matrix.mul_assoc, mul_nonsing_inv _ hd, hV, sub_self]
  · rw [add_sub_cancel, Matrix.mul_assoc, nonsing_inv_mul _ hd, Matrix.mul_one]

theorem Near.gram_unit {B Z : Matrix (Fin J) (Fin R) ℝ} {K : Matrix (Fin R) (Fin R) ℝ} (hV : Vᵀ * V = 1) (h : Near V B Z K) :
    IsUnit (Bᵀ * B) := by
  rw [← mulVec_injective_iff_isUnit]
  refine (injective_iff_map_eq_zero (mulVecLin (Bᵀ * B))).2 fun x hx => ?_
  rw [mulVecLin_apply, ← mulVec_mulVec] at hx
  have h1 : B *ᵥ x = 0 := by
    refine dotProduct_self_eq_zero.1 ?_
    rw [dotProduct_mulVec, ← mulVec_transpose, hx, zero_dotProduct]
  have h2 : K *ᵥ x = 0 := by
    have : Vᵀ * B = K := by rw [h.2.2, ← Matrix.mul_assoc, Matrix.mul_add, hV, h.1, add_zero, Matrix.one_mul]
    rw [← this, ← mulVec_mulVec, h1, mulVec_zero]
  exact mulVec_injective_iff_isUnit.2 h.2.1 (by rw [h2, mulVec_zero])

variable {σ : ℝ}

theorem fsq_mul_diag_inv_le {n : Type*} [Fintype n] (hσ : 0 < σ) (hd : ∀ r, σ ≤ d r) (Y : Matrix n (Fin R) ℝ) :
    fsq (Y * diagonal fun r => (d r)⁻¹) ≤ (1 / σ) ^ 2 * fsq Y := by
  rw [fsq, fsq, Finset.mul_sum]
  refine Finset.sum_le_sum fun i _ => ?_
  rw [Finset.mul_sum]
  refine Finset.sum_le_sum fun r _ => ?_
  rw [mul_diagonal, mul_pow, mul_comm]
  refine mul_le_mul_of_nonneg_right ?_ (sq_nonneg _)
  have h0 : 0 < d r := hσ.trans_le (hd r)
  rw [inv_eq_one_div]
  exact pow_le_pow_left₀ (by positivity) (one_div_le_one_div_of_le hσ (hd r)) 2

/-- One update of a factor matrix. -/
theorem Leading.step (h : Leading M U V d ρ) (hσ : 0 < σ) (hd : ∀ r, σ ≤ d r) {B Z : Matrix (Fin J) (Fin R) ℝ}
    {K : Matrix (Fin R) (Fin R) ℝ} (hB : Near V B Z K) {F : Matrix (Fin I) (Fin R) ℝ} (hF : F * (Bᵀ * B) = M * B) :
    ∃ K', Near U F (M * Z * diagonal fun r => (d r)⁻¹) K' ∧
      fsq (M * Z * diagonal fun r => (d r)⁻¹) ≤ (ρ / σ) ^ 2 * fsq Z := by
  have hu := hB.gram_unit h.right
  have hdet := (isUnit_iff_isUnit_det _).1 hu
  have hd0 : ∀ r, d r ≠ 0 := fun r => (hσ.trans_le (hd r)).ne'
  have hD : diagonal d * (diagonal fun r => (d r)⁻¹) = 1 := by
    rw [diagonal_mul_diagonal, ← diagonal_one]
    exact congrArg _ (funext fun r => mul_inv_cancel₀ (hd0 r))
  have hD' : (diagonal fun r => (d r)⁻¹) * diagonal d = 1 := mul_eq_one_comm.1 hD
  refine ⟨diagonal d * K * (Bᵀ * B)⁻¹, ⟨?_, ?_, ?_⟩, ?_⟩
  · have : Uᵀ * M = diagonal d * Vᵀ := by
      rw [← transpose_transpose M, ← transpose_mul, h.mulU, transpose_mul, diagonal_transpose]
    rw [← Matrix.mul_assoc, ← Matrix.mul_assoc, this, Matrix.mul_assoc (diagonal d), hB.1, Matrix.mul_zero, Matrix.zero_mul]
  · exact (((isUnit_iff_exists_inv).2 ⟨_, hD⟩).mul hB.2.1).mul ((isUnit_nonsing_inv_iff).2 hu)
  · have e1 : F = M * B * (Bᵀ * B)⁻¹ := by
      rw [← hF, Matrix.mul_assoc, mul_nonsing_inv _ hdet, Matrix.mul_one]
    have e2 : M * B = (U + M * Z * diagonal fun r => (d r)⁻¹) * (diagonal d * K) := by
      conv_lhs => rw [hB.2.2]
      rw [← Matrix.mul_assoc, ← Matrix.mul_assoc, Matrix.mul_add, h.mulV, Matrix.add_mul U, Matrix.mul_assoc (M * Z), hD',
        Matrix.mul_one]
    rw [e1, e2, Matrix.mul_assoc]
  · refine (fsq_mul_diag_inv_le hσ hd _).trans ?_
    have := mul_le_mul_of_nonneg_left (h.fsq_rest hB.1) (sq_nonneg (1 / σ))
    calc _ ≤ _ := this
      _ = _ := by field_simp

/-- The model after the updates of both factor matrices. -/
theorem Leading.model (h : Leading M U V d ρ) (hσ : 0 < σ) (hd : ∀ r, σ ≤ d r) {B Z : Matrix (Fin J) (Fin R) ℝ}
    {K : Matrix (Fin R) (Fin R) ℝ} (hB : Near V B Z K) {F : Matrix (Fin I) (Fin R) ℝ} (hF : F * (Bᵀ * B) = M * B)
    {G : Matrix (Fin J) (Fin R) ℝ} (hG : G * (Fᵀ * F) = Mᵀ * F) :
    fsq (M - F * Gᵀ) ≤ fsq M - ∑ i, d i ^ 2 + ρ ^ 2 * fsq Z ∧ fsq (F * Gᵀ - U * diagonal d * Vᵀ) ≤ 4 * (ρ ^ 2 * fsq Z) := by
  obtain ⟨K', hF', -⟩ := h.step hσ hd hB hF
  set Z' := M * Z * diagonal fun r => (d r)⁻¹ with hZ'
  have hd0 : ∀ r, d r ≠ 0 := fun r => (hσ.trans_le (hd r)).ne'
  have hD' : (diagonal fun r => (d r)⁻¹) * diagonal d = 1 := by
    rw [diagonal_mul_diagonal, ← diagonal_one]
    exact congrArg _ (funext fun r => inv_mul_cancel₀ (hd0 r))
  have hZD : Z' * diagonal d = M * Z := by rw [hZ', Matrix.mul_assoc, hD', Matrix.mul_one]
  have hdet := (isUnit_iff_isUnit_det _).1 hF'.2.1
  -- the comparison model
  set Y : Matrix (Fin J) (Fin R) ℝ := (K'⁻¹ * (diagonal d * Vᵀ))ᵀ with hY
  have hFY : F * Yᵀ = U * diagonal d * Vᵀ + M * Z * Vᵀ := by
    rw [hY, transpose_transpose, hF'.2.2, Matrix.mul_assoc, ← Matrix.mul_assoc K', mul_nonsing_inv _ hdet, Matrix.one_mul,
      Matrix.add_mul, ← Matrix.mul_assoc, ← Matrix.mul_assoc, hZD]
  have hn : (G * Fᵀ - Mᵀ) * Fᵀᵀ = 0 := by
    rw [transpose_transpose, Matrix.sub_mul, Matrix.mul_assoc, hG, sub_self]
  have hp := ls_pythagoras (Y := Y) hn
  have t1 : ∀ H : Matrix (Fin J) (Fin R) ℝ, fsq (H * Fᵀ - Mᵀ) = fsq (M - F * Hᵀ) := fun H => by
    rw [← fsq_transpose, transpose_sub, transpose_mul, transpose_transpose, transpose_transpose, fsq_sub_comm]
  rw [t1, t1] at hp
  have e1 : fsq (M - F * Yᵀ) = fsq M - ∑ i, d i ^ 2 + fsq (M * Z) := by
    have : M - F * Yᵀ = (M - U * diagonal d * Vᵀ) - M * Z * Vᵀ := by rw [hFY]; abel
    rw [this, LA.fsq_sub, h.fsq_sub, fsq_mul_orth _ (show Vᵀ * Vᵀᵀ = 1 by rw [transpose_transpose]; exact h.right), fip_comm,
      fip_mul_left, transpose_transpose, h.mulV_sub, fip_zero_right]
    ring
  have h1 := h.fsq_rest hB.1
  have h2 := h.eckart_young F G
  have h3 := fsq_nonneg ((Y - G) * Fᵀ)
  refine ⟨by linarith, ?_⟩
  have e2 : F * Gᵀ - U * diagonal d * Vᵀ = (F * Gᵀ - F * Yᵀ) + M * Z * Vᵀ := by rw [hFY]; abel
  have e3 : fsq (F * Gᵀ - F * Yᵀ) = fsq ((Y - G) * Fᵀ) := by
    rw [← Matrix.mul_sub, ← fsq_transpose, transpose_mul, transpose_sub, transpose_transpose, transpose_transpose, Matrix.sub_mul,
      Matrix.sub_mul, fsq_sub_comm]
  have e4 : fsq (M * Z * Vᵀ) = fsq (M * Z) := fsq_mul_orth _ (by rw [transpose_transpose]; exact h.right)
  have e5 : fsq ((F * Gᵀ - F * Yᵀ) + M * Z * Vᵀ) ≤ 2 * fsq (F * Gᵀ - F * Yᵀ) + 2 * fsq (M * Z * Vᵀ) := by
    have q1 := fsq_nonneg ((F * Gᵀ - F * Yᵀ) - M * Z * Vᵀ)
    rw [LA.fsq_sub] at q1
    rw [fsq_add]; linarith
  rw [e2]
  rw [e3, e4] at e5
  linarith

end

end TK.LA
