import Mathlib.LinearAlgebra.Matrix.NonsingularInverse
import Verif.LinAlg.LeastSquares

/-!
# Leading singular vectors capture the most of a matrix (Ky Fan's maximum principle)
-/

namespace TK.LA
open Matrix

/-- The first `R` columns. -/
def firstCols {m R : ℕ} (hR : R ≤ m) (U : Matrix (Fin m) (Fin m) ℝ) : Matrix (Fin m) (Fin R) ℝ :=
  fun i j => U i (Fin.castLE hR j)

theorem firstCols_orth {m R : ℕ} (hR : R ≤ m) {U : Matrix (Fin m) (Fin m) ℝ} (hU : Uᵀ * U = 1) :
    (firstCols hR U)ᵀ * firstCols hR U = 1 := by
  ext i j
  have := congrFun (congrFun hU (Fin.castLE hR i)) (Fin.castLE hR j)
  simp only [mul_apply, transpose_apply, one_apply, firstCols, Fin.ext_iff, Fin.val_castLE] at this ⊢
  exact this

/-- The squared norm of `Gᵀ M` in terms of an eigendecomposition of `M Mᵀ`. -/
theorem fsq_eig {m R : ℕ} {n : Type*} [Fintype n] {M : Matrix (Fin m) n ℝ} {U : Matrix (Fin m) (Fin m) ℝ} {l : Fin m → ℝ}
    (hU : Uᵀ * U = 1) (h : M * Mᵀ * U = U * diagonal l) (G : Matrix (Fin m) (Fin R) ℝ) :
    fsq (Gᵀ * M) = ∑ i, l i * ∑ j, (Uᵀ * G) i j ^ 2 := by
  have hU' : U * Uᵀ = 1 := mul_eq_one_comm.1 hU
  have hM : M * Mᵀ = U * diagonal l * Uᵀ := by
    rw [← h, Matrix.mul_assoc, hU', Matrix.mul_one]
  rw [fsq_eq_fip, fip_eq_trace, transpose_mul, transpose_transpose]
  have : Gᵀ * M * (Mᵀ * G) = (Uᵀ * G)ᵀ * (diagonal l * (Uᵀ * G)) := by
    calc Gᵀ * M * (Mᵀ * G) = Gᵀ * (M * Mᵀ) * G := by simp only [Matrix.mul_assoc]
      _ = _ := by rw [hM, transpose_mul, transpose_transpose]; simp only [Matrix.mul_assoc]
  rw [this, trace_mul_comm, Matrix.mul_assoc, trace]
  refine Finset.sum_congr rfl fun i _ => ?_
  rw [diag_apply, diagonal_mul, mul_apply]
  congr 1
  exact Finset.sum_congr rfl fun j _ => by rw [transpose_apply, sq]

theorem row_le_one {m R : ℕ} {W : Matrix (Fin m) (Fin R) ℝ} (h : Wᵀ * W = 1) (i : Fin m) :
    ∑ j, W i j ^ 2 ≤ 1 := by
  set P := W * Wᵀ with hP
  have hPP : P * P = P := by
    rw [hP, Matrix.mul_assoc, ← Matrix.mul_assoc Wᵀ, h, Matrix.one_mul]
  have hs : Pᵀ = P := by rw [hP, transpose_mul, transpose_transpose]
  have hd : ∑ j, W i j ^ 2 = P i i := by
    rw [hP, mul_apply]; exact Finset.sum_congr rfl fun j _ => by rw [transpose_apply, sq]
  have h1 : P i i ^ 2 ≤ P i i := by
    conv_rhs => rw [← hPP, mul_apply]
    have := Finset.single_le_sum (f := fun j => P i j * P j i) (s := Finset.univ) (fun j _ => by
      have : P j i = P i j := congrFun (congrFun hs i) j
      rw [this]; exact mul_self_nonneg _) (Finset.mem_univ i)
    simpa [sq] using this
  rw [hd]
  by_contra hc
  push Not at hc
  nlinarith

/-- Ky Fan: no matrix with `R` orthonormal columns captures more of `M` than its `R` leading left singular
vectors. -/
theorem ky_fan {m R : ℕ} {n : Type*} [Fintype n] {M : Matrix (Fin m) n ℝ} {U : Matrix (Fin m) (Fin m) ℝ} {l : Fin m → ℝ}
    (hl : Antitone l) (hU : Uᵀ * U = 1) (h : M * Mᵀ * U = U * diagonal l) (hR : R ≤ m)
    {G : Matrix (Fin m) (Fin R) ℝ} (hG : Gᵀ * G = 1) : fsq (Gᵀ * M) ≤ fsq ((firstCols hR U)ᵀ * M) := by
  have hU' : U * Uᵀ = 1 := mul_eq_one_comm.1 hU
  rw [fsq_eig hU h, fsq_eig hU h]
  set W := Uᵀ * G with hW
  have hWW : Wᵀ * W = 1 := by
    rw [hW, transpose_mul, transpose_transpose, Matrix.mul_assoc, ← Matrix.mul_assoc U, hU', Matrix.one_mul, hG]
  have hsumW : ∑ i, ∑ j, W i j ^ 2 = R := by
    rw [Finset.sum_comm]
    have : ∀ j, ∑ i, W i j ^ 2 = 1 := by
      intro j
      have := congrFun (congrFun hWW j) j
      rw [mul_apply, one_apply_eq] at this
      rw [← this]
      exact Finset.sum_congr rfl fun i _ => by rw [transpose_apply, sq]
    simp [this]
  have hq : ∀ i, ∑ j, (Uᵀ * firstCols hR U) i j ^ 2 = if (i : ℕ) < R then 1 else 0 := by
    intro i
    have he : ∀ j, (Uᵀ * firstCols hR U) i j = if i = Fin.castLE hR j then 1 else 0 := by
      intro j
      have := congrFun (congrFun hU i) (Fin.castLE hR j)
      rw [one_apply] at this
      rw [← this]; rfl
    simp only [he]
    by_cases hi : (i : ℕ) < R
    · rw [if_pos hi, Finset.sum_eq_single ⟨i, hi⟩]
      · rw [if_pos (by ext; rfl)]; norm_num
      · intro j _ hj
        rw [if_neg (fun hc : i = Fin.castLE hR j => hj (Fin.ext (congrArg Fin.val hc).symm))]; norm_num
      · simp
    · rw [if_neg hi]
      refine Finset.sum_eq_zero fun j _ => ?_
      rw [if_neg (fun hc => hi (by rw [hc]; exact j.2))]; norm_num
  simp only [hq]
  have hsumq : ∑ i : Fin m, (if (i : ℕ) < R then (1 : ℝ) else 0) = R := by
    have h1 : fsq ((firstCols hR U)ᵀ * (1 : Matrix (Fin m) (Fin m) ℝ)) = R := by
      rw [Matrix.mul_one, fsq_eq_fip, fip_eq_trace, transpose_transpose, firstCols_orth hR hU]
      simp
    have := fsq_eig (M := (1 : Matrix (Fin m) (Fin m) ℝ)) (l := fun _ => 1) hU (by simp) (firstCols hR U)
    rw [h1] at this
    simp only [hq, one_mul] at this
    exact this.symm
  rcases Nat.eq_zero_or_pos R with h0 | hpos
  · subst h0
    have : ∀ i, ∑ j, W i j ^ 2 = 0 := fun i => by simp
    simp [this]
  · set c := l ⟨R - 1, by omega⟩ with hc
    have key : ∀ i, (l i - c) * (∑ j, W i j ^ 2) ≤ (l i - c) * (if (i : ℕ) < R then 1 else 0) := by
      intro i
      by_cases hi : (i : ℕ) < R
      · rw [if_pos hi]
        exact mul_le_mul_of_nonneg_left (row_le_one hWW i) (sub_nonneg.2 (hl (by
          rw [Fin.le_def]; simp only; omega)))
      · rw [if_neg hi, mul_zero]
        exact mul_nonpos_of_nonpos_of_nonneg (sub_nonpos.2 (hl (by
          rw [Fin.le_def]; simp only; omega))) (Finset.sum_nonneg fun j _ => sq_nonneg _)
    have := Finset.sum_le_sum fun i (_ : i ∈ Finset.univ) => key i
    simp only [sub_mul, Finset.sum_sub_distrib, ← Finset.mul_sum] at this
    rw [hsumW, hsumq] at this
    linarith

end TK.LA
