import Verif.LinAlg.KyFan
import Verif.LinAlg.SubspaceIteration

/-!
# What matrices of rank `R` leave unexplained
-/

namespace TK.LA
open Matrix

/-- Spec: the eigenvalues of a symmetric matrix in decreasing order. -/
def Eigenvalues {m : ℕ} (G : Matrix (Fin m) (Fin m) ℝ) (l : Fin m → ℝ) : Prop :=
  Antitone l ∧ ∃ U : Matrix (Fin m) (Fin m) ℝ, Uᵀ * U = 1 ∧ G * U = U * diagonal l

/-- Spec: the sum of the eigenvalues but the `R` largest. -/
noncomputable def tailSum {m : ℕ} (l : Fin m → ℝ) (R : ℕ) : ℝ := ∑ i : Fin m, if (i : ℕ) < R then 0 else l i

theorem exists_eigenvalues {m : ℕ} {n : Type*} [Fintype n] (M : Matrix (Fin m) n ℝ) : ∃ l, Eigenvalues (M * Mᵀ) l := by
  obtain ⟨U, l, h1, h2, h3⟩ := exists_eig (G := M * Mᵀ) (by rw [transpose_mul, transpose_transpose])
  exact ⟨l, h1, U, h2, h3⟩

/-- No product of matrices with `R` columns explains more of `M` than its `R` leading principal components. -/
theorem tailSum_le {m R : ℕ} {n : Type*} [Fintype n] {M : Matrix (Fin m) n ℝ} {l : Fin m → ℝ} (h : Eigenvalues (M * Mᵀ) l)
    (A : Matrix (Fin m) (Fin R) ℝ) (B : Matrix n (Fin R) ℝ) : tailSum l R ≤ fsq (M - A * Bᵀ) := by
  obtain ⟨hl, U, hU, hG⟩ := h
  obtain ⟨Q, s, Vh, hs, -⟩ := exists_svd A _ rfl
  have hmin : min m R ≤ m := by omega
  have h1 := ky_fan hl hU hG hmin hs.left
  have h2 := fsq_project Mᵀ hs.left (B * (Vhᵀ * diagonal s))
  have h3 : fsq (M - A * Bᵀ) = fsq (Mᵀ - B * (Vhᵀ * diagonal s) * Qᵀ) := by
    rw [← fsq_transpose, transpose_sub, transpose_mul, transpose_transpose, ThinSVD.transpose_eq hs.eq]
    simp only [Matrix.mul_assoc]
  have h4 : fsq (Mᵀ * Q) = fsq (Qᵀ * M) := by rw [← fsq_transpose, transpose_mul, transpose_transpose]
  have hU' : U * Uᵀ = 1 := mul_eq_one_comm.1 hU
  have h5 : fsq Mᵀ = ∑ i, l i := by
    have := fsq_eig hU hG U
    rw [hU] at this
    rw [fsq_transpose, ← fsq_transpose (Uᵀ * M), transpose_mul, transpose_transpose, fsq_mul_orth _ hU', fsq_transpose] at *
    rw [this]
    refine Finset.sum_congr rfl fun i _ => ?_
    rw [Finset.sum_eq_single i (fun j _ hj => by rw [one_apply_ne hj.symm]; norm_num) (by simp), one_apply_eq]
    norm_num
  have h6 : fsq ((firstCols hmin U)ᵀ * M) = ∑ i : Fin m, if (i : ℕ) < R then l i else 0 := by
    rw [fsq_eig hU hG]
    refine Finset.sum_congr rfl fun i _ => ?_
    have he : ∀ j, (Uᵀ * firstCols hmin U) i j = if i = Fin.castLE hmin j then 1 else 0 := by
      intro j
      have := congrFun (congrFun hU i) (Fin.castLE hmin j)
      rw [one_apply] at this
      rw [← this]; rfl
    simp only [he]
    by_cases hi : (i : ℕ) < R
    · rw [if_pos hi, Finset.sum_eq_single ⟨i, by have := i.2; omega⟩]
      · rw [if_pos (by ext; rfl)]; norm_num
      · intro j _ hj
        rw [if_neg (fun hc : i = Fin.castLE hmin j => hj (Fin.ext (congrArg Fin.val hc).symm))]; norm_num
      · simp
    · rw [if_neg hi, Finset.sum_eq_zero, mul_zero]
      intro j _
      have hj := j.2
      rw [if_neg (fun hc => hi (by rw [hc]; simp; omega))]; norm_num
  have h7 : tailSum l R = ∑ i, l i - ∑ i : Fin m, if (i : ℕ) < R then l i else 0 := by
    rw [tailSum, ← Finset.sum_sub_distrib]
    exact Finset.sum_congr rfl fun i _ => by split <;> simp
  rw [h3, h7, ← h5, ← h6]
  linarith

end TK.LA
