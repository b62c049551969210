import Mathlib.Algebra.Module.Submodule.Union
import Mathlib.LinearAlgebra.Basis.VectorSpace
import Mathlib.LinearAlgebra.Dual.Lemmas
import Mathlib.LinearAlgebra.Matrix.NonsingularInverse
import Mathlib.Data.Real.Basic
import Mathlib.Tactic.LinearCombination
import Mathlib.Tactic.Linarith

/-!
# Uniqueness of sums of rank-one terms
-/

namespace TK

/-- Linear functionals that pick out one of the columns. -/
theorem exists_dual_columns {α : Type} {n : ℕ} {a : α → Fin n → ℝ}
    (ha : ∀ v : Fin n → ℝ, (∀ i, ∑ r, a i r * v r = 0) → v = 0) :
    ∃ φ : Fin n → (α → ℝ) →ₗ[ℝ] ℝ, ∀ r s, φ r (fun i => a i s) = if r = s then 1 else 0 := by
  let f : (Fin n → ℝ) →ₗ[ℝ] (α → ℝ) :=
    { toFun := fun v i => ∑ r, a i r * v r
      map_add' := fun v w => by
        funext i
        simp only [Pi.add_apply, mul_add, Finset.sum_add_distrib]
      map_smul' := fun c v => by
        funext i
        simp only [Pi.smul_apply, smul_eq_mul, RingHom.id_apply, Finset.mul_sum]
        exact Finset.sum_congr rfl fun r _ => by ring }
  obtain ⟨g, hg⟩ := f.exists_leftInverse_of_injective (by
    rw [LinearMap.ker_eq_bot']
    intro v hv
    exact ha v fun i => congrFun hv i)
  refine ⟨fun r => (LinearMap.proj r).comp g, fun r s => ?_⟩
  have h1 : f (Pi.single s 1) = fun i => a i s := by
    funext i
    show ∑ r, a i r * (Pi.single s (1 : ℝ) : Fin n → ℝ) r = a i s
    rw [Finset.sum_eq_single s (fun r _ hr => by rw [Pi.single_eq_of_ne hr, mul_zero]) (by simp), Pi.single_eq_same, mul_one]
  have h2 : g (f (Pi.single s 1)) = Pi.single s 1 := by
    have := congrArg (fun h => h (Pi.single s 1)) hg
    simpa using this
  rw [LinearMap.comp_apply, ← h1, h2, LinearMap.proj_apply, Pi.single_apply]

/-- A functional applied to a combination of columns. -/
theorem dual_sum {α : Type} {n : ℕ} (φ : (α → ℝ) →ₗ[ℝ] ℝ) (a : α → Fin n → ℝ) (x : Fin n → ℝ) :
    φ (fun i => ∑ r, a i r * x r) = ∑ r, φ (fun i => a i r) * x r := by
  have e : (fun i => ∑ r, a i r * x r) = ∑ r, x r • fun i => a i r := by
    funext i
    rw [Finset.sum_apply]
    exact Finset.sum_congr rfl fun r _ => by rw [Pi.smul_apply, smul_eq_mul, mul_comm]
  rw [e, map_sum]
  exact Finset.sum_congr rfl fun r _ => by rw [map_smul, smul_eq_mul, mul_comm]

/-- Two sums of `n` rank-one terms that agree have the same terms, if in the first sum the columns of two modes are linearly
independent and no two terms are proportional in the third. -/
theorem rank_one_terms_unique {α β γ : Type} {n : ℕ} {a a' : α → Fin n → ℝ} {b b' : β → Fin n → ℝ} {c c' : γ → Fin n → ℝ}
    (ha : ∀ v : Fin n → ℝ, (∀ i, ∑ r, a i r * v r = 0) → v = 0)
    (hb : ∀ v : Fin n → ℝ, (∀ j, ∑ r, b j r * v r = 0) → v = 0)
    (hc0 : ∀ r, ∃ k, c k r ≠ 0) (hc : ∀ r s x, (∀ k, c k r = x * c k s) → r = s)
    (h : ∀ i j k, ∑ r, a i r * b j r * c k r = ∑ r, a' i r * b' j r * c' k r) :
    ∃ π : Equiv.Perm (Fin n), ∀ t i j k, a' i t * b' j t * c' k t = a i (π t) * b j (π t) * c k (π t) := by
  classical
  obtain ⟨φ, hφ⟩ := exists_dual_columns ha
  obtain ⟨ψ, hψ⟩ := exists_dual_columns hb
  obtain ⟨l, hl⟩ := Module.exists_dual_forall_apply_ne_zero (K := ℝ) (fun r => fun k => c k r) (fun r h0 => by
    obtain ⟨k, hk⟩ := hc0 r
    exact hk (congrFun h0 k))
  let M : Matrix (Fin n) (Fin n) ℝ := Matrix.of fun r t => φ r fun i => a' i t
  let N : Matrix (Fin n) (Fin n) ℝ := Matrix.of fun s t => ψ s fun j => b' j t
  -- one functional applied
  have hA : ∀ r j k, b j r * c k r = ∑ t, M r t * (b' j t * c' k t) := by
    intro r j k
    have h1 := congrArg (φ r) (funext fun i => h i j k)
    have h2 := dual_sum (φ r) a fun r => b j r * c k r
    have h3 := dual_sum (φ r) a' fun r => b' j r * c' k r
    simp only [← mul_assoc] at h2 h3
    rw [h2, h3] at h1
    simp only [hφ, ite_mul, one_mul, zero_mul, Finset.sum_ite_eq, Finset.mem_univ, if_true] at h1
    rw [h1]
    exact Finset.sum_congr rfl fun t _ => mul_assoc _ _ _
  have hB : ∀ s i k, a i s * c k s = ∑ t, N s t * (a' i t * c' k t) := by
    intro s i k
    have h1 := congrArg (ψ s) (funext fun j => h i j k)
    have e1 : (fun j => ∑ r, a i r * b j r * c k r) = fun j => ∑ r, b j r * (a i r * c k r) := by
      funext j; exact Finset.sum_congr rfl fun r _ => by ring
    have e2 : (fun j => ∑ r, a' i r * b' j r * c' k r) = fun j => ∑ r, b' j r * (a' i r * c' k r) := by
      funext j; exact Finset.sum_congr rfl fun r _ => by ring
    rw [e1, e2, dual_sum, dual_sum] at h1
    simp only [hψ, ite_mul, one_mul, zero_mul, Finset.sum_ite_eq, Finset.mem_univ, if_true] at h1
    exact h1
  -- both
  have hAB : ∀ r s k, (if s = r then c k r else 0) = ∑ t, c' k t * (M r t * N s t) := by
    intro r s k
    have h1 := congrArg (ψ s) (funext fun j => hA r j k)
    have e1 : (fun j => b j r * c k r) = c k r • fun j => b j r := by
      funext j; rw [Pi.smul_apply, smul_eq_mul, mul_comm]
    have e2 : (fun j => ∑ t, M r t * (b' j t * c' k t)) = fun j => ∑ t, b' j t * (M r t * c' k t) := by
      funext j; exact Finset.sum_congr rfl fun r _ => by ring
    rw [e1, e2, dual_sum, map_smul, hψ, smul_eq_mul, mul_ite, mul_one, mul_zero] at h1
    rw [h1]
    exact Finset.sum_congr rfl fun t _ => by
      show N s t * _ = _
      ring
  let d : Fin n → ℝ := fun t => l fun k => c' k t
  let e : Fin n → ℝ := fun r => l fun k => c k r
  have hABl : ∀ r s, (if s = r then e r else 0) = ∑ t, d t * (M r t * N s t) := by
    intro r s
    have h1 := congrArg l (funext fun k => hAB r s k)
    rw [dual_sum] at h1
    rw [← h1]
    by_cases hrs : s = r
    · simp only [hrs, if_true]; rfl
    · simp only [hrs, if_false]
      exact (map_zero l).symm
  -- the matrices are invertible
  have hmat : M * (Matrix.diagonal d * N.transpose) = Matrix.diagonal e := by
    ext r s
    rw [Matrix.mul_apply, Matrix.diagonal_apply]
    rw [show (if r = s then e r else 0) = if s = r then e r else 0 by simp only [eq_comm]]
    rw [hABl r s]
    exact Finset.sum_congr rfl fun t _ => by rw [Matrix.diagonal_mul, Matrix.transpose_apply]; ring
  have hdet : IsUnit (Matrix.diagonal e).det := by
    rw [Matrix.det_diagonal, isUnit_iff_ne_zero]
    exact Finset.prod_ne_zero_iff.2 fun r _ => hl r
  rw [← hmat, Matrix.det_mul, Matrix.det_mul] at hdet
  have hM : IsUnit M.det := isUnit_of_mul_isUnit_left hdet
  have hdu : IsUnit (Matrix.diagonal d).det := isUnit_of_mul_isUnit_left (isUnit_of_mul_isUnit_right hdet)
  have hN : IsUnit N.transpose.det := isUnit_of_mul_isUnit_right (isUnit_of_mul_isUnit_right hdet)
  have hd0 : ∀ t, d t ≠ 0 := by
    rw [Matrix.det_diagonal, isUnit_iff_ne_zero] at hdu
    exact fun t => Finset.prod_ne_zero_iff.1 hdu t (Finset.mem_univ t)
  have he0 : ∀ r, e r ≠ 0 := hl
  -- the columns of `M` are eigenvectors
  have heig : ∀ k r t, M r t * c' k t * e r = d t * c k r * M r t := by
    intro k r t
    have h1 : M * (Matrix.diagonal (fun t => c' k t) * N.transpose) = Matrix.diagonal fun r => c k r := by
      ext r s
      rw [Matrix.mul_apply, Matrix.diagonal_apply]
      rw [show (if r = s then c k r else 0) = if s = r then c k r else 0 by simp only [eq_comm]]
      rw [hAB r s k]
      exact Finset.sum_congr rfl fun t _ => by rw [Matrix.diagonal_mul, Matrix.transpose_apply]; ring
    -- N^T = diag(d)⁻¹ M⁻¹ diag(e)
    have h2 : Matrix.diagonal (fun r => e r) * M * Matrix.diagonal (fun t => c' k t)
        = Matrix.diagonal (fun r => c k r) * M * Matrix.diagonal d := by
      have h3 : M * Matrix.diagonal d * N.transpose = Matrix.diagonal e := by rw [Matrix.mul_assoc]; exact hmat
      have h4 : M * Matrix.diagonal (fun t => c' k t) * N.transpose = Matrix.diagonal fun r => c k r := by
        rw [Matrix.mul_assoc]; exact h1
      have hNN : N.transpose * (N.transpose)⁻¹ = 1 := Matrix.mul_nonsing_inv _ hN
      have h5 : M * Matrix.diagonal d = Matrix.diagonal e * (N.transpose)⁻¹ := by
        rw [← h3, Matrix.mul_assoc _ N.transpose, hNN, Matrix.mul_one]
      have h6 : M * Matrix.diagonal (fun t => c' k t) = Matrix.diagonal (fun r => c k r) * (N.transpose)⁻¹ := by
        rw [← h4, Matrix.mul_assoc _ N.transpose, hNN, Matrix.mul_one]
      rw [Matrix.mul_assoc, h6, Matrix.mul_assoc, h5, ← Matrix.mul_assoc, ← Matrix.mul_assoc, Matrix.diagonal_mul_diagonal,
        Matrix.diagonal_mul_diagonal]
      congr 2
      funext r; exact mul_comm _ _
    have h8 := congrFun (congrFun h2 r) t
    rw [Matrix.mul_diagonal, Matrix.diagonal_mul, Matrix.mul_diagonal, Matrix.diagonal_mul] at h8
    linarith
  -- every column has one entry that is not zero, every row too
  have hcol : ∀ t, ∃ r, M r t ≠ 0 := by
    intro t
    by_contra hn
    push Not at hn
    have : M.det = 0 := Matrix.det_eq_zero_of_column_eq_zero t hn
    exact hM.ne_zero this
  have hrow : ∀ r, ∃ t, M r t ≠ 0 := by
    intro r
    by_contra hn
    push Not at hn
    have : M.det = 0 := Matrix.det_eq_zero_of_row_eq_zero r hn
    exact hM.ne_zero this
  have hcM : ∀ r t, M r t ≠ 0 → ∀ k, c k r * d t = c' k t * e r := by
    intro r t hrt k
    have := heig k r t
    refine mul_left_cancel₀ hrt ?_
    linarith
  have huniq : ∀ t r s, M r t ≠ 0 → M s t ≠ 0 → r = s := by
    intro t r s hr hs
    refine hc r s (e r / e s) fun k => ?_
    have h1 := hcM r t hr k
    have h2 := hcM s t hs k
    rw [div_mul_eq_mul_div, eq_div_iff (he0 s)]
    refine mul_right_cancel₀ (hd0 t) ?_
    linear_combination e s * h1 - e r * h2
  choose f hf using hcol
  have hsurj : Function.Surjective f := by
    intro r
    obtain ⟨t, ht⟩ := hrow r
    exact ⟨t, huniq t _ _ (hf t) ht⟩
  have hbij : Function.Bijective f := Finite.surjective_iff_bijective.1 hsurj
  have hM0 : ∀ r t, r ≠ f t → M r t = 0 := fun r t hr => by
    by_contra hn
    exact hr (huniq t _ _ hn (hf t))
  have hsum : ∀ t (x : Fin n → ℝ), ∑ t', x t' * M (f t) t' = x t * M (f t) t := by
    intro t x
    refine Finset.sum_eq_single t (fun t' _ hne => ?_) (by simp)
    rw [hM0 _ _ fun h' => hne (hbij.1 h').symm, mul_zero]
  -- the entries of `N`
  have hMN : ∀ t s k, (if s = f t then c k (f t) else 0) = c' k t * M (f t) t * N s t := by
    intro t s k
    rw [hAB (f t) s k]
    have := hsum t fun t' => c' k t' * N s t'
    rw [show c' k t * M (f t) t * N s t = c' k t * N s t * M (f t) t by ring, ← this]
    exact Finset.sum_congr rfl fun t' _ => by ring
  have hN0 : ∀ s t, s ≠ f t → N s t = 0 := by
    intro s t hs
    obtain ⟨k, hk⟩ := hc0 (f t)
    have h1 := hMN t s k
    rw [if_neg hs] at h1
    have h2 := hMN t (f t) k
    rw [if_pos rfl] at h2
    rcases mul_eq_zero.1 h1.symm with h3 | h3
    · rw [h3, zero_mul] at h2; exact absurd h2 hk
    · exact h3
  refine ⟨Equiv.ofBijective f hbij, fun t i j k => ?_⟩
  rw [Equiv.ofBijective_apply]
  obtain ⟨k', hk'⟩ := hc0 (f t)
  have h1 := hMN t (f t) k'
  rw [if_pos rfl] at h1
  have h2 : b j (f t) * c k' (f t) = b' j t * c' k' t * M (f t) t := by
    rw [hA, ← hsum t fun t' => b' j t' * c' k' t']
    exact Finset.sum_congr rfl fun t' _ => by ring
  have h3 : a i (f t) * c k (f t) = N (f t) t * (a' i t * c' k t) := by
    rw [hB]
    refine Finset.sum_eq_single t (fun t' _ hne => ?_) (by simp)
    rw [hN0 _ _ fun h' => hne (hbij.1 h').symm, zero_mul]
  refine mul_right_cancel₀ hk' ?_
  linear_combination (a' i t * b' j t * c' k t) * h1 - (b j (f t) * c k' (f t)) * h3
    - (N (f t) t * (a' i t * c' k t)) * h2

end TK
