import Mathlib.LinearAlgebra.Matrix.NonsingularInverse
import Mathlib.Data.Matrix.Mul
import Mathlib.Data.Real.Basic
import Mathlib.Tactic.LinearCombination
import Mathlib.Data.Fintype.EquivFin
import Mathlib.LinearAlgebra.Matrix.ToLinearEquiv
import Mathlib.Algebra.Order.Star.Real
import Mathlib.LinearAlgebra.Matrix.DotProduct

/-!
# Uniqueness of the PARAFAC2 model (linear algebra)
-/

namespace TK
namespace LA
open Matrix

variable {R : ℕ} {κ : Type*} {c c' : κ → Fin R → ℝ} {D D' T U : Matrix (Fin R) (Fin R) ℝ}

/-- No form of degree four, other than zero, vanishes on all vectors `c k`. -/
def QuarticFree (c : κ → Fin R → ℝ) : Prop :=
  ∀ g : Fin R → Fin R → Fin R → Fin R → ℝ,
    (∀ k, ∑ i, ∑ j, ∑ l, ∑ n, g i j l n * (c k i * c k j * c k l * c k n) = 0) →
    ∀ z : Fin R → ℝ, ∑ i, ∑ j, ∑ l, ∑ n, g i j l n * (z i * z j * z l * z n) = 0

/-- The inner product of `D (u ∘ z)` and `D (v ∘ z)`. -/
def hform (D : Matrix (Fin R) (Fin R) ℝ) (u v z : Fin R → ℝ) : ℝ := (D *ᵥ (u * z)) ⬝ᵥ (D *ᵥ (v * z))

theorem hform_eq (D : Matrix (Fin R) (Fin R) ℝ) (u v z : Fin R → ℝ) :
    hform D u v z = ∑ i, ∑ j, (u i * (Dᵀ * D) i j * v j) * (z i * z j) := by
  unfold hform
  rw [dotProduct_mulVec, vecMul_mulVec, ← dotProduct_mulVec]
  simp only [dotProduct, mulVec, Pi.mul_apply, Finset.mul_sum]
  exact Finset.sum_congr rfl fun i _ => Finset.sum_congr rfl fun j _ => by ring

theorem hform_self_eq_zero (hD : ∀ v, D *ᵥ v = 0 → v = 0) {u z : Fin R → ℝ} (h : hform D u u z = 0) : u * z = 0 :=
  hD _ (dotProduct_self_eq_zero.1 h)

/-- Equations between products of two forms carry over from the vectors to all vectors. -/
theorem QuarticFree.forms (hc : QuarticFree c) {u1 v1 u2 v2 u3 v3 u4 v4 : Fin R → ℝ} {x y : ℝ}
    (h : ∀ k, x * (hform D u1 v1 (c k) * hform D u2 v2 (c k)) = y * (hform D u3 v3 (c k) * hform D u4 v4 (c k))) (z : Fin R → ℝ) :
    x * (hform D u1 v1 z * hform D u2 v2 z) = y * (hform D u3 v3 z * hform D u4 v4 z) := by
  have e : ∀ (u v u' v' z : Fin R → ℝ) (x : ℝ), x * (hform D u v z * hform D u' v' z) =
      ∑ i, ∑ j, ∑ l, ∑ n, (x * (u i * (Dᵀ * D) i j * v j) * (u' l * (Dᵀ * D) l n * v' n)) * (z i * z j * z l * z n) := by
    intro u v u' v' z x
    rw [hform_eq, hform_eq, Finset.sum_mul, Finset.mul_sum]
    refine Finset.sum_congr rfl fun i _ => ?_
    rw [Finset.sum_mul, Finset.mul_sum]
    refine Finset.sum_congr rfl fun j _ => ?_
    rw [Finset.mul_sum, Finset.mul_sum]
    refine Finset.sum_congr rfl fun l _ => ?_
    rw [Finset.mul_sum, Finset.mul_sum]
    exact Finset.sum_congr rfl fun n _ => by ring
  have d : ∀ z : Fin R → ℝ, x * (hform D u1 v1 z * hform D u2 v2 z) - y * (hform D u3 v3 z * hform D u4 v4 z) =
      ∑ i, ∑ j, ∑ l, ∑ n, (x * (u1 i * (Dᵀ * D) i j * v1 j) * (u2 l * (Dᵀ * D) l n * v2 n)
        - y * (u3 i * (Dᵀ * D) i j * v3 j) * (u4 l * (Dᵀ * D) l n * v4 n)) * (z i * z j * z l * z n) := by
    intro z
    rw [e, e]
    simp only [← Finset.sum_sub_distrib, sub_mul]
  have := hc _ (fun k => by rw [← d, h k, sub_self]) z
  rw [← d] at this
  linarith

theorem QuarticFree.exists_ne (hc : QuarticFree c) (i : Fin R) : ∃ k, c k i ≠ 0 := by
  by_contra h
  push Not at h
  have := hc (fun a b l n => if a = i ∧ b = i ∧ l = i ∧ n = i then 1 else 0) (fun k => by
    refine Finset.sum_eq_zero fun a _ => Finset.sum_eq_zero fun b _ => Finset.sum_eq_zero fun l _ => Finset.sum_eq_zero fun n _ => ?_
    split
    · rename_i hh; rw [hh.1, h k]; ring
    · ring) (Pi.single i 1)
  have e : ∑ a, ∑ b, ∑ l, ∑ n, (if a = i ∧ b = i ∧ l = i ∧ n = i then (1 : ℝ) else 0) * ((Pi.single i 1 : Fin R → ℝ) a *
      (Pi.single i 1 : Fin R → ℝ) b * (Pi.single i 1 : Fin R → ℝ) l * (Pi.single i 1 : Fin R → ℝ) n) = 1 := by
    rw [Finset.sum_eq_single i, Finset.sum_eq_single i, Finset.sum_eq_single i, Finset.sum_eq_single i]
    all_goals simp +contextual
  rw [e] at this
  exact one_ne_zero this

theorem QuarticFree.definite (hc : QuarticFree c) (hD : ∀ v, D *ᵥ v = 0 → v = 0) {u : Fin R → ℝ}
    (h : ∀ k, hform D u u (c k) = 0) : u = 0 := by
  funext i
  obtain ⟨k, hk⟩ := hc.exists_ne i
  have := congrFun (hform_self_eq_zero hD (h k)) i
  exact (mul_eq_zero.1 this).resolve_right hk

/-- The matrix `diag(c) Dᵀ D diag(c)`. -/
def crossOf (D : Matrix (Fin R) (Fin R) ℝ) (z : Fin R → ℝ) : Matrix (Fin R) (Fin R) ℝ := diagonal z * (Dᵀ * D) * diagonal z

theorem hform_cross (D : Matrix (Fin R) (Fin R) ℝ) (u v z : Fin R → ℝ) : hform D u v z = u ⬝ᵥ (crossOf D z *ᵥ v) := by
  rw [hform_eq]
  simp only [dotProduct, mulVec, crossOf, Finset.mul_sum, mul_diagonal, diagonal_mul]
  exact Finset.sum_congr rfl fun i _ => Finset.sum_congr rfl fun j _ => by ring

/-- Two factorisations of the cross products differ by a permutation and a scaling. -/
theorem cross_unique (hc : QuarticFree c) (hD : ∀ v, D *ᵥ v = 0 → v = 0)
    (h : ∀ k, crossOf D (c k) = T * crossOf D' (c' k) * Tᵀ) :
    ∃ (U : Matrix (Fin R) (Fin R) ℝ) (σ : Equiv.Perm (Fin R)) (μ : Fin R → ℝ), U * T = 1 ∧ T * U = 1 ∧ (∀ r, μ r ≠ 0) ∧
      (∀ r i, U r i = if i = σ r then μ r else 0) ∧ ∀ k, crossOf D' (c' k) = U * crossOf D (c k) * Uᵀ := by
  -- `T` is invertible
  have hT : T.det ≠ 0 := by
    intro h0
    obtain ⟨v, hv, hz⟩ := exists_vecMul_eq_zero_iff.2 h0
    refine hv (hc.definite hD fun k => ?_)
    rw [hform_cross, h k, ← mulVec_mulVec, ← mulVec_mulVec, dotProduct_mulVec, hz, zero_dotProduct]
  have hu : IsUnit T.det := isUnit_iff_ne_zero.2 hT
  set U := T⁻¹ with hU
  have hUT : U * T = 1 := nonsing_inv_mul T hu
  have hTU : T * U = 1 := mul_nonsing_inv T hu
  have hM : ∀ k, crossOf D' (c' k) = U * crossOf D (c k) * Uᵀ := by
    intro k
    have e : Tᵀ * Uᵀ = 1 := by rw [← transpose_mul, hUT, transpose_one]
    rw [h k]
    calc crossOf D' (c' k) = (U * T) * crossOf D' (c' k) * (Tᵀ * Uᵀ) := by rw [hUT, e, Matrix.one_mul, Matrix.mul_one]
      _ = _ := by simp only [Matrix.mul_assoc]
  set H' := D'ᵀ * D' with hH'
  have hq : ∀ k r s, c' k r * c' k s * H' r s = hform D (U r) (U s) (c k) := by
    intro k r s
    have := congrFun (congrFun (hM k) r) s
    rw [crossOf, mul_diagonal, diagonal_mul] at this
    rw [hform_cross]
    rw [← hH'] at this
    have e : (U * crossOf D (c k) * Uᵀ) r s = U r ⬝ᵥ (crossOf D (c k) *ᵥ U s) := by
      rw [Matrix.mul_assoc, mul_apply_eq_vecMul]
      simp only [vecMul, dotProduct, mul_apply, mulVec, transpose_apply]
    rw [← e, ← this]; ring
  have hrow : ∀ r, U r ≠ 0 := by
    intro r h0
    have := congrFun (congrFun hUT r) r
    rw [mul_apply, one_apply_eq] at this
    simp only [h0, Pi.zero_apply, zero_mul, Finset.sum_const_zero] at this
    exact zero_ne_one this
  have hpos : ∀ i, 0 < (Dᵀ * D) i i := by
    intro i
    have e : (Dᵀ * D) i i = (D *ᵥ Pi.single i 1) ⬝ᵥ (D *ᵥ Pi.single i 1) := by
      rw [mul_apply]; simp [dotProduct]
    rw [e]
    refine lt_of_le_of_ne (Finset.sum_nonneg fun _ _ => mul_self_nonneg _) fun h0 => ?_
    have := congrFun (hD _ (dotProduct_self_eq_zero.1 h0.symm)) i
    simp at this
  have hsingle : ∀ (u v : Fin R → ℝ) i, hform D u v (Pi.single i 1) = u i * v i * (Dᵀ * D) i i := by
    intro u v i
    rw [hform_eq, Finset.sum_eq_single i, Finset.sum_eq_single i]
    · simp; ring
    all_goals simp +contextual
  -- columns of the other blueprint are not proportional
  have hne : ∀ r s, r ≠ s → H' r r * H' s s - H' r s * H' r s ≠ 0 := by
    intro r s hrs h0
    have h1 := hc.forms (D := D) (u1 := U r) (v1 := U s) (u2 := U r) (v2 := U s) (u3 := U r) (v3 := U r) (u4 := U s) (v4 := U s)
      (x := 1) (y := 1) (fun k => by
        rw [← hq, ← hq, ← hq]
        linear_combination (-(c' k r * c' k s) ^ 2) * h0) (fun _ => 1)
    set p := D *ᵥ U r with hp
    set q := D *ᵥ U s with hqq
    have e1 : ∀ u v : Fin R → ℝ, hform D u v (fun _ => 1) = (D *ᵥ u) ⬝ᵥ (D *ᵥ v) := by
      intro u v
      have : ∀ u : Fin R → ℝ, u * (fun _ => 1) = u := fun u => by funext i; simp
      rw [hform, this, this]
    rw [e1, e1, e1] at h1
    rw [← hp, ← hqq, one_mul, one_mul] at h1
    have h2 : D *ᵥ ((q ⬝ᵥ q) • U r - (p ⬝ᵥ q) • U s) = (q ⬝ᵥ q) • p - (p ⬝ᵥ q) • q := by
      rw [mulVec_sub, mulVec_smul, mulVec_smul]
    have h3 : ((q ⬝ᵥ q) • p - (p ⬝ᵥ q) • q) ⬝ᵥ ((q ⬝ᵥ q) • p - (p ⬝ᵥ q) • q) = 0 := by
      simp only [sub_dotProduct, dotProduct_sub, smul_dotProduct, dotProduct_smul, smul_eq_mul]
      rw [dotProduct_comm q p]
      linear_combination (-(q ⬝ᵥ q)) * h1
    have h4 := hD _ (h2.trans (dotProduct_self_eq_zero.1 h3))
    have h5 : ((q ⬝ᵥ q) • U r - (p ⬝ᵥ q) • U s) ᵥ* T = 0 := by rw [h4, zero_vecMul]
    have h6 : ∀ r, U r ᵥ* T = Pi.single r 1 := by
      intro r
      funext i
      have := congrFun (congrFun hUT r) i
      rw [mul_apply_eq_vecMul] at this
      rw [this, one_apply, Pi.single_apply]
      simp [eq_comm]
    rw [sub_vecMul, smul_vecMul, smul_vecMul, h6, h6] at h5
    have h7 := congrFun h5 r
    simp [hrs] at h7
    exact hrow s (hD _ h7)
  have hdisj : ∀ r s, r ≠ s → ∀ i, U r i * U s i = 0 := by
    intro r s hrs i
    have h1 := hc.forms (D := D) (u1 := U r) (v1 := U s) (u2 := U r) (v2 := U s) (u3 := U r) (v3 := U r) (u4 := U s) (v4 := U s)
      (x := H' r r * H' s s) (y := H' r s * H' r s) (fun k => by
        rw [← hq, ← hq, ← hq]; ring) (Pi.single i 1)
    rw [hsingle, hsingle, hsingle] at h1
    have h2 : (H' r r * H' s s - H' r s * H' r s) * (U r i * U s i * (Dᵀ * D) i i) ^ 2 = 0 := by linear_combination h1
    have h3 := pow_eq_zero_iff two_ne_zero |>.1 ((mul_eq_zero.1 h2).resolve_left (hne r s hrs))
    exact (mul_eq_zero.1 h3).resolve_right (hpos i).ne'
  have hex : ∀ r, ∃ i, U r i ≠ 0 := fun r => Function.ne_iff.1 (hrow r)
  choose f hf using hex
  have hinj : Function.Injective f := by
    intro r s hrs
    by_contra hne'
    have := hdisj r s hne' (f r)
    rcases mul_eq_zero.1 this with h0 | h0
    · exact hf r h0
    · rw [hrs] at h0; exact hf s h0
  have hbij : Function.Bijective f := Finite.injective_iff_bijective.1 hinj
  refine ⟨U, Equiv.ofBijective f hbij, fun r => U r (f r), hUT, hTU, hf, fun r i => ?_, hM⟩
  show U r i = if i = f r then U r (f r) else 0
  split
  · rename_i hi; rw [hi]
  · rename_i hi
    obtain ⟨s, rfl⟩ := hbij.2 i
    have hrs : r ≠ s := fun h => hi (by rw [h])
    exact (mul_eq_zero.1 (hdisj r s hrs (f s))).resolve_right (hf s)

/-- Exact PARAFAC2 models have the same components. -/
theorem parafac2_unique {m : Type*} [Fintype m] [DecidableEq m] {J : κ → Type*} [∀ k, Fintype (J k)]
    {A A' : Matrix m (Fin R) ℝ} {P P' : ∀ k, Matrix (J k) (Fin R) ℝ} (hc : QuarticFree c) (hD : ∀ v, D *ᵥ v = 0 → v = 0)
    (hA : ∀ v, A *ᵥ v = 0 → v = 0) (hP : ∀ k, (P k)ᵀ * P k = 1) (hP' : ∀ k, (P' k)ᵀ * P' k = 1)
    (h : ∀ k, A * diagonal (c k) * Dᵀ * (P k)ᵀ = A' * diagonal (c' k) * D'ᵀ * (P' k)ᵀ) :
    ∃ (σ : Equiv.Perm (Fin R)) (μ : Fin R → ℝ), (∀ r, μ r ≠ 0) ∧ (∀ i r, μ r * A' i r = A i (σ r)) ∧
      (∀ k r j, c' k r * (P' k * D') j r = μ r * (c k (σ r) * (P k * D) j (σ r))) ∧
      ∀ k r, c' k r * c' k r * (D'ᵀ * D') r r = μ r * μ r * (c k (σ r) * c k (σ r) * (Dᵀ * D) (σ r) (σ r)) := by
  -- a left inverse of `A`
  have hG : (Aᵀ * A).det ≠ 0 := by
    intro h0
    obtain ⟨v, hv, hz⟩ := exists_mulVec_eq_zero_iff.2 h0
    refine hv (hA v (dotProduct_self_eq_zero.1 ?_))
    rw [dotProduct_mulVec, vecMul_mulVec, ← dotProduct_mulVec, hz, dotProduct_zero]
  set L := (Aᵀ * A)⁻¹ * Aᵀ with hL
  have hLA : L * A = 1 := by rw [hL, Matrix.mul_assoc]; exact nonsing_inv_mul _ (isUnit_iff_ne_zero.2 hG)
  have hX : ∀ {n : Type _} [Fintype n] (B : Matrix m (Fin R) ℝ) (E : Matrix (Fin R) (Fin R) ℝ) (z : Fin R → ℝ) (Q : Matrix n (Fin R) ℝ),
      Qᵀ * Q = 1 → (B * diagonal z * Eᵀ * Qᵀ) * (B * diagonal z * Eᵀ * Qᵀ)ᵀ = B * crossOf E z * Bᵀ := by
    intro n _ B E z Q hQ
    simp only [transpose_mul, transpose_transpose, diagonal_transpose]
    calc B * diagonal z * Eᵀ * Qᵀ * (Q * (E * (diagonal z * Bᵀ))) = B * diagonal z * Eᵀ * (Qᵀ * Q) * E * diagonal z * Bᵀ := by
          simp only [Matrix.mul_assoc]
      _ = _ := by rw [hQ, Matrix.mul_one, crossOf]; simp only [Matrix.mul_assoc]
  have hcross : ∀ k, crossOf D (c k) = (L * A') * crossOf D' (c' k) * (L * A')ᵀ := by
    intro k
    have e : A * crossOf D (c k) * Aᵀ = A' * crossOf D' (c' k) * A'ᵀ := by
      rw [← hX A D (c k) (P k) (hP k), ← hX A' D' (c' k) (P' k) (hP' k), h k]
    have hAL : Aᵀ * Lᵀ = 1 := by rw [← transpose_mul, hLA, transpose_one]
    calc crossOf D (c k) = (L * A) * crossOf D (c k) * (Aᵀ * Lᵀ) := by rw [hLA, hAL, Matrix.one_mul, Matrix.mul_one]
      _ = L * (A * crossOf D (c k) * Aᵀ) * Lᵀ := by simp only [Matrix.mul_assoc]
      _ = _ := by rw [e, transpose_mul L A']; simp only [Matrix.mul_assoc]
  obtain ⟨U, σ, μ, hUT, hTU, hμ, hU, hM⟩ := cross_unique hc hD hcross
  have hAT : A' = A * (L * A') := by
    have hw : ∀ i, (A' - A * (L * A')) i = 0 := by
      intro i
      set w := (A' - A * (L * A')) i with hw
      have h1 : ∀ k, crossOf D' (c' k) *ᵥ w = 0 := by
        intro k
        have e1 : (A' - A * (L * A')) * diagonal (c' k) * D'ᵀ = 0 := by
          have e2 : A' * diagonal (c' k) * D'ᵀ = A * diagonal (c k) * Dᵀ * (P k)ᵀ * P' k := by
            rw [h k, Matrix.mul_assoc _ (P' k)ᵀ, hP' k, Matrix.mul_one]
          rw [Matrix.sub_mul, Matrix.sub_mul, sub_eq_zero]
          calc A' * diagonal (c' k) * D'ᵀ = A * ((L * A) * (diagonal (c k) * Dᵀ * (P k)ᵀ * P' k)) := by
                rw [hLA, Matrix.one_mul, e2]; simp only [Matrix.mul_assoc]
            _ = A * (L * (A * diagonal (c k) * Dᵀ * (P k)ᵀ * P' k)) := by simp only [Matrix.mul_assoc]
            _ = A * (L * A') * diagonal (c' k) * D'ᵀ := by rw [← e2]; simp only [Matrix.mul_assoc]
        have e3 : D' *ᵥ (diagonal (c' k) *ᵥ w) = 0 := by
          have := congrFun e1 i
          rw [Matrix.mul_assoc, mul_apply_eq_vecMul, ← hw] at this
          have e4 : (diagonal (c' k) * D'ᵀ)ᵀ = D' * diagonal (c' k) := by rw [transpose_mul, transpose_transpose, diagonal_transpose]
          rw [mulVec_mulVec, ← e4, mulVec_transpose]
          exact this
        rw [crossOf, ← mulVec_mulVec, ← mulVec_mulVec, ← mulVec_mulVec, e3, mulVec_zero, mulVec_zero]
      have h2 : w ᵥ* U = 0 := hc.definite hD fun k => by
        have := congrArg (fun v => w ⬝ᵥ v) (h1 k)
        simp only [dotProduct_zero] at this
        rw [hM k, ← mulVec_mulVec, ← mulVec_mulVec, dotProduct_mulVec, mulVec_transpose] at this
        rw [hform_cross]; exact this
      have : w ᵥ* U ᵥ* (L * A') = w := by rw [vecMul_vecMul, hUT, vecMul_one]
      rw [← this, h2, zero_vecMul]
    have : A' - A * (L * A') = 0 := by ext i j; exact congrFun (hw i) j
    exact sub_eq_zero.1 this
  refine ⟨σ, μ, hμ, fun i r => ?_, fun k r j => ?_, fun k r => ?_⟩
  · -- `A' Uᵀ...`
    have h1 : ∀ i r, μ r * (L * A') (σ r) i = if r = i then 1 else 0 := by
      intro i r
      have := congrFun (congrFun hUT r) i
      rw [mul_apply, one_apply] at this
      simp only [hU] at this
      simpa using this
    rw [hAT, mul_apply, Finset.mul_sum]
    have : ∀ l, μ r * (A i l * (L * A') l r) = if l = σ r then A i (σ r) else 0 := by
      intro l
      obtain ⟨s, rfl⟩ := σ.surjective l
      by_cases hs : s = r
      · subst hs
        rw [if_pos rfl]
        have := h1 s s
        rw [if_pos rfl] at this
        linear_combination (A i (σ s)) * this
      · rw [if_neg (fun h => hs (σ.injective h))]
        have := h1 r s
        rw [if_neg hs] at this
        have := (mul_eq_zero.1 this).resolve_left (hμ s)
        rw [this]; ring
    rw [Finset.sum_congr rfl fun l _ => this l, Finset.sum_ite_eq' Finset.univ (σ r)]
    simp
  · have e : diagonal (c' k) * D'ᵀ * (P' k)ᵀ = U * (diagonal (c k) * Dᵀ * (P k)ᵀ) := by
      have h1 : L * (A * diagonal (c k) * Dᵀ * (P k)ᵀ) = L * (A' * diagonal (c' k) * D'ᵀ * (P' k)ᵀ) := by rw [h k]
      calc diagonal (c' k) * D'ᵀ * (P' k)ᵀ = (U * (L * A')) * (diagonal (c' k) * D'ᵀ * (P' k)ᵀ) := by rw [hUT, Matrix.one_mul]
        _ = U * (L * (A' * diagonal (c' k) * D'ᵀ * (P' k)ᵀ)) := by simp only [Matrix.mul_assoc]
        _ = U * ((L * A) * (diagonal (c k) * Dᵀ * (P k)ᵀ)) := by rw [← h1]; simp only [Matrix.mul_assoc]
        _ = _ := by rw [hLA, Matrix.one_mul]
    have := congrFun (congrFun e r) j
    rw [Matrix.mul_assoc, ← transpose_mul, diagonal_mul, transpose_apply, Matrix.mul_assoc (diagonal (c k)), ← transpose_mul,
      mul_apply (M := U)] at this
    rw [this]
    simp only [hU, diagonal_mul, transpose_apply]
    simp
  · have := congrFun (congrFun (hM k) r) r
    rw [crossOf, mul_diagonal, diagonal_mul] at this
    have e : (U * crossOf D (c k) * Uᵀ) r r = μ r * μ r * (c k (σ r) * c k (σ r) * (Dᵀ * D) (σ r) (σ r)) := by
      rw [mul_apply]
      simp only [mul_apply (M := U), transpose_apply, hU]
      simp [crossOf, mul_diagonal, diagonal_mul]
      ring
    rw [← e, ← this]; ring

end LA
end TK
