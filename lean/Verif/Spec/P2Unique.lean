import Verif.Spec.P2Descent
import Verif.Spec.Fms
import Verif.Spec.Uniqueness

/-!
# Specification: PARAFAC2 models that are determined by their slices
-/

namespace TK
open NDArray

noncomputable section

/-- What component `r` of a PARAFAC2 model adds to entry `(i, j)` of slice `k`. -/
def p2Term (A D C Pk : NDArray ℝ) (R k i j r : ℕ) : ℝ :=
  A.get [i, r] * C.get [k, r] * ∑ q ∈ Finset.range R, Pk.get [j, q] * D.get [q, r]

/-- The form of degree four with the coefficients `g`, evaluated at the first `R` entries of `z`. -/
def quartic (g : ℕ → ℕ → ℕ → ℕ → ℝ) (R : ℕ) (z : ℕ → ℝ) : ℝ :=
  ∑ a ∈ Finset.range R, ∑ b ∈ Finset.range R, ∑ c ∈ Finset.range R, ∑ d ∈ Finset.range R,
    g a b c d * (z a * z b * z c * z d)

/-- The rows of `C` are in general position for forms of degree four: such a form vanishes everywhere if it vanishes on all
`K` rows. -/
def GeneralRows (C : NDArray ℝ) (K R : ℕ) : Prop :=
  ∀ g, (∀ k < K, quartic g R (fun r => C.get [k, r]) = 0) → ∀ z, quartic g R z = 0

/-- A PARAFAC2 model with linearly independent columns in `A` and the blueprint, orthonormal projection matrices, and weights of
the slices in general position. -/
structure P2Identifiable (P : List (NDArray ℝ)) (A D C : NDArray ℝ) (I : ℕ) (Js : List ℕ) (R : ℕ) : Prop where
  A : IndepColumns A I R
  D : IndepColumns D R R
  C : GeneralRows C Js.length R
  P : OrthoAll P Js R

/-- Two PARAFAC2 models have the same components, where component `r` of the first is component `π r` of the second: they
add the same to every entry of every slice, their columns of `A` are multiples of each other, and so are the absolute values of
their columns of `C`. -/
def SameP2Components (π : List ℕ) (P : List (NDArray ℝ)) (A D C : NDArray ℝ) (P' : List (NDArray ℝ)) (A' D' C' : NDArray ℝ) (I : ℕ)
    (Js : List ℕ) (R : ℕ) : Prop :=
  ∀ r < R, (∀ k < Js.length, ∀ i < I, ∀ j < Js.getD k 0,
      p2Term A' D' C' (nth P' k) R k i j (π.getD r 0) = p2Term A D C (nth P k) R k i j r) ∧
    ColumnsAgree A A' I r (π.getD r 0) ∧
    ∃ x, 0 < x ∧ ∀ k < Js.length, |C'.get [k, π.getD r 0]| = x * |C.get [k, r]|

end

end TK
