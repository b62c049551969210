import Verif.Spec.Norms
import Verif.Spec.Tensor
import Mathlib.Order.ConditionallyCompleteLattice.Finset
import Mathlib.Algebra.Order.Archimedean.Real.Basic

/-!
# Specification of the factor match score

Two lists of factor matrices with the same numbers of rows `sizes`; `r` is a component of the first and `s` a
component of the second.
-/

namespace TK

noncomputable section

/-- Inner product of column `r` of `F` with column `s` of `G`. -/
def colDot (F G : NDArray ℝ) (m r s : ℕ) : ℝ := ∑ i ∈ Finset.range m, F.get [i, r] * G.get [i, s]

/-- Absolute cosine of the angle between two columns, with the guard `eps` added to the lengths. -/
def congruence (eps : ℝ) (F G : NDArray ℝ) (m r s : ℕ) : ℝ :=
  |colDot F G m r s| / ((colLen F m r + eps) * (colLen G m s + eps))

/-- Product of the congruences over the modes. -/
def congruenceProd (eps : ℝ) (r s : ℕ) : List (NDArray ℝ) → List (NDArray ℝ) → List ℕ → ℝ
  | F :: a, G :: b, m :: ms => congruence eps F G m r s * congruenceProd eps r s a b ms
  | _, _, _ => 1

/-- The size of a component: the product of the lengths of its columns. -/
def compSize (fs : List (NDArray ℝ)) (sizes : List ℕ) (r : ℕ) : ℝ := modeProd (fun F m => colLen F m r) fs sizes

/-- One minus the relative difference of two sizes. -/
def sizeMatch (w v : ℝ) : ℝ := 1 - |w - v| / max w v

/-- How well component `r` of `a` is matched by component `s` of `b`. -/
def compMatch (penalty : Bool) (eps : ℝ) (a b : List (NDArray ℝ)) (sizes : List ℕ) (r s : ℕ) : ℝ :=
  (if penalty then sizeMatch (compSize a sizes r) (compSize b sizes s) else 1) * congruenceProd eps r s a b sizes

/-- `π` assigns to the components `0, …, R-1` different components below `R'`. -/
structure IsAssignment (π : List ℕ) (R R' : ℕ) : Prop where
  length : π.length = R
  nodup : π.Nodup
  lt : ∀ x ∈ π, x < R'

/-- The least and the mean of `f 0, …, f (R-1)`. -/
def reduceMin (R : ℕ) (f : ℕ → ℝ) : ℝ := ⨅ r : Fin R, f r
@[inherit_doc reduceMin]
def reduceMean (R : ℕ) (f : ℕ → ℝ) : ℝ := (∑ r ∈ Finset.range R, f r) / R

/-- The score of an assignment, `min` or `mean` over the components. -/
def assignScore (useMin penalty : Bool) (eps : ℝ) (a b : List (NDArray ℝ)) (sizes : List ℕ) (R : ℕ) (π : List ℕ) : ℝ :=
  (if useMin then reduceMin else reduceMean) R fun r => compMatch penalty eps a b sizes r (π.getD r 0)

/-- With the size penalty on, no component of `a` of size zero meets a component of `b` of size zero. -/
def Comparable (penalty : Bool) (a b : List (NDArray ℝ)) (sizes : List ℕ) (R R' : ℕ) : Prop :=
  penalty = true → ∀ r < R, ∀ s < R', compSize a sizes r ≠ 0 ∨ compSize b sizes s ≠ 0

/-- `v` is the best score over all assignments, and `π` attains it. -/
structure IsBest (useMin penalty : Bool) (eps : ℝ) (a b : List (NDArray ℝ)) (sizes : List ℕ) (R R' : ℕ) (v : ℝ)
    (π : List ℕ) : Prop where
  assignment : IsAssignment π R R'
  attained : v = assignScore useMin penalty eps a b sizes R π
  best : ∀ ρ, IsAssignment ρ R R' → assignScore useMin penalty eps a b sizes R ρ ≤ v

/-- The name of the reduction. -/
def redName (useMin : Bool) : String := if useMin then "min" else "mean"

end
end TK
