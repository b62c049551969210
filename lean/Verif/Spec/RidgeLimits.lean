import Verif.Spec.NonNegLimits

/-! # Specification: optimality with ridge penalties (C152) -/

namespace TK
open NDArray

noncomputable section

/-- `‖X - X̂‖² + l ‖F_m‖²`, the part of the documented loss that depends on the factor matrix `F` of mode `m`. -/
def modeLoss (X : NDArray ℝ) (R : ℕ) (fs : List (NDArray ℝ)) (m : ℕ) (l : ℝ) (F : NDArray ℝ) : ℝ :=
  sqErr X (fun _ => 1) (fs.set m F) R + l * normSq F (X.shape.getD m 0) R

/-- No change of a single factor matrix lowers the documented loss, as long as the matrices of the modes with a flag stay
non-negative. -/
def RidgeOptimal (X : NDArray ℝ) (fs : List (NDArray ℝ)) (R : ℕ) (flags : List Bool) (ps : List ℝ) : Prop :=
  ∀ m < X.shape.length, ∀ Y : NDArray ℝ, Y.shape = [X.shape.getD m 0, R] →
    (flags[m]? = some true → NonNeg Y (X.shape.getD m 0) R) →
    modeLoss X R fs m (ps.getD m 0) (modeMat fs m) ≤ modeLoss X R fs m (ps.getD m 0) Y

/-- The sum of the squares of the partial derivatives of the squared error, with the penalty: what the updates minimise. -/
def slopeLoss (X : NDArray ℝ) (R : ℕ) (fs : List (NDArray ℝ)) (m : ℕ) (l : ℝ) (F : NDArray ℝ) : ℝ :=
  slopeSq X R fs m F / 4 + l * normSq F (X.shape.getD m 0) R

end

end TK
