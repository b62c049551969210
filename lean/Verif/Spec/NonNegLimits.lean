import Verif.Spec.Resid
import Verif.Lemmas.Descent

/-! # Specification: optimality under non-negativity (C151) -/

namespace TK
open NDArray Filter Topology

noncomputable section

/-- `F` with `t` added to the entry `(i, r)`. -/
def entryMoved (p R : ℕ) (F : NDArray ℝ) (i r : ℕ) (t : ℝ) : NDArray ℝ :=
  ofMat p R fun a b => F.get [a, b] + if a = i ∧ b = r then t else 0

/-- The partial derivative of the squared error in the entry `(i, r)` of the factor matrix `F` of mode `m`. -/
def entrySlope (X : NDArray ℝ) (R : ℕ) (fs : List (NDArray ℝ)) (m : ℕ) (F : NDArray ℝ) (i r : ℕ) : ℝ :=
  deriv (fun t => sqErr X (fun _ => 1) (fs.set m (entryMoved (X.shape.getD m 0) R F i r t)) R) 0

/-- The sum of the squares of the partial derivatives of the squared error in the entries of the factor matrix of mode `m`. -/
def slopeSq (X : NDArray ℝ) (R : ℕ) (fs : List (NDArray ℝ)) (m : ℕ) (F : NDArray ℝ) : ℝ :=
  ∑ i ∈ Finset.range (X.shape.getD m 0), ∑ r ∈ Finset.range R, (entrySlope X R fs m F i r) ^ 2

/-- No change of a single factor matrix lowers the squared error, as long as the matrices of the modes with a flag stay
non-negative. -/
def NonNegOptimal (X : NDArray ℝ) (fs : List (NDArray ℝ)) (R : ℕ) (flags : List Bool) : Prop :=
  ∀ m < X.shape.length, ∀ Y : NDArray ℝ, Y.shape = [X.shape.getD m 0, R] →
    (flags[m]? = some true → NonNeg Y (X.shape.getD m 0) R) →
    sqErr X (fun _ => 1) fs R ≤ sqErr X (fun _ => 1) (fs.set m Y) R

end

end TK
