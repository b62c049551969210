import Mathlib.Data.Real.Basic
import Mathlib.Algebra.Order.Group.Abs

/-!
# Floating point results of divisions

Where the control flow of the code depends on the result of a division by zero, the result is a value of
`FV`: a real number, an infinity or nan.
-/

namespace TK

/-- A floating point value (rounding is not modelled). -/
inductive FV
  | fin (x : ℝ)
  | pinf
  | ninf
  | nan

noncomputable section

/-- NumPy's `a / b` for finite `a`, `b`. A zero divisor is taken to be `+0`. -/
def FV.div (a b : ℝ) : FV :=
  if b ≠ 0 then .fin (a / b) else if 0 < a then .pinf else if a < 0 then .ninf else .nan

/-- `abs(x) < tol` for a finite `tol`. -/
def FV.absLt : FV → ℝ → Bool
  | .fin x, tol => decide (|x| < tol)
  | _, _ => false

/-- `x < tol` for a finite `tol`. -/
def FV.lt : FV → ℝ → Bool
  | .fin x, tol => decide (x < tol)
  | .ninf, _ => true
  | _, _ => false

end
end TK
