import Verif.Spec.CP
import Mathlib.Analysis.SpecialFunctions.Pow.Real
import Mathlib.Data.Int.Log

/-!
# Specification of rounding
-/

namespace TK

/-- The standard model of floating-point arithmetic: the relative error of one rounding is at most `u`. -/
structure Rounds (rnd : ℝ → ℝ) (u : ℝ) : Prop where
  nonneg : 0 ≤ u
  le_one : u ≤ 1
  err : ∀ x, |rnd x - x| ≤ u * |x|

/-- `Σ_r |w_r| Π_m |F_m[i_m, r]|`: the size of the terms behind an entry of the tensor. -/
noncomputable def cpSize (w : ℕ → ℝ) (fs : List (NDArray ℝ)) (R : ℕ) (idx : List ℕ) : ℝ :=
  ∑ r ∈ Finset.range R, |w r * rankOne fs idx r|

/-- Rounding to the nearest integer, ties to even. -/
noncomputable def nearestEven (x : ℝ) : ℤ :=
  if x - ⌊x⌋ < 1 / 2 then ⌊x⌋
  else if 1 / 2 < x - ⌊x⌋ then ⌊x⌋ + 1
  else if Even ⌊x⌋ then ⌊x⌋ else ⌊x⌋ + 1

/-- Rounding to the nearest number with `p` binary digits, ties to even, for an unbounded range of exponents: `p = 53` is
the rounding of IEEE double precision apart from overflow and underflow. -/
noncomputable def roundBits (p : ℕ) (x : ℝ) : ℝ :=
  if x = 0 then 0
  else nearestEven (x / (2 : ℝ) ^ (Int.log 2 |x| - (p - 1 : ℤ))) * (2 : ℝ) ^ (Int.log 2 |x| - (p - 1 : ℤ))

end TK
