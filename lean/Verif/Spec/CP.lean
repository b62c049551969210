import Verif.Spec.Sums
import Verif.Spec.Tensor
import Mathlib.Data.Real.Basic

/-! # Specification: squared error of a rank-`R` model -/

namespace TK

/-- `‖X - Σ_r w_r U_1[:, r] ∘ … ∘ U_d[:, r]‖²`, the sum over all entries. -/
noncomputable def sqErr (X : NDArray ℝ) (w : ℕ → ℝ) (fs : List (NDArray ℝ)) (R : ℕ) : ℝ :=
  sumIdx X.shape fun idx => (X.get idx - cpEntry w fs R idx) ^ 2

end TK
