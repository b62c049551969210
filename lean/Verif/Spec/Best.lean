import Verif.Spec.CP
import Verif.Spec.Sums

/-!
# Specification: sizes of components and best models
-/

namespace TK

/-- Squared norm of component `r`, as a tensor. -/
noncomputable def compSq (sizes : List ℕ) (w : ℕ → ℝ) (fs : List (NDArray ℝ)) (r : ℕ) : ℝ :=
  sumIdx sizes fun idx => (w r * rankOne fs idx r) ^ 2

end TK
