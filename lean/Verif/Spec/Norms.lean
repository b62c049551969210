import Verif.ND.Ops
import Mathlib.Analysis.Real.Sqrt

/-! # Column norms, written out -/

namespace TK

/-- Length of column `r` of a matrix with `m` rows. -/
noncomputable def colLen (F : NDArray ℝ) (m r : ℕ) : ℝ := √(∑ i ∈ Finset.range m, F.get [i, r] ^ 2)

/-- Product over the modes of a quantity depending on the matrix and its row count. -/
noncomputable def modeProd (g : NDArray ℝ → ℕ → ℝ) : List (NDArray ℝ) → List ℕ → ℝ
  | f :: fs, m :: ms => g f m * modeProd g fs ms
  | _, _ => 1

/-- Sum over the modes. -/
noncomputable def modeSum (g : NDArray ℝ → ℕ → ℝ) : List (NDArray ℝ) → List ℕ → ℝ
  | f :: fs, m :: ms => g f m + modeSum g fs ms
  | _, _ => 0

end TK
