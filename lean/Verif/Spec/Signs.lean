import Verif.Spec.Scores
import Mathlib.Data.Real.Sign

/-! # Specification of the sign conventions -/

namespace TK

noncomputable section

/-- Number of positive entries of column `r`. -/
def positives (F : NDArray ℝ) (m r : ℕ) : ℕ := by
  classical exact ((Finset.range m).filter fun i => 0 < F.get [i, r]).card

/-- Number of negative entries of column `r`. -/
def negatives (F : NDArray ℝ) (m r : ℕ) : ℕ := by
  classical exact ((Finset.range m).filter fun i => F.get [i, r] < 0).card

/-- The sign convention for a column: at least as many positive as negative entries, and in case of a tie the first entry
that is not zero is positive. -/
structure Canonical (F : NDArray ℝ) (m r : ℕ) : Prop where
  majority : negatives F m r ≤ positives F m r
  tie : negatives F m r = positives F m r → ∀ i < m, (∀ j < i, F.get [j, r] = 0) → 0 ≤ F.get [i, r]

/-- `G` is `F` with the columns multiplied by `s`. -/
def ScaledColumns (F G : NDArray ℝ) (m R : ℕ) (s : ℕ → ℝ) : Prop :=
  G.shape = [m, R] ∧ ∀ i < m, ∀ r < R, G.get [i, r] = F.get [i, r] * s r

/-- Contract of `np.linalg.lstsq(F, X)[0]` for an `m × R` matrix `F` and an `m × n` matrix `X`: every column of the result
has the least residual. -/
structure IsLstsq (F X S : NDArray ℝ) (m R n : ℕ) : Prop where
  shape : S.shape = [R, n]
  optimal : ∀ j < n, ∀ y : ℕ → ℝ,
    ∑ i ∈ Finset.range m, ((∑ r ∈ Finset.range R, F.get [i, r] * S.get [r, j]) - X.get [i, j]) ^ 2
      ≤ ∑ i ∈ Finset.range m, ((∑ r ∈ Finset.range R, F.get [i, r] * y r) - X.get [i, j]) ^ 2

/-- The least squares routine meets its contract. -/
def LstsqOk (L : NDArray ℝ → NDArray ℝ → NDArray ℝ) : Prop := ∀ F X : NDArray ℝ, ∀ m R n, F.shape = [m, R] →
  X.shape = [m, n] → IsLstsq F X (L F X) m R n

end
end TK
