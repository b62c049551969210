import Verif.ND.Ops
import Mathlib.Data.Real.Basic

/-! # Residuals of linear systems, written out as sums -/

namespace TK

/-- `‖Y A - B‖²` for `Y` of size `p × m`, `A` of size `m × n`, `B` of size `p × n`. -/
noncomputable def resid (Y A B : NDArray ℝ) (p m n : ℕ) : ℝ :=
  ∑ i ∈ Finset.range p, ∑ j ∈ Finset.range n,
    ((∑ l ∈ Finset.range m, Y.get [i, l] * A.get [l, j]) - B.get [i, j]) ^ 2

/-- `‖A X - B‖²` for `A` of size `n × r`, `X` of size `r × m`, `B` of size `n × m`. -/
noncomputable def residL (A X B : NDArray ℝ) (n r m : ℕ) : ℝ :=
  ∑ i ∈ Finset.range n, ∑ j ∈ Finset.range m,
    ((∑ l ∈ Finset.range r, A.get [i, l] * X.get [l, j]) - B.get [i, j]) ^ 2

/-- `‖Y‖²` for `Y` of size `p × m`. -/
noncomputable def normSq (Y : NDArray ℝ) (p m : ℕ) : ℝ :=
  ∑ i ∈ Finset.range p, ∑ j ∈ Finset.range m, Y.get [i, j] ^ 2

/-- The rows of the `r × m` matrix `X` are orthonormal: `X Xᵀ = I`. -/
def OrthoRows (X : NDArray ℝ) (r m : ℕ) : Prop :=
  ∀ i < r, ∀ j < r, ∑ l ∈ Finset.range m, X.get [i, l] * X.get [j, l] = if i = j then 1 else 0

/-- The columns of the `m × r` matrix `X` are orthonormal: `Xᵀ X = I`. -/
def OrthoCols (X : NDArray ℝ) (m r : ℕ) : Prop :=
  ∀ i < r, ∀ j < r, ∑ l ∈ Finset.range m, X.get [l, i] * X.get [l, j] = if i = j then 1 else 0

/-- All entries of the `p × m` matrix `Y` are non-negative. -/
def NonNeg (Y : NDArray ℝ) (p m : ℕ) : Prop := ∀ i < p, ∀ j < m, 0 ≤ Y.get [i, j]

end TK
