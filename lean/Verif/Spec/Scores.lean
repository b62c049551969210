import Verif.Spec.Fms
import Verif.Spec.CP
import Verif.Spec.Ext

/-! # Specification of degeneracy, explained variance and completion scores -/

namespace TK

noncomputable section

/-- Cosine of the angle between columns `r` and `s` of `F`. -/
def cosine (F : NDArray ℝ) (m r s : ℕ) : ℝ := colDot F F m r s / (colLen F m r * colLen F m s)

/-- Product of the cosines over the modes. -/
def cosineProd (fs : List (NDArray ℝ)) (sizes : List ℕ) (r s : ℕ) : ℝ := modeProd (fun F m => cosine F m r s) fs sizes

/-- No factor matrix has a zero column. -/
def NoZeroColumn (fs : List (NDArray ℝ)) (sizes : List ℕ) (R : ℕ) : Prop :=
  List.Forall₂ (fun F m => ∀ r < R, ∃ i < m, F.get [i, r] ≠ 0) fs sizes

/-- The columns of a matrix are linearly independent. -/
def IndepColumns (F : NDArray ℝ) (m n : ℕ) : Prop :=
  ∀ v : ℕ → ℝ, (∀ i < m, ∑ j ∈ Finset.range n, F.get [i, j] * v j = 0) → ∀ j < n, v j = 0

/-- Sum of squares of all entries. -/
def sumSq (X : NDArray ℝ) : ℝ := sumIdx X.shape fun idx => X.get idx ^ 2

/-- Sum of squares of the differences of two arrays of the same shape. -/
def sumSqDiff (X Y : NDArray ℝ) : ℝ := sumIdx X.shape fun idx => (X.get idx - Y.get idx) ^ 2

/-- Sum of squares over the entries that the mask `W` leaves out. -/
def sumSqMissing (W : NDArray ℝ) (f : List ℕ → ℝ) : ℝ := by
  classical exact sumIdx W.shape fun idx => if W.get idx = 0 then f idx ^ 2 else 0

/-- The guard of the normalisation for component `r`: the product over the modes of `n / (n + eps)`. -/
def guard (eps : ℝ) (fs : List (NDArray ℝ)) (sizes : List ℕ) (r : ℕ) : ℝ :=
  modeProd (fun F m => colLen F m r / (colLen F m r + eps)) fs sizes

/-- Entries of a factor matrix whose columns have been normalised (with the guard `eps`) and multiplied by the third root
of the size `w r` of their component. -/
def balanced (eps : ℝ) (w : ℕ → ℝ) (F : NDArray ℝ) (m : ℕ) (i r : ℕ) : ℝ :=
  F.get [i, r] / (colLen F m r + eps) * w r ^ ((1 : ℝ) / 3)

/-- Squared error of the Tucker model with factor matrices `a`, `b`, `c` and core `G`. -/
def tuckerErr (X : NDArray ℝ) (I J K F : ℕ) (a b c : ℕ → ℕ → ℝ) (G : ℕ → ℕ → ℕ → ℝ) : ℝ :=
  ∑ i ∈ Finset.range I, ∑ j ∈ Finset.range J, ∑ l ∈ Finset.range K,
    (X.get [i, j, l] - ∑ p ∈ Finset.range F, ∑ q ∈ Finset.range F, ∑ r ∈ Finset.range F,
      a i p * b j q * c l r * G p q r) ^ 2

/-- `G` is the core which fits best, and the only one. -/
structure IsBestCore (X : NDArray ℝ) (I J K F : ℕ) (a b c : ℕ → ℕ → ℝ) (G : ℕ → ℕ → ℕ → ℝ) : Prop where
  best : ∀ H, tuckerErr X I J K F a b c G ≤ tuckerErr X I J K F a b c H
  unique : ∀ H, tuckerErr X I J K F a b c H ≤ tuckerErr X I J K F a b c G →
    ∀ p < F, ∀ q < F, ∀ r < F, H p q r = G p q r

/-- Sum of squares of the differences of a core and the superdiagonal core of ones. -/
def offDiagonal (F : ℕ) (G : ℕ → ℕ → ℕ → ℝ) : ℝ :=
  ∑ p ∈ Finset.range F, ∑ q ∈ Finset.range F, ∑ r ∈ Finset.range F,
    (G p q r - if p = q ∧ q = r then 1 else 0) ^ 2

/-- Sum of squares of a core. -/
def coreSq (F : ℕ) (G : ℕ → ℕ → ℕ → ℝ) : ℝ :=
  ∑ p ∈ Finset.range F, ∑ q ∈ Finset.range F, ∑ r ∈ Finset.range F, G p q r ^ 2

end
end TK
