import Verif.Spec.CP

/-! # Specification: the error of coupled matrices -/

namespace TK
open NDArray

noncomputable section

/-- Stands for an element that is not there. -/
def noArr : NDArray ℝ := full [] 0

/-- `‖Y - U Vᵀ‖²`, the sum over all entries of `Y`. -/
def matErr (Y U V : NDArray ℝ) (R : ℕ) : ℝ :=
  ∑ i ∈ Finset.range (Y.shape.getD 0 0), ∑ j ∈ Finset.range (Y.shape.getD 1 0),
    (Y.get [i, j] - ∑ r ∈ Finset.range R, U.get [i, r] * V.get [j, r]) ^ 2

/-- The error of coupled matrix number `i`, coupled to mode `ms[i]`. -/
def coupledErrAt (fs Ys Vs : List (NDArray ℝ)) (ms : List ℕ) (R i : ℕ) : ℝ :=
  matErr (Ys.getD i noArr) (fs.getD (ms.getD i 0) noArr) (Vs.getD i noArr) R

/-- The error of all coupled matrices: `Σ_i ‖Y_i - U_{m_i} V_iᵀ‖²`. -/
def coupledErr (fs Ys Vs : List (NDArray ℝ)) (ms : List ℕ) (R : ℕ) : ℝ :=
  ∑ i ∈ Finset.range ms.length, coupledErrAt fs Ys Vs ms R i

/-- Matrix number `i` is the first one of its mode. -/
def IsFirst (ms : List ℕ) (i : ℕ) : Prop := ∀ j < i, ms.getD j 0 ≠ ms.getD i 0

instance (ms : List ℕ) (i : ℕ) : Decidable (IsFirst ms i) := inferInstanceAs (Decidable (∀ j < i, _))

/-- The error of those coupled matrices that are the first one of their mode. -/
def firstErr (fs Ys Vs : List (NDArray ℝ)) (ms : List ℕ) (R : ℕ) : ℝ :=
  ∑ i ∈ (Finset.range ms.length).filter (IsFirst ms), coupledErrAt fs Ys Vs ms R i

end
end TK
