import Verif.Spec.CMTF
import Verif.Lemmas.Descent

/-! # Specification: distance and stationarity of coupled models (C137) -/

namespace TK
open NDArray Filter Topology

noncomputable section

/-- `‖X - [[U]]‖² + Σ ‖Y_i - U_{m_i} V_iᵀ‖²` with unit weights, the sum over the matrices that are the first one of their mode. -/
def coupledLoss (X : NDArray ℝ) (Ys : List (NDArray ℝ)) (ms : List ℕ) (R : ℕ) (fs Vs : List (NDArray ℝ)) : ℝ :=
  sqErr X (fun _ => 1) fs R + firstErr fs Ys Vs ms R

/-- `‖U Vᵀ - U' V'ᵀ‖²` over the entries of a `p × q` matrix. -/
def matDist (p q : ℕ) (U V U' V' : NDArray ℝ) (R : ℕ) : ℝ :=
  ∑ i ∈ Finset.range p, ∑ j ∈ Finset.range q,
    (∑ r ∈ Finset.range R, U.get [i, r] * V.get [j, r] - ∑ r ∈ Finset.range R, U'.get [i, r] * V'.get [j, r]) ^ 2

/-- Squared distance of two coupled models: the tensors, and those matrices that are the first ones of their mode. -/
def coupledDist (X : NDArray ℝ) (Ys : List (NDArray ℝ)) (ms : List ℕ) (R : ℕ) (fs Vs gs Ws : List (NDArray ℝ)) : ℝ :=
  modelDist X.shape fs gs R + ∑ i ∈ (Finset.range ms.length).filter (IsFirst ms),
    matDist ((Ys.getD i noArr).shape.getD 0 0) ((Ys.getD i noArr).shape.getD 1 0)
      (fs.getD (ms.getD i 0) noArr) (Vs.getD i noArr) (gs.getD (ms.getD i 0) noArr) (Ws.getD i noArr) R

/-- No change of a single factor matrix of the tensor, or of a single right factor, lowers the coupled error. -/
def CoupledOptimal (X : NDArray ℝ) (Ys : List (NDArray ℝ)) (ms : List ℕ) (R : ℕ) (fs Vs : List (NDArray ℝ)) : Prop :=
  (∀ m < X.shape.length, ∀ Z : NDArray ℝ, Z.shape = [X.shape.getD m 0, R] →
    coupledLoss X Ys ms R fs Vs ≤ coupledLoss X Ys ms R (fs.set m Z) Vs) ∧
  ∀ i < ms.length, ∀ W : NDArray ℝ, W.shape = [(Ys.getD i noArr).shape.getD 1 0, R] →
    coupledLoss X Ys ms R fs Vs ≤ coupledLoss X Ys ms R fs (Vs.set i W)

/-- The numbers of columns of the coupled matrices. -/
def colCounts (Ys : List (NDArray ℝ)) : List ℕ := Ys.map fun Y => Y.shape.getD 1 0

/-- The derivative of the coupled error vanishes in all joint directions. -/
def CoupledStationary (X : NDArray ℝ) (Ys : List (NDArray ℝ)) (ms : List ℕ) (R : ℕ) (fs Vs : List (NDArray ℝ)) : Prop :=
  ∀ D D' : ℕ → NDArray ℝ, HasDerivAt (fun t => coupledLoss X Ys ms R (movedAlong X.shape R fs D t)
    (movedAlong (colCounts Ys) R Vs D' t)) 0 0

end
end TK
