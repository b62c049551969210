import Verif.Spec.CoupledDescent
import Verif.Props.RankOne

/-!
# Spec: coupled data with one component
-/

namespace TK
open NDArray

noncomputable section

/-- Spec: the tensor is the outer product of the first columns of `a`, and each matrix that is the first one of its mode is the
outer product of the column of `a` of that mode and the first column of the corresponding matrix of `ys`. -/
structure OneComponent (X : NDArray ℝ) (Ys : List (NDArray ℝ)) (ms : List ℕ) (a ys : List (NDArray ℝ)) : Prop where
  len : a.length = X.shape.length
  tensor : ∀ idx, Valid X.shape idx → X.get idx = rankOne a idx 0
  mats : ∀ i < ms.length, IsFirst ms i → ∀ p < (Ys.getD i noArr).shape.getD 0 0, ∀ q < (Ys.getD i noArr).shape.getD 1 0,
    (Ys.getD i noArr).get [p, q] = (modeMat a (ms.getD i 0)).get [p, 0] * (ys.getD i noArr).get [q, 0]

end
end TK
