import Verif.Model.Container
import Verif.Model.Parafac2Fit

/-!
# `from_kruskaltensor` for arguments of all three classes of decompositions
(`src/tenkit/decomposition/decompositions.py:327-343`)
-/

namespace TK
open NDArray

noncomputable section

/-- A decomposed tensor of one of the three classes. `EvolvingTensor` stores the object `B` that it was given
(decompositions.py:319): `asArray` says that this was an array of shape `(K, J, R)` (of which the model stores the list of
matrices `B[k]`), and not a list of matrices. -/
inductive AnyTensor
  | kruskal (t : KruskalTensor)
  | evolving (t : EvolvingTensor) (asArray : Bool)
  | parafac2 (t : Parafac2Tensor)

/-- The class on which the class method `from_kruskaltensor` is called. -/
inductive EvolvingClass
  | evolvingTensor
  | parafac2Tensor

/-- decompositions.py:332 `isinstance(ktensor, cls)`: `Parafac2Tensor` is a subclass of `EvolvingTensor`
(decompositions.py:536). -/
def AnyTensor.isInstance : AnyTensor → EvolvingClass → Bool
  | .kruskal _, _ => false
  | .evolving _ _, .evolvingTensor => true
  | .evolving _ _, .parafac2Tensor => false
  | .parafac2 _, _ => true

/-- The list of the arrays `B[0], B[1], ...` of an array `B` with at least one axis. -/
def unstack (B : NDArray ℝ) : List (NDArray ℝ) :=
  (List.range (B.shape.headD 0)).map fun k => ofFn B.shape.tail fun idx => B.get (k :: idx)

/-- decompositions.py:341 `np.ones((len(C), 1, 1))*B[np.newaxis]` for the array `B` of shape `(K, J, R)` of an evolving
tensor. -/
def repeatArray (C : NDArray ℝ) (Bs : List (NDArray ℝ)) : Py (NDArray ℝ) := do
  let n ← rows C
  let B ← P2.stackSlices Bs
  zipB (· * ·) (full [n, 1, 1] 1) (newaxis0 B)

/-- decompositions.py:327-343 `cls.from_kruskaltensor(ktensor, allow_same_class)`. The property `factor_matrices` of an evolving
tensor (decompositions.py:374-376) is a list of three items, so that the test of the order is passed. `B[np.newaxis]` of a list
or of a `ProjectedFactor` (which hands the index to its tuple of projection matrices, decompositions.py:503) raises
`TypeError`. -/
def fromKruskaltensor (cls : EvolvingClass) (arg : AnyTensor) (allowSameClass : Bool) : Py AnyTensor :=
  if allowSameClass && arg.isInstance cls then .ok arg
  else match cls, arg with
    | .evolvingTensor, .kruskal t => do
      let e ← EvolvingTensor.fromKruskal t
      pure (.evolving e true)
    | .parafac2Tensor, .kruskal t => do
      let e ← Parafac2Tensor.fromKruskal t
      pure (.parafac2 e)
    | .evolvingTensor, .evolving t true => do
      let B ← repeatArray t.C t.B
      let e ← EvolvingTensor.init t.A (unstack B) t.C
      pure (.evolving e true)
    | .parafac2Tensor, .evolving t true => do
      let _ ← repeatArray t.C t.B
      Parafac2Tensor.callWithThree
      .error .notImplementedError
    | _, _ => .error .typeError

end
end TK
