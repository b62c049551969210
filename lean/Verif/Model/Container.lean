import Verif.Model.Evolving
import Verif.Model.Signs

/-!
# Access to the parts of a decomposition
(`src/tenkit/decomposition/decompositions.py`: `__getitem__`, `from_factor_matrices`, `from_kruskaltensor` called on
`Parafac2Tensor`, the properties `shape` and `D`)
-/

namespace TK
open NDArray

noncomputable section

/-- What indexing an evolving tensor gives: a factor matrix, or the list of the evolving factor matrices. -/
inductive Item
  | mat (M : NDArray ℝ)
  | mats (Ms : List (NDArray ℝ))

/-- One item during unpacking: an `IndexError` of `__getitem__` means that there are too few items, which raises
`ValueError`. -/
def needItem {β : Type} (get : Int → Py β) (k : ℕ) : Py β :=
  match get (k : Int) with
  | .ok x => .ok x
  | .error .indexError => .error .valueError
  | .error e => .error e

/-- `x_0, ..., x_(n-1) = obj` for an object with `__getitem__` and without `__iter__`: Python asks for the items
`0, 1, ...` until `IndexError`, and raises `ValueError` if there are fewer or more than `n` of them. -/
def unpack {β : Type} (get : Int → Py β) (n : ℕ) : Py (List β) := do
  let items ← (List.range n).mapM (needItem get)
  match get (n : Int) with
  | .ok _ => .error .valueError
  | .error .indexError => .ok items
  | .error e => .error e

/-- decompositions.py:208-209 `KruskalTensor.__getitem__(item)` for an integer. -/
def KruskalTensor.getItem (t : KruskalTensor) (i : Int) : Py (NDArray ℝ) := pyGet t.factorMatrices i

namespace EvolvingTensor

/-- decompositions.py:445-453 `EvolvingTensor.__getitem__(item)` for an integer. -/
def getItem (t : EvolvingTensor) (i : Int) : Py Item :=
  if i = 0 then .ok (.mat t.A)
  else if i = 1 then .ok (.mats t.B)
  else if i = 2 then .ok (.mat t.C)
  else .error .indexError

/-- decompositions.py:345-349 `EvolvingTensor.from_factor_matrices(factor_matrices)`. Only the kinds of arguments that the
constructor documents are modelled (others give `TypeError` here). -/
def fromFactorMatrices (l : List Item) : Py EvolvingTensor := do
  let a ← pyGet l 0
  let b ← pyGet l 1
  let c ← pyGet l 2
  match a, b, c with
  | .mat A, .mats B, .mat C => init A B C
  | _, _, _ => .error .typeError

/-- decompositions.py:378-383 the property `shape`. -/
def shape (t : EvolvingTensor) : Py (List ℕ) := evolvingShape t.A t.B t.C

end EvolvingTensor

namespace Parafac2Tensor

/-- decompositions.py:445-453 `__getitem__(item)` (inherited): item 1 is the `ProjectedFactor`, given by its list of
matrices (which exists for every tensor that was constructed). -/
def getItem (t : Parafac2Tensor) (i : Int) : Py Item :=
  if i = 0 then .ok (.mat t.A)
  else if i = 1 then do
    let B ← Bs t.blueprint t.P
    pure (.mats B)
  else if i = 2 then .ok (.mat t.C)
  else .error .indexError

/-- Calling the constructor `Parafac2Tensor(A, blueprint_B, C, projection_matrices, warning=True)` with three positional
arguments (decompositions.py:571). -/
def callWithThree : Py Unit := bindArgs ["A", "blueprint_B", "C", "projection_matrices"] 3 []

/-- decompositions.py:345-349 `Parafac2Tensor.from_factor_matrices(factor_matrices)` (inherited): `cls` is
`Parafac2Tensor`. The value returned for a successful call is not modelled, because there is none. -/
def fromFactorMatrices (l : List Item) : Py Parafac2Tensor := do
  let _ ← pyGet l 0
  let _ ← pyGet l 1
  let _ ← pyGet l 2
  callWithThree
  .error .notImplementedError

/-- decompositions.py:327-343 `Parafac2Tensor.from_kruskaltensor(ktensor)` (inherited). See `fromFactorMatrices`. -/
def fromKruskal (t : KruskalTensor) : Py Parafac2Tensor :=
  if t.factorMatrices.length ≠ 3 then .error .valueError
  else do
    callWithThree
    .error .notImplementedError

/-- decompositions.py:378-383 the property `shape` (inherited). -/
def shape (t : Parafac2Tensor) : Py (List ℕ) := do
  let B ← Bs t.blueprint t.P
  evolvingShape t.A B t.C

/-- decompositions.py:624-626 the property `D`: `np.array([np.diag(C[:, r]) for r in range(rank)])`. -/
def D (t : Parafac2Tensor) : Py (NDArray ℝ) := do
  let (K, R) ← t.C.dims2
  if R < t.rank then .error .indexError
  else if t.rank = 0 then .ok (full [0] 0)
  else .ok (ofFn [t.rank, K, K] fun idx =>
    if idx.getD 1 0 = idx.getD 2 0 then t.C.get [idx.getD 1 0, idx.getD 0 0] else 0)

end Parafac2Tensor
end
end TK
