import Verif.Model.Solvers

/-!
# Model of `EvolvingTensor`, `ProjectedFactor` and `Parafac2Tensor`
(`src/tenkit/decomposition/decompositions.py`, lines 279-709)

`B` of an evolving tensor is a list of matrices or a three-dimensional array; both are modelled as the list
of the matrices `B[k]` (iteration, `len` and indexing agree). The `B` of a PARAFAC2 tensor is computed from
the projection matrices each time it is used.
-/

namespace TK
open NDArray

noncomputable section

/-- Attributes of an `EvolvingTensor` that are stored at construction (decompositions.py:316-325). -/
structure EvolvingTensor where
  rank : ℕ
  A : NDArray ℝ
  B : List (NDArray ℝ)
  C : NDArray ℝ
  warning : Bool
  allSameSize : Bool
  sliceShapes : List (ℕ × ℕ)
  numElements : ℕ

/-- decompositions.py:351-356 `_check_all_same_size(matrices)`. -/
def checkAllSameSize (ms : List (NDArray ℝ)) : Py Bool := do
  let m0 ← pyGet ms 0
  let size ← rows m0
  let sizes ← ms.mapM rows
  pure (sizes.all fun s => s == size)

/-- decompositions.py:323 and 602: `[(A.shape[0], B_k.shape[0]) for B_k in B]`. -/
def sliceShapesOf (A : NDArray ℝ) (B : List (NDArray ℝ)) : Py (List (ℕ × ℕ)) :=
  B.mapM fun Bk => do
    let i ← rows A
    let j ← rows Bk
    pure (i, j)

/-- `C[k]` for a matrix: row `k` as a vector, `IndexError` if there is no such row. -/
def takeRow (C : NDArray ℝ) (k : ℕ) : Py (NDArray ℝ) := do
  let (m, n) ← C.dims2
  if k < m then pure (ofFn [n] fun idx => C.get [k, idx.getD 0 0]) else .error .indexError

/-- decompositions.py:394-400 `construct_slice(k)` for given `A`, `B[k]`, `C`:
`A @ (C[k] * B[k]).T`. -/
def evolvingSlice (A Bk C : NDArray ℝ) (k : ℕ) : Py (NDArray ℝ) := do
  let c ← takeRow C k
  let scores ← zipB (· * ·) c Bk
  matmul A scores.T

/-- decompositions.py:385-392 `construct_slices()`, starting at slice `k`. -/
def evolvingSlicesFrom (A C : NDArray ℝ) : ℕ → List (NDArray ℝ) → Py (List (NDArray ℝ))
  | _, [] => .ok []
  | k, Bk :: Bs => do
    let s ← evolvingSlice A Bk C k
    let rest ← evolvingSlicesFrom A C (k + 1) Bs
    pure (s :: rest)

/-- `constructed[:, :slice_.shape[1], k] = slice_` (decompositions.py:417) for a slice with as many rows as
`constructed` and at most as many columns; other sizes raise `ValueError`. -/
def writeSlice (T S : NDArray ℝ) (k : ℕ) : Py (NDArray ℝ) :=
  match T.shape, S.shape with
  | [I, J, K], [i, j] =>
    if k < K then
      if i = I ∧ j ≤ J then
        pure (ofFn [I, J, K] fun idx =>
          if idx.getD 2 0 = k ∧ idx.getD 1 0 < j then S.get [idx.getD 0 0, idx.getD 1 0] else T.get idx)
      else .error .valueError
    else .error .indexError
  | _, _ => .error .valueError

/-- decompositions.py:415-418, the loop of `construct_tensor` starting at slice `k`. -/
def constructLoop (A C : NDArray ℝ) : ℕ → List (NDArray ℝ) → NDArray ℝ → Py (NDArray ℝ)
  | _, [], T => .ok T
  | k, Bk :: Bs, T => do
    let s ← evolvingSlice A Bk C k
    let T' ← writeSlice T s k
    constructLoop A C (k + 1) Bs T'

/-- decompositions.py:379-383 `shape`. (`max` of an empty list is not reachable: construction fails.) -/
def evolvingShape (A : NDArray ℝ) (B : List (NDArray ℝ)) (C : NDArray ℝ) : Py (List ℕ) := do
  let js ← B.mapM rows
  let i ← rows A
  let k ← rows C
  pure [i, js.foldr max 0, k]

/-- decompositions.py:402-418 `construct_tensor()`; a `raise Warning` is an exception. -/
def evolvingConstruct (warning allSame : Bool) (A : NDArray ℝ) (B : List (NDArray ℝ)) (C : NDArray ℝ) :
    Py (NDArray ℝ) := do
  if warning && !allSame then .error .warning
  else do
    let s ← evolvingShape A B C
    constructLoop A C 0 B (full s 0)

/-- `np.concatenate(list, axis=0)`; an empty list raises `ValueError`. -/
def vcatAll : List (NDArray ℝ) → Py (NDArray ℝ)
  | [] => .error .valueError
  | M :: Ms => Ms.foldlM (init := M) vcat

namespace EvolvingTensor

/-- decompositions.py:316-325 `EvolvingTensor.__init__`. `num_elements` sums the second components of the
slice shapes, as the code does. -/
def init (A : NDArray ℝ) (B : List (NDArray ℝ)) (C : NDArray ℝ) (warning : Bool := true) :
    Py EvolvingTensor := do
  let rank ← cols A
  let same ← checkAllSameSize B
  let shapes ← sliceShapesOf A B
  pure ⟨rank, A, B, C, warning, same, shapes, (shapes.map Prod.snd).sum⟩

/-- decompositions.py:394-400 `construct_slice`. -/
def constructSlice (t : EvolvingTensor) (k : ℕ) : Py (NDArray ℝ) := do
  let Bk ← pyGet t.B k
  evolvingSlice t.A Bk t.C k

/-- decompositions.py:385-392 `construct_slices`. -/
def constructSlices (t : EvolvingTensor) : Py (List (NDArray ℝ)) := evolvingSlicesFrom t.A t.C 0 t.B

/-- decompositions.py:402-418 `construct_tensor`. -/
def constructTensor (t : EvolvingTensor) : Py (NDArray ℝ) :=
  evolvingConstruct t.warning t.allSameSize t.A t.B t.C

/-- decompositions.py:362-364 `B_unfolded`. -/
def BUnfolded (t : EvolvingTensor) : Py (NDArray ℝ) := vcatAll t.B

/-- decompositions.py:327-343 `from_kruskaltensor(ktensor)`: `B` is `np.ones((len(C), 1, 1)) * B[np.newaxis]`,
i.e. `len(C)` copies of the second factor matrix (multiplied by one). The weights are not used. -/
def fromKruskal (t : KruskalTensor) : Py EvolvingTensor :=
  match t.factorMatrices with
  | [A, B, C] => do
    let n ← rows C
    init A (List.replicate n (B.map fun x => 1 * x)) C
  | _ => .error .valueError

end EvolvingTensor

/-- decompositions.py:481-515 `ProjectedFactor.__getitem__(k)` for an integer `k`. -/
def projectedFactor (blueprint : NDArray ℝ) (P : List (NDArray ℝ)) (k : ℕ) : Py (NDArray ℝ) := do
  let Pk ← pyGet P k
  matmul Pk blueprint

/-- Attributes of a `Parafac2Tensor` (decompositions.py:571-605). -/
structure Parafac2Tensor where
  rank : ℕ
  A : NDArray ℝ
  blueprint : NDArray ℝ
  C : NDArray ℝ
  P : List (NDArray ℝ)
  warning : Bool
  allSameSize : Bool
  sliceShapes : List (ℕ × ℕ)
  numElements : ℕ

namespace Parafac2Tensor

/-- The list of the evolving factor matrices (`ProjectedFactor.as_list`, decompositions.py:514-515, also what
iterating over `B` gives). -/
def Bs (blueprint : NDArray ℝ) (P : List (NDArray ℝ)) : Py (List (NDArray ℝ)) :=
  P.mapM fun Pk => matmul Pk blueprint

/-- decompositions.py:571-605 `Parafac2Tensor.__init__`. -/
def init (A blueprint C : NDArray ℝ) (P : List (NDArray ℝ)) (warning : Bool := true) :
    Py Parafac2Tensor := do
  let rank ← cols A
  let same ← checkAllSameSize P
  let B ← Bs blueprint P
  let shapes ← sliceShapesOf A B
  pure ⟨rank, A, blueprint, C, P, warning, same, shapes, (shapes.map Prod.snd).sum⟩

/-- decompositions.py:385-392 `construct_slices` (inherited). -/
def constructSlices (t : Parafac2Tensor) : Py (List (NDArray ℝ)) := do
  let B ← Bs t.blueprint t.P
  evolvingSlicesFrom t.A t.C 0 B

/-- decompositions.py:402-418 `construct_tensor` (inherited). -/
def constructTensor (t : Parafac2Tensor) : Py (NDArray ℝ) :=
  if t.warning && !t.allSameSize then .error .warning
  else do
    let B ← Bs t.blueprint t.P
    evolvingConstruct t.warning t.allSameSize t.A B t.C

/-- `B[:, ..., component, np.newaxis]` (decompositions.py:503-508, 701): the projection matrices are stacked,
which needs equal sizes (`ValueError` otherwise, see the comment on the class), multiplied by the blueprint,
and column `component` of each product is kept as a matrix with one column. -/
def takeB (t : Parafac2Tensor) (component : Int) : Py (List (NDArray ℝ)) := do
  if !t.allSameSize then .error .valueError
  else do
    let B ← Bs t.blueprint t.P
    B.mapM fun Bk => KruskalTensor.takeColumn Bk component

/-- decompositions.py:699-709 `get_single_component_decomposition(component)`. -/
def getSingleComponent (t : Parafac2Tensor) (component : Int) : Py EvolvingTensor := do
  let A ← KruskalTensor.takeColumn t.A component
  let B ← t.takeB component
  let C ← KruskalTensor.takeColumn t.C component
  EvolvingTensor.init A B C

/-- `q[:, :rank]`. -/
def takeCols (Q : NDArray ℝ) (r : ℕ) : NDArray ℝ :=
  ofMat (Q.shape.getD 0 0) (min r (Q.shape.getD 1 0)) fun i j => Q.get [i, j]

/-- The second size given to `random_init`: one number, or a list with one number per slice. -/
inductive SecondSize
  | int (J : ℕ)
  | list (Js : List ℕ)

/-- decompositions.py:628-656 `random_init(sizes, rank)`. `drawA`, `drawC` are the uniform draws and
`drawP k` the Gaussian draws for slice `k`, all arbitrary. The flag `all_same_size` is passed in the position
of `warning`. -/
def randomInit (E : Ext) (drawA drawC : ℕ → ℕ → ℝ) (drawP : ℕ → ℕ → ℕ → ℝ) (I K : ℕ) (J : SecondSize)
    (rank : ℕ) : Py Parafac2Tensor :=
  let (same, Js) : Bool × List ℕ := match J with
    | .int J => (true, List.replicate K J)
    | .list Js => (false, Js)
  let A := ofMat I rank drawA
  let blueprint := ofMat rank rank fun i j => if i = j then 1 else 0
  let C := (ofMat K rank drawC).map (· + 0.1)
  let P := (List.range Js.length).map fun k =>
    takeCols (E.qr (ofMat (Js.getD k 0) rank (drawP k))).1 rank
  init A blueprint C P same

end Parafac2Tensor
end
end TK
