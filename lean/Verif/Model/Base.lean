import Verif.ND.Ops

/-!
# Model of `src/tenkit/base.py` (array-structural part)

Every definition cites the lines of `/repo/src/tenkit/base.py` it models.
The element type is any commutative semiring (`float64` idealised).
-/

namespace TK

variable {α : Type}

/-- `l[n]` on a Python sequence. -/
def pyGet {β : Type} (l : List β) (n : Int) : Py β :=
  match normIdx n l.length with
  | some k => match l[k]? with
    | some x => .ok x
    | none => .error .indexError
  | none => .error .indexError

/-- `l.pop(n)`: the removed element and the remaining list. -/
def pyPop {β : Type} (l : List β) (n : Int) : Py (β × List β) :=
  match normIdx n l.length with
  | some k => match l[k]? with
    | some x => .ok (x, l.eraseIdx k)
    | none => .error .indexError
  | none => .error .indexError

/-- base.py:194-211 `unfold(A, n)`: `np.moveaxis(A, n, 0).reshape(A.shape[n], -1)`. -/
def unfold [Zero α] (A : NDArray α) (n : Int) : Py (NDArray α) := do
  let B ← A.moveaxis n 0
  let m ← pyGet A.shape n
  B.reshapeRows m

/-- base.py:214-239 `fold(M, n, shape)`: pop mode `n` from the shape, insert it at the front, reshape,
and move axis 0 back to position `n`. -/
def fold [Zero α] (M : NDArray α) (n : Int) (shape : List ℕ) : Py (NDArray α) := do
  let (modeDim, rest) ← pyPop shape n
  let R ← M.reshape (modeDim :: rest)
  R.moveaxis 0 n

/-- Row `i` of a matrix as an array of shape `(1, K)`, i.e. `A[i][np.newaxis, :]`. -/
def rowAsMat [Zero α] (A : NDArray α) (i K : ℕ) : NDArray α := NDArray.ofMat 1 K fun _ k => A.get [i, k]

/-- Assignment `out[start:start+J] = block` for a matrix `out` and a block of `J` rows with the same
number of columns. -/
def setRows [Zero α] (out : NDArray α) (start : ℕ) (block : NDArray α) (J : ℕ) : NDArray α :=
  NDArray.ofFn out.shape fun idx =>
    let p := idx.getD 0 0
    if start ≤ p ∧ p < start + J then block.get [p - start, idx.getD 1 0] else out.get idx

/-- base.py:73-87 `khatri_rao_binary(A, B)`. `out` starts as `np.empty((I*J, K))`, i.e. with arbitrary
contents `mem`; the loop writes one block of `J` rows per row of `A`. The product `row * B` broadcasts:
if the column counts differ this raises `ValueError` unless `A` has one column; a product whose shape
is not `(J, K)` cannot be assigned (`ValueError`). -/
def khatriRaoBinaryMem [Zero α] [Mul α] (mem : ℕ → α) (A B : NDArray α) : Py (NDArray α) := do
  let (I, KA) ← A.dims2
  let (J, K) ← B.dims2
  let out := NDArray.ofFlat [I * J, K] mem
  (List.range I).foldlM (init := out) fun out i => do
    let block ← NDArray.zipB (· * ·) (rowAsMat A i KA) B
    if block.shape = [J, K] then pure (setRows out (i * J) block J) else throw .valueError

/-- `khatri_rao_binary` with zero-filled initial memory; `khatriRaoBinaryMem_eq` shows that the
initial memory is irrelevant. -/
def khatriRaoBinary [Zero α] [Mul α] (A B : NDArray α) : Py (NDArray α) :=
  khatriRaoBinaryMem (fun _ => 0) A B

/-- base.py:112-114: copy the list and `pop(skip)`. -/
def skipFactor {β : Type} (factors : List β) : Option Int → Py (List β)
  | none => .ok factors
  | some n => (pyPop factors n).map Prod.snd

/-- base.py:90-121 `khatri_rao(*factors, skip=skip)`; `factors[0]` raises `IndexError` on an empty
list. -/
def khatriRao [Zero α] [Mul α] (factors : List (NDArray α)) (skip : Option Int := none) :
    Py (NDArray α) := do
  match ← skipFactor factors skip with
  | [] => .error .indexError
  | f :: fs => fs.foldlM (init := f) fun product g => khatriRaoBinary product g

/-- base.py:63-69 `kron_binary_vectors(u, v)`. -/
def kronBinaryVectors [Zero α] [Mul α] (u v : NDArray α) : Py (NDArray α) :=
  match u.shape, v.shape with
  | [n], [m] => (NDArray.ofMat n m fun i j => u.get [i] * v.get [j]).reshape [n * m]
  | _, _ => .error .valueError

/-- base.py:136-142 `kron_binary(A, B)`: the four-dimensional product
`A[:, None, :, None] * B[None, :, None, :]` reshaped to `(n*p, m*q)`. -/
def kronBinary [Zero α] [Mul α] (A B : NDArray α) : Py (NDArray α) := do
  let (n, m) ← A.dims2
  let (p, q) ← B.dims2
  let kprod := NDArray.ofFn [n, p, m, q] fun idx =>
    A.get [idx.getD 0 0, idx.getD 2 0] * B.get [idx.getD 1 0, idx.getD 3 0]
  kprod.reshape [n * p, m * q]

/-- base.py:124-133 `kron(*factors)`. -/
def kron [Zero α] [Mul α] : List (NDArray α) → Py (NDArray α)
  | [] => .error .indexError
  | f :: fs => fs.foldlM (init := f) fun product g => kronBinary product g

/-- `X[i]` for the first axis. -/
def subArr [Zero α] (X : NDArray α) (i : ℕ) : NDArray α :=
  NDArray.ofFn X.shape.tail fun idx => X.get (i :: idx)

/-- `M[a:b]` for a matrix (Python slices are clamped to the number of rows). -/
def sliceRows [Zero α] (M : NDArray α) (a b : ℕ) : NDArray α :=
  NDArray.ofMat (min b (M.shape.getD 0 0) - min a (M.shape.getD 0 0)) (M.shape.getD 1 0)
    fun i j => M.get [a + i, j]

section semiring
variable [CommSemiring α]

/-- base.py:180-191 `_mttkrp_mid_with_krp(tensor, krp)`; the tensor is three-dimensional here
(base.py:158). `product += block` adds matrices of equal shape. -/
def mttkrpMidWithKrp (X krp : NDArray α) : Py (NDArray α) := do
  let shape := X.shape
  let blockSize ← pyGet shape (-1)
  let numRows ← pyGet shape (-2)
  let numCols ← pyGet krp.shape (-1)
  let n0 ← pyGet shape 0
  (List.range n0).foldlM (init := NDArray.full [numRows, numCols] 0) fun product i => do
    let block ← NDArray.matmul (subArr X i) (sliceRows krp (i * blockSize) ((i + 1) * blockSize))
    NDArray.zipB (· + ·) product block

/-- base.py:175-177 `_mttkrp_mid(tensor, matrices)`. -/
def mttkrpMid (X : NDArray α) (factors : List (NDArray α)) : Py (NDArray α) := do
  let krp ← khatriRao factors (some 1)
  mttkrpMidWithKrp X krp

/-- base.py:164-172 `_mttkrp3(X, factors, mode)`; other modes fall through and return `None`. -/
def mttkrp3 (X : NDArray α) (factors : List (NDArray α)) (mode : Int) : Py (Option (NDArray α)) := do
  if mode = 0 then
    let n0 ← pyGet X.shape 0
    let R ← X.reshapeRows n0
    let krp ← khatriRao factors (some mode)
    some <$> NDArray.matmul R krp
  else if mode = 1 then
    some <$> mttkrpMid X factors
  else if mode = 2 ∨ mode = -1 then
    let Y ← X.moveaxis (-1) 0
    let n2 ← pyGet X.shape (-1)
    let R ← Y.reshapeRows n2
    let krp ← khatriRao factors (some mode)
    some <$> NDArray.matmul R krp
  else pure none

/-- base.py:145-161 `matrix_khatri_rao_product(X, factors, mode)`. The result is `none` when Python's
function returns `None`. -/
def matrixKhatriRaoProduct (X : NDArray α) (factors : List (NDArray α)) (mode : Int) :
    Py (Option (NDArray α)) := do
  if X.shape.length ≠ factors.length then .error .assertionError
  else if factors.length = 3 then mttkrp3 X factors mode
  else
    let M ← unfold X mode
    let krp ← khatriRao factors (some mode)
    some <$> NDArray.matmul M krp

end semiring

/-- Assignment `v[start:start+size] = w` on one-dimensional arrays of matching size. -/
def setSlice1 [Zero α] (v : NDArray α) (start : ℕ) (w : NDArray α) : NDArray α :=
  NDArray.ofFlat v.shape fun p =>
    if start ≤ p ∧ p < start + w.shape.prod then w.flat (p - start) else v.flat p

/-- base.py:274-275, the loop of `flatten_factors`: `offsets = cumsum([0] + sizes)[:-1]`, so the offset
of a factor is the total size of the factors before it. -/
def flattenLoop [Zero α] : ℕ → NDArray α → List (NDArray α) → NDArray α
  | _, v, [] => v
  | offset, v, f :: fs => flattenLoop (offset + f.shape.prod) (setSlice1 v offset f) fs

/-- base.py:266-276 `flatten_factors(factor_matrices)`; `np.empty` has arbitrary contents `mem`. The sum of an empty list of
sizes is the floating point number `0.0`, and the size `np.prod(())` of a zero-dimensional array is `1.0`; `np.empty` raises
`TypeError` for such numbers. -/
def flattenFactors [Zero α] (mem : ℕ → α) (factors : List (NDArray α)) : Py (NDArray α) :=
  if factors = [] ∨ ∃ f ∈ factors, f.shape = [] then .error .typeError
  else .ok (flattenLoop 0 (NDArray.ofFlat [(factors.map fun f => f.shape.prod).sum] mem) factors)

/-- `v[a:b]` on a one-dimensional array (clamped). -/
def slice1 [Zero α] (v : NDArray α) (a b : ℕ) : NDArray α :=
  NDArray.ofFlat [min b v.shape.prod - min a v.shape.prod] fun p => v.flat (a + p)

/-- base.py:258-262, the loop of `unflatten_factors`. -/
def unflattenLoop [Zero α] (v : NDArray α) (rank : ℕ) : ℕ → List ℕ → Py (List (NDArray α))
  | _, [] => .ok []
  | offset, s :: sizes => do
    let stop := offset + s * rank
    let matrix ← (slice1 v offset stop).reshape [s, rank]
    let rest ← unflattenLoop v rank stop sizes
    pure (matrix :: rest)

/-- base.py:242-263 `unflatten_factors(flattened_factors, rank, sizes)`. -/
def unflattenFactors [Zero α] (v : NDArray α) (rank : ℕ) (sizes : List ℕ) : Py (List (NDArray α)) :=
  unflattenLoop v rank 0 sizes

end TK
