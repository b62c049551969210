import Verif.Model.Parafac2
import Verif.Model.Serialize

/-!
# Model of `Parafac2_ALS`: initialisation and fit (`src/tenkit/decomposition/parafac2.py`)
-/

namespace TK
open NDArray

noncomputable section

/-- An entry of the shape argument of `np.zeros` and `np.eye`: an integer, or a list (which is not one). -/
inductive SizeArg
  | int (n : ℕ)
  | list (l : List ℕ)

/-- A size must be an integer: `TypeError` ('list' object cannot be interpreted as an integer). -/
def SizeArg.toNat : SizeArg → Py ℕ
  | .int n => .ok n
  | .list _ => .error .typeError

/-- `np.zeros(shape)`. -/
def npZeros (shape : List SizeArg) : Py (NDArray ℝ) := do
  let s ← shape.mapM SizeArg.toNat
  pure (full s 0)

/-- `np.eye(n, m)`. -/
def npEye (n m : ℕ) : NDArray ℝ := ofMat n m fun i j => if i = j then 1 else 0

/-- utils.py:22-27 `get_pca_loadings(Y, rank)` with the routine `svd` for `np.linalg.svd` (full matrices). -/
def pcaLoadings (svd : NDArray ℝ → NDArray ℝ × NDArray ℝ × NDArray ℝ) (Y : NDArray ℝ) (rank : ℕ) : Py (NDArray ℝ) := do
  let (_, S, Vh) := svd Y
  let n := S.shape.getD 0 0
  let D := ofMat n n fun i j => if i = j then S.get [i] else 0
  let W ← matmul Vh.T D
  pure (Parafac2Tensor.takeCols W rank)

namespace P2

/-- `np.asarray(X)` for a list of matrices: `ValueError` if their shapes differ or the list is empty (`np.asarray([])` is
one-dimensional, and the fit then fails). (Old versions of NumPy make an array of objects from matrices of different
shapes, which makes the CP fit raise as well.) -/
def stackSlices (X : List (NDArray ℝ)) : Py (NDArray ℝ) :=
  match X with
  | [] => .error .valueError
  | X0 :: _ => match X0.shape with
    | [I, J] => if X.all fun Y => Y.shape = [I, J] then
        .ok (ofFn [X.length, I, J] fun idx => (X.getD (idx.getD 0 0) X0).get [idx.getD 1 0, idx.getD 2 0])
      else .error .valueError
    | _ => .error .valueError

/-- The rest of the options and the sources of randomness. `cpDraw` are the numbers drawn by the inner CP fit of `init_cp`,
`drawA`, `drawC`, `drawP` those drawn by `random_init`. -/
structure Config where
  opts : P2Opts
  init : String
  freq : Option Int
  hasPath : Bool
  logs : List (Name × (P2State → Py ℝ))
  drawA : ℕ → ℕ → ℝ
  drawC : ℕ → ℕ → ℝ
  drawP : ℕ → ℕ → ℕ → ℝ
  cpDraw : KruskalTensor.RandomMethod → ℕ → ℕ → ℕ → ℝ
  svd : NDArray ℝ → NDArray ℝ × NDArray ℝ × NDArray ℝ
  isFile : String → Option CkPath

/-- Assignment of a newly created tensor to the attribute `decomposition`. -/
def setNew (t : Parafac2Tensor) (s : P2State) : P2State :=
  let (d, h) := s.heap.allocP2 t
  { s with dec := d, heap := h }

/-- parafac2.py:97-100 `init_random()`. The second entry of `X_shape` is always a list. -/
def initRandom (E : Ext) (c : Config) (s : P2State) : Py P2State := do
  let t ← Parafac2Tensor.randomInit E c.drawA c.drawC c.drawP s.XShape.1 s.XShape.2.2 (.list s.XShape.2.1) c.opts.rank
  pure (setNew t s)

/-- parafac2.py:111-112, the loop of `init_svd`. -/
def gramLoop : List (NDArray ℝ) → NDArray ℝ → Py (NDArray ℝ)
  | [], Y => .ok Y
  | Xk :: Xs, Y => do
    let G ← matmul Xk.T Xk
    let Y' ← zipB (· + ·) Y G
    if Y'.shape = Y.shape then gramLoop Xs Y' else .error .valueError

/-- parafac2.py:102-120 `init_svd()`. `J` is the second entry of `X_shape`, a list. -/
def initSvd (E : Ext) (c : Config) (s : P2State) : Py P2State := do
  let K := s.XShape.2.2
  let J : SizeArg := .list s.XShape.2.1
  let Y ← npZeros [J, J]
  let Y ← gramLoop (s.X.take K) Y
  let A ← pcaLoadings c.svd Y c.opts.rank
  let J ← J.toNat
  let t ← Parafac2Tensor.init A (npEye c.opts.rank c.opts.rank) (full [K, c.opts.rank] 1)
    (List.replicate K (npEye J c.opts.rank))
  updateProjections E (setNew t s)

/-- The options of the CP model fitted by `init_cp` (parafac2.py:126): rank, 20 iterations, defaults otherwise. -/
def cpConfig (c : Config) : CP.Config where
  opts := ⟨c.opts.rank, 1e-6, 1e-10, none⟩
  init := "random"
  freq := none
  hasPath := false
  logs := []
  draw := c.cpDraw
  U := fun A => A
  isFile := fun _ => none

/-- parafac2.py:122-131 `init_cp()`. One array `P` is used for every slice. -/
def initCp (E : Ext) (c : Config) (s : P2State) : Py P2State := do
  let X ← stackSlices s.X
  match CP.fit E (cpConfig c) X none .none (CP.newObject none none 20 [] none) with
  | .error e _ => .error e
  | .ok _ w =>
    match w.st.dec.factorMatrices with
    | [C, A, B] => do
      let (Q, R) := E.qr B
      let t ← Parafac2Tensor.init A R C (List.replicate s.X.length Q)
      let (a, h) := s.heap.alloc A
      let (b, h) := h.alloc R
      let (k, h) := h.alloc C
      let (q, h) := h.alloc Q
      pure { s with
        heap := h
        dec := ⟨t.rank, a, b, k, List.replicate s.X.length q, t.warning, t.allSameSize, t.sliceShapes, t.numElements⟩ }
    | _ => .error .valueError

/-- parafac2.py:152-162, the check of `A` or `C`. -/
def checkFactor (F : NDArray ℝ) (len rank : ℕ) : Py Unit := do
  let m ← rows F
  if m ≠ len then .error .valueError
  else do
    let r ← cols F
    if r ≠ rank then .error .valueError else pure ()

/-- parafac2.py:164-173, the loop over the evolving factors and the slices. `zip` asks for the next evolving factor before
it asks for the next slice. -/
def checkSlices (rank : ℕ) (blueprint : NDArray ℝ) : List (NDArray ℝ) → List (NDArray ℝ) → Py Unit
  | [], _ => .ok ()
  | Pk :: _, [] => do
    let _ ← matmul Pk blueprint
    pure ()
  | Pk :: Ps, Xk :: Xs => do
    let B ← matmul Pk blueprint
    let m ← rows B
    let n ← cols Xk
    if m ≠ n then .error .valueError
    else do
      let r ← cols B
      if r ≠ rank then .error .valueError else checkSlices rank blueprint Ps Xs

/-- parafac2.py:151-173 `_check_valid_components(decomposition)`. -/
def checkValid (rank : ℕ) (s : P2State) (t : Parafac2Tensor) : Py Unit := do
  checkFactor t.A s.XShape.1 rank
  checkFactor t.C s.XShape.2.2 rank
  checkSlices rank t.blueprint t.P s.X

/-- `Parafac2_ALS` as a decomposer: what it defines for `BaseDecomposer`. A loaded decomposition consists of new arrays. -/
def method (E : Ext) (c : Config) : Method P2State Parafac2Tensor where
  dec := fun s => s.dec.read s.heap
  setDec := setNew
  storeDec := Parafac2Tensor.storeIn
  loadDec := Parafac2Tensor.loadFrom
  check := fun t s => checkValid c.opts.rank s t
  prepare := prepareCp E c.opts
  stop := shouldStop c.opts
  step := iteration E c.opts
  post := .ok
  initRest := initRest c.opts
  freq := freqOption c.freq
  hasPath := c.hasPath
  typeName := "Parafac2_ALS".toList
  logs := c.logs
  usesLoopVar := false
  writesIts := true

/-- parafac2.py:133-149 `init_components(initial_decomposition)`. A decomposition passed by the user consists of references
into the heap, and is used as it is. `str.lower` is modelled by `String.toLower`, which agrees with it on ASCII letters. -/
def initComponents (E : Ext) (c : Config) (arg : InitArg P2Obj) : Fit P2State Unit := do
  let i := c.init.toLower
  if i = "svd" then Fit.modifySt (initSvd E c)
  else if i = "random" then Fit.modifySt (initRandom E c)
  else if i = "cp" then Fit.modifySt (initCp E c)
  else if i = "from_checkpoint" then
    match arg with
    | .path p => do
      let w ← get
      Fit.loadCheckpoint (method E c) (p.resolve w) none
    | _ => throw .typeError
  else if i = "precomputed" then
    match arg with
    | .tensor d => Fit.modifySt fun s => do
        checkValid c.opts.rank s (d.read s.heap)
        pure { s with dec := d }
    | _ => throw .attributeError
  else
    match c.isFile c.init with
    | some p => do
      let w ← get
      Fit.loadCheckpoint (method E c) (p.resolve w) none
    | none => throw .valueError

/-- parafac2.py:179-205 `fit(X, max_its, initial_decomposition)`. -/
def fit (E : Ext) (c : Config) (D : P2Data) (maxIts : Option Int) (arg : InitArg P2Obj) : Fit P2State Unit :=
  Fit.fit (method E c) (setTarget D) (initComponents E c arg) maxIts

/-- parafac2.py:207-209 `fit_transform(X, max_its, initial_decomposition)`: `fit` is called with `None` for both. -/
def fitTransform (E : Ext) (c : Config) (D : P2Data) (_maxIts : Option Int) (_arg : InitArg P2Obj) :
    Fit P2State P2Obj := do
  fit E c D none .none
  let w ← get
  pure w.st.dec

/-- A `Parafac2_ALS` object that has not been fitted yet (the fields are placeholders for attributes that do not exist). -/
def fresh (h : Heap) : P2State where
  heap := h
  dec := ⟨0, 0, 0, 0, [], true, true, [], 0⟩
  X := []
  XShape := (0, [], 0)
  XNorm := 0
  inner := none
  relChange := .nan
  prevLoss := 0

end P2
end
end TK
