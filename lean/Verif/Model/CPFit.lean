import Verif.Model.CP
import Verif.Model.Decomposer
import Verif.Model.Evolving

/-!
# Model of the initialisation and the `fit` methods of `CP_ALS` (`src/tenkit/decomposition/cp.py`)

The numerical work of `CP_ALS` (`Verif/Model/CP.lean`) is put into the fit loop of
`Verif/Model/Decomposer.lean`.
-/

namespace TK
open NDArray

noncomputable section

/-- A path that is passed to a decomposer: its own `checkpoint_path`, or something else. -/
inductive CkPath
  | own
  | other (f : FileArg)

/-- The file found at a path. -/
def CkPath.resolve {σ : Type} (w : World σ) : CkPath → FileArg
  | .own => match w.file with
    | none => .missing
    | some f => .file f
  | .other f => f

/-- The argument `initial_decomposition`: `None`, a decomposition or a path. -/
inductive InitArg (τ : Type)
  | none
  | tensor (t : τ)
  | path (p : CkPath)

/-- Is the argument given? -/
def InitArg.given {τ : Type} : InitArg τ → Bool
  | .none => false
  | _ => true

namespace CP

/-- cp.py:114-128, the loop of `_check_valid_components` from mode `i` on. Unpacking a shape that does not have
two entries raises `ValueError`, `X.shape[i]` may raise `IndexError`. -/
def checkValidFrom (rank : ℕ) (xshape : List ℕ) : ℕ → List (NDArray ℝ) → Py Unit
  | _, [] => .ok ()
  | i, F :: Fs =>
    match F.shape with
    | [len, r] =>
      if r ≠ rank then .error .valueError
      else do
        let xlen ← pyGet xshape i
        if len ≠ xlen then .error .valueError else checkValidFrom rank xshape (i + 1) Fs
    | _ => .error .valueError

/-- cp.py:114-128 `_check_valid_components(decomposition)`. -/
def checkValid (rank : ℕ) (xshape : List ℕ) (dec : KruskalTensor) : Py Unit :=
  checkValidFrom rank xshape 0 dec.factorMatrices

/-- cp.py:97-112 `init_svd`. `U` gives the first component of `np.linalg.svd` with its default
`full_matrices=True`, a square matrix. -/
def initSvd (U : NDArray ℝ → NDArray ℝ) (rank : ℕ) (X : NDArray ℝ) : Py KruskalTensor :=
  match X.shape.min? with
  | none => .error .valueError
  | some m =>
    if m < rank then .error .valueError
    else do
      let fs ← (List.range X.shape.length).mapM fun (i : ℕ) => do
        let M ← unfold X i
        pure (Parafac2Tensor.takeCols (U M) rank)
      KruskalTensor.init fs none

/-- cp.py:62-88, 285-315: the rest of the options of a `CP_ALS` object. `isFile` stands for
`Path(init).is_file()`; `logs` are the loggers given to the constructor, with what they measure; `draw` and `U`
are the random numbers and the SVD routine. -/
structure Config where
  opts : CPOpts
  init : String
  freq : Option Int
  hasPath : Bool
  logs : List (Name × (CPState → Py ℝ))
  draw : KruskalTensor.RandomMethod → ℕ → ℕ → ℕ → ℝ
  U : NDArray ℝ → NDArray ℝ
  isFile : String → Option CkPath

/-- `CP_ALS` as a decomposer: what it defines for `BaseDecomposer`. -/
def method (E : Ext) (c : Config) : Method CPState KruskalTensor where
  dec := fun s => s.dec
  setDec := fun t s => { s with dec := t }
  storeDec := KruskalTensor.storeIn
  loadDec := KruskalTensor.loadFrom
  check := fun t s => checkValid c.opts.rank s.X.shape t
  prepare := .ok
  stop := shouldStop c.opts
  step := iteration E c.opts
  post := .ok
  initRest := fun s => initFit E s s.X s.dec
  freq := freqOption c.freq
  hasPath := c.hasPath
  typeName := "CP_ALS".toList
  logs := c.logs
  usesLoopVar := true
  writesIts := true

/-- base_decomposer.py:83-93 `set_target(X)`. -/
def setTarget (X : NDArray ℝ) (s : CPState) : Py CPState := .ok { s with X := X, XNorm := frobNorm X }

/-- cp.py:130-162 `init_components(initial_decomposition)`. `str.lower` is modelled by `String.toLower`, which
agrees with it on ASCII letters. -/
def initComponents (E : Ext) (c : Config) (arg : InitArg KruskalTensor) : Fit CPState Unit := do
  let i := c.init.toLower
  if arg.given && !(["precomputed", "from_checkpoint"].contains i) then throw .warning
  if i = "random" then
    Fit.modifySt fun s => do
      let t ← initRandom c.draw c.opts.rank s.nonNeg s.X
      pure { s with dec := t }
  else if i = "svd" then
    Fit.modifySt fun s => do
      let t ← initSvd c.U c.opts.rank s.X
      pure { s with dec := t }
  else if i = "from_checkpoint" then
    match arg with
    | .path p => do
      let w ← get
      Fit.loadCheckpoint (method E c) (p.resolve w) none
    | _ => throw .typeError
  else if i = "precomputed" then
    match arg with
    | .tensor t => Fit.modifySt fun s => do
        checkValid c.opts.rank s.X.shape t
        pure { s with dec := t }
    | _ => throw .attributeError
  else
    match c.isFile c.init with
    | some p => do
      let w ← get
      Fit.loadCheckpoint (method E c) (p.resolve w) none
    | none => throw .valueError

/-- cp.py:188-206 `fit(X, max_its, initial_decomposition)`. -/
def fit (E : Ext) (c : Config) (X : NDArray ℝ) (maxIts : Option Int) (arg : InitArg KruskalTensor) :
    Fit CPState Unit :=
  Fit.fit (method E c) (setTarget X) (initComponents E c arg) maxIts

/-- cp.py:208-226 `fit_transform(X, max_its, initial_decomposition)`. -/
def fitTransform (E : Ext) (c : Config) (X : NDArray ℝ) (maxIts : Option Int) (arg : InitArg KruskalTensor) :
    Fit CPState KruskalTensor := do
  fit E c X maxIts arg
  let w ← get
  pure w.st.dec

/-- A new `CP_ALS` object. -/
def newObject (nonNeg orth : Option (List Bool)) (maxIts : Int) (loggers : List Logger) (file : Option H5File) :
    World CPState := ⟨fresh nonNeg orth, 0, maxIts, loggers, file⟩

end CP
end
end TK
