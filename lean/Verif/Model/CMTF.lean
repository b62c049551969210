import Verif.Model.CPFit

/-!
# Model of `CMTF_ALS` (`src/tenkit/decomposition/cmtf.py`)

`CMTF_ALS` is a subclass of `CP_ALS`; its object is a `CPState` with the attributes added by the subclass. The method
`_update_als_factor_` (cmtf.py:191-284, note the trailing underscore) is never called and left out.
-/

namespace TK
open NDArray

noncomputable section

/-- The attributes of a `CMTF_ALS` object. `Ys` is `coupled_matrices`, `modes` is `coupling_modes`, `map` the dictionary
`mode_to_cm_idx` in the order of insertion, `V` is `uncoupled_factor_matrices`. -/
structure CMTFState where
  cp : CPState
  Ys : List (NDArray ℝ)
  modes : List Int
  map : List (Int × List ℕ)
  V : List (NDArray ℝ)
  coupledWeights : List (NDArray ℝ)

namespace CMTF

/-- cmtf.py:69-73, one pass of the loop: number `i` is appended to the list of mode `cm`, or a new list is made. -/
def addMode (cm : Int) (i : ℕ) : List (Int × List ℕ) → List (Int × List ℕ)
  | [] => [(cm, [i])]
  | (m, l) :: d => if m = cm then (m, l ++ [i]) :: d else (m, l) :: addMode cm i d

/-- cmtf.py:66-74, the loop of `_set_mode_to_coupled_matrix_mapping` from number `i` on. -/
def mapFrom : ℕ → List Int → List (Int × List ℕ) → List (Int × List ℕ)
  | _, [], d => d
  | i, cm :: cms, d => mapFrom (i + 1) cms (addMode cm i d)

/-- cmtf.py:61-74 `set_coupled_matrices(coupled_matrices, coupling_modes)`. -/
def setCoupled (Ys : List (NDArray ℝ)) (modes : List Int) (s : CMTFState) : CMTFState :=
  { s with Ys := Ys, modes := modes, map := mapFrom 0 modes [] }

/-- `mode in mode_to_cm_idx` and `mode_to_cm_idx[mode]`. -/
def lookup (m : Int) : List (Int × List ℕ) → Option (List ℕ)
  | [] => none
  | (m', l) :: d => if m' = m then some l else lookup m d

/-- cmtf.py:21-23 `coupled_factor_matrices`. -/
def coupledFactors (s : CMTFState) : Py (List (NDArray ℝ)) := s.modes.mapM fun m => pyGet s.cp.dec.factorMatrices m

/-- cmtf.py:28-30, the loop of `reconstructed_coupled_matrices` (`zip` stops at the shortest list). -/
def reconstructLoop : List (NDArray ℝ) → List (NDArray ℝ) → List (NDArray ℝ) → Py (List (NDArray ℝ))
  | U :: Us, V :: Vs, _ :: ws => do
    let Y ← matmul U V.T
    let Ys ← reconstructLoop Us Vs ws
    pure (Y :: Ys)
  | _, _, _ => .ok []

/-- cmtf.py:25-31 `reconstructed_coupled_matrices`. -/
def reconstructed (s : CMTFState) : Py (List (NDArray ℝ)) := do
  let Us ← coupledFactors s
  reconstructLoop Us s.V s.coupledWeights

/-- cmtf.py:37-38, the loop of `coupled_factor_matrices_SSE` (`zip` stops at the shorter list). -/
def coupledLoop : List (NDArray ℝ) → List (NDArray ℝ) → ℝ → Py ℝ
  | Y :: Ys, Z :: Zs, e => do
    let D ← zipB (· - ·) Y Z
    coupledLoop Ys Zs (e + frobNorm D ^ 2)
  | _, _, e => .ok e

/-- cmtf.py:33-39 `coupled_factor_matrices_SSE`. -/
def coupledSSE (s : CMTFState) : Py ℝ := do
  let Z ← reconstructed s
  coupledLoop s.Ys Z 0

/-- cmtf.py:40-44 `SSE` (and cmtf.py:57-59 `loss`). -/
def sse (s : CMTFState) : Py ℝ := do
  let Y ← s.cp.dec.constructTensor
  let D ← zipB (· - ·) s.cp.X Y
  let e ← coupledSSE s
  pure (frobNorm D ^ 2 + e)

/-- cmtf.py:46-51 `MSE`: the sizes of the coupled *factor* matrices are added. -/
def mse (s : CMTFState) : Py FV := do
  let Us ← coupledFactors s
  let e ← sse s
  pure (FV.div e ((s.cp.X.shape.prod + (Us.map fun U => U.shape.prod).sum : ℕ) : ℝ))

/-- cmtf.py:155-161 `_get_als_lhs(mode)`. -/
def alsLhs (rank mode : ℕ) (s : CMTFState) : Py (NDArray ℝ) :=
  match lookup mode s.map with
  | some l => do
    let K ← khatriRao s.cp.dec.factorMatrices (some mode)
    let Vs ← l.mapM fun (i : ℕ) => pyGet s.V i
    let V ← pyGet Vs 0
    let C ← vcat K V
    pure C.T
  | none => CP.alsLhs rank mode s.cp.dec.factorMatrices

/-- cmtf.py:163-170 `_get_als_rhs(mode)`. -/
def alsRhs (mode : ℕ) (s : CMTFState) : Py (NDArray ℝ) :=
  match lookup mode s.map with
  | some l => do
    let M ← unfold s.cp.X mode
    let Ys ← l.mapM fun (i : ℕ) => pyGet s.Ys i
    let Y ← pyGet Ys 0
    hcat M Y
  | none => CP.alsRhs s.cp mode

/-- cp.py:385-396 `_update_als_factor(mode)`, with the methods overridden by `CMTF_ALS`. -/
def updateFactor (E : Ext) (o : CPOpts) (mode : ℕ) (s : CMTFState) : Py CMTFState := do
  let lhs ← alsLhs o.rank mode s
  let rhs ← alsRhs mode s
  let solve ← CP.getSolve E o s.cp mode
  let new ← solve lhs rhs
  let F ← pyGet s.cp.dec.factorMatrices mode
  let F' ← assignAll F new
  pure { s with cp := { s.cp with
    lastMode := some mode
    cache := some rhs
    dec := { s.cp.dec with factorMatrices := s.cp.dec.factorMatrices.set mode F' } } }

/-- `constraints[mode]` for a mode given by the user. -/
def flagAt (l : Option (List Bool)) (mode : Int) : Py Bool :=
  match l with
  | none => .error .typeError
  | some l => pyGet l mode

/-- cmtf.py:148-152, the loop of `_update_als_factors`: there is no method `_update_als_factor_non_negative`
(`AttributeError`). -/
def updateModes (E : Ext) (o : CPOpts) (modes : List ℕ) (s : CMTFState) : Py CMTFState :=
  modes.foldlM (fun s (m : ℕ) => do
    let b ← flagAt s.cp.nonNeg m
    if b then .error .attributeError else updateFactor E o m s) s

/-- cmtf.py:174-187, the body of the loop of `_update_uncoupled_matrix_factors` for one item of the dictionary: only the
first matrix of the mode is used. The constraints are a list here (cp.py:339-340). -/
def updateUncoupled (E : Ext) (s : CMTFState) (p : Int × List ℕ) : Py CMTFState := do
  let i ← pyGet p.2 0
  let U ← pyGet s.cp.dec.factorMatrices p.1
  let Y ← pyGet s.Ys i
  let nn ← flagAt s.cp.nonNeg p.1
  let new ← (if nn then nonNegativeRightsolve E U.T Y.T else rightsolve E U.T Y.T)
  let V ← pyGet s.V i
  let V' ← assignAll V new
  pure { s with V := s.V.set i V' }

/-- cmtf.py:146-153 `_update_als_factors()`. -/
def updateFactors (E : Ext) (o : CPOpts) (s : CMTFState) : Py CMTFState := do
  let s ← updateModes E o (List.range s.cp.X.shape.length) s
  s.map.foldlM (updateUncoupled E) s

/-- cp.py:404-406 `_update_convergence()`, with the overridden `SSE`. -/
def updateConvergence (s : CMTFState) : Py CMTFState := do
  let e ← sse s
  pure { s with cp := { s.cp with relChange := FV.div (s.cp.prevSSE - e) s.cp.prevSSE, prevSSE := e } }

/-- cp.py:412-417, the stopping test at the start of an iteration, with the overridden `SSE`. -/
def shouldStop (o : CPOpts) (s : CMTFState) : Py Bool := do
  let e ← sse s
  pure (s.cp.relChange.absLt o.convergenceTol || (FV.div e (s.cp.XNorm ^ 2)).lt o.relLossTol)

/-- cp.py:418-419, the body of an iteration. -/
def iteration (E : Ext) (o : CPOpts) (s : CMTFState) : Py CMTFState := do
  let s ← updateFactors E o s
  updateConvergence s

/-- cmtf.py:89-91, the loop of `_normalize_components` over the uncoupled factor matrices and the coupling modes (`zip` stops
at the shorter list): `V[...] = V * norms`. -/
def scaleLoop (fs : List (NDArray ℝ)) : List (NDArray ℝ) → List Int → Py (List (NDArray ℝ))
  | V :: Vs, m :: ms => do
    let F ← pyGet fs m
    let P ← zipB (· * ·) V (newaxis0 (colNorms F))
    let V' ← assignAll V P
    let Vs' ← scaleLoop fs Vs ms
    pure (V' :: Vs')
  | Vs, _ => .ok Vs

/-- cmtf.py:88-93 `_normalize_components()`; `eps` is the default of `normalize_components` (`1e-15`). -/
def normalizeComponents (s : CMTFState) (eps : ℝ := 1e-15) : Py CMTFState := do
  let Vs ← scaleLoop s.cp.dec.factorMatrices s.V s.modes
  let dec ← s.cp.dec.normalizeComponents true eps
  pure { s with V := Vs, cp := { s.cp with dec := dec } }

/-- cp.py:337-352 and cmtf.py:79-82: the rest of `CMTF_ALS._init_fit` after `init_components`. The SSE is computed before the
components are normalised; `eps` is the default of `normalize_components`. -/
def initRest (E : Ext) (s : CMTFState) (eps : ℝ := 1e-15) : Py CMTFState := do
  let dec := s.cp.dec.resetWeights
  let d := dec.factorMatrices.length
  let nn := s.cp.nonNeg.getD (List.replicate d false)
  let on := s.cp.orth.getD (List.replicate d false)
  let fs ← CP.orthonormalise E 0 on dec.factorMatrices
  let s : CMTFState := { s with cp := { s.cp with
    dec := { dec with factorMatrices := fs }
    nonNeg := some nn
    orth := some on
    relChange := .pinf } }
  let e ← sse s
  let dec ← s.cp.dec.normalizeComponents true eps
  pure { s with cp := { s.cp with prevSSE := e, cache := none, dec := dec } }

/-- The options of a `CMTF_ALS` object: those of `CP_ALS` (the loggers of `cp` are not used), the loggers, and the random
numbers drawn for the uncoupled factor matrices (`drawN` normal, `drawU` uniform in `[0, 1)`). -/
structure Config where
  cp : CP.Config
  logs : List (Name × (CMTFState → Py ℝ))
  drawN : ℕ → ℕ → ℕ → ℝ
  drawU : ℕ → ℕ → ℕ → ℝ

/-- cmtf.py:295-300, whether the right factor of a matrix coupled to `mode` is drawn non-negative. -/
def initFlag (nonNeg : Option (List Bool)) (mode : Int) : Py Bool :=
  match nonNeg with
  | none => .ok false
  | some l => pyGet l mode

/-- cmtf.py:291-303, the loop of `_init_coupled_matrices` from number `i` on. A column of zeros would give `nan`, which is
outside this model (here the quotient is 0). -/
def initCoupledLoop (c : Config) (nonNeg : Option (List Bool)) (Ys : List (NDArray ℝ)) : ℕ → List Int →
    Py (List (NDArray ℝ))
  | _, [] => .ok []
  | i, mode :: modes => do
    let n ← cols (← pyGet Ys i)
    let nn ← initFlag nonNeg mode
    let V := ofMat n c.cp.opts.rank (if nn then c.drawU i else c.drawN i)
    let Q ← zipB (· / ·) V (colNorms V)
    let V' ← assignAll V Q
    let Vs ← initCoupledLoop c nonNeg Ys (i + 1) modes
    pure (V' :: Vs)

/-- cmtf.py:287-303 `_init_coupled_matrices()`. -/
def initCoupled (c : Config) (s : CMTFState) : Py CMTFState := do
  let Vs ← initCoupledLoop c s.cp.nonNeg s.Ys 0 s.modes
  pure { s with V := Vs, coupledWeights := s.modes.map fun _ => full [c.cp.opts.rank] 1 }

/-- A method of `CP_ALS` called on a `CMTF_ALS` object. -/
def zoom (f : Fit CPState Unit) : Fit CMTFState Unit := fun w =>
  match f ⟨w.st.cp, w.it, w.maxIts, w.loggers, w.file⟩ with
  | .ok _ v => .ok () ⟨{ w.st with cp := v.st }, v.it, v.maxIts, v.loggers, v.file⟩
  | .error e v => .error e ⟨{ w.st with cp := v.st }, v.it, v.maxIts, v.loggers, v.file⟩

/-- cmtf.py:306-309 `init_components(initial_decomposition)`. -/
def initComponents (E : Ext) (c : Config) (arg : InitArg KruskalTensor) : Fit CMTFState Unit := do
  zoom (CP.initComponents E c.cp arg)
  Fit.modifySt (initCoupled c)

/-- `CMTF_ALS` as a decomposer: what it defines for `BaseDecomposer`. `store_checkpoint` is the one of cmtf.py:11-18. -/
def method (E : Ext) (c : Config) : Method CMTFState KruskalTensor where
  dec := fun s => s.cp.dec
  setDec := fun t s => { s with cp := { s.cp with dec := t } }
  storeDec := KruskalTensor.storeIn
  loadDec := KruskalTensor.loadFrom
  check := fun t s => CP.checkValid c.cp.opts.rank s.cp.X.shape t
  prepare := .ok
  stop := shouldStop c.cp.opts
  step := iteration E c.cp.opts
  post := fun s => normalizeComponents s
  initRest := fun s => initRest E s
  freq := freqOption c.cp.freq
  hasPath := c.cp.hasPath
  typeName := "CMTF_ALS".toList
  logs := c.logs
  usesLoopVar := true
  writesIts := false

/-- base_decomposer.py:83-93 `set_target(X)`. -/
def setTarget (X : NDArray ℝ) (s : CMTFState) : Py CMTFState :=
  .ok { s with cp := { s.cp with X := X, XNorm := frobNorm X } }

/-- cmtf.py:76-82, 96-119 `fit(X, coupled_matrices, coupling_modes, max_its, initial_decomposition)`. -/
def fit (E : Ext) (c : Config) (X : NDArray ℝ) (Ys : List (NDArray ℝ)) (modes : List Int) (maxIts : Option Int)
    (arg : InitArg KruskalTensor) : Fit CMTFState Unit := do
  Fit.modifySt fun s => .ok (setCoupled Ys modes s)
  Fit.fit (method E c) (setTarget X) (initComponents E c arg) maxIts

/-- cmtf.py:121-144 `fit_transform`: the decomposition and the pairs of coupled and uncoupled factor matrices. -/
def fitTransform (E : Ext) (c : Config) (X : NDArray ℝ) (Ys : List (NDArray ℝ)) (modes : List Int) (maxIts : Option Int)
    (arg : InitArg KruskalTensor) : Fit CMTFState (KruskalTensor × List (NDArray ℝ × NDArray ℝ)) := do
  fit E c X Ys modes maxIts arg
  let w ← get
  let Us ← Fit.lift (coupledFactors w.st)
  pure (w.st.cp.dec, Us.zip w.st.V)

/-- A `CMTF_ALS` object that has not been fitted yet. -/
def newObject (nonNeg orth : Option (List Bool)) (maxIts : Int) (loggers : List Logger) (file : Option H5File) :
    World CMTFState := ⟨⟨CP.fresh nonNeg orth, [], [], [], [], []⟩, 0, maxIts, loggers, file⟩

end CMTF
end
end TK
