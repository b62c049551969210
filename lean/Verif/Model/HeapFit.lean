import Verif.Model.Heap

/-!
# `CP_ALS.fit` and `normalize_components` on objects: which arrays and decompositions are changed

`Verif/Model/CPFit.lean` treats decompositions as values. In Python a decomposer holds a reference to a `KruskalTensor`
object, which holds references to arrays. `init='precomputed'` makes the decomposer use the object of the caller
(cp.py:156), and all updates are in place. Here `KruskalTensor` objects and arrays live in a memory, so that one can say
what the caller sees after a fit, and what happens if one array is used twice.

The data array `X` is never written and remains a value. Arrays are either identical or do not overlap (two different views
of one buffer are not represented).
-/

namespace TK
open NDArray

noncomputable section

/-- A `KruskalTensor` object (decompositions.py:53-128): references to its arrays. -/
structure KTObj where
  rank : ℕ
  mats : List Addr
  weights : Addr

/-- The arrays and the `KruskalTensor` objects of the program. -/
structure Mem where
  heap : Heap
  objs : Addr → KTObj
  nextObj : Addr

namespace Mem

/-- The decomposition that one sees when one looks at an object. -/
def kt (M : Mem) (r : Addr) : KruskalTensor :=
  ⟨(M.objs r).rank, (M.objs r).mats.map M.heap.mem, M.heap.mem (M.objs r).weights⟩

/-- A new object with new arrays (`KruskalTensor(…)` as in cp.py:94, 112 or decompositions.py:197-208). -/
def newKT (M : Mem) (t : KruskalTensor) : Addr × Mem :=
  let (as, h) := Heap.allocAll t.factorMatrices M.heap
  let (a, h) := h.alloc t.weights
  (M.nextObj, ⟨h, Function.update M.objs M.nextObj ⟨t.rank, as, a⟩, M.nextObj + 1⟩)

/-- decompositions.py:141-143 `reset_weights()` of the object at `r`. -/
def resetWeights (r : Addr) (M : Mem) : Mem :=
  { M with heap := M.heap.write (M.objs r).weights (((M.heap.mem (M.objs r).weights).map (· * 0)).map (· + 1)) }

/-- `decomposition.factor_matrices[mode] = F`: the list entry refers to a new array from now on. -/
def setMat (r : Addr) (mode : ℕ) (F : NDArray ℝ) (M : Mem) : Mem :=
  let (a, h) := M.heap.alloc F
  let o := M.objs r
  { M with heap := h, objs := Function.update M.objs r { o with mats := o.mats.set mode a } }

/-- decompositions.py:154-158, the loop of `normalize_components` over the arrays at the given addresses; the weights are
at the address `w`. -/
def normalizeLoop (updateWeights : Bool) (eps : ℝ) (w : Addr) : List Addr → Heap → Py Heap
  | [], h => .ok h
  | a :: as, h => do
    let norms := colNorms (h.mem a)
    let F ← zipB (· / ·) (h.mem a) ((newaxis0 norms).map (· + eps))
    let h := h.write a F
    let h ← (if updateWeights then do
        let v ← zipB (· * ·) (h.mem w) norms
        pure (h.write w v)
      else pure h : Py Heap)
    normalizeLoop updateWeights eps w as h

/-- decompositions.py:145-160 `normalize_components(update_weights, eps)` of the object at `r`. -/
def normalizeComponents (r : Addr) (M : Mem) (updateWeights : Bool := true) (eps : ℝ := 1e-15) : Py Mem := do
  let h ← normalizeLoop updateWeights eps (M.objs r).weights (M.objs r).mats M.heap
  pure { M with heap := h }

end Mem

/-- A `CP_ALS` object whose attribute `decomposition` refers to the object at `dec`. All other attributes are in `st` (whose
own decomposition is not used). -/
structure CPRef where
  st : CPState
  dec : Addr

/-- The argument `initial_decomposition`: `None`, a reference to a decomposition, or a path. -/
inductive RefArg
  | none
  | ref (r : Addr)
  | path (p : CkPath)

/-- Is the argument given? -/
def RefArg.given : RefArg → Bool
  | .none => false
  | _ => true

namespace CPRef

/-- The state of the decomposer as it is seen through the memory. -/
def read (M : Mem) (c : CPRef) : CPState := { c.st with dec := M.kt c.dec }

/-- cp.py:385-396 `_update_als_factor(mode)`: the new matrix is written into the array that the list entry refers to. -/
def updateFactor (E : Ext) (o : CPOpts) (mode : ℕ) (p : Mem × CPRef) : Py (Mem × CPRef) := do
  let s ← CP.updateFactor E o mode (p.2.read p.1)
  let a ← pyGet (p.1.objs p.2.dec).mats mode
  let F ← pyGet s.dec.factorMatrices mode
  pure ({ p.1 with heap := p.1.heap.write a F }, { p.2 with st := s })

/-- cp.py:398-402 `_update_als_factors()`. -/
def updateFactors (E : Ext) (o : CPOpts) (p : Mem × CPRef) : Py (Mem × CPRef) :=
  (List.range p.2.st.X.shape.length).foldlM (fun p m => updateFactor E o m p) p

/-- cp.py:418-419, the body of an iteration. -/
def iteration (E : Ext) (o : CPOpts) (p : Mem × CPRef) : Py (Mem × CPRef) := do
  let p ← updateFactors E o p
  let s ← CP.updateConvergence (p.2.read p.1)
  pure (p.1, { p.2 with st := s })

/-- cp.py:342-345, the loop that orthonormalises the constrained modes. -/
def orthonormalise (E : Ext) (r : Addr) : ℕ → List Bool → Mem → Py Mem
  | _, [], M => .ok M
  | mode, b :: bs, M => do
    let F ← pyGet (M.kt r).factorMatrices mode
    orthonormalise E r (mode + 1) bs (if b then M.setMat r mode (E.qr F).1 else M)

/-- cp.py:338-352, the rest of `_init_fit` after `init_components`. -/
def initRest (E : Ext) (p : Mem × CPRef) : Py (Mem × CPRef) := do
  let M := p.1.resetWeights p.2.dec
  let d := (M.kt p.2.dec).factorMatrices.length
  let nn := p.2.st.nonNeg.getD (List.replicate d false)
  let on := p.2.st.orth.getD (List.replicate d false)
  let M ← orthonormalise E p.2.dec 0 on M
  let st : CPState := { p.2.st with nonNeg := some nn, orth := some on, relChange := .pinf }
  let e ← CP.sse (read M { p.2 with st := st })
  pure (M, { p.2 with st := { st with prevSSE := e, cache := none } })

/-- Assignment of a new decomposition to the attribute `decomposition` (cp.py:94, 112, base_decomposer.py:219). -/
def setDec (t : KruskalTensor) (p : Mem × CPRef) : Mem × CPRef :=
  let (r, M) := p.1.newKT t
  (M, { p.2 with dec := r })

/-- `CP_ALS` as a decomposer, with references. -/
def method (E : Ext) (c : CP.Config) : Method (Mem × CPRef) KruskalTensor where
  dec := fun p => p.1.kt p.2.dec
  setDec := setDec
  storeDec := KruskalTensor.storeIn
  loadDec := KruskalTensor.loadFrom
  check := fun t p => CP.checkValid c.opts.rank p.2.st.X.shape t
  prepare := .ok
  stop := fun p => CP.shouldStop c.opts (p.2.read p.1)
  step := iteration E c.opts
  post := .ok
  initRest := initRest E
  freq := freqOption c.freq
  hasPath := c.hasPath
  typeName := "CP_ALS".toList
  logs := c.logs.map fun l => (l.1, fun p => l.2 (p.2.read p.1))
  usesLoopVar := true
  writesIts := true

/-- base_decomposer.py:83-93 `set_target(X)`. -/
def setTarget (X : NDArray ℝ) (p : Mem × CPRef) : Py (Mem × CPRef) :=
  .ok (p.1, { p.2 with st := { p.2.st with X := X, XNorm := frobNorm X } })

/-- cp.py:130-162 `init_components(initial_decomposition)`: with `init='precomputed'` the attribute refers to the object of
the caller, otherwise to a new one. -/
def initComponents (E : Ext) (c : CP.Config) (arg : RefArg) : Fit (Mem × CPRef) Unit := do
  let i := c.init.toLower
  if arg.given && !(["precomputed", "from_checkpoint"].contains i) then throw .warning
  if i = "random" then
    Fit.modifySt fun p => do
      let t ← CP.initRandom c.draw c.opts.rank p.2.st.nonNeg p.2.st.X
      pure (setDec t p)
  else if i = "svd" then
    Fit.modifySt fun p => do
      let t ← CP.initSvd c.U c.opts.rank p.2.st.X
      pure (setDec t p)
  else if i = "from_checkpoint" then
    match arg with
    | .path q => do
      let w ← get
      Fit.loadCheckpoint (method E c) (q.resolve w) none
    | _ => throw .typeError
  else if i = "precomputed" then
    match arg with
    | .ref r => Fit.modifySt fun p => do
        CP.checkValid c.opts.rank p.2.st.X.shape (p.1.kt r)
        pure (p.1, { p.2 with dec := r })
    | _ => throw .attributeError
  else
    match c.isFile c.init with
    | some q => do
      let w ← get
      Fit.loadCheckpoint (method E c) (q.resolve w) none
    | none => throw .valueError

/-- cp.py:188-206 `fit(X, max_its, initial_decomposition)`. -/
def fit (E : Ext) (c : CP.Config) (X : NDArray ℝ) (maxIts : Option Int) (arg : RefArg) : Fit (Mem × CPRef) Unit :=
  Fit.fit (method E c) (setTarget X) (initComponents E c arg) maxIts

/-- A new `CP_ALS` object in a program with the given memory (the attribute `decomposition` does not exist yet; the address
is a placeholder). -/
def newObject (M : Mem) (nonNeg orth : Option (List Bool)) (maxIts : Int) (loggers : List Logger)
    (file : Option H5File) : World (Mem × CPRef) := ⟨(M, ⟨CP.fresh nonNeg orth, M.nextObj⟩), 0, maxIts, loggers, file⟩

end CPRef
end
end TK
