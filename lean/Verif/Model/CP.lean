import Verif.Model.Solvers
import Verif.Py.Float

/-!
# Model of `CP_ALS` (`src/tenkit/decomposition/cp.py`)

The decomposer object is the record `CPState`; methods that assign attributes return a new record. If a
method raises half way, the attributes which it had assigned before are not tracked (the fit loops and the
checkpoint files, where this matters, are modelled in `Verif/Model/Decomposer.lean`). Two factor matrices
that share memory are treated in `Verif/Model/Heap.lean`; here they are separate values. Printing
(cp.py:421-422) has no effect on the state and is left out.
-/

namespace TK
open NDArray

noncomputable section

/-- `np.linalg.norm(A)` of an array of any shape. -/
def frobNorm (A : NDArray ℝ) : ℝ := Real.sqrt ((A.data.map fun x => x ^ 2).sum)

/-- `A *= B` : the result must have the shape of `A` (`ValueError` otherwise). -/
def inplaceMul (A B : NDArray ℝ) : Py (NDArray ℝ) := do
  let P ← zipB (· * ·) A B
  if P.shape = A.shape then pure P else .error .valueError

/-- `A[...] = B`: `B` is broadcast to the shape of `A` (`ValueError` if that is not possible). -/
def assignAll (A B : NDArray ℝ) : Py (NDArray ℝ) :=
  if bshape A.shape B.shape = some A.shape then .ok (ofFn A.shape fun idx => B.get (bidx B.shape idx))
  else .error .valueError

/-- `A.sum(0)` of a matrix. -/
def colSums (A : NDArray ℝ) : NDArray ℝ :=
  ofFn [A.shape.getD 1 0] fun idx => ∑ i ∈ Finset.range (A.shape.getD 0 0), A.get [i, idx.getD 0 0]

/-- The options of a `CP_ALS` object that do not change (cp.py:64-88, 285-315). -/
structure CPOpts where
  rank : ℕ
  convergenceTol : ℝ
  relLossTol : ℝ
  ridgePenalties : Option (List ℝ)

/-- The attributes of a `CP_ALS` object that change during a fit. `lastMode = none` means that the attribute
`_last_updated_mode` does not exist yet. -/
structure CPState where
  X : NDArray ℝ
  XNorm : ℝ
  dec : KruskalTensor
  nonNeg : Option (List Bool)
  orth : Option (List Bool)
  lastMode : Option ℕ
  cache : Option (NDArray ℝ)
  relChange : FV
  prevSSE : ℝ

namespace CP

/-- cp.py:183-186 `_inner_prod_X_reconstructed_X`: multiplying by the cache when it is `None` raises
`TypeError`. -/
def innerProd (s : CPState) (m : ℕ) : Py ℝ := do
  let F ← pyGet s.dec.factorMatrices m
  match s.cache with
  | none => .error .typeError
  | some c => do
    let M ← zipB (· * ·) F c
    let v ← zipB (· * ·) s.dec.weights (colSums M)
    pure v.data.sum

/-- cp.py:168-181 `SSE`. -/
def sse (s : CPState) : Py ℝ :=
  match s.lastMode with
  | some m => do
    let Y ← s.dec.constructTensor
    let ip ← innerProd s m
    pure (s.XNorm ^ 2 + frobNorm Y ^ 2 - 2 * ip)
  | none => do
    let Y ← s.dec.constructTensor
    let D ← zipB (· - ·) s.X Y
    pure (frobNorm D ^ 2)

/-- cp.py:231-233, the loop over the penalties and factor matrices (`zip` stops at the shorter list). -/
def addPenalties : List ℝ → List (NDArray ℝ) → ℝ → ℝ
  | l :: ls, F :: Fs, loss => addPenalties ls Fs (loss + l * frobNorm F ^ 2)
  | _, _, loss => loss

/-- cp.py:228-234 `loss`. -/
def loss (o : CPOpts) (s : CPState) : Py ℝ := do
  let l ← sse s
  match o.ridgePenalties with
  | none => pure l
  | some ps => pure (addPenalties ps s.dec.factorMatrices l)

/-- cp.py:354-361, the loop of `_get_als_lhs`, at factor number `i`. -/
def alsLhsLoop (skip : ℕ) : ℕ → List (NDArray ℝ) → NDArray ℝ → Py (NDArray ℝ)
  | _, [], V => .ok V
  | i, F :: Fs, V =>
    if i = skip then alsLhsLoop skip (i + 1) Fs V
    else do
      let G ← matmul F.T F
      let V' ← inplaceMul V G
      alsLhsLoop skip (i + 1) Fs V'

/-- cp.py:354-361 `_get_als_lhs(skip_mode)`. -/
def alsLhs (rank skip : ℕ) (fs : List (NDArray ℝ)) : Py (NDArray ℝ) :=
  alsLhsLoop skip 0 fs (full [rank, rank] 1)

/-- cp.py:363-364 `_get_als_rhs(mode)`. The result `None` (see `matrixKhatriRaoProduct`) does not occur for
the modes `0, 1, …` used here; it would make the solver raise. -/
def alsRhs (s : CPState) (mode : ℕ) : Py (NDArray ℝ) := do
  match ← matrixKhatriRaoProduct s.X s.dec.factorMatrices mode with
  | some M => pure M
  | none => .error .typeError

/-- `constraints[mode]` where `constraints` may be `None`. -/
def flagAt (l : Option (List Bool)) (mode : ℕ) : Py Bool :=
  match l with
  | none => .error .typeError
  | some l => pyGet l mode

/-- cp.py:366-383 `_get_rightsolve(mode)`. -/
def getSolve (E : Ext) (o : CPOpts) (s : CPState) (mode : ℕ) : Py (NDArray ℝ → NDArray ℝ → Py (NDArray ℝ)) := do
  let nn ← flagAt s.nonNeg mode
  let on ← flagAt s.orth mode
  let solve ← (if on then (if nn then .error .valueError else pure (orthogonalRightsolve E))
    else pure (if nn then nonNegativeRightsolve E else rightsolve E) :
      Py (NDArray ℝ → NDArray ℝ → Py (NDArray ℝ)))
  match o.ridgePenalties with
  | none => pure solve
  | some ps => do
    let l ← pyGet ps mode
    pure (addRightsolveRidge solve l)

/-- cp.py:385-396 `_update_als_factor(mode)`. -/
def updateFactor (E : Ext) (o : CPOpts) (mode : ℕ) (s : CPState) : Py CPState := do
  let lhs ← alsLhs o.rank mode s.dec.factorMatrices
  let rhs ← alsRhs s mode
  let solve ← getSolve E o s mode
  let new ← solve lhs rhs
  let F ← pyGet s.dec.factorMatrices mode
  let F' ← assignAll F new
  pure { s with
    lastMode := some mode
    cache := some rhs
    dec := { s.dec with factorMatrices := s.dec.factorMatrices.set mode F' } }

/-- Updates of the given modes one after the other. -/
def updateModes (E : Ext) (o : CPOpts) (modes : List ℕ) (s : CPState) : Py CPState :=
  modes.foldlM (fun s m => updateFactor E o m s) s

/-- cp.py:398-402 `_update_als_factors()`. -/
def updateFactors (E : Ext) (o : CPOpts) (s : CPState) : Py CPState :=
  updateModes E o (List.range s.X.shape.length) s

/-- cp.py:404-406 `_update_convergence()`. -/
def updateConvergence (s : CPState) : Py CPState := do
  let e ← sse s
  pure { s with relChange := FV.div (s.prevSSE - e) s.prevSSE, prevSSE := e }

/-- cp.py:412-417, the stopping test at the start of an iteration. -/
def shouldStop (o : CPOpts) (s : CPState) : Py Bool := do
  let e ← sse s
  pure (s.relChange.absLt o.convergenceTol || (FV.div e (s.XNorm ^ 2)).lt o.relLossTol)

/-- cp.py:418-419, the body of an iteration. -/
def iteration (E : Ext) (o : CPOpts) (s : CPState) : Py CPState := do
  let s ← updateFactors E o s
  updateConvergence s

/-- cp.py:342-345, the loop that orthonormalises the constrained modes: a list entry is replaced. -/
def orthonormalise (E : Ext) : ℕ → List Bool → List (NDArray ℝ) → Py (List (NDArray ℝ))
  | _, [], fs => .ok fs
  | mode, b :: bs, fs => do
    let F ← pyGet fs mode
    orthonormalise E (mode + 1) bs (if b then fs.set mode (E.qr F).1 else fs)

/-- cp.py:336-352 `CP_ALS._init_fit` after `init_components` has given the decomposition `dec` (and
base_decomposer.py:83-93 `set_target`). The attribute `_last_updated_mode` keeps its value from an earlier
fit of the same object. -/
def initFit (E : Ext) (old : CPState) (X : NDArray ℝ) (dec : KruskalTensor) : Py CPState := do
  let dec := dec.resetWeights
  let d := dec.factorMatrices.length
  let nn := old.nonNeg.getD (List.replicate d false)
  let on := old.orth.getD (List.replicate d false)
  let fs ← orthonormalise E 0 on dec.factorMatrices
  let s : CPState := { old with
    X := X
    XNorm := frobNorm X
    dec := { dec with factorMatrices := fs }
    nonNeg := some nn
    orth := some on
    relChange := .pinf }
  let e ← sse s
  pure { s with prevSSE := e, cache := none }

/-- A `CP_ALS` object that has not been fitted yet: only the constraints are set. (The remaining fields are
placeholders for attributes that do not exist yet; `initFit` assigns them before they are read.) -/
def fresh (nonNeg orth : Option (List Bool)) : CPState where
  X := full [] 0
  XNorm := 0
  dec := ⟨0, [], full [0] 0⟩
  nonNeg := nonNeg
  orth := orth
  lastMode := none
  cache := none
  relChange := .nan
  prevSSE := 0

/-- cp.py:429-437 `CP_ALS.init_random`: absolute values for the constrained modes (`IndexError` if there are
more constraints than modes). -/
def absConstrained : ℕ → List Bool → List (NDArray ℝ) → Py (List (NDArray ℝ))
  | _, [], fs => .ok fs
  | mode, b :: bs, fs => do
    let F ← pyGet fs mode
    absConstrained (mode + 1) bs (if b then fs.set mode (F.map abs) else fs)

/-- cp.py:89-94, 429-437 `init_random()`; the numbers drawn are arbitrary. -/
def initRandom (draw : KruskalTensor.RandomMethod → ℕ → ℕ → ℕ → ℝ) (rank : ℕ) (nonNeg : Option (List Bool))
    (X : NDArray ℝ) : Py KruskalTensor := do
  let t ← KruskalTensor.randomInit draw X.shape rank "normal"
  match nonNeg with
  | none => pure t
  | some l => do
    let fs ← absConstrained 0 l t.factorMatrices
    pure { t with factorMatrices := fs }

end CP
end
end TK
