import Verif.Model.Heap
import Verif.Model.Evolving

/-!
# Model of `Parafac2_ALS` (`src/tenkit/decomposition/parafac2.py`): the numerical part

The factor matrices and the projection matrices of the decomposition are references to arrays on a heap
(`Verif/Model/Heap.lean`): the projection matrices are changed in place (parafac2.py:252), and the inner `CP_ALS` object
works on the arrays of the decomposition (parafac2.py:376). The data slices are values. Printing (parafac2.py:399-401) is
left out.
-/

namespace TK
open NDArray

noncomputable section

/-- A `Parafac2Tensor` object (decompositions.py:571-605): references to its arrays, and the attributes computed at
construction. -/
structure P2Obj where
  rank : ℕ
  A : Addr
  blueprint : Addr
  C : Addr
  P : List Addr
  warning : Bool
  allSameSize : Bool
  sliceShapes : List (ℕ × ℕ)
  numElements : ℕ

/-- The tensor as it is seen through the heap. -/
def P2Obj.read (h : Heap) (d : P2Obj) : Parafac2Tensor :=
  ⟨d.rank, h.mem d.A, h.mem d.blueprint, h.mem d.C, d.P.map h.mem, d.warning, d.allSameSize, d.sliceShapes,
    d.numElements⟩

/-- A tensor whose arrays have just been created (and are not shared). -/
def Heap.allocP2 (h : Heap) (t : Parafac2Tensor) : P2Obj × Heap :=
  let (a, h) := h.alloc t.A
  let (b, h) := h.alloc t.blueprint
  let (c, h) := h.alloc t.C
  let (P, h) := Heap.allocAll t.P h
  (⟨t.rank, a, b, c, P, t.warning, t.allSameSize, t.sliceShapes, t.numElements⟩, h)

/-- The options of a `Parafac2_ALS` object that do not change (parafac2.py:65-85, 331-368). `garbage` are the numbers found
in memory that `np.empty` does not initialise. -/
structure P2Opts where
  rank : ℕ
  convergenceTol : ℝ
  cpUpdates : ℕ
  nonNeg : Option (List Bool)
  ridgePenalties : Option (List ℝ)
  orth : Option (List Bool)
  garbage : List ℕ → ℝ

/-- The attributes of a `Parafac2_ALS` object, and the heap. `inner` is `cp_decomposer` (which shares its decomposition with
the attribute `cp_decomposition`); `none` means that it does not exist yet. -/
structure P2State where
  heap : Heap
  dec : P2Obj
  X : List (NDArray ℝ)
  XShape : ℕ × List ℕ × ℕ
  XNorm : ℝ
  inner : Option CPObj
  relChange : FV
  prevLoss : ℝ

/-- The argument `X` of `fit`: an array, or a list of slices. -/
inductive P2Data
  | tensor (X : NDArray ℝ)
  | list (Xs : List (NDArray ℝ))

namespace P2

/-- `X.transpose(2, 0, 1)` as the list of its slices: `ValueError` if `X` does not have three axes. -/
def frontalSlices (X : NDArray ℝ) : Py (List (NDArray ℝ)) :=
  match X.shape with
  | [I, J, K] => .ok ((List.range K).map fun k => ofMat I J fun i j => X.get [i, j, k])
  | _ => .error .valueError

/-- parafac2.py:87-95 `set_target(X)`. (`num_X_elements` is not used anywhere and left out.) -/
def setTarget (D : P2Data) (s : P2State) : Py P2State := do
  let Xs ← match D with
    | .tensor X => frontalSlices X
    | .list Xs => .ok Xs
  let I ← rows (← pyGet Xs 0)
  let Js ← Xs.mapM cols
  pure { s with
    X := Xs
    XShape := (I, Js, Xs.length)
    XNorm := Real.sqrt ((Xs.map fun Xk => frobNorm Xk ^ 2).sum) }

/-- parafac2.py:220-223, the loop of `SSE` (`zip` stops at the shorter list). -/
def sseLoop : List (NDArray ℝ) → List (NDArray ℝ) → ℝ → Py ℝ
  | X :: Xs, Y :: Ys, e => do
    let D ← zipB (· - ·) X Y
    sseLoop Xs Ys (e + (D.data.map fun x => x ^ 2).sum)
  | _, _, e => .ok e

/-- parafac2.py:218-223, 229-231 `SSE`. -/
def sse (s : P2State) : Py ℝ := do
  let Y ← (s.dec.read s.heap).constructSlices
  sseLoop s.X Y 0

/-- parafac2.py:225-227 `MSE`. -/
def mse (s : P2State) : Py FV := do
  let e ← sse s
  pure (FV.div e s.dec.numElements)

/-- base_decomposer.py:95-97 `explained_variance`. -/
def explainedVariance (s : P2State) : Py FV := do
  let e ← sse s
  pure (match FV.div e (s.XNorm ^ 2) with
    | .fin x => .fin (1 - x)
    | .pinf => .ninf
    | .ninf => .pinf
    | .nan => .nan)

/-- parafac2.py:435-441 `loss`. -/
def loss (o : P2Opts) (s : P2State) : Py ℝ := do
  let e ← sse s
  match o.ridgePenalties with
  | none => pure e
  | some ps => do
    let t := s.dec.read s.heap
    pure (CP.addPenalties ps [t.A, t.blueprint, t.C] e)

/-- `T[..., k] = S` for a three-dimensional `T`: `IndexError` if there is no such slice, `ValueError` if `S` cannot be
broadcast to it. -/
def assignLast (T S : NDArray ℝ) (k : ℕ) : Py (NDArray ℝ) :=
  match T.shape with
  | [I, R, K] =>
    if k < K then do
      let S' ← assignAll (full [I, R] 0) S
      pure (ofFn [I, R, K] fun idx =>
        if idx.getD 2 0 = k then S'.get [idx.getD 0 0, idx.getD 1 0] else T.get idx)
    else .error .indexError
  | _ => .error .valueError

/-- parafac2.py:239-240, the loop of `projected_X` from slice `k` on. -/
def projectLoop (X : List (NDArray ℝ)) : ℕ → List (NDArray ℝ) → NDArray ℝ → Py (NDArray ℝ)
  | _, [], T => .ok T
  | k, Pk :: Ps, T => do
    let Xk ← pyGet X k
    let S ← matmul Xk Pk
    let T ← assignLast T S k
    projectLoop X (k + 1) Ps T

/-- parafac2.py:233-241 `projected_X`. -/
def projectedX (o : P2Opts) (s : P2State) : Py (NDArray ℝ) := do
  let t := s.dec.read s.heap
  let I ← rows t.A
  let K ← rows t.C
  projectLoop s.X 0 t.P (ofFn [I, o.rank, K] o.garbage)

/-- parafac2.py:248-255, the body of the loop of `_update_projection_matrices` for slice `k`: the factors are read again for
each slice, and the array of the projection matrix is overwritten. -/
def updateProjection (E : Ext) (s : P2State) (k : ℕ) : Py P2State := do
  let t := s.dec.read s.heap
  let c ← takeRow t.C k
  let cA ← zipB (· * ·) c t.A
  let M ← matmul cA t.blueprint.T
  let Xk ← pyGet s.X k
  let Q ← orthogonalSolve E M Xk
  let a ← pyGet s.dec.P k
  let P ← assignAll (s.heap.mem a) Q.T
  pure { s with heap := s.heap.write a P }

/-- parafac2.py:244-255 `_update_projection_matrices()`. -/
def updateProjections (E : Ext) (s : P2State) : Py P2State :=
  (List.range s.XShape.2.2).foldlM (updateProjection E) s

/-- The options of the inner `CP_ALS` object (parafac2.py:377-386); its `rel_loss_tol` has the default value. -/
def innerOpts (o : P2Opts) : CPOpts := ⟨o.rank, 0, 1e-10, o.ridgePenalties⟩

/-- parafac2.py:356-358: `None` becomes three times `False`. -/
def nonNegOption (o : P2Opts) : List Bool := o.nonNeg.getD [false, false, false]

/-- parafac2.py:375-387 `_prepare_cp_decomposer()`. -/
def prepareCp (E : Ext) (o : P2Opts) (s : P2State) : Py P2State := do
  let X ← projectedX o s
  let (h, c) ← CPObj.initFit E (innerOpts o) (some (nonNegOption o)) o.orth X [s.dec.A, s.dec.blueprint, s.dec.C] s.heap
  pure { s with heap := h, inner := some c }

/-- parafac2.py:428-429: `decomposition.blueprint_B[...] *= cp_decomposer.weights` and the weights become ones. -/
def absorbWeights (d : P2Obj) (p : Heap × CPObj) : Py (Heap × CPObj) := do
  let B ← inplaceMul (p.1.mem d.blueprint) p.2.st.dec.weights
  let w := (p.2.st.dec.weights.map (· * 0)).map (· + 1)
  pure (p.1.write d.blueprint B, { p.2 with st := { p.2.st with dec := { p.2.st.dec with weights := w } } })

/-- parafac2.py:417-429 `_update_parafac2_factors()`. -/
def updateFactors (E : Ext) (o : P2Opts) (s : P2State) : Py P2State := do
  let s ← updateProjections E s
  match s.inner with
  | none => .error .attributeError
  | some c => do
    let X ← projectedX o s
    let p ← CPObj.repeatUpdates E (innerOpts o) o.cpUpdates (s.heap, c.setTarget X)
    let p ← absorbWeights s.dec p
    pure { s with heap := p.1, inner := some p.2 }

/-- parafac2.py:412-415 `_update_convergence()`. -/
def updateConvergence (o : P2Opts) (s : P2State) : Py P2State := do
  let l ← loss o s
  pure { s with relChange := FV.div (s.prevLoss - l) s.prevLoss, prevLoss := l }

/-- parafac2.py:396-397, the body of an iteration. -/
def iteration (E : Ext) (o : P2Opts) (s : P2State) : Py P2State := do
  let s ← updateFactors E o s
  updateConvergence o s

/-- parafac2.py:393, the stopping test. -/
def shouldStop (o : P2Opts) (s : P2State) : Py Bool := .ok (s.relChange.absLt o.convergenceTol)

/-- parafac2.py:370-373, what `_init_fit` does after `init_components`. -/
def initRest (o : P2Opts) (s : P2State) : Py P2State := do
  let l ← loss o s
  pure { s with prevLoss := l, relChange := .pinf }

end P2
end
end TK
