import Verif.Model.Base
import Mathlib.Analysis.SpecialFunctions.Pow.Real

/-!
# Model of `KruskalTensor` (`src/tenkit/decomposition/decompositions.py`, lines 53-276) and of the
normalisation helpers in `src/tenkit/utils.py`

`float64` is idealised as `ℝ`. In-place updates (`self.weights *= …`, `self.factor_matrices[i][...] = …`)
become functional updates; sharing of one array between several places is not represented here (see
`Verif/Model/Heap.lean`). Weights are floating point arrays (an integer array would make
`self.weights *= norms` raise, which is outside this model).
-/

namespace TK
open NDArray

noncomputable section

/-- `A[np.newaxis]`: a new leading axis of length one. -/
def newaxis0 {α : Type} (A : NDArray α) : NDArray α := ⟨1 :: A.shape, A.data, by simp [A.wf]⟩

/-- `A.shape[1]`. -/
def cols {α : Type} (A : NDArray α) : Py ℕ := pyGet A.shape 1

/-- `A.shape[0]` (also `len(A)`). -/
def rows {α : Type} (A : NDArray α) : Py ℕ := pyGet A.shape 0

/-- decompositions.py:53-128, the attributes of a `KruskalTensor`. -/
structure KruskalTensor where
  rank : ℕ
  factorMatrices : List (NDArray ℝ)
  weights : NDArray ℝ

namespace KruskalTensor

/-- decompositions.py:111-117, the loop that checks the column counts. -/
def checkCols (rank : ℕ) : List (NDArray ℝ) → Py Unit
  | [] => .ok ()
  | f :: fs => do
    let c ← cols f
    if c ≠ rank then .error .valueError else checkCols rank fs

/-- decompositions.py:108-128 `KruskalTensor.__init__`. `len(weights)` of an array is its first
dimension (`TypeError` for a zero-dimensional one). -/
def init (factorMatrices : List (NDArray ℝ)) (weights : Option (NDArray ℝ)) : Py KruskalTensor := do
  let f0 ← pyGet factorMatrices 0
  let rank ← cols f0
  checkCols rank factorMatrices
  match weights with
  | none => pure ⟨rank, factorMatrices, full [rank] 1⟩
  | some w => match w.shape with
    | [] => .error .typeError
    | n :: _ => if n ≠ rank then .error .valueError else pure ⟨rank, factorMatrices, w⟩

/-- decompositions.py:130-132 `shape`. -/
def shape (t : KruskalTensor) : Py (List ℕ) := t.factorMatrices.mapM rows

/-- decompositions.py:134-139 `construct_tensor`. -/
def constructTensor (t : KruskalTensor) : Py (NDArray ℝ) := do
  let shape ← t.factorMatrices.mapM rows
  let f0 ← pyGet t.factorMatrices 0
  let wf ← zipB (· * ·) (newaxis0 t.weights) f0
  let krp ← khatriRao t.factorMatrices.tail
  let tensor ← matmul wf krp.T
  fold tensor 0 shape

/-- decompositions.py:141-143 `reset_weights`: `weights *= 0; weights += 1`. -/
def resetWeights (t : KruskalTensor) : KruskalTensor :=
  { t with weights := (t.weights.map (· * 0)).map (· + 1) }

end KruskalTensor

/-- Euclidean norm of column `r`. -/
def colNorm (F : NDArray ℝ) (r : ℕ) : ℝ :=
  Real.sqrt (∑ i ∈ Finset.range (F.shape.getD 0 0), F.get [i, r] ^ 2)

/-- `np.linalg.norm(F, axis=0)` for a matrix; `AxisError` (a `ValueError`) is not raised for one or more
axes, the modelled code uses it on matrices only. -/
def colNorms (F : NDArray ℝ) : NDArray ℝ := ofFn [F.shape.getD 1 0] fun idx => colNorm F (idx.getD 0 0)

/-- utils.py:78-96 `normalize_factor(factor, eps)`: `norms` keeps the reduced axis. -/
def normalizeFactor (F : NDArray ℝ) (eps : ℝ) : Py (NDArray ℝ × NDArray ℝ) := do
  let norms := newaxis0 (colNorms F)
  let f ← zipB (· / ·) F (norms.map (· + eps))
  pure (f, norms)

/-- utils.py:99-124 `normalize_factors(factors)` (with the default `eps = 1e-15`, a parameter here). -/
def normalizeFactors (fs : List (NDArray ℝ)) (eps : ℝ) : Py (List (NDArray ℝ) × List (NDArray ℝ)) := do
  let l ← fs.mapM fun f => normalizeFactor f eps
  pure (l.map Prod.fst, l.map Prod.snd)

namespace KruskalTensor

/-- decompositions.py:154-158, one pass of the loop of `normalize_components` for the factor `F`. -/
def normalizeStep (updateWeights : Bool) (eps : ℝ) (F w : NDArray ℝ) : Py (NDArray ℝ × NDArray ℝ) := do
  let norms := colNorms F
  let F' ← zipB (· / ·) F ((newaxis0 norms).map (· + eps))
  let w' ← if updateWeights then zipB (· * ·) w norms else pure w
  pure (F', w')

/-- decompositions.py:154-158, the loop of `normalize_components` over the factor matrices. -/
def normalizeLoop (updateWeights : Bool) (eps : ℝ) :
    List (NDArray ℝ) → NDArray ℝ → Py (List (NDArray ℝ) × NDArray ℝ)
  | [], w => .ok ([], w)
  | F :: fs, w => do
    let (F', w') ← normalizeStep updateWeights eps F w
    let (fs', w'') ← normalizeLoop updateWeights eps fs w'
    pure (F' :: fs', w'')

/-- decompositions.py:145-160 `normalize_components(update_weights, eps)`. -/
def normalizeComponents (t : KruskalTensor) (updateWeights : Bool := true) (eps : ℝ := 1e-15) :
    Py KruskalTensor := do
  let (fs, w) ← normalizeLoop updateWeights eps t.factorMatrices t.weights
  pure { t with factorMatrices := fs, weights := w }

/-- The distributions of `random_init`. -/
inductive RandomMethod
  | normal | uniform

/-- `random_method.lower()` compared with the two names. -/
def parseRandomMethod (lowered : String) : Py RandomMethod :=
  if lowered = "normal" then .ok .normal
  else if lowered = "uniform" then .ok .uniform
  else .error .valueError

/-- decompositions.py:162-183 `random_init(sizes, rank, random_method)`. The drawn numbers are arbitrary:
`draw m i r` is entry `(i, r)` of the matrix drawn for mode `m`. `lowered` is `random_method.lower()`. -/
def randomInit (draw : RandomMethod → ℕ → ℕ → ℕ → ℝ) (sizes : List ℕ) (rank : ℕ) (lowered : String)
    (eps : ℝ := 1e-15) : Py KruskalTensor := do
  let method ← parseRandomMethod lowered
  let fs := (List.range sizes.length).map fun m => ofMat (sizes.getD m 0) rank (draw method m)
  let t ← init fs none
  t.normalizeComponents false eps

/-- `F[:, c, np.newaxis]` for a normalised column index. -/
def columnAsMat (F : NDArray ℝ) (c : ℕ) : NDArray ℝ := ofMat (F.shape.getD 0 0) 1 fun i _ => F.get [i, c]

/-- `F[:, component, np.newaxis]`: `IndexError` when the column does not exist. -/
def takeColumn (F : NDArray ℝ) (component : Int) : Py (NDArray ℝ) := do
  let (_, c) ← F.dims2
  match normIdx component c with
  | some k => pure (columnAsMat F k)
  | none => .error .indexError

/-- `weights[component]` for a vector. -/
def takeWeight (w : NDArray ℝ) (component : Int) : Py ℝ :=
  match normIdx component (w.shape.getD 0 0) with
  | some k => pure (w.get [k])
  | none => .error .indexError

/-- decompositions.py:251-264 `get_single_component_decomposition(component)`. -/
def getSingleComponent (t : KruskalTensor) (component : Int) : Py KruskalTensor := do
  let fs ← t.factorMatrices.mapM fun F => takeColumn F component
  let w ← takeWeight t.weights component
  init fs (some (ofFn [1] fun _ => w))

end KruskalTensor
end
end TK
