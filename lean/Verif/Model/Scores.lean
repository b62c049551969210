import Verif.Model.CP
import Verif.Model.Metrics
import Verif.LinAlg.Exists
import Mathlib.Analysis.SpecialFunctions.Pow.Real
import Mathlib.LinearAlgebra.Matrix.NonsingularInverse

/-!
# Model of the remaining scores in `src/tenkit/metrics.py` (lines 13-16, 118-173, 191-297) and of their callers

Congruences are `some x`, or `none` when they are `nan`; scores that are quotients are values of `FV`.
-/

namespace TK
open NDArray

noncomputable section

instance : Zero (Option ℝ) := ⟨some 0⟩

/-- Multiplication of floating point numbers that are real or `nan`. -/
def mulNan : Option ℝ → Option ℝ → Option ℝ
  | some x, some y => some (x * y)
  | _, _ => none

/-- metrics.py:13-16 `_tucker_congruence(A1, A2)`: both matrices are divided by their column norms, and the product of
the transposed first with the second is returned. A zero column is divided by zero, which makes it a column of `nan`,
and every inner product with it is `nan` (if there is at least one row). -/
def tuckerCongruence (A1 A2 : NDArray ℝ) : Py (NDArray (Option ℝ)) := do
  let (m, R) ← A1.dims2
  let (m', R') ← A2.dims2
  if m ≠ m' then .error .valueError
  else pure (ofMat R R' fun r s =>
    if 0 < m ∧ (colNorm A1 r = 0 ∨ colNorm A2 s = 0) then none
    else some (∑ i ∈ Finset.range m, A1.get [i, r] / colNorm A1 r * (A2.get [i, s] / colNorm A2 s)))

/-- decompositions.py:268-269, the loop of `degeneracy`: `scores *= congruence`. -/
def degeneracyLoop : List (NDArray ℝ) → NDArray (Option ℝ) → Py (NDArray (Option ℝ))
  | [], scores => .ok scores
  | F :: Fs, scores => do
    let c ← tuckerCongruence F F
    let P ← zipB mulNan scores c
    if P.shape = scores.shape then degeneracyLoop Fs P else .error .valueError

/-- decompositions.py:266-271 `KruskalTensor.degeneracy`. -/
def KruskalTensor.degeneracy (t : KruskalTensor) : Py (NDArray (Option ℝ)) :=
  degeneracyLoop t.factorMatrices (full [t.rank, t.rank] (some 1))

/-- decompositions.py:455-465 `EvolvingTensor.degeneracy`. -/
def EvolvingTensor.degeneracy (t : EvolvingTensor) : Py (NDArray (Option ℝ)) := do
  degeneracyLoop [t.A, ← t.BUnfolded, t.C] (full [t.rank, t.rank] (some 1))

/-- `np.linalg.inv(A)`: `LinAlgError` for a matrix which is not square or not invertible. (In floating point
arithmetic the inverse of a nearly singular matrix is a value; this is not modelled.) -/
def npInv (A : NDArray ℝ) : Py (NDArray ℝ) := do
  let (m, n) ← A.dims2
  if m ≠ n then .error .linAlgError
  else if (mat A m m).det = 0 then .error .linAlgError
  else pure (ofMatrix (mat A m m)⁻¹)

/-- `np.diagonal(A)` for a matrix. -/
def npDiagonal (A : NDArray ℝ) : NDArray ℝ :=
  ofFn [min (A.shape.getD 0 0) (A.shape.getD 1 0)] fun idx => A.get [idx.getD 0 0, idx.getD 0 0]

/-- metrics.py:191-193 `leverage(factor_matrix)`. -/
def leverage (F : NDArray ℝ) : Py (NDArray ℝ) := do
  let G ← matmul F.T F
  let I ← npInv G
  let L ← matmul F I.T
  let H ← matmul L F.T
  pure (npDiagonal H)

/-- `1 - x` for a floating point number. -/
def FV.oneSub : FV → FV
  | .fin x => .fin (1 - x)
  | .pinf => .ninf
  | .ninf => .pinf
  | .nan => .nan

/-- `100 * x` for a floating point number. -/
def FV.times100 : FV → FV
  | .fin x => .fin (100 * x)
  | v => v

/-- metrics.py:294-297 `percent_explained(true_tensor, estimated_tensor)`. -/
def percentExplained (X Y : NDArray ℝ) : Py FV := do
  let D ← zipB (· - ·) X Y
  pure (FV.div (frobNorm D ^ 2) (frobNorm X ^ 2)).oneSub

/-- metrics.py:118-119 `tensor_completion_score(X, X_hat, W)`. -/
def tensorCompletionScore (X Y W : NDArray ℝ) : Py FV := do
  let M := W.map (1 - ·)
  let D ← zipB (· - ·) X Y
  let N ← zipB (· * ·) M D
  let X' ← zipB (· * ·) M X
  pure (FV.div (frobNorm N) (frobNorm X'))

/-- `np.prod(np.concatenate(norms), axis=0, keepdims=True)` for three rows of the same length (metrics.py:138). -/
def prodRowsKeep (norms : List (NDArray ℝ)) : Py (NDArray ℝ) := do
  let v ← prodRows norms
  pure (newaxis0 v)

/-- The array `T` of metrics.py:133-134: `np.zeros((F, F, F))` with ones on the diagonal. -/
def superdiagonal (F : ℕ) : NDArray ℝ :=
  ofFn [F, F, F] fun idx => if idx.getD 0 0 = idx.getD 1 0 ∧ idx.getD 1 0 = idx.getD 2 0 then 1 else 0

/-- `scipy.linalg.solve_triangular(R, b)` (upper triangular, the entries below the diagonal are not read): `ValueError` if
`R` is not square or the sizes do not match, `LinAlgError` if there is a zero on the diagonal. -/
def solveTriangular (R b : NDArray ℝ) : Py (NDArray ℝ) := do
  let (m, n) ← R.dims2
  let (m', q) ← b.dims2
  if m ≠ n ∨ m ≠ m' then .error .valueError
  else if ∃ i < m, R.get [i, i] = 0 then .error .linAlgError
  else pure (ofMatrix ((mat (ofMat m m fun i j => if i ≤ j then R.get [i, j] else 0) m m)⁻¹ * mat b m q))

/-- metrics.py:142-152: the vector `vec_G` of the least squares Tucker core for the scaled factor matrices. -/
def coreVector (E : Ext) (X A B C : NDArray ℝ) : Py (NDArray ℝ) := do
  let k ← kron [A.T, B.T, C.T]
  let x ← X.reshapeCols 1
  let (Q, R) := E.qr k.T
  let rhs ← matmul Q.T x
  solveTriangular R rhs

/-- metrics.py:122-160 `core_consistency(X, A, B, C, normalized)`. The factor matrices are normalised and multiplied by
the third root of the product of their norms. The sum in the last line runs over the rows of a column, and its division
by the Python integer `0` (rank zero and not normalised) raises `ZeroDivisionError` because both operands are integers
then. -/
def coreConsistency (E : Ext) (X A B C : NDArray ℝ) (normalized : Bool := false) (eps : ℝ := 1e-15) : Py FV := do
  let F ← cols A
  let T := superdiagonal F
  let (fs, norms) ← normalizeFactors [A, B, C] eps
  let w ← prodRowsKeep norms
  let w := w.map fun x => x ^ ((1 : ℝ) / 3)
  let fs ← fs.mapM fun f => inplaceMul f w
  let A ← pyGet fs 0
  let B ← pyGet fs 1
  let C ← pyGet fs 2
  let t ← T.reshapeCols 1
  let g ← coreVector E X A B C
  let D ← zipB (· - ·) g t
  if normalized = false ∧ F = 0 then .error .zeroDivisionError
  else
    let denom := if normalized then frobNorm g ^ 2 else F
    pure (FV.div (D.data.map fun x => x ^ 2).sum denom).oneSub.times100

/-- decompositions.py:273-276 `KruskalTensor.core_consistency`: the weights are not used. -/
def KruskalTensor.coreConsistency (E : Ext) (t : KruskalTensor) (X : NDArray ℝ) (normalized : Bool := false)
    (eps : ℝ := 1e-15) : Py FV :=
  match t.factorMatrices with
  | [A, B, C] => TK.coreConsistency E X A B C normalized eps
  | _ => .error .valueError

/-- Division of a column by its norm as in metrics.py:211-220 (`0/0` is `nan`; the model returns `0/0 = 0` and is used on
columns that are not zero). -/
def unitColumns (F : NDArray ℝ) : Py (NDArray ℝ) := zipB (· / ·) F (colNorms F)

/-- metrics.py:230-252, the product of the congruences of component `r` over a list of pairs of matrices. -/
def congruenceLoop (nonnegative : Bool) (r : ℕ) : List (NDArray ℝ × NDArray ℝ) → ℝ → Py ℝ
  | [], score => .ok score
  | (F, G) :: l, score => do
    let d ← do dotVec (← columnVec F r) (← columnVec G r)
    congruenceLoop nonnegative r l (score * if nonnegative then |d| else d)

/-- metrics.py:196-256 `_factor_match_score_parafac2(true_factors, estimated_factors, weight_penalty, nonnegative)` for
factors `(A, [B_k], C)` that are matrices with non-zero columns. The normalised true factors are overwritten by the
normalised estimated factors (lines 216-220). The exponent `1/K` of an empty list raises `ZeroDivisionError`. -/
def factorMatchScoresParafac2 (aA : NDArray ℝ) (aB : List (NDArray ℝ)) (aC bA : NDArray ℝ) (bB : List (NDArray ℝ))
    (bC : NDArray ℝ) (weightPenalty : Bool := true) (nonnegative : Bool := true) : Py (List ℝ) := do
  let rank ← cols aA
  let _ ← unitColumns aA
  let _ ← aB.mapM unitColumns
  let _ ← unitColumns aC
  let tA ← unitColumns bA
  let tB ← bB.mapM unitColumns
  let tC ← unitColumns bC
  if weightPenalty then .error .notImplementedError
  else
    (List.range rank).mapM fun r => do
      let s ← congruenceLoop nonnegative r [(tA, bA), (tC, bC)] 1
      let e ← congruenceLoop nonnegative r (tB.zip bB) 1
      if tB.length = 0 then .error .zeroDivisionError
      else pure (s * e ^ ((1 : ℝ) / tB.length))

/-- `np.sqrt` of a floating point number. -/
def FV.sqrt : FV → FV
  | .fin x => if 0 ≤ x then .fin (Real.sqrt x) else .nan
  | .pinf => .pinf
  | _ => .nan

namespace CP

/-- base_decomposer.py:95-97 `explained_variance` of a `CP_ALS` object. -/
def explainedVariance (s : CPState) : Py FV := do
  let e ← sse s
  pure (FV.div e (s.XNorm ^ 2)).oneSub

/-- base_decomposer.py:103-108 `MSE` of a `CP_ALS` object: `SSE / np.prod(X.shape)`. -/
def mse (s : CPState) : Py FV := do
  let e ← sse s
  pure (FV.div e s.X.shape.prod)

/-- base_decomposer.py:111-115 `RMSE` of a `CP_ALS` object: `np.sqrt(MSE)`. -/
def rmse (s : CPState) : Py FV := do
  let e ← mse s
  pure e.sqrt

end CP

end
end TK
