import Verif.Model.Kruskal

/-!
# Model of the solvers in `src/tenkit/base.py` (lines 7-60)

The numerical routines that the code calls are fields of `Ext`; what they guarantee is stated in
`Verif/Spec/Ext.lean` and assumed (as a hypothesis) by the theorems which need it.
-/

namespace TK
open NDArray

noncomputable section

/-- External numerical routines. -/
structure Ext where
  /-- `np.linalg.svd(A, full_matrices=False)`: `(U, S, Vh)`. -/
  svd : NDArray ℝ → NDArray ℝ × NDArray ℝ × NDArray ℝ
  /-- `scipy.optimize.nnls(A, b)[0]`. (The iteration limit of `nnls` is not modelled.) -/
  nnls : NDArray ℝ → NDArray ℝ → NDArray ℝ
  /-- `np.linalg.qr(A)`: reduced QR `(Q, R)`. -/
  qr : NDArray ℝ → NDArray ℝ × NDArray ℝ

/-- base.py:11 `S[S != 0] = 1/S[S != 0]`. -/
def invNonzero (S : NDArray ℝ) : NDArray ℝ := S.map fun s => if s ≠ 0 then 1 / s else s

/-- base.py:7-13 `rightsolve(A, B)`: `B @ (Vh.T * S @ U.T)`, where `*` and `@` associate to the left. -/
def rightsolve (E : Ext) (A B : NDArray ℝ) : Py (NDArray ℝ) := do
  let (U, S, Vh) := E.svd A
  let S := invNonzero S
  let VS ← zipB (· * ·) Vh.T S
  let P ← matmul VS U.T
  matmul B P

/-- Row `i` of a matrix as a vector. -/
def rowVec (B : NDArray ℝ) (i : ℕ) : NDArray ℝ := ofFn [B.shape.getD 1 0] fun idx => B.get [i, idx.getD 0 0]

/-- base.py:16-27 `non_negative_rightsolve(A, B)`. A one-dimensional `B` is indexed by itself
(`B[np.newaxis, B]`), which raises `IndexError` for floating point arrays. The loop assigns each row of
`x` once; the closed form of the resulting matrix is used. `nnls` raises `ValueError` if the lengths do
not match. -/
def nonNegativeRightsolve (E : Ext) (A B : NDArray ℝ) : Py (NDArray ℝ) :=
  match B.shape with
  | [_] => .error .indexError
  | _ => do
    let (p, q) ← B.dims2
    let (n, m) ← A.dims2
    if 0 < p ∧ q ≠ m then .error .valueError
    else pure (ofMat p n fun i j => (E.nnls A.T (rowVec B i)).get [j])

/-- base.py:40 `S_tol = max(U.shape) * S[0] * 1e-16` and base.py:41 `should_keep`. -/
def shouldKeep (U S : NDArray ℝ) : Py (NDArray ℝ) := do
  match S.data with
  | [] => .error .indexError
  | s0 :: _ =>
    let tol := ((U.shape.foldr max 0 : ℕ) : ℝ) * s0 * 1e-16
    pure (S.map fun s => if s > tol then 1 else 0)

/-- base.py:36-43 `orthogonal_solve(A, B)`. -/
def orthogonalSolve (E : Ext) (A B : NDArray ℝ) : Py (NDArray ℝ) := do
  let C ← matmul B.T A
  let (U, S, Vh) := E.svd C
  let keep ← shouldKeep U S
  let VK ← zipB (· * ·) Vh.T keep
  matmul VK U.T

/-- base.py:30-33 `orthogonal_rightsolve(A, B)`. -/
def orthogonalRightsolve (E : Ext) (A B : NDArray ℝ) : Py (NDArray ℝ) := do
  let X ← orthogonalSolve E A.T B.T
  pure X.T

/-- `np.concatenate([A, B], axis=1)` for matrices. -/
def hcat (A B : NDArray ℝ) : Py (NDArray ℝ) := do
  let (m, n) ← A.dims2
  let (m', n') ← B.dims2
  if m ≠ m' then .error .valueError
  else pure (ofMat m (n + n') fun i j => if j < n then A.get [i, j] else B.get [i, j - n])

/-- `np.concatenate([A, B], axis=0)` for matrices. -/
def vcat (A B : NDArray ℝ) : Py (NDArray ℝ) := do
  let (m, n) ← A.dims2
  let (m', n') ← B.dims2
  if n ≠ n' then .error .valueError
  else pure (ofMat (m + m') n fun i j => if i < m then A.get [i, j] else B.get [i - m, j])

/-- `c * np.identity(n)`. -/
def scaledIdentity (c : ℝ) (n : ℕ) : NDArray ℝ := ofMat n n fun i j => c * if i = j then 1 else 0

/-- base.py:46-60 `add_rightsolve_ridge(rightsolve, ridge_penalty)`. For a negative penalty `np.sqrt` gives
`nan`, which is outside this model (`Real.sqrt` gives 0); the theorems assume `0 ≤ l`. -/
def addRightsolveRidge (solve : NDArray ℝ → NDArray ℝ → Py (NDArray ℝ)) (l : ℝ) (A B : NDArray ℝ) :
    Py (NDArray ℝ) := do
  let (n, _) ← A.dims2
  let (p, _) ← B.dims2
  let A' ← hcat A (scaledIdentity (Real.sqrt l) n)
  let B' ← hcat B (full [p, n] 0)
  solve A' B'

end
end TK
