import Verif.Model.Scores
import Verif.Model.Parafac2

/-!
# Model of `core_consistency_parafac2` and of the comparison of two PARAFAC2 tensors
-/

namespace TK
open NDArray

noncomputable section

/-- metrics.py:164-173 `core_consistency_parafac2(X, P_k, A, F, C)`: `np.empty((I, rank, K))` holds arbitrary numbers
`garbage`; `P2.projectLoop` is the loop of lines 170-171. The error of `core_consistency` for factor matrices of another
number of columns is that of its model. `eps` is the guard of `utils.normalize_factors`. -/
def coreConsistencyParafac2 (E : Ext) (garbage : List ℕ → ℝ) (X P : List (NDArray ℝ)) (A F C : NDArray ℝ)
    (eps : ℝ := 1e-15) : Py FV := do
  let rank ← cols F
  let I ← rows A
  let K ← rows C
  let T ← P2.projectLoop X 0 P (ofFn [I, rank, K] garbage)
  coreConsistency E T A F C false eps

/-- `np.array(B).reshape(-1, rank)` (decompositions.py:691-692) for a sequence of matrices `B`: matrices of equal shapes are
stacked to a three-dimensional array, matrices of different shapes raise `ValueError` (NumPy 1.24 and later; older versions make
an array of objects and fail in `reshape` or later). `reshape(-1, 0)` raises. -/
def stackReshape (B : List (NDArray ℝ)) (rank : ℕ) : Py (NDArray ℝ) :=
  match B with
  | [] => .error .valueError
  | B₀ :: Bs =>
    if Bs.all fun Bk => Bk.shape == B₀.shape then
      match B₀.shape with
      | [J, R] =>
        (ofFn [(B₀ :: Bs).length, J, R] fun idx =>
          ((B₀ :: Bs).getD (idx.getD 0 0) (full [] 0)).get [idx.getD 1 0, idx.getD 2 0]).reshapeCols rank
      | _ => .error .valueError
    else .error .valueError

/-- decompositions.py:688-697 `Parafac2Tensor.factor_match_score(decomposition, weight_penalty, fms_reduction)` for another PARAFAC2
tensor. -/
def Parafac2Tensor.factorMatchScore (t d : Parafac2Tensor) (weightPenalty : Bool := true) (reduction : String := "min")
    (eps : ℝ := 1e-15) : Py (ℝ × Option (List ℕ)) := do
  if d.rank ≠ t.rank then .error .assertionError
  else do
    let B ← Bs t.blueprint t.P
    let b ← stackReshape B t.rank
    let B' ← Bs d.blueprint d.P
    let b' ← stackReshape B' t.rank
    TK.factorMatchScore [t.A, b, t.C] [d.A, b', d.C] weightPenalty reduction eps

end
end TK
