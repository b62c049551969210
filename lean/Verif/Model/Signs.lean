import Verif.Model.CP
import Verif.Model.Metrics
import Mathlib.Data.Real.Sign

/-!
# Model of the sign helpers, of `permute_factors_and_weights` and of the data generators in `src/tenkit/utils.py`, and of
`KruskalTensor.get_sign_scores` / `get_signs`

`np.sign` of a floating point number is `Real.sign`. Factor matrices have floating point entries (for an array of integers
`factor *= sign` raises a `TypeError`, which is outside this model).
-/

namespace TK
open NDArray

noncomputable section

/-- utils.py:131-136, the loop of `_find_first_nonzero_sign`. -/
def firstNonzeroLoop : List ℝ → ℝ → ℝ
  | [], s => s
  | x :: xs, s => if s ≠ 0 then s else firstNonzeroLoop xs (Real.sign x)

/-- utils.py:127-136 `_find_first_nonzero_sign(factor)`. -/
def findFirstNonzeroSign (col : List ℝ) : ℝ := firstNonzeroLoop col 0

/-- utils.py:10-15 (and 148-153), the sign of column `k` of a matrix with `m` rows. (For `m = 0` NumPy gives `nan`, the
model `0`; there are no entries to multiply then.) -/
def columnSign (F : NDArray ℝ) (m k : ℕ) : ℝ :=
  let s := Real.sign ((∑ i ∈ Finset.range m, Real.sign (F.get [i, k])) / m)
  if s = 0 then findFirstNonzeroSign ((List.range m).map fun i => F.get [i, k]) else s

/-- utils.py:9-18, the body of the loop over the factors: the flipped factor and its signs. For factors that are not
matrices the model raises `ValueError`; Python raises `TypeError` or `ValueError`. -/
def flipFactor (F : NDArray ℝ) : Py (NDArray ℝ × NDArray ℝ) := do
  let (m, R) ← F.dims2
  let sign := ofFn [R] fun idx => columnSign F m (idx.getD 0 0)
  let G ← inplaceMul F sign
  pure (G, sign)

/-- utils.py:6-19 `flip_factors(factor_matrices)`; the arrays are copied first (line 7), so that the result is a new
list. -/
def flipFactors (fs : List (NDArray ℝ)) : Py (List (NDArray ℝ) × List (NDArray ℝ)) := do
  let l ← fs.mapM flipFactor
  pure (l.map Prod.fst, l.map Prod.snd)

/-- utils.py:139-157 `prepare_for_comparison(factors)`. -/
def prepareForComparison (fs : List (NDArray ℝ)) (eps : ℝ := 1e-15) :
    Py (List (NDArray ℝ) × List (NDArray ℝ) × List (NDArray ℝ)) := do
  let (n, norms) ← normalizeFactors fs eps
  let (g, signs) ← flipFactors n
  pure (g, signs, norms)

/-- utils.py:72-75 `permute_factors_and_weights(permutation, factors, weights)`. -/
def permuteFactorsAndWeights (perm : List ℕ) (fs : List (NDArray ℝ)) (w : NDArray ℝ) :
    Py (List (NDArray ℝ) × NDArray ℝ) := do
  let g ← permuteFactors perm fs
  let v ← if perm.all (· < w.shape.getD 0 0) then .ok (ofFn [perm.length] fun idx => w.get [perm.getD (idx.getD 0 0) 0])
    else .error .indexError
  pure (g, v)

/-- `np.linalg.lstsq(F, X)[0]` for matrices, with the routine `L`: `LinAlgError` if the row counts differ. -/
def npLstsq (L : NDArray ℝ → NDArray ℝ → NDArray ℝ) (F X : NDArray ℝ) : Py (NDArray ℝ) := do
  let (m, _) ← F.dims2
  let (m', _) ← X.dims2
  if m ≠ m' then .error .linAlgError else pure (L F X)

/-- utils.py:160-189 `get_signs(factor_matrix, X)`: the signs and the weights. -/
def getSigns (L : NDArray ℝ → NDArray ℝ → NDArray ℝ) (F : NDArray ℝ) (X : Option (NDArray ℝ)) :
    Py (NDArray ℝ × NDArray ℝ) := do
  match X with
  | none =>
    let (m, R) ← F.dims2
    let w := ofFn [R] fun idx => ∑ i ∈ Finset.range m, F.get [i, idx.getD 0 0]
    let w := w.map fun x => by classical exact if x = 0 then 1 else x
    pure (w.map Real.sign, w)
  | some X =>
    let S ← npLstsq L F X
    let (R, n) ← S.dims2
    let w := ofFn [R] fun idx => ∑ j ∈ Finset.range n, Real.sign (S.get [idx.getD 0 0, j]) * S.get [idx.getD 0 0, j] ^ 2
    pure (w.map Real.sign, w)

/-- decompositions.py:223-228 `KruskalTensor.get_sign_scores(X)`. -/
def KruskalTensor.getSignScores (L : NDArray ℝ → NDArray ℝ → NDArray ℝ) (t : KruskalTensor) (X : NDArray ℝ) :
    Py (List (NDArray ℝ)) :=
  t.factorMatrices.zipIdx.mapM fun p => do
    let U ← unfold X p.2
    let (_, w) ← getSigns L p.1 (some U)
    pure w

/-- `np.argmin` of a non-empty list: the first position of the minimum. -/
def argmin : List ℝ → ℕ
  | [] => 0
  | [_] => 0
  | x :: y :: l => let k := argmin (y :: l); if (y :: l).getD k 0 < x then k + 1 else 0

/-- decompositions.py:239-246, the signs of one component in the different modes, from its scores. -/
def componentSigns (scores : List ℝ) : List ℝ :=
  let s := scores.map Real.sign
  if s.prod = -1 then s.modify (argmin (scores.map fun x => |x|)) (· * -1) else s

/-- decompositions.py:230-248 `KruskalTensor.get_signs(X)`: one vector of signs per mode. The loop over the components
writes entry `rank` of each vector, here the vectors are assembled from the components. (In Python the vectors are integer
arrays.) -/
def KruskalTensor.getSigns (L : NDArray ℝ → NDArray ℝ → NDArray ℝ) (t : KruskalTensor) (X : NDArray ℝ) :
    Py (List (NDArray ℝ)) := do
  let scores ← t.getSignScores L X
  let comps ← (List.range t.rank).mapM fun r => do
    let s ← scores.mapM fun w => itemVec w r
    pure (componentSigns s)
  pure ((List.range t.factorMatrices.length).map fun n =>
    ofFn [t.rank] fun idx => (comps.getD (idx.getD 0 0) []).getD n 0)

/-! ### calls that do not match a signature, names that do not exist -/

/-- Binding the arguments of a call to a function with the given parameters (no defaults, no `*args`): `TypeError` if there
are too many positional arguments, an unknown or repeated keyword, or a missing argument. -/
def bindArgs (params : List String) (positional : ℕ) (keywords : List String) : Py Unit :=
  if params.length < positional then .error .typeError
  else if keywords.any fun k => k ∉ params.drop positional then .error .typeError
  else if (params.drop positional).any fun p => p ∉ keywords then .error .typeError
  else .ok ()

/-- Attribute lookup in a module with the given names. -/
def moduleAttr (names : List String) (name : String) : Py Unit :=
  if name ∈ names then .ok () else .error .attributeError

/-- The names in `base.py` (imports, lines 1-4, and functions). -/
def baseNames : List String :=
  ["np", "nnls", "h5py", "ABC", "abstractmethod", "abstractclassmethod", "rightsolve", "non_negative_rightsolve",
    "orthogonal_rightsolve", "orthogonal_solve", "add_rightsolve_ridge", "kron_binary_vectors", "khatri_rao_binary",
    "khatri_rao", "kron", "kron_binary", "matrix_khatri_rao_product", "_mttkrp3", "_mttkrp_mid", "_mttkrp_mid_with_krp",
    "unfold", "fold", "unflatten_factors", "flatten_factors"]

/-- utils.py:32-35 and 50-53 `create_random_factors` and `create_random_uniform_factors`: `draw n` are the numbers drawn
for factor `n`. -/
def createRandomFactors (draw : ℕ → ℕ → ℕ → ℝ) (sizes : List ℕ) (rank : ℕ) (eps : ℝ := 1e-15) :
    Py (List (NDArray ℝ) × List (NDArray ℝ)) :=
  normalizeFactors (sizes.zipIdx.map fun p => ofMat p.1 rank (draw p.2)) eps

/-- utils.py:38-47 and 56-65 `create_data` and `create_non_negative_data`, which differ in the distribution of the drawn
numbers. `base.ktensor` is looked up in the module `base`; a function of this name would return the tensor with the given
factor matrices. -/
def createData (draw : ℕ → ℕ → ℕ → ℝ) (drawNoise : List ℕ → ℝ) (sizes : List ℕ) (rank : ℕ) (noiseFactor : ℝ := 0)
    (eps : ℝ := 1e-15) : Py (NDArray ℝ × List (NDArray ℝ) × List (NDArray ℝ) × NDArray ℝ) := do
  let (factors, norms) ← createRandomFactors draw sizes rank eps
  moduleAttr baseNames "ktensor"
  let tensor ← do (← KruskalTensor.init factors none).constructTensor
  let noise := ofFn sizes drawNoise
  let noise := noise.map fun x => x / frobNorm noise * frobNorm tensor
  let tensor ← zipB (· + ·) tensor (noise.map fun x => noiseFactor * x)
  pure (tensor, factors, norms, noise)

/-- utils.py:194-198, the loop of `signfix_evolving_factors`: `get_signs(data_tensor[k], evolving_factor[k],
data_driven=data_driven)` is a call with two positional arguments and one keyword. `B` and the rows of `C` are multiplied
by the signs. -/
def signfixLoop (L : NDArray ℝ → NDArray ℝ → NDArray ℝ) (data : List (NDArray ℝ)) :
    List (NDArray ℝ) → ℕ → NDArray ℝ → Py (List (NDArray ℝ) × NDArray ℝ)
  | [], _, C => .ok ([], C)
  | B :: Bs, k, C => do
    let X ← pyGet data k
    bindArgs ["factor_matrix", "X"] 2 ["data_driven"]
    let (signs, _) ← getSigns L X (some B)
    let B' ← inplaceMul B signs
    let (m, R) ← C.dims2
    let C' := ofMat m R fun i r => if i = k then C.get [i, r] * signs.get [r] else C.get [i, r]
    let (Bs', C'') ← signfixLoop L data Bs (k + 1) C'
    pure (B' :: Bs', C'')

/-- utils.py:191-200 `signfix_evolving_factors(data_tensor, evolving_factor, evolve_over_factor)`; the data and the
evolving factor are given by their slices. -/
def signfixEvolvingFactors (L : NDArray ℝ → NDArray ℝ → NDArray ℝ) (data B : List (NDArray ℝ)) (C : NDArray ℝ) :
    Py (List (NDArray ℝ) × NDArray ℝ) := signfixLoop L data B 0 C

/-- utils.py:202-206 `signfix_normal_factors(data_tensor, fixing_factors, flipping_factors)`:
`get_signs(unfolded, fixing, data_driven)` is a call with three positional arguments. -/
def signfixNormalFactors (L : NDArray ℝ → NDArray ℝ → NDArray ℝ) (data fixing flipping : NDArray ℝ) :
    Py (NDArray ℝ × NDArray ℝ) := do
  let n ← pyGet data.shape 0
  let U ← data.reshapeRows n
  bindArgs ["factor_matrix", "X"] 3 []
  let (signs, _) ← getSigns L U (some fixing)
  let A ← zipB (· * ·) fixing (newaxis0 signs)
  let B ← zipB (· * ·) flipping (newaxis0 signs)
  pure (A, B)

/-- utils.py:208-218 `fix_signs_evolving_tensor(evolving_tensor, data_tensor)`: a copy of the tensor with the fixed
factors (the other attributes are not recomputed). -/
def fixSignsEvolvingTensor (L : NDArray ℝ → NDArray ℝ → NDArray ℝ) (t : EvolvingTensor) (data : List (NDArray ℝ)) :
    Py EvolvingTensor := do
  let (B, C) ← signfixEvolvingFactors L data t.B t.C
  pure { t with B := B, C := C }

end
end TK
