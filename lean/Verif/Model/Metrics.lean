import Verif.Model.Evolving

/-!
# Model of the factor match scores in `src/tenkit/metrics.py` (lines 9-114) and of their callers

A floating point result is `some x`, or `none` when it is `nan` (the only value that is not a real number
which can arise here: the weights are products of norms, so a division by `max(w1, w2) = 0` is `0/0`).
-/

namespace TK
open NDArray

noncomputable section

/-- metrics.py:9-10 `weight_score(weight1, weight2)`, for non-negative weights; `0/0` is `nan`. -/
def weightScore (w1 w2 : ℝ) : Option ℝ := if max w1 w2 = 0 then none else some (|w1 - w2| / max w1 w2)

/-- `F[:, r]` for a matrix: `IndexError` if there is no such column. -/
def columnVec (F : NDArray ℝ) (r : ℕ) : Py (NDArray ℝ) := do
  let (m, c) ← F.dims2
  if r < c then pure (ofFn [m] fun idx => F.get [idx.getD 0 0, r]) else .error .indexError

/-- `u @ v` for vectors: `ValueError` if the lengths differ. -/
def dotVec (u v : NDArray ℝ) : Py ℝ :=
  if u.shape = v.shape then .ok (∑ i ∈ Finset.range (u.shape.getD 0 0), u.get [i] * v.get [i])
  else .error .valueError

/-- metrics.py:20-23: one-dimensional factors become columns (`reshape(-1, 1)`); the first factor decides
for the whole list. -/
def asColumns (fs : List (NDArray ℝ)) : Py (List (NDArray ℝ)) := do
  let f0 ← pyGet fs 0
  if f0.shape.length = 1 then fs.mapM fun F => F.reshapeCols 1 else pure fs

/-- metrics.py:33 `np.prod(np.concatenate(norms), axis=0)` for a list of rows of shape `(1, R)`:
`ValueError` if the lengths differ or the list is empty. -/
def prodRows (norms : List (NDArray ℝ)) : Py (NDArray ℝ) :=
  match norms with
  | [] => .error .valueError
  | n :: ns =>
    if ns.all fun m => m.shape = n.shape then
      .ok (ofFn [n.shape.getD 1 0] fun idx => ((n :: ns).map fun v => v.get [0, idx.getD 0 0]).prod)
    else .error .valueError

/-- `v[r]` for a vector. -/
def itemVec (v : NDArray ℝ) (r : ℕ) : Py ℝ :=
  if r < v.shape.getD 0 0 then .ok (v.get [r]) else .error .indexError

/-- metrics.py:42-46, the loop over the modes for component `r`. -/
def matchModes (nonnegative : Bool) (r : ℕ) : List (NDArray ℝ × NDArray ℝ) → Option ℝ → Py (Option ℝ)
  | [], score => .ok score
  | (F, G) :: l, score => do
    let d ← do dotVec (← columnVec F r) (← columnVec G r)
    matchModes nonnegative r l (score.map (· * if nonnegative then |d| else d))

/-- metrics.py:32-37, the weights of the components of one list of factors. -/
def fmsWeights (weightPenalty : Bool) (rank : ℕ) (norms : List (NDArray ℝ)) : Py (NDArray ℝ) :=
  if weightPenalty then prodRows norms else .ok (full [rank] 1)

/-- metrics.py:18-49 `_factor_match_score(true_factors, estimated_factors, weight_penalty, nonnegative)`. -/
def factorMatchScores (a b : List (NDArray ℝ)) (weightPenalty : Bool) (nonnegative : Bool := true)
    (eps : ℝ := 1e-15) : Py (List (Option ℝ)) := do
  let a ← asColumns a
  let b ← asColumns b
  let rank ← cols (← pyGet a 0)
  let (a, an) ← normalizeFactors a eps
  let (b, bn) ← normalizeFactors b eps
  let wa ← fmsWeights weightPenalty rank an
  let wb ← fmsWeights weightPenalty rank bn
  (List.range rank).mapM fun r => do
    let s := (weightScore (← itemVec wa r) (← itemVec wb r)).map (1 - ·)
    matchModes nonnegative r (a.zip b) s

/-- utils.py:68-69 `factor[:, permutation]`: `IndexError` if a column does not exist. -/
def permuteColumns (perm : List ℕ) (F : NDArray ℝ) : Py (NDArray ℝ) := do
  let (m, c) ← F.dims2
  if perm.all (· < c) then pure (ofMat m perm.length fun i j => F.get [i, perm.getD j 0]) else .error .indexError

/-- utils.py:68-69 `permute_factors(permutation, factors)`. -/
def permuteFactors (perm : List ℕ) (fs : List (NDArray ℝ)) : Py (List (NDArray ℝ)) := fs.mapM (permuteColumns perm)

/-- `itertools.permutations(pool, r)` for a pool of different elements: first the choices of the first
element in the order of the pool, then recursively those of the rest. -/
def permutations : ℕ → List ℕ → List (List ℕ)
  | 0, _ => [[]]
  | r + 1, pool => pool.flatMap fun x => (permutations r (pool.erase x)).map (x :: ·)

/-- The reductions. -/
inductive Reduction
  | min | mean

/-- metrics.py:54-59: the accepted names. -/
def parseReduction (s : String) : Py Reduction :=
  if s = "min" then .ok .min else if s = "mean" then .ok .mean else .error .valueError

/-- Minimum of a non-empty list. -/
def minList : List ℝ → ℝ
  | [] => 0
  | [x] => x
  | x :: xs => min x (minList xs)

/-- `np.min` and `np.mean` of a list: `nan` if an element is; of an empty list `np.min` raises `ValueError`
and `np.mean` gives `nan`. -/
def reduceScores (red : Reduction) (l : List (Option ℝ)) : Py (Option ℝ) :=
  match red, l with
  | .min, [] => .error .valueError
  | .mean, [] => .ok none
  | .min, l => .ok ((l.mapM id).map minList)
  | .mean, l => .ok ((l.mapM id).map fun v => v.sum / v.length)

/-- metrics.py:64-79, the search over the permutations: `fms > max_fms` is false for `nan`. -/
def bestPerm (score : List ℕ → Py (Option ℝ)) : List (List ℕ) → ℝ × Option (List ℕ) → Py (ℝ × Option (List ℕ))
  | [], best => .ok best
  | p :: ps, best => do
    let s ← score p
    match s with
    | none => bestPerm score ps best
    | some x => if x > best.1 then bestPerm score ps (x, some p) else bestPerm score ps best

/-- metrics.py:67-79, the body of the search for one pair of factor lists. -/
def fmsSearch (a b : List (NDArray ℝ)) (weightPenalty : Bool) (red : Reduction) (rank estimated : ℕ) (eps : ℝ) :
    Py (ℝ × Option (List ℕ)) :=
  bestPerm (fun perm => do
      let pb ← permuteFactors perm b
      let scores ← factorMatchScores a pb weightPenalty true eps
      reduceScores red scores)
    (permutations rank (List.range estimated)) (-1, none)

/-- metrics.py:51-79 `factor_match_score(true_factors, estimated_factors, weight_penalty, fms_reduction)`. -/
def factorMatchScore (a b : List (NDArray ℝ)) (weightPenalty : Bool := true) (reduction : String := "min")
    (eps : ℝ := 1e-15) : Py (ℝ × Option (List ℕ)) := do
  let red ← parseReduction reduction
  let rank ← cols (← pyGet a 0)
  let estimated ← cols (← pyGet b 0)
  fmsSearch a b weightPenalty red rank estimated eps

/-- metrics.py:81-114 `separate_mode_factor_match_score(true_factors, estimated_factors, fms_reduction)`. -/
def separateModeFms (a b : List (NDArray ℝ)) (reduction : String := "min") (eps : ℝ := 1e-15) :
    Py (List ℝ × List (Option (List ℕ))) := do
  let red ← parseReduction reduction
  let rank ← cols (← pyGet a 0)
  let estimated ← cols (← pyGet b 0)
  let l ← (a.zip b).mapM fun p => fmsSearch [p.1] [p.2] false red rank estimated eps
  pure (l.map Prod.fst, l.map Prod.snd)

/-- decompositions.py:211-217 `KruskalTensor.factor_match_score`. -/
def KruskalTensor.factorMatchScore (t d : KruskalTensor) (weightPenalty : Bool := true) (reduction : String := "min")
    (eps : ℝ := 1e-15) : Py (ℝ × Option (List ℕ)) :=
  if d.rank ≠ t.rank then .error .assertionError
  else TK.factorMatchScore t.factorMatrices d.factorMatrices weightPenalty reduction eps

/-- The functions of the module `metrics` that the containers call by name; looking up any other name in the
module raises `AttributeError` (metrics.py:9-297 defines these and the names of the imported modules). -/
def metricsNames : List String :=
  ["weight_score", "_tucker_congruence", "_factor_match_score", "factor_match_score",
    "separate_mode_factor_match_score", "tensor_completion_score", "core_consistency",
    "core_consistency_parafac2", "leverage", "_factor_match_score_parafac2", "factor_match_score_parafac2",
    "percent_explained", "np", "itertools", "base", "scipy", "utils"]

/-- decompositions.py:219-222 `KruskalTensor.seperate_mode_factor_match_score`: it looks up
`metrics.seperate_mode_factor_match_score` (spelled as written). -/
def KruskalTensor.seperateModeFms (t d : KruskalTensor) (reduction : String := "min") (eps : ℝ := 1e-15) :
    Py (List ℝ × List (Option (List ℕ))) :=
  if "seperate_mode_factor_match_score" ∈ metricsNames then
    separateModeFms t.factorMatrices d.factorMatrices reduction eps
  else .error .attributeError

/-- decompositions.py:467-471 `EvolvingTensor.factor_match_score`. -/
def EvolvingTensor.factorMatchScore (t d : EvolvingTensor) (weightPenalty : Bool := true)
    (reduction : String := "min") (eps : ℝ := 1e-15) : Py (ℝ × Option (List ℕ)) := do
  TK.factorMatchScore [t.A, ← t.BUnfolded, t.C] [d.A, ← d.BUnfolded, d.C] weightPenalty reduction eps

/-- decompositions.py:473-478 `EvolvingTensor.separate_mode_factor_match_score` for another evolving tensor. -/
def EvolvingTensor.separateModeFms (t d : EvolvingTensor) (reduction : String := "min") (eps : ℝ := 1e-15) :
    Py (List ℝ × List (Option (List ℕ))) := do
  TK.separateModeFms [t.A, ← t.BUnfolded, t.C] [d.A, ← d.BUnfolded, d.C] reduction eps

/-- metrics.py:259-291 `factor_match_score_parafac2`: modes 0 and 2 only; the estimated factors are permuted
by `[:, permutation]`. `a` and `b` are the lists `[A, B, C]` without the second entry, which is not used
(only `true_factors[0]`, `true_factors[2]`, `estimated_factors[0]` and `estimated_factors[2]` are). -/
def factorMatchScoreParafac2 (aA : NDArray ℝ) (_aB : List (NDArray ℝ)) (aC bA : NDArray ℝ)
    (_bB : List (NDArray ℝ)) (bC : NDArray ℝ) (weightPenalty : Bool := true) (reduction : String := "min")
    (eps : ℝ := 1e-15) : Py (ℝ × Option (List ℕ)) := do
  let red ← parseReduction reduction
  let rank ← cols aA
  let estimated ← cols bA
  fmsSearch [aA, aC] [bA, bC] weightPenalty red rank estimated eps

end
end TK
