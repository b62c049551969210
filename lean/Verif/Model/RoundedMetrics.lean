import Verif.Model.Rounded
import Verif.Model.Metrics

/-!
# The factor match score with rounding

The functions of `Verif/Model/Metrics.lean`, with every arithmetic operation rounded by `rnd` and sums in any order, as in
`Verif/Model/Rounded.lean`. The comparisons, `np.abs`, `max`, `np.min` and the selection of columns are exact.
-/

namespace TK
open NDArray

noncomputable section

/-- `x / y` for floats (arrays elementwise). -/
def flDiv (rnd : ℝ → ℝ) (x y : ℝ) : ℝ := rnd (x / y)

/-- `np.linalg.norm(F, axis=0)` for a matrix: square roots of the sums of the squares of the columns. -/
def FlColNorms (rnd : ℝ → ℝ) (F n : NDArray ℝ) : Prop :=
  n.shape = [F.shape.getD 1 0] ∧ ∀ r < F.shape.getD 1 0, ∃ q, FlDot rnd (fun i => F.get [i, r]) (fun i => F.get [i, r])
    (Finset.range (F.shape.getD 0 0)) q ∧ n.get [r] = rnd (Real.sqrt q)

/-- utils.py:78-96 `normalize_factor(factor, eps)`: the normalised factor `G` and the norms. -/
def FlNormalizeFactor (rnd : ℝ → ℝ) (eps : ℝ) (F G norms : NDArray ℝ) : Prop :=
  ∃ n, FlColNorms rnd F n ∧ norms = newaxis0 n ∧ zipB (flDiv rnd) F (norms.map fun x => flAdd rnd x eps) = .ok G

/-- utils.py:99-124 `normalize_factors(factors)`. -/
inductive FlNormalizeFactors (rnd : ℝ → ℝ) (eps : ℝ) :
    List (NDArray ℝ) → List (NDArray ℝ) → List (NDArray ℝ) → Prop
  | nil : FlNormalizeFactors rnd eps [] [] []
  | cons {F G n : NDArray ℝ} {fs gs ns : List (NDArray ℝ)} : FlNormalizeFactor rnd eps F G n →
      FlNormalizeFactors rnd eps fs gs ns → FlNormalizeFactors rnd eps (F :: fs) (G :: gs) (n :: ns)

/-- `np.prod` of the numbers of a column, from the first to the last. -/
def flProd (rnd : ℝ → ℝ) : List ℝ → ℝ
  | [] => 1
  | x :: xs => xs.foldl (flMul rnd) x

/-- metrics.py:33 `np.prod(np.concatenate(norms), axis=0)`. -/
def flProdRows (rnd : ℝ → ℝ) (norms : List (NDArray ℝ)) : Py (NDArray ℝ) :=
  match norms with
  | [] => .error .valueError
  | n :: ns =>
    if ns.all fun m => m.shape = n.shape then
      .ok (ofFn [n.shape.getD 1 0] fun idx => flProd rnd ((n :: ns).map fun v => v.get [0, idx.getD 0 0]))
    else .error .valueError

/-- metrics.py:32-37, the weights of the components of one list of factors. -/
def flFmsWeights (rnd : ℝ → ℝ) (weightPenalty : Bool) (rank : ℕ) (norms : List (NDArray ℝ)) : Py (NDArray ℝ) :=
  if weightPenalty then flProdRows rnd norms else .ok (full [rank] 1)

/-- metrics.py:9-10 `weight_score(weight1, weight2)`, for non-negative weights; `0/0` is `nan`. -/
def flWeightScore (rnd : ℝ → ℝ) (w1 w2 : ℝ) : Option ℝ :=
  if max w1 w2 = 0 then none else some (rnd (|rnd (w1 - w2)| / max w1 w2))

/-- metrics.py:42-46, the loop over the modes for component `r`: from the score before it to the score after it. -/
inductive FlMatchModes (rnd : ℝ → ℝ) (nonnegative : Bool) (r : ℕ) :
    List (NDArray ℝ × NDArray ℝ) → Option ℝ → Option ℝ → Prop
  | nil (x : Option ℝ) : FlMatchModes rnd nonnegative r [] x x
  | cons {F G f g : NDArray ℝ} {l : List (NDArray ℝ × NDArray ℝ)} {d : ℝ} {x y : Option ℝ} :
      columnVec F r = .ok f → columnVec G r = .ok g → f.shape = g.shape →
      FlDot rnd (fun i => f.get [i]) (fun i => g.get [i]) (Finset.range (f.shape.getD 0 0)) d →
      FlMatchModes rnd nonnegative r l (x.map fun s => flMul rnd s (if nonnegative then |d| else d)) y →
      FlMatchModes rnd nonnegative r ((F, G) :: l) x y

/-- metrics.py:18-49 `_factor_match_score(true_factors, estimated_factors, weight_penalty, nonnegative)`. -/
def FlFactorMatchScores (rnd : ℝ → ℝ) (a b : List (NDArray ℝ)) (weightPenalty nonnegative : Bool) (eps : ℝ)
    (scores : List (Option ℝ)) : Prop :=
  ∃ a' b' rank an na bn nb wa wb, asColumns a = .ok a' ∧ asColumns b = .ok b' ∧ (pyGet a' 0 >>= cols) = .ok rank ∧
    FlNormalizeFactors rnd eps a' an na ∧ FlNormalizeFactors rnd eps b' bn nb ∧
    flFmsWeights rnd weightPenalty rank na = .ok wa ∧ flFmsWeights rnd weightPenalty rank nb = .ok wb ∧
    scores.length = rank ∧ ∀ r < rank, ∃ x y, itemVec wa r = .ok x ∧ itemVec wb r = .ok y ∧
      FlMatchModes rnd nonnegative r (an.zip bn) ((flWeightScore rnd x y).map fun s => rnd (1 - s)) (scores.getD r none)

/-- `np.min` and `np.mean` of a list: `nan` if an element is; the mean is the rounded sum divided by the length. -/
def FlReduce (rnd : ℝ → ℝ) (red : Reduction) (l : List (Option ℝ)) (o : Option ℝ) : Prop :=
  match red with
  | .min => reduceScores .min l = .ok o
  | .mean => (l = [] ∨ none ∈ l) ∧ o = none ∨ l ≠ [] ∧ ∃ (v : List ℝ) (s : ℝ), l = v.map some ∧
      FlSum rnd (fun i => v.getD i 0) (Finset.range v.length) s ∧ o = some (flDiv rnd s v.length)

/-- metrics.py:67-79, the search over the permutations for one pair of factor lists; `sc` are the scores of the permutations,
each computed once. -/
def FlFmsSearch (rnd : ℝ → ℝ) (a b : List (NDArray ℝ)) (weightPenalty : Bool) (red : Reduction) (rank estimated : ℕ)
    (eps : ℝ) (v : ℝ) (o : Option (List ℕ)) : Prop :=
  ∃ sc : List ℕ → Option ℝ, (∀ perm ∈ permutations rank (List.range estimated), ∃ pb scores,
      permuteFactors perm b = .ok pb ∧ FlFactorMatchScores rnd a pb weightPenalty true eps scores ∧
      FlReduce rnd red scores (sc perm)) ∧
    bestPerm (fun perm => .ok (sc perm)) (permutations rank (List.range estimated)) (-1, none) = .ok (v, o)

/-- metrics.py:51-79 `factor_match_score(true_factors, estimated_factors, weight_penalty, fms_reduction)`. -/
def FlFactorMatchScore (rnd : ℝ → ℝ) (a b : List (NDArray ℝ)) (weightPenalty : Bool) (reduction : String) (eps : ℝ)
    (v : ℝ) (o : Option (List ℕ)) : Prop :=
  ∃ red rank estimated, parseReduction reduction = .ok red ∧ (pyGet a 0 >>= cols) = .ok rank ∧
    (pyGet b 0 >>= cols) = .ok estimated ∧ FlFmsSearch rnd a b weightPenalty red rank estimated eps v o

end
end TK
