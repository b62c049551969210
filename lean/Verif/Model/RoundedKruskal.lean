import Verif.Model.RoundedMetrics
import Verif.Model.Kruskal

/-!
# Normalising a Kruskal tensor with rounding

`normalize_components` of `Verif/Model/Kruskal.lean`, with every arithmetic operation rounded by `rnd` and sums in any order,
as in `Verif/Model/Rounded.lean`.
-/

namespace TK
open NDArray

noncomputable section

/-- decompositions.py:154-158, one pass of the loop of `normalize_components`: from the factor matrix `F` and the weights `w`
to the factor matrix `G` and the weights `w'`. -/
def FlNormalizeStep (rnd : ℝ → ℝ) (updateWeights : Bool) (eps : ℝ) (F w G w' : NDArray ℝ) : Prop :=
  ∃ norms, FlColNorms rnd F norms ∧
    zipB (flDiv rnd) F ((newaxis0 norms).map fun x => flAdd rnd x eps) = .ok G ∧
    (if updateWeights then zipB (flMul rnd) w norms else .ok w) = .ok w'

/-- decompositions.py:154-158, the loop of `normalize_components` over the factor matrices. -/
inductive FlNormalizeLoop (rnd : ℝ → ℝ) (updateWeights : Bool) (eps : ℝ) :
    List (NDArray ℝ) → NDArray ℝ → List (NDArray ℝ) → NDArray ℝ → Prop
  | nil (w : NDArray ℝ) : FlNormalizeLoop rnd updateWeights eps [] w [] w
  | cons {F G w w' w'' : NDArray ℝ} {fs gs : List (NDArray ℝ)} : FlNormalizeStep rnd updateWeights eps F w G w' →
      FlNormalizeLoop rnd updateWeights eps fs w' gs w'' → FlNormalizeLoop rnd updateWeights eps (F :: fs) w (G :: gs) w''

/-- decompositions.py:145-160 `normalize_components(update_weights, eps)`: from the tensor `t` to the tensor `t'`. -/
def FlNormalizeComponents (rnd : ℝ → ℝ) (updateWeights : Bool) (eps : ℝ) (t t' : KruskalTensor) : Prop :=
  t'.rank = t.rank ∧ FlNormalizeLoop rnd updateWeights eps t.factorMatrices t.weights t'.factorMatrices t'.weights

end
end TK
