import Verif.Model.Rounded
import Verif.Model.Parafac2
import Verif.Model.CMTF
import Verif.Model.Scores

/-!
# Evaluation with rounding: the errors of PARAFAC2 and coupled models

As in `Verif/Model/Rounded.lean`, every operation is rounded and sums are formed in any order.
-/

namespace TK
open NDArray

noncomputable section

/-- `SSE += term` in a loop over two zipped lists (parafac2.py:220-223, cmtf.py:35-39), starting with `e`; `term X Y q` says
that `q` is a value of the term for one pair. -/
inductive FlAccum (rnd : ℝ → ℝ) (term : NDArray ℝ → NDArray ℝ → ℝ → Prop) :
    List (NDArray ℝ) → List (NDArray ℝ) → ℝ → ℝ → Prop
  | cons {X Y : NDArray ℝ} {Xs Ys : List (NDArray ℝ)} {e q v : ℝ} : term X Y q →
      FlAccum rnd term Xs Ys (rnd (e + q)) v → FlAccum rnd term (X :: Xs) (Y :: Ys) e v
  | nilLeft (Ys : List (NDArray ℝ)) (e : ℝ) : FlAccum rnd term [] Ys e e
  | nilRight (X : NDArray ℝ) (Xs : List (NDArray ℝ)) (e : ℝ) : FlAccum rnd term (X :: Xs) [] e e

/-- parafac2.py:222 `np.sum((X_k - reconstructed_X_k)**2)`. -/
def FlSumSq (rnd : ℝ → ℝ) (X Y : NDArray ℝ) (q : ℝ) : Prop :=
  ∃ D, zipB (fun x y => rnd (x - y)) X Y = .ok D ∧
    FlSum rnd (fun p => flMul rnd (D.flat p) (D.flat p)) (Finset.range D.shape.prod) q

/-- cmtf.py:38, 44 `np.linalg.norm(Y - reconstructed_Y)**2`. -/
def FlNormSq (rnd : ℝ → ℝ) (Y Z : NDArray ℝ) (q : ℝ) : Prop :=
  ∃ D n, zipB (fun x y => rnd (x - y)) Y Z = .ok D ∧ FlNorm rnd D n ∧ q = flMul rnd n n

/-- decompositions.py:503-508 `B[k]`, for all `k`. -/
def FlBs (rnd : ℝ → ℝ) (blueprint : NDArray ℝ) (P B : List (NDArray ℝ)) : Prop :=
  List.Forall₂ (fun Pk Bk => FlMatmul rnd Pk blueprint Bk) P B

/-- decompositions.py:394-400 `construct_slice(k)`. -/
def FlSlice (rnd : ℝ → ℝ) (A Bk C : NDArray ℝ) (k : ℕ) (Y : NDArray ℝ) : Prop :=
  ∃ c scores, takeRow C k = .ok c ∧ zipB (flMul rnd) c Bk = .ok scores ∧ FlMatmul rnd A scores.T Y

/-- decompositions.py:385-392 `construct_slices()`, starting at slice `k`. -/
inductive FlSlices (rnd : ℝ → ℝ) (A C : NDArray ℝ) : ℕ → List (NDArray ℝ) → List (NDArray ℝ) → Prop
  | nil (k : ℕ) : FlSlices rnd A C k [] []
  | cons {k : ℕ} {Bk Y : NDArray ℝ} {Bs Ys : List (NDArray ℝ)} : FlSlice rnd A Bk C k Y →
      FlSlices rnd A C (k + 1) Bs Ys → FlSlices rnd A C k (Bk :: Bs) (Y :: Ys)

/-- parafac2.py:218-223, 229-231 `SSE`. -/
def FlP2SSE (rnd : ℝ → ℝ) (s : P2State) (v : ℝ) : Prop :=
  ∃ B Y, FlBs rnd (s.dec.read s.heap).blueprint (s.dec.read s.heap).P B ∧
    FlSlices rnd (s.dec.read s.heap).A (s.dec.read s.heap).C 0 B Y ∧ FlAccum rnd (FlSumSq rnd) s.X Y 0 v

/-- cmtf.py:25-31 `reconstructed_coupled_matrices` (`zip` stops at the shortest list). -/
inductive FlReconstruct (rnd : ℝ → ℝ) :
    List (NDArray ℝ) → List (NDArray ℝ) → List (NDArray ℝ) → List (NDArray ℝ) → Prop
  | cons {U V w Z : NDArray ℝ} {Us Vs ws Zs : List (NDArray ℝ)} : FlMatmul rnd U V.T Z →
      FlReconstruct rnd Us Vs ws Zs → FlReconstruct rnd (U :: Us) (V :: Vs) (w :: ws) (Z :: Zs)
  | stop {Us Vs ws : List (NDArray ℝ)} : Us = [] ∨ Vs = [] ∨ ws = [] → FlReconstruct rnd Us Vs ws []

/-- cmtf.py:40-44 `SSE`. -/
def FlCMTFSSE (rnd : ℝ → ℝ) (s : CMTFState) (v : ℝ) : Prop :=
  ∃ Y q Us Z e, FlConstruct rnd s.cp.dec Y ∧ FlNormSq rnd s.cp.X Y q ∧ CMTF.coupledFactors s = .ok Us ∧
    FlReconstruct rnd Us s.V s.coupledWeights Z ∧ FlAccum rnd (FlNormSq rnd) s.Ys Z 0 e ∧ v = rnd (q + e)

/-- base_decomposer.py:94-97 `explained_variance`, for the error `v` and the norm `n` of the data. -/
def flExplained (rnd : ℝ → ℝ) (v n : ℝ) : ℝ := rnd (1 - rnd (v / flMul rnd n n))

/-- The rounding of a finite result; infinities and `nan` stay. -/
def FV.round (rnd : ℝ → ℝ) : FV → FV
  | .fin x => .fin (rnd x)
  | .pinf => .pinf
  | .ninf => .ninf
  | .nan => .nan

/-- base_decomposer.py:105-115 `MSE` and `RMSE` of a `CP_ALS` object. -/
def FlRMSE (rnd : ℝ → ℝ) (s : CPState) (w : FV) : Prop :=
  ∃ v, FlSSE rnd s v ∧ w = FV.round rnd (FV.sqrt (FV.round rnd (FV.div v s.X.shape.prod)))

end
end TK
