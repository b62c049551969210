import Verif.Model.CMTFScores
import Verif.Props.CoupledBound
import Verif.Props.Exact

/-!
# C161: the explained variance of coupled models

Source: base_decomposer.py:94-97, cmtf.py:26-44. `CMTF_ALS` inherits `explained_variance`, which divides the error of the tensor and of the
coupled matrices by the squared norm of the tensor alone.
-/

namespace TK
open NDArray Fit
open EStateM (Result)

noncomputable section

variable {X : NDArray ℝ} {Ys : List (NDArray ℝ)} {ms qs : List ℕ} {R : ℕ}

theorem matErr_eq_zero_iff {Y U V : NDArray ℝ} : matErr Y U V R = 0 ↔ ∀ a < Y.shape.getD 0 0, ∀ b < Y.shape.getD 1 0,
    Y.get [a, b] = ∑ r ∈ Finset.range R, U.get [a, r] * V.get [b, r] := by
  rw [matErr, Finset.sum_eq_zero_iff_of_nonneg fun _ _ => Finset.sum_nonneg fun _ _ => sq_nonneg _]
  refine forall_congr' fun a => ?_
  rw [Finset.mem_range]
  refine forall_congr' fun _ => ?_
  rw [Finset.sum_eq_zero_iff_of_nonneg fun _ _ => sq_nonneg _]
  refine forall_congr' fun b => ?_
  rw [Finset.mem_range, sq_eq_zero_iff, sub_eq_zero]

theorem trueLoss_eq_zero_iff {s : CMTFState} : s.trueLoss R ms = 0 ↔
    (∀ idx, Valid s.cp.X.shape idx → s.cp.X.get idx = cpEntry (fun r => s.cp.dec.weights.get [r]) s.cp.dec.factorMatrices R idx) ∧
    ∀ i < ms.length, ∀ a < (s.Ys.getD i noArr).shape.getD 0 0, ∀ b < (s.Ys.getD i noArr).shape.getD 1 0, (s.Ys.getD i noArr).get [a, b] =
      ∑ r ∈ Finset.range R, (s.cp.dec.factorMatrices.getD (ms.getD i 0) noArr).get [a, r] * (s.V.getD i noArr).get [b, r] := by
  rw [CMTFState.trueLoss, CPState.trueSSE, coupledErr, add_eq_zero_iff_of_nonneg
    (show 0 ≤ sqErr s.cp.X (fun r => s.cp.dec.weights.get [r]) s.cp.dec.factorMatrices R from sumIdx_nonneg fun _ _ => sq_nonneg _)
    (Finset.sum_nonneg fun i _ => show 0 ≤ coupledErrAt s.cp.dec.factorMatrices s.Ys s.V ms R i from matErr_nonneg _ _ _ _),
    sqErr_eq_zero_iff, Finset.sum_eq_zero_iff_of_nonneg fun i _ =>
      show 0 ≤ coupledErrAt s.cp.dec.factorMatrices s.Ys s.V ms R i from matErr_nonneg _ _ _ _]
  simp only [coupledErrAt, matErr_eq_zero_iff, Finset.mem_range]

theorem cmtf_explained {s : CMTFState} (h : s.Sized R ms qs) (hn : s.cp.XNorm = frobNorm X)
    (hX : 0 < sumIdx X.shape fun idx => X.get idx ^ 2) :
    CMTF.explainedVariance s = .ok (.fin (1 - s.trueLoss R ms / sumIdx X.shape fun idx => X.get idx ^ 2)) := by
  rw [CMTF.explainedVariance, cmtf_sse_ok h, bind_ok, hn, frobNorm_sq, (oneSub_div (trueLoss_nonneg _ _ _) hX).1]
  rfl

/-- The norm of the tensor after a fit. -/
theorem cmtf_fit_norm {E : Ext} (hE : E.SVDOk) (hN : E.NNLSOk) {c : CMTF.Config} {nonNeg orth : Option (List Bool)}
    (hA : CP.Admissible c.cp.opts nonNeg orth X.shape) (hnn : ∀ l, nonNeg = some l → l = List.replicate X.shape.length false)
    {modes : List Int} {t u : KruskalTensor} {s0 sk s' : CMTFState}
    (h0 : CMTF.Started c nonNeg orth X Ys modes ms qs t u s0) {k : ℕ} (hk : CMTF.iterate E c.cp.opts k s0 = .ok sk)
    (hs : CMTF.normalizeComponents sk = .ok s') : s'.cp.XNorm = frobNorm X := by
  rw [cmtf_orbit_iterate hE hN hA.rank k h0.sized (h0.cfg hA hnn)] at hk
  have h1 := (cmtf_orbit_good hE hN hA.rank h0.sized (h0.cfg hA hnn) k).2.2.1.XNorm
  rw [Except.ok.inj hk, h0.eqNorm] at h1
  rw [CMTF.normalizeComponents] at hs
  obtain ⟨Vs, -, hs⟩ := bind_eq_ok.1 hs
  obtain ⟨d, -, hs⟩ := bind_eq_ok.1 hs
  rw [← pure_eq_ok.1 hs]
  exact h1

/-- C161, the part that holds: after any fit of a non-zero tensor, `explained_variance` is `1 - (‖X - X̂‖² + Σ_i ‖Y_i - Ŷ_i‖²) / ‖X‖²`. It is at
most 1, and it is 1 exactly if the model reproduces the tensor and all coupled matrices. Missing: that it is not negative (false,
`C161_fails`). -/
theorem C161_value_partial {E : Ext} (hE : E.SVDOk) (hN : E.NNLSOk) (hQ : E.QROk) {c : CMTF.Config}
    {nonNeg orth : Option (List Bool)} (hA : CP.Admissible c.cp.opts nonNeg orth X.shape)
    (hnn : ∀ l, nonNeg = some l → l = List.replicate X.shape.length false)
    {modes : List Int} (hC : CMTF.Coupled X.shape Ys modes ms qs)
    (hlog : c.Measurable ms qs) (hfreq : freqOption c.cp.freq ≠ 0) {arg : InitArg KruskalTensor} {t : KruskalTensor}
    (hi : CP.StartsFrom E c.cp nonNeg orth arg X t) (ht : t.WF X.shape c.cp.opts.rank)
    (hX : 0 < sumIdx X.shape fun idx => X.get idx ^ 2)
    {budget : Int} {mi : Option Int} (hb : 0 < mi.getD budget) {loggers : List Logger} {file : Option H5File}
    (hS : Storing (CMTF.method E c) (CMTF.newObject nonNeg orth budget loggers file) []) :
    ∃ w' v, CMTF.fit E c X Ys modes mi arg (CMTF.newObject nonNeg orth budget loggers file) = .ok () w' ∧
      CMTF.explainedVariance w'.st = .ok (.fin v) ∧
      v = 1 - (sqErr X (fun r => w'.st.cp.dec.weights.get [r]) w'.st.cp.dec.factorMatrices c.cp.opts.rank +
        coupledErr w'.st.cp.dec.factorMatrices Ys w'.st.V ms c.cp.opts.rank) / (sumIdx X.shape fun idx => X.get idx ^ 2) ∧ v ≤ 1 ∧
      (v = 1 ↔ (∀ idx, Valid X.shape idx →
          X.get idx = cpEntry (fun r => w'.st.cp.dec.weights.get [r]) w'.st.cp.dec.factorMatrices c.cp.opts.rank idx) ∧
        ∀ i < ms.length, ∀ a < (Ys.getD i noArr).shape.getD 0 0, ∀ b < (Ys.getD i noArr).shape.getD 1 0, (Ys.getD i noArr).get [a, b] =
          ∑ r ∈ Finset.range c.cp.opts.rank, (w'.st.cp.dec.factorMatrices.getD (ms.getD i 0) noArr).get [a, r] *
            (w'.st.V.getD i noArr).get [b, r]) := by
  obtain ⟨u, s0, sk, w', k, h0, hfit, -, -, hk, hnorm, -, -, -, hsz, hXw, hYw, -⟩ := C83_fit_completes hE hN hQ hA hnn hC hlog hfreq hi ht hb hS
  have h1 := cmtf_explained hsz (cmtf_fit_norm hE hN hA hnn h0 hk hnorm) hX
  obtain ⟨-, h2, h3⟩ := oneSub_div (trueLoss_nonneg w'.st c.cp.opts.rank ms) hX
  refine ⟨w', _, hfit, h1, ?_, h2, h3.trans ?_⟩
  · rw [CMTFState.trueLoss, CPState.trueSSE, hXw, hYw]
  · rw [trueLoss_eq_zero_iff, hXw, hYw]

/-- C161, a lower bound: without constraints and penalties, with different coupling modes given as `0, 1, …` and a start whose components have
norm product one, the explained variance after every iteration (as seen by the loggers) is at least `-Σ_i ‖Y_i‖² / ‖X‖²`. The example of
`C159_cmtf` has a case of the hypotheses (there the bound is -50/4). -/
theorem C161_lower_partial {E : Ext} (hE : E.SVDOk) (hN : E.NNLSOk) (hQ : E.QROk) {c : CMTF.Config}
    (hA : CP.Admissible c.cp.opts none none X.shape) (hr : c.cp.opts.ridgePenalties = none)
    (hC : CMTF.Coupled X.shape Ys (ms.map fun m : ℕ => (m : Int)) ms qs) (hd : ms.Nodup)
    {arg : InitArg KruskalTensor} {t : KruskalTensor}
    (hi : CP.StartsFrom E c.cp none none arg X t) (ht : t.WF X.shape c.cp.opts.rank)
    (hone : ∀ r < c.cp.opts.rank, modeProd (fun F m => colLen F m r) t.factorMatrices X.shape = 1)
    (hX : 0 < sumIdx X.shape fun idx => X.get idx ^ 2) :
    ∃ u s0, CMTF.Started c none none X Ys (ms.map fun m : ℕ => (m : Int)) ms qs t u s0 ∧
      ∀ j, ∃ s v, CMTF.iterate E c.cp.opts (j + 1) s0 = .ok s ∧ CMTF.explainedVariance s = .ok (.fin v) ∧
        -(∑ i ∈ Finset.range ms.length, matNormSq (Ys.getD i noArr)) / (sumIdx X.shape fun idx => X.get idx ^ 2) ≤ v := by
  obtain ⟨u, s0, h0, -⟩ := cmtf_fit_unfold hQ hA hC hi ht
  have hcfg := h0.cfg hA (by simp)
  have hgood := cmtf_orbit_good hE hN hA.rank h0.sized hcfg
  obtain ⟨q1, q2, q3⟩ := cmtf_fit_sweeps hE hN hA hr hC h0
  refine ⟨u, s0, h0, fun j => ⟨_, _, cmtf_orbit_iterate hE hN hA.rank (j + 1) h0.sized hcfg,
    cmtf_explained (hgood (j + 1)).1 ((hgood (j + 1)).2.2.1.XNorm.trans h0.eqNorm) hX, ?_⟩⟩
  have hw : ∀ r < c.cp.opts.rank, (CMTF.orbit E c.cp.opts s0 (j + 1)).cp.dec.weights.get [r] = 1 := fun r hr => by
    rw [(hgood (j + 1)).2.2.1.weights, h0.startWeights hr, hone r hr]
  have h1 := (q1 j).le_zero (by have := hA.order; omega)
  rw [q3 j, filter_isFirst_of_nodup hd] at h1
  have h2 : (CMTF.orbit E c.cp.opts s0 (j + 1)).trueLoss c.cp.opts.rank ms =
      coupledLoss X Ys ms c.cp.opts.rank (CMTF.orbit E c.cp.opts s0 (j + 1)).mats.1 (CMTF.orbit E c.cp.opts s0 (j + 1)).mats.2 := by
    rw [← fitLoss_eq_trueLoss hw hd, CMTFState.fitLoss, (hgood (j + 1)).2.2.1.X, (hgood (j + 1)).2.2.1.Ys, h0.eqX, h0.eqYs]
    rfl
  rw [h2]
  have h3 := div_le_div_of_nonneg_right h1 hX.le
  rw [add_div, div_self hX.ne'] at h3
  rw [neg_div]
  linarith

/-! ## C161 fails -/

/-- One component explains at most half of ten times the identity. -/
theorem ten_eye_err (U V : NDArray ℝ) : 100 ≤ matErr (ofMat 2 2 fun i j => if i = j then 10 else 0) U V 1 := by
  have e : ∀ i < 2, ∀ j < 2, (ofMat 2 2 fun i j => if i = j then (10 : ℝ) else 0).get [i, j] = if i = j then 10 else 0 :=
    fun i hi j hj => get_ofMat hi hj
  show 100 ≤ ∑ i ∈ Finset.range 2, ∑ j ∈ Finset.range 2, _
  simp only [Finset.sum_range_succ, Finset.sum_range_zero, zero_add]
  rw [e 0 (by norm_num) 0 (by norm_num), e 0 (by norm_num) 1 (by norm_num), e 1 (by norm_num) 0 (by norm_num),
    e 1 (by norm_num) 1 (by norm_num)]
  norm_num
  nlinarith [sq_nonneg (U.get [0, 0] * V.get [0, 0] + U.get [1, 0] * V.get [1, 0] - 10),
    sq_nonneg (U.get [0, 0] * V.get [1, 0] - U.get [1, 0] * V.get [0, 0])]

/-- **C161, refuted**: the 2 × 2 tensor of ones, which one component describes exactly, with ten times the identity coupled to its first mode.
Whatever the start, the options of the constructor and the number of iterations, `explained_variance` of the fit with one component is
at most -24. -/
theorem C161_fails {E : Ext} (hE : E.SVDOk) (hN : E.NNLSOk) (hQ : E.QROk) {c : CMTF.Config} (hR : c.cp.opts.rank = 1)
    (hA : CP.Admissible c.cp.opts none none [2, 2]) (hlog : c.Measurable [0] [2]) (hfreq : freqOption c.cp.freq ≠ 0)
    {arg : InitArg KruskalTensor} {t : KruskalTensor}
    (hi : CP.StartsFrom E c.cp none none arg (full [2, 2] 1) t) (ht : t.WF [2, 2] c.cp.opts.rank)
    {budget : Int} {mi : Option Int} (hb : 0 < mi.getD budget) {loggers : List Logger} {file : Option H5File}
    (hS : Storing (CMTF.method E c) (CMTF.newObject none none budget loggers file) []) :
    (∃ A B : NDArray ℝ, sqErr (full [2, 2] 1) (fun _ => 1) [A, B] 1 = 0) ∧
    ∃ w' v, CMTF.fit E c (full [2, 2] 1) [ofMat 2 2 fun i j => if i = j then 10 else 0] [0] mi arg
        (CMTF.newObject none none budget loggers file) = .ok () w' ∧ CMTF.explainedVariance w'.st = .ok (.fin v) ∧ v ≤ -24 := by
  have hx : (sumIdx (full [2, 2] (1 : ℝ)).shape fun idx => (full [2, 2] (1 : ℝ)).get idx ^ 2) = 4 := by
    rw [show (full [2, 2] (1 : ℝ)).shape = [2, 2] from rfl, sumIdx_two]
    simp only [Finset.sum_range_succ, Finset.sum_range_zero, zero_add]
    rw [get_full (by simp [Valid]), get_full (by simp [Valid]), get_full (by simp [Valid]), get_full (by simp [Valid])]
    norm_num
  refine ⟨⟨full [2, 1] 1, full [2, 1] 1, sqErr_eq_zero_iff.2 fun idx hidx => ?_⟩, ?_⟩
  · match idx, hidx with
    | [i, j], hv =>
      rw [get_full (show Valid [2, 2] [i, j] from hv), cpEntry, Finset.sum_range_one]
      simp only [rankOne]
      rw [get_full (show Valid [2, 1] [i, 0] from ⟨hv.1, Nat.one_pos, trivial⟩),
        get_full (show Valid [2, 1] [j, 0] from ⟨hv.2.1, Nat.one_pos, trivial⟩)]
      norm_num
  obtain ⟨w', v, h1, h2, h3, -⟩ := C161_value_partial hE hN hQ (X := full [2, 2] 1) (Ys := [ofMat 2 2 fun i j => if i = j then 10 else 0])
    (modes := [0]) (ms := [0]) (qs := [2]) hA (by simp) ⟨.cons (isMode_nat (by norm_num)) .nil, rfl, by simp⟩ hlog hfreq hi ht
    (by rw [hx]; norm_num) hb hS
  refine ⟨w', v, h1, h2, ?_⟩
  rw [h3, hx, hR]
  have h4 : (100 : ℝ) ≤ coupledErr w'.st.cp.dec.factorMatrices [ofMat 2 2 fun i j => if i = j then 10 else 0] w'.st.V [0] 1 := by
    show (100 : ℝ) ≤ ∑ i ∈ Finset.range 1, _
    rw [Finset.sum_range_one]
    exact ten_eye_err _ _
  have h5 : 0 ≤ sqErr (full [2, 2] (1 : ℝ)) (fun r => w'.st.cp.dec.weights.get [r]) w'.st.cp.dec.factorMatrices 1 :=
    sumIdx_nonneg fun _ _ => sq_nonneg _
  linarith

/-- The hypotheses of `C161_fails`, for a given start and a budget of 10. -/
example (E : Ext) : CP.Admissible c82.cp.opts none none [2, 2] ∧ c82.Measurable [0] [2] ∧ freqOption c82.cp.freq ≠ 0 ∧
    CP.StartsFrom E c82.cp none none (.tensor ⟨1, [full [2, 1] 1, full [2, 1] 3], full [1] 1⟩) (full [2, 2] 1)
      ⟨1, [full [2, 1] 1, full [2, 1] 3], full [1] 1⟩ ∧
    KruskalTensor.WF ⟨1, [full [2, 1] 1, full [2, 1] 3], full [1] 1⟩ [2, 2] c82.cp.opts.rank ∧
    Storing (CMTF.method E c82) (CMTF.newObject none none 10 [] none) [] := by
  have ht : KruskalTensor.WF ⟨1, [full [2, 1] 1, full [2, 1] 3], full [1] 1⟩ (full [2, 2] (1 : ℝ)).shape c82.cp.opts.rank :=
    ⟨rfl, .cons rfl (.cons rfl .nil), rfl⟩
  refine ⟨⟨by simp [c82], by simp, by simp, by simp, by simp, by simp [c82], by simp, by simp⟩, fun p hp => by simp [c82] at hp, by decide,
    startsFrom_precomputed ?_ ht, ht,
    ⟨fun h => absurd h (show ¬ (0 : Int) < -1 by decide), fun h => absurd h (show ¬ (0 : Int) < -1 by decide),
      fun h => absurd h (show ¬ (0 : Int) < -1 by decide)⟩⟩
  show "precomputed".toLower = _
  rw [String.toLower, ← String.toList_inj, String.toList_map]; decide

end

end TK
