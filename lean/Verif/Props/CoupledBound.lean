import Verif.Props.CoupledStationary
import Verif.Props.IterationBound
import Verif.Props.StoppingMore

/-!
# C159 for `CMTF_ALS`

Source: cmtf.py:146-187, cp.py:408-426. After one iteration the coupled error is at most that of the zero model, from any start.
-/

namespace TK
open NDArray Fit
open EStateM (Result)

noncomputable section

variable {X : NDArray ℝ} {Ys : List (NDArray ℝ)} {ms : List ℕ} {R : ℕ} {g : ℕ → List (NDArray ℝ) × List (NDArray ℝ)}

/-- Spec: the sum of the squares of the entries of a matrix. -/
def matNormSq (Y : NDArray ℝ) : ℝ := ∑ i ∈ Finset.range (Y.shape.getD 0 0), ∑ j ∈ Finset.range (Y.shape.getD 1 0), Y.get [i, j] ^ 2

theorem matErr_zero {Y U V : NDArray ℝ} (h : (∀ i < Y.shape.getD 0 0, ∀ r < R, U.get [i, r] = 0) ∨
    ∀ j < Y.shape.getD 1 0, ∀ r < R, V.get [j, r] = 0) : matErr Y U V R = matNormSq Y := by
  refine Finset.sum_congr rfl fun i hi => Finset.sum_congr rfl fun j hj => ?_
  rw [Finset.sum_eq_zero, sub_zero]
  intro r hr
  rw [Finset.mem_range] at hi hj hr
  rcases h with h | h
  · rw [h i hi r hr, zero_mul]
  · rw [h j hj r hr, mul_zero]

/-- After a sweep the coupled error is at most that of the zero model. -/
theorem CoupledSweep.le_zero (h : CoupledSweep X Ys ms R g) (h0 : 0 < X.shape.length) :
    coupledLoss X Ys ms R (g (X.shape.length + 1)).1 (g (X.shape.length + 1)).2 ≤
      (sumIdx X.shape fun idx => X.get idx ^ 2) + ∑ i ∈ (Finset.range ms.length).filter (IsFirst ms), matNormSq (Ys.getD i noArr) := by
  obtain ⟨n, hn⟩ : ∃ n, X.shape.length = n + 1 := ⟨X.shape.length - 1, by omega⟩
  have hm : n < X.shape.length := by omega
  obtain ⟨F, e, opt⟩ := h.step n hm
  set Z : NDArray ℝ := ofMat (X.shape.getD n 0) R fun _ _ => 0 with hZ
  have hlen := h.len n hm.le
  have h1 := opt Z rfl
  rw [coupledLoss, coupledLoss, sqErr_set_zero hlen hm] at h1
  have hlast := h.last
  have hbest := h.best
  rw [hn] at hlast hbest ⊢
  rw [coupledLoss, hlast]
  -- the errors of the matrices, one by one
  have key : ∀ i ∈ (Finset.range ms.length).filter (IsFirst ms),
      coupledErrAt (g (n + 1)).1 Ys (g (n + 1 + 1)).2 ms R i - coupledErrAt (g (n + 1)).1 Ys (g (n + 1)).2 ms R i
        ≤ matNormSq (Ys.getD i noArr) - coupledErrAt ((g n).1.set n Z) Ys (g n).2 ms R i := by
    intro i hi
    simp only [Finset.mem_filter, Finset.mem_range] at hi
    by_cases hin : ms.getD i 0 = n
    · have e1 : coupledErrAt ((g n).1.set n Z) Ys (g n).2 ms R i = matNormSq (Ys.getD i noArr) := by
        rw [coupledErrAt]
        refine matErr_zero (Or.inl fun a ha r hr => ?_)
        rw [hin, getD_of_lt (by rw [List.length_set, hlen]; exact hm), List.getElem_set_self, hZ]
        refine get_ofMat ?_ hr
        have := (h.rows i hi.1).2
        rw [hin] at this
        rw [← this]; exact ha
      rw [e1]
      have := hbest i hi.1 hi.2 ((g (n + 1)).2.getD i noArr)
      rw [coupledErrAt, coupledErrAt]
      linarith
    · have e1 : coupledErrAt ((g n).1.set n Z) Ys (g n).2 ms R i = coupledErrAt (g (n + 1)).1 Ys (g (n + 1)).2 ms R i := by
        rw [e]
        show matErr _ (((g n).1.set n Z).getD (ms.getD i 0) noArr) _ R = matErr _ (((g n).1.set n F).getD (ms.getD i 0) noArr) _ R
        have hne : ∀ W : NDArray ℝ, ((g n).1.set n W).getD (ms.getD i 0) noArr = (g n).1.getD (ms.getD i 0) noArr := fun W => by
          generalize ms.getD i 0 = k at hin
          simp only [List.getD, List.getElem?_set_ne (Ne.symm hin)]
        rw [hne, hne]
      rw [e1]
      have := hbest i hi.1 hi.2 (ofMat ((Ys.getD i noArr).shape.getD 1 0) R fun _ _ => 0)
      rw [matErr_zero (V := ofMat _ R fun _ _ => 0) (Or.inr fun j hj r hr => get_ofMat hj hr)] at this
      rw [coupledErrAt]
      linarith
  have := Finset.sum_le_sum key
  rw [Finset.sum_sub_distrib, Finset.sum_sub_distrib] at this
  simp only [firstErr] at h1 ⊢
  linarith

theorem filter_isFirst_of_nodup (hd : ms.Nodup) : (Finset.range ms.length).filter (IsFirst ms) = Finset.range ms.length := by
  refine Finset.filter_true_of_mem fun i hi j hj => ?_
  rw [Finset.mem_range] at hi
  rw [getD_of_lt (by omega), getD_of_lt hi]
  exact fun h => absurd ((List.Nodup.getElem_inj_iff hd).1 h) (by omega)

/-- **C159** for `CMTF_ALS` without constraints and penalties, with different coupling modes given as `0, 1, …`: if
`(1 - convergence_tol)^N · (‖X‖² + Σ_i ‖Y_i‖²) < rel_loss_tol · ‖X‖²`, then a fit makes at most `N + 1` iterations, from every start whose
components have norm product one, whatever `max_its` is. For other starts the updates need not lower the error (`C82_fit_gets_worse`). -/
theorem C159_cmtf {E : Ext} (hE : E.SVDOk) (hN : E.NNLSOk) (hQ : E.QROk) {c : CMTF.Config}
    (hA : CP.Admissible c.cp.opts none none X.shape) (hr : c.cp.opts.ridgePenalties = none)
    {qs : List ℕ} (hC : CMTF.Coupled X.shape Ys (ms.map fun m : ℕ => (m : Int)) ms qs) (hd : ms.Nodup)
    (hlog : c.Measurable ms qs) (hfreq : freqOption c.cp.freq ≠ 0) {arg : InitArg KruskalTensor} {t : KruskalTensor}
    (hi : CP.StartsFrom E c.cp none none arg X t) (ht : t.WF X.shape c.cp.opts.rank)
    (hone : ∀ r < c.cp.opts.rank, modeProd (fun F m => colLen F m r) t.factorMatrices X.shape = 1)
    (hrel : 0 < c.cp.opts.relLossTol) (hX : 0 < sumIdx X.shape fun idx => X.get idx ^ 2) {N : ℕ}
    (hbound : max 0 (1 - c.cp.opts.convergenceTol) ^ N * ((sumIdx X.shape fun idx => X.get idx ^ 2) +
        ∑ i ∈ Finset.range ms.length, matNormSq (Ys.getD i noArr)) < c.cp.opts.relLossTol * (sumIdx X.shape fun idx => X.get idx ^ 2))
    {budget : Int} {mi : Option Int} (hb : 0 < mi.getD budget) {loggers : List Logger} {file : Option H5File}
    (hS : Storing (CMTF.method E c) (CMTF.newObject none none budget loggers file) []) :
    ∃ w', CMTF.fit E c X Ys (ms.map fun m : ℕ => (m : Int)) mi arg (CMTF.newObject none none budget loggers file) = .ok () w' ∧
      w'.it ≤ N + 1 ∧ ((N : Int) + 1 < mi.getD budget → ∃ sk, CMTF.normalizeComponents sk = .ok w'.st ∧
        CMTF.shouldStop c.cp.opts sk = .ok true) := by
  obtain ⟨u, s0, h0, hfit⟩ := cmtf_fit_unfold hQ hA hC hi ht
  obtain ⟨sk, w', k, e, hk1, hit, -, hnorm, hgo, hstop, -⟩ := cmtf_completes hE hN hA (by simp) hlog hfreq h0 hfit hb hS
  have hcfg := h0.cfg hA (by simp)
  have hfree := h0.free hA (by simp) hr rfl
  have hw : ∀ r < c.cp.opts.rank, s0.cp.dec.weights.get [r] = 1 := fun r hr => by rw [h0.startWeights hr, hone r hr]
  have hgood := cmtf_orbit_good hE hN hA.rank h0.sized hcfg
  obtain ⟨q1, q2, q3⟩ := cmtf_fit_sweeps hE hN hA hr hC h0
  set L := fun j => (CMTF.orbit E c.cp.opts s0 j).trueLoss c.cp.opts.rank ms with hL
  have hwj : ∀ j, ∀ r < c.cp.opts.rank, (CMTF.orbit E c.cp.opts s0 j).cp.dec.weights.get [r] = 1 := by
    intro j
    rw [(hgood j).2.2.1.weights]; exact hw
  have hfirst : L 1 ≤ (sumIdx X.shape fun idx => X.get idx ^ 2) + ∑ i ∈ Finset.range ms.length, matNormSq (Ys.getD i noArr) := by
    have h1 := (q1 0).le_zero (by have := hA.order; omega)
    rw [q3 0, filter_isFirst_of_nodup hd] at h1
    have h2 : L 1 = (CMTF.orbit E c.cp.opts s0 1).fitLoss c.cp.opts.rank ms := (fitLoss_eq_trueLoss (hwj 1) hd).symm
    rw [h2, CMTFState.fitLoss, (hgood 1).2.2.1.X, (hgood 1).2.2.1.Ys, h0.eqX, h0.eqYs]
    exact h1
  have hstep : ∀ j, L (j + 1) ≤ L j ∧ (CMTF.orbit E c.cp.opts s0 (j + 1)).cp.prevSSE = L (j + 1) ∧
      (CMTF.orbit E c.cp.opts s0 (j + 1)).cp.relChange
        = FV.div ((CMTF.orbit E c.cp.opts s0 j).cp.prevSSE - L (j + 1)) (CMTF.orbit E c.cp.opts s0 j).cp.prevSSE := by
    intro j
    obtain ⟨g1, g2, g3, g4, -⟩ := hgood j
    obtain ⟨s', e, h1, h2, -, h4, h5, -, -, h6⟩ := cmtf_iteration_ok hE hN hA.rank g1 g2
    rw [g4] at e
    obtain rfl : CMTF.orbit E c.cp.opts s0 (j + 1) = s' := Except.ok.inj e
    refine ⟨?_, h4, h5⟩
    have := h6 (hfree.sameProblem g3)
    rwa [fitLoss_eq_trueLoss (hwj j) hd, fitLoss_eq_trueLoss (hwj (j + 1)) hd] at this
  have hkN : k ≤ N + 1 := by
    by_contra hlt
    rw [not_le] at hlt
    have hns : ∀ j < k, (CMTF.orbit E c.cp.opts s0 j).cp.relChange.absLt c.cp.opts.convergenceTol = false ∧
        c.cp.opts.relLossTol * (sumIdx X.shape fun idx => X.get idx ^ 2) ≤ L j := by
      intro j hj
      obtain ⟨s, e1, e2⟩ := hgo j hj
      rw [cmtf_orbit_iterate hE hN hA.rank j h0.sized hcfg] at e1
      obtain rfl : CMTF.orbit E c.cp.opts s0 j = s := Except.ok.inj e1
      rw [CMTF.shouldStop, cmtf_sse_ok (hgood j).1, bind_ok] at e2
      obtain ⟨a, b⟩ := Bool.or_eq_false_iff.1 (Except.ok.inj e2)
      refine ⟨a, ?_⟩
      have hn : (CMTF.orbit E c.cp.opts s0 j).cp.XNorm ^ 2 = sumIdx X.shape fun idx => X.get idx ^ 2 := by
        rw [(hgood j).2.2.1.XNorm, h0.eqNorm, frobNorm_sq]
      rw [hn] at b
      exact div_lt_false hX b
    have hg := geometric_decrease (L := fun j => L (j + 1)) (tol := c.cp.opts.convergenceTol)
      (fun j => trueLoss_nonneg _ _ _) (N := N) (fun j _ => (hstep (j + 1)).1) (fun j hj => by
        have := (hns (j + 1 + 1) (by omega)).1
        rwa [(hstep (j + 1)).2.2, (hstep j).2.1] at this)
    have h1 := (hns (N + 1) hlt).2
    have h4 := mul_le_mul_of_nonneg_left hfirst (pow_nonneg (le_max_left 0 (1 - c.cp.opts.convergenceTol)) N)
    simp only [Nat.zero_add] at hg
    linarith
  exact ⟨w', e, by rw [hit]; exact_mod_cast hkN, fun hlt => ⟨sk, hnorm, hstop (by omega)⟩⟩

/-- Tolerances `1/2` and `1/10`, the 1 × 1 tensor 2 coupled to the matrix (5, 5): at most 9 iterations. -/
example {E : Ext} (hE : E.SVDOk) (hN : E.NNLSOk) (hQ : E.QROk) :
    ∃ w', CMTF.fit E ⟨⟨⟨1, 1 / 2, 1 / 10, none⟩, "precomputed", none, false, [], fun _ _ _ _ => 0, id, fun _ => none⟩,
          [("SSE".toList, CMTF.sse)], fun _ _ _ => 1, fun _ _ _ => 1⟩ (full [1, 1] 2) [full [1, 2] 5] [0] none
          (.tensor ⟨1, [full [1, 1] 1, full [1, 1] 1], full [1] 1⟩) (CMTF.newObject none none 1000 [{}] none) = .ok () w' ∧
        w'.it ≤ 9 := by
  have ht : (⟨1, [full [1, 1] 1, full [1, 1] 1], full [1] 1⟩ : KruskalTensor).WF [1, 1] 1 := ⟨rfl, .cons rfl (.cons rfl .nil), rfl⟩
  have hg : (full [1, 1] (1 : ℝ)).get [0, 0] = 1 := get_full (by simp [Valid])
  have hx : (sumIdx (full [1, 1] (2 : ℝ)).shape fun idx => (full [1, 1] (2 : ℝ)).get idx ^ 2) = 4 := by
    rw [show (full [1, 1] (2 : ℝ)).shape = [1, 1] from rfl, sumIdx_two, Finset.sum_range_one, Finset.sum_range_one,
      get_full (by simp [Valid])]
    norm_num
  have hy : matNormSq (full [1, 2] (5 : ℝ)) = 50 := by
    show ∑ i ∈ Finset.range 1, ∑ j ∈ Finset.range 2, (full [1, 2] (5 : ℝ)).get [i, j] ^ 2 = 50
    rw [Finset.sum_range_one, Finset.sum_range_succ, Finset.sum_range_one, get_full (by simp [Valid]), get_full (by simp [Valid])]
    norm_num
  have hA : CP.Admissible (⟨1, 1 / 2, 1 / 10, none⟩ : CPOpts) none none (full [1, 1] (2 : ℝ)).shape :=
    ⟨by norm_num, by simp, by simp, by simp, by simp, by simp, by simp, by simp⟩
  obtain ⟨w', h1, h2, -⟩ := C159_cmtf hE hN hQ (c := ⟨⟨⟨1, 1 / 2, 1 / 10, none⟩, "precomputed", none, false, [], fun _ _ _ _ => 0, id,
      fun _ => none⟩, [("SSE".toList, CMTF.sse)], fun _ _ _ => 1, fun _ _ _ => 1⟩) (X := full [1, 1] 2) hA rfl (Ys := [full [1, 2] 5])
    (ms := [0]) (qs := [2]) ⟨.cons (isMode_nat (by norm_num)) .nil, rfl, by simp⟩ (by simp)
    (fun p hp s hs => by
      simp only [List.mem_singleton] at hp
      subst hp
      exact cmtf_measurable_sse s hs) (by decide)
    (arg := .tensor ⟨1, [full [1, 1] 1, full [1, 1] 1], full [1] 1⟩) (t := ⟨1, [full [1, 1] 1, full [1, 1] 1], full [1] 1⟩)
    (startsFrom_precomputed (by
      show "precomputed".toLower = _
      rw [String.toLower, ← String.toList_inj, String.toList_map]; decide) ht) ht
    (by
      intro r hr
      obtain rfl : r = 0 := by simpa using hr
      simp [modeProd, colLen, hg]) (by norm_num) (by rw [hx]; norm_num) (N := 8)
    (by
      rw [hx, show ([0] : List ℕ).length = 1 from rfl, Finset.sum_range_one, show ([full [1, 2] (5 : ℝ)].getD 0 noArr) = full [1, 2] 5 from rfl, hy,
        max_eq_right (by norm_num)]
      norm_num) (budget := 1000) (mi := none) (loggers := [{}]) (file := none) (by decide)
    ⟨fun h => absurd h (show ¬ (0 : Int) < -1 by decide), fun h => absurd h (show ¬ (0 : Int) < -1 by decide),
      fun h => absurd h (show ¬ (0 : Int) < -1 by decide)⟩
  exact ⟨w', h1, h2⟩

end

end TK
