import Verif.Props.Continuity
import Verif.Props.Degenerate
import Verif.Props.Symmetry
import Verif.Props.Tolerances
import Mathlib.Analysis.Real.Cardinality

/-!
# C157 for fits with tolerances

Source: cp.py:408-426 (the stopping tests). If no stopping test of the limiting fit is decided by equality, the fits of nearby data stop
after the same number of iterations.
-/

namespace TK
open NDArray Fit Filter Topology
open EStateM (Result)

noncomputable section

variable {E : Ext} {c : CP.Config} {X : NDArray ℝ} {Xs : ℕ → NDArray ℝ} {t : KruskalTensor} {ts : ℕ → KruskalTensor}
  {arg : InitArg KruskalTensor} {args : ℕ → InitArg KruskalTensor} {budget : Int} {loggers : List Logger} {file : Option H5File}

theorem div_lt_eventually {a b : ℕ → ℝ} {x y s : ℝ} (ha : Tendsto a atTop (𝓝 x)) (hb : Tendsto b atTop (𝓝 y)) (hy : 0 < y)
    (hs : x / y ≠ s) : ∀ᶠ n in atTop, (FV.div (a n) (b n)).lt s = (FV.div x y).lt s := by
  have hd := ha.div hb hy.ne'
  have hpos : ∀ᶠ n in atTop, 0 < b n := hb.eventually_const_lt hy
  rw [FV.div, if_pos hy.ne']
  rcases lt_or_gt_of_ne hs with h | h
  · filter_upwards [hpos, hd.eventually_lt_const h] with n h1 h2
    rw [FV.div, if_pos h1.ne']
    exact (decide_eq_true h2).trans (decide_eq_true h).symm
  · filter_upwards [hpos, hd.eventually_const_lt h] with n h1 h2
    rw [FV.div, if_pos h1.ne']
    exact (decide_eq_false (not_lt.2 h2.le)).trans (decide_eq_false (not_lt.2 h.le)).symm

theorem div_absLt_eventually {a b : ℕ → ℝ} {x y s : ℝ} (ha : Tendsto a atTop (𝓝 x)) (hb : Tendsto b atTop (𝓝 y)) (hy : 0 < y)
    (hs : |x / y| ≠ s) : ∀ᶠ n in atTop, (FV.div (a n) (b n)).absLt s = (FV.div x y).absLt s := by
  have hd := (ha.div hb hy.ne').abs
  have hpos : ∀ᶠ n in atTop, 0 < b n := hb.eventually_const_lt hy
  rw [FV.div, if_pos hy.ne']
  rcases lt_or_gt_of_ne hs with h | h
  · filter_upwards [hpos, hd.eventually_lt_const h] with n h1 h2
    rw [FV.div, if_pos h1.ne']
    exact (decide_eq_true h2).trans (decide_eq_true h).symm
  · filter_upwards [hpos, hd.eventually_const_lt h] with n h1 h2
    rw [FV.div, if_pos h1.ne']
    exact (decide_eq_false (not_lt.2 h2.le)).trans (decide_eq_false (not_lt.2 h.le)).symm

/-- Spec: in the first `k` iterations neither the relative loss nor the relative change is equal to its tolerance. -/
def NoTies (E : Ext) (o : CPOpts) (X : NDArray ℝ) (t : KruskalTensor) (k : ℕ) : Prop :=
  ∀ s0, CP.initFit E (CP.fresh none none) X t = .ok s0 → ∀ j ≤ k, ∀ s e, CP.iterate E o j s0 = .ok s → CP.sse s = .ok e →
    e / (sumIdx X.shape fun idx => X.get idx ^ 2) ≠ o.relLossTol ∧
    ∀ s' e', j < k → CP.iteration E o s = .ok s' → CP.sse s' = .ok e' → |(e - e') / e| ≠ o.convergenceTol

/-- **C157** for fits with tolerances: let data and starts converge, let no update of the fit of `X` from `t` be underdetermined and no
stopping test of it be decided by equality. Then all but finitely many of the fits make as many iterations as the fit of `X`, and their
factor matrices and reported errors converge to those of the fit of `X`. -/
theorem C157_tolerances (hE : E.SVDOk) (hN : E.NNLSOk) (hQ : E.QROk) (hA : CP.Admissible c.opts none none X.shape)
    (hridge : c.opts.ridgePenalties = none) (hlog : c.Measurable) (hfreq : freqOption c.freq ≠ 0)
    (hX : DataTendTo Xs X) (hi : CP.StartsFrom E c none none arg X t) (his : ∀ n, CP.StartsFrom E c none none (args n) (Xs n) (ts n))
    (ht : t.WF X.shape c.opts.rank) (hts : ∀ n, (ts n).WF X.shape c.opts.rank) {mi : Option Int} (hb : 0 < mi.getD budget)
    (hS : Storing (CP.method E c) (CP.newObject none none budget loggers file) [])
    (hst : FactorsTendTo atTop (fun n => (ts n).factorMatrices) t.factorMatrices X.shape c.opts.rank)
    (hD : Determined E c.opts X t) (hX0 : 0 < sumIdx X.shape fun idx => X.get idx ^ 2) (hrel : 0 < c.opts.relLossTol) :
    ∃ w, ∃ res : ℕ → World CPState, ∃ k : ℕ,
      CP.fit E c X mi arg (CP.newObject none none budget loggers file) = .ok () w ∧ w.it = k ∧
      (∀ n, CP.fit E c (Xs n) mi (args n) (CP.newObject none none budget loggers file) = .ok () (res n)) ∧
      (NoTies E c.opts X t k → (∀ᶠ n in atTop, (res n).it = w.it) ∧
        FactorsTendTo atTop (fun n => (res n).st.dec.factorMatrices) w.st.dec.factorMatrices X.shape c.opts.rank ∧
        ∃ e, ∃ es : ℕ → ℝ, CP.sse w.st = .ok e ∧ (∀ n, CP.sse (res n).st = .ok (es n)) ∧ Tendsto es atTop (𝓝 e)) := by
  have hAn : ∀ n, CP.Admissible c.opts none none (Xs n).shape := fun n => by rw [hX.1]; exact hA
  have htn : ∀ n, (ts n).WF (Xs n).shape c.opts.rank := fun n => by rw [hX.1]; exact hts n
  obtain ⟨s0, w, k, e0, h1, h2, h3, h4, h5, h6, -, hsse, -⟩ := C74_fit_completes hE hN hQ hA hlog hfreq hi ht hb hS
  have hn := fun n => C74_fit_completes hE hN hQ (hAn n) hlog hfreq (his n) (htn n) hb hS
  choose ss res ks es g1 g2 g3 g4 g5 g6 g7 gsse g9 using hn
  refine ⟨w, res, k, h1, h3, g1, fun hties => ?_⟩
  obtain ⟨hG, hXs, hone, hU, hdec, q1, q2, hq⟩ := fit_sweeps hE hN hQ hA hridge ht e0
  have hfs := fun n => fit_sweeps hE hN hQ (hAn n) hridge (htn n) (es n)
  obtain ⟨s0', e0', -, -, -, hrel0, -⟩ := initFit_good (E := E) hQ (old := CP.fresh none none) rfl hA ht
  rw [e0] at e0'
  obtain rfl : s0 = s0' := Except.ok.inj e0'
  have hreln : ∀ n, (ss n).relChange = .pinf := fun n => by
    obtain ⟨s', e', -, -, -, h, -⟩ := initFit_good (E := E) hQ (old := CP.fresh none none) rfl (hAn n) (htn n)
    rw [es n] at e'
    rw [Except.ok.inj e']; exact h
  -- the factor matrices, errors and norms converge
  have hfac : ∀ j, FactorsTendTo atTop (fun n => (CP.orbit E c.opts (ss n) j).dec.factorMatrices)
      (CP.orbit E c.opts s0 j).dec.factorMatrices X.shape c.opts.rank := by
    intro j
    cases j with
    | zero =>
      intro m hm i hi r hr
      show Tendsto (fun n => (modeMat (ss n).dec.factorMatrices m).get [i, r]) atTop (𝓝 ((modeMat s0.dec.factorMatrices m).get [i, r]))
      rw [hdec]
      exact (hst m hm i hi r hr).congr fun n => by rw [(hfs n).2.2.2.2.1]
    | succ j => exact continuous_orbit hE hN hQ hA hridge hX ht hts (fun k hk _ => hst k hk) hD e0 es j
  have hlen : ∀ j, (CP.orbit E c.opts s0 j).dec.factorMatrices.length = X.shape.length := fun j => (q1 j).len 0 (Nat.zero_le _)
  have hlens : ∀ n j, (CP.orbit E c.opts (ss n) j).dec.factorMatrices.length = X.shape.length := fun n j => by
    rw [← hX.1 n]; exact ((hfs n).2.2.2.2.2.1 j).len 0 (Nat.zero_le _)
  have herr : ∀ j, Tendsto (fun n => (CP.orbit E c.opts (ss n) j).trueSSE c.opts.rank) atTop
      (𝓝 ((CP.orbit E c.opts s0 j).trueSSE c.opts.rank)) := by
    intro j
    rw [hq j]
    have : (fun n => (CP.orbit E c.opts (ss n) j).trueSSE c.opts.rank) = fun n => sumIdx X.shape fun idx =>
        ((Xs n).get idx - cpEntry (fun _ => 1) (CP.orbit E c.opts (ss n) j).dec.factorMatrices c.opts.rank idx) ^ 2 := by
      funext n
      rw [(hfs n).2.2.2.2.2.2.2 j, sqErr, hX.1]
    rw [this]
    exact tendsto_sumIdx fun idx hidx =>
      ((hX.2 idx hidx).sub (tendsto_cpEntry (hfac j) (fun n => hlens n j) (hlen j) (fun _ => 1) hidx)).pow 2
  have hnorm : s0.XNorm ^ 2 = sumIdx X.shape fun idx => X.get idx ^ 2 := by
    rw [hG.cached.norm, hXs, Real.sq_sqrt hX0.le]
  have hnorms : Tendsto (fun n => (ss n).XNorm ^ 2) atTop (𝓝 (s0.XNorm ^ 2)) := by
    have : (fun n => (ss n).XNorm ^ 2) = fun n => sumIdx X.shape fun idx => (Xs n).get idx ^ 2 := by
      funext n
      rw [(hfs n).1.cached.norm, (hfs n).2.1, Real.sq_sqrt (sumIdx_nonneg fun _ _ => sq_nonneg _), hX.1]
    rw [this, hnorm]
    exact tendsto_sumIdx fun idx hidx => (hX.2 idx hidx).pow 2
  have hgood := fun j => orbit_good hE hN hA.rank hG j
  have hgoods := fun n j => orbit_good hE hN hA.rank (hfs n).1 j
  have hstopEq : ∀ {s : CPState}, s.Good c.opts → CP.shouldStop c.opts s =
      .ok (s.relChange.absLt c.opts.convergenceTol || (FV.div (s.trueSSE c.opts.rank) (s.XNorm ^ 2)).lt c.opts.relLossTol) := by
    intro s hs
    rw [CP.shouldStop, C35_sse hs.sized hs.cached, bind_ok]
    rfl
  have htie1 : ∀ j ≤ k, (CP.orbit E c.opts s0 j).trueSSE c.opts.rank / s0.XNorm ^ 2 ≠ c.opts.relLossTol := by
    intro j hj
    rw [hnorm]
    exact (hties s0 e0 j hj _ _ (orbit_iterate hE hN hA.rank j hG) (C35_sse (hgood j).1.sized (hgood j).1.cached)).1
  have hpos : ∀ j < k, 0 < (CP.orbit E c.opts s0 j).trueSSE c.opts.rank := by
    intro j hj
    obtain ⟨s, e, hs⟩ := h5 j hj
    rw [orbit_iterate hE hN hA.rank j hG] at e
    rw [← Except.ok.inj e] at hs
    have := (not_stopped (hgood j).1 hs).2
    rw [(hgood j).2.XNorm, hnorm] at this
    exact lt_of_lt_of_le (mul_pos hrel hX0) (div_lt_false hX0 this)
  -- the tests agree
  have hev : ∀ j ≤ k, ∀ᶠ n in atTop, CP.shouldStop c.opts (CP.orbit E c.opts (ss n) j) = CP.shouldStop c.opts (CP.orbit E c.opts s0 j) := by
    intro j hj
    have t1 := div_lt_eventually (herr j) hnorms (by rw [hnorm]; exact hX0) (htie1 j hj)
    cases j with
    | zero =>
      filter_upwards [t1] with n hn
      rw [hstopEq (hgoods n 0).1, hstopEq (hgood 0).1, (hgoods n 0).2.XNorm, (hgood 0).2.XNorm, hn]
      rw [show (CP.orbit E c.opts (ss n) 0).relChange = .pinf from hreln n, show (CP.orbit E c.opts s0 0).relChange = .pinf from hrel0]
    | succ j =>
      have hne := (hties s0 e0 j (by omega) _ _ (orbit_iterate hE hN hA.rank j hG) (C35_sse (hgood j).1.sized (hgood j).1.cached)).2 _ _
        (by omega) (orbit_step hE hN hA.rank hG j) (C35_sse (hgood (j + 1)).1.sized (hgood (j + 1)).1.cached)
      have t2 := div_absLt_eventually ((herr j).sub (herr (j + 1))) (herr j) (hpos j (by omega)) hne
      filter_upwards [t1, t2] with n hn hn'
      rw [hstopEq (hgoods n (j + 1)).1, hstopEq (hgood (j + 1)).1, (hgoods n (j + 1)).2.XNorm, (hgood (j + 1)).2.XNorm, hn,
        orbit_relChange hE hN hA.rank (hfs n).1 j, orbit_relChange hE hN hA.rank hG j, hn']
  have hall : ∀ᶠ n in atTop, ∀ j ≤ k,
      CP.shouldStop c.opts (CP.orbit E c.opts (ss n) j) = CP.shouldStop c.opts (CP.orbit E c.opts s0 j) := by
    have := (Filter.eventually_all_finset (Finset.range (k + 1))).2 fun j hj => hev j (by have := Finset.mem_range.1 hj; omega)
    filter_upwards [this] with n hn j hj
    exact hn j (Finset.mem_range.2 (by omega))
  have hst' : w.st = CP.orbit E c.opts s0 k := by
    rw [orbit_iterate hE hN hA.rank k hG] at h4
    exact (Except.ok.inj h4).symm
  have hsts : ∀ n, (res n).st = CP.orbit E c.opts (ss n) (ks n) := fun n => by
    have := g4 n
    rw [orbit_iterate hE hN hA.rank _ (hfs n).1] at this
    exact (Except.ok.inj this).symm
  have hkn : ∀ᶠ n in atTop, ks n = k := by
    filter_upwards [hall] with n hn
    refine le_antisymm (not_lt.1 fun hlt => ?_) (not_lt.1 fun hlt => ?_)
    · obtain ⟨s, e, hs⟩ := g5 n k hlt
      rw [orbit_iterate hE hN hA.rank k (hfs n).1] at e
      rw [← Except.ok.inj e, hn k le_rfl] at hs
      have h7 := g2 n
      have := h6 (by omega)
      rw [hst', hs] at this
      cases this
    · obtain ⟨s, e, hs⟩ := h5 (ks n) hlt
      rw [orbit_iterate hE hN hA.rank _ hG] at e
      rw [← Except.ok.inj e, ← hn (ks n) hlt.le] at hs
      have := g6 n (by omega)
      rw [hsts n, hs] at this
      cases this
  refine ⟨?_, ?_, _, _, hsse, gsse, ?_⟩
  · filter_upwards [hkn] with n hn
    rw [g3 n, h3, hn]
  · intro m hm i hi r hr
    rw [hst']
    refine (hfac k m hm i hi r hr).congr' ?_
    filter_upwards [hkn] with n hn
    rw [hsts n, hn]
  · rw [hst']
    refine (herr k).congr' ?_
    filter_upwards [hkn] with n hn
    rw [hsts n, hn]

/-- Exact ties are exceptional: for given data and start all but countably many tolerances avoid them, in all iterations. -/
theorem C157_ties_countable (c : CP.Config) (X : NDArray ℝ) (t : KruskalTensor) : ∃ S : Set ℝ, S.Countable ∧
    ∀ a ∉ S, ∀ b ∉ S, ∀ k, NoTies E (c.withTol a b).opts X t k := by
  let A : ℕ → Set ℝ := fun j => {x | ∃ s0 s e, CP.initFit E (CP.fresh none none) X t = .ok s0 ∧ CP.iterate E c.opts j s0 = .ok s ∧
    CP.sse s = .ok e ∧ x = e / (sumIdx X.shape fun idx => X.get idx ^ 2)}
  let B : ℕ → Set ℝ := fun j => {x | ∃ s0 s e s' e', CP.initFit E (CP.fresh none none) X t = .ok s0 ∧ CP.iterate E c.opts j s0 = .ok s ∧
    CP.sse s = .ok e ∧ CP.iteration E c.opts s = .ok s' ∧ CP.sse s' = .ok e' ∧ x = |(e - e') / e|}
  have hAs : ∀ j, (A j).Subsingleton := by
    rintro j x ⟨s0, s, e, h1, h2, h3, rfl⟩ y ⟨s0', s', e', g1, g2, g3, rfl⟩
    obtain rfl := Except.ok.inj (h1.symm.trans g1)
    obtain rfl := Except.ok.inj (h2.symm.trans g2)
    obtain rfl := Except.ok.inj (h3.symm.trans g3)
    rfl
  have hBs : ∀ j, (B j).Subsingleton := by
    rintro j x ⟨s0, s, e, u, v, h1, h2, h3, h4, h5, rfl⟩ y ⟨s0', s', e', u', v', g1, g2, g3, g4, g5, rfl⟩
    obtain rfl := Except.ok.inj (h1.symm.trans g1)
    obtain rfl := Except.ok.inj (h2.symm.trans g2)
    obtain rfl := Except.ok.inj (h3.symm.trans g3)
    obtain rfl := Except.ok.inj (h4.symm.trans g4)
    obtain rfl := Except.ok.inj (h5.symm.trans g5)
    rfl
  refine ⟨(⋃ j, A j) ∪ ⋃ j, B j, (Set.countable_iUnion fun j => (hAs j).countable).union (Set.countable_iUnion fun j => (hBs j).countable),
    fun a ha b hb k s0 e0 j hj s e hs he => ?_⟩
  rw [cp_iterate_withTol] at hs
  refine ⟨fun h => hb (Or.inl (Set.mem_iUnion.2 ⟨j, s0, s, e, e0, hs, he, h.symm⟩)), fun s' e' hk hs' he' h =>
    ha (Or.inr (Set.mem_iUnion.2 ⟨j, s0, s, e, s', e', e0, hs, he, hs', he', h.symm⟩))⟩

/-- The hypotheses of `C157_tolerances` that are not among those of `C157_full` (example there): `diag(2, 1)`, one component, the start with
the second factor matrix (0, 1), its perturbations in both modes, and tolerances below any given bound. -/
example (hE : E.SVDOk) (hN : E.NNLSOk) (hQ : E.QROk) {ε : ℝ} (hε : 0 < ε) : ∃ a b, 0 < a ∧ a < ε ∧ 0 < b ∧ b < ε ∧
    (∀ k, NoTies E (matrixConfig.withTol a b).opts matrix21 (matrixStart 0 1) k) ∧
    Determined E (matrixConfig.withTol a b).opts matrix21 (matrixStart 0 1) ∧ 0 < (sumIdx matrix21.shape fun idx => matrix21.get idx ^ 2) ∧
    FactorsTendTo atTop (fun n : ℕ => (matrixStart (1 / ((n : ℝ) + 1)) 1).factorMatrices) (matrixStart 0 1).factorMatrices
      matrix21.shape 1 := by
  obtain ⟨S, hS, h⟩ := C157_ties_countable (E := E) matrixConfig matrix21 (matrixStart 0 1)
  obtain ⟨a, ha, haS⟩ : ∃ a ∈ Set.Ioo 0 ε, a ∉ S := by
    by_contra hno
    push Not at hno
    have hc := (Cardinal.le_aleph0_iff_set_countable.2 (hS.mono hno))
    rw [Cardinal.mk_Ioo_real hε] at hc
    exact absurd hc (not_le.2 Cardinal.aleph0_lt_continuum)
  refine ⟨a, a, ha.1, ha.2, ha.1, ha.2, h a haS a haS, ?_, ?_, ?_⟩
  · intro s0 e0 j s s' h1 h2
    rw [cp_iterate_withTol] at h1 h2
    exact determined_matrix21 hE hN hQ s0 e0 j s s' h1 h2
  · rw [show matrix21.shape = [2, 2] from rfl, sumIdx_two]
    simp [Finset.sum_range_succ, matrix21, get_ofMat]
    norm_num
  · intro m hm i hi r hr
    match m, hm with
    | 0, _ => exact tendsto_const_nhds
    | 1, _ =>
      have hi' : i < 2 := hi
      show Tendsto (fun n : ℕ => (ofMat 2 1 fun i _ => if i = 0 then 1 / ((n : ℝ) + 1) else (1 : ℝ)).get [i, r]) atTop
        (𝓝 ((ofMat 2 1 fun i _ => if i = 0 then (0 : ℝ) else 1).get [i, r]))
      simp only [get_ofMat hi' hr]
      split
      · exact tendsto_one_div_add_atTop_nhds_zero_nat (𝕜 := ℝ)
      · exact tendsto_const_nhds

/-- Without the condition on the updates the fits are not continuous: the starts with the second factor matrix `(0, 1 / (n + 1))` converge to the
start with the second factor matrix zero. All fits from the former have the error 4 and the fit from the latter has the error 5, after any
number of iterations. -/
theorem C157_underdetermined (hE : E.SVDOk) (hN : E.NNLSOk) (hQ : E.QROk) (j : ℕ) :
    FactorsTendTo atTop (fun n : ℕ => (matrixStart 0 (1 / ((n : ℝ) + 1))).factorMatrices) (matrixStart 0 0).factorMatrices matrix21.shape 1 ∧
    ∃ w, ∃ res : ℕ → World CPState, CP.fit E matrixConfig matrix21 (some (j + 1)) (.tensor (matrixStart 0 0))
        (CP.newObject none none 10 [] none) = .ok () w ∧ CP.sse w.st = .ok 5 ∧
      ∀ n : ℕ, CP.fit E matrixConfig matrix21 (some (j + 1)) (.tensor (matrixStart 0 (1 / ((n : ℝ) + 1))))
        (CP.newObject none none 10 [] none) = .ok () (res n) ∧ CP.sse (res n).st = .ok 4 := by
  have hA : CP.Admissible matrixConfig.opts none none matrix21.shape :=
    ⟨by decide, by simp [matrix21], by simp [matrix21], by simp, by simp, by simp [matrixConfig], by simp, by simp⟩
  have ht : ∀ x y, (matrixStart x y).WF matrix21.shape matrixConfig.opts.rank := fun _ _ => ⟨rfl, .cons rfl (.cons rfl .nil), rfl⟩
  have hi : matrixConfig.init.toLower = "precomputed" := by
    show "precomputed".toLower = _
    rw [String.toLower, ← String.toList_inj, String.toList_map]; decide
  have hS : Storing (CP.method E matrixConfig) (CP.newObject none none 10 [] none) [] :=
    ⟨fun h => absurd h (show ¬ (0 : Int) < -1 by decide), fun h => absurd h (show ¬ (0 : Int) < -1 by decide),
      fun h => absurd h (show ¬ (0 : Int) < -1 by decide)⟩
  have hlog : matrixConfig.Measurable := by intro p hp; simp [matrixConfig] at hp
  have hfreq : freqOption matrixConfig.freq ≠ 0 := show freqOption none ≠ 0 by decide
  have hb : 0 < (some ((j : Int) + 1)).getD 10 := by simp only [Option.getD_some]; omega
  refine ⟨?_, ?_⟩
  · intro m hm i hi r hr
    match m, hm with
    | 0, _ => exact tendsto_const_nhds
    | 1, _ =>
      have hi' : i < 2 := hi
      show Tendsto (fun n : ℕ => (ofMat 2 1 fun i _ => if i = 0 then (0 : ℝ) else 1 / ((n : ℝ) + 1)).get [i, r]) atTop
        (𝓝 ((ofMat 2 1 fun i _ => if i = 0 then (0 : ℝ) else 0).get [i, r]))
      simp only [get_ofMat hi' hr]
      split
      · exact tendsto_const_nhds
      · exact tendsto_one_div_add_atTop_nhds_zero_nat (𝕜 := ℝ)
  -- the limit
  let z : KruskalTensor := ⟨1, [full [2, 1] 0, ofMat 2 1 fun i _ => if i = 0 then 0 else 0], full [1] 1⟩
  have hz : z.WF matrix21.shape matrixConfig.opts.rank := ⟨rfl, .cons rfl (.cons rfl .nil), rfl⟩
  obtain ⟨w, w', h1, h2, h3, -, h5⟩ := C99_first_mode_partial hE hN hQ hA rfl le_rfl le_rfl hlog hfreq
    (startsFrom_precomputed hi (ht 0 0)) (startsFrom_precomputed hi hz) (ht 0 0) hz rfl hb hS
  obtain ⟨v, g1, g2⟩ := C146_zero hE hN hQ hA rfl hlog hfreq (startsFrom_precomputed hi hz) hz (p := 0) Nat.one_pos (k := 0) (l := 1)
    (by decide) (by decide) (by decide) (by
      intro m F hm hF i hi'
      rcases hm with rfl | rfl
      · obtain rfl : full [2, 1] 0 = F := Option.some.inj hF
        exact get_full ⟨hi', Nat.one_pos, trivial⟩
      · obtain rfl : (ofMat 2 1 fun i _ => if i = 0 then 0 else 0) = F := Option.some.inj hF
        rw [get_ofMat (show i < 2 from hi') Nat.one_pos, ite_self]) hb hS
  rw [h2] at g1
  obtain rfl : w' = v := by injection g1
  obtain ⟨-, v', -, -, g3, -, -, -, -, -, hwf, hsse, hXw, -⟩ := C74_fit_completes hE hN hQ hA hlog hfreq (startsFrom_precomputed hi hz) hz hb hS
  rw [h2] at g3
  obtain rfl : w' = v' := by injection g3
  have h5' : CP.sse w.st = .ok 5 := by
    rw [← h5, hsse, CPState.trueSSE, hXw, sqErr, show matrix21.shape = [2, 2] from rfl, sumIdx_two]
    have hent : ∀ i < 2, ∀ k < 2, cpEntry (fun r => w'.st.dec.weights.get [r]) w'.st.dec.factorMatrices matrixConfig.opts.rank [i, k] = 0 := by
      intro i hi k hk
      have hf : w'.st.dec.factorMatrices.length = 2 := hwf.factors.length_eq
      refine Finset.sum_eq_zero fun r hr => ?_
      obtain rfl : r = 0 := Nat.lt_one_iff.1 (Finset.mem_range.1 hr)
      have h0 : w'.st.dec.factorMatrices[0]? = some (modeMat w'.st.dec.factorMatrices 0) := by
        rw [modeMat, List.getD_eq_getElem?_getD, List.getElem?_eq_getElem (by omega)]; rfl
      rw [rankOne_eq_prod (idx := [i, k]) 0 (by rw [hf]; rfl), hf]
      exact mul_eq_zero_of_right _ (Finset.prod_eq_zero (Finset.mem_range.2 (show 0 < 2 by decide)) (g2 0 _ (Or.inl rfl) h0 i hi))
    simp only [Finset.sum_range_succ, Finset.sum_range_zero, zero_add]
    rw [hent 0 (by decide) 0 (by decide), hent 0 (by decide) 1 (by decide), hent 1 (by decide) 0 (by decide), hent 1 (by decide) 1 (by decide)]
    simp [matrix21, get_ofMat]
    norm_num
  -- the other fits
  have hn : ∀ n : ℕ, ∃ v, CP.fit E matrixConfig matrix21 (some ((j : Int) + 1)) (.tensor (matrixStart 0 (1 / ((n : ℝ) + 1))))
        (CP.newObject none none 10 [] none) = .ok () v ∧ CP.sse v.st = .ok 4 := by
    intro n
    have h0 : (1 : ℝ) / ((n : ℝ) + 1) ≠ 0 := by positivity
    obtain ⟨u, v, e1, e2, e3, -, e5⟩ := C156_scale hE hN hQ hA rfl hlog hfreq (startsFrom_precomputed hi (ht 0 1))
      (startsFrom_precomputed hi (ht 0 (1 / ((n : ℝ) + 1)))) (ht _ _) (ht _ _) hb hS (s := fun _ _ => 1 / ((n : ℝ) + 1)) (fun _ _ _ => h0)
      (by
        intro k hk h0 i hi' r hr
        obtain rfl : k = 1 := by have : k < 2 := hk; omega
        have hi2 : i < 2 := hi'
        show (ofMat 2 1 fun i _ => if i = 0 then (0 : ℝ) else 1 / ((n : ℝ) + 1)).get [i, r] =
          _ * (ofMat 2 1 fun i _ => if i = 0 then (0 : ℝ) else 1).get [i, r]
        have hr1 : r < 1 := hr
        rw [get_ofMat hi2 hr1, get_ofMat hi2 hr1]
        split <;> simp) (determined_matrix21 hE hN hQ)
    obtain ⟨i1, i2⟩ := e5 le_rfl le_rfl
    obtain ⟨-, q, r1, r2, r3⟩ := C153_orthogonal_start hE hN hQ
    obtain ⟨-, ⟨e, s1, s2⟩, -⟩ := e3 j (by rw [i1]; rfl) (by rw [i2]; rfl)
    have : u = q j := by
      have := r1 j
      rw [e1] at this
      injection this
    rw [this, r3 j] at s1
    exact ⟨v, e2, by rw [s2, Except.ok.inj s1]⟩
  choose res hres using hn
  exact ⟨w, res, h1, h5', hres⟩

end

end TK
