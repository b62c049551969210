import Verif.Props.HeapFit
import Verif.Props.Parafac2Fit
import Mathlib.Analysis.SpecificLimits.Basic

/-!
# C91, C92: when a fit stops

Source: cp.py:400-423 and parafac2.py:387-400 (the loop, the stopping tests and the relative change), cp.py:25-34
and 259-268 (the documented rule).
-/

namespace TK
open NDArray Fit Matrix
open EStateM (Result)

noncomputable section

/-! ## What the stopping test says -/

/-- The test did not stop the fit: the relative change, if it is a number, is not below the tolerance, and neither is
the relative loss. -/
theorem not_stopped {o : CPOpts} {s : CPState} (h : s.Good o) (hs : CP.shouldStop o s = .ok false) :
    s.relChange.absLt o.convergenceTol = false ∧ (FV.div (s.trueSSE o.rank) (s.XNorm ^ 2)).lt o.relLossTol = false := by
  rw [CP.shouldStop, C35_sse h.sized h.cached, bind_ok] at hs
  have := Except.ok.inj hs
  exact Bool.or_eq_false_iff.1 this

theorem stopped {o : CPOpts} {s : CPState} (h : s.Good o) (hs : CP.shouldStop o s = .ok true) :
    s.relChange.absLt o.convergenceTol = true ∨ (FV.div (s.trueSSE o.rank) (s.XNorm ^ 2)).lt o.relLossTol = true := by
  rw [CP.shouldStop, C35_sse h.sized h.cached, bind_ok] at hs
  have := Except.ok.inj hs
  exact Bool.or_eq_true_iff.1 this

theorem div_lt_false {a b t : ℝ} (hb : 0 < b) (h : (FV.div a b).lt t = false) : t * b ≤ a := by
  rw [FV.div, if_pos hb.ne'] at h
  have : ¬ a / b < t := of_decide_eq_false h
  rw [not_lt, le_div_iff₀ hb] at this
  exact this

theorem div_lt_true {a b t : ℝ} (ha : 0 ≤ a) (h : (FV.div a b).lt t = true) : b ≠ 0 ∧ a / b < t := by
  unfold FV.div at h
  split at h
  · next hb => exact ⟨hb, of_decide_eq_true h⟩
  · split at h
    · cases h
    · rw [if_neg (not_lt.2 ha)] at h; cases h

theorem div_absLt_false {p e t : ℝ} (hp : 0 < p) (h : (FV.div (p - e) p).absLt t = false) : t * p ≤ |p - e| := by
  rw [FV.div, if_pos hp.ne'] at h
  have : ¬ |(p - e) / p| < t := of_decide_eq_false h
  rwa [not_lt, abs_div, abs_of_pos hp, le_div_iff₀ hp] at this

theorem div_absLt_true {a b t : ℝ} (h : (FV.div a b).absLt t = true) : b ≠ 0 ∧ |a / b| < t := by
  unfold FV.div at h
  split at h
  · next hb => exact ⟨hb, of_decide_eq_true h⟩
  · split at h
    · cases h
    · split at h <;> cases h

/-! ## C91: the number of iterations -/

/-- Two successive states of a fit without constraints: the error does not increase. -/
theorem orbit_unconstrained {E : Ext} (hE : E.SVDOk) (hN : E.NNLSOk) {o : CPOpts} (hr : 0 < o.rank) {s : CPState}
    (h : s.Good o) (hU : s.Unconstrained) (j : ℕ) : (CP.orbit E o s j).Unconstrained := by
  obtain ⟨-, p⟩ := orbit_good hE hN hr h j
  obtain ⟨l1, a1, b1⟩ := hU.nonNeg
  obtain ⟨l2, a2, b2⟩ := hU.orth
  exact ⟨⟨l1, by rw [p.nonNeg]; exact a1, by rw [p.X]; exact b1⟩,
    ⟨l2, by rw [p.orth]; exact a2, by rw [p.X]; exact b2⟩⟩

theorem orbit_antitone {E : Ext} (hE : E.SVDOk) (hN : E.NNLSOk) {o : CPOpts} (hr : 0 < o.rank)
    (hridge : o.ridgePenalties = none) {s : CPState} (h : s.Good o) (hw : ∀ r < o.rank, s.dec.weights.get [r] = 1)
    (hU : s.Unconstrained) (j : ℕ) :
    (CP.orbit E o s (j + 1)).trueSSE o.rank ≤ (CP.orbit E o s j).trueSSE o.rank := by
  obtain ⟨g, p⟩ := orbit_good hE hN hr h j
  obtain ⟨s', e, e', h1, h2, -, h4, -, h6⟩ := C34_iterations_monotone hE hridge 1 g.sized g.cached
    (by rw [p.weights]; exact hw) (orbit_unconstrained hE hN hr h hU j)
  rw [CP.iterate, orbit_step hE hN hr h j, bind_ok] at h1
  obtain rfl : CP.orbit E o s (j + 1) = s' := Except.ok.inj h1
  rw [C35_sse g.sized g.cached] at h2
  rw [← h6, Except.ok.inj h2]
  exact h4

/-- The relative change recorded by iteration `j + 1`. -/
theorem orbit_relChange {E : Ext} (hE : E.SVDOk) (hN : E.NNLSOk) {o : CPOpts} (hr : 0 < o.rank) {s : CPState}
    (h : s.Good o) (j : ℕ) : (CP.orbit E o s (j + 1)).relChange =
      FV.div ((CP.orbit E o s j).trueSSE o.rank - (CP.orbit E o s (j + 1)).trueSSE o.rank)
        ((CP.orbit E o s j).trueSSE o.rank) := by
  obtain ⟨g, -⟩ := orbit_good hE hN hr h j
  obtain ⟨s', e, -, -, hrel⟩ := iteration_total hE hN hr g
  rw [orbit_step hE hN hr h j] at e
  obtain rfl : CP.orbit E o s (j + 1) = s' := Except.ok.inj e
  rw [hrel, g.prev]

/-- As long as the fit has not stopped, its error is at least `rel_loss_tol · ‖X‖²` and at most
`(1 - convergence_tol)^j` times the first error. -/
theorem orbit_geometric {E : Ext} (hE : E.SVDOk) (hN : E.NNLSOk) {o : CPOpts} (hr : 0 < o.rank) {s : CPState}
    (h : s.Good o) (hX : 0 < s.XNorm ^ 2) (hrel : 0 < o.relLossTol)
    (hmono : ∀ j, (CP.orbit E o s (j + 1)).trueSSE o.rank ≤ (CP.orbit E o s j).trueSSE o.rank) :
    ∀ j, (∀ i ≤ j, CP.shouldStop o (CP.orbit E o s i) = .ok false) →
      o.relLossTol * s.XNorm ^ 2 ≤ (CP.orbit E o s j).trueSSE o.rank ∧
      (CP.orbit E o s j).trueSSE o.rank ≤ max 0 (1 - o.convergenceTol) ^ j * s.trueSSE o.rank := by
  have hlow : ∀ j, CP.shouldStop o (CP.orbit E o s j) = .ok false →
      o.relLossTol * s.XNorm ^ 2 ≤ (CP.orbit E o s j).trueSSE o.rank := by
    intro j hj
    obtain ⟨g, p⟩ := orbit_good hE hN hr h j
    have := (not_stopped g hj).2
    rw [p.XNorm] at this
    exact div_lt_false hX this
  intro j
  induction j with
  | zero =>
    intro hj
    exact ⟨hlow 0 (hj 0 le_rfl), by rw [pow_zero, one_mul]; exact le_rfl⟩
  | succ j ih =>
    intro hj
    obtain ⟨i1, i2⟩ := ih fun i hi => hj i (by omega)
    refine ⟨hlow _ (hj _ le_rfl), ?_⟩
    obtain ⟨g, -⟩ := orbit_good hE hN hr h (j + 1)
    have hc := (not_stopped g (hj _ le_rfl)).1
    have hpos : 0 < (CP.orbit E o s j).trueSSE o.rank := lt_of_lt_of_le (mul_pos hrel hX) i1
    rw [orbit_relChange hE hN hr h j] at hc
    have h1 := div_absLt_false hpos hc
    rw [abs_of_nonneg (sub_nonneg.2 (hmono j))] at h1
    have h2 : (CP.orbit E o s (j + 1)).trueSSE o.rank ≤
        max 0 (1 - o.convergenceTol) * (CP.orbit E o s j).trueSSE o.rank := by
      have := mul_le_mul_of_nonneg_right (le_max_right 0 (1 - o.convergenceTol)) hpos.le
      linarith
    have h3 := mul_le_mul_of_nonneg_left i2 (le_max_left 0 (1 - o.convergenceTol))
    rw [pow_succ']
    linarith

/-- C91. A fit of `CP_ALS` without constraints and penalties makes at most `N` iterations as soon as
`(1 - convergence_tol)^N · SSE₀ < rel_loss_tol · ‖X‖²`, where `SSE₀` is the error of the initial decomposition with
weights one, whatever `max_its` is; and with `max_its > N` it is the stopping test that ends it. -/
theorem C91_bound_partial {E : Ext} (hE : E.SVDOk) (hN : E.NNLSOk) (hQ : E.QROk) {c : CP.Config} {X : NDArray ℝ}
    (hA : CP.Admissible c.opts none none X.shape) (hridge : c.opts.ridgePenalties = none)
    (hlog : c.Measurable) (hfreq : freqOption c.freq ≠ 0) {arg : InitArg KruskalTensor} {t : KruskalTensor}
    (hi : CP.StartsFrom E c none none arg X t) (ht : t.WF X.shape c.opts.rank)
    (hrel : 0 < c.opts.relLossTol)
    (hX : 0 < sumIdx X.shape fun idx => X.get idx ^ 2) {N : ℕ}
    (hbound : max 0 (1 - c.opts.convergenceTol) ^ N * sqErr X (fun _ => 1) t.factorMatrices c.opts.rank <
      c.opts.relLossTol * sumIdx X.shape fun idx => X.get idx ^ 2)
    {budget : Int} {mi : Option Int} (hb : 0 < mi.getD budget) {loggers : List Logger} {file : Option H5File}
    (hS : Storing (CP.method E c) (CP.newObject none none budget loggers file) []) :
    ∃ w', CP.fit E c X mi arg (CP.newObject none none budget loggers file) = .ok () w' ∧ w'.it ≤ N ∧
      ((N : Int) < mi.getD budget → CP.shouldStop c.opts w'.st = .ok true) := by
  obtain ⟨s0, w', k, e0, h1, h2, h3, h4, h5, h6, -⟩ := C74_fit_completes hE hN hQ hA hlog hfreq hi ht hb hS
  obtain ⟨s0', e0', hG, hXs, -, -, hw, hnn, hon, hdec⟩ := initFit_good (E := E) hQ (old := CP.fresh none none) rfl hA ht
  rw [e0] at e0'
  obtain rfl : s0 = s0' := Except.ok.inj e0'
  have hU : s0.Unconstrained := by
    refine ⟨⟨_, hnn, fun m hm => ?_⟩, ⟨_, hon, fun m hm => ?_⟩⟩ <;>
      simpa [CP.fresh, List.getElem?_replicate] using hXs ▸ hm
  have hnorm : s0.XNorm ^ 2 = sumIdx X.shape fun idx => X.get idx ^ 2 := by
    rw [hG.cached.norm, hXs, Real.sq_sqrt hX.le]
  have hsse : s0.trueSSE c.opts.rank = sqErr X (fun _ => 1) t.factorMatrices c.opts.rank := by
    rw [CPState.trueSSE, hXs, hdec rfl]
    exact sqErr_congr_weights hw
  have hkN : k ≤ N := by
    by_contra hlt
    rw [not_le] at hlt
    have hgo : ∀ i ≤ N, CP.shouldStop c.opts (CP.orbit E c.opts s0 i) = .ok false := by
      intro i hi'
      obtain ⟨s, r1, r2⟩ := h5 i (by omega)
      rw [orbit_iterate hE hN hA.rank i hG] at r1
      rw [Except.ok.inj r1]; exact r2
    obtain ⟨a, b⟩ := orbit_geometric hE hN hA.rank hG (by rw [hnorm]; exact hX) hrel
      (orbit_antitone hE hN hA.rank hridge hG hw hU) N hgo
    rw [hnorm] at a
    rw [hsse] at b
    linarith
  exact ⟨w', h1, by rw [h3]; exact_mod_cast hkN, fun hlt => h6 (by omega)⟩

/-- C91. Such a fit stops by itself: for positive tolerances and a tensor that is not zero there is a number of
iterations that no budget makes it exceed. -/
theorem C91_stops_partial {E : Ext} (hE : E.SVDOk) (hN : E.NNLSOk) (hQ : E.QROk) {c : CP.Config} {X : NDArray ℝ}
    (hA : CP.Admissible c.opts none none X.shape) (hridge : c.opts.ridgePenalties = none)
    (hlog : c.Measurable) (hfreq : freqOption c.freq ≠ 0) {arg : InitArg KruskalTensor} {t : KruskalTensor}
    (hi : CP.StartsFrom E c none none arg X t) (ht : t.WF X.shape c.opts.rank)
    (htol : 0 < c.opts.convergenceTol) (hrel : 0 < c.opts.relLossTol)
    (hX : 0 < sumIdx X.shape fun idx => X.get idx ^ 2) :
    ∃ N : ℕ, ∀ (budget : Int) (mi : Option Int) (loggers : List Logger) (file : Option H5File),
      0 < mi.getD budget → Storing (CP.method E c) (CP.newObject none none budget loggers file) [] →
      ∃ w', CP.fit E c X mi arg (CP.newObject none none budget loggers file) = .ok () w' ∧ w'.it ≤ N ∧
        ((N : Int) < mi.getD budget → CP.shouldStop c.opts w'.st = .ok true) := by
  have hq : max 0 (1 - c.opts.convergenceTol) < 1 := max_lt one_pos (by linarith)
  have hlim := (tendsto_pow_atTop_nhds_zero_of_lt_one (le_max_left 0 (1 - c.opts.convergenceTol)) hq).mul_const
    (sqErr X (fun _ => 1) t.factorMatrices c.opts.rank)
  rw [zero_mul] at hlim
  obtain ⟨N, hb⟩ := (hlim.eventually_lt_const (mul_pos hrel hX)).exists
  exact ⟨N, fun budget mi loggers file h1 h2 =>
    C91_bound_partial hE hN hQ hA hridge hlog hfreq hi ht hrel hX hb h1 h2⟩

/-! ## C91 fails for the zero tensor -/

/-- An iteration without constraints is at least as good as any choice of the first factor matrix. -/
theorem first_iteration_best {E : Ext} (hE : E.SVDOk) (hN : E.NNLSOk) {o : CPOpts} (hr : 0 < o.rank)
    (hridge : o.ridgePenalties = none) {s : CPState} (h : s.Good o) (hw : ∀ r < o.rank, s.dec.weights.get [r] = 1)
    (hU : s.Unconstrained) {Y : NDArray ℝ} (hY : Y.shape = [s.X.shape.getD 0 0, o.rank]) :
    (CP.orbit E o s 1).trueSSE o.rank ≤ (s.updated 0 o.rank Y).trueSSE o.rank := by
  have hl : 0 < s.X.shape.length := by have := h.sized.order; omega
  obtain ⟨l1, a1, b1⟩ := hU.nonNeg
  obtain ⟨l2, a2, b2⟩ := hU.orth
  obtain ⟨F, hF, e, hopt⟩ := C34_update_core hE h.sized (m := 0) hl hw
    ⟨⟨l1, a1, b1 0 hl⟩, ⟨l2, a2, b2 0 hl⟩, Or.inl ⟨hridge, rfl⟩⟩
  obtain ⟨n, hn⟩ : ∃ n, s.X.shape.length = n + 1 := ⟨s.X.shape.length - 1, by omega⟩
  obtain ⟨s1, e1, q1, q2, q3, q4, q5⟩ := C34_updates_monotone hE hridge
    (modes := (List.range n).map Nat.succ) (s := s.updated 0 o.rank F) (h.sized.updated hF) hw
    ⟨⟨l1, a1, b1⟩, ⟨l2, a2, b2⟩⟩ (by
      intro m hm
      show m < s.X.shape.length
      simp only [List.mem_map, List.mem_range] at hm
      omega)
  obtain ⟨s2, e2, r1, r2, r3⟩ := iteration_inv (orbit_step hE hN hr h 0)
  have : CP.updateModes E o (List.range s.X.shape.length) s = .ok s1 := by
    rw [hn, List.range_succ_eq_map, CP.updateModes, List.foldlM_cons, e, bind_ok]
    exact e1
  rw [show CP.orbit E o s 0 = s from rfl, this] at r1
  obtain rfl : s1 = s2 := Except.ok.inj r1
  have : (CP.orbit E o s 1).trueSSE o.rank = s1.trueSSE o.rank := by rw [r3]; rfl
  rw [this]
  exact q1.trans (hopt Y hY)

/-- When the first factor matrix is zero, the model is the zero tensor. -/
theorem rankOne_zero {fs : List (NDArray ℝ)} {idx : List ℕ} {r R : ℕ} {n : ℕ} {rest : List ℕ} (hr : r < R)
    (hf : Valid (n :: rest) idx) : rankOne ((full [n, R] (0 : ℝ)) :: fs) idx r = 0 := by
  cases idx with
  | nil => simp [Valid] at hf
  | cons i is =>
    have hv : Valid [n, R] [i, r] := ⟨hf.1, hr, trivial⟩
    rw [rankOne, get_full hv, zero_mul]

/-- The error of a model whose first factor matrix is zero, for the zero tensor. -/
theorem sse_zero {o : CPOpts} {s : CPState} (h : s.Good o) (hX : ∀ idx, Valid s.X.shape idx → s.X.get idx = 0) :
    (s.updated 0 o.rank (full [s.X.shape.getD 0 0, o.rank] 0)).trueSSE o.rank = 0 := by
  have hl := h.sized.order
  have hlf := h.sized.wf.factors.length_eq
  show sumIdx s.X.shape _ = 0
  have : ∀ idx, Valid s.X.shape idx → (s.X.get idx - cpEntry (fun r => s.dec.weights.get [r])
      (s.dec.factorMatrices.set 0 (full [s.X.shape.getD 0 0, o.rank] 0)) o.rank idx) ^ 2 = 0 := by
    intro idx hv
    have hc : cpEntry (fun r => s.dec.weights.get [r])
      (s.dec.factorMatrices.set 0 (full [s.X.shape.getD 0 0, o.rank] 0)) o.rank idx = 0 := by
      refine Finset.sum_eq_zero fun r hr => ?_
      cases hfs : s.dec.factorMatrices with
      | nil => rw [hfs] at hlf; simp only [List.length_nil] at hlf; omega
      | cons A fs =>
        cases hsh : s.X.shape with
        | nil => rw [hsh] at hl; simp at hl
        | cons n rest =>
          rw [hsh] at hv
          show _ * rankOne (full [n, o.rank] 0 :: fs) idx r = 0
          rw [rankOne_zero (by simpa using hr) hv, mul_zero]
    rw [hX idx hv, hc]; norm_num
  exact (sumIdx_congr this).trans (sumIdx_zero _)

/-- C91 is false of the code for the zero tensor: the relative loss is then `0 / 0`, or infinite, and the relative
change of the second iteration is `0 / 0`, so neither is below its tolerance and the fit uses its whole budget, for
every `convergence_tol ≤ 1` and every `rel_loss_tol`. -/
theorem C91_zero_fails {E : Ext} (hE : E.SVDOk) (hN : E.NNLSOk) (hQ : E.QROk) {c : CP.Config} {X : NDArray ℝ}
    (hA : CP.Admissible c.opts none none X.shape) (hridge : c.opts.ridgePenalties = none)
    (hlog : c.Measurable) (hfreq : freqOption c.freq ≠ 0) {arg : InitArg KruskalTensor} {t : KruskalTensor}
    (hi : CP.StartsFrom E c none none arg X t) (ht : t.WF X.shape c.opts.rank)
    (htol : c.opts.convergenceTol ≤ 1) (hX : ∀ idx, Valid X.shape idx → X.get idx = 0)
    {budget : Int} {mi : Option Int} (hb : 0 < mi.getD budget) {loggers : List Logger} {file : Option H5File}
    (hS : Storing (CP.method E c) (CP.newObject none none budget loggers file) []) :
    ∃ w', CP.fit E c X mi arg (CP.newObject none none budget loggers file) = .ok () w' ∧ w'.it = mi.getD budget ∧
      CP.shouldStop c.opts w'.st = .ok false ∧ CP.sse w'.st = .ok 0 := by
  obtain ⟨s0, w', k, e0, h1, h2, h3, h4, h5, h6, -⟩ := C74_fit_completes hE hN hQ hA hlog hfreq hi ht hb hS
  obtain ⟨s0', e0', hG, hXs, -, hrel0, hw, hnn, hon, -⟩ := initFit_good (E := E) hQ (old := CP.fresh none none) rfl hA ht
  rw [e0] at e0'
  obtain rfl : s0 = s0' := Except.ok.inj e0'
  have hU : s0.Unconstrained := by
    refine ⟨⟨_, hnn, fun m hm => ?_⟩, ⟨_, hon, fun m hm => ?_⟩⟩ <;>
      simpa [CP.fresh, List.getElem?_replicate] using hXs ▸ hm
  have hX0 : ∀ idx, Valid s0.X.shape idx → s0.X.get idx = 0 := by rw [hXs]; exact hX
  have hnorm : s0.XNorm = 0 := by
    rw [hG.cached.norm, hXs, sumIdx_congr (g := fun _ => 0) (fun idx hv => by rw [hX idx hv]; norm_num)]
    rw [sumIdx_zero, Real.sqrt_zero]
  have hnn' : ∀ j, 0 ≤ (CP.orbit E c.opts s0 j).trueSSE c.opts.rank := fun j => sumIdx_nonneg fun _ _ => sq_nonneg _
  have hz : ∀ j, (CP.orbit E c.opts s0 (j + 1)).trueSSE c.opts.rank = 0 := by
    intro j
    induction j with
    | zero =>
      refine le_antisymm ?_ (hnn' 1)
      rw [← sse_zero hG hX0]
      exact first_iteration_best hE hN hA.rank hridge hG hw hU rfl
    | succ j ih =>
      refine le_antisymm ?_ (hnn' _)
      rw [← ih]
      exact orbit_antitone hE hN hA.rank hridge hG hw hU _
  have hgo : ∀ j, CP.shouldStop c.opts (CP.orbit E c.opts s0 j) = .ok false := by
    intro j
    obtain ⟨g, p⟩ := orbit_good hE hN hA.rank hG j
    rw [CP.shouldStop, C35_sse g.sized g.cached, bind_ok]
    have b : (FV.div ((CP.orbit E c.opts s0 j).trueSSE c.opts.rank)
        ((CP.orbit E c.opts s0 j).XNorm ^ 2)).lt c.opts.relLossTol = false := by
      rw [p.XNorm, hnorm, FV.div, if_neg (by norm_num)]
      split
      · rfl
      · rw [if_neg (not_lt.2 (hnn' j))]; rfl
    have a : (CP.orbit E c.opts s0 j).relChange.absLt c.opts.convergenceTol = false := by
      cases j with
      | zero => show s0.relChange.absLt _ = _; rw [hrel0]; rfl
      | succ j =>
        rw [orbit_relChange hE hN hA.rank hG j, hz j, sub_zero]
        by_cases hp : (CP.orbit E c.opts s0 j).trueSSE c.opts.rank = 0
        · rw [hp, FV.div, if_neg (by norm_num), if_neg (by norm_num), if_neg (by norm_num)]; rfl
        · rw [FV.div, if_pos hp, div_self hp]
          exact decide_eq_false (by rw [abs_one]; exact not_lt.2 htol)
    rw [a, b]; rfl
  have hst : w'.st = CP.orbit E c.opts s0 k := by
    rw [orbit_iterate hE hN hA.rank k hG] at h4
    exact (Except.ok.inj h4).symm
  have hk : (k : Int) = mi.getD budget := by
    by_contra hne
    have := h6 (by omega)
    rw [hst, hgo k] at this
    cases this
  refine ⟨w', h1, by rw [h3, hk], by rw [hst]; exact hgo k, ?_⟩
  obtain ⟨g, -⟩ := orbit_good hE hN hA.rank hG k
  rw [hst, C35_sse g.sized g.cached]
  cases k with
  | zero => exact absurd hk (by intro h; rw [← h] at hb; simp at hb)
  | succ k => rw [hz k]

/-- The updates of `Parafac2_ALS` leave the recorded loss alone. -/
theorem updateFactors_prevLoss {E : Ext} {o : P2Opts} {s s' : P2State} (h : P2.updateFactors E o s = .ok s') :
    s'.prevLoss = s.prevLoss := by
  have hproj : ∀ (l : List ℕ) (s s' : P2State), l.foldlM (P2.updateProjection E) s = .ok s' →
      s'.prevLoss = s.prevLoss := by
    intro l
    induction l with
    | nil => intro s s' h; rw [List.foldlM_nil] at h; rw [pure_eq_ok.1 h]
    | cons k l ih =>
      intro s s' h
      rw [List.foldlM_cons, bind_eq_ok] at h
      obtain ⟨s1, h1, h2⟩ := h
      rw [ih s1 s' h2]
      simp only [P2.updateProjection, bind_eq_ok] at h1
      obtain ⟨_, -, _, -, _, -, _, -, _, -, _, -, _, -, h3⟩ := h1
      rw [← pure_eq_ok.1 h3]
  rw [P2.updateFactors, bind_eq_ok] at h
  obtain ⟨s1, h1, h2⟩ := h
  rw [← hproj _ _ _ h1]
  cases hi : s1.inner with
  | none => simp only [hi] at h2; cases h2
  | some c =>
    simp only [hi, bind_eq_ok] at h2
    obtain ⟨_, -, _, -, _, -, h3⟩ := h2
    rw [← pure_eq_ok.1 h3]

/-- An iteration of `Parafac2_ALS` that starts from an exact fit never satisfies the stopping test: the relative
change is then `0 / 0` or `-loss / 0`, and the loss itself is not tested. -/
theorem C91_parafac2_exact {E : Ext} {o : P2Opts} {s s' : P2State} (h0 : s.prevLoss = 0)
    (h : P2.iteration E o s = .ok s') : P2.shouldStop o s' = .ok false := by
  rw [P2.iteration, bind_eq_ok] at h
  obtain ⟨s1, h1, h2⟩ := h
  rw [P2.updateConvergence, bind_eq_ok] at h2
  obtain ⟨l, h3, h4⟩ := h2
  rw [← pure_eq_ok.1 h4]
  refine congrArg Except.ok ?_
  show (FV.div (s1.prevLoss - l) s1.prevLoss).absLt _ = false
  rw [(updateFactors_prevLoss h1).trans h0]
  unfold FV.div
  rw [if_neg (by norm_num)]
  split
  · rfl
  · split <;> rfl

/-- The new projection matrix of a slice of zeros is zero. -/
theorem newP_zero {E : Ext} (hE : E.SVDOk) {s : P2State} {I R : ℕ} {Js : List ℕ} (h : s.Sized I Js R) {k : ℕ}
    (hk : k < Js.length) {v : NDArray ℝ} (hv : P2State.NewP E s I Js R k v) (hX : s.Xm I Js k = 0) :
    (mat v (Js.getD k 0) R)ᵀ = 0 := by
  obtain ⟨U, σ, keep, Vh, hsvd, hm, hσ, hkeep, -⟩ := hv.mat hE h hk
  have hzero : σ = 0 := by
    have h1 : Uᵀ * (U * diagonal σ * Vh) * Vhᵀ = 0 := by
      rw [← hsvd.eq, hX]; simp
    have h2 : Uᵀ * (U * diagonal σ * Vh) * Vhᵀ = diagonal σ := by
      rw [show Uᵀ * (U * diagonal σ * Vh) * Vhᵀ = (Uᵀ * U) * diagonal σ * (Vh * Vhᵀ) by simp only [Matrix.mul_assoc],
        hsvd.left, hsvd.right, Matrix.one_mul, Matrix.mul_one]
    have h3 : diagonal σ = 0 := h2.symm.trans h1
    funext i
    have := congrFun (congrFun h3 i) i
    simpa using this
  have hk0 : keep = 0 := by
    funext i
    have hm0 : 0 < min (Js.getD k 0) R := lt_of_le_of_lt (Nat.zero_le _) i.2
    have h0 := hσ ⟨0, hm0⟩
    rw [hkeep i, ← h0, hzero]
    simp
  rw [hm, LA.procrustes, hk0]
  simp

/-- C91 is false of the code: a fit of `Parafac2_ALS` without penalties to slices of zeros uses its whole budget, for
every `convergence_tol ≤ 1`, although the model is exact after the first iteration. -/
theorem C91_parafac2_fails {E : Ext} (hE : E.SVDOk) (hN : E.NNLSOk) (hQ : E.QROk) {c : P2.Config} {D : P2Data}
    {arg : InitArg P2Obj} {h0 : Heap} {s : P2State} {I : ℕ} {Js : List ℕ} (hi : P2.StartsFrom E c D arg h0 s)
    (h : s.Sized I Js c.opts.rank) (hs : s.Distinct) (hal : s.Allocated) (hA : P2.Admissible c.opts I Js.length)
    (hridge : c.opts.ridgePenalties = none) (htol : c.opts.convergenceTol ≤ 1)
    (hX : ∀ k < Js.length, ∀ i < I, ∀ j < Js.getD k 0, (nth s.X k).get [i, j] = 0)
    (hlog : c.Measurable I Js) (hfreq : freqOption c.freq ≠ 0)
    {budget : Int} {mi : Option Int} (hb : 0 < mi.getD budget) {loggers : List Logger} {file : Option H5File}
    (hS : Storing (P2.method E c) (P2.newObject h0 budget loggers file) []) :
    ∃ w', P2.fit E c D mi arg (P2.newObject h0 budget loggers file) = .ok () w' ∧ w'.it = mi.getD budget ∧
      P2.shouldStop c.opts w'.st = .ok false ∧ P2.sse w'.st = .ok 0 := by
  obtain ⟨l, sp, w', k, el, ep, ⟨ci, hw⟩, h1, h2, h3, h4, h5, h6, -, h8, -⟩ :=
    C80_fit_completes hE hN hQ hi h hs hal hA hlog hfreq (budget := budget) (mi := mi) hS
  obtain ⟨h', ci', ep', -⟩ := P2State.prepareCp_ok (E := E) hQ (o := c.opts) (h.withLoss .pinf l) (hs.loss .pinf l) hA
    (fun _ => hal)
  rw [ep] at ep'
  have hsp : sp.relChange = .pinf ∧ sp.X = s.X := by
    rw [Except.ok.inj ep']; exact ⟨rfl, rfl⟩
  -- the model is exact after every iteration
  have hz : ∀ j, (P2.orbit E c.opts sp (j + 1)).err I Js c.opts.rank = 0 ∧ (P2.orbit E c.opts sp (j + 1)).prevLoss = 0 ∧
      (P2.orbit E c.opts sp (j + 1)).relChange =
        FV.div ((P2.orbit E c.opts sp j).prevLoss - 0) (P2.orbit E c.opts sp j).prevLoss := by
    intro j
    obtain ⟨c1, w1, -, -, -, -, x1, -⟩ := p2_orbit_working hE hN hw j
    obtain ⟨s', c', f, e, hw', -, -, -, -, x2, -, -, hl, hrel, hnew, -⟩ := P2State.iteration_ok hE hN w1
    rw [p2_orbit_step hE hN hw j] at e
    obtain rfl : P2.orbit E c.opts sp (j + 1) = s' := Except.ok.inj e
    have hXm : ∀ t : P2State, t.X = s.X → ∀ k < Js.length, t.Xm I Js k = 0 := by
      intro t ht k hk
      ext i j
      show (nth t.X k).get [(i : ℕ), (j : ℕ)] = 0
      rw [ht]; exact hX k hk i i.2 j j.2
    have herr : (P2.orbit E c.opts sp (j + 1)).err I Js c.opts.rank = 0 := by
      rw [P2State.err_eq]
      refine Finset.sum_eq_zero fun k hk => ?_
      have hk := Finset.mem_range.1 hk
      have hY : (P2.orbit E c.opts sp (j + 1)).Ym Js c.opts.rank k = 0 := by
        obtain ⟨k', hlu, hn⟩ := hnew k hk
        have := newP_zero hE w1.sized hlu.lt hn (hXm _ (x1.trans hsp.2) k' hlu.lt)
        rw [hlu.size w1.sized hk] at this
        exact this
      rw [hY, hXm _ (x2.trans (x1.trans hsp.2)) k hk]
      simp [LA.fsq]
    obtain ⟨l', el', hl'⟩ := hw'.sized.loss (o := c.opts)
    rw [hl] at el'
    have hp : (P2.orbit E c.opts sp (j + 1)).prevLoss = 0 := by
      rw [Except.ok.inj el', hl' hridge, herr]
    exact ⟨herr, hp, by rw [hrel, hp]⟩
  have hgo : ∀ j, P2.shouldStop c.opts (P2.orbit E c.opts sp j) = .ok false := by
    intro j
    refine congrArg Except.ok ?_
    cases j with
    | zero => show sp.relChange.absLt _ = false; rw [hsp.1]; rfl
    | succ j =>
      rw [(hz j).2.2, sub_zero]
      by_cases hp : (P2.orbit E c.opts sp j).prevLoss = 0
      · rw [hp, FV.div, if_neg (by norm_num), if_neg (by norm_num), if_neg (by norm_num)]; rfl
      · rw [FV.div, if_pos hp, div_self hp]
        exact decide_eq_false (by rw [abs_one]; exact not_lt.2 htol)
  have hk : (k : Int) = mi.getD budget := by
    by_contra hne
    have := h6 (by omega)
    rw [h4, hgo k] at this
    cases this
  refine ⟨w', h1, by rw [h3, hk], by rw [h4]; exact hgo k, ?_⟩
  rw [h8, h4]
  cases k with
  | zero => exact absurd hk (by intro h; rw [← h] at hb; simp at hb)
  | succ k => rw [(hz k).1]

/-- The hypotheses hold for two slices of zeros of different sizes, from a random start. -/
example {E : Ext} (hE : E.SVDOk) (hN : E.NNLSOk) (hQ : E.QROk) {c : P2.Config} (hi : c.init.toLower = "random") {n : ℕ}
    {g : List ℕ → ℝ} (ho : c.opts = p2Plain 2 n g) (hlog : c.logs = []) (hfreq : c.freq = none) (h0 : Heap) :
    ∃ w', P2.fit E c (.list [full [2, 2] 0, full [2, 3] 0]) (some 1000) .none (P2.newObject h0 5 [] none) = .ok () w' ∧
      w'.it = 1000 ∧ P2.sse w'.st = .ok 0 := by
  have hr : c.opts.rank = 2 := by rw [ho]; rfl
  obtain ⟨s, h1, h2, h3, h4, -, h6⟩ := p2_startsFrom_random hQ (c := c) hi (I := 2) (Js := [2, 3])
    (Xs := [full [2, 2] 0, full [2, 3] 0]) (by decide) (.cons rfl (.cons rfl .nil)) (by decide) (by omega)
    (by rw [hr]; decide) h0
  obtain ⟨w', e1, e2, -, e4⟩ := C91_parafac2_fails hE hN hQ h1 h2 h3.distinct h4
    (by rw [ho]; exact p2Plain_admissible (by decide) (by decide) (by decide)) (by rw [ho]; rfl)
    (by rw [ho]; norm_num [p2Plain]) (by
      rw [h6]
      intro k hk i hi' j hj
      have hk' : k < 2 := hk
      interval_cases k
      · exact get_full ⟨hi', hj, trivial⟩
      · exact get_full ⟨hi', hj, trivial⟩)
    (by intro p hp; rw [hlog] at hp; cases hp) (by rw [hfreq]; decide) (budget := 5) (mi := some 1000) (by decide)
    (loggers := []) (file := none) (p2_storing_none hfreq _ _)
  exact ⟨w', e1, e2, e4⟩

/-! ## C92: the documented rule

The documentation (cp.py:25-34, 259-268) computes the relative change as `(L(X_i) - L(X_{i+1})) / L(X_{i+1})`; the
code divides by `L(X_i)`. -/

/-- C92. When a fit of `CP_ALS` (with or without constraints) ends before its budget, either the error is below
`rel_loss_tol · ‖X‖²`, or the last iteration changed the error by less than `convergence_tol` times the error before
it. The documented relative change, divided by the error after it, is then less than
`convergence_tol / (1 - convergence_tol)`. Missing for the documented rule: that it is less than `convergence_tol`
(false, see `C92_fails`). -/
theorem C92_partial {E : Ext} (hE : E.SVDOk) (hN : E.NNLSOk) (hQ : E.QROk) {c : CP.Config}
    {nonNeg orth : Option (List Bool)} {X : NDArray ℝ} (hA : CP.Admissible c.opts nonNeg orth X.shape)
    (hlog : c.Measurable) (hfreq : freqOption c.freq ≠ 0) {arg : InitArg KruskalTensor} {t : KruskalTensor}
    (hi : CP.StartsFrom E c nonNeg orth arg X t) (ht : t.WF X.shape c.opts.rank)
    {budget : Int} {mi : Option Int} (hb : 0 < mi.getD budget) {loggers : List Logger} {file : Option H5File}
    (hS : Storing (CP.method E c) (CP.newObject nonNeg orth budget loggers file) []) :
    ∃ s0 w', CP.initFit E (CP.fresh nonNeg orth) X t = .ok s0 ∧
      CP.fit E c X mi arg (CP.newObject nonNeg orth budget loggers file) = .ok () w' ∧
      (w'.it < mi.getD budget → ∃ e, CP.sse w'.st = .ok e ∧
        (e < c.opts.relLossTol * sumIdx X.shape (fun idx => X.get idx ^ 2) ∨
          ∃ (j : ℕ) (s : CPState) (p : ℝ), w'.it = j + 1 ∧ CP.iterate E c.opts j s0 = .ok s ∧ CP.sse s = .ok p ∧
            0 < p ∧ |(p - e) / p| < c.opts.convergenceTol ∧
            (c.opts.convergenceTol < 1 → 0 < e ∧
              |(p - e) / e| < c.opts.convergenceTol / (1 - c.opts.convergenceTol)))) := by
  obtain ⟨s0, w', k, e0, h1, h2, h3, h4, h5, h6, -⟩ := C74_fit_completes hE hN hQ hA hlog hfreq hi ht hb hS
  obtain ⟨s0', e0', hG, hXs, -, hrel0, -⟩ := initFit_good (E := E) hQ (old := CP.fresh nonNeg orth) rfl hA ht
  rw [e0] at e0'
  obtain rfl : s0 = s0' := Except.ok.inj e0'
  refine ⟨s0, w', e0, h1, fun hlt => ?_⟩
  have hst : w'.st = CP.orbit E c.opts s0 k := by
    rw [orbit_iterate hE hN hA.rank k hG] at h4
    exact (Except.ok.inj h4).symm
  obtain ⟨g, p⟩ := orbit_good hE hN hA.rank hG k
  have hstop := h6 (by rw [← h3]; exact hlt)
  rw [hst] at hstop ⊢
  have hpos : ∀ j, 0 ≤ (CP.orbit E c.opts s0 j).trueSSE c.opts.rank := fun j => sumIdx_nonneg fun _ _ => sq_nonneg _
  refine ⟨_, C35_sse g.sized g.cached, ?_⟩
  rcases stopped g hstop with hc | hc
  · right
    cases k with
    | zero =>
      have : (CP.orbit E c.opts s0 0).relChange = .pinf := hrel0
      rw [this] at hc
      cases hc
    | succ k =>
      obtain ⟨g', -⟩ := orbit_good hE hN hA.rank hG k
      rw [orbit_relChange hE hN hA.rank hG k] at hc
      obtain ⟨hne, hlt'⟩ := div_absLt_true hc
      have hp : 0 < (CP.orbit E c.opts s0 k).trueSSE c.opts.rank := lt_of_le_of_ne (hpos k) hne.symm
      refine ⟨k, _, _, by rw [h3]; push_cast; rfl, orbit_iterate hE hN hA.rank k hG, C35_sse g'.sized g'.cached, hp, hlt', ?_⟩
      intro h1'
      generalize (CP.orbit E c.opts s0 k).trueSSE c.opts.rank = P at hp hlt'
      generalize (CP.orbit E c.opts s0 (k + 1)).trueSSE c.opts.rank = Q at hlt'
      rw [abs_div, abs_of_pos hp, div_lt_iff₀ hp] at hlt'
      have hQ' : (1 - c.opts.convergenceTol) * P < Q := by
        have := (abs_lt.1 hlt').2
        linarith
      have hq : 0 < 1 - c.opts.convergenceTol := by linarith
      have hQ0 : 0 < Q := lt_trans (mul_pos hq hp) hQ'
      refine ⟨hQ0, ?_⟩
      rw [abs_div, abs_of_pos hQ0, div_lt_div_iff₀ hQ0 hq]
      have ht0 : 0 < c.opts.convergenceTol := by
        by_contra hcon
        have : c.opts.convergenceTol * P ≤ 0 := mul_nonpos_of_nonpos_of_nonneg (not_lt.1 hcon) hp.le
        have := abs_nonneg (P - Q)
        linarith
      calc |P - Q| * (1 - c.opts.convergenceTol)
          < c.opts.convergenceTol * P * (1 - c.opts.convergenceTol) := mul_lt_mul_of_pos_right hlt' hq
        _ = c.opts.convergenceTol * ((1 - c.opts.convergenceTol) * P) := by ring
        _ < c.opts.convergenceTol * Q := mul_lt_mul_of_pos_left hQ' ht0
  · left
    obtain ⟨hne, hlt'⟩ := div_lt_true (hpos k) hc
    have hsq : (CP.orbit E c.opts s0 k).XNorm ^ 2 = sumIdx X.shape fun idx => X.get idx ^ 2 := by
      rw [p.XNorm, hG.cached.norm, hXs, Real.sq_sqrt (sumIdx_nonneg fun _ _ => sq_nonneg _)]
    rw [hsq] at hne hlt'
    have : 0 < sumIdx X.shape fun idx => X.get idx ^ 2 :=
      lt_of_le_of_ne (sumIdx_nonneg fun _ _ => sq_nonneg _) hne.symm
    rwa [div_lt_iff₀ this] at hlt'

/-- A configuration with `convergence_tol=0.5` and `rel_loss_tol=0`. -/
def halfConfig : CP.Config :=
  ⟨⟨1, 1 / 2, 0, none⟩, "precomputed", none, true, [], fun _ _ _ _ => 0, id, fun _ => none⟩

/-- The first iteration for `diag(2, 1)` from ones: the error drops from 3 to 8/5. -/
theorem diag21_first {E : Ext} (hE : E.SVDOk) (hN : E.NNLSOk) {o : CPOpts} (ho : o.rank = 1)
    (hr : o.ridgePenalties = none) {s : CPState} (h : s.Good o) (hX : s.X = diag21)
    (hw : s.dec.weights.get [0] = 1) (hU : s.Unconstrained)
    (hf : s.dec.factorMatrices = onesKT.factorMatrices) :
    s.trueSSE o.rank = 3 ∧ (CP.orbit E o s 1).trueSSE o.rank = 8 / 5 := by
  have hXs : s.X.shape = [2, 2] := by rw [hX]; rfl
  have hx : ∀ i < 2, ∀ j < 2, s.X.get [i, j] = if i = j then (if i = 0 then 2 else 1) else 0 := by
    intro i hi j hj
    rw [hX, diag21, get_ofMat hi hj]
  have x00 : s.X.get [0, 0] = 2 := hx 0 (by omega) 0 (by omega)
  have x01 : s.X.get [0, 1] = 0 := hx 0 (by omega) 1 (by omega)
  have x10 : s.X.get [1, 0] = 0 := hx 1 (by omega) 0 (by omega)
  have x11 : s.X.get [1, 1] = 1 := hx 1 (by omega) 1 (by omega)
  have hone : ∀ i < 2, (ofMat 2 1 fun _ _ => (1 : ℝ)).get [i, 0] = 1 := fun i hi => get_ofMat hi (by omega)
  have hget0 : ∀ x y : ℝ, (ofMat 2 1 fun i _ => if i = 0 then x else y).get [0, 0] = x := fun x y => by
    rw [get_ofMat (by omega) (by omega)]; rfl
  have hget1 : ∀ x y : ℝ, (ofMat 2 1 fun i _ => if i = 0 then x else y).get [1, 0] = y := fun x y => by
    rw [get_ofMat (by omega) (by omega)]; rfl
  constructor
  · rw [CPState.trueSSE, hf, ho]
    show sqErr s.X _ [_, _] 1 = 3
    rw [sqErr22 (w := fun r => s.dec.weights.get [r]) hXs hw, err22, x00, x01, x10, x11, hone 0 (by omega), hone 1 (by omega)]
    norm_num
  · obtain ⟨s1, F, G, e1, f1, opt1, opt2⟩ := iteration22 hE ho hr h hXs hw hU hf
    obtain ⟨g1, p1⟩ := orbit_good hE hN (by omega) h 1
    have hs1 : CP.orbit E o s 1 = s1 := by
      have := orbit_step hE hN (by omega) h 0
      rw [show CP.orbit E o s 0 = s from rfl, e1] at this
      exact (Except.ok.inj this).symm
    rw [hs1] at g1 p1 ⊢
    rw [CPState.trueSSE, f1, ho, p1.X, sqErr22 (w := fun r => s1.dec.weights.get [r]) hXs
      (by show s1.dec.weights.get [0] = 1; rw [p1.weights]; exact hw)]
    have h1 := opt1 (ofMat 2 1 fun i _ => if i = 0 then 1 else 1 / 2) rfl
    have h2 := opt2 (ofMat 2 1 fun i _ => if i = 0 then 8 / 5 else 2 / 5) rfl
    simp only [err22, x00, x01, x10, x11, hone 0 (by omega), hone 1 (by omega), hget0, hget1] at h1 h2 ⊢
    generalize F.get [0, 0] = a at h1 h2 ⊢
    generalize F.get [1, 0] = b at h1 h2 ⊢
    generalize G.get [0, 0] = c at h2 ⊢
    generalize G.get [1, 0] = d at h2 ⊢
    have ha : a = 1 ∧ b = 1 / 2 := by
      have : 2 * (a - 1) ^ 2 + 2 * (b - 1 / 2) ^ 2 ≤ 0 := by nlinarith
      constructor
      · have : (a - 1) ^ 2 = 0 := le_antisymm (by nlinarith [sq_nonneg (b - 1 / 2)]) (sq_nonneg _)
        linarith [pow_eq_zero_iff (two_ne_zero) |>.1 this]
      · have : (b - 1 / 2) ^ 2 = 0 := le_antisymm (by nlinarith [sq_nonneg (a - 1)]) (sq_nonneg _)
        linarith [pow_eq_zero_iff (two_ne_zero) |>.1 this]
    obtain ⟨rfl, rfl⟩ := ha
    have hc : c = 8 / 5 ∧ d = 2 / 5 := by
      have : 5 / 4 * (c - 8 / 5) ^ 2 + 5 / 4 * (d - 2 / 5) ^ 2 ≤ 0 := by nlinarith
      constructor
      · have : (c - 8 / 5) ^ 2 = 0 := le_antisymm (by nlinarith [sq_nonneg (d - 2 / 5)]) (sq_nonneg _)
        linarith [pow_eq_zero_iff (two_ne_zero) |>.1 this]
      · have : (d - 2 / 5) ^ 2 = 0 := le_antisymm (by nlinarith [sq_nonneg (c - 8 / 5)]) (sq_nonneg _)
        linarith [pow_eq_zero_iff (two_ne_zero) |>.1 this]
    obtain ⟨rfl, rfl⟩ := hc
    norm_num

/-- C92 is false of the code: with `convergence_tol=0.5`, the fit of `diag(2, 1)` from ones stops after one iteration
whatever its budget. The error went from 3 to 1.6: the documented relative change is 0.875, which is not below 0.5. -/
theorem C92_fails {E : Ext} (hE : E.SVDOk) (hN : E.NNLSOk) (hQ : E.QROk) {budget : Int} (hb : 2 ≤ budget) :
    ∃ s0 w', CP.initFit E (CP.fresh none none) diag21 onesKT = .ok s0 ∧
      CP.fit E halfConfig diag21 (some budget) (.tensor onesKT) (CP.newObject none none budget [] none) = .ok () w' ∧
      w'.it = 1 ∧ CP.sse s0 = .ok 3 ∧ CP.sse w'.st = .ok (8 / 5) ∧ ¬ ((3 - 8 / 5) / (8 / 5) : ℝ) < 1 / 2 := by
  have hA : CP.Admissible halfConfig.opts none none diag21.shape :=
    ⟨by decide, by simp [diag21], by simp [diag21], by simp, by simp, by simp [halfConfig], by simp, by simp⟩
  have ht : onesKT.WF diag21.shape 1 := ⟨rfl, by simp [Factors, onesKT, diag21], rfl⟩
  have hi : halfConfig.init.toLower = "precomputed" := by
    show "precomputed".toLower = _
    rw [String.toLower, ← String.toList_inj, String.toList_map]; decide
  have hneg : ¬ 0 < (CP.method E halfConfig).freq := by
    show ¬ (0 : Int) < -1
    decide
  obtain ⟨s0, w', k, e0, h1, h2, h3, h4, h5, h6, -⟩ := C74_fit_completes hE hN hQ
    (c := halfConfig) (mi := some budget) (budget := budget) (loggers := []) (file := none) hA
    (by intro p hp; simp [halfConfig] at hp) (by decide) (startsFrom_precomputed hi ht) ht
    (by show 0 < budget; omega) ⟨fun h => absurd h hneg, fun h => absurd h hneg, fun h => absurd h hneg⟩
  obtain ⟨s0', e0', hG, hXs, -, hrel0, hw, hnn, hon, hdec⟩ := initFit_good (E := E) hQ (old := CP.fresh none none)
    (o := halfConfig.opts) rfl hA ht
  rw [e0] at e0'
  obtain rfl : s0 = s0' := Except.ok.inj e0'
  have hU : s0.Unconstrained := by
    refine ⟨⟨_, hnn, fun m hm => ?_⟩, ⟨_, hon, fun m hm => ?_⟩⟩ <;>
      simpa [CP.fresh, List.getElem?_replicate] using hXs ▸ hm
  obtain ⟨v0, v1⟩ := diag21_first hE hN (o := halfConfig.opts) rfl rfl hG hXs (hw 0 (by decide)) hU (hdec rfl)
  have hiter : ∀ j, CP.iterate E halfConfig.opts j s0 = .ok (CP.orbit E halfConfig.opts s0 j) := fun j =>
    orbit_iterate hE hN (by decide) j hG
  have hst : w'.st = CP.orbit E halfConfig.opts s0 k := by
    rw [hiter] at h4
    exact (Except.ok.inj h4).symm
  obtain ⟨g1, -⟩ := orbit_good hE hN (o := halfConfig.opts) (by decide) hG 1
  have hs0 : CP.shouldStop halfConfig.opts (CP.orbit E halfConfig.opts s0 0) = .ok false := by
    show CP.shouldStop halfConfig.opts s0 = .ok false
    rw [CP.shouldStop, C35_sse hG.sized hG.cached, bind_ok, hrel0]
    have b : (FV.div (s0.trueSSE halfConfig.opts.rank) (s0.XNorm ^ 2)).lt halfConfig.opts.relLossTol = false := by
      rw [v0]
      unfold FV.div
      split
      · exact decide_eq_false (not_lt.2 (div_nonneg (by norm_num) (sq_nonneg _)))
      · rw [if_pos (by norm_num)]; rfl
    rw [b]; rfl
  have hs1 : CP.shouldStop halfConfig.opts (CP.orbit E halfConfig.opts s0 1) = .ok true := by
    rw [CP.shouldStop, C35_sse g1.sized g1.cached, bind_ok, orbit_relChange hE hN (by decide) hG 0, v1]
    have a : (FV.div ((CP.orbit E halfConfig.opts s0 0).trueSSE halfConfig.opts.rank - 8 / 5)
        ((CP.orbit E halfConfig.opts s0 0).trueSSE halfConfig.opts.rank)).absLt halfConfig.opts.convergenceTol = true := by
      rw [show (CP.orbit E halfConfig.opts s0 0).trueSSE halfConfig.opts.rank = 3 from v0, FV.div,
        if_pos (by norm_num)]
      refine decide_eq_true ?_
      show |((3 : ℝ) - 8 / 5) / 3| < 1 / 2
      rw [abs_of_pos (by norm_num)]; norm_num
    rw [a]; rfl
  have hk : k = 1 := by
    rcases Nat.lt_trichotomy k 1 with hlt | heq | hgt
    · obtain rfl : k = 0 := by omega
      have := h6 (by show (0 : Int) < budget; omega)
      rw [hst, hs0] at this
      cases this
    · exact heq
    · obtain ⟨s, r1, r2⟩ := h5 1 hgt
      rw [hiter] at r1
      rw [← Except.ok.inj r1, hs1] at r2
      cases r2
  subst hk
  refine ⟨s0, w', e0, h1, h3, ?_, ?_, by norm_num⟩
  · rw [C35_sse hG.sized hG.cached]; exact congrArg Except.ok v0
  · rw [hst, C35_sse g1.sized g1.cached]; exact congrArg Except.ok v1

/-! ## Concrete cases -/

/-- A configuration with positive tolerances. -/
def tolConfig : CP.Config :=
  ⟨⟨1, 1 / 2, 1 / 10, none⟩, "precomputed", none, true, [], fun _ _ _ _ => 0, id, fun _ => none⟩

/-- The hypotheses of `C91_bound_partial` hold for `diag(2, 1)` from ones with `N = 3`: `3 · (1/2)³ < 5 · (1/10)`. -/
example {E : Ext} (hE : E.SVDOk) (hN : E.NNLSOk) (hQ : E.QROk) (budget : Int) (hb : 3 < budget) :
    ∃ w', CP.fit E tolConfig diag21 (some budget) (.tensor onesKT) (CP.newObject none none budget [] none) = .ok () w' ∧
      w'.it ≤ 3 ∧ CP.shouldStop tolConfig.opts w'.st = .ok true := by
  have hA : CP.Admissible tolConfig.opts none none diag21.shape :=
    ⟨by decide, by simp [diag21], by simp [diag21], by simp, by simp, by simp [tolConfig], by simp, by simp⟩
  have ht : onesKT.WF diag21.shape 1 := ⟨rfl, by simp [Factors, onesKT, diag21], rfl⟩
  have hi : tolConfig.init.toLower = "precomputed" := by
    show "precomputed".toLower = _
    rw [String.toLower, ← String.toList_inj, String.toList_map]; decide
  have hneg : ¬ 0 < (CP.method E tolConfig).freq := by
    show ¬ (0 : Int) < -1
    decide
  have hx : ∀ i < 2, ∀ j < 2, diag21.get [i, j] = if i = j then (if i = 0 then 2 else 1) else 0 := by
    intro i hi j hj
    rw [diag21, get_ofMat hi hj]
  have hnorm : (sumIdx diag21.shape fun idx => diag21.get idx ^ 2) = 5 := by
    show (sumIdx [2, 2] fun idx => diag21.get idx ^ 2) = 5
    simp only [sumIdx, Finset.sum_range_succ, Finset.sum_range_zero]
    rw [hx 0 (by omega) 0 (by omega), hx 0 (by omega) 1 (by omega), hx 1 (by omega) 0 (by omega),
      hx 1 (by omega) 1 (by omega)]
    norm_num
  have herr : sqErr diag21 (fun _ => 1) onesKT.factorMatrices 1 = 3 := by
    show sqErr diag21 _ [_, _] 1 = 3
    rw [sqErr22 rfl rfl, err22, hx 0 (by omega) 0 (by omega), hx 0 (by omega) 1 (by omega),
      hx 1 (by omega) 0 (by omega), hx 1 (by omega) 1 (by omega)]
    rw [get_ofMat (by omega) (by omega), get_ofMat (by omega) (by omega)]
    norm_num
  obtain ⟨w', h1, h2, h3⟩ := C91_bound_partial hE hN hQ (c := tolConfig) (N := 3) hA rfl
    (by intro p hp; simp [tolConfig] at hp) (by decide) (startsFrom_precomputed hi ht) ht
    (by norm_num [tolConfig]) (by rw [hnorm]; norm_num) (by
      show max 0 (1 - 1 / 2 : ℝ) ^ 3 * sqErr diag21 (fun _ => 1) onesKT.factorMatrices 1 < 1 / 10 * _
      rw [hnorm, herr, max_eq_right (by norm_num)]; norm_num)
    (mi := some budget) (budget := budget) (loggers := []) (file := none) (by show 0 < budget; omega)
    ⟨fun h => absurd h hneg, fun h => absurd h hneg, fun h => absurd h hneg⟩
  exact ⟨w', h1, h2, h3 hb⟩

/-- The zero matrix, for `C91_zero_fails`: the fit makes all of its iterations, here 1000. -/
example {E : Ext} (hE : E.SVDOk) (hN : E.NNLSOk) (hQ : E.QROk) :
    ∃ w', CP.fit E tolConfig (full [2, 2] 0) (some 1000) (.tensor onesKT) (CP.newObject none none 1000 [] none) =
      .ok () w' ∧ w'.it = 1000 ∧ CP.sse w'.st = .ok 0 := by
  have hA : CP.Admissible tolConfig.opts none none (full [2, 2] (0 : ℝ)).shape :=
    ⟨by decide, by simp, by simp, by simp, by simp, by simp [tolConfig], by simp, by simp⟩
  have ht : onesKT.WF (full [2, 2] (0 : ℝ)).shape 1 := ⟨rfl, by simp [Factors, onesKT], rfl⟩
  have hi : tolConfig.init.toLower = "precomputed" := by
    show "precomputed".toLower = _
    rw [String.toLower, ← String.toList_inj, String.toList_map]; decide
  have hneg : ¬ 0 < (CP.method E tolConfig).freq := by
    show ¬ (0 : Int) < -1
    decide
  obtain ⟨w', h1, h2, -, h4⟩ := C91_zero_fails hE hN hQ (c := tolConfig) hA rfl
    (by intro p hp; simp [tolConfig] at hp) (by decide) (startsFrom_precomputed hi ht) ht (by norm_num [tolConfig])
    (fun idx hv => get_full hv) (mi := some 1000) (budget := 1000) (loggers := []) (file := none) (by decide)
    ⟨fun h => absurd h hneg, fun h => absurd h hneg, fun h => absurd h hneg⟩
  exact ⟨w', h1, h2, h4⟩

end
end TK
