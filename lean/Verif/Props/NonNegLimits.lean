import Verif.Lemmas.NonNegLimits
import Verif.Props.Stationary

/-!
# C151: limits of fits with non-negative factor matrices

Source: cp.py:300-423 (`_update_als_factor`, `_update_als_factors`, the loop), base.py:16-29
(`non_negative_rightsolve`: the update minimises the residual of the normal equations, not the squared error).
-/

namespace TK
open NDArray Fit Matrix Filter Topology
open EStateM (Result)

noncomputable section

/-! ## Iterations are sweeps -/

/-- The flags of the state: non-negativity as listed, and no orthogonality. -/
structure CPState.Flagged (s : CPState) (flags : List Bool) : Prop where
  nonNeg : s.nonNeg = some flags
  len : flags.length = s.X.shape.length
  orth : ∃ l, s.orth = some l ∧ ∀ m < s.X.shape.length, l[m]? = some false

theorem CPState.Flagged.same {s s' : CPState} {flags : List Bool} (h : s.Flagged flags) (hp : s.SameProblem s') : s'.Flagged flags := by
  obtain ⟨l, a, b⟩ := h.orth
  exact ⟨by rw [hp.nonNeg]; exact h.nonNeg, by rw [hp.X]; exact h.len, l, by rw [hp.orth]; exact a, by rw [hp.X]; exact b⟩

/-- The update of a mode, with or without the flag. -/
theorem flagged_update {E : Ext} (hE : E.SVDOk) (hN : E.NNLSOk) {o : CPOpts} (hridge : o.ridgePenalties = none) {s : CPState}
    {flags : List Bool} (h : s.Sized o.rank) (hw : ∀ r < o.rank, s.dec.weights.get [r] = 1) (hU : s.Flagged flags) {m : ℕ}
    (hm : m < s.X.shape.length) :
    ∃ F, F.shape = [s.X.shape.getD m 0, o.rank] ∧ CP.updateFactor E o m s = .ok (s.updated m o.rank F) ∧
      (flags[m]? ≠ some true → ∀ Y : NDArray ℝ, Y.shape = [s.X.shape.getD m 0, o.rank] →
        sqErr s.X (fun _ => 1) (s.dec.factorMatrices.set m F) o.rank ≤ sqErr s.X (fun _ => 1) (s.dec.factorMatrices.set m Y) o.rank) ∧
      (flags[m]? = some true → NonNeg F (s.X.shape.getD m 0) o.rank ∧ ∀ Y : NDArray ℝ, Y.shape = [s.X.shape.getD m 0, o.rank] →
        NonNeg Y (s.X.shape.getD m 0) o.rank →
        slopeSq s.X o.rank s.dec.factorMatrices m F ≤ slopeSq s.X o.rank s.dec.factorMatrices m Y) := by
  obtain ⟨l2, a2, b2⟩ := hU.orth
  have hfl : flags[m]? = some (flags[m]'(hU.len.symm ▸ hm)) := List.getElem?_eq_getElem _
  cases hb : flags[m]'(hU.len.symm ▸ hm) with
  | false =>
    rw [hb] at hfl
    obtain ⟨F, hF, eF, opt⟩ := C34_update_core hE h hm hw
      ⟨⟨flags, hU.nonNeg, hfl⟩, ⟨l2, a2, b2 m hm⟩, Or.inl ⟨hridge, rfl⟩⟩
    refine ⟨F, hF, eF, fun _ Y hY => ?_, fun h => by rw [hfl] at h; simp at h⟩
    have := opt Y hY
    rw [CPState.trueSSE, CPState.trueSSE] at this
    have hw' : ∀ G, ∀ r < o.rank, ((s.updated m o.rank G).dec.weights.get [r]) = 1 := fun G r hr => hw r hr
    rw [sqErr_congr_weights (w' := fun _ => 1) (hw' F), sqErr_congr_weights (w' := fun _ => 1) (hw' Y)] at this
    exact this
  | true =>
    rw [hb] at hfl
    obtain ⟨F, e, hF, hFn, hopt⟩ := nonneg_core hN (A := ofMat o.rank o.rank fun a b => gramProd (s.dec.factorMatrices.eraseIdx m) a b)
      (B := mttkrpMat s.X s.dec.factorMatrices m o.rank) (m := o.rank) (n := o.rank) (p := s.X.shape.getD m 0) rfl rfl
    refine ⟨F, hF, updateFactor_ok h.wf.factors h.order hm (h.dim hm)
      (getSolve_ok (nn := true) (on := false) (ridge := none) ⟨⟨flags, hU.nonNeg, hfl⟩, ⟨l2, a2, b2 m hm⟩, Or.inl ⟨hridge, rfl⟩⟩ (by simp)) e hF,
      fun h => absurd hfl h, fun _ => ⟨hFn, fun Y _ hYn => ?_⟩⟩
    rw [slopeSq_eq h.wf.factors hm, slopeSq_eq h.wf.factors hm]
    have := hopt Y hYn
    linarith

theorem flagged_sweep {E : Ext} (hE : E.SVDOk) (hN : E.NNLSOk) {o : CPOpts} (hridge : o.ridgePenalties = none) {s : CPState}
    {flags : List Bool} (h : s.Sized o.rank) (hw : ∀ r < o.rank, s.dec.weights.get [r] = 1) (hU : s.Flagged flags) :
    (∀ m ≤ s.X.shape.length, CP.updateModes E o (List.range m) s = .ok (CP.partial E o s m) ∧ (CP.partial E o s m).Sized o.rank ∧
      s.SameProblem (CP.partial E o s m)) ∧
    NonNegSweep s.X o.rank flags fun m => (CP.partial E o s m).dec.factorMatrices := by
  have hstep : ∀ m < s.X.shape.length, (CP.partial E o s m).Sized o.rank → s.SameProblem (CP.partial E o s m) →
      CP.updateModes E o (List.range m) s = .ok (CP.partial E o s m) →
      ∃ F, F.shape = [s.X.shape.getD m 0, o.rank] ∧
        CP.updateModes E o (List.range (m + 1)) s = .ok ((CP.partial E o s m).updated m o.rank F) ∧
        CP.partial E o s (m + 1) = (CP.partial E o s m).updated m o.rank F ∧
        (flags[m]? ≠ some true → ∀ Y : NDArray ℝ, Y.shape = [s.X.shape.getD m 0, o.rank] →
          sqErr s.X (fun _ => 1) ((CP.partial E o s m).dec.factorMatrices.set m F) o.rank ≤
            sqErr s.X (fun _ => 1) ((CP.partial E o s m).dec.factorMatrices.set m Y) o.rank) ∧
        (flags[m]? = some true → NonNeg F (s.X.shape.getD m 0) o.rank ∧ ∀ Y : NDArray ℝ, Y.shape = [s.X.shape.getD m 0, o.rank] →
          NonNeg Y (s.X.shape.getD m 0) o.rank →
          slopeSq s.X o.rank (CP.partial E o s m).dec.factorMatrices m F ≤ slopeSq s.X o.rank (CP.partial E o s m).dec.factorMatrices m Y) := by
    intro m hm hs hp e
    obtain ⟨F, hF, eF, opt⟩ := flagged_update hE hN hridge hs (by rw [hp.weights]; exact hw) (hU.same hp) (m := m) (by rw [hp.X]; exact hm)
    rw [hp.X] at hF opt
    have e1 : CP.updateModes E o (List.range (m + 1)) s = .ok ((CP.partial E o s m).updated m o.rank F) := by
      rw [List.range_succ, CP.updateModes, List.foldlM_append]
      rw [CP.updateModes] at e
      rw [e, bind_ok, List.foldlM_cons, eF, bind_ok]; rfl
    exact ⟨F, hF, e1, by rw [CP.partial, e1], opt⟩
  have hall : ∀ m ≤ s.X.shape.length, CP.updateModes E o (List.range m) s = .ok (CP.partial E o s m) ∧
      (CP.partial E o s m).Sized o.rank ∧ s.SameProblem (CP.partial E o s m) := by
    intro m
    induction m with
    | zero => exact fun _ => ⟨rfl, h, .refl s⟩
    | succ m ih =>
      intro hm
      obtain ⟨i1, i2, i3⟩ := ih (by omega)
      obtain ⟨F, hF, e1, e2, -⟩ := hstep m hm i2 i3 i1
      rw [e2]
      exact ⟨e1, i2.updated (by rw [i3.X]; exact hF), i3.trans ⟨rfl, rfl, rfl, rfl, rfl, rfl⟩⟩
  refine ⟨hall, fun m hm => ?_, fun m hm => ?_⟩
  · obtain ⟨-, i2, i3⟩ := hall m hm
    rw [i2.wf.factors.length_eq, i3.X]
  · obtain ⟨i1, i2, i3⟩ := hall m hm.le
    obtain ⟨F, hF, e1, e2, opt⟩ := hstep m hm i2 i3 i1
    have e3 : (CP.partial E o s (m + 1)).dec.factorMatrices = (CP.partial E o s m).dec.factorMatrices.set m F := by rw [e2]; rfl
    refine ⟨F, e3, ?_⟩
    show (_ → ∀ Y : NDArray ℝ, _ → sqErr s.X _ (CP.partial E o s (m + 1)).dec.factorMatrices _ ≤ _) ∧ _
    rw [e3]
    exact opt

theorem flagged_iteration {E : Ext} (hE : E.SVDOk) (hN : E.NNLSOk) {o : CPOpts} (hridge : o.ridgePenalties = none) {s s' : CPState}
    {flags : List Bool} (h : s.Sized o.rank) (hw : ∀ r < o.rank, s.dec.weights.get [r] = 1) (hU : s.Flagged flags)
    (e : CP.iteration E o s = .ok s') :
    s'.dec.factorMatrices = (CP.partial E o s s.X.shape.length).dec.factorMatrices := by
  obtain ⟨h1, -⟩ := flagged_sweep hE hN hridge h hw hU
  rw [CP.iteration, CP.updateFactors, (h1 _ le_rfl).1, bind_ok, CP.updateConvergence] at e
  obtain ⟨x, -, hx⟩ := bind_eq_ok.1 e
  rw [← pure_eq_ok.1 hx]

theorem flagged_orbit {E : Ext} (hE : E.SVDOk) (hN : E.NNLSOk) {o : CPOpts} (hr : 0 < o.rank)
    (hridge : o.ridgePenalties = none) {s : CPState} {flags : List Bool} (h : s.Good o)
    (hw : ∀ r < o.rank, s.dec.weights.get [r] = 1) (hU : s.Flagged flags) :
    (∀ j, NonNegSweep s.X o.rank flags (CP.during E o s j)) ∧
      ∀ j, CP.during E o s j s.X.shape.length = CP.during E o s (j + 1) 0 := by
  have hj : ∀ j, (CP.orbit E o s j).Good o ∧ s.SameProblem (CP.orbit E o s j) := orbit_good hE hN hr h
  refine ⟨fun j => ?_, fun j => ?_⟩
  · obtain ⟨g, p⟩ := hj j
    have := (flagged_sweep hE hN hridge g.sized (by rw [p.weights]; exact hw) (hU.same p)).2
    rw [p.X] at this
    exact this
  · obtain ⟨g, p⟩ := hj j
    have := flagged_iteration hE hN hridge g.sized (by rw [p.weights]; exact hw) (hU.same p) (orbit_step hE hN hr h j)
    rw [p.X] at this
    exact this.symm

/-- The results of fits of `1, 2, 3, …` iterations are the states of one run, which consists of sweeps. -/
theorem flagged_fits {E : Ext} (hE : E.SVDOk) (hN : E.NNLSOk) (hQ : E.QROk) {c : CP.Config} {flags : List Bool} {X : NDArray ℝ}
    (hA : CP.Admissible c.opts (some flags) none X.shape) (hridge : c.opts.ridgePenalties = none)
    (hlog : c.Measurable) (hfreq : freqOption c.freq ≠ 0) {arg : InitArg KruskalTensor} {t : KruskalTensor}
    (hi : CP.StartsFrom E c (some flags) none arg X t) (ht : t.WF X.shape c.opts.rank)
    {budget : Int} {loggers : List Logger} {file : Option H5File}
    (hS : Storing (CP.method E c) (CP.newObject (some flags) none budget loggers file) [])
    {res : ℕ → World CPState}
    (hres : ∀ n : ℕ, CP.fit E c X (some (n + 1)) arg (CP.newObject (some flags) none budget loggers file) = .ok () (res n))
    (hit : ∀ n : ℕ, (res n).it = n + 1) :
    ∃ s0, CP.initFit E (CP.fresh (some flags) none) X t = .ok s0 ∧ (∀ n, (res n).st = CP.orbit E c.opts s0 (n + 1)) ∧
      (∀ j, NonNegSweep X c.opts.rank flags (CP.during E c.opts s0 j)) ∧
      ∀ j, CP.during E c.opts s0 j X.shape.length = CP.during E c.opts s0 (j + 1) 0 := by
  obtain ⟨s0, e0, hG, hX, -, -, hw, hnn, hon, -⟩ := initFit_good (E := E) hQ (old := CP.fresh (some flags) none) rfl hA ht
  have hU : s0.Flagged flags := by
    refine ⟨hnn, by rw [hX]; exact hA.nonNegLen _ rfl, _, hon, fun m hm => ?_⟩
    simpa [CP.fresh, List.getElem?_replicate] using hX ▸ hm
  obtain ⟨q1, q2⟩ := flagged_orbit hE hN hA.rank hridge hG hw hU
  rw [hX] at q1 q2
  refine ⟨s0, e0, fun n => ?_, q1, q2⟩
  obtain ⟨s0', w', k, e0', h1, -, h3, h4, -⟩ := C74_fit_completes hE hN hQ hA hlog hfreq hi ht
    (mi := some ((n : Int) + 1)) (budget := budget) (by simp only [Option.getD_some]; omega) hS
  rw [e0] at e0'
  obtain rfl : s0 = s0' := Except.ok.inj e0'
  obtain rfl : res n = w' := by
    have := hres n
    rw [h1] at this
    injection this with _ h
    exact h.symm
  have hk : k = n + 1 := by
    have := hit n
    rw [h3] at this
    exact_mod_cast this
  subst hk
  rw [orbit_iterate hE hN hA.rank _ hG] at h4
  exact (Except.ok.inj h4).symm

/-! ## C151 -/

/-- **C151**, the part that holds in general: let `CP_ALS` run with non-negative factor matrices in the modes with a flag, for
`1, 2, 3, …` iterations from the same start, without the stopping tests ending a fit earlier. If the entries of the factor
matrices converge, then the limits in the modes with a flag are non-negative, no change of a factor matrix of a mode without a
flag lowers the squared error, and in the modes with a flag the limit has the smallest sum of squares of partial derivatives
among the non-negative matrices. Missing: that no admissible change of the factor matrices in the modes with a flag lowers the
squared error; this is false, see `C151_fails`. -/
theorem C151_limit_partial {E : Ext} (hE : E.SVDOk) (hN : E.NNLSOk) (hQ : E.QROk) {c : CP.Config} {flags : List Bool}
    {X : NDArray ℝ} (hA : CP.Admissible c.opts (some flags) none X.shape) (hridge : c.opts.ridgePenalties = none)
    (hlog : c.Measurable) (hfreq : freqOption c.freq ≠ 0) {arg : InitArg KruskalTensor} {t : KruskalTensor}
    (hi : CP.StartsFrom E c (some flags) none arg X t) (ht : t.WF X.shape c.opts.rank)
    {budget : Int} {loggers : List Logger} {file : Option H5File}
    (hS : Storing (CP.method E c) (CP.newObject (some flags) none budget loggers file) [])
    {res : ℕ → World CPState}
    (hres : ∀ n : ℕ, CP.fit E c X (some (n + 1)) arg (CP.newObject (some flags) none budget loggers file) = .ok () (res n))
    (hit : ∀ n : ℕ, (res n).it = n + 1) {fs : List (NDArray ℝ)} (hf : fs.length = X.shape.length)
    (hlim : FactorsTendTo atTop (fun n => (res n).st.dec.factorMatrices) fs X.shape c.opts.rank) {m : ℕ} (hm : m < X.shape.length) :
    (flags[m]? ≠ some true → ∀ Y : NDArray ℝ, Y.shape = [X.shape.getD m 0, c.opts.rank] →
      sqErr X (fun _ => 1) fs c.opts.rank ≤ sqErr X (fun _ => 1) (fs.set m Y) c.opts.rank) ∧
    (flags[m]? = some true → NonNeg (modeMat fs m) (X.shape.getD m 0) c.opts.rank ∧
      ∀ Y : NDArray ℝ, Y.shape = [X.shape.getD m 0, c.opts.rank] → NonNeg Y (X.shape.getD m 0) c.opts.rank →
        slopeSq X c.opts.rank fs m (modeMat fs m) ≤ slopeSq X c.opts.rank fs m Y) := by
  obtain ⟨s0, -, hst, q1, q2⟩ := flagged_fits hE hN hQ hA hridge hlog hfreq hi ht hS hres hit
  exact NonNegSweep.limit (G := fun j => CP.during E c.opts s0 (j + 1)) (fun j => q1 (j + 1)) (fun j => q2 (j + 1)) hf
    (by simpa only [hst, during_zero] using hlim) hm

/-- **C151** for limits inside of the admissible set: if in addition all entries of the limit in the modes with a flag are
positive, then no change of a single factor matrix lowers the squared error (not even one with negative entries), and the
derivative of the squared error at the limit vanishes in all joint directions. -/
theorem C151_interior_partial {E : Ext} (hE : E.SVDOk) (hN : E.NNLSOk) (hQ : E.QROk) {c : CP.Config} {flags : List Bool}
    {X : NDArray ℝ} (hA : CP.Admissible c.opts (some flags) none X.shape) (hridge : c.opts.ridgePenalties = none)
    (hlog : c.Measurable) (hfreq : freqOption c.freq ≠ 0) {arg : InitArg KruskalTensor} {t : KruskalTensor}
    (hi : CP.StartsFrom E c (some flags) none arg X t) (ht : t.WF X.shape c.opts.rank)
    {budget : Int} {loggers : List Logger} {file : Option H5File}
    (hS : Storing (CP.method E c) (CP.newObject (some flags) none budget loggers file) [])
    {res : ℕ → World CPState}
    (hres : ∀ n : ℕ, CP.fit E c X (some (n + 1)) arg (CP.newObject (some flags) none budget loggers file) = .ok () (res n))
    (hit : ∀ n : ℕ, (res n).it = n + 1) {fs : List (NDArray ℝ)} (hf : fs.length = X.shape.length)
    (hlim : FactorsTendTo atTop (fun n => (res n).st.dec.factorMatrices) fs X.shape c.opts.rank)
    (hpos : ∀ m < X.shape.length, flags[m]? = some true → ∀ i < X.shape.getD m 0, ∀ r < c.opts.rank, 0 < (modeMat fs m).get [i, r]) :
    BlockOptimal X fs c.opts.rank ∧ Stationary X fs c.opts.rank := by
  have h1 : BlockOptimal X fs c.opts.rank := by
    intro m hm Y hY
    obtain ⟨h1, h2⟩ := C151_limit_partial hE hN hQ hA hridge hlog hfreq hi ht hS hres hit hf hlim hm
    by_cases hfl : flags[m]? = some true
    · have hset : fs.set m (modeMat fs m) = fs := by
        rw [modeMat_eq (hf.symm ▸ hm), List.set_getElem_self]
      have := sqErr_le_of_slopes hf hm (slopes_zero_of_pos hf hm (hpos m hm hfl) (h2 hfl).2) Y hY
      rwa [hset] at this
    · exact h1 hfl Y hY
  exact ⟨h1, h1.stationary hf⟩

/-- **C151** for one component: no admissible change of a single factor matrix of the limit lowers the squared error. -/
theorem C151_one_partial {E : Ext} (hE : E.SVDOk) (hN : E.NNLSOk) (hQ : E.QROk) {c : CP.Config} {flags : List Bool}
    {X : NDArray ℝ} (hA : CP.Admissible c.opts (some flags) none X.shape) (hridge : c.opts.ridgePenalties = none)
    (hR : c.opts.rank = 1)
    (hlog : c.Measurable) (hfreq : freqOption c.freq ≠ 0) {arg : InitArg KruskalTensor} {t : KruskalTensor}
    (hi : CP.StartsFrom E c (some flags) none arg X t) (ht : t.WF X.shape c.opts.rank)
    {budget : Int} {loggers : List Logger} {file : Option H5File}
    (hS : Storing (CP.method E c) (CP.newObject (some flags) none budget loggers file) [])
    {res : ℕ → World CPState}
    (hres : ∀ n : ℕ, CP.fit E c X (some (n + 1)) arg (CP.newObject (some flags) none budget loggers file) = .ok () (res n))
    (hit : ∀ n : ℕ, (res n).it = n + 1) {fs : List (NDArray ℝ)} (hf : fs.length = X.shape.length)
    (hlim : FactorsTendTo atTop (fun n => (res n).st.dec.factorMatrices) fs X.shape c.opts.rank) :
    NonNegOptimal X fs 1 flags := by
  intro m hm Y hY hYn
  obtain ⟨h1, h2⟩ := C151_limit_partial hE hN hQ hA hridge hlog hfreq hi ht hS hres hit hf hlim hm
  rw [hR] at h1 h2
  by_cases hfl : flags[m]? = some true
  · have hset : fs.set m (modeMat fs m) = fs := by
      rw [modeMat_eq (hf.symm ▸ hm), List.set_getElem_self]
    have := sqErr_le_of_slopeSq_one hf hm hY ((h2 hfl).2 Y hY (hYn hfl))
    rwa [hset] at this
  · exact h1 hfl Y hY

/-! ## The refutation and a concrete case -/

/-- With zero tolerances all fits use all their iterations. -/
theorem flagged_full {E : Ext} (hE : E.SVDOk) (hN : E.NNLSOk) (hQ : E.QROk) {c : CP.Config} {flags : List Bool} {X : NDArray ℝ}
    (hA : CP.Admissible c.opts (some flags) none X.shape) (htol : c.opts.convergenceTol ≤ 0) (hrel : c.opts.relLossTol ≤ 0)
    (hlog : c.Measurable) (hfreq : freqOption c.freq ≠ 0) {arg : InitArg KruskalTensor} {t : KruskalTensor}
    (hi : CP.StartsFrom E c (some flags) none arg X t) (ht : t.WF X.shape c.opts.rank)
    {budget : Int} {loggers : List Logger} {file : Option H5File}
    (hS : Storing (CP.method E c) (CP.newObject (some flags) none budget loggers file) []) (n : ℕ) :
    ∃ w', CP.fit E c X (some (n + 1)) arg (CP.newObject (some flags) none budget loggers file) = .ok () w' ∧ w'.it = n + 1 := by
  obtain ⟨s0, e0, hG, -⟩ := initFit_good (E := E) hQ (old := CP.fresh (some flags) none) (o := c.opts) rfl hA ht
  obtain ⟨s0', w', k, e0', h1, h2, h3, h4, -, h6, -⟩ := C74_fit_completes hE hN hQ hA hlog hfreq hi ht
    (mi := some ((n : Int) + 1)) (budget := budget) (by simp only [Option.getD_some]; omega) hS
  refine ⟨w', h1, ?_⟩
  rw [e0] at e0'
  obtain rfl : s0 = s0' := Except.ok.inj e0'
  rw [orbit_iterate hE hN hA.rank k hG] at h4
  obtain rfl | hlt : k = n + 1 ∨ k < n + 1 := by simp only [Option.getD_some] at h2; omega
  · rw [h3]; push_cast; rfl
  · have := h6 (by simp only [Option.getD_some]; omega)
    rw [← Except.ok.inj h4, never_stops htol hrel (orbit_good hE hN hA.rank hG k).1] at this
    cases this

/-- The data of the refutation: `[[1, 0], [1, 1], [-2, 3]]`. -/
def stuckData : NDArray ℝ := ofMat 3 2 fun i j =>
  if i = 0 then (if j = 0 then 1 else 0) else if i = 1 then 1 else (if j = 0 then -2 else 3)

/-- Its first factor matrix: the identity on top of a row of zeros. -/
def stuckA : NDArray ℝ := ofMat 3 2 fun i r => if i = r then 1 else 0

/-- Its second factor matrix: `[[1, 1], [0, 1]]`. -/
def stuckB : NDArray ℝ := ofMat 2 2 fun j r => if j = 0 then 1 else if r = 0 then 0 else 1

theorem stuck_get : stuckData.shape = [3, 2] ∧ ∀ i < 3, ∀ j < 2, stuckData.get [i, j] =
    if i = 0 then (if j = 0 then 1 else 0) else if i = 1 then 1 else (if j = 0 then -2 else 3) :=
  ⟨rfl, fun _ hi _ hj => by rw [stuckData, get_ofMat hi hj]⟩

theorem stuck_row {a b P Q : ℝ} (ha : 0 ≤ a) (hb : 0 ≤ b) (hP : 0 ≤ P) (hQ : 0 ≤ Q)
    (h : P + Q + ((2 * (a + b + 2)) ^ 2 + (2 * (a + b * 2 - 1)) ^ 2) ≤ 20) : a = 0 ∧ b = 0 ∧ P = 0 ∧ Q = 0 := by
  have e : (2 * (a + b + 2)) ^ 2 + (2 * (a + b * 2 - 1)) ^ 2 = 20 + 4 * (a + b) ^ 2 + 4 * (a + 2 * b) ^ 2 + 8 * a := by ring
  rw [e] at h
  have h1 := sq_nonneg (a + b)
  have h2 := sq_nonneg (a + 2 * b)
  have h3 : a = 0 := by linarith
  subst h3
  have h4 : (0 + b) ^ 2 = 0 := by linarith
  have := pow_eq_zero_iff two_ne_zero |>.1 h4
  exact ⟨rfl, by linarith, by linarith, by linarith⟩

/-- A sweep that starts with `stuckB` leads to `stuckA` and `stuckB`. -/
theorem stuck_sweep {g : ℕ → List (NDArray ℝ)} (h : NonNegSweep stuckData 2 [true, false] g)
    (hB : ∀ j < 2, ∀ r < 2, (modeMat (g 0) 1).get [j, r] = stuckB.get [j, r]) :
    (∀ i < 3, ∀ r < 2, (modeMat (g 2) 0).get [i, r] = stuckA.get [i, r]) ∧
      ∀ j < 2, ∀ r < 2, (modeMat (g 2) 1).get [j, r] = stuckB.get [j, r] := by
  obtain ⟨hs, hx⟩ := stuck_get
  have hl0 : (g 0).length = 2 := h.len 0 (by simp)
  have hl1 : (g 1).length = 2 := h.len 1 (by rw [hs]; simp)
  obtain ⟨F, e, -, hopt⟩ := h.step 0 (by rw [hs]; simp)
  obtain ⟨hFn, hmin⟩ := hopt rfl
  obtain ⟨G, e', hfree, -⟩ := h.step 1 (by rw [hs]; simp)
  have hfree := hfree (by simp)
  have hbv : ∀ j < 2, ∀ r < 2, stuckB.get [j, r] = if j = 0 then 1 else if r = 0 then 0 else 1 := fun j hj r hr => by
    rw [stuckB, get_ofMat hj hr]
  have hav : ∀ i < 3, ∀ r < 2, stuckA.get [i, r] = if i = r then 1 else 0 := fun i hi r hr => by
    rw [stuckA, get_ofMat hi hr]
  -- the first update
  have hg0 : (g 0).eraseIdx 0 = [modeMat (g 0) 1] := by
    match hg : g 0, hl0 with
    | [A, B], _ => simp [modeMat]
  have hdot : ∀ a < 2, ∀ b < 2, restDot stuckData (g 0) 0 a b = if a = 0 ∨ b = 0 then 1 else 2 := by
    intro a ha b hb
    rw [restDot, hg0, hs]
    interval_cases a <;> interval_cases b <;>
      simp [rankOne, Finset.sum_range_succ, hB, hbv] <;> norm_num
  have hrhs : ∀ i < 3, ∀ r < 2, mttkrpEntry stuckData (g 0) 0 i r =
      if i = 0 then 1 else if i = 1 then (if r = 0 then 1 else 2) else (if r = 0 then -2 else 1) := by
    intro i hi r hr
    rw [mttkrpEntry, hg0, hs]
    interval_cases i <;> interval_cases r <;>
      simp [rankOne, Finset.sum_range_succ, hB, hbv, hx] <;> norm_num
  have hsq : ∀ Z : NDArray ℝ, slopeSq stuckData 2 (g 0) 0 Z =
      ((2 * (Z.get [0, 0] + Z.get [0, 1] - 1)) ^ 2 + (2 * (Z.get [0, 0] + Z.get [0, 1] * 2 - 1)) ^ 2) +
      ((2 * (Z.get [1, 0] + Z.get [1, 1] - 1)) ^ 2 + (2 * (Z.get [1, 0] + Z.get [1, 1] * 2 - 2)) ^ 2) +
      ((2 * (Z.get [2, 0] + Z.get [2, 1] + 2)) ^ 2 + (2 * (Z.get [2, 0] + Z.get [2, 1] * 2 - 1)) ^ 2) := by
    intro Z
    have hf : (g 0).length = stuckData.shape.length := by rw [hl0, hs]; rfl
    have hm : 0 < stuckData.shape.length := by rw [hs]; simp
    have hn : stuckData.shape.getD 0 0 = 3 := rfl
    have hform : ∀ i < 3, ∀ r < 2, entrySlope stuckData 2 (g 0) 0 Z i r =
        2 * (Z.get [i, 0] * restDot stuckData (g 0) 0 0 r + Z.get [i, 1] * restDot stuckData (g 0) 0 1 r -
          mttkrpEntry stuckData (g 0) 0 i r) := fun i hi r hr => by
      rw [entrySlope_formula hf hm Z (by rw [hn]; exact hi) hr]
      simp [Finset.sum_range_succ]
    rw [slopeSq, hn]
    simp only [Finset.sum_range_succ, Finset.sum_range_zero, zero_add]
    rw [hform 0 (by omega) 0 (by omega), hform 0 (by omega) 1 (by omega), hform 1 (by omega) 0 (by omega), hform 1 (by omega) 1 (by omega),
      hform 2 (by omega) 0 (by omega), hform 2 (by omega) 1 (by omega), hdot 0 (by omega) 0 (by omega), hdot 0 (by omega) 1 (by omega),
      hdot 1 (by omega) 0 (by omega), hdot 1 (by omega) 1 (by omega), hrhs 0 (by omega) 0 (by omega), hrhs 0 (by omega) 1 (by omega),
      hrhs 1 (by omega) 0 (by omega), hrhs 1 (by omega) 1 (by omega), hrhs 2 (by omega) 0 (by omega), hrhs 2 (by omega) 1 (by omega)]
    norm_num
  have h1 := hmin stuckA rfl (by
    intro i hi r hr
    rw [hav i hi r hr]
    split <;> norm_num)
  rw [hsq, hsq, hav 0 (by omega) 0 (by omega), hav 0 (by omega) 1 (by omega), hav 1 (by omega) 0 (by omega), hav 1 (by omega) 1 (by omega),
    hav 2 (by omega) 0 (by omega), hav 2 (by omega) 1 (by omega)] at h1
  norm_num at h1
  obtain ⟨f20, f21, p0, p1⟩ := stuck_row (hFn 2 (by decide) 0 (by omega)) (hFn 2 (by decide) 1 (by omega))
    (P := (2 * (F.get [0, 0] + F.get [0, 1] - 1)) ^ 2 + (2 * (F.get [0, 0] + F.get [0, 1] * 2 - 1)) ^ 2)
    (Q := (2 * (F.get [1, 0] + F.get [1, 1] - 1)) ^ 2 + (2 * (F.get [1, 0] + F.get [1, 1] * 2 - 2)) ^ 2)
    (by positivity) (by positivity) (by linarith [h1])
  obtain ⟨a1, a2⟩ := (add_eq_zero_iff_of_nonneg (sq_nonneg _) (sq_nonneg _)).1 p0
  obtain ⟨b1, b2⟩ := (add_eq_zero_iff_of_nonneg (sq_nonneg _) (sq_nonneg _)).1 p1
  have a1 := pow_eq_zero_iff two_ne_zero |>.1 a1
  have a2 := pow_eq_zero_iff two_ne_zero |>.1 a2
  have b1 := pow_eq_zero_iff two_ne_zero |>.1 b1
  have b2 := pow_eq_zero_iff two_ne_zero |>.1 b2
  have f01 : F.get [0, 1] = 0 := by linarith
  have f00 : F.get [0, 0] = 1 := by linarith
  have f11 : F.get [1, 1] = 1 := by linarith
  have f10 : F.get [1, 0] = 0 := by linarith
  -- the second update
  have hg1 : g 1 = [F, modeMat (g 0) 1] := by
    rw [show 1 = 0 + 1 from rfl, e]
    match hg : g 0, hl0 with
    | [A, B], _ => simp [modeMat]
  have hg2 : g 2 = [F, G] := by
    rw [show 2 = 1 + 1 from rfl, e', hg1]; rfl
  have herr : ∀ Z : NDArray ℝ, sqErr stuckData (fun _ => 1) [F, Z] 2 =
      (1 - Z.get [0, 0]) ^ 2 + Z.get [1, 0] ^ 2 + (1 - Z.get [0, 1]) ^ 2 + (1 - Z.get [1, 1]) ^ 2 + 13 := by
    intro Z
    rw [sqErr, hs]
    simp only [sumIdx, Finset.sum_range_succ, Finset.sum_range_zero, zero_add, cpEntry, rankOne, f00, f01, f10, f11, f20, f21,
      hx 0 (by omega) 0 (by omega), hx 0 (by omega) 1 (by omega), hx 1 (by omega) 0 (by omega), hx 1 (by omega) 1 (by omega),
      hx 2 (by omega) 0 (by omega), hx 2 (by omega) 1 (by omega)]
    norm_num
    ring
  have h2 := hfree stuckB rfl
  rw [show 1 + 1 = 2 from rfl, hg2, hg1, show [F, modeMat (g 0) 1].set 1 stuckB = [F, stuckB] from rfl, herr, herr,
    hbv 0 (by omega) 0 (by omega), hbv 0 (by omega) 1 (by omega), hbv 1 (by omega) 0 (by omega), hbv 1 (by omega) 1 (by omega)] at h2
  norm_num at h2
  have q1 := sq_nonneg (1 - G.get [0, 0])
  have q2 := sq_nonneg (G.get [1, 0])
  have q3 := sq_nonneg (1 - G.get [0, 1])
  have q4 := sq_nonneg (1 - G.get [1, 1])
  have g00 := pow_eq_zero_iff two_ne_zero |>.1 (show (1 - G.get [0, 0]) ^ 2 = 0 by linarith)
  have g10 := pow_eq_zero_iff two_ne_zero |>.1 (show (G.get [1, 0]) ^ 2 = 0 by linarith)
  have g01 := pow_eq_zero_iff two_ne_zero |>.1 (show (1 - G.get [0, 1]) ^ 2 = 0 by linarith)
  have g11 := pow_eq_zero_iff two_ne_zero |>.1 (show (1 - G.get [1, 1]) ^ 2 = 0 by linarith)
  rw [hg2, show modeMat [F, G] 0 = F from rfl, show modeMat [F, G] 1 = G from rfl]
  refine ⟨fun i hi r hr => ?_, fun j hj r hr => ?_⟩
  · rw [hav i hi r hr]
    interval_cases i <;> interval_cases r <;> simp [f00, f01, f10, f11, f20, f21]
  · rw [hbv j hj r hr]
    interval_cases j <;> interval_cases r <;> simp <;> linarith

/-- The start of the refutation. -/
def stuckStart : KruskalTensor := ⟨2, [stuckA, stuckB], full [2] 1⟩

/-- Its configuration: rank 2, no tolerances, start given by the caller. -/
def stuckConfig : CP.Config := ⟨⟨2, 0, 0, none⟩, "precomputed", none, true, [], fun _ _ _ _ => 0, id, fun _ => none⟩

/-- **C151** is false of the code: for the data `[[1, 0], [1, 1], [-2, 3]]` with two components and a non-negative first mode, all
fits from the start `[I; 0]`, `[[1, 1], [0, 1]]` end where they started, with the squared error 13; this is also the limit, and
writing `1/2` for the zero in the last entry of the first factor matrix gives the squared error 12.5. -/
theorem C151_fails {E : Ext} (hE : E.SVDOk) (hN : E.NNLSOk) (hQ : E.QROk) :
    ∃ res : ℕ → World CPState,
      (∀ n : ℕ, CP.fit E stuckConfig stuckData (some (n + 1)) (.tensor stuckStart) (CP.newObject (some [true, false]) none 10 [] none) =
        .ok () (res n)) ∧ (∀ n : ℕ, (res n).it = n + 1) ∧
      FactorsTendTo atTop (fun n => (res n).st.dec.factorMatrices) [stuckA, stuckB] [3, 2] 2 ∧
      NonNeg (entryMoved 3 2 stuckA 2 1 (1 / 2)) 3 2 ∧
      sqErr stuckData (fun _ => 1) [stuckA, stuckB] 2 = 13 ∧
      sqErr stuckData (fun _ => 1) [entryMoved 3 2 stuckA 2 1 (1 / 2), stuckB] 2 = 25 / 2 ∧
      ¬ NonNegOptimal stuckData [stuckA, stuckB] 2 [true, false] := by
  obtain ⟨hs, hx⟩ := stuck_get
  have hA : CP.Admissible stuckConfig.opts (some [true, false]) none stuckData.shape :=
    ⟨by decide, by simp [hs], by simp [hs], by simp [hs], by simp, by simp [stuckConfig], by simp, by simp⟩
  have ht : stuckStart.WF stuckData.shape stuckConfig.opts.rank := ⟨rfl, .cons rfl (.cons rfl .nil), rfl⟩
  have hi : stuckConfig.init.toLower = "precomputed" := by
    show "precomputed".toLower = _
    rw [String.toLower, ← String.toList_inj, String.toList_map]; decide
  have hlog : stuckConfig.Measurable := by intro p hp; simp [stuckConfig] at hp
  have hfreq : freqOption stuckConfig.freq ≠ 0 := show freqOption none ≠ 0 by decide
  have hst := startsFrom_precomputed (E := E) (c := stuckConfig) (X := stuckData) (nonNeg := some [true, false]) (orth := none) hi ht
  have hS : Storing (CP.method E stuckConfig) (CP.newObject (some [true, false]) none 10 [] none) [] :=
    ⟨fun h => absurd h (show ¬ (0 : Int) < -1 by decide), fun h => absurd h (show ¬ (0 : Int) < -1 by decide),
      fun h => absurd h (show ¬ (0 : Int) < -1 by decide)⟩
  choose res hres hit using flagged_full hE hN hQ hA le_rfl le_rfl hlog hfreq hst ht hS (budget := 10)
  obtain ⟨s0, e0, horb, q1, q2⟩ := flagged_fits hE hN hQ hA rfl hlog hfreq hst ht hS hres hit
  obtain ⟨s0', e0', -, -, -, -, -, -, -, hdec⟩ := initFit_good (E := E) hQ (old := CP.fresh (some [true, false]) none)
    (o := stuckConfig.opts) rfl hA ht
  rw [e0] at e0'
  obtain rfl : s0 = s0' := Except.ok.inj e0'
  have hB : ∀ j, ∀ i < 2, ∀ r < 2, (modeMat (CP.during E stuckConfig.opts s0 j 0) 1).get [i, r] = stuckB.get [i, r] := by
    intro j
    induction j with
    | zero =>
      intro i _ r _
      rw [during_zero, show CP.orbit E stuckConfig.opts s0 0 = s0 from rfl, hdec rfl]
      rfl
    | succ j ih =>
      rw [← q2 j]
      exact (stuck_sweep (q1 j) ih).2
  have hav : ∀ i < 3, ∀ r < 2, stuckA.get [i, r] = if i = r then 1 else 0 := fun i hi r hr => by
    rw [stuckA, get_ofMat hi hr]
  have hbv : ∀ j < 2, ∀ r < 2, stuckB.get [j, r] = if j = 0 then 1 else if r = 0 then 0 else 1 := fun j hj r hr => by
    rw [stuckB, get_ofMat hj hr]
  have hcv : ∀ i < 3, ∀ r < 2, (entryMoved 3 2 stuckA 2 1 (1 / 2)).get [i, r] = if i = 2 ∧ r = 1 then 1 / 2 else if i = r then 1 else 0 := by
    intro i hi r hr
    rw [entryMoved, get_ofMat hi hr, hav i hi r hr]
    interval_cases i <;> interval_cases r <;> simp
  have hnn : NonNeg (entryMoved 3 2 stuckA 2 1 (1 / 2)) 3 2 := by
    intro i hi r hr
    rw [hcv i hi r hr]
    split_ifs <;> norm_num
  have e1 : sqErr stuckData (fun _ => 1) [stuckA, stuckB] 2 = 13 := by
    rw [sqErr, hs]
    simp only [sumIdx, Finset.sum_range_succ, Finset.sum_range_zero, zero_add, cpEntry, rankOne, hav 0 (by omega) 0 (by omega),
      hav 0 (by omega) 1 (by omega), hav 1 (by omega) 0 (by omega), hav 1 (by omega) 1 (by omega), hav 2 (by omega) 0 (by omega),
      hav 2 (by omega) 1 (by omega), hbv 0 (by omega) 0 (by omega), hbv 0 (by omega) 1 (by omega), hbv 1 (by omega) 0 (by omega),
      hbv 1 (by omega) 1 (by omega),
      hx 0 (by omega) 0 (by omega), hx 0 (by omega) 1 (by omega), hx 1 (by omega) 0 (by omega), hx 1 (by omega) 1 (by omega),
      hx 2 (by omega) 0 (by omega), hx 2 (by omega) 1 (by omega)]
    norm_num
  have e2 : sqErr stuckData (fun _ => 1) [entryMoved 3 2 stuckA 2 1 (1 / 2), stuckB] 2 = 25 / 2 := by
    rw [sqErr, hs]
    simp only [sumIdx, Finset.sum_range_succ, Finset.sum_range_zero, zero_add, cpEntry, rankOne, hcv 0 (by omega) 0 (by omega),
      hcv 0 (by omega) 1 (by omega), hcv 1 (by omega) 0 (by omega), hcv 1 (by omega) 1 (by omega), hcv 2 (by omega) 0 (by omega),
      hcv 2 (by omega) 1 (by omega), hbv 0 (by omega) 0 (by omega), hbv 0 (by omega) 1 (by omega), hbv 1 (by omega) 0 (by omega),
      hbv 1 (by omega) 1 (by omega),
      hx 0 (by omega) 0 (by omega), hx 0 (by omega) 1 (by omega), hx 1 (by omega) 0 (by omega), hx 1 (by omega) 1 (by omega),
      hx 2 (by omega) 0 (by omega), hx 2 (by omega) 1 (by omega)]
    norm_num
  refine ⟨res, hres, hit, fun m hm i hi' r hr' => ?_, hnn, e1, e2, fun hopt => ?_⟩
  · have hconst : ∀ j, (modeMat (res j).st.dec.factorMatrices m).get [i, r] = (modeMat [stuckA, stuckB] m).get [i, r] := by
      intro j
      rw [horb j, ← during_zero, ← q2 j]
      obtain ⟨a, b⟩ := stuck_sweep (q1 j) (hB j)
      match m, hm with
      | 0, _ => exact a i hi' r hr'
      | 1, _ => exact b i hi' r hr'
    exact tendsto_const_nhds.congr fun j => (hconst j).symm
  · have := hopt 0 (by rw [hs]; simp) (entryMoved 3 2 stuckA 2 1 (1 / 2)) rfl fun _ => hnn
    rw [show [stuckA, stuckB].set 0 (entryMoved 3 2 stuckA 2 1 (1 / 2)) = [entryMoved 3 2 stuckA 2 1 (1 / 2), stuckB] from rfl, e1, e2] at this
    norm_num at this

/-- A sweep for the 1 × 1 data `2` whose second matrix is `1` leads to the matrices `2` and `1`. -/
theorem flagged_sweep_one {g : ℕ → List (NDArray ℝ)} (h : NonNegSweep (full [1, 1] 2) 1 [true, false] g)
    (h1 : (modeMat (g 0) 1).get [0, 0] = 1) :
    (modeMat (g 2) 0).get [0, 0] = 2 ∧ (modeMat (g 2) 1).get [0, 0] = 1 := by
  have hl0 : (g 0).length = 2 := h.len 0 (by simp)
  obtain ⟨F, e, -, hopt⟩ := h.step 0 (by simp [full])
  obtain ⟨hFn, hmin⟩ := hopt rfl
  obtain ⟨G, e', hfree, -⟩ := h.step 1 (by simp [full])
  have hfree := hfree (by simp)
  have h2 : (full [1, 1] (2 : ℝ)).get [0, 0] = 2 := get_full (s := [1, 1]) ⟨by omega, by omega, trivial⟩
  have hone : (full [1, 1] (1 : ℝ)).get [0, 0] = 1 := get_full (s := [1, 1]) ⟨by omega, by omega, trivial⟩
  have hg0 : (g 0).eraseIdx 0 = [modeMat (g 0) 1] := by
    match hg : g 0, hl0 with
    | [A, B], _ => simp [modeMat]
  have hsq : ∀ Z : NDArray ℝ, slopeSq (full [1, 1] 2) 1 (g 0) 0 Z = (2 * (Z.get [0, 0] - 2)) ^ 2 := by
    intro Z
    rw [slopeSq, show (full [1, 1] (2 : ℝ)).shape.getD 0 0 = 1 from rfl, Finset.sum_range_one, Finset.sum_range_one,
      entrySlope_formula (X := full [1, 1] (2 : ℝ)) (m := 0) (by rw [hl0]; rfl) (by simp [full]) Z (by simp [full]) Nat.one_pos,
      Finset.sum_range_one, restDot, mttkrpEntry, hg0, show (full [1, 1] (2 : ℝ)).shape = [1, 1] from rfl]
    simp [rankOne, h1, h2]
  have a1 := hmin (full [1, 1] 2) rfl (by
    intro i hi r hr
    obtain rfl : i = 0 := by simpa [full] using hi
    obtain rfl : r = 0 := by omega
    rw [h2]; norm_num)
  rw [hsq, hsq, h2] at a1
  have f0 : F.get [0, 0] = 2 := by
    have := pow_eq_zero_iff two_ne_zero |>.1 (le_antisymm (a1.trans (by norm_num)) (sq_nonneg _))
    linarith
  have hg1 : g 1 = [F, modeMat (g 0) 1] := by
    rw [show 1 = 0 + 1 from rfl, e]
    match hg : g 0, hl0 with
    | [A, B], _ => simp [modeMat]
  have hg2 : g 2 = [F, G] := by
    rw [show 2 = 1 + 1 from rfl, e', hg1]; rfl
  have herr : ∀ Z : NDArray ℝ, sqErr (full [1, 1] 2) (fun _ => 1) [F, Z] 1 = (2 - 2 * Z.get [0, 0]) ^ 2 := by
    intro Z
    rw [sqErr, show (full [1, 1] (2 : ℝ)).shape = [1, 1] from rfl]
    simp [sumIdx, cpEntry, rankOne, f0, h2]
  have a2 := hfree (full [1, 1] 1) rfl
  rw [show 1 + 1 = 2 from rfl, hg2, hg1, show [F, modeMat (g 0) 1].set 1 (full [1, 1] 1) = [F, full [1, 1] 1] from rfl, herr, herr, hone] at a2
  have g0 := pow_eq_zero_iff two_ne_zero |>.1 (le_antisymm (a2.trans (by norm_num)) (sq_nonneg _))
  rw [hg2]
  exact ⟨f0, show G.get [0, 0] = 1 by linarith⟩

/-- The hypotheses of `C151_limit_partial`, `C151_interior_partial` and `C151_one_partial`: the data `2`, started from `1 · 1`, with a
non-negative first mode and zero tolerances. All fits end with the matrices `2` and `1`, and the limit is positive. -/
example {E : Ext} (hE : E.SVDOk) (hN : E.NNLSOk) (hQ : E.QROk) :
    ∃ (c : CP.Config) (t : KruskalTensor) (res : ℕ → World CPState),
      CP.Admissible c.opts (some [true, false]) none [1, 1] ∧ c.opts.ridgePenalties = none ∧ c.opts.rank = 1 ∧ c.Measurable ∧
      freqOption c.freq ≠ 0 ∧
      CP.StartsFrom E c (some [true, false]) none (.tensor t) (full [1, 1] 2) t ∧ t.WF [1, 1] c.opts.rank ∧
      Storing (CP.method E c) (CP.newObject (some [true, false]) none 10 [] none) [] ∧
      (∀ n : ℕ, CP.fit E c (full [1, 1] 2) (some (n + 1)) (.tensor t) (CP.newObject (some [true, false]) none 10 [] none) = .ok () (res n)) ∧
      (∀ n : ℕ, (res n).it = n + 1) ∧
      FactorsTendTo atTop (fun n => (res n).st.dec.factorMatrices) [full [1, 1] 2, full [1, 1] 1] [1, 1] c.opts.rank ∧
      ∀ m < 2, [true, false][m]? = some true → ∀ i < [1, 1].getD m 0, ∀ r < c.opts.rank,
        0 < (modeMat [full [1, 1] (2 : ℝ), full [1, 1] 1] m).get [i, r] := by
  set c : CP.Config := ⟨⟨1, 0, 0, none⟩, "precomputed", none, true, [], fun _ _ _ _ => 0, id, fun _ => none⟩ with hc
  set t : KruskalTensor := ⟨1, [full [1, 1] 1, full [1, 1] 1], full [1] 1⟩ with htd
  have hA : CP.Admissible c.opts (some [true, false]) none (full [1, 1] (2 : ℝ)).shape :=
    ⟨Nat.one_pos, by simp, by simp, by simp, by simp, by simp [hc], by simp, by simp⟩
  have ht : t.WF (full [1, 1] (2 : ℝ)).shape 1 := ⟨rfl, .cons rfl (.cons rfl .nil), rfl⟩
  have hi : c.init.toLower = "precomputed" := by
    show "precomputed".toLower = _
    rw [String.toLower, ← String.toList_inj, String.toList_map]; decide
  have hlog : c.Measurable := by intro p hp; simp [hc] at hp
  have hfreq : freqOption c.freq ≠ 0 := show freqOption none ≠ 0 by decide
  have hst := startsFrom_precomputed (E := E) (c := c) (X := full [1, 1] (2 : ℝ)) (nonNeg := some [true, false]) (orth := none) hi ht
  have hS : Storing (CP.method E c) (CP.newObject (some [true, false]) none 10 [] none) [] :=
    ⟨fun h => absurd h (show ¬ (0 : Int) < -1 by decide), fun h => absurd h (show ¬ (0 : Int) < -1 by decide),
      fun h => absurd h (show ¬ (0 : Int) < -1 by decide)⟩
  choose res hres hit using flagged_full hE hN hQ hA le_rfl le_rfl hlog hfreq hst ht hS (budget := 10)
  obtain ⟨s0, e0, horb, q1, q2⟩ := flagged_fits hE hN hQ hA rfl hlog hfreq hst ht hS hres hit
  obtain ⟨s0', e0', -, -, -, -, -, -, -, hdec⟩ := initFit_good (E := E) hQ (old := CP.fresh (some [true, false]) none)
    (o := c.opts) rfl hA ht
  rw [e0] at e0'
  obtain rfl : s0 = s0' := Except.ok.inj e0'
  have hone : ∀ j, (modeMat (CP.during E c.opts s0 j 0) 1).get [0, 0] = 1 := by
    intro j
    induction j with
    | zero =>
      rw [during_zero, show CP.orbit E c.opts s0 0 = s0 from rfl, hdec rfl]
      exact get_full (s := [1, 1]) ⟨by omega, by omega, trivial⟩
    | succ j ih =>
      rw [← q2 j]
      exact (flagged_sweep_one (q1 j) ih).2
  refine ⟨c, t, res, hA, rfl, rfl, hlog, hfreq, hst, ht, hS, hres, hit, ?_, ?_⟩
  · intro m hm i hi' r hr'
    have hconst : ∀ j, (modeMat (res j).st.dec.factorMatrices m).get [i, r] =
        (modeMat [full [1, 1] 2, full [1, 1] 1] m).get [i, r] := by
      intro j
      rw [horb j, ← during_zero, ← q2 j]
      obtain ⟨a, b⟩ := flagged_sweep_one (q1 j) (hone j)
      obtain rfl : r = 0 := by simpa [hc] using hr'
      match m, hm with
      | 0, _ =>
        obtain rfl : i = 0 := by simpa using hi'
        exact a.trans (get_full (s := [1, 1]) (idx := [0, 0]) ⟨by omega, by omega, trivial⟩).symm
      | 1, _ =>
        obtain rfl : i = 0 := by simpa using hi'
        exact b.trans (get_full (s := [1, 1]) (idx := [0, 0]) ⟨by omega, by omega, trivial⟩).symm
    exact tendsto_const_nhds.congr fun j => (hconst j).symm
  · intro m hm hfl i hi' r hr'
    obtain rfl : r = 0 := by simpa [hc] using hr'
    match m, hm with
    | 0, _ =>
      obtain rfl : i = 0 := by simpa using hi'
      rw [show (modeMat [full [1, 1] (2 : ℝ), full [1, 1] 1] 0).get [0, 0] = 2 from
        get_full (s := [1, 1]) (idx := [0, 0]) ⟨by omega, by omega, trivial⟩]
      norm_num
    | 1, _ => simp at hfl

end

end TK
