import Verif.Lemmas.Descent
import Verif.Props.Exact

/-!
# C102, C103: how far iterations move the model, and where they lead

Source: cp.py:300-423 (`_update_als_factor`, `_update_als_factors`, the loop and its stopping tests).
-/

namespace TK
open NDArray Fit Matrix Filter Topology
open EStateM (Result)

noncomputable section

/-! ## Iterations are sweeps -/

/-- The state before the update of mode `m`. -/
def CP.partial (E : Ext) (o : CPOpts) (s : CPState) (m : ℕ) : CPState :=
  match CP.updateModes E o (List.range m) s with
  | .ok s' => s'
  | .error _ => s

theorem partial_sweep {E : Ext} (hE : E.SVDOk) {o : CPOpts} (hridge : o.ridgePenalties = none) {s : CPState}
    (h : s.Sized o.rank) (hw : ∀ r < o.rank, s.dec.weights.get [r] = 1) (hU : s.Unconstrained) :
    (∀ m ≤ s.X.shape.length, CP.updateModes E o (List.range m) s = .ok (CP.partial E o s m) ∧ (CP.partial E o s m).Sized o.rank ∧
      s.SameProblem (CP.partial E o s m)) ∧
    Sweep s.X o.rank fun m => (CP.partial E o s m).dec.factorMatrices := by
  have hstep : ∀ m < s.X.shape.length, (CP.partial E o s m).Sized o.rank → s.SameProblem (CP.partial E o s m) →
      CP.updateModes E o (List.range m) s = .ok (CP.partial E o s m) →
      ∃ F, F.shape = [s.X.shape.getD m 0, o.rank] ∧
        CP.updateModes E o (List.range (m + 1)) s = .ok ((CP.partial E o s m).updated m o.rank F) ∧
        CP.partial E o s (m + 1) = (CP.partial E o s m).updated m o.rank F ∧
        ∀ Y : NDArray ℝ, Y.shape = [s.X.shape.getD m 0, o.rank] →
          ((CP.partial E o s m).updated m o.rank F).trueSSE o.rank ≤ ((CP.partial E o s m).updated m o.rank Y).trueSSE o.rank := by
    intro m hm hs hp e
    obtain ⟨l1, a1, b1⟩ := hU.nonNeg
    obtain ⟨l2, a2, b2⟩ := hU.orth
    obtain ⟨F, hF, eF, opt⟩ := C34_update_core hE hs (m := m) (by rw [hp.X]; exact hm) (by rw [hp.weights]; exact hw)
      ⟨⟨l1, by rw [hp.nonNeg]; exact a1, b1 m hm⟩, ⟨l2, by rw [hp.orth]; exact a2, b2 m hm⟩, Or.inl ⟨hridge, rfl⟩⟩
    rw [hp.X] at hF opt
    have e1 : CP.updateModes E o (List.range (m + 1)) s = .ok ((CP.partial E o s m).updated m o.rank F) := by
      rw [List.range_succ, CP.updateModes, List.foldlM_append]
      rw [CP.updateModes] at e
      rw [e, bind_ok, List.foldlM_cons, eF, bind_ok]; rfl
    exact ⟨F, hF, e1, by rw [CP.partial, e1], opt⟩
  have hall : ∀ m ≤ s.X.shape.length, CP.updateModes E o (List.range m) s = .ok (CP.partial E o s m) ∧
      (CP.partial E o s m).Sized o.rank ∧ s.SameProblem (CP.partial E o s m) := by
    intro m
    induction m with
    | zero => exact fun _ => ⟨rfl, h, .refl s⟩
    | succ m ih =>
      intro hm
      obtain ⟨i1, i2, i3⟩ := ih (by omega)
      obtain ⟨F, hF, e1, e2, -⟩ := hstep m hm i2 i3 i1
      rw [e2]
      exact ⟨e1, i2.updated (by rw [i3.X]; exact hF), i3.trans ⟨rfl, rfl, rfl, rfl, rfl, rfl⟩⟩
  refine ⟨hall, fun m hm => ?_, fun m hm => ?_⟩
  · obtain ⟨-, i2, i3⟩ := hall m hm
    rw [i2.wf.factors.length_eq, i3.X]
  · obtain ⟨i1, i2, i3⟩ := hall m hm.le
    obtain ⟨F, hF, e1, e2, opt⟩ := hstep m hm i2 i3 i1
    refine ⟨F, by rw [e2]; rfl, fun Y hY => ?_⟩
    have := opt Y hY
    rw [CPState.trueSSE, CPState.trueSSE] at this
    have hw' : ∀ G, ∀ r < o.rank, (((CP.partial E o s m).updated m o.rank G).dec.weights.get [r]) = 1 := by
      intro G r hr
      show (CP.partial E o s m).dec.weights.get [r] = 1
      rw [i3.weights]; exact hw r hr
    rw [sqErr_congr_weights (w' := fun _ => 1) (hw' F), sqErr_congr_weights (w' := fun _ => 1) (hw' Y)] at this
    have hX : ∀ G, ((CP.partial E o s m).updated m o.rank G).X = s.X := fun G => i3.X
    rw [hX, hX] at this
    show sqErr s.X _ (CP.partial E o s (m + 1)).dec.factorMatrices _ ≤ _
    rw [e2]
    exact this

theorem iteration_sweep {E : Ext} (hE : E.SVDOk) {o : CPOpts} (hridge : o.ridgePenalties = none) {s s' : CPState}
    (h : s.Sized o.rank) (hw : ∀ r < o.rank, s.dec.weights.get [r] = 1) (hU : s.Unconstrained)
    (e : CP.iteration E o s = .ok s') :
    s'.dec.factorMatrices = (CP.partial E o s s.X.shape.length).dec.factorMatrices := by
  obtain ⟨h1, -⟩ := partial_sweep hE hridge h hw hU
  rw [CP.iteration, CP.updateFactors, (h1 _ le_rfl).1, bind_ok, CP.updateConvergence] at e
  obtain ⟨x, -, hx⟩ := bind_eq_ok.1 e
  rw [← pure_eq_ok.1 hx]

/-- The factor matrices before the update of mode `m` in iteration `j + 1`. -/
def CP.during (E : Ext) (o : CPOpts) (s : CPState) (j m : ℕ) : List (NDArray ℝ) :=
  (CP.partial E o (CP.orbit E o s j) m).dec.factorMatrices

theorem during_zero (E : Ext) (o : CPOpts) (s : CPState) (j : ℕ) :
    CP.during E o s j 0 = (CP.orbit E o s j).dec.factorMatrices := rfl

theorem orbit_sweeps {E : Ext} (hE : E.SVDOk) (hN : E.NNLSOk) {o : CPOpts} (hr : 0 < o.rank)
    (hridge : o.ridgePenalties = none) {s : CPState} (h : s.Good o) (hw : ∀ r < o.rank, s.dec.weights.get [r] = 1)
    (hU : s.Unconstrained) : (∀ j, Sweep s.X o.rank (CP.during E o s j)) ∧
      ∀ j, CP.during E o s j s.X.shape.length = CP.during E o s (j + 1) 0 := by
  have hj : ∀ j, (CP.orbit E o s j).Good o ∧ s.SameProblem (CP.orbit E o s j) := orbit_good hE hN hr h
  refine ⟨fun j => ?_, fun j => ?_⟩
  · obtain ⟨g, p⟩ := hj j
    have := (partial_sweep hE hridge g.sized (by rw [p.weights]; exact hw) (orbit_unconstrained hE hN hr h hU j)).2
    rw [p.X] at this
    exact this
  · obtain ⟨g, p⟩ := hj j
    have := iteration_sweep hE hridge g.sized (by rw [p.weights]; exact hw) (orbit_unconstrained hE hN hr h hU j)
      (orbit_step hE hN hr h j)
    rw [p.X] at this
    exact this.symm

/-! ## C102 -/

/-- A new object without constraints starts a fit that is a sequence of sweeps. -/
theorem fit_sweeps {E : Ext} (hE : E.SVDOk) (hN : E.NNLSOk) (hQ : E.QROk) {c : CP.Config} {X : NDArray ℝ}
    (hA : CP.Admissible c.opts none none X.shape) (hridge : c.opts.ridgePenalties = none)
    {t : KruskalTensor} (ht : t.WF X.shape c.opts.rank) {s0 : CPState} (e0 : CP.initFit E (CP.fresh none none) X t = .ok s0) :
    s0.Good c.opts ∧ s0.X = X ∧ (∀ r < c.opts.rank, s0.dec.weights.get [r] = 1) ∧ s0.Unconstrained ∧
      s0.dec.factorMatrices = t.factorMatrices ∧ (∀ j, Sweep X c.opts.rank (CP.during E c.opts s0 j)) ∧
      (∀ j, CP.during E c.opts s0 j X.shape.length = CP.during E c.opts s0 (j + 1) 0) ∧
      ∀ j, (CP.orbit E c.opts s0 j).trueSSE c.opts.rank =
        sqErr X (fun _ => 1) (CP.orbit E c.opts s0 j).dec.factorMatrices c.opts.rank := by
  obtain ⟨s0', e0', hG, hXs, -, -, hw, hnn, hon, hdec⟩ := initFit_good (E := E) hQ (old := CP.fresh none none) rfl hA ht
  rw [e0] at e0'
  obtain rfl : s0 = s0' := Except.ok.inj e0'
  have hU : s0.Unconstrained := by
    refine ⟨⟨_, hnn, fun m hm => ?_⟩, ⟨_, hon, fun m hm => ?_⟩⟩ <;>
      simpa [CP.fresh, List.getElem?_replicate] using hXs ▸ hm
  obtain ⟨q1, q2⟩ := orbit_sweeps hE hN hA.rank hridge hG hw hU
  rw [hXs] at q1 q2
  refine ⟨hG, hXs, hw, hU, hdec rfl, q1, q2, fun j => ?_⟩
  obtain ⟨-, p⟩ := orbit_good hE hN hA.rank hG j
  rw [CPState.trueSSE, p.X, hXs, p.weights]
  exact sqErr_congr_weights hw

/-- **C102.** Let `CP_ALS` run without constraints and penalties. Each iteration moves the model by at most the number of modes
times the decrease of the squared error; hence all iterations together move it by at most that number times the decrease over
the whole fit. If the fit is ended by the test of the relative change, its last iteration has moved the model by at most
`convergence_tol` times the number of modes times the squared error before. (All distances are squared Frobenius norms.) -/
theorem C102_movement {E : Ext} (hE : E.SVDOk) (hN : E.NNLSOk) (hQ : E.QROk) {c : CP.Config} {X : NDArray ℝ}
    (hA : CP.Admissible c.opts none none X.shape) (hridge : c.opts.ridgePenalties = none)
    (hlog : c.Measurable) (hfreq : freqOption c.freq ≠ 0) {arg : InitArg KruskalTensor} {t : KruskalTensor}
    (hi : CP.StartsFrom E c none none arg X t) (ht : t.WF X.shape c.opts.rank)
    {budget : Int} {mi : Option Int} (hb : 0 < mi.getD budget) {loggers : List Logger} {file : Option H5File}
    (hS : Storing (CP.method E c) (CP.newObject none none budget loggers file) []) :
    ∃ s0 w', ∃ hist : ℕ → List (NDArray ℝ), ∃ k : ℕ,
      CP.fit E c X mi arg (CP.newObject none none budget loggers file) = .ok () w' ∧ w'.it = k ∧
      CP.initFit E (CP.fresh none none) X t = .ok s0 ∧
      (∀ j, ∃ s, CP.iterate E c.opts j s0 = .ok s ∧ s.dec.factorMatrices = hist j) ∧
      hist 0 = t.factorMatrices ∧ hist k = w'.st.dec.factorMatrices ∧
      (∀ j, modelDist X.shape (hist j) (hist (j + 1)) c.opts.rank ≤ X.shape.length *
        (sqErr X (fun _ => 1) (hist j) c.opts.rank - sqErr X (fun _ => 1) (hist (j + 1)) c.opts.rank)) ∧
      (∑ j ∈ Finset.range k, modelDist X.shape (hist j) (hist (j + 1)) c.opts.rank) ≤ X.shape.length *
        (sqErr X (fun _ => 1) t.factorMatrices c.opts.rank - sqErr X (fun _ => 1) w'.st.dec.factorMatrices c.opts.rank) ∧
      (∀ j, k = j + 1 → w'.st.relChange.absLt c.opts.convergenceTol = true →
        modelDist X.shape (hist j) (hist k) c.opts.rank ≤
          X.shape.length * c.opts.convergenceTol * sqErr X (fun _ => 1) (hist j) c.opts.rank) := by
  obtain ⟨s0, w', k, e0, h1, -, h3, h4, -⟩ := C74_fit_completes hE hN hQ hA hlog hfreq hi ht hb hS
  obtain ⟨hG, hXs, hw, hU, hdec, q1, q2, hsse⟩ := fit_sweeps hE hN hQ hA hridge ht e0
  have hst : w'.st = CP.orbit E c.opts s0 k := by
    rw [orbit_iterate hE hN hA.rank k hG] at h4
    exact (Except.ok.inj h4).symm
  have hstep : ∀ j, modelDist X.shape (CP.orbit E c.opts s0 j).dec.factorMatrices
      (CP.orbit E c.opts s0 (j + 1)).dec.factorMatrices c.opts.rank ≤ X.shape.length *
        (sqErr X (fun _ => 1) (CP.orbit E c.opts s0 j).dec.factorMatrices c.opts.rank -
          sqErr X (fun _ => 1) (CP.orbit E c.opts s0 (j + 1)).dec.factorMatrices c.opts.rank) := by
    intro j
    have := (q1 j).dist_le
    rw [q2 j] at this
    exact this
  refine ⟨s0, w', fun j => (CP.orbit E c.opts s0 j).dec.factorMatrices, k, h1, h3, e0,
    fun j => ⟨_, orbit_iterate hE hN hA.rank j hG, rfl⟩, hdec, by rw [hst], hstep, ?_, ?_⟩
  · refine (Finset.sum_le_sum fun j _ => hstep j).trans (le_of_eq ?_)
    rw [← Finset.mul_sum, Finset.sum_range_sub' (fun j => sqErr X (fun _ => 1) (CP.orbit E c.opts s0 j).dec.factorMatrices
      c.opts.rank), hst, ← hdec]
    rfl
  · rintro j rfl hrel
    rw [hst, orbit_relChange hE hN hA.rank hG j, hsse, hsse] at hrel
    obtain ⟨hne, hlt⟩ := div_absLt_true hrel
    have hpos : 0 < sqErr X (fun _ => 1) (CP.orbit E c.opts s0 j).dec.factorMatrices c.opts.rank :=
      lt_of_le_of_ne (sumIdx_nonneg fun _ _ => sq_nonneg _) (Ne.symm hne)
    refine (hstep j).trans ?_
    rw [mul_assoc]
    refine mul_le_mul_of_nonneg_left ?_ (Nat.cast_nonneg _)
    have h5 := (le_abs_self _).trans hlt.le
    rwa [div_le_iff₀ hpos] at h5

/-! ## C103 -/

/-- The result of a fit that uses up its budget of `n` iterations. -/
theorem full_fits {E : Ext} (hE : E.SVDOk) (hN : E.NNLSOk) (hQ : E.QROk) {c : CP.Config} {X : NDArray ℝ}
    (hA : CP.Admissible c.opts none none X.shape)
    (hlog : c.Measurable) (hfreq : freqOption c.freq ≠ 0) {arg : InitArg KruskalTensor} {t : KruskalTensor}
    (hi : CP.StartsFrom E c none none arg X t) (ht : t.WF X.shape c.opts.rank)
    {budget : Int} {loggers : List Logger} {file : Option H5File}
    (hS : Storing (CP.method E c) (CP.newObject none none budget loggers file) [])
    {res : ℕ → World CPState}
    (hres : ∀ n : ℕ, CP.fit E c X (some (n + 1)) arg (CP.newObject none none budget loggers file) = .ok () (res n))
    (hit : ∀ n : ℕ, (res n).it = n + 1) :
    ∃ s0, CP.initFit E (CP.fresh none none) X t = .ok s0 ∧ s0.Good c.opts ∧
      ∀ n, (res n).st = CP.orbit E c.opts s0 (n + 1) := by
  obtain ⟨s0, e0, hG, -⟩ := initFit_good (E := E) hQ (old := CP.fresh none none) rfl hA ht
  refine ⟨s0, e0, hG, fun n => ?_⟩
  obtain ⟨s0', w', k, e0', h1, -, h3, h4, -⟩ := C74_fit_completes hE hN hQ hA hlog hfreq hi ht
    (mi := some ((n : Int) + 1)) (budget := budget) (by simp only [Option.getD_some]; omega) hS
  rw [e0] at e0'
  obtain rfl : s0 = s0' := Except.ok.inj e0'
  obtain rfl : res n = w' := by
    have := hres n
    rw [h1] at this
    injection this with _ h
    exact h.symm
  have hk : k = n + 1 := by
    have := hit n
    rw [h3] at this
    exact_mod_cast this
  subst hk
  rw [orbit_iterate hE hN hA.rank _ hG] at h4
  exact (Except.ok.inj h4).symm

/-- **C103.** Let `CP_ALS` run without constraints and penalties, for `1, 2, 3, …` iterations from the same start, without the
stopping tests ending a fit earlier. If the entries of the resulting factor matrices converge, then no change of a single factor
matrix of the limit lowers the squared error, and the derivative of the squared error at the limit vanishes in all joint
directions. -/
theorem C103_limit {E : Ext} (hE : E.SVDOk) (hN : E.NNLSOk) (hQ : E.QROk) {c : CP.Config} {X : NDArray ℝ}
    (hA : CP.Admissible c.opts none none X.shape) (hridge : c.opts.ridgePenalties = none)
    (hlog : c.Measurable) (hfreq : freqOption c.freq ≠ 0) {arg : InitArg KruskalTensor} {t : KruskalTensor}
    (hi : CP.StartsFrom E c none none arg X t) (ht : t.WF X.shape c.opts.rank)
    {budget : Int} {loggers : List Logger} {file : Option H5File}
    (hS : Storing (CP.method E c) (CP.newObject none none budget loggers file) [])
    {res : ℕ → World CPState}
    (hres : ∀ n : ℕ, CP.fit E c X (some (n + 1)) arg (CP.newObject none none budget loggers file) = .ok () (res n))
    (hit : ∀ n : ℕ, (res n).it = n + 1) {fs : List (NDArray ℝ)} (hf : fs.length = X.shape.length)
    (hlim : FactorsTendTo atTop (fun n => (res n).st.dec.factorMatrices) fs X.shape c.opts.rank) :
    BlockOptimal X fs c.opts.rank ∧ Stationary X fs c.opts.rank := by
  obtain ⟨s0, e0, hG, hst⟩ := full_fits hE hN hQ hA hlog hfreq hi ht hS hres hit
  obtain ⟨-, hXs, hw, hU, hdec, q1, q2, -⟩ := fit_sweeps hE hN hQ hA hridge ht e0
  have h1 : BlockOptimal X fs c.opts.rank :=
    blockOptimal_of_tendsto (G := fun j => CP.during E c.opts s0 (j + 1)) (fun j => q1 (j + 1)) (fun j => q2 (j + 1)) hf
      (by simpa only [hst, during_zero] using hlim)
  exact ⟨h1, h1.stationary hf⟩

/-- **C103** for accumulation points: the same holds for the limit of a subsequence, if for each mode the rank-one terms formed
by the other modes of the limit are linearly independent. -/
theorem C103_accumulation {E : Ext} (hE : E.SVDOk) (hN : E.NNLSOk) (hQ : E.QROk) {c : CP.Config} {X : NDArray ℝ}
    (hA : CP.Admissible c.opts none none X.shape) (hridge : c.opts.ridgePenalties = none)
    (hlog : c.Measurable) (hfreq : freqOption c.freq ≠ 0) {arg : InitArg KruskalTensor} {t : KruskalTensor}
    (hi : CP.StartsFrom E c none none arg X t) (ht : t.WF X.shape c.opts.rank)
    {budget : Int} {loggers : List Logger} {file : Option H5File}
    (hS : Storing (CP.method E c) (CP.newObject none none budget loggers file) [])
    {res : ℕ → World CPState}
    (hres : ∀ n : ℕ, CP.fit E c X (some (n + 1)) arg (CP.newObject none none budget loggers file) = .ok () (res n))
    (hit : ∀ n : ℕ, (res n).it = n + 1) {fs : List (NDArray ℝ)} (hf : fs.length = X.shape.length)
    {φ : ℕ → ℕ} (hφ : StrictMono φ)
    (hlim : FactorsTendTo atTop (fun n => (res (φ n)).st.dec.factorMatrices) fs X.shape c.opts.rank)
    (hI : Independent X.shape fs c.opts.rank) :
    BlockOptimal X fs c.opts.rank ∧ Stationary X fs c.opts.rank := by
  obtain ⟨s0, e0, hG, hst⟩ := full_fits hE hN hQ hA hlog hfreq hi ht hS hres hit
  obtain ⟨-, hXs, hw, hU, hdec, q1, q2, -⟩ := fit_sweeps hE hN hQ hA hridge ht e0
  have h1 : BlockOptimal X fs c.opts.rank :=
    blockOptimal_of_cluster (G := fun j => CP.during E c.opts s0 (j + 1)) (fun j => q1 (j + 1)) (fun j => q2 (j + 1)) hf hφ
      (by simpa only [hst, during_zero] using hlim) hI
  exact ⟨h1, h1.stationary hf⟩

/-- The steps of the model tend to zero, whether or not the factor matrices converge. -/
theorem C103_steps {E : Ext} (hE : E.SVDOk) (hN : E.NNLSOk) (hQ : E.QROk) {c : CP.Config} {X : NDArray ℝ}
    (hA : CP.Admissible c.opts none none X.shape) (hridge : c.opts.ridgePenalties = none)
    (hlog : c.Measurable) (hfreq : freqOption c.freq ≠ 0) {arg : InitArg KruskalTensor} {t : KruskalTensor}
    (hi : CP.StartsFrom E c none none arg X t) (ht : t.WF X.shape c.opts.rank)
    {budget : Int} {loggers : List Logger} {file : Option H5File}
    (hS : Storing (CP.method E c) (CP.newObject none none budget loggers file) [])
    {res : ℕ → World CPState}
    (hres : ∀ n : ℕ, CP.fit E c X (some (n + 1)) arg (CP.newObject none none budget loggers file) = .ok () (res n))
    (hit : ∀ n : ℕ, (res n).it = n + 1) :
    Tendsto (fun n => modelDist X.shape (res n).st.dec.factorMatrices (res (n + 1)).st.dec.factorMatrices c.opts.rank)
      atTop (𝓝 0) := by
  obtain ⟨s0, e0, hG, hst⟩ := full_fits hE hN hQ hA hlog hfreq hi ht hS hres hit
  obtain ⟨-, hXs, hw, hU, hdec, q1, q2, -⟩ := fit_sweeps hE hN hQ hA hridge ht e0
  simp only [hst]
  have hsum : Tendsto (fun j => (X.shape.length : ℝ) * ∑ m ∈ Finset.range X.shape.length,
      modelDist X.shape (CP.during E c.opts s0 (j + 1) m) (CP.during E c.opts s0 (j + 1) (m + 1)) c.opts.rank) atTop
      (𝓝 (X.shape.length * ∑ m ∈ Finset.range X.shape.length, 0)) :=
    (tendsto_finsetSum _ fun m hm => tendsto_modelDist (G := fun j => CP.during E c.opts s0 (j + 1)) (fun j => q1 (j + 1))
      (fun j => q2 (j + 1)) (Finset.mem_range.1 hm)).const_mul _
  rw [Finset.sum_const_zero, mul_zero] at hsum
  refine squeeze_zero (fun j => sumIdx_nonneg fun _ _ => sq_nonneg _) (fun j => ?_) hsum
  have h2 := (q1 (j + 1)).dist_le
  rw [q2 (j + 1)] at h2
  refine h2.trans (le_of_eq ?_)
  rw [Finset.sum_congr rfl fun m hm => (q1 (j + 1)).dist (Finset.mem_range.1 hm), Finset.sum_range_sub', q2 (j + 1)]

/-! ## A concrete case -/

/-- A sweep for the 1 × 1 data `2` whose second matrix is `1` leads to the matrices `2` and `1`. -/
theorem sweep_one {g : ℕ → List (NDArray ℝ)} (h : Sweep (full [1, 1] 2) 1 g) (h1 : (modeMat (g 0) 1).get [0, 0] = 1) :
    (modeMat (g 2) 0).get [0, 0] = 2 ∧ (modeMat (g 2) 1).get [0, 0] = 1 := by
  have herr : ∀ fs : List (NDArray ℝ), fs.length = 2 → sqErr (full [1, 1] 2) (fun _ => 1) fs 1 =
      (2 - (modeMat fs 0).get [0, 0] * (modeMat fs 1).get [0, 0]) ^ 2 := by
    intro fs hl
    match fs, hl with
    | [F, G], _ => simp [sqErr, sumIdx, cpEntry, rankOne, get_full, modeMat, full]
  have hl0 := h.len 0 (by simp)
  have hl1 := h.len 1 (by simp [full])
  have hl2 := h.len 2 (by simp [full])
  simp only [full, List.length_cons, List.length_nil, zero_add] at hl0 hl1 hl2
  obtain ⟨F, e, opt⟩ := h.step 0 (by simp [full])
  obtain ⟨G, e', opt'⟩ := h.step 1 (by simp [full])
  have a1 := opt (full [1, 1] 2) rfl
  rw [zero_add, herr _ hl1, herr _ (by rw [List.length_set]; exact hl0), modeMat_set_self (fs := g 0) (m := 0) (hl0.symm ▸ Nat.two_pos),
    modeMat_set_ne (fs := g 0) (m := 0) (k := 1) one_ne_zero,
    get_full (s := [1, 1]) (idx := [0, 0]) ⟨by omega, by omega, trivial⟩, h1] at a1
  have b1 : (modeMat (g 1) 1).get [0, 0] = 1 := by rw [h.before (m := 1) (by simp [full]) le_rfl, h1]
  rw [b1] at a1
  have c1 : (modeMat (g 1) 0).get [0, 0] = 2 := by
    have : (2 - (modeMat (g 1) 0).get [0, 0] * 1) ^ 2 = 0 := le_antisymm (a1.trans (by norm_num)) (sq_nonneg _)
    have := pow_eq_zero_iff two_ne_zero |>.1 this
    linarith
  have a2 := opt' (full [1, 1] 1) rfl
  rw [show 1 + 1 = 2 from rfl, herr _ hl2, herr _ (by rw [List.length_set]; exact hl1), modeMat_set_self (fs := g 1) (m := 1) (hl1.symm ▸ Nat.one_lt_two),
    modeMat_set_ne (fs := g 1) (m := 1) (k := 0) zero_ne_one, get_full (s := [1, 1]) (idx := [0, 0]) ⟨by omega, by omega, trivial⟩, c1] at a2
  have b2 : (modeMat (g 2) 0).get [0, 0] = 2 := by
    rw [show 2 = 1 + 1 from rfl, e', modeMat_set_ne (by omega), c1]
  rw [b2] at a2
  refine ⟨b2, ?_⟩
  have : (2 - 2 * (modeMat (g 2) 1).get [0, 0]) ^ 2 = 0 := le_antisymm (a2.trans (by norm_num)) (sq_nonneg _)
  have := pow_eq_zero_iff two_ne_zero |>.1 this
  linarith

/-- The hypotheses of `C102_movement`, `C103_limit` and `C103_accumulation`: the data `2`, started from `1 · 1`, with zero
tolerances. All fits end with the matrices `2` and `1`, which is therefore the limit, and an accumulation point with
independent terms. -/
example {E : Ext} (hE : E.SVDOk) (hN : E.NNLSOk) (hQ : E.QROk) :
    ∃ (c : CP.Config) (t : KruskalTensor) (res : ℕ → World CPState),
      CP.Admissible c.opts none none [1, 1] ∧ c.opts.ridgePenalties = none ∧ c.Measurable ∧ freqOption c.freq ≠ 0 ∧
      CP.StartsFrom E c none none (.tensor t) (full [1, 1] 2) t ∧ t.WF [1, 1] c.opts.rank ∧
      Storing (CP.method E c) (CP.newObject none none 10 [] none) [] ∧
      (∀ n : ℕ, CP.fit E c (full [1, 1] 2) (some (n + 1)) (.tensor t) (CP.newObject none none 10 [] none) = .ok () (res n)) ∧
      (∀ n : ℕ, (res n).it = n + 1) ∧
      FactorsTendTo atTop (fun n => (res n).st.dec.factorMatrices) [full [1, 1] 2, full [1, 1] 1] [1, 1] c.opts.rank ∧
      Independent [1, 1] [full [1, 1] (2 : ℝ), full [1, 1] 1] c.opts.rank := by
  set c : CP.Config := ⟨⟨1, 0, 0, none⟩, "precomputed", none, true, [], fun _ _ _ _ => 0, id, fun _ => none⟩ with hc
  set t : KruskalTensor := ⟨1, [full [1, 1] 1, full [1, 1] 1], full [1] 1⟩ with htd
  have hA : CP.Admissible c.opts none none (full [1, 1] (2 : ℝ)).shape :=
    ⟨Nat.one_pos, by simp, by simp, by simp, by simp, by simp [hc], by simp, by simp⟩
  have ht : t.WF (full [1, 1] (2 : ℝ)).shape 1 := ⟨rfl, .cons rfl (.cons rfl .nil), rfl⟩
  have hi : c.init.toLower = "precomputed" := by
    show "precomputed".toLower = _
    rw [String.toLower, ← String.toList_inj, String.toList_map]; decide
  have hlog : c.Measurable := by intro p hp; simp [hc] at hp
  have hfreq : freqOption c.freq ≠ 0 := show freqOption none ≠ 0 by decide
  have hst := startsFrom_precomputed (E := E) (c := c) (X := full [1, 1] (2 : ℝ)) (nonNeg := none) (orth := none) hi ht
  have hS : Storing (CP.method E c) (CP.newObject none none 10 [] none) [] :=
    ⟨fun h => absurd h (show ¬ (0 : Int) < -1 by decide), fun h => absurd h (show ¬ (0 : Int) < -1 by decide),
      fun h => absurd h (show ¬ (0 : Int) < -1 by decide)⟩
  obtain ⟨s0, e0, hG0, -⟩ := initFit_good (E := E) hQ (old := CP.fresh none none) (o := c.opts) rfl hA ht
  obtain ⟨hG, hXs, hw, hU, hdec, q1, q2, -⟩ := fit_sweeps hE hN hQ hA rfl ht e0
  have hfits : ∀ n : ℕ, ∃ w', CP.fit E c (full [1, 1] 2) (some (n + 1)) (.tensor t) (CP.newObject none none 10 [] none) = .ok () w' ∧
      w'.it = n + 1 := by
    intro n
    obtain ⟨s0', w', k, e0', h1, h2, h3, h4, -, h6, -⟩ := C74_fit_completes hE hN hQ hA hlog hfreq hst ht
      (mi := some ((n : Int) + 1)) (budget := 10) (by simp only [Option.getD_some]; omega) hS
    refine ⟨w', h1, ?_⟩
    rw [e0] at e0'
    obtain rfl : s0 = s0' := Except.ok.inj e0'
    rw [orbit_iterate hE hN hA.rank k hG] at h4
    obtain rfl | hlt : k = n + 1 ∨ k < n + 1 := by simp only [Option.getD_some] at h2; omega
    · rw [h3]; push_cast; rfl
    · have := h6 (by simp only [Option.getD_some]; omega)
      rw [← Except.ok.inj h4, never_stops le_rfl le_rfl (orbit_good hE hN hA.rank hG k).1] at this
      cases this
  choose res hres hit using hfits
  obtain ⟨s0', e0', -, horb⟩ := full_fits hE hN hQ hA hlog hfreq hst ht hS hres hit
  rw [e0] at e0'
  obtain rfl : s0 = s0' := Except.ok.inj e0'
  have hone : ∀ j, (modeMat (CP.during E c.opts s0 j 0) 1).get [0, 0] = 1 := by
    intro j
    induction j with
    | zero =>
      rw [during_zero, show CP.orbit E c.opts s0 0 = s0 from rfl, hdec]
      exact get_full (s := [1, 1]) ⟨by omega, by omega, trivial⟩
    | succ j ih =>
      rw [← q2 j]
      exact (sweep_one (q1 j) ih).2
  refine ⟨c, t, res, hA, rfl, hlog, hfreq, hst, ht, hS, hres, hit, ?_, ?_⟩
  · intro m hm i hi' r hr'
    have hconst : ∀ j, (modeMat (res j).st.dec.factorMatrices m).get [i, r] =
        (modeMat [full [1, 1] 2, full [1, 1] 1] m).get [i, r] := by
      intro j
      rw [horb j, ← during_zero, ← q2 j]
      obtain ⟨a, b⟩ := sweep_one (q1 j) (hone j)
      obtain rfl : r = 0 := by simpa [hc] using hr'
      match m, hm with
      | 0, _ =>
        obtain rfl : i = 0 := by simpa using hi'
        exact a.trans (get_full (s := [1, 1]) (idx := [0, 0]) ⟨by omega, by omega, trivial⟩).symm
      | 1, _ =>
        obtain rfl : i = 0 := by simpa using hi'
        exact b.trans (get_full (s := [1, 1]) (idx := [0, 0]) ⟨by omega, by omega, trivial⟩).symm
    exact tendsto_const_nhds.congr fun j => (hconst j).symm
  · intro m hm v hv r hr'
    obtain rfl : r = 0 := by simpa [hc] using hr'
    match m, hm with
    | 0, _ =>
      have := hv [0] (by simp [Valid])
      simpa [hc, rankOne, get_full] using this
    | 1, _ =>
      have := hv [0] (by simp [Valid])
      simpa [hc, rankOne, get_full] using this

end
end TK
