import Verif.Props.CPInit
import Verif.Props.CPConstrained
import Verif.Props.Checkpoints
import Verif.Props.Serialize

/-!
# Whole fits of `CP_ALS`: C47, C56 (CP part), C74
-/

namespace TK
open NDArray
open EStateM (Result)
open Fit

noncomputable section

/-! ## Iterations never fail -/

/-- A state in which everything needed for an iteration is in order. -/
structure CPState.Good (o : CPOpts) (s : CPState) : Prop where
  sized : s.Sized o.rank
  cached : s.Cached o.rank
  config : ∀ m < s.X.shape.length, ∃ nn on ridge, s.ModeConfig o m nn on ridge ∧ ¬ (nn = true ∧ on = true)
  prev : s.prevSSE = s.trueSSE o.rank

/-- What an iteration leaves alone. -/
structure CPState.SameProblem (s t : CPState) : Prop where
  X : t.X = s.X
  XNorm : t.XNorm = s.XNorm
  nonNeg : t.nonNeg = s.nonNeg
  orth : t.orth = s.orth
  weights : t.dec.weights = s.dec.weights
  rank : t.dec.rank = s.dec.rank

theorem CPState.SameProblem.refl (s : CPState) : s.SameProblem s := ⟨rfl, rfl, rfl, rfl, rfl, rfl⟩

theorem CPState.SameProblem.trans {s t u : CPState} (h1 : s.SameProblem t) (h2 : t.SameProblem u) :
    s.SameProblem u :=
  ⟨h2.X.trans h1.X, h2.XNorm.trans h1.XNorm, h2.nonNeg.trans h1.nonNeg, h2.orth.trans h1.orth,
    h2.weights.trans h1.weights, h2.rank.trans h1.rank⟩

theorem updateModes_total {E : Ext} (hE : E.SVDOk) (hN : E.NNLSOk) {o : CPOpts} (hr : 0 < o.rank) :
    ∀ (modes : List ℕ) (s : CPState), s.Sized o.rank → s.Cached o.rank →
      (∀ m < s.X.shape.length, ∃ nn on ridge, s.ModeConfig o m nn on ridge ∧ ¬ (nn = true ∧ on = true)) →
      (∀ m ∈ modes, m < s.X.shape.length) →
      ∃ s', CP.updateModes E o modes s = .ok s' ∧ s.SameProblem s' ∧ s'.Sized o.rank ∧ s'.Cached o.rank ∧
        s'.prevSSE = s.prevSSE := by
  intro modes
  induction modes with
  | nil => intro s h hc _ _; exact ⟨s, rfl, .refl s, h, hc, rfl⟩
  | cons k ks ih =>
    intro s h hcc hcfg hmodes
    have hk := hmodes k (by simp)
    obtain ⟨nn, on, ridge, hc, hb⟩ := hcfg k hk
    obtain ⟨F, -, hF, hu⟩ := updateFactor_total hE hN h hr hk hc hb
    obtain ⟨s', e, h1, h2, h3, h4⟩ := ih (s.updated k o.rank F) (h.updated hF) (hcc.updated hk)
      (fun m hm => by
        obtain ⟨nn, on, ridge, hc, hb⟩ := hcfg m hm
        exact ⟨nn, on, ridge, ⟨hc.nonNeg, hc.orth, hc.ridge⟩, hb⟩)
      (fun m hm => hmodes m (by simp [hm]))
    refine ⟨s', ?_, ?_, h2, h3, h4⟩
    · rw [CP.updateModes, List.foldlM_cons, hu, bind_ok]; exact e
    · exact CPState.SameProblem.trans (t := s.updated k o.rank F) ⟨rfl, rfl, rfl, rfl, rfl, rfl⟩ h1

theorem iteration_total {E : Ext} (hE : E.SVDOk) (hN : E.NNLSOk) {o : CPOpts} (hr : 0 < o.rank) {s : CPState}
    (h : s.Good o) : ∃ s', CP.iteration E o s = .ok s' ∧ s'.Good o ∧ s.SameProblem s' ∧
      s'.relChange = FV.div (s.prevSSE - s'.trueSSE o.rank) s.prevSSE := by
  obtain ⟨s1, e1, h1, h2, h3, h4⟩ := updateModes_total hE hN hr (List.range s.X.shape.length) s h.sized h.cached
    h.config (by simp)
  have hit : CP.iteration E o s = .ok (s1.withSSE (s1.trueSSE o.rank)) := by
    rw [CP.iteration, CP.updateFactors, e1, bind_ok, CP.updateConvergence, C35_sse h2 h3, bind_ok]; rfl
  refine ⟨_, hit, ⟨h2.withSSE _, h3.withSSE _, fun m hm => ?_, rfl⟩,
    ⟨h1.X, h1.XNorm, h1.nonNeg, h1.orth, h1.weights, h1.rank⟩, ?_⟩
  · obtain ⟨nn, on, ridge, hc, hb⟩ := h.config m (by
      have : m < s1.X.shape.length := hm
      rwa [h1.X] at this)
    refine ⟨nn, on, ridge, ⟨?_, ?_, hc.ridge⟩, hb⟩
    · have : (s1.withSSE (s1.trueSSE o.rank)).nonNeg = s.nonNeg := h1.nonNeg
      rw [this]; exact hc.nonNeg
    · have : (s1.withSSE (s1.trueSSE o.rank)).orth = s.orth := h1.orth
      rw [this]; exact hc.orth
  · simp only [CPState.withSSE, h4]; rfl

/-- The state after `j` iterations (an iteration that would raise leaves the state as it is; by
`orbit_step` this does not happen). -/
def CP.orbit (E : Ext) (o : CPOpts) (s : CPState) : ℕ → CPState
  | 0 => s
  | j + 1 => match CP.iteration E o (CP.orbit E o s j) with
    | .ok s' => s'
    | .error _ => CP.orbit E o s j

theorem orbit_good {E : Ext} (hE : E.SVDOk) (hN : E.NNLSOk) {o : CPOpts} (hr : 0 < o.rank) {s : CPState}
    (h : s.Good o) : ∀ j, (CP.orbit E o s j).Good o ∧ s.SameProblem (CP.orbit E o s j)
  | 0 => ⟨h, .refl s⟩
  | j + 1 => by
    obtain ⟨h1, h2⟩ := orbit_good hE hN hr h j
    obtain ⟨s', e, h3, h4, -⟩ := iteration_total hE hN hr h1
    rw [CP.orbit, e]
    exact ⟨h3, h2.trans h4⟩

theorem orbit_step {E : Ext} (hE : E.SVDOk) (hN : E.NNLSOk) {o : CPOpts} (hr : 0 < o.rank) {s : CPState}
    (h : s.Good o) (j : ℕ) : CP.iteration E o (CP.orbit E o s j) = .ok (CP.orbit E o s (j + 1)) := by
  obtain ⟨s', e, -⟩ := iteration_total hE hN hr (orbit_good hE hN hr h j).1
  rw [CP.orbit, e]

theorem orbit_iterate {E : Ext} (hE : E.SVDOk) (hN : E.NNLSOk) {o : CPOpts} (hr : 0 < o.rank) :
    ∀ (j : ℕ) {s : CPState}, s.Good o → CP.iterate E o j s = .ok (CP.orbit E o s j) := by
  have hshift : ∀ (j : ℕ) (s : CPState), CP.orbit E o s (j + 1) =
      CP.orbit E o (CP.orbit E o s 1) j := by
    intro j s
    induction j with
    | zero => rfl
    | succ j ih => rw [CP.orbit, ih]; rfl
  intro j
  induction j with
  | zero => intro s _; rfl
  | succ j ih =>
    intro s h
    have h0 : CP.iteration E o s = .ok (CP.orbit E o s 1) := orbit_step hE hN hr h 0
    rw [CP.iterate, h0, bind_ok, ih (orbit_good hE hN hr h 1).1]
    exact congrArg Except.ok (hshift j s).symm

/-- The test to stop never fails. -/
theorem shouldStop_total {o : CPOpts} {s : CPState} (h : s.Good o) : ∃ b, CP.shouldStop o s = .ok b := by
  rw [CP.shouldStop, C35_sse h.sized h.cached, bind_ok]; exact ⟨_, rfl⟩

/-- The first index below the budget where the run stops, or the budget. -/
theorem exists_stop {P : ℕ → Prop} (N : ℕ) : ∃ k ≤ N, (∀ j < k, ¬ P j) ∧ (k < N → P k) := by
  induction N with
  | zero => exact ⟨0, le_rfl, by simp, by simp⟩
  | succ N ih =>
    obtain ⟨k, h1, h2, h3⟩ := ih
    by_cases hk : k < N
    · exact ⟨k, by omega, h2, fun _ => h3 hk⟩
    · by_cases hP : P k
      · exact ⟨k, by omega, h2, fun _ => hP⟩
      · refine ⟨k + 1, by omega, fun j hj => ?_, fun h => by omega⟩
        by_cases hjk : j = k
        · subst hjk; exact hP
        · exact h2 j (by omega)

/-! ## C74: a fit with valid arguments completes -/

/-- The loggers of the configuration can measure every good state. -/
def CP.Config.Measurable (c : CP.Config) : Prop :=
  ∀ p ∈ c.logs, ∀ s : CPState, s.Good c.opts → ∃ v, p.2 s = .ok v

/-- The loggers for the loss and the SSE can always measure. -/
theorem measurable_loss_sse (o : CPOpts) (s : CPState) (h : s.Good o) :
    (∃ v, CP.sse s = .ok v) ∧ ∃ v, CP.loss o s = .ok v := by
  refine ⟨⟨_, C35_sse h.sized h.cached⟩, ?_⟩
  rw [CP.loss, C35_sse h.sized h.cached, bind_ok]
  cases o.ridgePenalties with
  | none => exact ⟨_, rfl⟩
  | some ps => exact ⟨_, rfl⟩

theorem cp_trajectory {E : Ext} (hE : E.SVDOk) (hN : E.NNLSOk) {c : CP.Config} (hr : 0 < c.opts.rank)
    (hlog : c.Measurable) {s : CPState} (h : s.Good c.opts) {k : ℕ}
    (hgo : ∀ j < k, CP.shouldStop c.opts (CP.orbit E c.opts s j) = .ok false) :
    Trajectory (CP.method E c) (CP.orbit E c.opts s) k where
  step := fun j _ => orbit_step hE hN hr h j
  go := fun j hj => hgo j hj
  log := fun j _ p hp => hlog p hp _ (orbit_good hE hN hr h (j + 1)).1
  store := fun _ _ => ⟨_, kruskal_storeIn_eq _⟩

/-- The constraints and penalties of a configuration are admissible for a tensor with `d` modes: one penalty and
one flag per mode (if given), no mode with both constraints, and not more components than rows in the modes with
orthonormal columns. -/
structure CP.Admissible (o : CPOpts) (nonNeg orth : Option (List Bool)) (shape : List ℕ) : Prop where
  rank : 0 < o.rank
  order : 2 ≤ shape.length
  nonempty : ∀ n ∈ shape, n ≠ 0
  nonNegLen : ∀ l, nonNeg = some l → l.length = shape.length
  orthLen : ∀ l, orth = some l → l.length = shape.length
  ridgeLen : ∀ l, o.ridgePenalties = some l → l.length = shape.length
  orthRows : ∀ l, orth = some l → ∀ k : ℕ, l[k]? = some true → o.rank ≤ shape.getD k 0
  notBoth : ∀ l l', nonNeg = some l → orth = some l' → ∀ k : ℕ, ¬ (l[k]? = some true ∧ l'[k]? = some true)

/-- The start of a fit of a new object, or of one without any update so far. -/
theorem initFit_good {E : Ext} (hQ : E.QROk) {o : CPOpts} {old : CPState} {X : NDArray ℝ} {t : KruskalTensor}
    (hold : old.lastMode = none) (hA : CP.Admissible o old.nonNeg old.orth X.shape) (ht : t.WF X.shape o.rank) :
    ∃ s, CP.initFit E old X t = .ok s ∧ s.Good o ∧ s.X = X ∧ s.lastMode = none ∧ s.relChange = .pinf ∧
      (∀ r < o.rank, s.dec.weights.get [r] = 1) ∧
      s.nonNeg = some (old.nonNeg.getD (List.replicate X.shape.length false)) ∧
      s.orth = some (old.orth.getD (List.replicate X.shape.length false)) ∧
      (old.orth = none → s.dec.factorMatrices = t.factorMatrices) := by
  obtain ⟨s, e, hS, hC, hX, hl, hw, hp, hrel, hnn, hon, -, hdec⟩ := C35_init (E := E) hQ (old := old) (R := o.rank)
    hold ht hA.order hA.nonempty (fun l hl => ⟨(hA.orthLen l hl).le, hA.orthRows l hl⟩)
  refine ⟨s, e, ⟨hS, hC, fun m hm => ?_, hp⟩, hX, hl, hrel, hw, hnn, hon, hdec⟩
  rw [hX] at hm
  have hlen1 : (old.nonNeg.getD (List.replicate X.shape.length false)).length = X.shape.length := by
    cases hq : old.nonNeg with
    | none => simp
    | some l => simpa using hA.nonNegLen l hq
  have hlen2 : (old.orth.getD (List.replicate X.shape.length false)).length = X.shape.length := by
    cases hq : old.orth with
    | none => simp
    | some l => simpa using hA.orthLen l hq
  obtain ⟨ridge, hridge⟩ : ∃ ridge, (o.ridgePenalties = none ∧ ridge = none) ∨
      ∃ ps l, o.ridgePenalties = some ps ∧ ps[m]? = some l ∧ ridge = some l := by
    cases hq : o.ridgePenalties with
    | none => exact ⟨none, Or.inl ⟨rfl, rfl⟩⟩
    | some ps =>
      have := hA.ridgeLen ps hq
      exact ⟨_, Or.inr ⟨ps, ps[m]'(by omega), rfl, List.getElem?_eq_getElem _, rfl⟩⟩
  refine ⟨_, _, ridge, ⟨⟨_, hnn, List.getElem?_eq_getElem (by omega)⟩, ⟨_, hon, List.getElem?_eq_getElem (by omega)⟩,
    hridge⟩, ?_⟩
  rintro ⟨h1, h2⟩
  cases hq1 : old.nonNeg with
  | none => simp [hq1] at h1
  | some l =>
    cases hq2 : old.orth with
    | none => simp [hq2] at h2
    | some l' =>
      simp only [hq1, hq2, Option.getD_some] at h1 h2 hlen1 hlen2
      refine hA.notBoth l l' hq1 hq2 m ⟨?_, ?_⟩
      · rw [List.getElem?_eq_getElem (by omega), h1]
      · rw [List.getElem?_eq_getElem (by omega), h2]

/-- `fit` up to the loop, once `init_components` has succeeded with the decomposition `t`. -/
theorem fit_unfold {E : Ext} {c : CP.Config} {X : NDArray ℝ} {mi : Option Int} {arg : InitArg KruskalTensor}
    {w : World CPState} {t : KruskalTensor} {n : Int} {s : CPState}
    (hinit : CP.initComponents E c arg { w with it := 0, st := { w.st with X := X, XNorm := frobNorm X } } =
      .ok () { w with it := n, st := { w.st with X := X, XNorm := frobNorm X, dec := t } })
    (hs : CP.initFit E { w.st with X := X, XNorm := frobNorm X, dec := t } X t = .ok s) :
    CP.fit E c X mi arg w = run (CP.method E c) { w with it := n, maxIts := mi.getD w.maxIts, st := s } := by
  unfold CP.fit Fit.fit Fit.initFit
  simp only [bind_assoc]
  rw [bind_of_ok (modify_def _ _), bind_of_ok (modifySt_ok (s := { w.st with X := X, XNorm := frobNorm X }) rfl),
    bind_of_ok hinit]
  cases mi with
  | none =>
    rw [bind_of_ok (show setMaxIts none _ = .ok () _ from rfl), bind_of_ok (modifySt_ok hs)]; rfl
  | some v =>
    rw [bind_of_ok (show setMaxIts (some v) _ = .ok () _ from rfl), bind_of_ok (modifySt_ok hs)]; rfl

/-- `init_components` of a new `CP_ALS` object for the tensor `X` gives the decomposition `t`. -/
def CP.StartsFrom (E : Ext) (c : CP.Config) (nonNeg orth : Option (List Bool)) (arg : InitArg KruskalTensor)
    (X : NDArray ℝ) (t : KruskalTensor) : Prop :=
  ∀ budget loggers file,
    CP.initComponents E c arg { CP.newObject nonNeg orth budget loggers file with
      it := 0, st := { CP.fresh nonNeg orth with X := X, XNorm := frobNorm X } } =
    .ok () { CP.newObject nonNeg orth budget loggers file with
      it := 0, st := { CP.fresh nonNeg orth with X := X, XNorm := frobNorm X, dec := t } }

theorem startsFrom_precomputed {E : Ext} {c : CP.Config} {nonNeg orth : Option (List Bool)} {X : NDArray ℝ}
    (hi : c.init.toLower = "precomputed") {t : KruskalTensor} (ht : t.WF X.shape c.opts.rank) :
    CP.StartsFrom E c nonNeg orth (.tensor t) X t := by
  intro budget loggers file
  have hchk : CP.checkValid c.opts.rank X.shape t = .ok () :=
    ((C62_check_partial ht.factors.length_eq).1).2 ht.factors
  rw [C61_precomputed E c hi]
  simp only [hchk]

theorem startsFrom_random {E : Ext} {c : CP.Config} {nonNeg orth : Option (List Bool)} {X : NDArray ℝ}
    (hi : c.init.toLower = "random") {t : KruskalTensor} (ht : CP.initRandom c.draw c.opts.rank nonNeg X = .ok t) :
    CP.StartsFrom E c nonNeg orth .none X t := by
  intro budget loggers file
  unfold CP.initComponents
  simp only [hi]
  refine modifySt_ok (f := fun s : CPState => do
    let t ← CP.initRandom c.draw c.opts.rank s.nonNeg s.X
    pure { s with dec := t }) ?_
  show (CP.initRandom c.draw c.opts.rank nonNeg X >>= _) = _
  rw [ht]; rfl

theorem startsFrom_svd {E : Ext} {c : CP.Config} {nonNeg orth : Option (List Bool)} {X : NDArray ℝ}
    (hi : c.init.toLower = "svd") {t : KruskalTensor} (ht : CP.initSvd c.U c.opts.rank X = .ok t) :
    CP.StartsFrom E c nonNeg orth .none X t := by
  intro budget loggers file
  unfold CP.initComponents
  simp only [hi]
  refine modifySt_ok (f := fun s : CPState => do
    let t ← CP.initSvd c.U c.opts.rank s.X
    pure { s with dec := t }) ?_
  show (CP.initSvd c.U c.opts.rank X >>= _) = _
  rw [ht]; rfl

/-- C74. A fit of a new `CP_ALS` object with admissible options, whose `init_components` gives a decomposition of
the right sizes, completes: it performs `k` iterations, `k = max_its` or the state then meets the stopping
criterion, `current_iteration` is `k`, the decomposition is the one after `k` iterations, the checkpoints are
those of the schedule, and the SSE it reports is the true one. -/
theorem C74_fit_completes {E : Ext} (hE : E.SVDOk) (hN : E.NNLSOk) (hQ : E.QROk) {c : CP.Config}
    {nonNeg orth : Option (List Bool)} {X : NDArray ℝ} (hA : CP.Admissible c.opts nonNeg orth X.shape)
    (hlog : c.Measurable) (hfreq : freqOption c.freq ≠ 0) {arg : InitArg KruskalTensor} {t : KruskalTensor}
    (hi : CP.StartsFrom E c nonNeg orth arg X t)
    (ht : t.WF X.shape c.opts.rank) {budget : Int} {mi : Option Int} (hb : 0 < mi.getD budget)
    {loggers : List Logger} {file : Option H5File}
    (hS : Storing (CP.method E c) (CP.newObject nonNeg orth budget loggers file) []) :
    ∃ s0 w', ∃ k : ℕ, CP.initFit E (CP.fresh nonNeg orth) X t = .ok s0 ∧
      CP.fit E c X mi arg (CP.newObject nonNeg orth budget loggers file) = .ok () w' ∧
      (k : Int) ≤ mi.getD budget ∧ w'.it = k ∧ CP.iterate E c.opts k s0 = .ok w'.st ∧
      (∀ j < k, ∃ s, CP.iterate E c.opts j s0 = .ok s ∧ CP.shouldStop c.opts s = .ok false) ∧
      ((k : Int) < mi.getD budget → CP.shouldStop c.opts w'.st = .ok true) ∧
      w'.st.dec.WF X.shape c.opts.rank ∧ CP.sse w'.st = .ok (w'.st.trueSSE c.opts.rank) ∧ w'.st.X = X ∧
      (∀ r < c.opts.rank, w'.st.dec.weights.get [r] = 1) ∧
      Storing (CP.method E c) w' (schedule (freqOption c.freq) 0 k
          (fun j => (CP.orbit E c.opts s0 j).dec) ++
        finalCheckpoint (CP.method E c) 0 k (mi.getD budget).toNat (CP.orbit E c.opts s0 k).dec) := by
  obtain ⟨s0, e0, hG, hX, -, -, hones, -⟩ := initFit_good (E := E) hQ (old := CP.fresh nonNeg orth) rfl hA ht
  have e0' : CP.initFit E { CP.fresh nonNeg orth with X := X, XNorm := frobNorm X, dec := t } X t = .ok s0 := by
    rw [← e0, C36_refit_partial (old := { CP.fresh nonNeg orth with X := X, XNorm := frobNorm X, dec := t }) rfl]; rfl
  have hfit := fit_unfold (E := E) (c := c) (X := X) (mi := mi) (arg := arg)
    (w := CP.newObject nonNeg orth budget loggers file) (t := t) (n := 0) (s := s0) (hi budget loggers file) e0'
  set N := (mi.getD budget).toNat with hN'
  set ss := CP.orbit E c.opts s0 with hss
  obtain ⟨k, hk1, hk2, hk3⟩ := exists_stop (P := fun j => CP.shouldStop c.opts (ss j) = .ok true) N
  have hgo : ∀ j < k, CP.shouldStop c.opts (ss j) = .ok false := by
    intro j hj
    obtain ⟨b, hb⟩ := shouldStop_total (orbit_good hE hN hA.rank hG j).1
    cases b with
    | false => exact hb
    | true => exact absurd hb (hk2 j hj)
  set w1 : World CPState := { CP.newObject nonNeg orth budget loggers file with
    it := 0, maxIts := mi.getD budget, st := s0 } with hw1
  have hmax : (w1.maxIts - w1.it).toNat = N := by simp [hw1, hN']
  obtain ⟨w', g1, g2, g3, g4, g5⟩ := C43_schedule (CP.method E c) hfreq (w := w1) (L := []) (ss := ss) (k := k)
    (s' := ss k) rfl (cp_trajectory hE hN hA.rank hlog hG hgo) (by rw [hmax]; exact hk1)
    (by rw [hmax]; exact hk3) rfl (fun _ => by simpa [hw1] using hb) ⟨hS.path, hS.cks, hS.logs⟩ (by simp) (by simp)
  have hgk := orbit_good hE hN hA.rank hG k
  refine ⟨s0, w', k, e0, ?_, by omega, by rw [g3]; simp [hw1], by rw [g2]; exact orbit_iterate hE hN hA.rank k hG, ?_,
    ?_, ?_, ?_, ?_, ?_, ?_⟩
  · rw [hfit]; exact g1
  · intro j hj
    exact ⟨_, orbit_iterate hE hN hA.rank j hG, hgo j hj⟩
  · intro h
    rw [g2]; exact hk3 (by omega)
  · rw [g2]
    have := hgk.1.sized.wf
    rwa [hgk.2.X, hX] at this
  · rw [g2]; exact C35_sse hgk.1.sized hgk.1.cached
  · rw [g2, hgk.2.X, hX]
  · rw [g2, hgk.2.weights]; exact hones
  · rw [hmax, List.nil_append] at g5
    exact g5

/-- C74, the loss: without constraints and penalties the result is not worse than the start (with unit
weights), and its error is not negative. -/
theorem C74_fit_improves {E : Ext} (hE : E.SVDOk) (hN : E.NNLSOk) (hQ : E.QROk) {c : CP.Config}
    {X : NDArray ℝ} (hA : CP.Admissible c.opts none none X.shape) (hridge : c.opts.ridgePenalties = none)
    (hlog : c.Measurable) (hfreq : freqOption c.freq ≠ 0) {arg : InitArg KruskalTensor} {t : KruskalTensor}
    (hi : CP.StartsFrom E c none none arg X t)
    (ht : t.WF X.shape c.opts.rank) {budget : Int} {mi : Option Int} (hb : 0 < mi.getD budget)
    {loggers : List Logger} {file : Option H5File}
    (hS : Storing (CP.method E c) (CP.newObject none none budget loggers file) []) :
    ∃ w' e, CP.fit E c X mi arg (CP.newObject none none budget loggers file) = .ok () w' ∧
      CP.sse w'.st = .ok e ∧ e = w'.st.trueSSE c.opts.rank ∧ w'.st.X = X ∧
      w'.st.dec.WF X.shape c.opts.rank ∧ (∀ r < c.opts.rank, w'.st.dec.weights.get [r] = 1) ∧ 0 ≤ e ∧ e ≤ sqErr X (fun _ => 1) t.factorMatrices c.opts.rank := by
  obtain ⟨s0, w', k, e0, h1, -, -, h2, -, -, hwf, h3, hX', hw1, -⟩ := C74_fit_completes hE hN hQ hA hlog hfreq hi ht hb hS
  obtain ⟨s0', e0', h4, h5⟩ := C34_first_fit hE hQ (o := c.opts) hridge ht hA.order hA.nonempty
  rw [e0] at e0'
  obtain rfl : s0 = s0' := by injection e0'
  obtain ⟨a, b, ea, eb, g1, g2, g3, g4, g5, g6⟩ := h5 k 0
  rw [h2] at g1
  obtain rfl : w'.st = a := by injection g1
  obtain rfl : w'.st = b := by simpa [CP.iterate] using g2
  rw [g3] at h3
  have h3' : ea = w'.st.trueSSE c.opts.rank := by injection h3
  refine ⟨w', ea, h1, g3, h3', hX', hwf, hw1, ?_, by rw [h4]; exact g6⟩
  rw [h3']
  exact sumIdx_nonneg fun _ _ => sq_nonneg _

/-- C74 for `init="random"`: whatever is drawn, a fit without constraints and penalties completes, and its error is
not worse than that of the (normalised) random start. -/
theorem C74_random_fit {E : Ext} (hE : E.SVDOk) (hN : E.NNLSOk) (hQ : E.QROk) {c : CP.Config}
    {X : NDArray ℝ} (hA : CP.Admissible c.opts none none X.shape) (hridge : c.opts.ridgePenalties = none)
    (hlog : c.Measurable) (hfreq : freqOption c.freq ≠ 0) (hi : c.init.toLower = "random")
    {budget : Int} {mi : Option Int} (hb : 0 < mi.getD budget)
    {loggers : List Logger} {file : Option H5File}
    (hS : Storing (CP.method E c) (CP.newObject none none budget loggers file) []) :
    ∃ t w' e, CP.initRandom c.draw c.opts.rank none X = .ok t ∧
      CP.fit E c X mi .none (CP.newObject none none budget loggers file) = .ok () w' ∧
      CP.sse w'.st = .ok e ∧ e = w'.st.trueSSE c.opts.rank ∧ w'.st.X = X ∧ w'.st.dec.WF X.shape c.opts.rank ∧
      (∀ r < c.opts.rank, w'.st.dec.weights.get [r] = 1) ∧ 0 ≤ e ∧ e ≤ sqErr X (fun _ => 1) t.factorMatrices c.opts.rank := by
  have hne : X.shape ≠ [] := by
    intro h
    have := hA.order
    rw [h] at this
    simp at this
  obtain ⟨t, h1, h2, -⟩ := C68_cp_start c.draw hne c.opts.rank (nn := none) (by simp)
  obtain ⟨w', e, h⟩ := C74_fit_improves hE hN hQ hA hridge hlog hfreq (startsFrom_random hi h1) h2 hb hS
  exact ⟨t, w', e, h1, h⟩

/-- Non-vacuity of C74: admissible options for a `2 × 3` tensor with one constraint of each kind. -/
example : CP.Admissible ⟨2, 0, 0, some [1, 2]⟩ (some [false, true]) (some [true, false]) [2, 3] where
  rank := by decide
  order := by decide
  nonempty := by decide
  nonNegLen := by simp
  orthLen := by simp
  ridgeLen := by simp
  orthRows := by
    intro l hl k hk
    cases hl
    match k with
    | 0 => simp
    | 1 => simp at hk
    | k + 2 => simp at hk
  notBoth := by
    intro l l' h1 h2 k
    cases h1; cases h2
    match k with
    | 0 => simp
    | 1 => simp
    | k + 2 => simp

/-! ## C56 for `CP_ALS` -/

/-- C56. `fit_transform` is `fit` with the same arguments followed by returning the decomposition. -/
theorem C56_cp_fit_transform (E : Ext) (c : CP.Config) (X : NDArray ℝ) (mi : Option Int)
    (arg : InitArg KruskalTensor) (w : World CPState) :
    CP.fitTransform E c X mi arg w =
      match CP.fit E c X mi arg w with
      | .ok _ w' => .ok w'.st.dec w'
      | .error e w' => .error e w' := by
  unfold CP.fitTransform
  cases h : CP.fit E c X mi arg w with
  | ok u w' => rw [bind_of_ok h]; rfl
  | error e w' => rw [bind_of_error h]

end
end TK
