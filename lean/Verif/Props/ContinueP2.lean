import Verif.Props.Continue
import Verif.Lemmas.Refine
import Verif.Props.Parafac2Fit

/-!
# C107 for `Parafac2_ALS`

`_fit` of `Parafac2_ALS` makes a new inner `CP_ALS` object (parafac2.py:391), also when a fit is continued. Without
orthonormality constraints that object works on the arrays of the decomposition, and what it does not take over from the old
one (cache, target, convergence history) has no influence on what follows.
-/

namespace TK
open NDArray
open EStateM (Result)
open Fit

noncomputable section

variable {σ τ : Type}

/-! ## Any decomposer: a preparation that changes nothing that matters -/

theorem run_off' (m : Method σ τ) (hf : m.freq < 0) (hu : m.usesLoopVar = false) {w : World σ} {s : σ}
    (hp : m.prepare w.st = .ok s) :
    run m w = (loop m (w.maxIts - w.it).toNat 0 none >>= fun _ => modifySt m.post) { w with st := s } := by
  rw [run, bind_of_ok (modifySt_ok hp)]
  refine (bind_of_ok (get_def _)).trans ?_
  show (loop m (w.maxIts - w.it).toNat 0 none >>= _) _ = _
  cases h : loop m (w.maxIts - w.it).toNat 0 none { w with st := s } with
  | error x w1 => rw [bind_of_error h, bind_of_error h]
  | ok r w1 =>
    rw [bind_of_ok h, bind_of_ok h]
    exact bind_of_ok (final_quiet m hf w1 (.inl hu))

/-- If preparing the state that a run ended with leads to a related state, then continuing the run leads to a state that is related
to the one of the long run. -/
theorem C107_run_sim {m : Method σ τ} {R : σ → σ → Prop} (H : Refines R m m) (hf : m.freq < 0) (hu : m.usesLoopVar = false)
    (hpost : ∀ s, m.post s = .ok s) {N M : Int} {w w1 w3 : World σ} (h1 : run m (w.budget N) = .ok () w1)
    (h3 : run m (w.budget M) = .ok () w3) (hM : N < M) {p : σ} (hp : m.prepare w1.st = .ok p) (hR : R p w1.st) :
    ∃ w2, continueFit m (some M) w1 = .ok () w2 ∧ WRel R w2 w3 := by
  have e1 : continueFit m (some M) w1 = run m (w1.budget M) := by
    rw [continueFit, bind_of_ok (setMaxIts_ok _ _)]; rfl
  rw [e1, run_off' m hf hu (by exact hp)]
  show ∃ w2, (loop m (M - w1.it).toNat 0 none >>= fun _ => modifySt m.post) { w1.budget M with st := p } = _ ∧ _
  cases hs : m.prepare w.st with
  | error x => rw [run, bind_of_error (modifySt_error (by exact hs))] at h1; cases h1
  | ok s =>
    rw [run_off' m hf hu (by exact hs)] at h1 h3
    change (loop m (N - w.it).toNat 0 none >>= fun _ => modifySt m.post) { w.budget N with st := s } = _ at h1
    change (loop m (M - w.it).toNat 0 none >>= fun _ => modifySt m.post) { w.budget M with st := s } = _ at h3
    have key : (loop m (M - w1.it).toNat 0 none >>= fun _ => modifySt m.post) (w1.budget M) = .ok () w3 := by
      cases hl : loop m (N - w.it).toNat 0 none { w.budget N with st := s } with
      | error x w2 => rw [bind_of_error hl] at h1; cases h1
      | ok r w2 =>
        rw [bind_of_ok hl, modifySt_ok (hpost _)] at h1
        cases h1
        have hk := C41_loop m (N - w.it).toNat 0 none { w.budget N with st := s }
        rw [hl] at hk
        obtain ⟨k, hk1, -, hk2, -, -, hk3⟩ := hk
        have hk2 : w2.it = w.it + k := hk2
        have hlM : loop m (N - w.it).toNat 0 none { w.budget M with st := s } = .ok r (w2.budget M) := by
          have := loop_budget m hf M (N - w.it).toNat 0 none { w.budget N with st := s }
          rw [hl] at this
          exact this
        show (loop m (M - w2.it).toNat 0 none >>= fun _ => modifySt m.post) (w2.budget M) = _
        rw [← h3]
        rcases le_or_gt w.it N with hN | hN
        · rw [show (M - w.it).toNat = (N - w.it).toNat + (M - N).toNat by omega]
          refine (loop_split m (by omega) (by omega) _ _ 0 none hlM ?_ 0 none).symm
          rcases Nat.lt_or_ge k (N - w.it).toNat with hlt | hge
          · exact .inr (hk3 hlt)
          · exact .inl (by omega)
        · have h0 : (N - w.it).toNat = 0 := by omega
          rw [h0] at hlM
          have hw : ({ w.budget M with st := s } : World σ) = w2.budget M := by
            change Result.ok none _ = _ at hlM
            injection hlM
          rw [hw, hk2, show k = 0 by omega, show w.it + ((0 : ℕ) : Int) = w.it by simp]
    have hsim : Sim R R (fun _ _ => True) (loop m (M - w1.it).toNat 0 none >>= fun _ => modifySt m.post)
        (loop m (M - w1.it).toNat 0 none >>= fun _ => modifySt m.post) :=
      Sim.bind (loop_sim H _ _ _) fun _ _ _ => Sim.modifySt H.post
    obtain ⟨u, w2, e2, r2, -⟩ := hsim { w1.budget M with st := p } (w1.budget M) ⟨hR, rfl, rfl, rfl, rfl⟩ () w3 key
    exact ⟨w2, e2, r2⟩

/-! ## What an iteration takes from the inner decomposer -/

/-- What later iterations use of the inner decomposer. -/
def CPObj.core (c : CPObj) : List Addr × Option (List Bool) × Option (List Bool) × NDArray ℝ :=
  (c.addrs, c.st.nonNeg, c.st.orth, c.st.dec.weights)

theorem cpobj_updateFactor_core {E : Ext} {o : CPOpts} {mode : ℕ} {h h1 : Heap} {c c' c1 : CPObj} (hc : c'.core = c.core)
    (hX : c'.st.X = c.st.X) (e : CPObj.updateFactor E o mode (h, c) = .ok (h1, c1)) :
    ∃ c1', CPObj.updateFactor E o mode (h, c') = .ok (h1, c1') ∧ c1'.core = c1.core ∧ c1'.st.X = c1.st.X ∧ c1.st.X = c.st.X := by
  obtain ⟨st, as⟩ := c
  obtain ⟨st', as'⟩ := c'
  simp only [CPObj.core, Prod.mk.injEq] at hc hX
  obtain ⟨rfl, h1, h2, h3⟩ := hc
  have hf : ((⟨st', as'⟩ : CPObj).read h).dec.factorMatrices = ((⟨st, as'⟩ : CPObj).read h).dec.factorMatrices := rfl
  have hr : CP.alsRhs ((⟨st', as'⟩ : CPObj).read h) mode = CP.alsRhs ((⟨st, as'⟩ : CPObj).read h) mode := by
    unfold CP.alsRhs CPObj.read
    simp only [hX]
  have hs : CP.getSolve E o ((⟨st', as'⟩ : CPObj).read h) mode = CP.getSolve E o ((⟨st, as'⟩ : CPObj).read h) mode := by
    unfold CP.getSolve CPObj.read
    simp only [h1, h2]
  unfold CPObj.updateFactor CP.updateFactor at e ⊢
  simp only [hf, hr, hs]
  simp only [bind_eq_ok, pure_eq_ok] at e
  obtain ⟨s, ⟨lhs, e1, rhs, e2, solve, e3, new, e4, F, e5, F', e6, rfl⟩, a, e7, G, e8, e9⟩ := e
  rw [e1, bind_ok, e2, bind_ok, e3, bind_ok, e4, bind_ok, e5, bind_ok, e6, bind_ok]
  simp only [Prod.mk.injEq] at e9
  obtain ⟨rfl, rfl⟩ := e9
  refine ⟨⟨{ (⟨st', as'⟩ : CPObj).read h with
    lastMode := some mode
    cache := some rhs
    dec := { ((⟨st', as'⟩ : CPObj).read h).dec with factorMatrices := (((⟨st, as'⟩ : CPObj).read h).dec.factorMatrices).set mode F' } },
    as'⟩, ?_, ?_, hX, rfl⟩
  · show ((pyGet as' mode) >>= fun a => _) = _
    rw [e7, bind_ok]
    show (pyGet _ mode >>= fun F => _) = _
    rw [e8, bind_ok]; rfl
  · simp only [CPObj.core, CPObj.read, h1, h2, h3]

theorem cpobj_updateModes_core {E : Ext} {o : CPOpts} : ∀ (ms : List ℕ) {h h1 : Heap} {c c' c1 : CPObj}, c'.core = c.core →
    c'.st.X = c.st.X → CPObj.updateModes E o ms (h, c) = .ok (h1, c1) →
    ∃ c1', CPObj.updateModes E o ms (h, c') = .ok (h1, c1') ∧ c1'.core = c1.core ∧ c1'.st.X = c1.st.X ∧ c1.st.X = c.st.X
  | [], h, h1, c, c', c1, hc, hX, e => by
    cases e; exact ⟨c', rfl, hc, hX, rfl⟩
  | m :: ms, h, h1, c, c', c1, hc, hX, e => by
    simp only [CPObj.updateModes, List.foldlM_cons] at e ⊢
    rw [bind_eq_ok] at e
    obtain ⟨⟨h2, c2⟩, e1, e2⟩ := e
    obtain ⟨c2', a1, a2, a3, a4⟩ := cpobj_updateFactor_core hc hX e1
    obtain ⟨c1', b1, b2, b3, b4⟩ := cpobj_updateModes_core ms a2 a3 e2
    exact ⟨c1', by rw [a1, bind_ok]; exact b1, b2, b3, b4.trans a4⟩

theorem cpobj_repeat_core {E : Ext} {o : CPOpts} : ∀ (n : ℕ) {h h1 : Heap} {c c' c1 : CPObj}, c'.core = c.core →
    c'.st.X = c.st.X → CPObj.repeatUpdates E o n (h, c) = .ok (h1, c1) →
    ∃ c1', CPObj.repeatUpdates E o n (h, c') = .ok (h1, c1') ∧ c1'.core = c1.core ∧ c1'.st.X = c1.st.X
  | 0, h, h1, c, c', c1, hc, hX, e => by cases e; exact ⟨c', rfl, hc, hX⟩
  | n + 1, h, h1, c, c', c1, hc, hX, e => by
    rw [CPObj.repeatUpdates, bind_eq_ok] at e
    obtain ⟨⟨h2, c2⟩, e1, e2⟩ := e
    obtain ⟨c2', a1, a2, a3, a4⟩ := cpobj_updateModes_core _ hc hX e1
    obtain ⟨c1', b1, b2, b3⟩ := cpobj_repeat_core n a2 a3 e2
    refine ⟨c1', ?_, b2, b3⟩
    rw [CPObj.repeatUpdates, CPObj.updateFactors, show c'.st.X = c.st.X from hX]
    exact (congrArg (· >>= _) a1).trans b1

/-- States of a `Parafac2_ALS` object that differ only in what no later iteration uses. -/
def P2Same (p s : P2State) : Prop := p = { s with inner := p.inner } ∧ p.inner.map CPObj.core = s.inner.map CPObj.core

theorem p2_updateProjections_inner (E : Ext) (i : Option CPObj) : ∀ (ks : List ℕ) (s : P2State),
    ks.foldlM (P2.updateProjection E) { s with inner := i }
      = (ks.foldlM (P2.updateProjection E) s >>= fun s1 => .ok { s1 with inner := i })
  | [], _ => rfl
  | k :: ks, s => by
    rw [List.foldlM_cons, List.foldlM_cons, bind_assoc]
    have : P2.updateProjection E { s with inner := i } k = (P2.updateProjection E s k >>= fun s1 => .ok { s1 with inner := i }) := by
      unfold P2.updateProjection
      simp only [bind_assoc]
      rfl
    rw [this, bind_assoc]
    congr 1
    funext s1
    exact p2_updateProjections_inner E i ks s1

theorem p2_updateProjections_keeps (E : Ext) : ∀ (ks : List ℕ) {s s1 : P2State}, ks.foldlM (P2.updateProjection E) s = .ok s1 →
    s1.inner = s.inner
  | [], _, _, e => by cases e; rfl
  | k :: ks, s, s1, e => by
    rw [List.foldlM_cons, bind_eq_ok] at e
    obtain ⟨s2, e1, e2⟩ := e
    rw [p2_updateProjections_keeps E ks e2]
    unfold P2.updateProjection at e1
    simp only [bind_eq_ok, pure_eq_ok] at e1
    obtain ⟨-, -, -, -, -, -, -, -, -, -, -, -, -, -, rfl⟩ := e1
    rfl

theorem p2_step_same {E : Ext} {o : P2Opts} {p s s1 : P2State} (h : P2Same p s) (e : P2.iteration E o s = .ok s1) :
    ∃ p1, P2.iteration E o p = .ok p1 ∧ P2Same p1 s1 := by
  obtain ⟨h1, h2⟩ := h
  rw [P2.iteration, bind_eq_ok] at e
  obtain ⟨s2, e1, e2⟩ := e
  rw [P2.updateFactors, bind_eq_ok] at e1
  obtain ⟨s3, e3, e4⟩ := e1
  have hk := p2_updateProjections_keeps E _ e3
  cases hi : s3.inner with
  | none => rw [hi] at e4; cases e4
  | some c =>
    rw [hi] at e4 hk
    rw [← hk] at h2
    cases hj : p.inner with
    | none => rw [hj] at h2; cases h2
    | some c' =>
      rw [hj] at h2
      have hc : c'.core = c.core := by simpa using h2
      simp only [bind_eq_ok, pure_eq_ok] at e4
      obtain ⟨X, e5, ⟨h6, c6⟩, e6, ⟨h7, c7⟩, e7, rfl⟩ := e4
      obtain ⟨c6', a1, a2, a3⟩ := cpobj_repeat_core (c := c.setTarget X) (c' := c'.setTarget X) o.cpUpdates hc rfl e6
      have hp3 : P2.updateProjections E p = .ok { s3 with inner := some c' } := by
        rw [h1, hj]
        show (List.range s.XShape.2.2).foldlM _ _ = _
        rw [p2_updateProjections_inner]
        rw [P2.updateProjections] at e3
        rw [e3, bind_ok]
      have hw : c6'.st.dec.weights = c6.st.dec.weights := by
        simp only [CPObj.core, Prod.mk.injEq] at a2
        exact a2.2.2.2
      unfold P2.absorbWeights at e7
      simp only [bind_eq_ok, pure_eq_ok] at e7
      obtain ⟨B, e8, e9⟩ := e7
      simp only [Prod.mk.injEq] at e9
      obtain ⟨rfl, rfl⟩ := e9
      let ci : CPObj := { c6' with st := { c6'.st with dec := { c6'.st.dec with
        weights := (c6.st.dec.weights.map (· * 0)).map (· + 1) } } }
      have hu : P2.updateFactors E o p = .ok { s3 with heap := h6.write s3.dec.blueprint B, inner := some ci } := by
        rw [P2.updateFactors, hp3, bind_ok]
        show (P2.projectedX o s3 >>= _) = _
        rw [e5, bind_ok, a1, bind_ok]
        show (P2.absorbWeights s3.dec (h6, c6') >>= _) = _
        rw [P2.absorbWeights, hw, e8, bind_ok]; rfl
      rw [P2.iteration, hu, bind_ok]
      rw [P2.updateConvergence, bind_eq_ok] at e2
      obtain ⟨l, e10, e11⟩ := e2
      rw [pure_eq_ok] at e11
      subst e11
      refine ⟨{ s3 with
        heap := h6.write s3.dec.blueprint B
        inner := some ci
        relChange := FV.div (s3.prevLoss - l) s3.prevLoss
        prevLoss := l }, ?_, rfl, ?_⟩
      · rw [P2.updateConvergence]
        exact (congrArg (· >>= _) e10).trans rfl
      · simp only [ci, Option.map_some, CPObj.core, Prod.mk.injEq, Option.some.injEq] at a2 ⊢
        exact ⟨a2.1, a2.2.1, a2.2.2.1, trivial⟩

/-- The loggers do not look at the inner decomposer (no logger of the package does). -/
def P2.Config.Outer (c : P2.Config) : Prop := ∀ l ∈ c.logs, ∀ (s : P2State) (i : Option CPObj), l.2 { s with inner := i } = l.2 s

theorem p2_refines_self {E : Ext} {c : P2.Config} (ho : c.Outer) : Refines P2Same (P2.method E c) (P2.method E c) where
  dec := by
    intro p s h
    rw [h.1]; rfl
  stop := by
    intro p s b h e
    rw [h.1]; exact e
  prepare := by
    intro p s s1 h e
    refine ⟨s1, ?_, rfl, rfl⟩
    rw [h.1]
    rw [← e]; rfl
  step := fun h e => p2_step_same h e
  post := by
    intro p s s1 h e
    cases e
    exact ⟨p, rfl, h⟩
  initRest := by
    intro p s s1 h e
    change P2.initRest c.opts s = .ok s1 at e
    rw [P2.initRest, bind_eq_ok] at e
    obtain ⟨l, e1, e2⟩ := e
    rw [pure_eq_ok] at e2
    subst e2
    refine ⟨{ p with prevLoss := l, relChange := .pinf }, ?_, ?_, h.2⟩
    · show P2.initRest c.opts p = _
      rw [P2.initRest, h.1]
      exact (congrArg (· >>= _) e1).trans rfl
    · rw [h.1]
  logs := by
    show List.Forall₂ _ c.logs c.logs
    have : ∀ l : List (Name × (P2State → Py ℝ)), (∀ q ∈ l, ∀ (s : P2State) (i : Option CPObj), q.2 { s with inner := i } = q.2 s) →
        List.Forall₂ (fun l' l : Name × (P2State → Py ℝ) =>
          l'.1 = l.1 ∧ ∀ p s v, P2Same p s → l.2 s = .ok v → l'.2 p = .ok v) l l := by
      intro l
      induction l with
      | nil => intro _; exact .nil
      | cons q l ih =>
        intro h
        refine .cons ⟨rfl, fun p s v hps e => ?_⟩ (ih fun q hq => h q (by simp [hq]))
        rw [hps.1, h q (by simp)]; exact e
    exact this _ ho
  storeDec := rfl
  freq := rfl
  hasPath := rfl
  typeName := rfl
  usesLoopVar := rfl
  writesIts := rfl

/-- What `fit` prepares does not depend on the budget. -/
theorem fit_run_budget (m : Method σ τ) {setTarget : σ → Py σ} {initComponents : Fit σ Unit} {N : Int} {w w1 : World σ}
    (h : fit m setTarget initComponents (some N) w = .ok () w1) :
    ∃ w4 : World σ, ∀ M : Int, fit m setTarget initComponents (some M) w = run m (w4.budget M) := by
  unfold fit initFit at *
  simp only [bind_assoc] at *
  rw [bind_of_ok (modify_def _ _)] at h
  cases h1 : modifySt setTarget { w with it := 0 } with
  | error x w2 => rw [bind_of_error h1] at h; cases h
  | ok u w2 =>
    rw [bind_of_ok h1] at h
    cases h2 : initComponents w2 with
    | error x w3 => rw [bind_of_error h2] at h; cases h
    | ok u w3 =>
      rw [bind_of_ok h2, bind_of_ok (setMaxIts_ok _ _)] at h
      cases h3 : m.initRest w3.st with
      | error x => rw [bind_of_error (modifySt_error (by exact h3))] at h; cases h
      | ok s =>
        refine ⟨{ w3 with st := s }, fun M => ?_⟩
        rw [bind_of_ok (modify_def _ _), bind_of_ok h1, bind_of_ok h2, bind_of_ok (setMaxIts_ok _ _),
          bind_of_ok (modifySt_ok (by exact h3))]
        rfl

variable {s : P2State} {I : ℕ} {Js : List ℕ}

/-- **C107 for `Parafac2_ALS`** without orthonormality constraints and without checkpointing: for every start of a fit with separate
arrays of the right sizes, any non-negativity constraints and ridge penalties, and loggers that do not look at the inner
decomposer: `fit(X, max_its=N)`, `continue_fit(max_its=M)` and `fit(X, max_its=M)` all return, and the last two end with the same
decomposition, loss, iteration number and logs. -/
theorem C107_parafac2_partial {E : Ext} (hE : E.SVDOk) (hN : E.NNLSOk) (hQ : E.QROk) {c : P2.Config} {D : P2Data} {arg : InitArg P2Obj}
    {h0 : Heap} (hi : P2.StartsFrom E c D arg h0 s) (h : s.Sized I Js c.opts.rank) (hs : s.Distinct) (hal : s.Allocated)
    (hA : P2.Admissible c.opts I Js.length) (hno : ∀ j : ℕ, (P2State.orthFlags c.opts)[j]? ≠ some true)
    (hlog : c.Measurable I Js) (hout : c.Outer) (hfreq : freqOption c.freq < 0)
    {budget N M : Int} (hM : N < M) {loggers : List Logger} {file : Option H5File} :
    ∃ w1 w2 w3 : World P2State, P2.fit E c D (some N) arg (P2.newObject h0 budget loggers file) = .ok () w1 ∧
      continueFit (P2.method E c) (some M) w1 = .ok () w2 ∧
      P2.fit E c D (some M) arg (P2.newObject h0 budget loggers file) = .ok () w3 ∧
      w2.it = w3.it ∧ w2.loggers = w3.loggers ∧ w2.file = w3.file ∧
      w2.st.dec.read w2.st.heap = w3.st.dec.read w3.st.heap ∧ w2.st.prevLoss = w3.st.prevLoss := by
  have hS : ∀ w L, Storing (P2.method E c) w L := by
    have h' : ¬ 0 < (P2.method E c).freq := by
      show ¬ 0 < freqOption c.freq
      omega
    exact fun w L => ⟨fun h'' => absurd h'' h', fun h'' => absurd h'' h', fun h'' => absurd h'' h'⟩
  obtain ⟨l, sp, w1, k, e0, e1, -, e3, -, -, e6, -⟩ := C80_fit_completes hE hN hQ hi h hs hal hA hlog (by omega)
    (budget := budget) (mi := some N) (loggers := loggers) (file := file) (hS _ _)
  obtain ⟨-, -, w3, -, -, -, -, f3, -⟩ := C80_fit_completes hE hN hQ hi h hs hal hA hlog (by omega)
    (budget := budget) (mi := some M) (loggers := loggers) (file := file) (hS _ _)
  obtain ⟨h', ci, ep, hw, -, -, hnn, hon, -, -, hsh, -⟩ := P2State.prepareCp_ok (E := E) hQ (o := c.opts) (h.withLoss .pinf l)
    (hs.loss .pinf l) hA (fun _ => hal)
  obtain ⟨-, hsh⟩ := hsh hno
  rw [ep] at e1
  obtain rfl := Except.ok.inj e1
  obtain ⟨ck, hwk, a1, a2, a3, a4, -⟩ := p2_orbit_working hE hN hw k
  rw [← e6] at hwk a4
  obtain ⟨h2, c2, ep2, hw2, -, -, hnn2, hon2, -, -, hsh2, -⟩ := P2State.prepareCp_ok (E := E) hQ (o := c.opts) hwk.sized
    (hs.of_dec a4) hA (fun hex => absurd hex.choose_spec (hno _))
  obtain ⟨rfl, hsh3⟩ := hsh2 hno
  obtain ⟨w4, hw4⟩ := fit_run_budget (P2.method E c) (show fit _ _ _ (some N) _ = _ from e3)
  have hsame : P2Same (w1.st.withInner w1.st.heap c2) w1.st := by
    refine ⟨rfl, ?_⟩
    rw [hwk.ready.inner]
    show some c2.core = some ck.core
    have hweights : c2.st.dec.weights = ck.st.dec.weights := by
      refine ext_get (by rw [hw2.ready.wshape, hwk.ready.wshape]) fun idx hidx => ?_
      rw [hw2.ready.wshape] at hidx
      match idx, hidx with
      | [r], hr =>
        have hr : r < c.opts.rank := by simpa using hr
        rw [hw2.ready.wone r hr, hwk.ready.wone r hr]
    rw [CPObj.core, CPObj.core, hnn2, hon2, a2, a3, hnn, hon, hweights, a1,
      show c2.addrs = [w1.st.dec.A, w1.st.dec.blueprint, w1.st.dec.C] from hsh3,
      show ci.addrs = _ from hsh, a4]
    rfl
  obtain ⟨w2, g1, g2⟩ := C107_run_sim (p2_refines_self (E := E) hout) hfreq rfl (fun _ => rfl) ((hw4 N).symm.trans e3)
    ((hw4 M).symm.trans f3) hM ep2 hsame
  refine ⟨w1, w2, w3, e3, g1, f3, g2.it, g2.loggers, g2.file, ?_, ?_⟩
  · rw [g2.st.1]
  · rw [g2.st.1]

/-- The hypotheses hold for the default constraints and loggers of the loss and the SSE; starts are given by
`p2_startsFrom_random` and `p2_startsFrom_precomputed`. -/
example (n : ℕ) (g : List ℕ → ℝ) (c : P2.Config) : (∀ j : ℕ, (P2State.orthFlags (p2Plain 2 n g))[j]? ≠ some true) ∧
    ({ c with logs := [("loss".toList, P2.loss c.opts), ("SSE".toList, P2.sse)] } : P2.Config).Outer := by
  constructor
  · intro j
    match j with
    | 0 | 1 | 2 => simp [P2State.orthFlags, p2Plain]
    | j + 3 => simp [P2State.orthFlags, p2Plain]
  · intro l hl s i
    simp only [List.mem_cons, List.not_mem_nil, or_false] at hl
    rcases hl with rfl | rfl <;> rfl

/-- C107 for `Parafac2_ALS` with all hypotheses discharged: default constraints and a random start. -/
theorem C107_parafac2_random {E : Ext} (hE : E.SVDOk) (hN : E.NNLSOk) (hQ : E.QROk) {c : P2.Config} (hi : c.init.toLower = "random")
    {R n : ℕ} {g : List ℕ → ℝ} (ho : c.opts = p2Plain R n g) (hlog : c.logs = []) (hfreq : c.freq = none) {Xs : List (NDArray ℝ)}
    (hI : 0 < I) (hX : List.Forall₂ (fun Xk J => Xk.shape = [I, J]) Xs Js) (hK : 0 < Js.length) (hR : 0 < R)
    (hJ : ∀ J ∈ Js, R ≤ J) (h0 : Heap) {budget N M : Int} (hM : N < M) (loggers : List Logger) (file : Option H5File) :
    ∃ w1 w2 w3 : World P2State, P2.fit E c (.list Xs) (some N) .none (P2.newObject h0 budget loggers file) = .ok () w1 ∧
      continueFit (P2.method E c) (some M) w1 = .ok () w2 ∧
      P2.fit E c (.list Xs) (some M) .none (P2.newObject h0 budget loggers file) = .ok () w3 ∧
      w2.it = w3.it ∧ w2.st.dec.read w2.st.heap = w3.st.dec.read w3.st.heap := by
  have hr : c.opts.rank = R := by rw [ho]; rfl
  obtain ⟨s, h1, h2, h3, h4, -, -⟩ := p2_startsFrom_random hQ (c := c) hi hI hX hK (by omega) (by rw [hr]; exact hJ) h0
  obtain ⟨w1, w2, w3, a1, a2, a3, a4, -, -, a7, -⟩ := C107_parafac2_partial hE hN hQ h1 h2 h3.distinct h4
    (by rw [ho]; exact p2Plain_admissible hR hI hK)
    (by
      intro j
      rw [ho]
      match j with
      | 0 | 1 | 2 => simp [P2State.orthFlags, p2Plain]
      | j + 3 => simp [P2State.orthFlags, p2Plain])
    (by intro p hp; rw [hlog] at hp; cases hp) (by intro p hp; rw [hlog] at hp; cases hp) (by rw [hfreq]; decide)
    (budget := budget) hM (loggers := loggers) (file := file)
  exact ⟨w1, w2, w3, a1, a2, a3, a4, a7⟩

end
end TK
