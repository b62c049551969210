import Verif.Props.Checkpoints
import Verif.Props.CPFit

/-!
# C106: checkpointing and the fit

Source: base_decomposer.py:178-195 and 221-229, cp.py:408-427, parafac2.py:389-410.
-/

namespace TK
open NDArray Fit
open EStateM (Result)

noncomputable section

variable {σ τ : Type}

/-- The same decomposer with `checkpoint_frequency=None`. -/
def Method.off (m : Method σ τ) : Method σ τ := { m with freq := -1 }

/-- Two decomposers agree in everything that a fit computes: state, iteration number, budget, and what the loggers have logged. -/
structure SameFit (w w' : World σ) : Prop where
  st : w'.st = w.st
  it : w'.it = w.it
  maxIts : w'.maxIts = w.maxIts
  logs : (w'.loggers.map fun l => (l.its, l.metrics)) = w.loggers.map fun l => (l.its, l.metrics)

theorem SameFit.refl (w : World σ) : SameFit w w := ⟨rfl, rfl, rfl, rfl⟩

theorem logAll_same {it : Int} {s : σ} : ∀ {ps : List (Name × (σ → Py ℝ))} {ls ls' r : List Logger},
    (ls'.map fun l => (l.its, l.metrics)) = (ls.map fun l => (l.its, l.metrics)) → logAll it s ps ls = .ok r →
    ∃ r', logAll it s ps ls' = .ok r' ∧ (r'.map fun l => (l.its, l.metrics)) = r.map fun l => (l.its, l.metrics)
  | [], ls, ls', r, h, e => by
    have e : (Except.ok ls : Py _) = Except.ok r := by simpa [logAll] using e
    cases e
    exact ⟨ls', by simp [logAll], h⟩
  | p :: ps, [], ls', r, h, e => by
    obtain rfl : ls' = [] := by simpa using h
    exact ⟨r, e, rfl⟩
  | p :: ps, l :: ls, [], r, h, e => by simp at h
  | p :: ps, l :: ls, l' :: ls', r, h, e => by
    simp only [List.map_cons, List.cons.injEq] at h
    rw [logAll] at e
    obtain ⟨v, h1, e⟩ := bind_eq_ok.1 e
    obtain ⟨r1, h2, e⟩ := bind_eq_ok.1 e
    obtain ⟨r', h3, h4⟩ := logAll_same h.2 h2
    refine ⟨l'.log v it :: r', by rw [logAll, h1, bind_ok, h3, bind_ok]; rfl, ?_⟩
    rw [← pure_eq_ok.1 e]
    have h5 := h.1
    simp only [Prod.mk.injEq] at h5
    simp only [List.map_cons, List.cons.injEq, Logger.log, h4, h5.1, h5.2, and_self]

theorem writeTo_same {n : Name} {l l' : Logger} {f f' : H5File} (e : l.writeTo n f = .ok (l', f')) :
    (l'.its, l'.metrics) = (l.its, l.metrics) := by
  unfold Logger.writeTo at e
  split at e
  · cases e
  · obtain ⟨g, -, e⟩ := bind_eq_ok.1 e
    have := congrArg Prod.fst (pure_eq_ok.1 e)
    simp only at this
    rw [← this]

theorem writeLoggers_same : ∀ {ns : List Name} {ls ls' : List Logger} {f f' : H5File}, writeLoggers ns ls f = .ok (ls', f') →
    (ls'.map fun l => (l.its, l.metrics)) = ls.map fun l => (l.its, l.metrics)
  | [], ls, ls', f, f', e => by
    have e : (Except.ok (ls, f) : Py _) = Except.ok (ls', f') := by simpa [writeLoggers] using e
    cases e; rfl
  | n :: ns, [], ls', f, f', e => by rw [writeLoggers] at e; cases e; rfl; simp
  | n :: ns, l :: ls, ls', f, f', e => by
    rw [writeLoggers] at e
    obtain ⟨⟨l1, f1⟩, h1, e⟩ := bind_eq_ok.1 e
    obtain ⟨⟨ls1, f2⟩, h2, e⟩ := bind_eq_ok.1 e
    have e := congrArg Prod.fst (pure_eq_ok.1 e)
    simp only at e
    rw [← e, List.map_cons, List.map_cons, writeLoggers_same h2, writeTo_same h1]

theorem storeCheckpoint_sameFit {m : Method σ τ} {w w' : World σ} {u : Unit} (e : storeCheckpoint m w = .ok u w') :
    SameFit w w' := by
  have hs := storeCheckpoint_same m w
  rw [e] at hs
  refine ⟨hs.1, hs.2.1, hs.2.2, ?_⟩
  unfold storeCheckpoint at e
  rw [bind_of_ok (get_def w)] at e
  by_cases hp : m.hasPath = true
  · simp only [hp, if_true] at e
    rw [bind_of_ok (set_def _ _)] at e
    cases h1 : storeAttrs m w.it (w.file.getD H5File.empty).root with
    | error x => rw [h1, bind_of_error (lift_error rfl _)] at e; cases e
    | ok root =>
      rw [h1, bind_of_ok (lift_ok rfl _), bind_of_ok (set_def _ _)] at e
      cases h2 : H5File.createGroup { w.file.getD H5File.empty with root := root } (ckName w.it) with
      | error x => rw [h2, bind_of_error (lift_error rfl _)] at e; cases e
      | ok f =>
        rw [h2, bind_of_ok (lift_ok rfl _), bind_of_ok (set_def _ _)] at e
        cases h3 : m.storeDec (m.dec w.st) Group.empty with
        | error x => rw [h3, bind_of_error (lift_error rfl _)] at e; cases e
        | ok g =>
          rw [h3, bind_of_ok (lift_ok rfl _), bind_of_ok (set_def _ _)] at e
          cases h4 : writeLoggers (m.logs.map Prod.fst) w.loggers { f with groups := f.groups.set (ckName w.it) g } with
          | error x => rw [h4, bind_of_error (lift_error rfl _)] at e; cases e
          | ok r =>
            rw [h4, bind_of_ok (lift_ok rfl _)] at e
            obtain ⟨ls, f'⟩ := r
            have e' := (set_def (σ := σ) _ _).symm.trans e
            cases e'
            exact writeLoggers_same h4
  · simp only [hp] at e
    cases e

theorem afterIteration_off {m : Method σ τ} {w v w' : World σ} {u : Unit} (h : SameFit w v) (e : afterIteration m w = .ok u w') :
    ∃ v', afterIteration m.off v = .ok () v' ∧ SameFit w' v' ∧ v'.file = v.file := by
  unfold afterIteration at e ⊢
  rw [bind_of_ok (get_def _)] at e ⊢
  cases h1 : logAll w.it w.st m.logs w.loggers with
  | error x => rw [h1, bind_of_error (lift_error rfl _)] at e; cases e
  | ok ls =>
    rw [h1, bind_of_ok (lift_ok rfl _), bind_of_ok (set_def _ _)] at e
    obtain ⟨ls', h2, h3⟩ := logAll_same h.logs h1
    rw [h.it, h.st, show m.off.logs = m.logs from rfl, h2, bind_of_ok (lift_ok rfl _), bind_of_ok (set_def _ _),
      show m.off.freq = -1 from rfl, divides_ok (by decide), bind_of_ok (lift_ok rfl _)]
    simp only [show decide ((0 : Int) < -1) = false from rfl, Bool.and_false, Bool.false_eq_true, if_false]
    refine ⟨{ v with st := w.st, loggers := ls', it := w.it + 1 }, rfl, ?_, rfl⟩
    cases h4 : divides m.freq (w.it + 1) with
    | error x => rw [h4, bind_of_error (lift_error rfl _)] at e; cases e
    | ok b =>
      rw [h4, bind_of_ok (lift_ok rfl _)] at e
      by_cases hb : (b && decide (0 < m.freq)) = true
      · simp only [hb, if_true] at e
        cases h5 : storeCheckpoint m { w with loggers := ls } with
        | error x w1 => rw [bind_of_error h5] at e; cases e
        | ok y w1 =>
          rw [bind_of_ok h5, modify_def] at e
          cases e
          have h6 := storeCheckpoint_sameFit h5
          exact ⟨h6.st.symm, by simp only; rw [h6.it], h.maxIts.trans h6.maxIts.symm, h3.trans h6.logs.symm⟩
      · simp only [hb] at e
        cases e
        exact ⟨rfl, rfl, h.maxIts, h3⟩

theorem loop_off (m : Method σ τ) : ∀ (n i : ℕ) (last : Option ℕ) {w v w' : World σ} {r : Option ℕ}, SameFit w v →
    loop m n i last w = .ok r w' → ∃ v', loop m.off n i last v = .ok r v' ∧ SameFit w' v' ∧ v'.file = v.file
  | 0, i, last, w, v, w', r, h, e => by cases e; exact ⟨v, rfl, h, rfl⟩
  | n + 1, i, last, w, v, w', r, h, e => by
    rw [loop, bind_of_ok (get_def _)] at e ⊢
    rw [h.st, show m.off.stop = m.stop from rfl]
    cases hs : m.stop w.st with
    | error x => rw [hs, bind_of_error (lift_error rfl _)] at e; cases e
    | ok b =>
      rw [hs, bind_of_ok (lift_ok rfl _)] at e
      rw [bind_of_ok (lift_ok rfl _)]
      cases b with
      | true => cases e; exact ⟨v, rfl, h, rfl⟩
      | false =>
        simp only [Bool.false_eq_true, if_false] at e ⊢
        cases hst : m.step w.st with
        | error x => rw [bind_of_error (modifySt_error hst)] at e; cases e
        | ok s =>
          rw [bind_of_ok (modifySt_ok hst)] at e
          rw [bind_of_ok (modifySt_ok (s := s) (by rw [h.st]; exact hst))]
          cases ha : afterIteration m { w with st := s } with
          | error x w1 => rw [bind_of_error ha] at e; cases e
          | ok u w1 =>
            rw [bind_of_ok ha] at e
            obtain ⟨v1, h1, h2, h3⟩ := afterIteration_off (w := { w with st := s }) (v := { v with st := s }) ⟨rfl, h.it, h.maxIts, h.logs⟩ ha
            rw [bind_of_ok h1]
            obtain ⟨v', h4, h5, h6⟩ := loop_off m n (i + 1) (some i) h2 e
            exact ⟨v', h4, h5, h6.trans h3⟩

theorem final_off {m : Method σ τ} {last : Option ℕ} {w v w' : World σ} {u : Unit} (h : SameFit w v)
    (e : final m last w = .ok u w') : final m.off last v = .ok () v ∧ SameFit w' v := by
  have key : ∀ n n' : Int, ∀ w', (do
      let b ← lift (divides m.freq n)
      if !b && decide (0 < m.freq) then storeCheckpoint m : Fit σ Unit) w = .ok u w' →
      (do
        let b ← lift (divides m.off.freq n')
        if !b && decide (0 < m.off.freq) then storeCheckpoint m.off : Fit σ Unit) v = .ok () v ∧ SameFit w' v := by
    intro n n' w' e
    constructor
    · rw [show m.off.freq = -1 from rfl, divides_ok (by decide), bind_of_ok (lift_ok rfl _)]
      simp only [show decide ((0 : Int) < -1) = false from rfl, Bool.and_false, Bool.false_eq_true, if_false]
      rfl
    · cases h4 : divides m.freq n with
      | error x => rw [h4, bind_of_error (lift_error rfl _)] at e; cases e
      | ok b =>
        rw [h4, bind_of_ok (lift_ok rfl _)] at e
        by_cases hb : (!b && decide (0 < m.freq)) = true
        · simp only [hb, if_true] at e
          have h6 := storeCheckpoint_sameFit e
          exact ⟨h.st.trans h6.st.symm, h.it.trans h6.it.symm, h.maxIts.trans h6.maxIts.symm, h.logs.trans h6.logs.symm⟩
        · simp only [hb] at e
          cases e
          exact h
  unfold final at e ⊢
  by_cases hu : m.usesLoopVar = true
  · simp only [hu, show m.off.usesLoopVar = m.usesLoopVar from rfl, if_true] at e ⊢
    cases last with
    | none => rw [bind_of_error (throw_def _ _)] at e; cases e
    | some i =>
      rw [bind_of_ok (pure_def _ _)] at e ⊢
      exact key _ _ _ e
  · simp only [hu, show m.off.usesLoopVar = m.usesLoopVar from rfl] at e ⊢
    exact key _ _ _ e

theorem run_same (m : Method σ τ) {w v w' : World σ} (h : SameFit w v) (e : run m w = .ok () w') :
    ∃ v', run m.off v = .ok () v' ∧ SameFit w' v' ∧ v'.file = v.file := by
  unfold run at e ⊢
  cases hp : m.prepare w.st with
  | error x => rw [bind_of_error (modifySt_error hp)] at e; cases e
  | ok s0 =>
    rw [bind_of_ok (modifySt_ok hp), bind_of_ok (get_def _)] at e
    rw [bind_of_ok (modifySt_ok (f := m.off.prepare) (show m.off.prepare v.st = .ok s0 by rw [h.st]; exact hp)),
      bind_of_ok (get_def _)]
    simp only at e ⊢
    rw [h.it, h.maxIts]
    cases hl : loop m (w.maxIts - w.it).toNat 0 none { w with st := s0 } with
    | error x w1 => rw [bind_of_error hl] at e; cases e
    | ok r w1 =>
      rw [bind_of_ok hl] at e
      obtain ⟨v1, h1, h2, h3⟩ := loop_off m _ 0 none
        (show SameFit { w with st := s0 } { v with st := s0, it := w.it, maxIts := w.maxIts } from ⟨rfl, rfl, rfl, h.logs⟩) hl
      rw [bind_of_ok h1]
      cases hf : final m r w1 with
      | error x w2 => rw [bind_of_error hf] at e; cases e
      | ok u w2 =>
        rw [bind_of_ok hf] at e
        obtain ⟨h4, h5⟩ := final_off h2 hf
        rw [bind_of_ok h4]
        cases hq : m.post w2.st with
        | error x => rw [modifySt_error hq] at e; cases e
        | ok s2 =>
          rw [modifySt_ok hq] at e
          cases e
          refine ⟨{ v1 with st := s2 }, modifySt_ok (f := m.off.post) (by rw [h5.st]; exact hq), ⟨rfl, h5.it, h5.maxIts, h5.logs⟩, h3⟩

/-- **C106**, what holds of `_fit`: a run that returns, whatever the checkpoint frequency and path, returns without checkpointing too,
with the same decomposition, iteration number and logs; and without checkpointing the file is not touched. Missing: runs with a path
that is `None` need not return (`C106_noPath_fails`). -/
theorem C106_run_partial (m : Method σ τ) {w w' : World σ} (e : run m w = .ok () w') :
    ∃ v', run m.off w = .ok () v' ∧ SameFit w' v' ∧ v'.file = w.file := run_same m (SameFit.refl w) e

/-- The same for `fit`. -/
theorem C106_fit_partial (m : Method σ τ) (setTarget : σ → Py σ) (initComponents : Fit σ Unit) (mi : Option Int)
    {w w' : World σ} (e : fit m setTarget initComponents mi w = .ok () w') :
    ∃ v', fit m.off setTarget initComponents mi w = .ok () v' ∧ SameFit w' v' := by
  unfold fit at e ⊢
  rw [show initFit m.off setTarget initComponents mi = initFit m setTarget initComponents mi from rfl]
  cases hi : initFit m setTarget initComponents mi w with
  | error x w1 => rw [bind_of_error hi] at e; cases e
  | ok u w1 =>
    rw [bind_of_ok hi] at e ⊢
    obtain ⟨v', h1, h2, -⟩ := C106_run_partial m e
    exact ⟨v', h1, h2⟩

/-- A run of the counter with checkpoints, and the one without. -/
example : (∃ w', run (counter 2 false true 9) (counterWorld 3) = .ok () w') ∧
    run (counter 2 false true 9).off (counterWorld 3) = .ok () ⟨3, 3, 3, [], none⟩ := by
  refine ⟨?_, rfl⟩
  obtain ⟨w', h1, -⟩ := C43_schedule (counter 2 false true 9) (show (2 : Int) ≠ 0 by decide)
    (w := counterWorld 3) (L := []) (ss := fun j => j) (k := 3) (s' := 3) rfl (counter_trajectory (by decide))
    (by decide) (by decide) rfl (by decide) counter_storing (by simp) (by simp)
  exact ⟨w', h1⟩

/-! ## No path -/

theorem afterIteration_noPath {m : Method σ τ} (hp : m.hasPath = false) (hf : 0 < m.freq) {w w' : World σ} {u : Unit}
    (e : afterIteration m.off w = .ok u w') :
    (m.freq ∣ w.it + 1 → ∃ w'', afterIteration m w = .error .typeError w'') ∧
    (¬ m.freq ∣ w.it + 1 → afterIteration m w = .ok () w') := by
  unfold afterIteration at e ⊢
  rw [bind_of_ok (get_def _)] at e ⊢
  rw [show m.off.logs = m.logs from rfl] at e
  cases h1 : logAll w.it w.st m.logs w.loggers with
  | error x => rw [h1, bind_of_error (lift_error rfl _)] at e; cases e
  | ok ls =>
    rw [h1, bind_of_ok (lift_ok rfl _), bind_of_ok (set_def _ _), show m.off.freq = -1 from rfl, divides_ok (by decide),
      bind_of_ok (lift_ok rfl _)] at e
    simp only [show decide ((0 : Int) < -1) = false from rfl, Bool.and_false, Bool.false_eq_true, if_false] at e
    rw [bind_of_ok (lift_ok rfl _), bind_of_ok (set_def _ _), divides_ok (by omega), bind_of_ok (lift_ok rfl _)]
    constructor
    · intro hd
      simp only [hd, hf, decide_true, Bool.and_self, if_true]
      exact ⟨_, bind_of_error (storeCheckpoint_noPath m _ hp)⟩
    · intro hd
      simp only [hd, decide_false, Bool.false_and, Bool.false_eq_true, if_false]
      exact e

theorem loop_noPath {m : Method σ τ} (hp : m.hasPath = false) (hf : 0 < m.freq) : ∀ (n i : ℕ) (last : Option ℕ) {w w' : World σ}
    {r : Option ℕ}, loop m.off n i last w = .ok r w' → ∀ N : Int, w.it < N → N ≤ w'.it → m.freq ∣ N →
    ∃ w'', loop m n i last w = .error .typeError w''
  | 0, i, last, w, w', r, e, N, h1, h2, _ => by cases e; omega
  | n + 1, i, last, w, w', r, e, N, h1, h2, h3 => by
    rw [loop, bind_of_ok (get_def _)] at e ⊢
    rw [show m.off.stop = m.stop from rfl] at e
    cases hs : m.stop w.st with
    | error x => rw [hs, bind_of_error (lift_error rfl _)] at e; cases e
    | ok b =>
      rw [hs, bind_of_ok (lift_ok rfl _)] at e
      rw [bind_of_ok (lift_ok rfl _)]
      cases b with
      | true => cases e; omega
      | false =>
        simp only [Bool.false_eq_true, if_false] at e ⊢
        cases hst : m.step w.st with
        | error x => rw [bind_of_error (modifySt_error (f := m.off.step) hst)] at e; cases e
        | ok s =>
          rw [bind_of_ok (modifySt_ok (f := m.off.step) hst)] at e
          rw [bind_of_ok (modifySt_ok hst)]
          cases ha : afterIteration m.off { w with st := s } with
          | error x w1 => rw [bind_of_error ha] at e; cases e
          | ok u w1 =>
            rw [bind_of_ok ha] at e
            obtain ⟨g1, g2⟩ := afterIteration_noPath hp hf ha
            have hit : w1.it = w.it + 1 := by
              rcases afterIteration_any m.off { w with st := s } with ⟨ls, f, h⟩ | ⟨x, ls, f, h⟩
              · rw [ha] at h; cases h; rfl
              · rw [ha] at h; cases h
            by_cases hd : m.freq ∣ w.it + 1
            · obtain ⟨w'', h⟩ := g1 hd
              exact ⟨w'', bind_of_error h⟩
            · rw [bind_of_ok (g2 hd)]
              exact loop_noPath hp hf n (i + 1) (some i) e N (by
                rcases eq_or_lt_of_le (Int.add_one_le_iff.2 h1) with h | h
                · exact absurd (h ▸ h3) hd
                · rw [hit]; exact h) h2 h3

/-- **C106, refuted.** With `checkpoint_path=None` and a positive `checkpoint_frequency` (documented: nothing is stored), `_fit` raises
`TypeError` whenever the run without checkpointing reaches an iteration number that is a multiple of the frequency. -/
theorem C106_noPath_fails {m : Method σ τ} (hp : m.hasPath = false) (hf : 0 < m.freq) {w w' : World σ}
    (e : run m.off w = .ok () w') {N : Int} (h1 : w.it < N) (h2 : N ≤ w'.it) (h3 : m.freq ∣ N) :
    ∃ w'', run m w = .error .typeError w'' := by
  unfold run at e ⊢
  cases hpr : m.prepare w.st with
  | error x => rw [bind_of_error (modifySt_error (f := m.off.prepare) hpr)] at e; cases e
  | ok s0 =>
    rw [bind_of_ok (modifySt_ok (f := m.off.prepare) hpr), bind_of_ok (get_def _)] at e
    rw [bind_of_ok (modifySt_ok hpr), bind_of_ok (get_def _)]
    simp only at e ⊢
    cases hl : loop m.off (w.maxIts - w.it).toNat 0 none { w with st := s0 } with
    | error x w1 => rw [bind_of_error hl] at e; cases e
    | ok r w1 =>
      rw [bind_of_ok hl] at e
      have hit : w'.it = w1.it := by
        have hsame := final_same m.off r w1
        cases hfin : final m.off r w1 with
        | error x w2 => rw [bind_of_error hfin] at e; cases e
        | ok u w2 =>
          rw [hfin] at hsame
          rw [bind_of_ok hfin] at e
          cases hq : m.off.post w2.st with
          | error x => rw [modifySt_error hq] at e; cases e
          | ok s2 =>
            rw [modifySt_ok hq] at e
            cases e
            exact hsame.2.1
      obtain ⟨w'', h⟩ := loop_noPath hp hf _ 0 none hl N h1 (hit ▸ h2) h3
      exact ⟨w'', bind_of_error h⟩

/-- A run of 3 iterations without a path and with the frequency 2. -/
example : ∃ w', run { counter 2 true true 7 with hasPath := false } (counterWorld 3) = .error .typeError w' :=
  C106_noPath_fails (m := { counter 2 true true 7 with hasPath := false }) rfl (by decide) (w' := ⟨3, 3, 3, [], none⟩) rfl (N := 2)
    (by decide) (by decide) ⟨1, rfl⟩

/-- **C106, refuted**, for `CP_ALS.fit`: every fit that completes without checkpointing and performs at least `f` iterations raises
`TypeError` if `checkpoint_frequency=f` and no path is given. -/
theorem C106_cp_fails {E : Ext} (hE : E.SVDOk) (hN : E.NNLSOk) (hQ : E.QROk) {c : CP.Config}
    {nonNeg orth : Option (List Bool)} {X : NDArray ℝ} (hA : CP.Admissible c.opts nonNeg orth X.shape)
    (hlog : c.Measurable) {arg : InitArg KruskalTensor} {t : KruskalTensor}
    (hi : CP.StartsFrom E c nonNeg orth arg X t)
    (ht : t.WF X.shape c.opts.rank) {budget : Int} {mi : Option Int} (hb : 0 < mi.getD budget)
    {loggers : List Logger} {file : Option H5File} (hfreq : c.freq = none) (hpath : c.hasPath = false) (f : ℕ) (hf : 0 < f) :
    ∃ w', ∃ k : ℕ, CP.fit E c X mi arg (CP.newObject nonNeg orth budget loggers file) = .ok () w' ∧ w'.it = k ∧
      (f ≤ k → ∃ w'', CP.fit E { c with freq := some (f : Int) } X mi arg
        (CP.newObject nonNeg orth budget loggers file) = .error .typeError w'') := by
  have hS : Storing (CP.method E c) (CP.newObject nonNeg orth budget loggers file) [] := by
    have h : ¬ 0 < (CP.method E c).freq := by
      show ¬ 0 < freqOption c.freq
      rw [hfreq]; decide
    exact ⟨fun h' => absurd h' h, fun h' => absurd h' h, fun h' => absurd h' h⟩
  obtain ⟨s0, w', k, e0, e1, -, e2, -⟩ := C74_fit_completes hE hN hQ hA hlog (by rw [hfreq]; decide) hi ht (mi := mi) hb hS
  refine ⟨w', k, e1, e2, fun hk => ?_⟩
  have e0' : CP.initFit E { CP.fresh nonNeg orth with X := X, XNorm := frobNorm X, dec := t } X t = .ok s0 := by
    rw [← e0, C36_refit_partial (old := { CP.fresh nonNeg orth with X := X, XNorm := frobNorm X, dec := t }) rfl]; rfl
  rw [fit_unfold (n := 0) (t := t) (s := s0) (hi budget loggers file) e0'] at e1
  rw [fit_unfold (n := 0) (t := t) (s := s0) (hi budget loggers file) e0']
  refine C106_noPath_fails (m := CP.method E { c with freq := some (f : Int) }) hpath (Int.natCast_pos.2 hf) (w' := w') ?_
    (N := f) (Int.natCast_pos.2 hf) (by rw [e2]; exact_mod_cast hk) (dvd_refl _)
  rw [← e1]
  have : (CP.method E { c with freq := some (f : Int) }).off = CP.method E c := by
    unfold Method.off CP.method
    rw [hfreq]; rfl
  rw [this]

/-- The hypotheses hold for random starts. -/
example {E : Ext} (hE : E.SVDOk) (hN : E.NNLSOk) (hQ : E.QROk) {c : CP.Config} (ho : c.opts = ⟨2, 1e-6, 1e-10, none⟩)
    (hi : c.init.toLower = "random") (hlog : c.logs = []) (hfreq : c.freq = none) (hpath : c.hasPath = false) :
    ∃ w', ∃ k : ℕ, CP.fit E c (full [2, 3] 1) (some 5) .none (CP.newObject none none 100 [] none) = .ok () w' ∧ w'.it = k ∧
      (1 ≤ k → ∃ w'', CP.fit E { c with freq := some ((1 : ℕ) : Int) } (full [2, 3] 1) (some 5) .none
        (CP.newObject none none 100 [] none) = .error .typeError w'') := by
  have hA : CP.Admissible c.opts none none (full [2, 3] (1 : ℝ)).shape := by
    rw [ho]
    exact ⟨by decide, by decide, by decide, by simp, by simp, by simp, by simp, by simp⟩
  obtain ⟨t, h1, h2, -⟩ := C68_cp_start c.draw (X := full [2, 3] (1 : ℝ)) (by simp) c.opts.rank (nn := none) (by simp)
  exact C106_cp_fails hE hN hQ hA (by intro p hp; rw [hlog] at hp; cases hp) (startsFrom_random hi h1) h2 (by simp) hfreq hpath 1
    one_pos

end
end TK
