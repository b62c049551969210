import Verif.Props.CheckpointFree
import Verif.Props.CMTFFitMore

/-!
# C107: fitting in two parts

`fit(X, max_its=N)` followed by `continue_fit(max_its=M)` against `fit(X, max_its=M)`.
-/

namespace TK
open NDArray
open EStateM (Result)
open Fit

noncomputable section

variable {σ τ : Type}

/-! ## Any decomposer -/

theorem loop_some (m : Method σ τ) : ∀ (n i : ℕ) (last : Option ℕ) {w w' : World σ} {r : Option ℕ}, 0 < n →
    loop m n i last w = .ok r w' → ∃ j, r = some j
  | 0, _, _, _, _, _, h, _ => absurd h (lt_irrefl _)
  | n + 1, i, last, w, w', r, _, e => by
    rw [loop, bind_of_ok (get_def _)] at e
    cases hs : m.stop w.st with
    | error x => rw [hs, bind_of_error (lift_error rfl _)] at e; cases e
    | ok b =>
      rw [hs, bind_of_ok (lift_ok rfl _)] at e
      cases b with
      | true => cases e; exact ⟨i, rfl⟩
      | false =>
        simp only [Bool.false_eq_true, if_false] at e
        cases h1 : modifySt m.step w with
        | error x w1 => rw [bind_of_error h1] at e; cases e
        | ok u w1 =>
          rw [bind_of_ok h1] at e
          cases h2 : afterIteration m w1 with
          | error x w2 => rw [bind_of_error h2] at e; cases e
          | ok u2 w2 =>
            rw [bind_of_ok h2] at e
            rcases Nat.eq_zero_or_pos n with rfl | hn
            · cases e; exact ⟨i, rfl⟩
            · exact loop_some m n (i + 1) (some i) hn e

theorem final_quiet (m : Method σ τ) (hf : m.freq < 0) (w : World σ) {r : Option ℕ} (hr : m.usesLoopVar = false ∨ ∃ j, r = some j) :
    final m r w = .ok () w := by
  have key : ∀ n : Int, (do
      let b ← lift (divides m.freq n)
      if !b && decide (0 < m.freq) then storeCheckpoint m : Fit σ Unit) w = .ok () w := by
    intro n
    rw [divides_ok (by omega), bind_of_ok (lift_ok rfl _)]
    simp only [show decide (0 < m.freq) = false from decide_eq_false (by omega), Bool.and_false, Bool.false_eq_true, if_false]
    rfl
  unfold final
  rcases hr with h | ⟨j, rfl⟩
  · simp only [h, Bool.false_eq_true, if_false]
    exact Eq.trans rfl (key (w.it + 1))
  · by_cases h : m.usesLoopVar = true
    · simp only [h, if_true]
      exact (bind_of_ok (pure_def _ _)).trans (key _)
    · simp only [Bool.not_eq_true] at h
      simp only [h, Bool.false_eq_true, if_false]
      exact Eq.trans rfl (key (w.it + 1))

/-- The same world with another budget. -/
def World.budget (M : Int) (w : World σ) : World σ := { w with maxIts := M }

/-- The same outcome with another budget. -/
def rebudget {α : Type} (M : Int) : Result PyErr (World σ) α → Result PyErr (World σ) α
  | .ok a w => .ok a (w.budget M)
  | .error e w => .error e (w.budget M)

theorem afterIteration_budget (m : Method σ τ) (hf : m.freq < 0) (M : Int) (w : World σ) :
    afterIteration m (w.budget M) = rebudget M (afterIteration m w) := by
  unfold afterIteration
  rw [bind_of_ok (get_def _), bind_of_ok (get_def _)]
  show (lift (logAll w.it w.st m.logs w.loggers) >>= _) _ = _
  cases h1 : logAll w.it w.st m.logs w.loggers with
  | error x => rw [bind_of_error (lift_error rfl _), bind_of_error (lift_error rfl _)]; rfl
  | ok ls =>
    rw [bind_of_ok (lift_ok rfl _), bind_of_ok (lift_ok rfl _), bind_of_ok (set_def _ _), bind_of_ok (set_def _ _)]
    rw [divides_ok (by omega), divides_ok (by omega), bind_of_ok (lift_ok rfl _), bind_of_ok (lift_ok rfl _)]
    simp only [show decide (0 < m.freq) = false from decide_eq_false (by omega), Bool.and_false, Bool.false_eq_true, if_false]
    rfl

theorem loop_budget (m : Method σ τ) (hf : m.freq < 0) (M : Int) : ∀ (n i : ℕ) (last : Option ℕ) (w : World σ),
    loop m n i last (w.budget M) = rebudget M (loop m n i last w)
  | 0, _, _, _ => rfl
  | n + 1, i, last, w => by
    simp only [loop]
    rw [bind_of_ok (get_def _), bind_of_ok (get_def _)]
    show (lift (m.stop w.st) >>= _) _ = _
    cases hs : m.stop w.st with
    | error x => rw [bind_of_error (lift_error rfl _), bind_of_error (lift_error rfl _)]; rfl
    | ok b =>
      rw [bind_of_ok (lift_ok rfl _), bind_of_ok (lift_ok rfl _)]
      cases b with
      | true => rfl
      | false =>
        simp only [Bool.false_eq_true, if_false]
        cases h1 : m.step w.st with
        | error x => rw [bind_of_error (modifySt_error h1), bind_of_error (modifySt_error (w := w.budget M) h1)]; rfl
        | ok s =>
          rw [bind_of_ok (modifySt_ok h1), bind_of_ok (modifySt_ok (w := w.budget M) h1)]
          have h3 := afterIteration_budget m hf M { w with st := s }
          cases h2 : afterIteration m { w with st := s } with
          | error x w2 =>
            rw [h2] at h3
            rw [bind_of_error h2]
            exact (bind_of_error h3).trans rfl
          | ok u2 w2 =>
            rw [h2] at h3
            rw [bind_of_ok h2]
            refine (bind_of_ok h3).trans ?_
            exact loop_budget m hf M n _ _ _

theorem loop_last (m : Method σ τ) (K : Fit σ Unit) : ∀ (b i i' : ℕ) (last last' : Option ℕ) (w : World σ),
    (loop m b i last >>= fun _ => K) w = (loop m b i' last' >>= fun _ => K) w
  | 0, i, i', last, last', w => by
    rw [bind_of_ok (show loop m 0 i last w = .ok last w from rfl), bind_of_ok (show loop m 0 i' last' w = .ok last' w from rfl)]
  | b + 1, i, i', last, last', w => by
    simp only [loop, bind_assoc]
    rw [bind_of_ok (get_def _), bind_of_ok (get_def _)]
    cases hs : m.stop w.st with
    | error x => rw [bind_of_error (lift_error rfl _), bind_of_error (lift_error rfl _)]
    | ok c =>
      rw [bind_of_ok (lift_ok rfl _), bind_of_ok (lift_ok rfl _)]
      cases c with
      | true => rfl
      | false =>
        simp only [Bool.false_eq_true, if_false, bind_assoc]
        cases h1 : modifySt m.step w with
        | error x w1 => rw [bind_of_error h1, bind_of_error h1]
        | ok u w1 =>
          rw [bind_of_ok h1, bind_of_ok h1]
          cases h2 : afterIteration m w1 with
          | error x w2 => rw [bind_of_error h2, bind_of_error h2]
          | ok u2 w2 => rw [bind_of_ok h2, bind_of_ok h2]; exact loop_last m K b _ _ _ _ _

theorem loop_stop (m : Method σ τ) (K : Fit σ Unit) {w : World σ} (hs : m.stop w.st = .ok true) {b : ℕ} (hb : 0 < b) (i : ℕ)
    (last : Option ℕ) : (loop m b i last >>= fun _ => K) w = K w := by
  obtain ⟨b, rfl⟩ := Nat.exists_eq_succ_of_ne_zero hb.ne'
  simp only [loop, bind_assoc]
  rw [bind_of_ok (get_def _), hs, bind_of_ok (lift_ok rfl _)]
  rfl

/-- A loop of `a + b` iterations is one of `a` iterations followed by one of `b`, except for the loop variable. -/
theorem loop_split (m : Method σ τ) {b c : ℕ} (hb : 0 < b) (hc : 0 < c) (K : Fit σ Unit) : ∀ (a i : ℕ) (last : Option ℕ)
    {w w' : World σ} {r : Option ℕ}, loop m a i last w = .ok r w' → (c = b ∨ m.stop w'.st = .ok true) →
    ∀ (i' : ℕ) (last' : Option ℕ), (loop m (a + b) i last >>= fun _ => K) w = (loop m c i' last' >>= fun _ => K) w'
  | 0, i, last, w, w', r, e, h, i', last' => by
    cases e
    rw [Nat.zero_add]
    rcases h with rfl | h
    · exact loop_last m K _ _ _ _ _ _
    · rw [loop_stop m K h hb, loop_stop m K h hc]
  | a + 1, i, last, w, w', r, e, h, i', last' => by
    rw [Nat.add_right_comm]
    rw [loop] at e
    simp only [loop, bind_assoc]
    rw [bind_of_ok (get_def _)] at e ⊢
    cases hs : m.stop w.st with
    | error x => rw [hs, bind_of_error (lift_error rfl _)] at e; cases e
    | ok d =>
      rw [hs, bind_of_ok (lift_ok rfl _)] at e
      rw [bind_of_ok (lift_ok rfl _)]
      cases d with
      | true =>
        cases e
        rw [loop_stop m K hs hc]
        rfl
      | false =>
        simp only [Bool.false_eq_true, if_false, bind_assoc] at e ⊢
        cases h1 : modifySt m.step w with
        | error x w1 => rw [bind_of_error h1] at e; cases e
        | ok u w1 =>
          rw [bind_of_ok h1] at e ⊢
          cases h2 : afterIteration m w1 with
          | error x w2 => rw [bind_of_error h2] at e; cases e
          | ok u2 w2 =>
            rw [bind_of_ok h2] at e ⊢
            exact loop_split m hb hc K a (i + 1) (some i) e h i' last'

/-- Without checkpointing, `_fit` is its loop between the preparation and what follows. -/
theorem run_off (m : Method σ τ) (hf : m.freq < 0) {w : World σ} {s : σ} (hp : m.prepare w.st = .ok s) (hlt : w.it < w.maxIts) :
    run m w = (loop m (w.maxIts - w.it).toNat 0 none >>= fun _ => modifySt m.post) { w with st := s } := by
  rw [run, bind_of_ok (modifySt_ok hp)]
  refine (bind_of_ok (get_def _)).trans ?_
  show (loop m (w.maxIts - w.it).toNat 0 none >>= _) _ = _
  cases h : loop m (w.maxIts - w.it).toNat 0 none { w with st := s } with
  | error x w1 => rw [bind_of_error h, bind_of_error h]
  | ok r w1 =>
    rw [bind_of_ok h, bind_of_ok h]
    exact bind_of_ok (final_quiet m hf w1 (.inr (loop_some m _ _ _ (by omega) h)))

/-- **C107**, for every decomposer whose `_fit` does nothing before and after its loop, without checkpoints: if `_fit` with the
budget `N` returns, then `continue_fit(max_its=M)` does exactly what `_fit` with the budget `M` would have done, including what it
raises. -/
theorem C107_run_partial (m : Method σ τ) (hf : m.freq < 0) (hp : ∀ s, m.prepare s = .ok s) (hpost : ∀ s, m.post s = .ok s)
    {N M : Int} {w w1 : World σ} (h : run m (w.budget N) = .ok () w1) (hM : N < M) :
    continueFit m (some M) w1 = run m (w.budget M) := by
  rcases le_or_gt N w.it with hN | hN
  · have hl : loop m (N - w.it).toNat 0 none (w.budget N) = .ok none (w.budget N) := by
      rw [Int.toNat_of_nonpos (by omega)]; rfl
    rw [run, bind_of_ok (modifySt_ok (hp _))] at h
    replace h := (bind_of_ok (get_def _)).symm.trans h
    replace h := (bind_of_ok hl).symm.trans h
    have hw : w1 = w.budget N := by
      by_cases hu : m.usesLoopVar = true
      · refine absurd ((bind_of_error (e := .unboundLocalError) (w' := w.budget N) ?_).symm.trans h) (by simp)
        unfold final
        simp only [hu, if_true]
        exact bind_of_error (throw_def _ _)
      · have h2 := (bind_of_ok (final_quiet m hf (w.budget N) (.inl (Bool.not_eq_true _ ▸ hu)))).symm.trans h
        rw [modifySt_ok (hpost _)] at h2
        cases h2; rfl
    rw [hw, continueFit, bind_of_ok (setMaxIts_ok _ _)]; rfl
  rw [run_off m hf (hp _) hN] at h
  change (loop m (N - w.it).toNat 0 none >>= fun _ => modifySt m.post) (w.budget N) = _ at h
  cases hl : loop m (N - w.it).toNat 0 none (w.budget N) with
  | error x w2 => rw [bind_of_error hl] at h; cases h
  | ok r w2 =>
    rw [bind_of_ok hl, modifySt_ok (hpost _)] at h
    cases h
    have hk := C41_loop m (N - w.it).toNat 0 none (w.budget N)
    rw [hl] at hk
    obtain ⟨k, hk1, -, hk2, -, -, hk3⟩ := hk
    have hk2 : w2.it = w.it + k := hk2
    have e1 : continueFit m (some M) { w2 with st := w2.st } = run m (w2.budget M) := by
      rw [continueFit, bind_of_ok (setMaxIts_ok _ _)]; rfl
    have hlM : loop m (N - w.it).toNat 0 none (w.budget M) = .ok r (w2.budget M) := by
      have := loop_budget m hf M (N - w.it).toNat 0 none (w.budget N)
      rw [hl] at this
      exact this
    rw [e1, run_off m hf (hp _) (show w2.it < M by omega), run_off m hf (hp _) (show w.it < M by omega)]
    show (loop m (M - w2.it).toNat 0 none >>= _) (w2.budget M) = (loop m (M - w.it).toNat 0 none >>= _) (w.budget M)
    rw [show (M - w.it).toNat = (N - w.it).toNat + (M - N).toNat by omega]
    refine (loop_split m (by omega) (by omega) _ _ 0 none hlM ?_ 0 none).symm
    rcases Nat.lt_or_ge k (N - w.it).toNat with hlt | hge
    · exact .inr (hk3 hlt)
    · exact .inl (by omega)

/-- The same for `fit`: what `fit` prepares does not depend on the budget. -/
theorem C107_fit_partial (m : Method σ τ) (hf : m.freq < 0) (hp : ∀ s, m.prepare s = .ok s) (hpost : ∀ s, m.post s = .ok s)
    {setTarget : σ → Py σ} {initComponents : Fit σ Unit}
    {N M : Int} {w w1 : World σ} (h : fit m setTarget initComponents (some N) w = .ok () w1) (hM : N < M) :
    continueFit m (some M) w1 = fit m setTarget initComponents (some M) w := by
  unfold fit initFit at *
  simp only [bind_assoc] at *
  rw [bind_of_ok (modify_def _ _)] at h ⊢
  cases h1 : modifySt setTarget { w with it := 0 } with
  | error x w2 => rw [bind_of_error h1] at h; cases h
  | ok u w2 =>
    rw [bind_of_ok h1] at h ⊢
    cases h2 : initComponents w2 with
    | error x w3 => rw [bind_of_error h2] at h; cases h
    | ok u w3 =>
      rw [bind_of_ok h2, bind_of_ok (setMaxIts_ok _ _)] at h ⊢
      cases h3 : m.initRest w3.st with
      | error x => rw [bind_of_error (modifySt_error (by exact h3))] at h; cases h
      | ok s =>
        rw [bind_of_ok (modifySt_ok (by exact h3))] at h ⊢
        exact C107_run_partial m hf hp hpost (w := { w3 with st := s }) h hM

/-- Two iterations of the counter and then up to five are five iterations; with a limit of 4, the second part stops early, as the
long run does. -/
example : run (counter (-1) true true 9) ((counterWorld 0).budget 2) = .ok () ⟨2, 2, 2, [], none⟩ ∧
    continueFit (counter (-1) true true 9) (some 5) ⟨2, 2, 2, [], none⟩ = .ok () ⟨5, 5, 5, [], none⟩ ∧
    continueFit (counter (-1) true true 4) (some 5) ⟨2, 2, 2, [], none⟩ = .ok () ⟨4, 4, 5, [], none⟩ ∧
    run (counter (-1) true true 4) ((counterWorld 0).budget 5) = .ok () ⟨4, 4, 5, [], none⟩ := ⟨rfl, rfl, rfl, rfl⟩

/-- The same for any checkpoint frequency, as far as the calls return: the decomposition, the iteration number and the logs are the
same. (They need not return: C46.) -/
theorem C107_checkpoints_partial (m : Method σ τ) (hp : ∀ s, m.prepare s = .ok s) (hpost : ∀ s, m.post s = .ok s)
    {setTarget : σ → Py σ} {initComponents : Fit σ Unit} {N M : Int} {w w1 w2 w3 : World σ}
    (h1 : fit m setTarget initComponents (some N) w = .ok () w1) (h2 : continueFit m (some M) w1 = .ok () w2)
    (h3 : fit m setTarget initComponents (some M) w = .ok () w3) (hM : N < M) : SameFit w2 w3 := by
  obtain ⟨v1, e1, s1⟩ := C106_fit_partial m setTarget initComponents (some N) h1
  obtain ⟨v3, e3, s3⟩ := C106_fit_partial m setTarget initComponents (some M) h3
  have hc := C107_fit_partial m.off (show (-1 : Int) < 0 by decide) hp hpost e1 hM
  rw [e3, continueFit, bind_of_ok (setMaxIts_ok _ _)] at hc
  rw [continueFit, bind_of_ok (setMaxIts_ok _ _)] at h2
  obtain ⟨v2, e2, s2, -⟩ := run_same m (w := { w1 with maxIts := M }) (v := { v1 with maxIts := M }) ⟨s1.st, s1.it, rfl, s1.logs⟩ h2
  have h : Result.ok () v2 = (Result.ok () v3 : Result PyErr (World σ) Unit) := e2.symm.trans hc
  injection h with _ h
  subst h
  exact ⟨s3.st.symm.trans s2.st, s3.it.symm.trans s2.it, s3.maxIts.symm.trans s2.maxIts, s3.logs.symm.trans s2.logs⟩

/-! ## `CP_ALS` -/

/-- **C107 for `CP_ALS`**: without checkpointing, for every object, data, start, options and constraints: if `fit(X, max_its=N)` returns,
`continue_fit(max_its=M)` with `N < M` does exactly what `fit(X, max_its=M)` would have done on the same object. The random numbers
are the same in both (they are a field of the options). -/
theorem C107_cp_partial (E : Ext) {c : CP.Config} (hf : freqOption c.freq < 0) {X : NDArray ℝ} {arg : InitArg KruskalTensor} {N M : Int}
    {w w1 : World CPState} (h : CP.fit E c X (some N) arg w = .ok () w1) (hM : N < M) :
    continueFit (CP.method E c) (some M) w1 = CP.fit E c X (some M) arg w :=
  C107_fit_partial (CP.method E c) hf (fun _ => rfl) (fun _ => rfl) h hM

end
end TK
