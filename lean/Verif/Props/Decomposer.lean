import Verif.Lemmas.Counter

/-!
# Fit loops and checkpoints: C41–C48 for every decomposer
-/

namespace TK
open EStateM (Result)
open Fit

noncomputable section

variable {σ τ : Type}

/-! ## C41: the iteration budget -/

theorem iterM_one_add {step : σ → Py σ} {s s1 s2 : σ} {k : ℕ} (h : step s = .ok s1)
    (h2 : iterM step k s1 = .ok s2) : iterM step (k + 1) s = .ok s2 := by
  rw [iterM, h, bind_ok, h2]

/-- The loop with `n` iterations left, whatever the outcome. It performs `k ≤ n` iterations; if it returns, the
iteration number has grown by exactly `k`, the stopping test held at no state before, and fewer than `n`
iterations were performed only if it holds now. If it raises, the iteration number has grown by `k`, or by
`k - 1` if the exception came from a logger or from storing a checkpoint. -/
theorem C41_loop (m : Method σ τ) : ∀ (n i : ℕ) (last : Option ℕ) (w : World σ),
    match loop m n i last w with
    | .ok _ w' => ∃ k ≤ n, iterM m.step k w.st = .ok w'.st ∧ w'.it = w.it + k ∧ w'.maxIts = w.maxIts ∧
        (∀ j < k, ∃ s, iterM m.step j w.st = .ok s ∧ m.stop s = .ok false) ∧
        (k < n → m.stop w'.st = .ok true)
    | .error _ w' => ∃ k ≤ n, iterM m.step k w.st = .ok w'.st ∧ w'.maxIts = w.maxIts ∧
        (w'.it = w.it + k ∨ (1 ≤ k ∧ w'.it = w.it + (k - 1))) := by
  intro n
  induction n with
  | zero =>
    intro i last w
    rw [loop, pure_def]
    exact ⟨0, le_rfl, rfl, by simp, rfl, by omega, by omega⟩
  | succ n ih =>
    intro i last w
    rw [loop, bind_of_ok (get_def w)]
    cases hs : m.stop w.st with
    | error e =>
      rw [bind_of_error (lift_error rfl _)]
      exact ⟨0, by omega, rfl, rfl, by simp⟩
    | ok b =>
      rw [bind_of_ok (lift_ok rfl _)]
      cases b with
      | true => exact ⟨0, by omega, rfl, by simp, rfl, by omega, fun _ => hs⟩
      | false =>
        simp only [Bool.false_eq_true, if_false]
        cases hst : m.step w.st with
        | error e =>
          rw [bind_of_error (modifySt_error hst)]
          exact ⟨0, by omega, rfl, rfl, by simp⟩
        | ok s =>
          rw [bind_of_ok (modifySt_ok hst)]
          rcases afterIteration_any m { w with st := s } with ⟨ls, f, h⟩ | ⟨e, ls, f, h⟩
          · rw [bind_of_ok h]
            have hi := ih (i + 1) (some i)
              { st := s, it := w.it + 1, maxIts := w.maxIts, loggers := ls, file := f }
            cases hl : loop m n (i + 1) (some i)
              { st := s, it := w.it + 1, maxIts := w.maxIts, loggers := ls, file := f } with
            | ok r w' =>
              rw [hl] at hi
              obtain ⟨k, h1, h2, h3, h4, h5, h6⟩ := hi
              refine ⟨k + 1, by omega, iterM_one_add hst h2, ?_, h4, ?_, fun h => h6 (by omega)⟩
              · rw [h3]; push_cast; ring
              · intro j hj
                cases j with
                | zero => exact ⟨w.st, rfl, hs⟩
                | succ j =>
                  obtain ⟨s', h7, h8⟩ := h5 j (by omega)
                  exact ⟨s', iterM_one_add hst h7, h8⟩
            | error e w' =>
              rw [hl] at hi
              obtain ⟨k, h1, h2, h3, h4⟩ := hi
              refine ⟨k + 1, by omega, iterM_one_add hst h2, h3, ?_⟩
              simp only at h4
              rcases h4 with h4 | ⟨h4, h5⟩
              · left; rw [h4]; push_cast; ring
              · right; exact ⟨Nat.le_add_left 1 k, by rw [h5]; push_cast; ring⟩
          · rw [bind_of_error h]
            refine ⟨1, by omega, iterM_one_add hst rfl, rfl, ?_⟩
            right; simp

theorem final_same (m : Method σ τ) (last : Option ℕ) (w : World σ) : SameRun w (after (final m last w)) := by
  have key : ∀ n : Int, SameRun w (after ((do
      let b ← lift (divides m.freq n)
      if !b && decide (0 < m.freq) then storeCheckpoint m : Fit σ Unit) w)) := by
    intro n
    cases h : divides m.freq n with
    | error e => rw [bind_of_error (lift_error rfl _)]; exact ⟨rfl, rfl, rfl⟩
    | ok b =>
      rw [bind_of_ok (lift_ok rfl _)]
      split
      · exact storeCheckpoint_same m w
      · exact ⟨rfl, rfl, rfl⟩
  unfold final
  by_cases hu : m.usesLoopVar = true
  · simp only [hu, if_true]
    cases last with
    | none => rw [bind_of_error (throw_def _ _)]; exact ⟨rfl, rfl, rfl⟩
    | some i => rw [bind_of_ok (pure_def _ _)]; exact key _
  · simp only [hu]
    exact key _

/-- C41. A call of `_fit` that returns has performed `k` iterations, at most `max_its - current_iteration`
(none if that is negative), and `current_iteration` has grown by exactly `k`; it performed fewer only because
the stopping test holds at the state reached, and the test did not hold at any earlier state. -/
theorem C41_run (m : Method σ τ) {w w' : World σ} (h : run m w = .ok () w') :
    ∃ s0 s1 k, m.prepare w.st = .ok s0 ∧ iterM m.step k s0 = .ok s1 ∧ m.post s1 = .ok w'.st ∧
      k ≤ (w.maxIts - w.it).toNat ∧ w'.it = w.it + k ∧ w'.maxIts = w.maxIts ∧
      (k < (w.maxIts - w.it).toNat → m.stop s1 = .ok true) ∧
      (∀ j < k, ∃ s, iterM m.step j s0 = .ok s ∧ m.stop s = .ok false) := by
  rw [run] at h
  cases hp : m.prepare w.st with
  | error e => rw [bind_of_error (modifySt_error hp)] at h; cases h
  | ok s0 =>
    rw [bind_of_ok (modifySt_ok hp), bind_of_ok (get_def _)] at h
    have hl := C41_loop m (w.maxIts - w.it).toNat 0 none { w with st := s0 }
    cases hc : loop m (w.maxIts - w.it).toNat 0 none { w with st := s0 } with
    | error e w1 => rw [bind_of_error hc] at h; cases h
    | ok r w1 =>
      rw [hc] at hl
      rw [bind_of_ok hc] at h
      obtain ⟨k, h1, h2, h3, h4, h5, h6⟩ := hl
      have hf := final_same m r w1
      cases hfin : final m r w1 with
      | error e w2 => rw [bind_of_error hfin] at h; cases h
      | ok u w2 =>
        rw [hfin] at hf
        obtain ⟨f1, f2, f3⟩ := hf
        simp only [after] at f1 f2 f3
        rw [bind_of_ok hfin] at h
        cases hpo : m.post w2.st with
        | error e => rw [modifySt_error hpo] at h; cases h
        | ok s2 =>
          rw [modifySt_ok hpo] at h
          cases h
          refine ⟨s0, w1.st, k, rfl, h2, by rw [← f1]; exact hpo, h1, ?_, ?_, h6, h5⟩
          · simp only; rw [f2, h3]
          · simp only; rw [f3, h4]

/-- A run that stops early: 2 iterations of a budget of 4. -/
example : run (counter (-1) true true 2) (counterWorld 4) = .ok () ⟨2, 2, 4, [], none⟩ := rfl

/-- A run that uses its budget. -/
example : run (counter (-1) true true 7) (counterWorld 3) = .ok () ⟨3, 3, 3, [], none⟩ := rfl

/-- `run` in any outcome performs at most as many iterations as the budget allows, and counts at most that
many. -/
theorem C41_run_any (m : Method σ τ) (w : World σ) :
    (after (run m w)).maxIts = w.maxIts ∧ w.it ≤ (after (run m w)).it ∧
      (after (run m w)).it ≤ w.it + (w.maxIts - w.it).toNat := by
  rw [run]
  cases hp : m.prepare w.st with
  | error e => rw [bind_of_error (modifySt_error hp)]; exact ⟨rfl, le_rfl, by simp only [after]; omega⟩
  | ok s0 =>
    rw [bind_of_ok (modifySt_ok hp), bind_of_ok (get_def _)]
    have hl := C41_loop m (w.maxIts - w.it).toNat 0 none { w with st := s0 }
    simp only
    cases hc : loop m (w.maxIts - w.it).toNat 0 none { w with st := s0 } with
    | error e w1 =>
      rw [hc] at hl
      obtain ⟨k, h1, -, h3, h4⟩ := hl
      rw [bind_of_error hc]
      refine ⟨h3, ?_, ?_⟩ <;> simp only [after] at * <;> omega
    | ok r w1 =>
      rw [hc] at hl
      rw [bind_of_ok hc]
      obtain ⟨k, h1, h2, h3, h4, -, -⟩ := hl
      have hf := final_same m r w1
      cases hfin : final m r w1 with
      | error e w2 =>
        rw [hfin] at hf
        obtain ⟨f1, f2, f3⟩ := hf
        rw [bind_of_error hfin]
        simp only [after] at *
        refine ⟨f3.trans h4, ?_, ?_⟩ <;> omega
      | ok u w2 =>
        rw [hfin] at hf
        obtain ⟨f1, f2, f3⟩ := hf
        rw [bind_of_ok hfin]
        cases hpo : m.post w2.st with
        | error e =>
          rw [modifySt_error hpo]
          simp only [after] at *
          refine ⟨f3.trans h4, ?_, ?_⟩ <;> omega
        | ok s2 =>
          rw [modifySt_ok hpo]
          simp only [after] at *
          refine ⟨f3.trans h4, ?_, ?_⟩ <;> omega

/-- A run that raises after two iterations, when a checkpoint is due and no path is given: one is counted. -/
example : (after (run { counter 2 true true 7 with hasPath := false } (counterWorld 4))).it = 1 ∧
    raised (run { counter 2 true true 7 with hasPath := false } (counterWorld 4)) = some .typeError := ⟨rfl, rfl⟩

theorem setMaxIts_ok (o : Option Int) (w : World σ) :
    setMaxIts o w = .ok () { w with maxIts := o.getD w.maxIts } := by
  cases o <;> rfl

/-- C41. `continue_fit(max_its)`: the argument, if given, replaces the budget, which then counts all
iterations so far. -/
theorem C41_continue (m : Method σ τ) (o : Option Int) {w w' : World σ} (h : continueFit m o w = .ok () w') :
    ∃ s0 s1 k, m.prepare w.st = .ok s0 ∧ iterM m.step k s0 = .ok s1 ∧ m.post s1 = .ok w'.st ∧
      w'.maxIts = o.getD w.maxIts ∧ w'.it = w.it + k ∧ (0 < k → w'.it ≤ w'.maxIts) ∧
      (w'.it < w'.maxIts → m.stop s1 = .ok true) := by
  rw [continueFit, bind_of_ok (setMaxIts_ok o w)] at h
  obtain ⟨s0, s1, k, h1, h2, h3, h4, h5, h6, h7, -⟩ := C41_run m h
  simp only at h4 h5 h6 h7 h1
  refine ⟨s0, s1, k, h1, h2, h3, h6, h5, fun hk => by omega, fun hlt => h7 (by omega)⟩

/-- A budget of 2 that is raised to 4 after the first run. -/
example : run (counter (-1) true true 7) (counterWorld 2) = .ok () ⟨2, 2, 2, [], none⟩ ∧
    continueFit (counter (-1) true true 7) (some 4) ⟨2, 2, 2, [], none⟩ = .ok () ⟨4, 4, 4, [], none⟩ := ⟨rfl, rfl⟩

/-- `fit(X, max_its)` is the initialisation followed by the loop: the budget is the argument, if given. -/
theorem C41_fit (m : Method σ τ) {setT : σ → Py σ} {ini : Fit σ Unit} {o : Option Int} {w w' : World σ}
    (hini : ∀ w1 w2, ini w1 = .ok () w2 → w2.it = w1.it ∧ w2.maxIts = w1.maxIts)
    (h : fit m setT ini o w = .ok () w') :
    ∃ s0 s1 s2 k, m.initRest s0 = .ok s1 ∧ (∃ s1', m.prepare s1 = .ok s1' ∧ iterM m.step k s1' = .ok s2) ∧
      m.post s2 = .ok w'.st ∧ w'.it = k ∧ w'.maxIts = o.getD w.maxIts ∧ k ≤ (o.getD w.maxIts).toNat ∧
      ((k : Int) < o.getD w.maxIts → m.stop s2 = .ok true) := by
  rw [fit] at h
  cases hi : initFit m setT ini o w with
  | error e w1 => rw [bind_of_error hi] at h; cases h
  | ok u w1 =>
    rw [bind_of_ok hi] at h
    rw [initFit, bind_of_ok (modify_def _ _)] at hi
    cases ht : setT w.st with
    | error e => rw [bind_of_error (modifySt_error (by simpa using ht))] at hi; cases hi
    | ok st =>
      rw [bind_of_ok (modifySt_ok (by simpa using ht))] at hi
      simp only at hi
      cases hc : ini { w with it := 0, st := st } with
      | error e w2 => rw [bind_of_error hc] at hi; cases hi
      | ok u2 w2 =>
        rw [bind_of_ok hc, bind_of_ok (setMaxIts_ok _ _)] at hi
        obtain ⟨h1, h2⟩ := hini _ _ hc
        cases hr : m.initRest w2.st with
        | error e => rw [modifySt_error (by simpa using hr)] at hi; cases hi
        | ok s3 =>
          rw [modifySt_ok (by simpa using hr)] at hi
          cases hi
          obtain ⟨s0, s1, k, g1, g2, g3, g4, g5, g6, g7, -⟩ := C41_run m h
          simp only at h1 h2 g1 g4 g5 g6 g7
          rw [h1] at g4 g5 g7
          rw [h2] at g4 g6 g7
          exact ⟨w2.st, s3, s1, k, hr, ⟨s0, g1, g2⟩, g3, by omega, g6, by omega, fun hk => g7 (by omega)⟩

/-- A second `fit` of the same object counts from 0 again and keeps the budget. -/
example : fit (counter (-1) true true 1) (fun _ => .ok 0) (pure ()) none ⟨7, 7, 2, [], none⟩ =
      .ok () ⟨1, 1, 2, [], none⟩ ∧
    (∀ w1 w2 : World ℕ, (pure () : Fit ℕ Unit) w1 = .ok () w2 → w2.it = w1.it ∧ w2.maxIts = w1.maxIts) :=
  ⟨rfl, by rintro w1 w2 h; cases h; exact ⟨rfl, rfl⟩⟩

/-- Successive calls of `continue_fit` with the given arguments. -/
def continues (m : Method σ τ) : List (Option Int) → Fit σ Unit
  | [] => pure ()
  | o :: os => do
    continueFit m o
    continues m os

/-- C41. After any sequence of calls of `continue_fit`, the number of iterations counted has not passed the
largest of the budgets in force (or the number counted before). -/
theorem C41_sequence (m : Method σ τ) : ∀ (os : List (Option Int)) (w : World σ) (B : Int),
    w.it ≤ B → w.maxIts ≤ B → (∀ n, some n ∈ os → n ≤ B) → (after (continues m os w)).it ≤ B
  | [], w, B, h, _, _ => h
  | o :: os, w, B, h, h', ho => by
    have hm : o.getD w.maxIts ≤ B := by
      cases o with
      | none => exact h'
      | some n => exact ho n (by simp)
    have hc : continueFit m o w = run m { w with maxIts := o.getD w.maxIts } := by
      rw [continueFit, bind_of_ok (setMaxIts_ok o w)]
    obtain ⟨h1, h2, h3⟩ := C41_run_any m { w with maxIts := o.getD w.maxIts }
    rw [continues]
    cases hr : run m { w with maxIts := o.getD w.maxIts } with
    | error e w1 =>
      rw [bind_of_error (hc.trans hr)]
      rw [hr] at h1 h2 h3
      simp only [after] at *
      omega
    | ok u w1 =>
      rw [bind_of_ok (hc.trans hr)]
      rw [hr] at h1 h2 h3
      simp only [after] at h1 h2 h3
      refine C41_sequence m os w1 B (by omega) (by omega) fun n hn => ho n (by simp [hn])

/-- Three calls, with the largest budget in the middle. -/
example : (after (continues (counter (-1) true true 30) [some 2, some 5, none] (counterWorld 0))).it ≤ 5 :=
  C41_sequence _ _ _ 5 (by decide) (by decide) (by
    intro n hn
    simp only [List.mem_cons, Option.some.injEq, List.not_mem_nil, or_false, reduceCtorEq] at hn
    omega)

/-! ## C42: `continue_fit` with an exhausted budget -/

theorem loop_zero (m : Method σ τ) {n : Int} (hn : n ≤ 0) (w : World σ) :
    loop m n.toNat 0 none w = .ok none w := by
  rw [Int.toNat_of_nonpos hn]; rfl

/-- C42 is false of `CP_ALS` and `CMTF_ALS`: with an exhausted budget `_fit` always raises
`UnboundLocalError`, because the test after the loop reads a loop variable that was never assigned. -/
theorem C42_raises (m : Method σ τ) (hu : m.usesLoopVar = true) {w : World σ} {s0 : σ} (hw : w.maxIts ≤ w.it)
    (hp : m.prepare w.st = .ok s0) : continueFit m none w = .error .unboundLocalError { w with st := s0 } := by
  rw [continueFit, bind_of_ok (setMaxIts_ok none w)]
  rw [run, bind_of_ok (modifySt_ok (s := s0) (by simpa using hp)), bind_of_ok (get_def _)]
  simp only [Option.getD_none]
  rw [bind_of_ok (loop_zero m (by omega) _)]
  have : final m none { w with st := s0 } = .error .unboundLocalError { w with st := s0 } := by
    rw [final]; simp only [hu, if_true]; rfl
  rw [bind_of_error this]

example : continueFit (counter (-1) true true 30) none ⟨4, 4, 4, [], none⟩ =
    .error .unboundLocalError ⟨4, 4, 4, [], none⟩ :=
  C42_raises _ rfl (by decide) rfl

/-- C42 holds for a decomposer that tests `current_iteration` after the loop (`Parafac2_ALS`) when no
checkpoints are stored: nothing changes but what `_fit` prepares and finishes. -/
theorem C42_noop_partial (m : Method σ τ) (hu : m.usesLoopVar = false) (hf : m.freq < 0) {w : World σ} {s0 s1 : σ}
    (hw : w.maxIts ≤ w.it) (hp : m.prepare w.st = .ok s0) (hq : m.post s0 = .ok s1) :
    continueFit m none w = .ok () { w with st := s1 } := by
  rw [continueFit, bind_of_ok (setMaxIts_ok none w)]
  rw [run, bind_of_ok (modifySt_ok (s := s0) (by simpa using hp)), bind_of_ok (get_def _)]
  simp only [Option.getD_none]
  rw [bind_of_ok (loop_zero m (by omega) _)]
  have hfin : final m none { w with st := s0 } = .ok () { w with st := s0 } := by
    rw [final]
    simp only [hu, Bool.false_eq_true, if_false]
    rw [bind_def]
    simp only [bind_of_ok (get_def _), pure_def]
    rw [bind_of_ok (lift_ok (divides_ok (by omega)) _)]
    have : decide (0 < m.freq) = false := decide_eq_false (by omega)
    simp [this]
  rw [bind_of_ok hfin, modifySt_ok hq]

example : continueFit (counter (-1) false true 30) none ⟨4, 4, 4, [], none⟩ = .ok () ⟨4, 4, 4, [], none⟩ :=
  C42_noop_partial _ rfl (by decide) (by decide) rfl rfl

/-- C42 is false of `Parafac2_ALS` as well when it stores checkpoints: if the last iteration is stored
already, storing it again raises. -/
theorem C42_store_again (m : Method σ τ) (hu : m.usesLoopVar = false) {w : World σ} {s0 : σ}
    {L : List (Int × τ)} (hf : 0 < m.freq) (hw : w.maxIts ≤ w.it) (hp : m.prepare w.st = .ok s0)
    (hS : Storing m w L) (hn : w.it ∈ L.map Prod.fst) (hd : ¬ m.freq ∣ w.it + 1) :
    raised (continueFit m none w) = some .nameExists := by
  rw [continueFit, bind_of_ok (setMaxIts_ok none w)]
  rw [run, bind_of_ok (modifySt_ok (s := s0) (by simpa using hp)), bind_of_ok (get_def _)]
  simp only [Option.getD_none]
  rw [bind_of_ok (loop_zero m (by omega) _)]
  have hfin : final m none { w with st := s0 } = storeCheckpoint m { w with st := s0 } := by
    rw [final]
    simp only [hu, Bool.false_eq_true, if_false]
    rw [bind_def]
    simp only [bind_of_ok (get_def _), pure_def]
    rw [bind_of_ok (lift_ok (divides_ok (by omega)) _)]
    simp [hd, hf]
  obtain ⟨f, h1, -⟩ := storeCheckpoint_collision m (w := { w with st := s0 }) (L := L) (hS.path hf) (hS.cks hf) hn
  rw [bind_of_error (hfin.trans h1)]
  rfl

/-- The iteration with number 4 is stored already, and the frequency is 3. -/
example : ∃ w : World ℕ, w.it = 4 ∧ w.maxIts = 4 ∧
    raised (continueFit (counter 3 false true 30) none w) = some .nameExists := by
  obtain ⟨ls, f, -, h2, h3⟩ := storeCheckpoint_ok (counter 3 false true 30) (w := ⟨4, 4, 4, [], none⟩) (L := []) rfl
    (counter_empty _ _) (fun n hn => absurd hn (by simp [counter])) (by simp) rfl
  exact ⟨⟨4, 4, 4, ls, some f⟩, rfl, rfl, C42_store_again _ rfl (L := [(4, 4)]) (s0 := 4)
    (show (0 : Int) < 3 by decide) le_rfl rfl ⟨fun _ => rfl, fun _ => h2, fun _ => h3⟩ (by simp)
    (show ¬ (3 : Int) ∣ 5 by decide)⟩

end
end TK
