import Verif.Props.Decomposer

/-!
# Checkpoint files: C43–C49 for every decomposer
-/

namespace TK
open EStateM (Result)
open Fit

noncomputable section

variable {σ τ : Type}

/-- The number that is tested after the loop, when `k` of at most `n` iterations were performed and the run
began with iteration number `start`. -/
def finalNumber (usesLoopVar : Bool) (start : Int) (k n : ℕ) : Int :=
  if usesLoopVar then (if k < n then (k : Int) + 1 else n) else start + k + 1

/-- The checkpoint stored after the loop, if any. -/
def finalCheckpoint (m : Method σ τ) (start : Int) (k n : ℕ) (d : τ) : List (Int × τ) :=
  if 0 < m.freq ∧ ¬ m.freq ∣ finalNumber m.usesLoopVar start k n then [(start + k, d)] else []

theorem final_total (m : Method σ τ) (hf : m.freq ≠ 0) {start : Int} {k n : ℕ} {w : World σ} {L : List (Int × τ)}
    (hn : m.usesLoopVar = true → 0 < n) (hk : k ≤ n) (hit : w.it = start + k) (hS : Storing m w L)
    (hst : ∃ g, m.storeDec (m.dec w.st) Group.empty = .ok g)
    (hfresh : 0 < m.freq → ¬ m.freq ∣ finalNumber m.usesLoopVar start k n → w.it ∉ L.map Prod.fst) :
    ∃ w', final m (if k < n then some (0 + k) else if n = 0 then none else some (0 + n - 1)) w = .ok () w' ∧
      SameRun w w' ∧ Storing m w' (L ++ finalCheckpoint m start k n (m.dec w.st)) := by
  have key : ∀ N : Int, N = finalNumber m.usesLoopVar start k n →
      ∃ w', (do
        let b ← lift (divides m.freq N)
        if !b && decide (0 < m.freq) then storeCheckpoint m : Fit σ Unit) w = .ok () w' ∧
      SameRun w w' ∧ Storing m w' (L ++ finalCheckpoint m start k n (m.dec w.st)) := by
    rintro N rfl
    rw [bind_of_ok (lift_ok (divides_ok hf) _), finalCheckpoint]
    by_cases hd : 0 < m.freq ∧ ¬ m.freq ∣ finalNumber m.usesLoopVar start k n
    · have hb : (!decide (m.freq ∣ finalNumber m.usesLoopVar start k n) && decide (0 < m.freq)) = true := by
        simp [hd.1, hd.2]
      rw [if_pos hd]
      simp only [hb, if_true]
      obtain ⟨g, hg⟩ := hst
      obtain ⟨ls, f, h1, h2, h3⟩ := storeCheckpoint_ok m (hS.path hd.1) (hS.cks hd.1) (hS.logs hd.1)
        (hfresh hd.1 hd.2) hg
      refine ⟨_, h1, ⟨rfl, rfl, rfl⟩, fun _ => hS.path hd.1, fun _ => ?_, fun _ => h3⟩
      rw [← hit]; exact h2
    · have hb : (!decide (m.freq ∣ finalNumber m.usesLoopVar start k n) && decide (0 < m.freq)) = false := by
        rw [Bool.and_eq_false_iff]
        by_cases h0 : 0 < m.freq
        · left
          rw [Bool.not_eq_false', decide_eq_true_eq]
          by_contra h
          exact hd ⟨h0, h⟩
        · right; exact decide_eq_false h0
      rw [if_neg hd, List.append_nil]
      simp only [hb]
      exact ⟨w, rfl, ⟨rfl, rfl, rfl⟩, hS⟩
  unfold final
  by_cases hu : m.usesLoopVar = true
  · have hn' := hn hu
    simp only [hu, if_true]
    by_cases hkn : k < n
    · simp only [hkn, if_true]
      refine key _ ?_
      rw [finalNumber, hu, if_pos rfl, if_pos hkn, Nat.zero_add]
    · simp only [hkn, if_false, Nat.ne_of_gt hn']
      refine key _ ?_
      rw [finalNumber, hu, if_pos rfl, if_neg hkn]
      push_cast
      omega
  · have hu' : m.usesLoopVar = false := by simpa using hu
    simp only [hu', Bool.false_eq_true, if_false]
    exact key _ (by rw [finalNumber, hu', hit]; simp)

/-- C43, the exact schedule. A run of `k` iterations that starts with iteration number `w.it` and does not fail
by itself returns, and adds to the checkpoint file exactly one checkpoint after every iteration whose number
plus one is a multiple of the frequency (named by that number, with the decomposition after the iteration),
and possibly a final one with the last decomposition (`finalCheckpoint`). Numbers that are already in the file
are excluded here; `C46_fails` and `C47_same_file_fails` are about them. -/
theorem C43_schedule (m : Method σ τ) (hf : m.freq ≠ 0) {w : World σ} {L : List (Int × τ)} {ss : ℕ → σ} {k : ℕ}
    {s' : σ} (hprep : m.prepare w.st = .ok (ss 0)) (hT : Trajectory m ss k)
    (hk : k ≤ (w.maxIts - w.it).toNat) (hstop : k < (w.maxIts - w.it).toNat → m.stop (ss k) = .ok true)
    (hpost : m.post (ss k) = .ok s') (hn : m.usesLoopVar = true → w.it < w.maxIts) (hS : Storing m w L)
    (hfresh : ∀ j < k, 0 < m.freq → m.freq ∣ w.it + j + 1 → w.it + j ∉ L.map Prod.fst)
    (hfinal : 0 < m.freq → ¬ m.freq ∣ finalNumber m.usesLoopVar w.it k (w.maxIts - w.it).toNat →
      w.it + k ∉ L.map Prod.fst) :
    ∃ w', run m w = .ok () w' ∧ w'.st = s' ∧ w'.it = w.it + k ∧ w'.maxIts = w.maxIts ∧
      Storing m w' (L ++ schedule m.freq w.it k (fun j => m.dec (ss j)) ++
        finalCheckpoint m w.it k (w.maxIts - w.it).toNat (m.dec (ss k))) := by
  rw [run, bind_of_ok (modifySt_ok hprep), bind_of_ok (get_def _)]
  simp only
  obtain ⟨w1, h1, h2, h3, h4, h5⟩ := loop_total m hf k (w.maxIts - w.it).toNat 0 none ss { w with st := ss 0 } L
    hT rfl hk hstop ⟨hS.path, hS.cks, hS.logs⟩ hfresh
  rw [bind_of_ok h1]
  obtain ⟨w2, g1, ⟨g2, g3, g4⟩, g5⟩ := final_total m hf (start := w.it) (k := k) (n := (w.maxIts - w.it).toNat)
    (fun h => by have := hn h; omega) hk h3 h5 (by rw [h2]; exact hT.store k le_rfl) (by
      intro h h' hmem
      rw [List.map_append, List.mem_append] at hmem
      rw [h3] at hmem
      rcases hmem with hmem | hmem
      · exact hfinal h h' hmem
      · obtain ⟨p, hp, he⟩ := List.mem_map.1 hmem
        obtain ⟨j, hj, -, -, rfl⟩ := mem_schedule.1 hp
        simp only at he
        omega)
  rw [bind_of_ok g1, modifySt_ok (s := s') (by rw [g2, h2]; exact hpost)]
  refine ⟨_, rfl, rfl, g3.trans h3, g4.trans h4, ?_⟩
  rw [h2] at g5
  exact ⟨g5.path, g5.cks, g5.logs⟩

/-- Five iterations with the frequency 2: the iterations 1 and 3 are stored in the loop, and the last one after
it. -/
example : ∃ w', run (counter 2 true true 9) (counterWorld 5) = .ok () w' ∧ w'.st = 5 ∧
    Storing (counter 2 true true 9) w' [(1, 2), (3, 4), (5, 5)] := by
  obtain ⟨w', h1, h2, -, -, h5⟩ := C43_schedule (counter 2 true true 9) (show (2 : Int) ≠ 0 by decide)
    (w := counterWorld 5) (L := []) (ss := fun j => j) (k := 5) (s' := 5) rfl (counter_trajectory (by decide))
    (by decide) (by decide) rfl (fun _ => by decide) counter_storing (by simp) (by simp)
  exact ⟨w', h1, h2, h5⟩

/-- The last checkpoint written by a run. -/
theorem getLast?_schedule {freq start : Int} {k : ℕ} {c : ℕ → τ} (hf : 0 < freq) (hd : freq ∣ start + k + 1) :
    (schedule freq start (k + 1) c).getLast? = some (start + k, c (k + 1)) := by
  unfold schedule
  rw [List.range_succ, List.filterMap_append]
  simp [hf, hd]

/-- C43 holds for `CP_ALS` and `CMTF_ALS` when the budget is used up by a fit from iteration 0: the latest
checkpoint is the final decomposition. Missing: fits that stop early, see `C43_early_stop_lost`. -/
theorem C43_final_partial (m : Method σ τ) (hu : m.usesLoopVar = true) (hf : 0 < m.freq) {k : ℕ} (hk : 0 < k)
    (L : List (Int × τ)) (ss : ℕ → σ) :
    ((L ++ schedule m.freq 0 k (fun j => m.dec (ss j)) ++ finalCheckpoint m 0 k k (m.dec (ss k))).getLast?).map
      Prod.snd = some (m.dec (ss k)) := by
  obtain ⟨k, rfl⟩ : ∃ k', k = k' + 1 := ⟨k - 1, by omega⟩
  rw [finalCheckpoint, finalNumber, hu, if_pos rfl, if_neg (lt_irrefl _)]
  by_cases hd : m.freq ∣ ((k + 1 : ℕ) : Int)
  · rw [if_neg (fun h => h.2 hd), List.append_nil, List.getLast?_append,
      getLast?_schedule hf (by push_cast at hd; simpa using hd)]
    simp
  · rw [if_pos ⟨hf, hd⟩, List.getLast?_append]; simp

example : (schedule 2 0 5 (fun j => j) ++ finalCheckpoint (counter 2 true true 9) 0 5 5 5).getLast?.map Prod.snd =
    some 5 :=
  C43_final_partial (counter 2 true true 9) (k := 5) rfl (by decide) (by decide) [] fun j => j

/-- C43 is false of `CP_ALS` and `CMTF_ALS`: if a fit from iteration 0 stops early after `k` iterations with
`k + 1` a multiple of the frequency (at least 2), then all checkpoints are from before the last iteration: the
final decomposition is not stored. -/
theorem C43_early_stop_lost (m : Method σ τ) (hu : m.usesLoopVar = true) (hf : 2 ≤ m.freq) {k n : ℕ} (hk : k < n)
    (hd : m.freq ∣ (k : Int) + 1) (ss : ℕ → σ) :
    finalCheckpoint m 0 k n (m.dec (ss k)) = [] ∧
    ∀ p ∈ schedule m.freq 0 k (fun j => m.dec (ss j)),
      ∃ j, j < k ∧ p = ((j : Int) - 1, m.dec (ss j)) := by
  constructor
  · rw [finalCheckpoint, finalNumber, hu, if_pos rfl, if_pos hk, if_neg (fun h => h.2 hd)]
  · intro p hp
    obtain ⟨j, hj, -, h2, rfl⟩ := mem_schedule.1 hp
    refine ⟨j + 1, ?_, by simp⟩
    by_contra hc
    have hjk : k = j + 1 := by omega
    subst hjk
    push_cast at hd
    have h3 : m.freq ∣ 1 := by
      have := Int.dvd_sub hd h2
      simpa using this
    have := Int.le_of_dvd one_pos h3
    omega

/-- A fit that stops after 3 of 9 iterations, with the frequency 4: nothing is stored at all. -/
example : ∃ w', run (counter 4 true true 3) (counterWorld 9) = .ok () w' ∧ w'.st = 3 ∧
    Storing (counter 4 true true 3) w' [] := by
  obtain ⟨w', h1, h2, -, -, h5⟩ := C43_schedule (counter 4 true true 3) (show (4 : Int) ≠ 0 by decide)
    (w := counterWorld 9) (L := []) (ss := fun j => j) (k := 3) (s' := 3) rfl (counter_trajectory (by decide))
    (by decide) (fun _ => rfl) rfl (fun _ => by decide) counter_storing (by simp) (by simp)
  exact ⟨w', h1, h2, h5⟩

example : finalCheckpoint (counter 4 true true 3) 0 3 9 3 = [] :=
  (C43_early_stop_lost (counter 4 true true 3) rfl (by decide) (by decide) (by decide) fun j => j).1

/-- C43 is false of `Parafac2_ALS`, also without an early stop: if `k + 1` is a multiple of the frequency (at
least 2), the final decomposition of a fit of `k` iterations is not stored. -/
theorem C43_current_iteration_lost (m : Method σ τ) (hu : m.usesLoopVar = false) (hf : 2 ≤ m.freq) {k n : ℕ}
    (hd : m.freq ∣ (k : Int) + 1) (ss : ℕ → σ) :
    finalCheckpoint m 0 k n (m.dec (ss k)) = [] ∧
    ∀ p ∈ schedule m.freq 0 k (fun j => m.dec (ss j)),
      ∃ j, j < k ∧ p = ((j : Int) - 1, m.dec (ss j)) := by
  constructor
  · rw [finalCheckpoint, finalNumber, hu]
    refine if_neg fun h => h.2 ?_
    simpa using hd
  · intro p hp
    obtain ⟨j, hj, -, h2, rfl⟩ := mem_schedule.1 hp
    refine ⟨j + 1, ?_, by simp⟩
    by_contra hc
    have hjk : k = j + 1 := by omega
    subst hjk
    push_cast at hd
    have h3 : m.freq ∣ 1 := by
      have := Int.dvd_sub hd h2
      simpa using this
    have := Int.le_of_dvd one_pos h3
    omega

/-- The same with a full budget of 3 iterations and the test of `Parafac2_ALS`. -/
example : ∃ w', run (counter 4 false true 9) (counterWorld 3) = .ok () w' ∧ w'.st = 3 ∧
    Storing (counter 4 false true 9) w' [] := by
  obtain ⟨w', h1, h2, -, -, h5⟩ := C43_schedule (counter 4 false true 9) (show (4 : Int) ≠ 0 by decide)
    (w := counterWorld 3) (L := []) (ss := fun j => j) (k := 3) (s' := 3) rfl (counter_trajectory (by decide))
    (by decide) (by decide) rfl (by decide) counter_storing (by simp) (by simp)
  exact ⟨w', h1, h2, h5⟩

example : finalCheckpoint (counter 4 false true 9) 0 3 3 3 = [] :=
  (C43_current_iteration_lost (counter 4 false true 9) (n := 3) rfl (by decide) (by decide) fun j => j).1

/-- C43 holds for `Parafac2_ALS` when `k + 1` is not a multiple of the frequency: the final decomposition is the
last checkpoint. -/
theorem C43_current_iteration_partial (m : Method σ τ) (hu : m.usesLoopVar = false) (hf : 0 < m.freq) {k n : ℕ}
    (hd : ¬ m.freq ∣ (k : Int) + 1) (L : List (Int × τ)) (ss : ℕ → σ) :
    ((L ++ schedule m.freq 0 k (fun j => m.dec (ss j)) ++ finalCheckpoint m 0 k n (m.dec (ss k))).getLast?) =
      some ((k : Int), m.dec (ss k)) := by
  have h : finalCheckpoint m 0 k n (m.dec (ss k)) = [((k : Int), m.dec (ss k))] := by
    rw [finalCheckpoint, finalNumber, hu]
    simp [hf, hd]
  rw [h, List.getLast?_append]
  simp

example : (schedule 4 0 6 (fun j => j) ++ finalCheckpoint (counter 4 false true 9) 0 6 6 6).getLast? = some (6, 6) :=
  C43_current_iteration_partial (counter 4 false true 9) (k := 6) (n := 6) rfl (by decide) (by decide) [] fun j => j

/-! ## C44: no frequency -/

theorem loop_noStore (m : Method σ τ) (hf : m.freq ≤ 0) : ∀ (n i : ℕ) (last : Option ℕ) (w : World σ),
    (after (loop m n i last w)).file = w.file := by
  intro n
  induction n with
  | zero => intro i last w; rfl
  | succ n ih =>
    intro i last w
    rw [loop, bind_of_ok (get_def w)]
    cases hs : m.stop w.st with
    | error e => rw [bind_of_error (lift_error rfl _)]; rfl
    | ok b =>
      rw [bind_of_ok (lift_ok rfl _)]
      cases b with
      | true => rfl
      | false =>
        simp only [Bool.false_eq_true, if_false]
        cases hst : m.step w.st with
        | error e => rw [bind_of_error (modifySt_error hst)]; rfl
        | ok s =>
          rw [bind_of_ok (modifySt_ok hst)]
          have ha := afterIteration_noStore m { w with st := s } hf
          cases h : afterIteration m { w with st := s } with
          | error e w1 => rw [bind_of_error h]; rw [h] at ha; exact ha
          | ok u w1 => rw [bind_of_ok h, ih]; rw [h] at ha; exact ha

theorem final_noStore (m : Method σ τ) (hf : m.freq ≤ 0) (last : Option ℕ) (w : World σ) :
    (after (final m last w)).file = w.file := by
  have h0 : decide (0 < m.freq) = false := decide_eq_false (by omega)
  have key : ∀ n : Int, (after ((do
      let b ← lift (divides m.freq n)
      if !b && decide (0 < m.freq) then storeCheckpoint m : Fit σ Unit) w)).file = w.file := by
    intro n
    cases h : divides m.freq n with
    | error e => rw [bind_of_error (lift_error rfl _)]; rfl
    | ok b => rw [bind_of_ok (lift_ok rfl _), h0, Bool.and_false]; rfl
  unfold final
  by_cases hu : m.usesLoopVar = true
  · simp only [hu, if_true]
    cases last with
    | none => rw [bind_of_error (throw_def _ _)]; rfl
    | some i => rw [bind_of_ok (pure_def _ _)]; exact key _
  · simp only [hu]
    exact key _

/-- C44 is false: with `checkpoint_frequency` `None` (that is -1), negative or 0, `_fit` never changes the
checkpoint file, whatever happens; in particular the last iteration is not stored. -/
theorem C44_nothing_stored (m : Method σ τ) (hf : m.freq ≤ 0) (w : World σ) :
    (after (run m w)).file = w.file := by
  rw [run]
  cases hp : m.prepare w.st with
  | error e => rw [bind_of_error (modifySt_error hp)]; rfl
  | ok s0 =>
    rw [bind_of_ok (modifySt_ok hp), bind_of_ok (get_def _)]
    simp only
    have hl := loop_noStore m hf (w.maxIts - w.it).toNat 0 none { w with st := s0 }
    cases hc : loop m (w.maxIts - w.it).toNat 0 none { w with st := s0 } with
    | error e w1 => rw [bind_of_error hc]; rw [hc] at hl; exact hl
    | ok r w1 =>
      rw [bind_of_ok hc]
      rw [hc] at hl
      have hfn := final_noStore m hf r w1
      cases hfin : final m r w1 with
      | error e w2 => rw [bind_of_error hfin]; rw [hfin] at hfn; exact hfn.trans hl
      | ok u w2 =>
        rw [bind_of_ok hfin]
        rw [hfin] at hfn
        cases hpo : m.post w2.st with
        | error e => rw [modifySt_error hpo]; exact hfn.trans hl
        | ok s2 => rw [modifySt_ok hpo]; exact hfn.trans hl

example : (after (run (counter (-1) true true 9) (counterWorld 5))).file = none :=
  C44_nothing_stored _ (by decide) _

/-- The documented default `checkpoint_frequency=None` is such a frequency. -/
theorem C44_default : freqOption none ≤ 0 := by decide

/-- Frequency 0 makes every fit fail: `ZeroDivisionError` in the first iteration, when it is reached. -/
theorem C44_zero_raises (m : Method σ τ) (hf : m.freq = 0) {w : World σ} (hw : w.it < w.maxIts) {s0 s1 : σ}
    (hp : m.prepare w.st = .ok s0) (hs : m.stop s0 = .ok false) (hst : m.step s0 = .ok s1)
    (hlog : ∀ p ∈ m.logs, ∃ v, p.2 s1 = .ok v) : raised (run m w) = some .zeroDivisionError := by
  rw [run, bind_of_ok (modifySt_ok hp), bind_of_ok (get_def _)]
  simp only
  obtain ⟨n, hn⟩ : ∃ n, (w.maxIts - w.it).toNat = n + 1 := ⟨(w.maxIts - w.it).toNat - 1, by omega⟩
  obtain ⟨ls, hls⟩ := logAll_ok (it := w.it) w.loggers hlog
  have : ∃ w', loop m (n + 1) 0 none { w with st := s0 } = .error .zeroDivisionError w' := by
    rw [loop, bind_of_ok (get_def _), bind_of_ok (lift_ok hs _)]
    simp only [Bool.false_eq_true, if_false]
    rw [bind_of_ok (modifySt_ok hst)]
    have ha : ∃ w', afterIteration m { w with st := s1 } = .error .zeroDivisionError w' := by
      unfold afterIteration
      rw [bind_of_ok (get_def _), bind_of_ok (lift_ok hls _), bind_of_ok (set_def _ _)]
      exact ⟨_, bind_of_error (lift_error (by rw [divides, if_pos hf]) _)⟩
    obtain ⟨w', ha⟩ := ha
    exact ⟨w', bind_of_error ha⟩
  obtain ⟨w', h⟩ := this
  rw [hn, bind_of_error h]
  rfl

example : raised (run (counter 0 true true 9) (counterWorld 5)) = some .zeroDivisionError :=
  C44_zero_raises _ rfl (by decide) rfl rfl rfl (fun _ hp => absurd hp (by simp [counter]))

/-! ## C45: bookkeeping of the file -/

/-- Store checkpoints for the given iteration numbers and states, one after the other. -/
def storeAll (m : Method σ τ) : List (Int × σ) → Fit σ Unit
  | [] => pure ()
  | p :: ps => do
    modify fun w => { w with it := p.1, st := p.2 }
    storeCheckpoint m
    storeAll m ps

/-- C45 for calls with different iteration numbers: after any number of them the file holds exactly the
checkpoints it held before followed by the new ones (see `Checkpoints` for what this says about
`checkpoint_its`, `final_iteration` and the groups; `checkpoint_its` only for methods that write it). -/
theorem C45_bookkeeping_partial (m : Method σ τ) (hp : m.hasPath = true) :
    ∀ (ps : List (Int × σ)) (w : World σ) (L : List (Int × τ)),
    CheckpointsAt m.storeDec m.writesIts w.file L →
    LogsOk (w.file.getD H5File.empty) (m.logs.map Prod.fst) →
    (∀ p ∈ ps, ∃ g, m.storeDec (m.dec p.2) Group.empty = .ok g) →
    (L.map Prod.fst ++ ps.map Prod.fst).Nodup →
    ∃ w', storeAll m ps w = .ok () w' ∧
      CheckpointsAt m.storeDec m.writesIts w'.file (L ++ ps.map fun p => (p.1, m.dec p.2)) := by
  intro ps
  induction ps with
  | nil => intro w L hc hl _ _; exact ⟨w, rfl, by simpa using hc⟩
  | cons p ps ih =>
    intro w L hc hl hs hn
    obtain ⟨g, hg⟩ := hs p (by simp)
    obtain ⟨ls, f, h1, h2, h3⟩ := storeCheckpoint_ok m (w := { w with it := p.1, st := p.2 }) (L := L) hp hc hl
      (by
        intro hmem
        have := (List.nodup_append.1 hn).2.2 p.1 hmem p.1 (by simp)
        exact this rfl) hg
    obtain ⟨w', h4, h5⟩ := ih
      { st := p.2, it := p.1, maxIts := w.maxIts, loggers := ls, file := some f } (L ++ [(p.1, m.dec p.2)]) h2 h3
      (fun q hq => hs q (by simp [hq]))
      (by simpa [List.map_append] using hn)
    refine ⟨w', ?_, by simpa using h5⟩
    rw [storeAll, bind_of_ok (modify_def _ _), bind_of_ok h1]
    exact h4

/-- Three checkpoints, not in the order of their numbers. -/
example : ∃ w', storeAll (counter 2 true true 9) [(7, 7), (2, 2), (5, 1)] (counterWorld 5) = .ok () w' ∧
    CheckpointsAt (counter 2 true true 9).storeDec true w'.file [(7, 7), (2, 2), (5, 1)] :=
  C45_bookkeeping_partial _ rfl _ _ [] (counter_empty _ _) (fun n hn => absurd hn (by simp [counter]))
    (fun _ _ => ⟨_, rfl⟩) (by decide)

/-- C45 is false when a call fails: storing a checkpoint under a number that exists raises, but only after the
number has been appended to `checkpoint_its`. The file is then not consistent with any list of
checkpoints. -/
theorem C45_collision_corrupts (m : Method σ τ) (hw : m.writesIts = true) {w : World σ} {L : List (Int × τ)}
    (hp : m.hasPath = true) (hc : CheckpointsAt m.storeDec m.writesIts w.file L) (hn : w.it ∈ L.map Prod.fst) :
    ∃ f, storeCheckpoint m w = .error .nameExists { w with file := some f } ∧
      f.groups = (w.file.getD H5File.empty).groups ∧
      ¬ ∃ L' : List (Int × τ), Checkpoints m.storeDec m.writesIts f L' := by
  obtain ⟨f, h1, h2, h3, h4⟩ := storeCheckpoint_collision m hp hc hn
  refine ⟨f, h1, h2, ?_⟩
  rintro ⟨L', hL'⟩
  have h5 := hL'.its
  rw [show "checkpoint_its".toList = ckItsKey from rfl, h4, hw] at h5
  simp only [if_true, true_and] at h5
  by_cases hne : L' = []
  · rw [if_neg (by simp [hne])] at h5; cases h5
  · rw [if_pos hne] at h5
    have h6 : L.map Prod.fst ++ [w.it] = L'.map Prod.fst := by simpa using h5
    have h7 := hL'.nodup
    rw [← h6, List.nodup_append] at h7
    exact h7.2.2 w.it hn w.it (by simp) rfl

/-- Storing iteration 7 a second time. -/
example : ∃ w' : World ℕ, w'.it = 7 ∧ ∃ f, storeCheckpoint (counter 2 true true 9) w' =
    .error .nameExists { w' with file := some f } ∧
    ¬ ∃ L' : List (Int × ℕ), Checkpoints (counter 2 true true 9).storeDec true f L' := by
  obtain ⟨w1, -, h2⟩ := C45_bookkeeping_partial (counter 2 true true 9) rfl [(2, 2), (7, 7)] (counterWorld 5) []
    (counter_empty _ _) (fun n hn => absurd hn (by simp [counter])) (fun _ _ => ⟨_, rfl⟩) (by decide)
  obtain ⟨f, h3, -, h5⟩ := C45_collision_corrupts (counter 2 true true 9) rfl
    (w := { w1 with it := 7 }) rfl h2 (show (7 : Int) ∈ [2, 7] by decide)
  exact ⟨_, rfl, f, h3, h5⟩

/-- C45 is false of `CMTF_ALS`: it stores checkpoints without ever writing `checkpoint_its`. -/
theorem C45_no_list (m : Method σ τ) (hw : m.writesIts = false) {w : World σ} {L : List (Int × τ)}
    (hp : m.hasPath = true) (hc : CheckpointsAt m.storeDec m.writesIts w.file L)
    (hl : LogsOk (w.file.getD H5File.empty) (m.logs.map Prod.fst)) (hn : w.it ∉ L.map Prod.fst)
    {g : Group} (hs : m.storeDec (m.dec w.st) Group.empty = .ok g) :
    ∃ ls f, storeCheckpoint m w = .ok () { w with file := some f, loggers := ls } ∧
      f.groups.find (ckName w.it) = some g ∧ f.root.attrs.find "checkpoint_its".toList = none := by
  obtain ⟨ls, f, h1, h2, h3⟩ := storeCheckpoint_ok m hp hc hl hn hs
  obtain ⟨g', h4, h5⟩ := h2.group (w.it, m.dec w.st) (by simp)
  rw [hs] at h4; cases h4
  exact ⟨ls, f, h1, h5, by rw [h2.its, hw]; simp⟩

example : ∃ ls f, storeCheckpoint (counter 2 true false 9) ⟨7, 7, 9, [], none⟩ =
      .ok () { (⟨7, 7, 9, [], none⟩ : World ℕ) with file := some f, loggers := ls } ∧
    f.root.attrs.find "checkpoint_its".toList = none := by
  obtain ⟨ls, f, h1, -, h3⟩ := C45_no_list (counter 2 true false 9) rfl (w := ⟨7, 7, 9, [], none⟩) (L := []) rfl
    (counter_empty _ _) (fun n hn => absurd hn (by simp [counter])) (by simp) rfl
  exact ⟨ls, f, h1, h3⟩

/-! ## C46: continuing a fit -/

/-- The first iteration of a run fails if its checkpoint exists already. -/
theorem first_iteration_collides (m : Method σ τ) {w : World σ} {L : List (Int × τ)} {s0 s1 : σ}
    (hp : m.prepare w.st = .ok s0) (hgo : m.stop s0 = .ok false) (hst : m.step s0 = .ok s1)
    (hlog : ∀ p ∈ m.logs, ∃ v, p.2 s1 = .ok v) (hw : w.it < w.maxIts) (hf : 0 < m.freq)
    (hd : m.freq ∣ w.it + 1) (hS : Storing m w L) (hn : w.it ∈ L.map Prod.fst) :
    raised (run m w) = some .nameExists ∧ (after (run m w)).it = w.it := by
  rw [run, bind_of_ok (modifySt_ok hp), bind_of_ok (get_def _)]
  simp only
  obtain ⟨n, hn'⟩ : ∃ n, (w.maxIts - w.it).toNat = n + 1 := ⟨(w.maxIts - w.it).toNat - 1, by omega⟩
  obtain ⟨ls, hls⟩ := logAll_ok (it := w.it) w.loggers hlog
  have : ∃ w', loop m (n + 1) 0 none { w with st := s0 } = .error .nameExists w' ∧ w'.it = w.it := by
    rw [loop, bind_of_ok (get_def _), bind_of_ok (lift_ok hgo _)]
    simp only [Bool.false_eq_true, if_false]
    rw [bind_of_ok (modifySt_ok hst)]
    obtain ⟨f, h1, -⟩ := storeCheckpoint_collision m (w := { w with st := s1, loggers := ls }) (L := L)
      (hS.path hf) (hS.cks hf) hn
    have ha : afterIteration m { w with st := s1 } =
        .error .nameExists { w with st := s1, loggers := ls, file := some f } := by
      unfold afterIteration
      rw [bind_of_ok (get_def _), bind_of_ok (lift_ok hls _), bind_of_ok (set_def _ _),
        bind_of_ok (lift_ok (divides_ok (by omega)) _)]
      have hb : (decide (m.freq ∣ w.it + 1) && decide (0 < m.freq)) = true := by simp [hf, hd]
      simp only [hb, if_true]
      rw [bind_of_error h1]
    exact ⟨_, bind_of_error ha, rfl⟩
  obtain ⟨w', h, h'⟩ := this
  rw [hn', bind_of_error h]
  exact ⟨rfl, h'⟩

/-- A decomposer whose `_fit` does nothing before and after the loop (`CP_ALS`). -/
structure Plain (m : Method σ τ) : Prop where
  prepare : ∀ s, m.prepare s = .ok s
  post : ∀ s, m.post s = .ok s
  usesLoopVar : m.usesLoopVar = true

theorem counter_plain {freq : Int} {b : Bool} {limit : ℕ} : Plain (counter freq true b limit) :=
  ⟨fun _ => rfl, fun _ => rfl, rfl⟩

/-- C46 is false: `fit` with budget `N` stores its last iteration under number `N` (when the frequency does not
divide `N`). If the frequency divides `N + 1`, `continue_fit` performs one iteration and then raises, because
checkpoint `N` exists. -/
theorem C46_fails (m : Method σ τ) (hP : Plain m) {w : World σ} {ss : ℕ → σ} {N : ℕ} {M : Int}
    (hf : 2 ≤ m.freq) (hN : 0 < N) (hit : w.it = 0) (hmax : w.maxIts = N) (hM : N < M)
    (hT : Trajectory m ss (N + 1)) (hst : w.st = ss 0) (hd : m.freq ∣ (N : Int) + 1) (hS : Storing m w []) :
    ∃ w', run m w = .ok () w' ∧ w'.st = ss N ∧ raised (continueFit m (some M) w') = some .nameExists ∧
      (after (continueFit m (some M) w')).it = N := by
  have hdN : ¬ m.freq ∣ (N : Int) := by
    intro h
    have := Int.dvd_sub hd h
    rw [show (N : Int) + 1 - N = 1 by ring] at this
    have := Int.le_of_dvd one_pos this
    omega
  have hn : (w.maxIts - w.it).toNat = N := by omega
  obtain ⟨w', h1, h2, h3, h4, h5⟩ := C43_schedule m (by omega) (w := w) (L := []) (ss := ss) (k := N) (s' := ss N)
    (by rw [hst]; exact hP.prepare _)
    ⟨fun j hj => hT.step j (by omega), fun j hj => hT.go j (by omega), fun j hj => hT.log j (by omega),
      fun j hj => hT.store j (by omega)⟩
    (by omega) (by omega) (hP.post _) (fun _ => by omega) hS (by simp) (by simp)
  refine ⟨w', h1, h2, ?_⟩
  rw [hn, hit] at h5
  have hmem : (w'.it : Int) ∈ ([] ++ schedule m.freq 0 N (fun j => m.dec (ss j)) ++
      finalCheckpoint m 0 N N (m.dec (ss N))).map Prod.fst := by
    rw [List.map_append, List.mem_append]
    right
    rw [finalCheckpoint, finalNumber, hP.usesLoopVar, if_pos rfl, if_neg (lt_irrefl _), if_pos ⟨by omega, hdN⟩,
      h3, hit]
    simp
  have hc : continueFit m (some M) w' = run m { w' with maxIts := M } := by
    rw [continueFit, bind_of_ok (setMaxIts_ok _ _)]; rfl
  rw [hc]
  have := first_iteration_collides m (w := { w' with maxIts := M }) (s0 := ss N) (s1 := ss (N + 1))
    (by simp only [h2]; exact hP.prepare _) (hT.go N (by omega)) (hT.step N (by omega)) (hT.log N (by omega))
    (by simp only; omega) (by omega) (by simp only [h3, hit]; simpa using hd)
    ⟨h5.path, h5.cks, h5.logs⟩ hmem
  refine ⟨this.1, this.2.trans ?_⟩
  simp only; omega

/-- Frequency 3, five iterations, and a continuation to 8. -/
example : ∃ w', run (counter 3 true true 9) (counterWorld 5) = .ok () w' ∧ w'.st = 5 ∧
    raised (continueFit (counter 3 true true 9) (some 8) w') = some .nameExists := by
  obtain ⟨w', h1, h2, h3, -⟩ := C46_fails (counter 3 true true 9) counter_plain (w := counterWorld 5)
    (ss := fun j => j) (N := 5) (M := 8) (by decide) (by decide) rfl rfl (by decide)
    (counter_trajectory (by decide)) rfl (by decide) counter_storing
  exact ⟨w', h1, h2, h3⟩

/-- C46 is false for a fit that has converged, too: calling `continue_fit` on it raises, because the loop stops
before the first iteration and the last iteration is then stored a second time. -/
theorem C46_converged_fails (m : Method σ τ) (hP : Plain m) {w : World σ} {M : Int} {L : List (Int × τ)}
    (hf : 2 ≤ m.freq) (hM : w.it < M) (hstop : m.stop w.st = .ok true) (hS : Storing m w L)
    (hn : w.it ∈ L.map Prod.fst) : raised (continueFit m (some M) w) = some .nameExists := by
  have hc : continueFit m (some M) w = run m { w with maxIts := M } := by
    rw [continueFit, bind_of_ok (setMaxIts_ok _ _)]; rfl
  rw [hc, run, bind_of_ok (modifySt_ok (hP.prepare _)), bind_of_ok (get_def _)]
  simp only
  obtain ⟨n, hn'⟩ : ∃ n, (M - w.it).toNat = n + 1 := ⟨(M - w.it).toNat - 1, by omega⟩
  have hl : loop m (n + 1) 0 none { w with maxIts := M } = .ok (some 0) { w with maxIts := M } := by
    rw [loop, bind_of_ok (get_def _), bind_of_ok (lift_ok hstop _)]; rfl
  obtain ⟨f, h1, -⟩ := storeCheckpoint_collision m (w := { w with maxIts := M }) (L := L)
    (hS.path (by omega)) (hS.cks (by omega)) hn
  have hd : ¬ m.freq ∣ 1 := fun h => by have := Int.le_of_dvd one_pos h; omega
  have hfin : final m (some 0) { w with maxIts := M } = .error .nameExists { w with maxIts := M, file := some f } := by
    rw [final]
    simp only [hP.usesLoopVar, if_true]
    rw [bind_of_ok (pure_def _ _), bind_of_ok (lift_ok (divides_ok (by omega)) _)]
    have hb : (!decide (m.freq ∣ (((0 : ℕ) : Int) + 1)) && decide (0 < m.freq)) = true := by
      simp [hd]; omega
    simp only [hb, if_true]
    exact h1
  rw [hn', bind_of_ok hl, bind_of_error hfin]
  rfl

/-- A fit that converges after 4 iterations with the frequency 3: iteration 4 is stored at the end, and every
continuation raises. -/
example : ∃ w', run (counter 3 true true 4) (counterWorld 9) = .ok () w' ∧ w'.st = 4 ∧
    raised (continueFit (counter 3 true true 4) (some 20) w') = some .nameExists := by
  obtain ⟨w', h1, h2, h3, -, h5⟩ := C43_schedule (counter 3 true true 4) (show (3 : Int) ≠ 0 by decide)
    (w := counterWorld 9) (L := []) (ss := fun j => j) (k := 4) (s' := 4) rfl (counter_trajectory (by decide))
    (by decide) (fun _ => rfl) rfl (fun _ => by decide) counter_storing (by simp) (by simp)
  refine ⟨w', h1, h2, C46_converged_fails _ counter_plain (by decide) ?_ ?_ h5 ?_⟩
  · rw [h3]; decide
  · rw [h2]; rfl
  · rw [h3]; decide

/-- C46 holds when the frequency divides `N` or does not divide `N + 1` and at least one further iteration is
performed: both calls succeed, and the file holds the checkpoints of both, in order. (Missing: the other
frequencies, see `C46_fails`, and converged fits, see `C46_converged_fails`.) -/
theorem C46_partial (m : Method σ τ) (hP : Plain m) {w : World σ} {ss : ℕ → σ} {N k : ℕ} {M : Int}
    (hf : 0 < m.freq) (hN : 0 < N) (hit : w.it = 0) (hmax : w.maxIts = N) (hk : 0 < k) (hkM : (N : Int) + k ≤ M)
    (hT : Trajectory m ss (N + k)) (hstop : (N : Int) + k < M → m.stop (ss (N + k)) = .ok true)
    (hst : w.st = ss 0) (hd : m.freq ∣ (N : Int) ∨ ¬ m.freq ∣ (N : Int) + 1) (hS : Storing m w []) :
    ∃ w' w'', run m w = .ok () w' ∧ w'.st = ss N ∧ continueFit m (some M) w' = .ok () w'' ∧
      w''.st = ss (N + k) ∧ w''.it = (N : Int) + k ∧
      Storing m w'' (schedule m.freq 0 N (fun j => m.dec (ss j)) ++ finalCheckpoint m 0 N N (m.dec (ss N)) ++
        schedule m.freq N k (fun j => m.dec (ss (N + j))) ++
        finalCheckpoint m N k (M - N).toNat (m.dec (ss (N + k)))) := by
  have hn : (w.maxIts - w.it).toNat = N := by omega
  obtain ⟨w', h1, h2, h3, h4, h5⟩ := C43_schedule m (by omega) (w := w) (L := []) (ss := ss) (k := N) (s' := ss N)
    (by rw [hst]; exact hP.prepare _)
    ⟨fun j hj => hT.step j (by omega), fun j hj => hT.go j (by omega), fun j hj => hT.log j (by omega),
      fun j hj => hT.store j (by omega)⟩
    (by omega) (by omega) (hP.post _) (fun _ => by omega) hS (by simp) (by simp)
  rw [hn, hit, List.nil_append] at h5
  rw [hit] at h3
  have hnum : ∀ x ∈ (schedule m.freq 0 N (fun j => m.dec (ss j)) ++
      finalCheckpoint m 0 N N (m.dec (ss N))).map Prod.fst, x < N ∨ (x = N ∧ ¬ m.freq ∣ (N : Int)) := by
    intro x hx
    rw [List.map_append, List.mem_append] at hx
    rcases hx with hx | hx
    · obtain ⟨p, hp, rfl⟩ := List.mem_map.1 hx
      obtain ⟨j, hj, -, -, rfl⟩ := mem_schedule.1 hp
      left; simp only; omega
    · rw [finalCheckpoint, finalNumber, hP.usesLoopVar, if_pos rfl, if_neg (lt_irrefl _)] at hx
      split at hx
      · rename_i h; right; exact ⟨by simpa using hx, h.2⟩
      · simp at hx
  have hc : continueFit m (some M) w' = run m { w' with maxIts := M } := by
    rw [continueFit, bind_of_ok (setMaxIts_ok _ _)]; rfl
  have h3' : w'.it = N := by omega
  obtain ⟨w'', g1, g2, g3, g4, g5⟩ := C43_schedule m (by omega) (w := { w' with maxIts := M })
    (ss := fun j => ss (N + j)) (k := k) (s' := ss (N + k)) (by simp only [h2]; exact hP.prepare _)
    ⟨fun j hj => hT.step (N + j) (by omega), fun j hj => hT.go (N + j) (by omega),
      fun j hj => hT.log (N + j) (by omega), fun j hj => hT.store (N + j) (by omega)⟩
    (by simp only; omega) (fun h => hstop (by simp only at h; omega)) (hP.post _) (fun _ => by simp only; omega)
    ⟨h5.path, h5.cks, h5.logs⟩
    (by
      intro j hj _ hdj hmem
      simp only at hmem hdj
      rw [h3'] at hmem hdj
      rcases hnum _ hmem with h | ⟨h, h'⟩
      · omega
      · have hj0 : j = 0 := by omega
        subst hj0
        rcases hd with hd | hd
        · exact h' hd
        · exact hd (by simpa using hdj))
    (by
      intro _ _ hmem
      simp only at hmem
      rw [h3'] at hmem
      rcases hnum _ hmem with h | ⟨h, -⟩ <;> omega)
  simp only at g3 g5
  rw [h3'] at g3 g5
  exact ⟨w', w'', h1, h2, hc.trans g1, g2, g3, g5⟩

/-- Frequency 2: four iterations, continued to 7. -/
example : ∃ w' w'', run (counter 2 true true 9) (counterWorld 4) = .ok () w' ∧ w'.st = 4 ∧
    continueFit (counter 2 true true 9) (some 7) w' = .ok () w'' ∧ w''.st = 7 ∧
    Storing (counter 2 true true 9) w'' [(1, 2), (3, 4), (5, 6), (7, 7)] := by
  obtain ⟨w', w'', h1, h2, h3, h4, -, h6⟩ := C46_partial (counter 2 true true 9) counter_plain (w := counterWorld 4)
    (ss := fun j => j) (N := 4) (k := 3) (M := 7) (by decide) (by decide) rfl rfl (by decide) (by decide)
    (counter_trajectory (by decide)) (by decide) rfl (by decide) counter_storing
  exact ⟨w', w'', h1, h2, h3, h4, h6⟩

/-! ## C48: loading a checkpoint -/

/-- C48. Loading checkpoint `n` gives the decomposition stored under that number. The hypothesis on
`store`/`load` is C19 (C20) for the decompositions in question. -/
theorem C48_load (m : Method σ τ) {f : H5File} {L : List (Int × τ)} {w : World σ} {n : Int} {d : τ}
    (hc : Checkpoints m.storeDec m.writesIts f L) (hmem : (n, d) ∈ L)
    (hround : ∀ g, m.storeDec d Group.empty = .ok g → m.loadDec g = .ok d) (hchk : m.check d w.st = .ok ()) :
    loadCheckpoint m (.file f) (some n) w = .ok () { w with it := n, st := m.setDec d w.st } := by
  have hfin : f.root.attrs.has finalKey = true := by
    rw [Dict.has_eq_isSome, show finalKey = "final_iteration".toList from rfl, hc.final]
    cases L with
    | nil => simp at hmem
    | cons a l => simp [List.getLast?_cons]
  obtain ⟨g, hg, hfg⟩ := hc.group _ hmem
  have hfg' : f.groups.find (ckName n) = some g := hfg
  have hname : f.hasName (ckName n) = true := by
    rw [H5File.hasName, Dict.has_eq_isSome, hfg']; rfl
  rw [loadCheckpoint, bind_of_ok (lift_ok (show FileArg.open (.file f) = .ok f from rfl) _)]
  simp only [hfin, Bool.not_true, Bool.false_eq_true, if_false]
  rw [bind_of_ok (pure_def _ _), bind_of_ok (modify_def _ _)]
  simp only [hname, Bool.not_true, Bool.false_eq_true, if_false]
  rw [bind_of_ok (lift_ok (Dict.item_ok hfg') _), bind_of_ok (lift_ok (hround g hg) _),
    bind_of_ok (get_def _), bind_of_ok (lift_ok hchk _)]
  rfl

/-- A file with three checkpoints, from which the second one is loaded. -/
example : ∃ w', storeAll (counter 2 true true 9) [(7, 7), (2, 2), (5, 1)] (counterWorld 5) = .ok () w' ∧
    loadCheckpoint (counter 2 true true 9) (.file (w'.file.getD H5File.empty)) (some 2) (counterWorld 5) =
      .ok () ⟨2, 2, 5, [], none⟩ := by
  obtain ⟨w', h1, h2⟩ := C45_bookkeeping_partial (counter 2 true true 9) rfl [(7, 7), (2, 2), (5, 1)] (counterWorld 5)
    [] (counter_empty _ _) (fun n hn => absurd hn (by simp [counter])) (fun _ _ => ⟨_, rfl⟩) (by decide)
  exact ⟨w', h1, C48_load (counter 2 true true 9) h2 (show ((2 : Int), 2) ∈ [((7 : Int), 7), (2, 2), (5, 1)] by decide)
    (counter_round 2) rfl⟩

/-- C48. Without an iteration number the checkpoint stored last is loaded. -/
theorem C48_load_default (m : Method σ τ) {f : H5File} {L : List (Int × τ)} {w : World σ} {n : Int} {d : τ}
    (hc : Checkpoints m.storeDec m.writesIts f L) (hlast : L.getLast? = some (n, d)) :
    loadCheckpoint m (.file f) none w = loadCheckpoint m (.file f) (some n) w := by
  have hfin : f.root.attrs.find finalKey = some (.int n) := by
    rw [show finalKey = "final_iteration".toList from rfl, hc.final, hlast]; rfl
  have hh : f.root.attrs.has finalKey = true := by rw [Dict.has_eq_isSome, hfin]; rfl
  rw [loadCheckpoint, loadCheckpoint, bind_of_ok (lift_ok (show FileArg.open (.file f) = .ok f from rfl) _),
    bind_of_ok (lift_ok (show FileArg.open (.file f) = .ok f from rfl) _)]
  simp only [hh, Bool.not_true, Bool.false_eq_true, if_false]
  rw [bind_of_ok (pure_def _ _), bind_of_ok (lift_ok (Group.intAttr_ok hfin) _)]

example (f : H5File) (hc : Checkpoints (counter 2 true true 9).storeDec true f [(7, 7), (2, 2), (5, 1)]) :
    loadCheckpoint (counter 2 true true 9) (.file f) none (counterWorld 5) = .ok () ⟨1, 5, 5, [], none⟩ :=
  (C48_load_default (counter 2 true true 9) hc rfl).trans
    (C48_load (counter 2 true true 9) hc (by decide) (counter_round 1) rfl)

/-- C48. A file without checkpoints gives `ValueError` and changes nothing. -/
theorem C48_no_checkpoints (m : Method σ τ) {f : H5File} {w : World σ} (o : Option Int)
    (hc : Checkpoints m.storeDec m.writesIts f []) :
    loadCheckpoint m (.file f) o w = .error .valueError w := by
  have hh : f.root.attrs.has finalKey = false := by
    rw [Dict.has_eq_isSome, show finalKey = "final_iteration".toList from rfl, hc.final]; rfl
  rw [loadCheckpoint, bind_of_ok (lift_ok (show FileArg.open (.file f) = .ok f from rfl) _)]
  simp only [hh, Bool.not_false, if_true]
  rfl

example : loadCheckpoint (counter 2 true true 9) (.file H5File.empty) none (counterWorld 5) =
    .error .valueError (counterWorld 5) :=
  C48_no_checkpoints _ _ (counter_empty _ _)

/-- C48. A missing iteration gives `ValueError`. The decomposition is kept, but `current_iteration` has been
changed to the missing number. -/
theorem C48_missing (m : Method σ τ) {f : H5File} {L : List (Int × τ)} {w : World σ} {n : Int}
    (hc : Checkpoints m.storeDec m.writesIts f L) (hn : n ∉ L.map Prod.fst) :
    raised (loadCheckpoint m (.file f) (some n) w) = some .valueError ∧
    (after (loadCheckpoint m (.file f) (some n) w)).st = w.st := by
  rw [loadCheckpoint, bind_of_ok (lift_ok (show FileArg.open (.file f) = .ok f from rfl) _)]
  by_cases hh : f.root.attrs.has finalKey = true
  · have hname : f.hasName (ckName n) = false := by
      rw [H5File.hasName, hc.noData]
      simp only [Bool.or_eq_false_iff]
      refine ⟨?_, rfl⟩
      rw [← Bool.not_eq_true]
      intro h
      obtain ⟨p, hp, he⟩ := hc.only _ h (prefix_ckName n)
      exact hn (List.mem_map.2 ⟨p, hp, (ckName_injective he).symm⟩)
    simp only [hh, Bool.not_true, Bool.false_eq_true, if_false]
    rw [bind_of_ok (pure_def _ _), bind_of_ok (modify_def _ _)]
    simp only [hname, Bool.not_false, if_true]
    exact ⟨rfl, rfl⟩
  · simp only [hh]
    exact ⟨rfl, rfl⟩

example (f : H5File) (hc : Checkpoints (counter 2 true true 9).storeDec true f [(7, 7), (2, 2), (5, 1)]) :
    raised (loadCheckpoint (counter 2 true true 9) (.file f) (some 3) (counterWorld 5)) = some .valueError :=
  (C48_missing (counter 2 true true 9) hc (by decide)).1

/-! ## C49: going through the checkpoints -/

theorem ckName_lt {a b : ℕ} (ha : a < 100000) (hb : b < 100000) : ckName a < ckName b ↔ a < b := by
  have h5 : ∀ n : ℕ, n < 100000 → (fmtNat 5 n).length = 5 := fun n hn => length_fmtNat (by norm_num) (by simpa using hn)
  have hlex : fmtNat 5 a < fmtNat 5 b ↔ a < b := by
    rw [lex_iff_decVal (by rw [h5 a ha, h5 b hb]) (isDigits_fmtNat 5 a) (isDigits_fmtNat 5 b), decVal_fmtNat,
      decVal_fmtNat]
  rw [ckName, ckName, fmtInt_natCast, fmtInt_natCast, ← hlex]
  have key : ∀ (p l l' : Name), p ++ l < p ++ l' ↔ l < l' := by
    intro p l l'
    induction p with
    | nil => simp
    | cons c p ih => simp [List.cons_lt_cons_iff, ih]
  exact key _ _ _

/-- C49 for iteration numbers below 100000: `iter_checkpoints` yields every checkpoint exactly once, in order
of increasing iteration number. (Missing: larger numbers, see `C49_order_fails`.) -/
theorem C49_order_partial {storeDec : τ → Group → Py Group} {b : Bool} {f : H5File} {L : List (Int × τ)}
    (hc : Checkpoints storeDec b f L) (hL : ∀ p ∈ L, 0 ≤ p.1 ∧ p.1 < 100000) :
    ∃ L' : List (Int × τ), L'.Perm L ∧ L'.Pairwise (fun p q => p.1 < q.1) ∧
      List.Forall₂ (fun y p => y.1 = ckName p.1 ∧ storeDec p.2 Group.empty = .ok y.2) (iterCheckpoints f) L' := by
  set S := iterCheckpoints f with hS
  have hsub : ∀ y, y ∈ S ↔ y ∈ f.groups ∧ "checkpoint".toList <+: y.1 := by
    intro y
    rw [hS, iterCheckpoints, List.mem_filter, List.mem_mergeSort, List.isPrefixOf_iff_prefix]
  have hfind : ∀ y ∈ f.groups, f.groups.find y.1 = some y.2 := fun y hy => Dict.find_of_mem hc.unique hy
  have hgrp : ∀ y ∈ S, ∃ p ∈ L, y.1 = ckName p.1 ∧ storeDec p.2 Group.empty = .ok y.2 := by
    intro y hy
    obtain ⟨hy1, hy2⟩ := (hsub y).1 hy
    obtain ⟨p, hp, hk⟩ := hc.only y.1 (by rw [Dict.has_eq_isSome, hfind y hy1]; rfl) hy2
    obtain ⟨g, hg, hg'⟩ := hc.group p hp
    rw [← hk, hfind y hy1] at hg'
    cases hg'
    exact ⟨p, hp, hk, hg⟩
  have hall : ∀ (l : List (Name × Group)), (∀ y ∈ l, y ∈ S) → ∃ L' : List (Int × τ), (∀ p ∈ L', p ∈ L) ∧
      List.Forall₂ (fun y p => y.1 = ckName p.1 ∧ storeDec p.2 Group.empty = .ok y.2) l L' := by
    intro l
    induction l with
    | nil => intro _; exact ⟨[], by simp, .nil⟩
    | cons y l ih =>
      intro h
      obtain ⟨p, hp, h1⟩ := hgrp y (h y (by simp))
      obtain ⟨L', h2, h3⟩ := ih (fun z hz => h z (by simp [hz]))
      exact ⟨p :: L', by simpa [hp] using h2, .cons h1 h3⟩
  obtain ⟨L', hmem, hfor⟩ := hall S (fun _ h => h)
  have hnames : S.map Prod.fst = L'.map (fun p => ckName p.1) := by
    clear_value S
    clear hS hsub hgrp hall
    induction hfor with
    | nil => rfl
    | cons h _ ih => simp [h.1, ih (fun p hp => hmem p (by simp [hp]))]
  have hSn : (S.map Prod.fst).Nodup := by
    rw [hS, iterCheckpoints]
    refine List.Nodup.sublist (List.Sublist.map _ List.filter_sublist) ?_
    exact ((List.mergeSort_perm _ _).map Prod.fst).nodup_iff.2 hc.unique
  have hSs : (S.map Prod.fst).Pairwise (· ≤ ·) := by
    rw [hS, iterCheckpoints, List.pairwise_map]
    refine List.Pairwise.filter _ ?_
    have := List.pairwise_mergeSort (le := fun p q : Name × Group => decide (p.1 ≤ q.1))
      (fun a b c h1 h2 => by
        simp only [decide_eq_true_eq] at *; exact le_trans h1 h2)
      (fun a b => by
        simp only [Bool.or_eq_true, decide_eq_true_eq]; exact le_total _ _) f.groups
    exact this.imp (fun h => by simpa using h)
  have hsorted : L'.Pairwise (fun p q => p.1 < q.1) := by
    have h1 : (L'.map (fun p => ckName p.1)).Pairwise (· < ·) := by
      rw [← hnames]
      exact (hSs.and hSn).imp (fun h => lt_of_le_of_ne h.1 h.2)
    rw [List.pairwise_map] at h1
    refine h1.imp_of_mem ?_
    intro p q hp hq h
    obtain ⟨a, ha⟩ := Int.eq_ofNat_of_zero_le (hL p (hmem p hp)).1
    obtain ⟨b, hb⟩ := Int.eq_ofNat_of_zero_le (hL q (hmem q hq)).1
    have ha' := (hL p (hmem p hp)).2
    have hb' := (hL q (hmem q hq)).2
    rw [ha, hb] at h
    rw [ha] at ha' ⊢
    rw [hb] at hb' ⊢
    have := (ckName_lt (a := a) (b := b) (by omega) (by omega)).1 h
    omega
  refine ⟨L', ?_, hsorted, hfor⟩
  have hLn : L.Nodup := List.Nodup.of_map _ hc.nodup
  have hLn' : L'.Nodup := hsorted.imp (fun h => by rintro rfl; exact lt_irrefl _ h)
  rw [List.perm_ext_iff_of_nodup hLn' hLn]
  refine fun p => ⟨hmem p, fun hp => ?_⟩
  obtain ⟨g, hg, hg'⟩ := hc.group p hp
  have hpre : "checkpoint".toList <+: ckName p.1 := prefix_ckName p.1
  have hin : (ckName p.1, g) ∈ S := (hsub _).2 ⟨Dict.mem_of_find hg', hpre⟩
  have : ckName p.1 ∈ L'.map (fun p => ckName p.1) := by
    rw [← hnames]; exact List.mem_map.2 ⟨_, hin, rfl⟩
  obtain ⟨q, hq, he⟩ := List.mem_map.1 this
  have := List.inj_on_of_nodup_map hc.nodup (hmem q hq) hp (ckName_injective he)
  exact this ▸ hq

example (f : H5File) (hc : Checkpoints (counter 2 true true 9).storeDec true f [(7, 7), (2, 2), (5, 1)]) :
    (iterCheckpoints f).map Prod.fst = [ckName 2, ckName 5, ckName 7] := by
  obtain ⟨L', h1, h2, h3⟩ := C49_order_partial hc (by decide)
  have : L' = [(2, 2), (5, 1), (7, 7)] :=
    (h1.trans (by decide)).eq_of_pairwise (fun a b _ _ h h' => absurd (h.trans h') (lt_irrefl _)) h2 (by decide)
  subst this
  generalize iterCheckpoints f = S at h3 ⊢
  rcases h3 with _ | ⟨⟨e1, -⟩, _ | ⟨⟨e2, -⟩, _ | ⟨⟨e3, -⟩, _ | _⟩⟩⟩
  simp [e1, e2, e3]

/-- A file with the checkpoints 99999 and 100000. -/
def bigFile : H5File :=
  { root := { attrs := [("checkpoint_its".toList, .ints [99999, 100000]), ("final_iteration".toList, .int 100000)],
              dsets := [] }
    groups := [(ckName 99999, Group.empty), (ckName 100000, Group.empty)] }

/-- C49 is false for more than 100000 iterations: the names are sorted as strings, so checkpoint 100000 comes
before checkpoint 99999. -/
theorem C49_order_fails :
    Checkpoints (fun (_ : Unit) g => .ok g) true bigFile [(99999, ()), (100000, ())] ∧
    (iterCheckpoints bigFile).map Prod.fst = [ckName 100000, ckName 99999] := by
  have e1 : ckName 99999 = "checkpoint_99999".toList := by
    rw [ckName, show ((99999 : Int)) = ((99999 : ℕ) : Int) from rfl, fmtInt_natCast]; simp [fmtNat, decimal]; decide
  have e2 : ckName 100000 = "checkpoint_100000".toList := by
    rw [ckName, show ((100000 : Int)) = ((100000 : ℕ) : Int) from rfl, fmtInt_natCast]; simp [fmtNat, decimal]; decide
  have hlt : ¬ ckName 99999 ≤ ckName 100000 := by rw [e1, e2]; decide
  have hp : ∀ n, List.isPrefixOf "checkpoint".toList (ckName n) = true := fun n =>
    List.isPrefixOf_iff_prefix.2 (prefix_ckName n)
  have hne : ckName 99999 ≠ ckName 100000 := by rw [e1, e2]; decide
  constructor
  · refine ⟨by decide, ?_, ?_, rfl, rfl, rfl, ?_⟩
    · intro p hp
      refine ⟨Group.empty, rfl, ?_⟩
      simp only [List.mem_cons, List.not_mem_nil, or_false] at hp
      rcases hp with rfl | rfl
      · exact Dict.find_of_mem (d := bigFile.groups) (by simp [bigFile, hne]) (y := (ckName 99999, Group.empty))
          (by simp [bigFile])
      · exact Dict.find_of_mem (d := bigFile.groups) (by simp [bigFile, hne]) (y := (ckName 100000, Group.empty))
          (by simp [bigFile])
    · intro k hk _
      rw [Dict.has_iff] at hk
      simp only [bigFile, List.map_cons, List.map_nil, List.mem_cons, List.not_mem_nil, or_false] at hk
      rcases hk with rfl | rfl
      · exact ⟨_, List.mem_cons_self, rfl⟩
      · exact ⟨_, List.mem_cons_of_mem _ List.mem_cons_self, rfl⟩
    · simp [bigFile, hne]
  · have : (bigFile.groups.mergeSort fun p q => decide (p.1 ≤ q.1)) =
        [(ckName 100000, Group.empty), (ckName 99999, Group.empty)] := by
      simp [bigFile, List.mergeSort, List.MergeSort.Internal.splitInTwo, List.merge, hlt]
    rw [iterCheckpoints, this]
    simp only [List.filter, hp, List.map]

end
end TK
