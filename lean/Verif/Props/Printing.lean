import Verif.Lemmas.Counter
import Verif.Model.Printing
import Verif.Props.Decomposer
import Verif.Props.Parafac2Fit

/-!
# C104: printing

Source: base_decomposer.py:45-47 and 67-69, cp.py:421-422, parafac2.py:340 and 399-401.
-/

namespace TK
open NDArray Fit
open EStateM (Result)

noncomputable section

variable {σ τ : Type}

/-- Spec: the lines of `k` iterations, the first of which has the number `start`: one for each iteration whose number is a
multiple of `freq`, none if `freq` is not positive. -/
def printedLines (freq start : Int) (k : ℕ) (val : ℕ → List FV) : List OutLine :=
  ((List.range k).filter fun j : ℕ => decide (0 < freq ∧ freq ∣ start + (j : Int))).map fun j : ℕ => (start + (j : Int), val j)

theorem printedLines_succ (freq start : Int) (k : ℕ) (val : ℕ → List FV) :
    printedLines freq start (k + 1) val =
      (if 0 < freq ∧ freq ∣ start then [(start, val 0)] else []) ++ printedLines freq (start + 1) k fun j => val (j + 1) := by
  have h1 : ∀ j : ℕ, start + ((j + 1 : ℕ) : Int) = start + 1 + (j : Int) := fun j => by push_cast; ring
  rw [printedLines, List.range_succ_eq_map, List.filter_cons]
  have h2 : (((List.range k).map Nat.succ).filter fun j : ℕ => decide (0 < freq ∧ freq ∣ start + (j : Int))).map
      (fun j : ℕ => ((start + (j : Int), val j) : OutLine)) = printedLines freq (start + 1) k fun j => val (j + 1) := by
    rw [List.filter_map, List.map_map, printedLines]
    simp only [Function.comp_def, Nat.succ_eq_add_one, h1]
  simp only [Nat.cast_zero, add_zero, decide_eq_true_eq]
  split
  · rw [List.map_cons, h2]; simp
  · rw [h2]; rfl

theorem printedLines_quiet {freq : Int} (h : freq ≤ 0) (start : Int) (k : ℕ) (val : ℕ → List FV) :
    printedLines freq start k val = [] := by
  have : ((List.range k).filter fun j : ℕ => decide (0 < freq ∧ freq ∣ start + (j : Int))) = [] := by
    rw [List.filter_eq_nil_iff]
    intro j _
    simp [not_lt.2 h]
  rw [printedLines, this]; rfl

theorem pbind_of_ok {α β : Type} {x : PFit σ α} {f : α → PFit σ β} {q q' : World σ × List OutLine} {a : α} (h : x q = .ok a q') :
    (x >>= f) q = f a q' := by
  show EStateM.bind x f q = _
  rw [EStateM.bind, h]

theorem pbind_of_error {α β : Type} {x : PFit σ α} {f : α → PFit σ β} {q q' : World σ × List OutLine} {e : PyErr}
    (h : x q = .error e q') : (x >>= f) q = .error e q' := by
  show EStateM.bind x f q = _
  rw [EStateM.bind, h]

theorem pget_def (q : World σ × List OutLine) : (get : PFit σ (World σ × List OutLine)) q = .ok q q := rfl

/-- The exception or result of a call together with given output. -/
def withOut {α : Type} (out : List OutLine) : Result PyErr (World σ) α → Result PyErr (World σ × List OutLine) α
  | .ok a w => .ok a (w, out)
  | .error e w => .error e (w, out)

theorem quiet_eq {α : Type} (x : Fit σ α) (w : World σ) (out : List OutLine) : PFit.quiet x (w, out) = withOut out (x w) := by
  unfold PFit.quiet
  cases x w <;> rfl

theorem due_eq {p : Printer σ} (hd : p.signFirst = true ∨ p.freq ≠ 0) (it : Int) :
    PFit.due p it = .ok (decide (0 < p.freq ∧ p.freq ∣ it)) := by
  unfold PFit.due
  by_cases hs : p.signFirst = true
  · rw [if_pos hs]
    by_cases hp : 0 < p.freq
    · rw [if_pos hp, divides_ok (by omega)]
      simp [hp]
    · rw [if_neg hp]
      simp [hp]
  · rw [if_neg hs, divides_ok (hd.resolve_left hs)]
    show Except.ok _ = _
    refine congrArg Except.ok ?_
    rw [Bool.decide_and, Bool.and_comm]

theorem printLine_eq {p : Printer σ} (hd : p.signFirst = true ∨ p.freq ≠ 0) {w : World σ} {l : List FV}
    (hl : p.line w.st = .ok l) (out : List OutLine) :
    PFit.printLine p (w, out) = .ok () (w, out ++ if 0 < p.freq ∧ p.freq ∣ w.it then [(w.it, l)] else []) := by
  unfold PFit.printLine
  simp only [due_eq hd, hl]
  by_cases h : 0 < p.freq ∧ p.freq ∣ w.it
  · simp [h]
  · simp [h]

/-- The loop with printing does what the loop without printing does. -/
theorem loop_printed (m : Method σ τ) {p : Printer σ} (hline : ∀ s s', m.step s = .ok s' → ∃ l, p.line s' = .ok l)
    (hd : p.signFirst = true ∨ p.freq ≠ 0) : ∀ (n i : ℕ) (last : Option ℕ) (w : World σ) (out : List OutLine),
    match Fit.loop m n i last w with
    | .ok r w' => ∃ (k : ℕ) (val : ℕ → List FV), k ≤ n ∧ w'.it = w.it + k ∧
        (∀ j < k, ∃ s, iterM m.step (j + 1) w.st = .ok s ∧ p.line s = .ok (val j)) ∧
        PFit.loop m p n i last (w, out) = .ok r (w', out ++ printedLines p.freq w.it k val)
    | .error e w' => ∃ lines, PFit.loop m p n i last (w, out) = .error e (w', out ++ lines)
  | 0, i, last, w, out => ⟨0, fun _ => [], le_rfl, by simp, by omega, by simp [PFit.loop, printedLines]; rfl⟩
  | n + 1, i, last, w, out => by
    rw [Fit.loop, bind_of_ok (get_def w), PFit.loop, pbind_of_ok (pget_def (w, out))]
    cases hs : m.stop w.st with
    | error e =>
      rw [bind_of_error (lift_error rfl _)]
      refine ⟨[], ?_⟩
      rw [pbind_of_error (show PFit.quiet (lift (σ := σ) (.error e : Py Bool)) (w, out) = .error e (w, out) from rfl), List.append_nil]
    | ok b =>
      rw [bind_of_ok (lift_ok rfl _), pbind_of_ok (show PFit.quiet (lift (σ := σ) (.ok b : Py Bool)) (w, out) = .ok b (w, out) from rfl)]
      cases b with
      | true => exact ⟨0, fun _ => [], by omega, by simp, by omega, by simp [printedLines]; rfl⟩
      | false =>
        simp only [Bool.false_eq_true, if_false]
        cases hst : m.step w.st with
        | error e =>
          rw [bind_of_error (modifySt_error hst)]
          refine ⟨[], ?_⟩
          rw [pbind_of_error (by rw [quiet_eq, modifySt_error hst]; rfl), List.append_nil]
        | ok s =>
          obtain ⟨l, hl⟩ := hline _ _ hst
          rw [bind_of_ok (modifySt_ok hst), pbind_of_ok (by rw [quiet_eq, modifySt_ok hst]; rfl),
            pbind_of_ok (printLine_eq (w := { w with st := s }) hd hl out)]
          rcases afterIteration_any m { w with st := s } with ⟨ls, f, h⟩ | ⟨e, ls, f, h⟩
          · rw [bind_of_ok h, pbind_of_ok (by rw [quiet_eq, h]; rfl)]
            have hi := loop_printed m hline hd n (i + 1) (some i)
              { st := s, it := w.it + 1, maxIts := w.maxIts, loggers := ls, file := f }
              (out ++ if 0 < p.freq ∧ p.freq ∣ w.it then [(w.it, l)] else [])
            cases hl' : loop m n (i + 1) (some i)
              { st := s, it := w.it + 1, maxIts := w.maxIts, loggers := ls, file := f } with
            | ok r w' =>
              rw [hl'] at hi
              obtain ⟨k, val, h1, h2, h3, h4⟩ := hi
              refine ⟨k + 1, fun j => if j = 0 then l else val (j - 1), by omega, by rw [h2]; push_cast; ring, ?_, ?_⟩
              · intro j hj
                cases j with
                | zero => exact ⟨s, iterM_one_add hst rfl, by simpa using hl⟩
                | succ j =>
                  obtain ⟨s', h5, h6⟩ := h3 j (by omega)
                  exact ⟨s', iterM_one_add hst h5, by simpa using h6⟩
              · rw [h4, printedLines_succ]
                simp only [if_true, List.append_assoc, Nat.add_eq_zero_iff, one_ne_zero, and_false, if_false,
                  Nat.add_sub_cancel]
            | error e w' =>
              rw [hl'] at hi
              obtain ⟨lines, h1⟩ := hi
              exact ⟨_, by rw [h1, List.append_assoc]⟩
          · rw [bind_of_error h]
            exact ⟨_, pbind_of_error (by rw [quiet_eq, h]; rfl)⟩

/-- **C104** for `_fit` of any class: if the numbers in the line can be computed after every successful iteration, and the class
tests the sign of `print_frequency` first or `print_frequency` is not 0, then `_fit` has the same outcome (result, exception,
decomposer, loggers and file) as without printing, and when it returns, the lines are those of the iterations whose
number is a multiple of `print_frequency`, with the numbers after these iterations. -/
theorem C104_run_partial (m : Method σ τ) {p : Printer σ} (hline : ∀ s s', m.step s = .ok s' → ∃ l, p.line s' = .ok l)
    (hd : p.signFirst = true ∨ p.freq ≠ 0) (w : World σ) (out : List OutLine) :
    match Fit.run m w with
    | .ok _ w' => ∃ (s0 : σ) (k : ℕ) (val : ℕ → List FV), m.prepare w.st = .ok s0 ∧ w'.it = w.it + k ∧
        (∀ j < k, ∃ s, iterM m.step (j + 1) s0 = .ok s ∧ p.line s = .ok (val j)) ∧
        PFit.run m p (w, out) = .ok () (w', out ++ printedLines p.freq w.it k val)
    | .error e w' => ∃ lines, PFit.run m p (w, out) = .error e (w', out ++ lines) := by
  unfold Fit.run PFit.run
  cases hp : m.prepare w.st with
  | error e =>
    rw [bind_of_error (modifySt_error hp)]
    exact ⟨[], by rw [List.append_nil]; exact pbind_of_error (by rw [quiet_eq, modifySt_error hp]; rfl)⟩
  | ok s0 =>
    rw [bind_of_ok (modifySt_ok hp), bind_of_ok (get_def _), pbind_of_ok (by rw [quiet_eq, modifySt_ok hp]; rfl),
      pbind_of_ok (pget_def _)]
    have hL := loop_printed m hline hd (w.maxIts - w.it).toNat 0 none { w with st := s0 } out
    cases hl : loop m (w.maxIts - w.it).toNat 0 none { w with st := s0 } with
    | error e w' =>
      rw [hl] at hL
      obtain ⟨lines, h1⟩ := hL
      rw [bind_of_error hl]
      exact ⟨lines, pbind_of_error h1⟩
    | ok r w1 =>
      rw [hl] at hL
      obtain ⟨k, val, h1, h2, h3, h4⟩ := hL
      rw [bind_of_ok hl, pbind_of_ok h4]
      have hfin := final_same m r w1
      cases hf : final m r w1 with
      | error e w2 =>
        rw [bind_of_error hf]
        exact ⟨_, pbind_of_error (by rw [quiet_eq, hf]; rfl)⟩
      | ok u w2 =>
        rw [hf] at hfin
        obtain ⟨e1, e2, e3⟩ := hfin
        rw [bind_of_ok hf, pbind_of_ok (by rw [quiet_eq, hf]; rfl)]
        cases hq : m.post w2.st with
        | error e =>
          rw [modifySt_error hq]
          exact ⟨_, by rw [quiet_eq, modifySt_error hq]; rfl⟩
        | ok s2 =>
          rw [modifySt_ok hq]
          simp only [after] at e1 e2 e3
          exact ⟨s0, k, val, rfl, by rw [← h2]; first | exact e2.symm | exact e2 | (simp_all), h3, by rw [quiet_eq, modifySt_ok hq]; rfl⟩

/-- The same for `fit`: the first iteration has the number `start` (0, or the one of the checkpoint that was loaded). -/
theorem C104_fit_partial (m : Method σ τ) {p : Printer σ} (hline : ∀ s s', m.step s = .ok s' → ∃ l, p.line s' = .ok l)
    (hd : p.signFirst = true ∨ p.freq ≠ 0) (setTarget : σ → Py σ) (initComponents : Fit σ Unit) (mi : Option Int)
    (w : World σ) (out : List OutLine) :
    match Fit.fit m setTarget initComponents mi w with
    | .ok _ w' => ∃ (s0 : σ) (start : Int) (k : ℕ) (val : ℕ → List FV), w'.it = start + k ∧
        (∀ j < k, ∃ s, iterM m.step (j + 1) s0 = .ok s ∧ p.line s = .ok (val j)) ∧
        PFit.fit m p setTarget initComponents mi (w, out) = .ok () (w', out ++ printedLines p.freq start k val)
    | .error e w' => ∃ lines, PFit.fit m p setTarget initComponents mi (w, out) = .error e (w', out ++ lines) := by
  unfold Fit.fit PFit.fit
  cases hi : Fit.initFit m setTarget initComponents mi w with
  | error e w1 =>
    rw [bind_of_error hi]
    exact ⟨[], by rw [List.append_nil]; exact pbind_of_error (by rw [quiet_eq, hi]; rfl)⟩
  | ok u w1 =>
    rw [bind_of_ok hi, pbind_of_ok (show PFit.quiet (Fit.initFit m setTarget initComponents mi) (w, out) = .ok u (w1, out) by
      rw [quiet_eq, hi]; rfl)]
    have := C104_run_partial m hline hd w1 out
    cases hr : Fit.run m w1 with
    | error e w' => rw [hr] at this; exact this
    | ok u w' =>
      rw [hr] at this
      obtain ⟨s0, k, val, -, h2, h3, h4⟩ := this
      exact ⟨s0, w1.it, k, val, h2, h3, h4⟩

/-- A run of the counter with 3 iterations and `print_frequency=2`: lines for the iterations 0 and 2. -/
example : (∀ s s' : ℕ, (counter (-1) false true 5).step s = .ok s' →
      ∃ l, (⟨2, false, fun n : ℕ => .ok [.fin (n : ℝ)]⟩ : Printer ℕ).line s' = .ok l) ∧
    printedLines 2 0 3 (fun j => [.fin ((j + 1 : ℕ) : ℝ)]) = [(0, [.fin ((1 : ℕ) : ℝ)]), (2, [.fin ((3 : ℕ) : ℝ)])] := by
  refine ⟨fun s s' _ => ⟨_, rfl⟩, ?_⟩
  rw [printedLines, show ((List.range 3).filter fun j : ℕ => decide (0 < (2 : Int) ∧ (2 : Int) ∣ 0 + (j : Int))) = [0, 2] by decide]
  rfl

/-- The same for `continue_fit`: the numbers go on from the iteration that was reached. -/
theorem C104_continue_partial (m : Method σ τ) {p : Printer σ} (hline : ∀ s s', m.step s = .ok s' → ∃ l, p.line s' = .ok l)
    (hd : p.signFirst = true ∨ p.freq ≠ 0) (mi : Option Int) (w : World σ) (out : List OutLine) :
    match Fit.continueFit m mi w with
    | .ok _ w' => ∃ (s0 : σ) (k : ℕ) (val : ℕ → List FV), m.prepare w.st = .ok s0 ∧ w'.it = w.it + k ∧
        (∀ j < k, ∃ s, iterM m.step (j + 1) s0 = .ok s ∧ p.line s = .ok (val j)) ∧
        PFit.continueFit m p mi (w, out) = .ok () (w', out ++ printedLines p.freq w.it k val)
    | .error e w' => ∃ lines, PFit.continueFit m p mi (w, out) = .error e (w', out ++ lines) := by
  have hset : ∃ b, Fit.setMaxIts mi w = .ok () { w with maxIts := b } := by
    cases mi with
    | none => exact ⟨w.maxIts, rfl⟩
    | some v => exact ⟨v, rfl⟩
  obtain ⟨b, hb⟩ := hset
  unfold Fit.continueFit PFit.continueFit
  rw [bind_of_ok hb, pbind_of_ok (show PFit.quiet (Fit.setMaxIts mi) (w, out) = .ok () ({ w with maxIts := b }, out) by
    rw [quiet_eq, hb]; rfl)]
  have h := C104_run_partial m hline hd { w with maxIts := b } out
  cases hf : Fit.run m { w with maxIts := b } <;> (rw [hf] at h; exact h)

/-! ## The numbers in the line exist -/

theorem cp_line {E : Ext} {c : CP.Config} (freq : Option Int) (s s' : CPState) (h : (CP.method E c).step s = .ok s') :
    ∃ l, (CP.printer c.opts freq).line s' = .ok l := by
  have h' : CP.iteration E c.opts s = .ok s' := h
  rw [CP.iteration, bind_eq_ok] at h'
  obtain ⟨s1, -, h2⟩ := h'
  rw [CP.updateConvergence, bind_eq_ok] at h2
  obtain ⟨e, h3, h4⟩ := h2
  have h5 : CP.sse s' = .ok e := by rw [← pure_eq_ok.1 h4, ← h3]; rfl
  simp only [CP.printer, CP.mse, CP.loss, h5, bind_ok]
  cases c.opts.ridgePenalties <;> exact ⟨_, rfl⟩

theorem p2_line {E : Ext} {c : P2.Config} (freq : Option Int) (s s' : P2State) (h : (P2.method E c).step s = .ok s') :
    ∃ l, (P2.printer c.opts freq).line s' = .ok l := by
  have h' : P2.iteration E c.opts s = .ok s' := h
  rw [P2.iteration, bind_eq_ok] at h'
  obtain ⟨s1, -, h2⟩ := h'
  rw [P2.updateConvergence, bind_eq_ok] at h2
  obtain ⟨l, h3, h4⟩ := h2
  have h5 : P2.loss c.opts s' = .ok l := by rw [← pure_eq_ok.1 h4, ← h3]; rfl
  have h6 := h5
  rw [P2.loss, bind_eq_ok] at h6
  obtain ⟨e, h7, -⟩ := h6
  simp only [P2.printer, P2.mse, h7, h5, bind_ok]
  exact ⟨_, rfl⟩

theorem cmtf_line {E : Ext} {c : CMTF.Config} (freq : Option Int) (s s' : CMTFState) (h : (CMTF.method E c).step s = .ok s') :
    ∃ l, (CMTF.printer freq).line s' = .ok l := by
  have h' : CMTF.iteration E c.cp.opts s = .ok s' := h
  rw [CMTF.iteration, bind_eq_ok] at h'
  obtain ⟨s1, -, h2⟩ := h'
  rw [CMTF.updateConvergence, bind_eq_ok] at h2
  obtain ⟨e, h3, h4⟩ := h2
  have h5 : CMTF.sse s' = .ok e := by rw [← pure_eq_ok.1 h4, ← h3]; rfl
  have h6 := h5
  rw [CMTF.sse, bind_eq_ok] at h6
  obtain ⟨Y, -, h7⟩ := h6
  obtain ⟨D, -, h8⟩ := bind_eq_ok.1 h7
  obtain ⟨e', h9, -⟩ := bind_eq_ok.1 h8
  rw [CMTF.coupledSSE, bind_eq_ok] at h9
  obtain ⟨Z, h10, -⟩ := h9
  rw [CMTF.reconstructed, bind_eq_ok] at h10
  obtain ⟨Us, h11, -⟩ := h10
  simp only [CMTF.printer, CMTF.mse, h11, h5, bind_ok]
  exact ⟨_, rfl⟩

/-- Spec: the sum of the penalties, `Σ λᵢ ‖Fᵢ‖²`. -/
def penaltySum (ps : List ℝ) (Fs : List (NDArray ℝ)) : ℝ :=
  ((ps.zip Fs).map fun q => q.1 * (q.2.data.map fun x => x ^ 2).sum).sum

theorem addPenalties_sum : ∀ (ps : List ℝ) (Fs : List (NDArray ℝ)) (e : ℝ), CP.addPenalties ps Fs e = e + penaltySum ps Fs
  | [], _, e => by simp [CP.addPenalties, penaltySum]
  | _ :: _, [], e => by simp [CP.addPenalties, penaltySum]
  | l :: ls, F :: Fs, e => by
    rw [CP.addPenalties, addPenalties_sum ls Fs]
    have h : frobNorm F ^ 2 = (F.data.map fun x => x ^ 2).sum := by
      rw [frobNorm, Real.sq_sqrt]
      exact List.sum_nonneg fun x hx => by
        obtain ⟨y, -, rfl⟩ := List.mem_map.1 hx
        positivity
    simp only [penaltySum, List.zip_cons_cons, List.map_cons, List.sum_cons, h]
    ring

/-- **C104**, the numbers in a line of `CP_ALS`: the sum of the squared errors divided by the number of entries of the tensor,
the sum of the squared errors plus the penalties, and the relative change of the iteration. -/
theorem C104_cp_line {E : Ext} {c : CP.Config} (freq : Option Int) {s s' : CPState} (h : CP.iteration E c.opts s = .ok s') :
    ∃ e, CP.sse s' = .ok e ∧ (CP.printer c.opts freq).line s' = .ok [FV.div e s'.X.shape.prod,
      .fin (e + penaltySum (c.opts.ridgePenalties.getD []) s'.dec.factorMatrices), s'.relChange] := by
  rw [CP.iteration, bind_eq_ok] at h
  obtain ⟨s1, -, h2⟩ := h
  rw [CP.updateConvergence, bind_eq_ok] at h2
  obtain ⟨e, h3, h4⟩ := h2
  have h5 : CP.sse s' = .ok e := by rw [← pure_eq_ok.1 h4, ← h3]; rfl
  refine ⟨e, h5, ?_⟩
  simp only [CP.printer, CP.mse, CP.loss, h5, bind_ok]
  cases c.opts.ridgePenalties with
  | none => simp only [Option.getD_none, penaltySum, List.zip_nil_left, List.map_nil, List.sum_nil, add_zero]; rfl
  | some ps => rw [Option.getD_some, ← addPenalties_sum]; rfl

/-- A `2 × 3` tensor, rank 2, penalties 1 and 1/2: the iteration returns, and the loss in the line contains the penalties. -/
example {E : Ext} (hE : E.SVDOk) (hN : E.NNLSOk) {c : CP.Config} (ho : c.opts = ⟨2, 0, 0, some [1, 1 / 2]⟩) :
    ∃ s' e, CP.iteration E c.opts (exampleState [false, true] [false, false]) = .ok s' ∧ CP.sse s' = .ok e ∧
      (CP.printer c.opts (some 1)).line s' = .ok [FV.div e s'.X.shape.prod,
        .fin (e + penaltySum [1, 1 / 2] s'.dec.factorMatrices), s'.relChange] := by
  have hc : ∀ m < 2, (exampleState [false, true] [false, false]).ModeConfig c.opts m ([false, true].getD m false) false
      (some ([1, 1 / 2].getD m 0)) := by
    intro m hm
    rw [ho]
    interval_cases m <;> exact ⟨⟨_, rfl, rfl⟩, ⟨_, rfl, rfl⟩, Or.inr ⟨_, _, rfl, rfl, rfl⟩⟩
  obtain ⟨s', h⟩ := (C40_both_iteration hE hN (o := c.opts) (s := exampleState [false, true] [false, false])
    (by rw [ho]; exact exampleState_sized _ _) (by rw [ho]; exact exampleState_cached _ _) (by rw [ho]; exact Nat.two_pos)
    (fun m hm => ⟨_, _, _, hc m hm⟩)).2 (by
      rintro ⟨m, hm, r, h⟩
      obtain ⟨l, h1, h2⟩ := h.orth
      obtain ⟨l', h1', h2'⟩ := (hc m hm).orth
      rw [h1] at h1'
      cases h1'
      rw [h2] at h2'
      cases h2')
  obtain ⟨e, h1, h2⟩ := C104_cp_line (some 1) h
  exact ⟨s', e, h, h1, by rw [h2, ho]; rfl⟩

/-- **C104**, the numbers in a line of `Parafac2_ALS`: the sum of the squared errors divided by the number of elements, the sum of
the squared errors plus the penalties for `A`, the blueprint and `C`, and the relative change of the iteration. (The fits in the
example at the end of this file perform such iterations.) -/
theorem C104_parafac2_line {E : Ext} {c : P2.Config} (freq : Option Int) {s s' : P2State} (h : P2.iteration E c.opts s = .ok s') :
    ∃ e, P2.sse s' = .ok e ∧ (P2.printer c.opts freq).line s' = .ok [FV.div e s'.dec.numElements,
      .fin (e + penaltySum (c.opts.ridgePenalties.getD [])
        [s'.heap.mem s'.dec.A, s'.heap.mem s'.dec.blueprint, s'.heap.mem s'.dec.C]), s'.relChange] := by
  rw [P2.iteration, bind_eq_ok] at h
  obtain ⟨s1, -, h2⟩ := h
  rw [P2.updateConvergence, bind_eq_ok] at h2
  obtain ⟨l, h3, h4⟩ := h2
  have h5 : P2.loss c.opts s' = .ok l := by rw [← pure_eq_ok.1 h4, ← h3]; rfl
  rw [P2.loss, bind_eq_ok] at h5
  obtain ⟨e, h7, -⟩ := h5
  refine ⟨e, h7, ?_⟩
  simp only [P2.printer, P2.mse, P2.loss, h7, bind_ok]
  cases c.opts.ridgePenalties with
  | none => simp only [Option.getD_none, penaltySum, List.zip_nil_left, List.map_nil, List.sum_nil, add_zero]; rfl
  | some ps => rw [Option.getD_some, ← addPenalties_sum]; rfl

/-- **C104**, the numbers in a line of `CMTF_ALS`: both are computed from the squared errors of the tensor and the coupled
matrices together; the penalties are left out (cmtf.py:58-59 overrides `loss`). The mean is divided by a wrong number of
elements (C67). (`C57_shared_mode_fails` is about iterations that return.) -/
theorem C104_cmtf_line {E : Ext} {c : CMTF.Config} (freq : Option Int) {s s' : CMTFState}
    (h : CMTF.iteration E c.cp.opts s = .ok s') :
    ∃ e m, CMTF.sse s' = .ok e ∧ CMTF.mse s' = .ok m ∧ (CMTF.printer freq).line s' = .ok [m, .fin e, s'.cp.relChange] := by
  obtain ⟨l, hl⟩ := cmtf_line (c := c) freq s s' h
  have hl' := hl
  simp only [CMTF.printer] at hl
  obtain ⟨m, hm, h1⟩ := bind_eq_ok.1 hl
  obtain ⟨e, he, h2⟩ := bind_eq_ok.1 h1
  exact ⟨e, m, he, hm, by rw [hl', ← pure_eq_ok.1 h2]⟩

/-! ## The classes -/

/-- **C104** for `CP_ALS.fit`: for every value of `print_frequency` the outcome is the same as without printing. -/
theorem C104_cp {E : Ext} (c : CP.Config) (freq : Option Int) (X : NDArray ℝ) (mi : Option Int) (arg : InitArg KruskalTensor)
    (w : World CPState) (out : List OutLine) :
    match CP.fit E c X mi arg w with
    | .ok _ w' => ∃ (s0 : CPState) (start : Int) (k : ℕ) (val : ℕ → List FV), w'.it = start + k ∧
        (∀ j < k, ∃ s, iterM (CP.iteration E c.opts) (j + 1) s0 = .ok s ∧ (CP.printer c.opts freq).line s = .ok (val j)) ∧
        PFit.fit (CP.method E c) (CP.printer c.opts freq) (CP.setTarget X) (CP.initComponents E c arg) mi (w, out) =
          .ok () (w', out ++ printedLines (freqOption freq) start k val)
    | .error e w' => ∃ lines, PFit.fit (CP.method E c) (CP.printer c.opts freq) (CP.setTarget X) (CP.initComponents E c arg) mi
        (w, out) = .error e (w', out ++ lines) := by
  have h := C104_fit_partial (CP.method E c) (p := CP.printer c.opts freq) (cp_line freq) (Or.inl rfl) (CP.setTarget X)
    (CP.initComponents E c arg) mi w out
  rw [show CP.fit E c X mi arg w = Fit.fit (CP.method E c) (CP.setTarget X) (CP.initComponents E c arg) mi w from rfl]
  cases hf : Fit.fit (CP.method E c) (CP.setTarget X) (CP.initComponents E c arg) mi w <;> (rw [hf] at h; exact h)

/-- `None` and values that are not positive print nothing (`CP_ALS.fit` that returns). -/
theorem C104_cp_quiet {E : Ext} (c : CP.Config) {freq : Option Int} (hq : freqOption freq ≤ 0) (X : NDArray ℝ) (mi : Option Int)
    (arg : InitArg KruskalTensor) {w w' : World CPState} (h : CP.fit E c X mi arg w = .ok () w') (out : List OutLine) :
    PFit.fit (CP.method E c) (CP.printer c.opts freq) (CP.setTarget X) (CP.initComponents E c arg) mi (w, out) =
      .ok () (w', out) := by
  have := C104_cp (E := E) c freq X mi arg w out
  rw [h] at this
  obtain ⟨s0, start, k, val, -, -, h4⟩ := this
  rw [h4, printedLines_quiet hq, List.append_nil]

/-- A `CP_ALS` object made without `print_frequency` prints nothing (a fit that returns). -/
theorem C104_cp_default {E : Ext} (c : CP.Config) (X : NDArray ℝ) (mi : Option Int) (arg : InitArg KruskalTensor)
    {w w' : World CPState} (h : CP.fit E c X mi arg w = .ok () w') (out : List OutLine) :
    PFit.fit (CP.method E c) (CP.printer c.opts CP.defaultPrintFrequency) (CP.setTarget X) (CP.initComponents E c arg) mi (w, out) =
      .ok () (w', out) :=
  C104_cp_quiet c (by decide) X mi arg h out

/-- **C104** for `_fit` of `CMTF_ALS`. -/
theorem C104_cmtf {E : Ext} (c : CMTF.Config) (freq : Option Int) (w : World CMTFState) (out : List OutLine) :
    match Fit.run (CMTF.method E c) w with
    | .ok _ w' => ∃ (s0 : CMTFState) (k : ℕ) (val : ℕ → List FV), (CMTF.method E c).prepare w.st = .ok s0 ∧ w'.it = w.it + k ∧
        (∀ j < k, ∃ s, iterM (CMTF.iteration E c.cp.opts) (j + 1) s0 = .ok s ∧ (CMTF.printer freq).line s = .ok (val j)) ∧
        PFit.run (CMTF.method E c) (CMTF.printer freq) (w, out) =
          .ok () (w', out ++ printedLines (freqOption freq) w.it k val)
    | .error e w' => ∃ lines, PFit.run (CMTF.method E c) (CMTF.printer freq) (w, out) = .error e (w', out ++ lines) := by
  have h := C104_run_partial (CMTF.method E c) (p := CMTF.printer freq) (cmtf_line freq) (Or.inl rfl) w out
  cases hf : Fit.run (CMTF.method E c) w <;> (rw [hf] at h; exact h)

/-- **C104** for `Parafac2_ALS.fit`, the part that holds: for every value of `print_frequency` other than 0 the outcome is the
same as without printing. Missing: 0 (`C104_zero_fails`). -/
theorem C104_parafac2_partial {E : Ext} (c : P2.Config) {freq : Option Int} (hf : freq ≠ some 0) (D : P2Data) (mi : Option Int)
    (arg : InitArg P2Obj) (w : World P2State) (out : List OutLine) :
    match P2.fit E c D mi arg w with
    | .ok _ w' => ∃ (s0 : P2State) (start : Int) (k : ℕ) (val : ℕ → List FV), w'.it = start + k ∧
        (∀ j < k, ∃ s, iterM (P2.iteration E c.opts) (j + 1) s0 = .ok s ∧ (P2.printer c.opts freq).line s = .ok (val j)) ∧
        PFit.fit (P2.method E c) (P2.printer c.opts freq) (P2.setTarget D) (P2.initComponents E c arg) mi (w, out) =
          .ok () (w', out ++ printedLines (freqOption freq) start k val)
    | .error e w' => ∃ lines, PFit.fit (P2.method E c) (P2.printer c.opts freq) (P2.setTarget D) (P2.initComponents E c arg) mi
        (w, out) = .error e (w', out ++ lines) := by
  have h := C104_fit_partial (P2.method E c) (p := P2.printer c.opts freq) (p2_line freq) (Or.inr (by
    cases freq with
    | none => show (-1 : Int) ≠ 0; decide
    | some f => exact fun h => hf (congrArg some h))) (P2.setTarget D) (P2.initComponents E c arg) mi w out
  rw [show P2.fit E c D mi arg w = Fit.fit (P2.method E c) (P2.setTarget D) (P2.initComponents E c arg) mi w from rfl]
  cases hf : Fit.fit (P2.method E c) (P2.setTarget D) (P2.initComponents E c arg) mi w <;> (rw [hf] at h; exact h)

/-! ## The failures -/

/-- If the remainder is computed before the sign is tested, `print_frequency=0` raises as soon as an iteration is performed. -/
theorem run_zero_raises (m : Method σ τ) {p : Printer σ} (hs : p.signFirst = false) (hz : p.freq = 0) {w w' : World σ}
    (hr : Fit.run m w = .ok () w') (hit : w.it < w'.it) (out : List OutLine) :
    ∃ w'', PFit.run m p (w, out) = .error .zeroDivisionError (w'', out) := by
  have hdue : ∀ q : World σ × List OutLine, PFit.printLine p q = .error .zeroDivisionError q := by
    intro q
    unfold PFit.printLine PFit.due
    rw [hs, hz]
    rfl
  unfold Fit.run at hr
  unfold PFit.run
  cases hp : m.prepare w.st with
  | error e => rw [bind_of_error (modifySt_error hp)] at hr; cases hr
  | ok s0 =>
    rw [bind_of_ok (modifySt_ok hp), bind_of_ok (get_def _)] at hr
    rw [pbind_of_ok (by rw [quiet_eq, modifySt_ok hp]; rfl), pbind_of_ok (pget_def _)]
    have hfin : ∀ r (w1 w2 : World σ), (do Fit.final m r; Fit.modifySt m.post : Fit σ Unit) w1 = .ok () w2 → w2.it = w1.it := by
      intro r w1 w2 h
      have hsame := final_same m r w1
      cases hf : final m r w1 with
      | error e w3 => rw [bind_of_error hf] at h; cases h
      | ok u w3 =>
        rw [hf] at hsame
        rw [bind_of_ok hf] at h
        cases hq : m.post w3.st with
        | error e => rw [modifySt_error hq] at h; cases h
        | ok s2 =>
          rw [modifySt_ok hq] at h
          cases h
          exact hsame.2.1
    simp only at hr ⊢
    generalize (w.maxIts - w.it).toNat = n at hr ⊢
    have hloop : ∃ w'', PFit.loop m p n 0 none ({ w with st := s0 }, out) = .error .zeroDivisionError (w'', out) := by
      cases n with
      | zero =>
        rw [bind_of_ok (show loop m 0 0 none { w with st := s0 } = .ok none { w with st := s0 } from rfl)] at hr
        have := hfin _ _ _ hr
        simp only at this
        omega
      | succ n =>
        rw [PFit.loop, pbind_of_ok (pget_def _)]
        rw [Fit.loop, bind_assoc, bind_of_ok (get_def _), bind_assoc] at hr
        cases hst : m.stop s0 with
        | error e => simp only [hst] at hr; rw [bind_of_error (lift_error rfl _)] at hr; cases hr
        | ok b =>
          simp only [hst] at hr ⊢
          rw [bind_of_ok (lift_ok rfl _)] at hr
          rw [pbind_of_ok (show PFit.quiet (lift (σ := σ) (.ok b : Py Bool)) _ = .ok b _ from rfl)]
          cases b with
          | true =>
            simp only [if_true] at hr
            rw [bind_of_ok (pure_def _ _)] at hr
            have := hfin _ _ _ hr
            simp only at this
            omega
          | false =>
            simp only [Bool.false_eq_true, if_false] at hr ⊢
            rw [bind_assoc] at hr
            cases hstep : m.step s0 with
            | error e => rw [bind_of_error (modifySt_error hstep)] at hr; cases hr
            | ok s1 =>
              rw [pbind_of_ok (by rw [quiet_eq, modifySt_ok hstep]; rfl)]
              exact ⟨_, pbind_of_error (hdue _)⟩
    obtain ⟨w'', h⟩ := hloop
    exact ⟨w'', pbind_of_error h⟩

/-- `_init_fit` with a start that is not read from a checkpoint sets the iteration number to 0. -/
theorem p2_initFit_it {E : Ext} {c : P2.Config} {D : P2Data} {arg : InitArg P2Obj} {h0 : Heap} {s : P2State}
    (hi : P2.StartsFrom E c D arg h0 s) {l : ℝ} (hl : P2.loss c.opts s = .ok l) (budget : Int) (mi : Option Int)
    (loggers : List Logger) (file : Option H5File) :
    ∃ w1, Fit.initFit (P2.method E c) (P2.setTarget D) (P2.initComponents E c arg) mi (P2.newObject h0 budget loggers file) =
      .ok () w1 ∧ w1.it = 0 := by
  obtain ⟨s0, e0, ei⟩ := hi
  have er : (P2.method E c).initRest s = .ok (s.withLoss .pinf l) := by
    show P2.initRest c.opts s = _
    rw [P2.initRest, hl, bind_ok]; rfl
  unfold Fit.initFit
  rw [bind_of_ok (modify_def _ _), bind_of_ok (modifySt_ok (s := s0) e0)]
  refine ⟨⟨s.withLoss .pinf l, 0, mi.getD budget, loggers, file⟩, ?_, rfl⟩
  show (P2.initComponents E c arg >>= _) (⟨s0, 0, budget, loggers, file⟩ : World P2State) = _
  rw [bind_of_ok (ei budget loggers file)]
  cases mi with
  | none => rw [bind_of_ok (show setMaxIts none _ = .ok () _ from rfl), modifySt_ok er]; rfl
  | some v => rw [bind_of_ok (show setMaxIts (some v) _ = .ok () _ from rfl), modifySt_ok er]; rfl

/-- A `Parafac2_ALS` fit with a positive budget performs at least one iteration. -/
theorem p2_first_iteration {E : Ext} (hE : E.SVDOk) (hN : E.NNLSOk) (hQ : E.QROk) {c : P2.Config} {D : P2Data}
    {arg : InitArg P2Obj} {h0 : Heap} {s : P2State} {I : ℕ} {Js : List ℕ}
    (hi : P2.StartsFrom E c D arg h0 s) (h : s.Sized I Js c.opts.rank) (hs : s.Distinct) (hal : s.Allocated)
    (hA : P2.Admissible c.opts I Js.length) (hlog : c.Measurable I Js) (hfreq : freqOption c.freq ≠ 0)
    {budget : Int} {mi : Option Int} {loggers : List Logger} {file : Option H5File}
    (hS : Storing (P2.method E c) (P2.newObject h0 budget loggers file) []) (hb : 0 < mi.getD budget) :
    ∃ w', ∃ k : ℕ, P2.fit E c D mi arg (P2.newObject h0 budget loggers file) = .ok () w' ∧ w'.it = k ∧ 1 ≤ k := by
  obtain ⟨l, sp, w', k, e1, e2, -, e3, -, e4, e5, -, e6, -⟩ := C80_fit_completes hE hN hQ hi h hs hal hA hlog hfreq (mi := mi) hS
  refine ⟨w', k, e3, e4, ?_⟩
  by_contra hk
  have hk0 : k = 0 := by omega
  subst hk0
  have h1 := e6 (by simpa using hb)
  rw [e5, show P2.orbit E c.opts sp 0 = sp from rfl] at h1
  obtain ⟨h', ci, ep, -⟩ := P2State.prepareCp_ok (E := E) hQ (o := c.opts) (h.withLoss .pinf l) (hs.loss .pinf l) hA (fun _ => hal)
  rw [ep] at e2
  rw [← Except.ok.inj e2] at h1
  simp only [P2.shouldStop] at h1
  exact absurd (Except.ok.inj h1) (by
    show ¬ (FV.absLt .pinf c.opts.convergenceTol = true)
    simp [FV.absLt])

/-- **C104, refuted** for `Parafac2_ALS`: with `print_frequency=0`, every fit with a positive budget that would complete without
printing raises `ZeroDivisionError` after the first iteration. -/
theorem C104_zero_fails {E : Ext} (hE : E.SVDOk) (hN : E.NNLSOk) (hQ : E.QROk) {c : P2.Config} {D : P2Data}
    {arg : InitArg P2Obj} {h0 : Heap} {s : P2State} {I : ℕ} {Js : List ℕ}
    (hi : P2.StartsFrom E c D arg h0 s) (h : s.Sized I Js c.opts.rank) (hs : s.Distinct) (hal : s.Allocated)
    (hA : P2.Admissible c.opts I Js.length) (hlog : c.Measurable I Js) (hfreq : freqOption c.freq ≠ 0)
    {budget : Int} {mi : Option Int} {loggers : List Logger} {file : Option H5File}
    (hS : Storing (P2.method E c) (P2.newObject h0 budget loggers file) []) (hb : 0 < mi.getD budget) (out : List OutLine) :
    (∃ w', P2.fit E c D mi arg (P2.newObject h0 budget loggers file) = .ok () w') ∧
      ∃ w', PFit.fit (P2.method E c) (P2.printer c.opts (some 0)) (P2.setTarget D) (P2.initComponents E c arg) mi
        (P2.newObject h0 budget loggers file, out) = .error .zeroDivisionError (w', out) := by
  obtain ⟨w', k, e1, e2, e3⟩ := p2_first_iteration hE hN hQ hi h hs hal hA hlog hfreq (mi := mi) hS hb
  refine ⟨⟨w', e1⟩, ?_⟩
  obtain ⟨l, el, -⟩ := h.loss (o := c.opts)
  obtain ⟨w1, i1, i2⟩ := p2_initFit_it (E := E) hi el budget mi loggers file
  rw [P2.fit, Fit.fit, bind_of_ok i1] at e1
  rw [PFit.fit, pbind_of_ok (by rw [quiet_eq, i1]; rfl)]
  exact run_zero_raises (P2.method E c) (p := P2.printer c.opts (some 0)) rfl rfl e1 (by rw [i2, e2]; omega) out

/-- **C104, refuted**: if `print_frequency` is not given, `Parafac2_ALS.fit` with a positive budget prints (the documentation says
that nothing is printed); the first line is the one of iteration 0. -/
theorem C104_default_fails {E : Ext} (hE : E.SVDOk) (hN : E.NNLSOk) (hQ : E.QROk) {c : P2.Config} {D : P2Data}
    {arg : InitArg P2Obj} {h0 : Heap} {s : P2State} {I : ℕ} {Js : List ℕ}
    (hi : P2.StartsFrom E c D arg h0 s) (h : s.Sized I Js c.opts.rank) (hs : s.Distinct) (hal : s.Allocated)
    (hA : P2.Admissible c.opts I Js.length) (hlog : c.Measurable I Js) (hfreq : freqOption c.freq ≠ 0)
    {budget : Int} {mi : Option Int} {loggers : List Logger} {file : Option H5File}
    (hS : Storing (P2.method E c) (P2.newObject h0 budget loggers file) []) (hb : 0 < mi.getD budget) (out : List OutLine) :
    ∃ w' l lines, PFit.fit (P2.method E c) (P2.printer c.opts P2.defaultPrintFrequency) (P2.setTarget D)
      (P2.initComponents E c arg) mi (P2.newObject h0 budget loggers file, out) = .ok () (w', out ++ (0, l) :: lines) := by
  obtain ⟨w', k, e1, e2, e3⟩ := p2_first_iteration hE hN hQ hi h hs hal hA hlog hfreq (mi := mi) hS hb
  obtain ⟨l, el, -⟩ := h.loss (o := c.opts)
  obtain ⟨w1, i1, i2⟩ := p2_initFit_it (E := E) hi el budget mi loggers file
  rw [P2.fit, Fit.fit, bind_of_ok i1] at e1
  have hr := C104_run_partial (P2.method E c) (p := P2.printer c.opts P2.defaultPrintFrequency) (p2_line _)
    (Or.inr (show (10 : Int) ≠ 0 by decide)) w1 out
  rw [e1] at hr
  obtain ⟨s0, k', val, -, h2, -, h4⟩ := hr
  rw [i2] at h2
  obtain ⟨k'', rfl⟩ : ∃ k'', k' = k'' + 1 := ⟨k' - 1, by omega⟩
  refine ⟨w', val 0, printedLines 10 1 k'' fun j => val (j + 1), ?_⟩
  rw [PFit.fit, pbind_of_ok (by rw [quiet_eq, i1]; rfl), h4, i2, printedLines_succ]
  rfl

/-- The hypotheses hold for random starts: every fit of slices with at least as many columns as the rank raises with
`print_frequency=0`, and prints by default. -/
example {E : Ext} (hE : E.SVDOk) (hN : E.NNLSOk) (hQ : E.QROk) {c : P2.Config} (hi : c.init.toLower = "random")
    {n : ℕ} {g : List ℕ → ℝ} (ho : c.opts = p2Plain 2 n g) (hlog : c.logs = []) (hfreq : c.freq = none) (h0 : Heap) :
    (∃ w', PFit.fit (P2.method E c) (P2.printer c.opts (some 0)) (P2.setTarget (.list [full [2, 2] 1, full [2, 3] 5]))
      (P2.initComponents E c .none) (some 7) (P2.newObject h0 100 [] none, []) = .error .zeroDivisionError (w', [])) ∧
    ∃ w' l lines, PFit.fit (P2.method E c) (P2.printer c.opts P2.defaultPrintFrequency)
      (P2.setTarget (.list [full [2, 2] 1, full [2, 3] 5]))
      (P2.initComponents E c .none) (some 7) (P2.newObject h0 100 [] none, []) = .ok () (w', (0, l) :: lines) := by
  have hr : c.opts.rank = 2 := by rw [ho]; rfl
  have hX : List.Forall₂ (fun (Xk : NDArray ℝ) J => Xk.shape = [2, J]) [full [2, 2] 1, full [2, 3] 5] [2, 3] :=
    .cons rfl (.cons rfl .nil)
  obtain ⟨s, h1, h2, h3, h4, -, h6⟩ := p2_startsFrom_random (E := E) hQ (c := c) hi (by omega) hX (by simp) (by omega)
    (by rw [hr]; simp) h0
  have hA : P2.Admissible c.opts 2 [2, 3].length := by
    rw [ho]; exact p2Plain_admissible (by omega) (by omega) (by simp)
  have hL : c.Measurable 2 [2, 3] := by intro p hp; rw [hlog] at hp; cases hp
  have hF : freqOption c.freq ≠ 0 := by rw [hfreq]; decide
  refine ⟨(C104_zero_fails hE hN hQ h1 h2 h3.distinct h4 hA hL hF (mi := some 7) (p2_storing_none hfreq _ _) (by simp) []).2, ?_⟩
  exact C104_default_fails hE hN hQ h1 h2 h3.distinct h4 hA hL hF (mi := some 7) (p2_storing_none hfreq _ _) (by simp) []

end
end TK
