import Verif.Props.OneComponentNonNeg
import Verif.Props.OneComponentCoreP2

/-!
# C100, C165: PARAFAC2 fits with one component and non-negative factor matrices

Source: parafac2.py (`Parafac2_ALS._fit`), metrics.py (`core_consistency_parafac2`). As in `OneComponentNonNeg`, with a non-negativity constraint also on `C`.
-/

namespace TK
open NDArray Fit
open EStateM (Result)

noncomputable section

theorem iterM_flagged_orthogonal {E : Ext} (hE : E.SVDOk) (hN : E.NNLSOk) {o : CPOpts} (hridge : o.ridgePenalties = none) {flags : List Bool}
    (hR : o.rank = 1 ∨ ∀ m : ℕ, flags[m]? ≠ some true) {f : CPState} :
    ∀ {n : ℕ} {s : CPState}, 0 < n → s.Sized o.rank → (∀ r < o.rank, s.dec.weights.get [r] = 1) → s.Flagged flags → 0 < s.X.shape.length →
      iterM (CP.updateFactors E o) n s = .ok f →
      (sumIdx f.X.shape fun idx => (f.X.get idx - cpEntry (fun _ => 1) f.dec.factorMatrices o.rank idx) *
        cpEntry (fun _ => 1) f.dec.factorMatrices o.rank idx) = 0
  | 0, _, h, _, _, _, _, _ => absurd h (lt_irrefl 0)
  | 1, s, _, h, hw, hU, h0, e => by
    obtain ⟨h1, h2⟩ := flagged_sweep hE hN hridge h hw hU
    obtain ⟨e1, -, p⟩ := h1 _ le_rfl
    rw [iterM, CP.updateFactors, e1, bind_ok] at e
    obtain rfl : CP.partial E o s s.X.shape.length = f := by simpa [iterM] using e
    have := h2.orthogonal hR h0
    rw [p.X]
    exact this
  | n + 2, s, _, h, hw, hU, h0, e => by
    obtain ⟨h1, -⟩ := flagged_sweep hE hN hridge h hw hU
    obtain ⟨e1, hS, p⟩ := h1 _ le_rfl
    rw [iterM, CP.updateFactors, e1, bind_ok] at e
    exact iterM_flagged_orthogonal hE hN hridge hR (Nat.succ_pos n) hS (by rw [p.weights]; exact hw) (hU.same p) (by rw [p.X]; exact h0) e

variable {s : P2State} {I : ℕ} {Js : List ℕ}

/-- After an iteration with one component and at least one inner update, the residual of the projected data is orthogonal to the inner
model, and the error is at most the difference of the squared norms. -/
theorem p2_iteration_one {E : Ext} (hE : E.SVDOk) (hN : E.NNLSOk) {o : P2Opts} (hR : o.rank = 1) (hridge : o.ridgePenalties = none) {c : CPObj} {s' : P2State}
    (h : s.Working o I Js c) (hsh : s.Shares c) {flags : List Bool} (hfl : c.st.nonNeg = some flags) (hlen : flags.length = 3)
    (hor : c.st.orth = some [false, false, false]) (hn : 0 < o.cpUpdates) (hs : P2.iteration E o s = .ok s') :
    s'.Sized I Js o.rank ∧ s'.X = s.X ∧
      (sumIdx [I, o.rank, Js.length] fun idx => ((p2Projected s.X s'.P I Js o.rank).get idx - cpEntry (fun _ => 1) [s'.A, s'.D, s'.C] o.rank idx) *
        cpEntry (fun _ => 1) [s'.A, s'.D, s'.C] o.rank idx) = 0 ∧
      s'.err I Js o.rank ≤ slicesSq s.X - modelSq [I, o.rank, Js.length] (fun _ => 1) [s'.A, s'.D, s'.C] o.rank := by
  obtain ⟨s'', c', f, e, hw, ha, -, -, hd, hX, -, -, -, -, -, ⟨ef, hf⟩, -, hcon, -⟩ := P2State.iteration_ok hE hN h
  rw [hs] at e
  obtain rfl := Except.ok.inj e
  refine ⟨hw.sized, hX, ?_⟩
  set Xp := p2Projected s.X s'.P I Js o.rank with hXp
  have hsz : ((c.setTarget Xp).read s.heap).Sized o.rank := h.ready.sized h.sized s'.P
  have hcfg : ∀ m < 3, ∃ nn on ridge, ((c.setTarget Xp).read s.heap).ModeConfig (P2.innerOpts o) m nn on ridge ∧
      ¬ (nn = true ∧ on = true) := fun m hm => by
    obtain ⟨nn, on, ridge, hc, hb⟩ := h.ready.config m hm
    exact ⟨nn, on, ridge, ⟨hc.nonNeg, hc.orth, hc.ridge⟩, hb⟩
  have hU : ((c.setTarget Xp).read s.heap).Flagged flags := ⟨hfl, hlen, _, hor, fun m hm => by
    have hm : m < 3 := hm
    interval_cases m <;> rfl⟩
  have hres := iterM_flagged_orthogonal hE hN (o := P2.innerOpts o) hridge (Or.inl hR) hn hsz h.ready.wone hU (show 0 < 3 by decide) ef
  obtain ⟨f', ef', hsame, hfS⟩ := cp_iter_total hE hN (o := P2.innerOpts o) (show 0 < o.rank from h.sized.posR) o.cpUpdates
    ((c.setTarget Xp).read s.heap) hsz hcfg
  rw [ef] at ef'
  obtain rfl := Except.ok.inj ef'
  have hfX : f.X = Xp := hsame.X
  have hff : f.dec.factorMatrices = [s'.A, s'.D, s'.C] := by
    rw [← hf, ha, hsh]
    show [s'.heap.mem s.dec.A, s'.heap.mem s.dec.blueprint, s'.heap.mem s.dec.C] = _
    rw [← hd]; rfl
  rw [hff, hfX] at hres
  refine ⟨hres, ?_⟩
  have hsq := sqErr_of_orthogonal hres
  refine hcon.err_le.trans ?_
  have hsq' : sqErr Xp (fun _ => 1) [s'.A, s'.D, s'.C] o.rank = (sumIdx Xp.shape fun idx => Xp.get idx ^ 2) -
      modelSq [I, o.rank, Js.length] (fun _ => 1) [s'.A, s'.D, s'.C] o.rank := hsq
  rw [hw.sized.pot_eq (fun _ => 1) fun _ _ => rfl, hX, ← hXp, hsq', h.sized.slicesSq, hXp]
  have e2 := projected_sumSq s' I Js o.rank
  rw [hX, sumSq] at e2
  rw [e2, Finset.sum_sub_distrib]
  have e3 : ∀ k, s'.Xm I Js k = s.Xm I Js k := fun k => by unfold P2State.Xm; rw [hX]
  simp only [e3]
  linarith

/-- The fits of `Parafac2_ALS` with one component. -/
theorem p2_fit_one {E : Ext} (hE : E.SVDOk) (hN : E.NNLSOk) (hQ : E.QROk) {c : P2.Config} (hR : c.opts.rank = 1) {D : P2Data}
    {arg : InitArg P2Obj} {h0 : Heap} (hi : P2.StartsFrom E c D arg h0 s) (h : s.Sized I Js c.opts.rank) (hs : s.Distinct)
    (hal : s.Allocated) (hA : P2.Admissible c.opts I Js.length)
    (hon : c.opts.orth = none) (hridge : c.opts.ridgePenalties = none) (hup : 0 < c.opts.cpUpdates)
    (hlog : c.Measurable I Js) (hfreq : freqOption c.freq ≠ 0)
    {budget : Int} {mi : Option Int} (hb : 0 < mi.getD budget) {loggers : List Logger} {file : Option H5File}
    (hS : Storing (P2.method E c) (P2.newObject h0 budget loggers file) []) :
    ∃ w, P2.fit E c D mi arg (P2.newObject h0 budget loggers file) = .ok () w ∧ w.st.X = s.X ∧ w.st.Sized I Js c.opts.rank ∧
      w.st.XNorm = s.XNorm ∧ P2.sse w.st = .ok (w.st.err I Js c.opts.rank) ∧
      (sumIdx [I, c.opts.rank, Js.length] fun idx => ((p2Projected s.X w.st.P I Js c.opts.rank).get idx -
        cpEntry (fun _ => 1) [w.st.A, w.st.D, w.st.C] c.opts.rank idx) * cpEntry (fun _ => 1) [w.st.A, w.st.D, w.st.C] c.opts.rank idx) = 0 ∧
      w.st.err I Js c.opts.rank ≤ slicesSq s.X - modelSq [I, c.opts.rank, Js.length] (fun _ => 1) [w.st.A, w.st.D, w.st.C] c.opts.rank := by
  have hof : P2State.orthFlags c.opts = [false, false, false] := by rw [P2State.orthFlags, hon]; rfl
  have hno : ∀ j : ℕ, ([false, false, false] : List Bool)[j]? ≠ some true := by
    intro j
    match j with
    | 0 => simp
    | 1 => simp
    | 2 => simp
    | _ + 3 => simp
  obtain ⟨l, sp, w, k, el, ep, -, hfit, -, hit, hst, -, hstop, -, hsse, hX, -⟩ := C80_fit_completes hE hN hQ hi h hs hal hA hlog hfreq
    (mi := mi) hS
  obtain ⟨h', ci, ep', hw, -, -, hn1, ho1, -, -, hsh, -⟩ := P2State.prepareCp_ok (E := E) hQ (o := c.opts) (h.withLoss .pinf l)
    (hs.loss .pinf l) hA (fun _ => hal)
  rw [ep] at ep'
  obtain rfl : sp = (s.withLoss .pinf l).withInner h' ci := by injection ep'
  rw [hof] at hsh ho1
  obtain ⟨rfl, h3⟩ := hsh hno
  have hk : k ≠ 0 := by
    rintro rfl
    have := hstop (by exact_mod_cast hb)
    rw [hst] at this
    cases this
  obtain ⟨j, rfl⟩ : ∃ j, k = j + 1 := ⟨k - 1, by omega⟩
  obtain ⟨c1, hw1, ha, hn2, ho2, hd, hXj, -⟩ := p2_orbit_working hE hN hw j
  have hsh1 : (P2.orbit E c.opts ((s.withLoss .pinf l).withInner (s.withLoss .pinf l).heap ci) j).Shares c1 := by
    unfold P2State.Shares
    rw [ha, hd]; exact h3
  obtain ⟨hsz, hXX, hres, hle⟩ := p2_iteration_one hE hN hR hridge hw1 hsh1 (hn2.trans hn1) (hA.nonNegLen _ rfl) (ho2.trans ho1) hup
    (p2_orbit_step hE hN hw j)
  have hXs : (P2.orbit E c.opts ((s.withLoss .pinf l).withInner (s.withLoss .pinf l).heap ci) j).X = s.X := hXj
  rw [hXs] at hres hle
  rw [← hst] at hsz hres hle
  refine ⟨w, hfit, hX, hsz, ?_, hsse, hres, hle⟩
  rw [hst, p2_orbit_XNorm hE hN hw]
  rfl

/-- **C100** for `Parafac2_ALS` with one component and any non-negativity constraints. -/
theorem C100_parafac2_one_partial {E : Ext} (hE : E.SVDOk) (hN : E.NNLSOk) (hQ : E.QROk) {c : P2.Config} (hR : c.opts.rank = 1) {D : P2Data}
    {arg : InitArg P2Obj} {h0 : Heap} (hi : P2.StartsFrom E c D arg h0 s) (h : s.Sized I Js c.opts.rank) (hs : s.Distinct)
    (hal : s.Allocated) (hnorm : s.XNorm = Real.sqrt (slicesSq s.X)) (hA : P2.Admissible c.opts I Js.length)
    (hon : c.opts.orth = none) (hridge : c.opts.ridgePenalties = none) (hup : 0 < c.opts.cpUpdates)
    (hlog : c.Measurable I Js) (hfreq : freqOption c.freq ≠ 0)
    {budget : Int} {mi : Option Int} (hb : 0 < mi.getD budget) {loggers : List Logger} {file : Option H5File}
    (hS : Storing (P2.method E c) (P2.newObject h0 budget loggers file) []) (h1 : slicesSq s.X ≠ 0) :
    ∃ w v, P2.fit E c D mi arg (P2.newObject h0 budget loggers file) = .ok () w ∧ P2.explainedVariance w.st = .ok (.fin v) ∧ 0 ≤ v ∧ v ≤ 1 ∧
      v = 1 - w.st.err I Js c.opts.rank / slicesSq s.X := by
  obtain ⟨w, hfit, hX, -, hn, hsse, -, hle⟩ := p2_fit_one hE hN hQ hR hi h hs hal hA hon hridge hup hlog hfreq hb hS
  have hpos0 : 0 ≤ slicesSq s.X := by
    rw [h.slicesSq]
    exact Finset.sum_nonneg fun k _ => LA.fsq_nonneg _
  have hpos : 0 < slicesSq s.X := lt_of_le_of_ne hpos0 (Ne.symm h1)
  have hN2 : w.st.XNorm ^ 2 = slicesSq s.X := by rw [hn, hnorm, Real.sq_sqrt hpos0]
  have hm0 : 0 ≤ modelSq [I, c.opts.rank, Js.length] (fun _ => 1) [w.st.A, w.st.D, w.st.C] c.opts.rank :=
    sumIdx_nonneg fun _ _ => sq_nonneg _
  refine ⟨w, _, hfit, ?_, ?_, ?_, rfl⟩
  · rw [P2.explainedVariance, hsse, bind_ok, hN2, FV.div, if_pos h1]; rfl
  · rw [sub_nonneg, div_le_one hpos]; linarith
  · rw [sub_le_self_iff]; exact div_nonneg (p2_err_nonneg _ _ _ _) hpos.le

/-- **C165** for `Parafac2_ALS` with any non-negativity constraints. -/
theorem C165_parafac2_nonneg {E : Ext} (hE : E.SVDOk) (hN : E.NNLSOk) (hQ : E.QROk) {c : P2.Config} (hR : c.opts.rank = 1) {D : P2Data}
    {arg : InitArg P2Obj} {h0 : Heap} (hi : P2.StartsFrom E c D arg h0 s) (h : s.Sized I Js c.opts.rank) (hs : s.Distinct)
    (hal : s.Allocated) (hA : P2.Admissible c.opts I Js.length)
    (hon : c.opts.orth = none) (hridge : c.opts.ridgePenalties = none) (hup : 0 < c.opts.cpUpdates)
    (hlog : c.Measurable I Js) (hfreq : freqOption c.freq ≠ 0)
    {budget : Int} {mi : Option Int} (hb : 0 < mi.getD budget) {loggers : List Logger} {file : Option H5File}
    (hS : Storing (P2.method E c) (P2.newObject h0 budget loggers file) []) :
    ∃ w, P2.fit E c D mi arg (P2.newObject h0 budget loggers file) = .ok () w ∧ w.st.X = s.X ∧
      ((∃ i < I, w.st.A.get [i, 0] ≠ 0) → w.st.D.get [0, 0] ≠ 0 → (∃ k < Js.length, w.st.C.get [k, 0] ≠ 0) →
      ∀ {E' : Ext}, E'.QROk → ∀ {eps : ℝ}, 0 < eps → ∀ garbage : List ℕ → ℝ,
        coreConsistencyParafac2 E' garbage w.st.X w.st.P w.st.A w.st.D w.st.C eps =
          .ok (.fin (100 * (1 - (1 / guard eps [w.st.A, w.st.D, w.st.C] [I, 1, Js.length] 0 - 1) ^ 2)))) := by
  obtain ⟨w, hfit, hX, hsz, -, -, hres, -⟩ := p2_fit_one hE hN hQ hR hi h hs hal hA hon hridge hup hlog hfreq hb hS
  rw [← hX, hR] at hres
  rw [hR] at hsz
  refine ⟨w, hfit, hX, fun ⟨i, hi, nA⟩ nD ⟨k, hk, nC⟩ E' hE' eps he garbage => ?_⟩
  rw [C84_projected hsz.X hsz.P hsz.A hsz.D hsz.C garbage eps]
  refine core_of_orthogonal hE' he (shape_ofFn _ _) hsz.A hsz.D hsz.C (indep_one hi nA) (indep_one Nat.one_pos nD) (indep_one hk nC) ?_
  rw [sumIdx_three] at hres
  simp only [cpEntry, Finset.sum_range_one, rankOne, one_mul, mul_one, ← mul_assoc] at hres
  rw [← hres]
  refine Finset.sum_congr rfl fun i _ => ?_
  rw [Finset.sum_range_one]
  exact Finset.sum_congr rfl fun k _ => by ring

/-- A case of the hypotheses of `C100_parafac2_one_partial` and `C165_parafac2_nonneg`: any slices that are not zero, three non-negative modes and
`init="random"`. (The example for `C165_parafac2` has a fit that does not end with zeros.) -/
example {E : Ext} (hE : E.SVDOk) (hN : E.NNLSOk) (hQ : E.QROk) {c : P2.Config}
    (hi : c.init.toLower = "random") {n : ℕ} {g : List ℕ → ℝ} (ho : c.opts = ⟨1, 1e-8, n + 1, some [true, true, true], none, none, g⟩) (hlog : c.logs = [])
    (hfreq : c.freq = none) {Xs : List (NDArray ℝ)} (hI : 0 < I) (hX : List.Forall₂ (fun Xk J => Xk.shape = [I, J]) Xs Js)
    (hK : 0 < Js.length) (hJ : ∀ J ∈ Js, 1 ≤ J) (h0 : Heap) (hne : slicesSq Xs ≠ 0) :
    ∃ w v, P2.fit E c (.list Xs) (some 10) .none (P2.newObject h0 10 [] none) = .ok () w ∧
      P2.explainedVariance w.st = .ok (.fin v) ∧ 0 ≤ v ∧ v ≤ 1 := by
  have hr : c.opts.rank = 1 := by rw [ho]
  have e0 := p2_setTarget_list hX hK (P2.fresh h0)
  set s0 : P2State := { P2.fresh h0 with
      X := Xs
      XShape := (I, Js, Js.length)
      XNorm := Real.sqrt ((Xs.map fun Xk => frobNorm Xk ^ 2).sum) } with hs0
  have hJ' : ∀ J ∈ Js, c.opts.rank ≤ J := by rw [hr]; exact hJ
  have hR' : 0 < c.opts.rank := by omega
  have hd : s0.Data I Js := ⟨hI, fun J hJ2 => hR'.trans_le (hJ' J hJ2), hK, hX, rfl⟩
  obtain ⟨t, e, h1, h2, h3, h4, h5⟩ := P2State.initRandom_ok hQ hd hR' hJ'
  obtain ⟨g1, g2, g3, g4, -⟩ := P2State.setNew_spec hd hR' h1 h2 h3 h4
  have hstart : P2.StartsFrom E c (.list Xs) .none h0 (P2.setNew t s0) := by
    refine ⟨s0, e0, fun budget loggers file => ?_⟩
    unfold P2.initComponents
    simp only [hi]
    exact modifySt_ok (w := ⟨s0, 0, budget, loggers, file⟩) e
  have hnorm : (P2.setNew t s0).XNorm = Real.sqrt (slicesSq (P2.setNew t s0).X) := by
    show Real.sqrt ((Xs.map fun Xk => frobNorm Xk ^ 2).sum) = Real.sqrt (slicesSq Xs)
    congr 2
    exact List.map_congr_left fun Xk _ => frobNorm_sq Xk
  have hA : P2.Admissible c.opts I Js.length := by
    rw [ho]
    exact ⟨by simp [P2.innerOpts], by simp, by simp only [List.mem_cons, List.not_mem_nil, or_false]; omega, by simp [P2.nonNegOption], by simp, by simp [P2.innerOpts], by simp, by simp⟩
  obtain ⟨w, v, q1, q2, q3, q4, -⟩ := C100_parafac2_one_partial hE hN hQ hr hstart g1 g2.distinct g3 hnorm hA (by rw [ho]) (by rw [ho])
    (by rw [ho]; exact Nat.succ_pos n) (by intro p hp; rw [hlog] at hp; cases hp) (by rw [hfreq]; decide) (budget := 10)
    (mi := some 10) (by decide) (loggers := []) (file := none) (p2_storing_none hfreq _ _) hne
  exact ⟨w, v, q1, q2, q3, q4⟩

end

end TK
