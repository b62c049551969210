import Verif.Props.ExplainedRidge

/-!
# C100: fits of `Parafac2_ALS` with ridge penalties

Source: parafac2.py (`Parafac2_ALS._fit`, `_update_parafac2_factors`), cp.py (`CP_ALS._update_als_factor`).
-/

namespace TK
open NDArray Fit Matrix
open EStateM (Result)

noncomputable section

/-- Several updates of all modes, at least one. -/
theorem iterM_short {E : Ext} (hE : E.SVDOk) (hN : E.NNLSOk) {o : CPOpts} (hr : 0 < o.rank) {f : CPState} {l : ℝ}
    (hl : 0 ≤ l) {nn : Bool} (h1 : nn = false ∨ o.rank = 1) :
    ∀ {n : ℕ} {s : CPState}, 0 < n → s.Sized o.rank →
      (∀ m < s.X.shape.length, ∃ nn on ridge, s.ModeConfig o m nn on ridge ∧ ¬ (nn = true ∧ on = true)) →
      (∀ r < o.rank, s.dec.weights.get [r] = 1) → s.ModeConfig o (s.X.shape.length - 1) nn false (some l) →
      iterM (CP.updateFactors E o) n s = .ok f →
      f.trueSSE o.rank ≤ sumSq f.X - modelSq f.X.shape (fun r => f.dec.weights.get [r]) f.dec.factorMatrices o.rank
  | 0, _, h, _, _, _, _, _ => absurd h (lt_irrefl 0)
  | 1, s, _, h, hcfg, hw, hc, e => by
    rw [iterM, bind_eq_ok] at e
    obtain ⟨s1, e1, e2⟩ := e
    obtain rfl : s1 = f := by simpa [iterM] using e2
    exact updateFactors_short hE hN hr h hcfg hw hl h1 hc e1
  | n + 2, s, _, h, hcfg, hw, hc, e => by
    rw [iterM, bind_eq_ok] at e
    obtain ⟨s1, e1, e2⟩ := e
    obtain ⟨s1', e1', p, hS⟩ := cp_updateModes_total hE hN hr (List.range s.X.shape.length) s h hcfg (by simp)
    rw [CP.updateFactors, e1'] at e1
    obtain rfl := Except.ok.inj e1
    refine iterM_short hE hN hr hl h1 (Nat.succ_pos n) hS (fun m hm => ?_) (by rw [p.weights]; exact hw) ?_ e2
    · rw [p.X] at hm
      obtain ⟨nn, on, ridge, hc, hb⟩ := hcfg m hm
      exact ⟨nn, on, ridge, ⟨by rw [p.nonNeg]; exact hc.nonNeg, by rw [p.orth]; exact hc.orth, hc.ridge⟩, hb⟩
    · rw [p.X]
      exact ⟨by rw [p.nonNeg]; exact hc.nonNeg, by rw [p.orth]; exact hc.orth, hc.ridge⟩

variable {s : P2State} {I R : ℕ} {Js : List ℕ}

/-- An iteration of `Parafac2_ALS` with at least one inner update whose last mode has a penalty and no constraint. -/
theorem p2_iteration_short {E : Ext} (hE : E.SVDOk) (hN : E.NNLSOk) {o : P2Opts} {c : CPObj} {s' : P2State}
    (h : s.Working o I Js c) (hsh : s.Shares c) {l : ℝ} (hl : 0 ≤ l)
    {nn : Bool} (h1 : nn = false ∨ o.rank = 1) (hc : c.st.ModeConfig (P2.innerOpts o) 2 nn false (some l)) (hn : 0 < o.cpUpdates)
    (hs : P2.iteration E o s = .ok s') :
    s'.err I Js o.rank ≤ slicesSq s.X - modelSq [I, o.rank, Js.length] (fun _ => 1) [s'.A, s'.D, s'.C] o.rank := by
  obtain ⟨s'', c', f, e, hw, ha, -, -, hd, hX, -, -, -, -, -, ⟨ef, hf⟩, -, hcon, -⟩ := P2State.iteration_ok hE hN h
  rw [hs] at e
  obtain rfl := Except.ok.inj e
  refine hcon.err_le.trans ?_
  set Xp := p2Projected s.X s'.P I Js o.rank with hXp
  have hsz : ((c.setTarget Xp).read s.heap).Sized o.rank := h.ready.sized h.sized s'.P
  have hcfg : ∀ m < 3, ∃ nn on ridge, ((c.setTarget Xp).read s.heap).ModeConfig (P2.innerOpts o) m nn on ridge ∧
      ¬ (nn = true ∧ on = true) := fun m hm => by
    obtain ⟨nn, on, ridge, hc, hb⟩ := h.ready.config m hm
    exact ⟨nn, on, ridge, ⟨hc.nonNeg, hc.orth, hc.ridge⟩, hb⟩
  have hres := iterM_short hE hN (o := P2.innerOpts o) (show 0 < o.rank from h.sized.posR) hl h1 hn hsz hcfg h.ready.wone
    ⟨hc.nonNeg, hc.orth, hc.ridge⟩ ef
  obtain ⟨f', ef', hsame, hfS⟩ := cp_iter_total hE hN (o := P2.innerOpts o) (show 0 < o.rank from h.sized.posR) o.cpUpdates
    ((c.setTarget Xp).read s.heap) hsz hcfg
  rw [ef] at ef'
  obtain rfl := Except.ok.inj ef'
  have hfX : f.X = Xp := hsame.X
  have hfw : f.dec.weights = c.st.dec.weights := hsame.weights
  have hff : f.dec.factorMatrices = [s'.A, s'.D, s'.C] := by
    rw [← hf, ha, hsh]
    show [s'.heap.mem s.dec.A, s'.heap.mem s.dec.blueprint, s'.heap.mem s.dec.C] = _
    rw [← hd]; rfl
  have hsq := hres
  have hone : ∀ r < o.rank, f.dec.weights.get [r] = 1 := by rw [hfw]; exact h.ready.wone
  have hmod : modelSq f.X.shape (fun r => f.dec.weights.get [r]) f.dec.factorMatrices o.rank =
      modelSq [I, o.rank, Js.length] (fun _ => 1) [s'.A, s'.D, s'.C] o.rank := by
    rw [hff, hfX]
    refine sumIdx_congr fun idx _ => ?_
    rw [cpEntry_congr_weights hone]
  rw [show (P2.innerOpts o).rank = o.rank from rfl, hmod, CPState.trueSSE, hff, hfX] at hsq
  rw [hw.sized.pot_eq _ hone, hX, ← hXp, h.sized.slicesSq]
  have e2 := projected_sumSq s' I Js o.rank
  rw [hX] at e2
  rw [hXp, e2] at hsq
  rw [Finset.sum_sub_distrib, hXp]
  have e3 : ∀ k, s'.Xm I Js k = s.Xm I Js k := fun k => by unfold P2State.Xm; rw [hX]
  simp only [e3] at hsq ⊢
  linarith

/-- **C100** for `Parafac2_ALS`, the part that holds: with ridge penalties of which none is negative,
without orthogonality constraints and with no constraint on `C` (one component: `C` may be
non-negative) and at least one inner update, after a fit with a positive iteration budget the SSE is at most the squared norm of the data minus that
of the inner model, and so `explained_variance` is between 0 and 1, whatever the start (and although the projection matrices need
not be orthonormal, C52). -/
theorem C100_parafac2_ridge_partial {E : Ext} (hE : E.SVDOk) (hN : E.NNLSOk) (hQ : E.QROk) {c : P2.Config} {D : P2Data}
    {arg : InitArg P2Obj} {h0 : Heap} (hi : P2.StartsFrom E c D arg h0 s) (h : s.Sized I Js c.opts.rank) (hs : s.Distinct)
    (hal : s.Allocated) (hnorm : s.XNorm = Real.sqrt (slicesSq s.X)) (hA : P2.Admissible c.opts I Js.length)
    (hon : c.opts.orth = none) {ps : List ℝ} {p : ℝ} (hridge : c.opts.ridgePenalties = some ps)
    (hp : ps[2]? = some p) (hps : ∀ x ∈ ps, 0 ≤ x)
    {nn : Bool} (hnn : (P2.nonNegOption c.opts)[2]? = some nn)
    (h1 : nn = false ∨ c.opts.rank = 1) (hup : 0 < c.opts.cpUpdates)
    (hlog : c.Measurable I Js) (hfreq : freqOption c.freq ≠ 0)
    {budget : Int} {mi : Option Int} (hb : 0 < mi.getD budget) {loggers : List Logger} {file : Option H5File}
    (hS : Storing (P2.method E c) (P2.newObject h0 budget loggers file) []) :
    ∃ w', P2.fit E c D mi arg (P2.newObject h0 budget loggers file) = .ok () w' ∧ w'.st.X = s.X ∧
      P2.sse w'.st = .ok (w'.st.err I Js c.opts.rank) ∧
      w'.st.err I Js c.opts.rank ≤ slicesSq s.X -
        modelSq [I, c.opts.rank, Js.length] (fun _ => 1) [w'.st.A, w'.st.D, w'.st.C] c.opts.rank ∧
      (slicesSq s.X ≠ 0 → ∃ v, P2.explainedVariance w'.st = .ok (.fin v) ∧ 0 ≤ v ∧ v ≤ 1 ∧
        v = 1 - w'.st.err I Js c.opts.rank / slicesSq s.X) := by
  have hof : P2State.orthFlags c.opts = [false, false, false] := by rw [P2State.orthFlags, hon]; rfl
  have hno : ∀ j : ℕ, ([false, false, false] : List Bool)[j]? ≠ some true := by
    intro j
    match j with
    | 0 => simp
    | 1 => simp
    | 2 => simp
    | _ + 3 => simp
  obtain ⟨l, sp, w', k, el, ep, -, hfit, -, hit, hst, -, hstop, -, hsse, hX, -⟩ := C80_fit_completes hE hN hQ hi h hs hal hA hlog hfreq
    (mi := mi) hS
  obtain ⟨h', ci, ep', hw, -, -, hn1, ho1, -, -, hsh, -⟩ := P2State.prepareCp_ok (E := E) hQ (o := c.opts) (h.withLoss .pinf l)
    (hs.loss .pinf l) hA (fun _ => hal)
  rw [ep] at ep'
  obtain rfl : sp = (s.withLoss .pinf l).withInner h' ci := by injection ep'
  rw [hof] at hsh ho1
  obtain ⟨rfl, h3⟩ := hsh hno
  have hk : k ≠ 0 := by
    rintro rfl
    have := hstop (by exact_mod_cast hb)
    rw [hst] at this
    cases this
  obtain ⟨j, rfl⟩ : ∃ j, k = j + 1 := ⟨k - 1, by omega⟩
  obtain ⟨c1, hw1, ha, hn2, ho2, hd, hXj, -⟩ := p2_orbit_working hE hN hw j
  have hsh1 : (P2.orbit E c.opts ((s.withLoss .pinf l).withInner (s.withLoss .pinf l).heap ci) j).Shares c1 := by
    unfold P2State.Shares
    rw [ha, hd]; exact h3
  have hmain := p2_iteration_short hE hN hw1 hsh1 (hps p (List.mem_of_getElem? hp)) h1
    ⟨⟨_, hn2.trans hn1, hnn⟩, ⟨_, ho2.trans ho1, rfl⟩, Or.inr ⟨ps, p, hridge, hp, rfl⟩⟩ hup (p2_orbit_step hE hN hw j)
  rw [← hst, hXj, show ((s.withLoss .pinf l).withInner (s.withLoss .pinf l).heap ci).X = s.X from rfl] at hmain
  refine ⟨w', hfit, hX, hsse, hmain, fun h0 => ?_⟩
  have hpos0 : 0 ≤ slicesSq s.X := by
    rw [h.slicesSq]
    exact Finset.sum_nonneg fun k _ => LA.fsq_nonneg _
  have hpos : 0 < slicesSq s.X := lt_of_le_of_ne hpos0 (Ne.symm h0)
  have hN2 : w'.st.XNorm ^ 2 = slicesSq s.X := by
    rw [hst, p2_orbit_XNorm hE hN hw]
    show s.XNorm ^ 2 = _
    rw [hnorm, Real.sq_sqrt hpos0]
  have herr : 0 ≤ w'.st.err I Js c.opts.rank := by
    rw [P2State.err_eq]
    exact Finset.sum_nonneg fun k _ => LA.fsq_nonneg _
  have hm0 : 0 ≤ modelSq [I, c.opts.rank, Js.length] (fun _ => 1) [w'.st.A, w'.st.D, w'.st.C] c.opts.rank :=
    sumIdx_nonneg fun _ _ => sq_nonneg _
  refine ⟨_, ?_, ?_, ?_, rfl⟩
  · rw [P2.explainedVariance, hsse, bind_ok, hN2, FV.div, if_pos h0]; rfl
  · rw [sub_nonneg, div_le_one hpos]; linarith
  · rw [sub_le_self_iff]; exact div_nonneg herr hpos.le

/-- Options of `Parafac2_ALS` with ridge penalties and no constraints. -/
def p2Ridged (R n : ℕ) (g : List ℕ → ℝ) (ps : List ℝ) : P2Opts := { p2Plain R n g with ridgePenalties := some ps }

theorem p2Ridged_admissible {n : ℕ} {g : List ℕ → ℝ} {ps : List ℝ} (hR : 0 < R) {K : ℕ} (hI : 0 < I) (hK : 0 < K) (hps : ps.length = 3) :
    P2.Admissible (p2Ridged R n g ps) I K where
  rank := hR
  order := by simp
  nonempty := by simp [p2Ridged, p2Plain]; omega
  nonNegLen := by simp [P2.nonNegOption, p2Ridged, p2Plain]
  orthLen := by simp [p2Ridged, p2Plain]
  ridgeLen := by simp [P2.innerOpts, p2Ridged, hps]
  orthRows := by simp [p2Ridged, p2Plain]
  notBoth := by simp [p2Ridged, p2Plain]

/-- **C100** for `Parafac2_ALS` with `init="random"` and ridge penalties. -/
theorem C100_parafac2_ridge_random {E : Ext} (hE : E.SVDOk) (hN : E.NNLSOk) (hQ : E.QROk) {c : P2.Config}
    (hi : c.init.toLower = "random") {n : ℕ} {g : List ℕ → ℝ} {p q r : ℝ}
    (hp0 : 0 ≤ p) (hq0 : 0 ≤ q) (hr0 : 0 ≤ r) (ho : c.opts = p2Ridged R (n + 1) g [p, q, r]) (hlog : c.logs = [])
    (hfreq : c.freq = none) {Xs : List (NDArray ℝ)} (hI : 0 < I) (hX : List.Forall₂ (fun Xk J => Xk.shape = [I, J]) Xs Js)
    (hK : 0 < Js.length) (hR : 0 < R) (hJ : ∀ J ∈ Js, R ≤ J) (h0 : Heap) (budget : Int) (mi : Option Int)
    (hb : 0 < mi.getD budget) (loggers : List Logger) (file : Option H5File) (hne : slicesSq Xs ≠ 0) :
    ∃ w' v, P2.fit E c (.list Xs) mi .none (P2.newObject h0 budget loggers file) = .ok () w' ∧
      P2.explainedVariance w'.st = .ok (.fin v) ∧ 0 ≤ v ∧ v ≤ 1 ∧
        v = 1 - p2Err Xs w'.st.P w'.st.A w'.st.D w'.st.C I Js R / slicesSq Xs := by
  have hr : c.opts.rank = R := by rw [ho]; rfl
  have e0 := p2_setTarget_list hX hK (P2.fresh h0)
  set s0 : P2State := { P2.fresh h0 with
      X := Xs
      XShape := (I, Js, Js.length)
      XNorm := Real.sqrt ((Xs.map fun Xk => frobNorm Xk ^ 2).sum) } with hs0
  have hJ' : ∀ J ∈ Js, c.opts.rank ≤ J := by rw [hr]; exact hJ
  have hR' : 0 < c.opts.rank := by rw [hr]; exact hR
  have hd : s0.Data I Js := ⟨hI, fun J hJ2 => hR'.trans_le (hJ' J hJ2), hK, hX, rfl⟩
  obtain ⟨t, e, h1, h2, h3, h4, h5⟩ := P2State.initRandom_ok hQ hd hR' hJ'
  obtain ⟨g1, g2, g3, g4, -⟩ := P2State.setNew_spec hd hR' h1 h2 h3 h4
  have hstart : P2.StartsFrom E c (.list Xs) .none h0 (P2.setNew t s0) := by
    refine ⟨s0, e0, fun budget loggers file => ?_⟩
    unfold P2.initComponents
    simp only [hi]
    exact modifySt_ok (w := ⟨s0, 0, budget, loggers, file⟩) e
  have hnorm : (P2.setNew t s0).XNorm = Real.sqrt (slicesSq (P2.setNew t s0).X) := by
    show Real.sqrt ((Xs.map fun Xk => frobNorm Xk ^ 2).sum) = Real.sqrt (slicesSq Xs)
    congr 2
    exact List.map_congr_left fun Xk _ => frobNorm_sq Xk
  obtain ⟨w', q1, q2, q3, -, q4⟩ := C100_parafac2_ridge_partial hE hN hQ hstart g1 g2.distinct g3 hnorm
    (by rw [ho]; exact p2Ridged_admissible hR hI hK rfl) (by rw [ho]; rfl) (ps := [p, q, r]) (by rw [ho]; rfl) rfl (by simp [hp0, hq0, hr0]) (nn := false) (by rw [ho]; rfl) (Or.inl rfl)
    (by rw [ho]; exact Nat.succ_pos n) (by intro p hp; rw [hlog] at hp; cases hp) (by rw [hfreq]; decide) (budget := budget)
    (mi := mi) hb (loggers := loggers) (file := file) (p2_storing_none hfreq _ _)
  obtain ⟨v, v1, v2, v3, v4⟩ := q4 hne
  refine ⟨w', v, q1, v1, v2, v3, ?_⟩
  rw [v4, P2State.err, q2, hr]; rfl

/-- The hypotheses are met by two slices with 2 and 3 columns and penalties on all modes. -/
example {E : Ext} (hE : E.SVDOk) (hN : E.NNLSOk) (hQ : E.QROk) {c : P2.Config} (hi : c.init.toLower = "random")
    (ho : c.opts = p2Ridged 2 5 (fun _ => 1) [3, 1, 2]) (hlog : c.logs = []) (hfreq : c.freq = none) :
    ∃ w' v, P2.fit E c (.list [full [2, 2] 1, full [2, 3] 5]) (some 10) .none (P2.newObject ⟨fun _ => full [] 0, 0⟩ 10 [] none) = .ok () w' ∧
      P2.explainedVariance w'.st = .ok (.fin v) ∧ 0 ≤ v ∧ v ≤ 1 := by
  have hne : slicesSq [full [2, 2] 1, full [2, 3] 5] ≠ 0 := by
    have h1 : ∀ (l : List ℕ) (x : ℝ), sumSq (full l x) = sumIdx l fun _ => x ^ 2 := fun l x =>
      sumIdx_congr fun idx hi => by rw [get_full (s := l) hi]
    simp only [slicesSq, List.map_cons, List.map_nil, h1, sumIdx, List.sum_cons, List.sum_nil, Finset.sum_const, Finset.card_range]
    norm_num
  obtain ⟨w', v, h1, h2, h3, h4, -⟩ := C100_parafac2_ridge_random (I := 2) (Js := [2, 3]) hE hN hQ hi (by norm_num) (by norm_num) (by norm_num) ho hlog hfreq
    (by norm_num) (.cons rfl (.cons rfl .nil)) (by simp) (by norm_num) (by simp) ⟨fun _ => full [] 0, 0⟩ 10 (some 10) (by decide) [] none hne
  exact ⟨w', v, h1, h2, h3, h4⟩

end
end TK
