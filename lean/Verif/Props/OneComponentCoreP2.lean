import Verif.Props.OneComponentCore
import Verif.Props.CoreP2
import Verif.Props.P2Bound

/-!
# C165: the core consistency of PARAFAC2 fits with one component

Source: parafac2.py (`Parafac2_ALS._fit`), metrics.py (`core_consistency_parafac2`). As for `CP_ALS`, the core consistency of a fit with one
component is 100 up to the guard of the normalisation, whatever the slices are.
-/

namespace TK
open NDArray Fit
open EStateM (Result)

noncomputable section

variable {s : P2State} {I : ℕ} {Js : List ℕ}

/-- After an iteration with at least one inner update whose last mode is free, the residual of the projected data is orthogonal to the inner model. -/
theorem p2_iteration_orthogonal {E : Ext} (hE : E.SVDOk) (hN : E.NNLSOk) {o : P2Opts} {c : CPObj} {s' : P2State}
    (h : s.Working o I Js c) (hsh : s.Shares c) (hc : c.st.ModeConfig (P2.innerOpts o) 2 false false none) (hn : 0 < o.cpUpdates)
    (hs : P2.iteration E o s = .ok s') :
    s'.Sized I Js o.rank ∧ s'.X = s.X ∧
      ResidualOrthogonal (p2Projected s.X s'.P I Js o.rank) (fun _ => 1) [s'.A, s'.D, s'.C] o.rank 2 := by
  obtain ⟨s'', c', f, e, hw, ha, -, -, hd, hX, -, -, -, -, -, ⟨ef, hf⟩, -, hcon, -⟩ := P2State.iteration_ok hE hN h
  rw [hs] at e
  obtain rfl := Except.ok.inj e
  set Xp := p2Projected s.X s'.P I Js o.rank with hXp
  have hsz : ((c.setTarget Xp).read s.heap).Sized o.rank := h.ready.sized h.sized s'.P
  have hcfg : ∀ m < 3, ∃ nn on ridge, ((c.setTarget Xp).read s.heap).ModeConfig (P2.innerOpts o) m nn on ridge ∧
      ¬ (nn = true ∧ on = true) := fun m hm => by
    obtain ⟨nn, on, ridge, hc, hb⟩ := h.ready.config m hm
    exact ⟨nn, on, ridge, ⟨hc.nonNeg, hc.orth, hc.ridge⟩, hb⟩
  have hres := iterM_orthogonal hE hN (o := P2.innerOpts o) (show 0 < o.rank from h.sized.posR) hn hsz hcfg h.ready.wone
    ⟨hc.nonNeg, hc.orth, hc.ridge⟩ ef
  obtain ⟨f', ef', hsame, hfS⟩ := cp_iter_total hE hN (o := P2.innerOpts o) (show 0 < o.rank from h.sized.posR) o.cpUpdates
    ((c.setTarget Xp).read s.heap) hsz hcfg
  rw [ef] at ef'
  obtain rfl := Except.ok.inj ef'
  have hfX : f.X = Xp := hsame.X
  have hfw : f.dec.weights = c.st.dec.weights := hsame.weights
  have hff : f.dec.factorMatrices = [s'.A, s'.D, s'.C] := by
    rw [← hf, ha, hsh]
    show [s'.heap.mem s.dec.A, s'.heap.mem s.dec.blueprint, s'.heap.mem s.dec.C] = _
    rw [← hd]; rfl
  have hone : ∀ r < o.rank, f.dec.weights.get [r] = 1 := by rw [hfw]; exact h.ready.wone
  refine ⟨hw.sized, hX, fun Y => ?_⟩
  have h0 := hres Y
  rw [hff, hfX, show Xp.shape.length - 1 = 2 from rfl] at h0
  rw [← h0]
  refine sumIdx_congr fun idx _ => ?_
  rw [show (P2.innerOpts o).rank = o.rank from rfl, cpEntry_congr_weights hone, cpEntry_congr_weights hone]

/-- **C165** for `Parafac2_ALS`: one component, no penalties and orthonormality constraints, no constraint on `C`, at least one inner update and a
positive budget. If the fitted `A`, blueprint matrix and `C` are not zero, `core_consistency_parafac2` of the fitted decomposition is
`100 (1 - (1/ρ - 1)²)` with the guard `ρ`; the slices and the start do not matter. -/
theorem C165_parafac2 {E : Ext} (hE : E.SVDOk) (hN : E.NNLSOk) (hQ : E.QROk) {c : P2.Config} (hR : c.opts.rank = 1) {D : P2Data}
    {arg : InitArg P2Obj} {h0 : Heap} (hi : P2.StartsFrom E c D arg h0 s) (h : s.Sized I Js c.opts.rank) (hs : s.Distinct)
    (hal : s.Allocated) (hA : P2.Admissible c.opts I Js.length)
    (hon : c.opts.orth = none) (hridge : c.opts.ridgePenalties = none)
    (hnn : (P2.nonNegOption c.opts)[2]? = some false) (hup : 0 < c.opts.cpUpdates)
    (hlog : c.Measurable I Js) (hfreq : freqOption c.freq ≠ 0)
    {budget : Int} {mi : Option Int} (hb : 0 < mi.getD budget) {loggers : List Logger} {file : Option H5File}
    (hS : Storing (P2.method E c) (P2.newObject h0 budget loggers file) []) :
    ∃ w, P2.fit E c D mi arg (P2.newObject h0 budget loggers file) = .ok () w ∧ w.st.X = s.X ∧
      ((∃ i < I, w.st.A.get [i, 0] ≠ 0) → w.st.D.get [0, 0] ≠ 0 → (∃ k < Js.length, w.st.C.get [k, 0] ≠ 0) →
      ∀ {E' : Ext}, E'.QROk → ∀ {eps : ℝ}, 0 < eps → ∀ garbage : List ℕ → ℝ,
        coreConsistencyParafac2 E' garbage w.st.X w.st.P w.st.A w.st.D w.st.C eps =
          .ok (.fin (100 * (1 - (1 / guard eps [w.st.A, w.st.D, w.st.C] [I, 1, Js.length] 0 - 1) ^ 2)))) := by
  have hof : P2State.orthFlags c.opts = [false, false, false] := by rw [P2State.orthFlags, hon]; rfl
  have hno : ∀ j : ℕ, ([false, false, false] : List Bool)[j]? ≠ some true := by
    intro j
    match j with
    | 0 => simp
    | 1 => simp
    | 2 => simp
    | _ + 3 => simp
  obtain ⟨l, sp, w, k, el, ep, -, hfit, -, hit, hst, -, hstop, -, hsse, hX, -⟩ := C80_fit_completes hE hN hQ hi h hs hal hA hlog hfreq
    (mi := mi) hS
  obtain ⟨h', ci, ep', hw, -, -, hn1, ho1, -, -, hsh, -⟩ := P2State.prepareCp_ok (E := E) hQ (o := c.opts) (h.withLoss .pinf l)
    (hs.loss .pinf l) hA (fun _ => hal)
  rw [ep] at ep'
  obtain rfl : sp = (s.withLoss .pinf l).withInner h' ci := by injection ep'
  rw [hof] at hsh ho1
  obtain ⟨rfl, h3⟩ := hsh hno
  have hk : k ≠ 0 := by
    rintro rfl
    have := hstop (by exact_mod_cast hb)
    rw [hst] at this
    cases this
  obtain ⟨j, rfl⟩ : ∃ j, k = j + 1 := ⟨k - 1, by omega⟩
  obtain ⟨c1, hw1, ha, hn2, ho2, hd, hXj, -⟩ := p2_orbit_working hE hN hw j
  have hsh1 : (P2.orbit E c.opts ((s.withLoss .pinf l).withInner (s.withLoss .pinf l).heap ci) j).Shares c1 := by
    unfold P2State.Shares
    rw [ha, hd]; exact h3
  obtain ⟨hsz, hXX, hres⟩ := p2_iteration_orthogonal hE hN hw1 hsh1
    ⟨⟨_, hn2.trans hn1, hnn⟩, ⟨_, ho2.trans ho1, rfl⟩, Or.inl ⟨hridge, rfl⟩⟩ hup (p2_orbit_step hE hN hw j)
  rw [← hst] at hsz hXX hres
  rw [← hXX, hR] at hres
  rw [hR] at hsz
  refine ⟨w, hfit, hX, fun ⟨i, hi, nA⟩ nD ⟨k, hk, nC⟩ E' hE' eps he garbage => ?_⟩
  rw [C84_projected hsz.X hsz.P hsz.A hsz.D hsz.C garbage eps]
  refine core_of_orthogonal hE' he (shape_ofFn _ _) hsz.A hsz.D hsz.C (indep_one hi nA) (indep_one Nat.one_pos nD) (indep_one hk nC) ?_
  have h4 := hres w.st.C
  rw [show (p2Projected w.st.X w.st.P I Js 1).shape = [I, 1, Js.length] from rfl, sumIdx_three] at h4
  simp only [List.set_cons_succ, List.set_cons_zero, cpEntry, Finset.sum_range_one, rankOne, one_mul, mul_one, ← mul_assoc] at h4
  rw [← h4]
  refine Finset.sum_congr rfl fun i _ => ?_
  rw [Finset.sum_range_one]
  exact Finset.sum_congr rfl fun k _ => by ring

/-- A case of the hypotheses of `C165_parafac2`: the slices `(1, 0)` and `(1, 1)` with two rows and one column, which one component cannot explain; ten
iterations. -/
example {E : Ext} (hE : E.SVDOk) (hN : E.NNLSOk) (hQ : E.QROk) {c : P2.Config} (hi : c.init.toLower = "precomputed")
    {g : List ℕ → ℝ} {n : ℕ} (ho : c.opts = p2Plain 1 (n + 1) g) (hlog : c.logs = []) (hfreq : c.freq = none) (garbage : List ℕ → ℝ) :
    ∃ h0 d w, P2.fit E c (.list [ofMat 2 1 fun i _ => if i = 0 then 1 else 0, ofMat 2 1 fun _ _ => 1]) (some 10) (.tensor d)
      (P2.newObject h0 10 [] none) = .ok () w ∧
      coreConsistencyParafac2 E garbage w.st.X w.st.P w.st.A w.st.D w.st.C 1e-15 =
        .ok (.fin (100 * (1 - (1 / guard 1e-15 [w.st.A, w.st.D, w.st.C] [2, 1, 2] 0 - 1) ^ 2))) := by
  have hr : c.opts.rank = 1 := by rw [ho]; rfl
  set X : List (NDArray ℝ) := [ofMat 2 1 fun i _ => if i = 0 then 1 else 0, ofMat 2 1 fun _ _ => 1] with hXd
  set h0 : Heap := ⟨fun a => if a = 0 then ofMat 2 1 fun i _ => if i = 0 then 1 else 0 else if a = 2 then ofMat 2 1 fun _ _ => 1
    else ofMat 1 1 fun _ _ => 1, 5⟩ with hh0
  set d : P2Obj := ⟨1, 0, 1, 2, [3, 4], true, true, [(2, 1), (2, 1)], 2⟩ with hd
  obtain ⟨s, h1, h2, h3, h4, h5⟩ := p2_startsFrom_precomputed (E := E) (c := c) hi (I := 2) (Js := [1, 1]) (Xs := X) (by norm_num)
    (.cons rfl (.cons rfl .nil)) (by simp) (by omega) (by simp) (h0 := h0) (d := d) (by rw [hr]; rfl) (by rw [hr]; rfl)
    (by rw [hr]; rfl) (by rw [hr]; exact .cons rfl (.cons rfl .nil))
  have hsep : s.Separate := by rw [P2State.Separate, h3]; simp [hd]
  have hal : s.Allocated := by rw [P2State.Allocated, h3, h4]; simp [hd, hh0]
  have sA : s.A = ofMat 2 1 fun i _ => if i = 0 then 1 else 0 := by rw [P2State.A, h3, h4]; rfl
  have sD : s.D = ofMat 1 1 fun _ _ => 1 := by rw [P2State.D, h3, h4]; rfl
  have sC : s.C = ofMat 2 1 fun _ _ => 1 := by rw [P2State.C, h3, h4]; rfl
  have sP : s.P = [ofMat 1 1 fun _ _ => 1, ofMat 1 1 fun _ _ => 1] := by rw [P2State.P, h3, h4]; rfl
  have hort : s.Orthonormal [1, 1] c.opts.rank := by
    rw [hr, P2State.Orthonormal, sP]
    intro k hk i hi j hj
    obtain rfl : i = 0 := by omega
    obtain rfl : j = 0 := by omega
    have hk : k < 2 := hk
    interval_cases k
    · show ∑ l ∈ Finset.range 1, _ = _
      simp [nth, get_ofMat]
    · show ∑ l ∈ Finset.range 1, _ = _
      simp [nth, get_ofMat]
  have hA : P2.Admissible c.opts 2 ([1, 1] : List ℕ).length := by rw [ho]; exact p2Plain_admissible (by omega) (by omega) (by decide)
  have hm : c.Measurable 2 [1, 1] := fun p hp => by rw [hlog] at hp; cases hp
  have hfr : freqOption c.freq ≠ 0 := by rw [hfreq]; decide
  obtain ⟨w, e1, e2, e3⟩ := C165_parafac2 hE hN hQ hr h1 h2 hsep.distinct hal hA (by rw [ho]; rfl) (by rw [ho]; rfl) (by rw [ho]; rfl)
    (by rw [ho]; exact Nat.succ_pos n) hm hfr (budget := 10) (mi := some 10) (loggers := []) (file := none) (by decide) (p2_storing_none hfreq _ _)
  obtain ⟨w', k, f1, f2, -, f3⟩ := C144_fit hE hN hQ h1 h2 hsep hal hort (by rw [ho]; exact Nat.succ_pos n)
    (by rw [ho]; rfl) (by rw [ho]; rfl) (by rw [ho]; rfl) hm hfr
    (N := 1) (by simp) (budget := 10) (mi := some 10) (loggers := []) (file := none) (p2_storing_none hfreq _ _)
  rw [e1] at f1
  obtain rfl : w = w' := by injection f1
  obtain ⟨-, -, w', k', -, -, -, g1, g2, g3, -⟩ := C80_fit_completes hE hN hQ h1 h2 hsep.distinct hal hA hm hfr
    (budget := 10) (mi := some 10) (loggers := []) (file := none) (p2_storing_none hfreq _ _)
  rw [e1] at g1
  obtain rfl : w = w' := by injection g1
  have hk : k ≤ 10 := by
    have : (k' : Int) ≤ 10 := g2
    omega
  have herr0 : p2Err s.X s.P s.A s.D s.C 2 [1, 1] 1 = 1 := by
    rw [h5, sA, sD, sC, sP]
    simp [p2Err, p2Entry, hXd, nth, Finset.sum_range_succ, get_ofMat]
  have hdat : p2DataSq s.X 2 [1, 1] = 3 := by
    rw [h5]
    simp [p2DataSq, hXd, nth, Finset.sum_range_succ, get_ofMat]
    norm_num
  rw [hr, herr0, hdat] at f3
  have hlt : p2Err s.X w.st.P w.st.A w.st.D w.st.C 2 [1, 1] 1 < 3 := by
    have : (k : ℝ) ≤ 10 := by exact_mod_cast hk
    refine lt_of_le_of_lt f3 ?_
    norm_num
    nlinarith
  have hzero : (∀ k < 2, ∀ i < 2, w.st.A.get [i, 0] * w.st.D.get [0, 0] * w.st.C.get [k, 0] = 0) → False := by
    intro hz
    have e : p2Err s.X w.st.P w.st.A w.st.D w.st.C 2 [1, 1] 1 = 3 := by
      rw [← hdat]
      refine Finset.sum_congr rfl fun k hk => Finset.sum_congr rfl fun i hi => Finset.sum_congr rfl fun j _ => ?_
      have hz := hz k (Finset.mem_range.1 hk) i (Finset.mem_range.1 hi)
      have : p2Entry w.st.A w.st.D w.st.C (nth w.st.P k) 1 k i j = 0 := by
        rw [p2Entry, Finset.sum_range_one, Finset.sum_range_one]
        linear_combination (nth w.st.P k).get [j, 0] * hz
      rw [this, sub_zero]
    linarith
  refine ⟨h0, d, w, e1, e3 ?_ ?_ ?_ hQ (by norm_num) garbage⟩
  · by_contra hn
    push Not at hn
    exact hzero fun k hk i hi => by rw [hn i hi]; ring
  · intro hn
    exact hzero fun k hk i hi => by rw [hn]; ring
  · by_contra hn
    push Not at hn
    exact hzero fun k hk i hi => by rw [hn k hk]; ring

end

end TK
