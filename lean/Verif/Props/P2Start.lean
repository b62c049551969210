import Verif.Props.P2Units

/-!
# C116: the unit of the data and the initial projection matrices, for Parafac2 fits from the same factor matrices

Source: parafac2.py:393-470.

The first iteration replaces the projection matrices, using `A`, the blueprint matrix, `C` and the data, and then `A`, using the others.
So neither the initial projection matrices nor a positive constant in the data matter for what follows, except for the constant in `A`.
-/

namespace TK
open NDArray Matrix

noncomputable section

/-- At least one round of updates, from states whose factor matrices correspond except for those of the first mode. -/
theorem iterM_moved_rest {E : Ext} (hE : E.SVDOk) (hN : E.NNLSOk) {o : CPOpts} (hr : 0 < o.rank) (hridge : o.ridgePenalties = none)
    {perm : Equiv.Perm ℕ} {ss : List ModeChange} {a : ℝ} {n : ℕ} {s s' t t' : CPState} (h : s.Sized o.rank) (h' : s'.Sized o.rank)
    (hU : s.Unconstrained) (hU' : s'.Unconstrained) (hC : Change o.rank perm s.X.shape ss a) (hT : TensorMoved ss a s.X s'.X)
    (hM : FactorsMoved o.rank perm (ss.eraseIdx 0) (s.X.shape.eraseIdx 0) (s.dec.factorMatrices.eraseIdx 0)
      (s'.dec.factorMatrices.eraseIdx 0))
    (e : iterM (CP.updateFactors E o) (n + 1) s = .ok t) (e' : iterM (CP.updateFactors E o) (n + 1) s' = .ok t') :
    t.X = s.X ∧ t.Moved o.rank perm ss a t' := by
  have cfg : ∀ {z : CPState}, z.Unconstrained → ∀ m < z.X.shape.length, ∃ nn on ridge, z.ModeConfig o m nn on ridge ∧
      ¬ (nn = true ∧ on = true) := by
    intro z hz m hm
    obtain ⟨l1, a1, b1⟩ := hz.nonNeg
    obtain ⟨l2, a2, b2⟩ := hz.orth
    exact ⟨false, false, none, ⟨⟨l1, a1, b1 m hm⟩, ⟨l2, a2, b2 m hm⟩, Or.inl ⟨hridge, rfl⟩⟩, by simp⟩
  have keep : ∀ {z y : CPState}, z.SameProblem y → z.Unconstrained → y.Unconstrained := by
    intro z y hzy hz
    refine ⟨?_, ?_⟩
    · rw [hzy.X, hzy.nonNeg]; exact hz.nonNeg
    · rw [hzy.X, hzy.orth]; exact hz.orth
  obtain ⟨s1, e1, p1, z1⟩ := cp_updateModes_total hE hN hr (List.range s.X.shape.length) s h (cfg hU) (by simp)
  obtain ⟨s1', e1', p1', z1'⟩ := cp_updateModes_total hE hN hr (List.range s'.X.shape.length) s' h' (cfg hU') (by simp)
  unfold iterM CP.updateFactors at e e'
  rw [e1, bind_ok] at e
  rw [e1', bind_ok] at e'
  have hl : 0 < s.X.shape.length := by have := h.order; omega
  obtain ⟨F, F', hF, hF', u, u', hM1⟩ := update_moved hE hE hr hridge h h' hU hU' hC hT hl hM
  have hmoved : s1.Moved o.rank perm ss a s1' := by
    obtain ⟨k, hk⟩ : ∃ k, s.X.shape.length = k + 1 := ⟨s.X.shape.length - 1, by omega⟩
    rw [hk, List.range_succ_eq_map, CP.updateModes, List.foldlM_cons, u, bind_ok] at e1
    rw [hT.shape, hk, List.range_succ_eq_map, CP.updateModes, List.foldlM_cons, u', bind_ok] at e1'
    exact updates_moved hE hE hr hridge ((List.range k).map Nat.succ) (s := s.updated 0 o.rank F)
      (s' := s'.updated 0 o.rank F') (h.updated hF) (h'.updated hF')
      ⟨hU.nonNeg, hU.orth⟩ ⟨hU'.nonNeg, hU'.orth⟩ hC hM1
      (fun m hm => by
        show m < s.X.shape.length
        simp only [List.mem_map, List.mem_range] at hm
        omega) e1 e1'
  obtain ⟨q1, q2⟩ := iterM_moved hE hN hr hridge n z1 z1' (keep p1 hU) (keep p1' hU') (by rw [p1.X]; exact hC) hmoved e e'
  exact ⟨by rw [q1, p1.X], q2⟩

namespace P2State

variable {s t : P2State} {I R : ℕ} {Js : List ℕ} {a : ℝ}

theorem addrs_eq {ci : CPObj} {x y z : Addr} (hl : ci.addrs.length = 3)
    (hk : ∀ j : ℕ, [false, false, false][j]? = some false → ci.addrs[j]? = [x, y, z][j]?) : ci.addrs = [x, y, z] := by
  refine List.ext_getElem? fun j => ?_
  by_cases hj : j < 3
  · exact hk j (three_false j hj)
  · rw [List.getElem?_eq_none (by omega), List.getElem?_eq_none (by simp; omega)]

/-- The coefficients of the three modes: the constant goes to `A`. -/
def toA (a : ℝ) (k _r : ℕ) : ℝ := if k = 0 then a else 1

theorem unit_toA (ha : 0 < a) : UnitChange (Equiv.refl ℕ) (Equiv.refl ℕ) (Equiv.refl ℕ) (toA a) a I Js Js R := by
  refine ⟨rfl, fun _ => Iff.rfl, fun _ => Iff.rfl, fun _ => Iff.rfl, fun _ _ => rfl, fun k _ => ⟨toA a k 0 ^ 2, ?_, fun _ _ => rfl⟩,
    fun _ _ => by simp [toA]⟩
  unfold toA
  split <;> positivity

/-- The first iteration. -/
theorem scaled_first {E : Ext} (hE : E.SVDOk) (hN : E.NNLSOk) {o : P2Opts} (hridge : o.ridgePenalties = none) (hcp : 0 < o.cpUpdates)
    (ha : 0 < a) {c d : CPObj} (hw : s.Working o I Js c) (hw' : t.Working o I Js d) (hnd : s.dec.P.Nodup) (hnd' : t.dec.P.Nodup)
    (eA : t.A = s.A) (eD : t.D = s.D) (eC : t.C = s.C)
    (eX : ∀ k < Js.length, ∀ i < I, ∀ j < Js.getD k 0, (nth t.X k).get [i, j] = a * (nth s.X k).get [i, j])
    (addrL : c.addrs = [s.dec.A, s.dec.blueprint, s.dec.C]) (addrR : d.addrs = [t.dec.A, t.dec.blueprint, t.dec.C])
    (nonNegL : c.st.nonNeg = some [false, false, false]) (nonNegR : d.st.nonNeg = some [false, false, false])
    (orthL : c.st.orth = some [false, false, false]) (orthR : d.st.orth = some [false, false, false]) :
    ∃ s' t' c' d', P2.iteration E o s = .ok s' ∧ P2.iteration E o t = .ok t' ∧
      s'.Working o I Js c' ∧ t'.Working o I Js d' ∧
      Changed (Equiv.refl ℕ) (Equiv.refl ℕ) (Equiv.refl ℕ) (toA a) a I Js o.rank s' t' ∧
      s'.prevLoss = s'.err I Js o.rank ∧ t'.prevLoss = a ^ 2 * s'.prevLoss ∧ s'.dec = s.dec ∧ t'.dec = t.dec ∧
      c'.addrs = c.addrs ∧ d'.addrs = d.addrs ∧ c'.st.nonNeg = c.st.nonNeg ∧ d'.st.nonNeg = d.st.nonNeg ∧ c'.st.orth = c.st.orth ∧
      d'.st.orth = d.st.orth := by
  obtain ⟨s', c', f, e, hv, had, hnn, hon, hd, hX, -, -, hl, hrc, hP, ⟨ef, hf⟩, -, -⟩ := iteration_ok hE hN hw
  obtain ⟨t', d', g, e', hv', had', hnn', hon', hd', hX', -, -, hl', hrc', hP', ⟨eg, hg⟩, -, -⟩ := iteration_ok hE hN hw'
  have u : UnitChange (Equiv.refl ℕ) (Equiv.refl ℕ) (Equiv.refl ℕ) (toA a) a I Js Js o.rank := unit_toA ha
  have hXm : ∀ k < Js.length, ∀ i < I, ∀ j < Js.getD k 0, (nth t'.X k).get [i, j] = a * (nth s'.X k).get [i, j] := by
    rw [hX, hX']; exact eX
  have hYm : ∀ k < Js.length, MatMoved (Equiv.refl ℕ) (Js.getD k 0) o.rank (nth s'.P k) (nth t'.P k) := by
    intro k hk
    obtain ⟨k1, l1, n1⟩ := hP k hk
    obtain ⟨k2, l2, n2⟩ := hP' k hk
    rw [l1.eq_of_nodup hnd hw.sized.lenP hk] at n1
    rw [l2.eq_of_nodup hnd' hw'.sized.lenP hk] at n2
    obtain ⟨-, Y, f1, f2⟩ := n1
    obtain ⟨-, Y', f1', f2'⟩ := n2
    rw [eA, eD, eC] at f1'
    have := orthogonalSolve_units hE (A := p2Score s.A s.D s.C I o.rank k) (A' := p2Score s.A s.D s.C I o.rank k) (shape_ofMat I o.rank _)
      (shape_nth hw.sized.X hk) (shape_ofMat I o.rank _) (shape_nth hw'.sized.X hk) hw.sized.posR (hw.sized.posJk hk)
      (α := Equiv.refl ℕ) (fun _ => Iff.rfl) (x := 1) (y := a) (by rw [one_mul]; exact ha) (fun _ _ _ _ => (one_mul _).symm) (eX k hk)
    rw [f1, f1'] at this
    rw [f2, f2', Except.ok.inj this]
    exact fun _ _ _ _ => rfl
  have hT := projected_changed u eX hYm
  obtain ⟨n, hn⟩ : ∃ n, o.cpUpdates = n + 1 := ⟨o.cpUpdates - 1, by omega⟩
  rw [hn] at ef eg
  have hM : FactorsMoved o.rank (Equiv.refl ℕ) ((p2Changes (Equiv.refl ℕ) (Equiv.refl ℕ) (toA a)).eraseIdx 0)
      ([I, o.rank, Js.length].eraseIdx 0)
      (((c.setTarget (p2Projected s.X s'.P I Js o.rank)).read s.heap).dec.factorMatrices.eraseIdx 0)
      (((d.setTarget (p2Projected t.X t'.P I Js o.rank)).read t.heap).dec.factorMatrices.eraseIdx 0) := by
    show FactorsMoved o.rank (Equiv.refl ℕ) [⟨Equiv.refl ℕ, toA a 1⟩, ⟨Equiv.refl ℕ, toA a 2⟩] [o.rank, Js.length]
      ((c.addrs.map s.heap.mem).eraseIdx 0) ((d.addrs.map t.heap.mem).eraseIdx 0)
    rw [addrL, addrR]
    show FactorsMoved o.rank (Equiv.refl ℕ) _ _ [s.D, s.C] [t.D, t.C]
    refine .cons hw.sized.D hw'.sized.D (fun i _ r _ => ?_) (.cons hw.sized.C hw'.sized.C (fun i _ r _ => ?_) .nil)
    · rw [eD]; simp [toA]
    · rw [eC]; simp [toA]
  obtain ⟨hfX, hmv⟩ := iterM_moved_rest hE hN (o := P2.innerOpts o) hw.sized.posR hridge
    (hw.ready.sized hw.sized s'.P) (hw'.ready.sized hw'.sized t'.P)
    ⟨⟨_, nonNegL, three_false⟩, ⟨_, orthL, three_false⟩⟩ ⟨⟨_, nonNegR, three_false⟩, ⟨_, orthR, three_false⟩⟩
    u.change hT hM ef eg
  have hfac : FactorsMoved o.rank (Equiv.refl ℕ) (p2Changes (Equiv.refl ℕ) (Equiv.refl ℕ) (toA a)) [I, o.rank, Js.length]
      [s'.A, s'.D, s'.C] [t'.A, t'.D, t'.C] := by
    have := hmv.factors
    rw [hfX, ← hf, ← hg, had, had', addrL, addrR, ← hd, ← hd'] at this
    exact this
  have hsh : Changed (Equiv.refl ℕ) (Equiv.refl ℕ) (Equiv.refl ℕ) (toA a) a I Js o.rank s' t' := by
    refine ⟨?_, ?_, ?_, hXm, hYm⟩
    · intro i hi r hr
      exact hfac.get (m := 0) (s := ⟨Equiv.refl ℕ, toA a 0⟩) rfl rfl rfl hi hr
    · intro i hi r hr
      exact hfac.get (m := 1) (s := ⟨Equiv.refl ℕ, toA a 1⟩) rfl rfl rfl hi hr
    · intro i hi r hr
      exact hfac.get (m := 2) (s := ⟨Equiv.refl ℕ, toA a 2⟩) rfl rfl rfl hi hr
  refine ⟨s', t', c', d', e, e', hv, hv', hsh, ?_, hsh.loss hridge u hv.sized hv'.sized hl hl', hd, hd', had, had', hnn, hnn', hon, hon'⟩
  rw [C81_loss hv.sized, hridge] at hl
  rw [← Except.ok.inj hl, add_zero]

theorem scaled_first_pair {E : Ext} (hE : E.SVDOk) (hN : E.NNLSOk) {o : P2Opts} (hridge : o.ridgePenalties = none) (hcp : 0 < o.cpUpdates)
    (ha : 0 < a) {c d : CPObj} (hw : s.Working o I Js c) (hw' : t.Working o I Js d) (hnd : s.dec.P.Nodup) (hnd' : t.dec.P.Nodup)
    (eA : t.A = s.A) (eD : t.D = s.D) (eC : t.C = s.C)
    (eX : ∀ k < Js.length, ∀ i < I, ∀ j < Js.getD k 0, (nth t.X k).get [i, j] = a * (nth s.X k).get [i, j])
    (addrL : c.addrs = [s.dec.A, s.dec.blueprint, s.dec.C]) (addrR : d.addrs = [t.dec.A, t.dec.blueprint, t.dec.C])
    (nonNegL : c.st.nonNeg = some [false, false, false]) (nonNegR : d.st.nonNeg = some [false, false, false])
    (orthL : c.st.orth = some [false, false, false]) (orthR : d.st.orth = some [false, false, false]) :
    ∃ s' t' c' d', P2.iteration E o s = .ok s' ∧ P2.iteration E o t = .ok t' ∧
      Scaled (Equiv.refl ℕ) (Equiv.refl ℕ) (Equiv.refl ℕ) (toA a) a o I Js Js s' t' c' d' := by
  obtain ⟨s1, t1, c1, d1, e, e', v, v', hch, -, hpl, hd, hd', k1, k2, k3, k4, k5, k6⟩ :=
    scaled_first hE hN hridge hcp ha hw hw' hnd hnd' eA eD eC eX addrL addrR nonNegL nonNegR orthL orthR
  exact ⟨s1, t1, c1, d1, e, e', v, v', by rw [hd]; exact hnd, by rw [hd']; exact hnd', hch, hpl, by rw [k1, hd, addrL], by rw [k2, hd', addrR],
    k3.trans nonNegL, k4.trans nonNegR, k5.trans orthL, k6.trans orthR⟩

/-- The iterates of a state one iteration later. -/
theorem orbit_shift {E : Ext} {o : P2Opts} {s s' : P2State} (e : P2.iteration E o s = .ok s') :
    ∀ j, P2.orbit E o s (j + 1) = P2.orbit E o s' j
  | 0 => by show (match P2.iteration E o s with | .ok s' => s' | .error _ => s) = s'; rw [e]
  | j + 1 => by rw [P2.orbit, orbit_shift e j, ← P2.orbit]

end P2State

variable {s t : P2State} {I : ℕ} {Js : List ℕ}

/-- **C116.** Two fits without constraints and penalties, with the same options, at least one inner update per iteration and a convergence
tolerance that is not positive. The slices of the second are those of the first times a positive number `a`, and both starts have the
same `A`, blueprint matrix and `C`; the projection matrices of the starts may differ. Then both fits complete after the same number of
iterations, the blueprint matrix, `C` and the projection matrices are the same, `A` of the second is `a` times `A` of the first, and
its SSE is `a²` times that of the first. -/
theorem C116_same_start {E : Ext} (hE : E.SVDOk) (hN : E.NNLSOk) (hQR : E.QROk) {c : P2.Config}
    (hnn : c.opts.nonNeg = none) (hon : c.opts.orth = none) (hridge : c.opts.ridgePenalties = none)
    (hcp : 0 < c.opts.cpUpdates) (htol : c.opts.convergenceTol ≤ 0) {a : ℝ} (ha : 0 < a)
    {D D' : P2Data} {arg arg' : InitArg P2Obj} {h0 h0' : Heap}
    (hi : P2.StartsFrom E c D arg h0 s) (hi' : P2.StartsFrom E c D' arg' h0' t)
    (h : s.Sized I Js c.opts.rank) (h' : t.Sized I Js c.opts.rank) (hs : s.Separate) (hs' : t.Separate)
    (hal : s.Allocated) (hal' : t.Allocated) (eA : t.A = s.A) (eD : t.D = s.D) (eC : t.C = s.C)
    (eX : ∀ k < Js.length, ∀ i < I, ∀ j < Js.getD k 0, (nth t.X k).get [i, j] = a * (nth s.X k).get [i, j])
    (hA : P2.Admissible c.opts I Js.length) (hlog : c.Measurable I Js) (hfreq : freqOption c.freq ≠ 0)
    {budget : Int} {mi : Option Int} (hb : 0 < mi.getD budget) {loggers loggers' : List Logger} {file file' : Option H5File}
    (hS : Storing (P2.method E c) (P2.newObject h0 budget loggers file) [])
    (hS' : Storing (P2.method E c) (P2.newObject h0' budget loggers' file') []) :
    ∃ w w' x, P2.fit E c D mi arg (P2.newObject h0 budget loggers file) = .ok () w ∧
      P2.fit E c D' mi arg' (P2.newObject h0' budget loggers' file') = .ok () w' ∧
      w'.it = w.it ∧ (∀ i < I, ∀ r < c.opts.rank, w'.st.A.get [i, r] = a * w.st.A.get [i, r]) ∧
      w'.st.D = w.st.D ∧ w'.st.C = w.st.C ∧ (∀ k < Js.length, nth w'.st.P k = nth w.st.P k) ∧
      P2.sse w.st = .ok x ∧ P2.sse w'.st = .ok (a ^ 2 * x) := by
  obtain ⟨l, sp, w, k, el, ep, -, hfit, hk, hit, hst, hgo, hstop, -⟩ := C80_fit_completes hE hN hQR hi h hs.distinct hal hA hlog hfreq
    (mi := mi) hS
  obtain ⟨l', tp, w', k', el', ep', -, hfit', hk', hit', hst', hgo', hstop', -⟩ :=
    C80_fit_completes hE hN hQR hi' h' hs'.distinct hal' hA hlog hfreq (mi := mi) hS'
  obtain ⟨g, ci, fp, hw, hold, -, hn1, ho1, hfr, hke, -, -, hv⟩ := P2State.prepareCp_ok (E := E) hQR (o := c.opts) (h.withLoss .pinf l)
    (hs.distinct.loss .pinf l) hA (fun _ => hal)
  obtain ⟨g', ci', fp', hw', hold', -, hn1', ho1', hfr', hke', -, -, hv'⟩ := P2State.prepareCp_ok (E := E) hQR (o := c.opts)
    (h'.withLoss .pinf l') (hs'.distinct.loss .pinf l') hA (fun _ => hal')
  rw [ep] at fp
  rw [ep'] at fp'
  obtain rfl := Except.ok.inj fp
  obtain rfl := Except.ok.inj fp'
  have hne : ∀ z : P2State, P2.shouldStop c.opts z = .ok false := by
    intro z
    unfold P2.shouldStop
    cases hz : z.relChange with
    | fin x => exact congrArg Except.ok (decide_eq_false (not_lt.2 (htol.trans (abs_nonneg x))))
    | pinf => rfl
    | ninf => rfl
    | nan => rfl
  have hkb : (k : Int) = mi.getD budget := by
    by_contra hlt
    have := hstop (by omega)
    rw [hne] at this
    cases this
  have hkb' : (k' : Int) = mi.getD budget := by
    by_contra hlt
    have := hstop' (by omega)
    rw [hne] at this
    cases this
  obtain rfl : k' = k := by omega
  obtain ⟨j, rfl⟩ : ∃ j, k' = j + 1 := ⟨k' - 1, by omega⟩
  have hm : ∀ a ∈ s.dec.A :: s.dec.blueprint :: s.dec.C :: s.dec.P, g.mem a = s.heap.mem a := fun a ha => hold a (hal a ha)
  have hm' : ∀ a ∈ t.dec.A :: t.dec.blueprint :: t.dec.C :: t.dec.P, g'.mem a = t.heap.mem a := fun a ha => hold' a (hal' a ha)
  have hfl : P2State.orthFlags c.opts = [false, false, false] := by unfold P2State.orthFlags; rw [hon]; rfl
  have hno : P2.nonNegOption c.opts = [false, false, false] := by unfold P2.nonNegOption; rw [hnn]; rfl
  rw [hfl] at hke hke' ho1 ho1'
  rw [hno] at hn1 hn1'
  obtain ⟨s1, t1, c1, d1, e, e', hp⟩ := P2State.scaled_first_pair hE hN hridge hcp ha hw hw' hs.nodup hs'.nodup
    (by show g'.mem t.dec.A = g.mem s.dec.A; rw [hm _ (by simp), hm' _ (by simp)]; exact eA)
    (by show g'.mem t.dec.blueprint = g.mem s.dec.blueprint; rw [hm _ (by simp), hm' _ (by simp)]; exact eD)
    (by show g'.mem t.dec.C = g.mem s.dec.C; rw [hm _ (by simp), hm' _ (by simp)]; exact eC) eX
    (P2State.addrs_eq (by simpa using hw.ready.factors.length_eq) hke) (P2State.addrs_eq (by simpa using hw'.ready.factors.length_eq) hke')
    hn1 hn1' ho1 ho1'
  obtain ⟨_, _, hj, -⟩ := hp.orbit hE hN hridge (P2State.unit_toA ha) j
  rw [P2State.orbit_shift e] at hst
  rw [P2State.orbit_shift e'] at hst'
  rw [← hst, ← hst'] at hj
  have hc := hj.changed
  have z := hj.left.sized
  have z' := hj.right.sized
  refine ⟨w, w', _, hfit, hfit', by rw [hit, hit'], hc.A, ext_mat z'.D z.D fun q hq r hr => ?_, ext_mat z'.C z.C fun q hq r hr => ?_,
    fun k hk => ext_mat (z'.P.shape_nth hk) (z.P.shape_nth hk) (hc.P k hk), z.sse, by rw [z'.sse, hc.err (P2State.unit_toA ha)]⟩
  · have := hc.D q hq r hr
    simpa [P2State.toA] using this
  · have := hc.C q hq r hr
    simpa [P2State.toA] using this

/-- **C116_same_start** for `init="precomputed"`, with all hypotheses about the start discharged. -/
theorem C116_same_start_precomputed {E : Ext} (hE : E.SVDOk) (hN : E.NNLSOk) (hQR : E.QROk) {c : P2.Config}
    (hinit : c.init.toLower = "precomputed") (hfreq : c.freq = none)
    (hnn : c.opts.nonNeg = none) (hon : c.opts.orth = none) (hridge : c.opts.ridgePenalties = none)
    (hcp : 0 < c.opts.cpUpdates) (htol : c.opts.convergenceTol ≤ 0) {a : ℝ} (ha : 0 < a)
    {Xs Xs' : List (NDArray ℝ)} (hI : 0 < I) (hX : List.Forall₂ (fun Xk J => Xk.shape = [I, J]) Xs Js)
    (hX' : List.Forall₂ (fun Xk J => Xk.shape = [I, J]) Xs' Js) (hK : 0 < Js.length)
    (hR : 0 < c.opts.rank) (hJ : ∀ J ∈ Js, 0 < J) {h0 h0' : Heap} {d d' : P2Obj}
    (sA : (h0.mem d.A).shape = [I, c.opts.rank]) (sD : (h0.mem d.blueprint).shape = [c.opts.rank, c.opts.rank])
    (sC : (h0.mem d.C).shape = [Js.length, c.opts.rank]) (sP : Factors (d.P.map h0.mem) Js c.opts.rank)
    (sP' : Factors (d'.P.map h0'.mem) Js c.opts.rank)
    (hnd : (d.A :: d.blueprint :: d.C :: d.P).Nodup) (hal : ∀ a ∈ d.A :: d.blueprint :: d.C :: d.P, a < h0.next)
    (hnd' : (d'.A :: d'.blueprint :: d'.C :: d'.P).Nodup) (hal' : ∀ a ∈ d'.A :: d'.blueprint :: d'.C :: d'.P, a < h0'.next)
    (eA : h0'.mem d'.A = h0.mem d.A) (eD : h0'.mem d'.blueprint = h0.mem d.blueprint) (eC : h0'.mem d'.C = h0.mem d.C)
    (eX : ∀ k < Js.length, ∀ i < I, ∀ j < Js.getD k 0, (nth Xs' k).get [i, j] = a * (nth Xs k).get [i, j])
    (hlog : c.Measurable I Js) (budget : Int) (mi : Option Int) (hb : 0 < mi.getD budget)
    (loggers loggers' : List Logger) (file file' : Option H5File) :
    ∃ w w' x, P2.fit E c (.list Xs) mi (.tensor d) (P2.newObject h0 budget loggers file) = .ok () w ∧
      P2.fit E c (.list Xs') mi (.tensor d') (P2.newObject h0' budget loggers' file') = .ok () w' ∧
      w'.it = w.it ∧ (∀ i < I, ∀ r < c.opts.rank, w'.st.A.get [i, r] = a * w.st.A.get [i, r]) ∧
      w'.st.D = w.st.D ∧ w'.st.C = w.st.C ∧ (∀ k < Js.length, nth w'.st.P k = nth w.st.P k) ∧
      P2.sse w.st = .ok x ∧ P2.sse w'.st = .ok (a ^ 2 * x) := by
  have hA : P2.Admissible c.opts I Js.length := P2.admissible_free hnn hon hridge hR hI hK
  obtain ⟨s, g1, g2, g3, g4, g5⟩ := p2_startsFrom_precomputed (E := E) hinit hI hX hK hR hJ sA sD sC sP
  obtain ⟨t, f1, f2, f3, f4, f5⟩ := p2_startsFrom_precomputed (E := E) hinit hI hX' hK hR hJ (h0 := h0') (d := d') (by rw [eA]; exact sA) (by rw [eD]; exact sD) (by rw [eC]; exact sC) sP'
  refine C116_same_start hE hN hQR hnn hon hridge hcp htol ha g1 f1 g2 f2 (by rw [P2State.Separate, g3]; exact hnd)
    (by rw [P2State.Separate, f3]; exact hnd') (by rw [P2State.Allocated, g3, g4]; exact hal)
    (by rw [P2State.Allocated, f3, f4]; exact hal')
    (by rw [P2State.A, P2State.A, g3, g4, f3, f4]; exact eA) (by rw [P2State.D, P2State.D, g3, g4, f3, f4]; exact eD)
    (by rw [P2State.C, P2State.C, g3, g4, f3, f4]; exact eC) (by rw [f5, g5]; exact eX) hA hlog
    (by rw [hfreq]; decide) hb (p2_storing_none hfreq _ _) (p2_storing_none hfreq _ _)

/-- The arrays of `duoHeap` with other projection matrices. -/
def duoHeapOther : Heap :=
  ⟨fun a => [ofMat 2 2 fun i r => (i : ℝ) + 2 * r, ofMat 2 2 fun q r => (q : ℝ) - r, ofMat 2 2 fun k r => (k : ℝ) * r + 1,
    full [2, 2] 7, full [3, 2] 8].getD a (full [] 0), 5⟩

/-- Slices ten times as large as `duoSlices`. -/
def duoSlicesTen : List (NDArray ℝ) := [ofMat 2 2 fun i j => 10 * ((i : ℝ) + 2 * j), ofMat 2 3 fun i j => 10 * (5 * (i : ℝ) + j)]

/-- `C116_same_start_precomputed` for these slices and starts. -/
example {E : Ext} (hE : E.SVDOk) (hN : E.NNLSOk) (hQR : E.QROk) {c : P2.Config} (hinit : c.init.toLower = "precomputed")
    (hfreq : c.freq = none) (hnn : c.opts.nonNeg = none) (hon : c.opts.orth = none) (hridge : c.opts.ridgePenalties = none)
    (hR : c.opts.rank = 2) (hcp : c.opts.cpUpdates = 5) (htol : c.opts.convergenceTol = 0) (hlog : c.logs = []) :
    ∃ w w', P2.fit E c (.list duoSlices) none (.tensor duoObj) (P2.newObject duoHeap 100 [] none) = .ok () w ∧
      P2.fit E c (.list duoSlicesTen) none (.tensor duoObj) (P2.newObject duoHeapOther 100 [] none) = .ok () w' ∧
      w'.it = w.it ∧ w'.st.D = w.st.D ∧ w'.st.C = w.st.C := by
  obtain ⟨w, w', x, h1, h2, h3, -, h4, h5, -⟩ := C116_same_start_precomputed hE hN hQR hinit hfreq hnn hon hridge (by rw [hcp]; norm_num)
    htol.le (a := 10) (by norm_num) (I := 2) (Js := [2, 3]) (Xs := duoSlices) (Xs' := duoSlicesTen) (h0 := duoHeap)
    (h0' := duoHeapOther) (d := duoObj) (d' := duoObj) (by norm_num) (.cons rfl (.cons rfl .nil)) (.cons rfl (.cons rfl .nil)) (by norm_num)
    (by rw [hR]; norm_num) (by simp) (by rw [hR]; rfl) (by rw [hR]; rfl) (by rw [hR]; rfl) (by rw [hR]; exact .cons rfl (.cons rfl .nil))
    (by rw [hR]; exact .cons rfl (.cons rfl .nil)) (by decide) (by decide) (by decide) (by decide) rfl rfl rfl
    (by
      intro k hk i hi j hj
      have hk : k < 2 := hk
      interval_cases k <;> interval_cases i <;> simp at hj <;> interval_cases j <;>
        simp [nth, duoSlices, duoSlicesTen, get_ofMat])
    (by intro p hp; rw [hlog] at hp; simp at hp) 100 none (by norm_num) [] [] none none
  exact ⟨w, w', h1, h2, h3, h4, h5⟩

end
end TK
