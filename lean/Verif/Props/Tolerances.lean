import Verif.Props.Stationary
import Verif.Props.CMTFFit
import Verif.Props.Parafac2Fit

/-!
# C158: stricter tolerances and larger budgets

Source: cp.py:408-426, parafac2.py:375-397 (the loops), base_decomposer.py:170-200 (`fit`). A fit with smaller tolerances and a larger
budget goes through the result of the other fit.
-/

namespace TK
open NDArray Fit
open EStateM (Result)

noncomputable section

variable {E : Ext}

theorem FV.absLt_mono {x : FV} {a b : ℝ} (hab : a ≤ b) (h : x.absLt a = true) : x.absLt b = true := by
  cases x with
  | fin x => exact decide_eq_true ((of_decide_eq_true h).trans_le hab)
  | pinf => cases h
  | ninf => cases h
  | nan => cases h

theorem FV.lt_mono {x : FV} {a b : ℝ} (hab : a ≤ b) (h : x.lt a = true) : x.lt b = true := by
  cases x with
  | fin x => exact decide_eq_true ((of_decide_eq_true h).trans_le hab)
  | pinf => cases h
  | ninf => exact h
  | nan => cases h

/-! ## CP_ALS -/

/-- The same options with other tolerances. -/
def CP.Config.withTol (c : CP.Config) (a b : ℝ) : CP.Config := { c with opts := { c.opts with convergenceTol := a, relLossTol := b } }

theorem cp_iterate_withTol (c : CP.Config) (a b : ℝ) : ∀ (n : ℕ) (s : CPState), CP.iterate E (c.withTol a b).opts n s = CP.iterate E c.opts n s
  | 0, _ => rfl
  | n + 1, s => by
    show (CP.iteration E c.opts s >>= _) = (CP.iteration E c.opts s >>= _)
    exact congrArg _ (funext fun s => cp_iterate_withTol c a b n s)

theorem cp_iterate_add {o : CPOpts} : ∀ {m n : ℕ} {s s' : CPState}, CP.iterate E o m s = .ok s' →
    CP.iterate E o (m + n) s = CP.iterate E o n s'
  | 0, n, s, s', h => by rw [Nat.zero_add, ← Except.ok.inj h]
  | m + 1, n, s, s', h => by
    rw [CP.iterate] at h
    obtain ⟨u, e, h⟩ := bind_eq_ok.1 h
    rw [Nat.succ_add, CP.iterate, e, bind_ok]
    exact cp_iterate_add h

theorem good_withTol {c : CP.Config} {a b : ℝ} {s : CPState} : s.Good (c.withTol a b).opts ↔ s.Good c.opts := by
  have key : ∀ {o o' : CPOpts}, o.rank = o'.rank → o.ridgePenalties = o'.ridgePenalties → s.Good o → s.Good o' := by
    intro o o' h h' hG
    obtain ⟨r, t, l, g⟩ := o
    obtain ⟨r', t', l', g'⟩ := o'
    obtain rfl : r = r' := h
    obtain rfl : g = g' := h'
    exact ⟨hG.sized, hG.cached, fun m hm => by
      obtain ⟨nn, on, ridge, hc, hb⟩ := hG.config m hm
      exact ⟨nn, on, ridge, ⟨hc.1, hc.2, hc.3⟩, hb⟩, hG.prev⟩
  exact ⟨key rfl rfl, key rfl rfl⟩

/-- **C158.** Let one fit of `CP_ALS` have smaller (or equal) tolerances and a larger (or equal) budget than another. Both complete; it
performs at least as many iterations, and its result is what the other iterations make of the result of the other fit. -/
theorem C158_cp (hE : E.SVDOk) (hN : E.NNLSOk) (hQ : E.QROk) {c : CP.Config} {nonNeg orth : Option (List Bool)} {X : NDArray ℝ}
    (hA : CP.Admissible c.opts nonNeg orth X.shape) (hlog : c.Measurable) (hfreq : freqOption c.freq ≠ 0) {arg : InitArg KruskalTensor}
    {t : KruskalTensor} (hi : CP.StartsFrom E c nonNeg orth arg X t) (ht : t.WF X.shape c.opts.rank) {a b : ℝ}
    (ha : a ≤ c.opts.convergenceTol) (hb : b ≤ c.opts.relLossTol) {budget : Int} {mi mi' : Option Int} (h0 : 0 < mi.getD budget)
    (hm : mi.getD budget ≤ mi'.getD budget) {loggers : List Logger} {file : Option H5File}
    (hS : Storing (CP.method E c) (CP.newObject nonNeg orth budget loggers file) []) :
    ∃ w w', ∃ n : ℕ, CP.fit E c X mi arg (CP.newObject nonNeg orth budget loggers file) = .ok () w ∧
      CP.fit E (c.withTol a b) X mi' arg (CP.newObject nonNeg orth budget loggers file) = .ok () w' ∧
      w'.it = w.it + n ∧ CP.iterate E c.opts n w.st = .ok w'.st ∧
      (nonNeg = none → orth = none → c.opts.ridgePenalties = none →
        ∃ e e', CP.sse w.st = .ok e ∧ CP.sse w'.st = .ok e' ∧ e' ≤ e) := by
  obtain ⟨s0, w, k, e0, h1, h2, h3, h4, h5, -, -, hsse, -⟩ := C74_fit_completes hE hN hQ hA hlog hfreq hi ht h0 hS
  obtain ⟨s0', w', k', e0', h1', h2', h3', h4', -, h6', -, hsse', -⟩ := C74_fit_completes (c := c.withTol a b) hE hN hQ
    ⟨hA.rank, hA.order, hA.nonempty, hA.nonNegLen, hA.orthLen, hA.ridgeLen, hA.orthRows, hA.notBoth⟩ (fun p hp s h => hlog p hp s (good_withTol.1 h)) hfreq hi ht (mi := mi')
    (h0.trans_le hm) ⟨hS.path, hS.cks, hS.logs⟩
  rw [e0] at e0'
  obtain rfl := Except.ok.inj e0'
  rw [cp_iterate_withTol] at h4'
  have hk : k ≤ k' := by
    refine not_lt.1 fun hlt => ?_
    obtain ⟨s, es, hs⟩ := h5 k' hlt
    rw [h4'] at es
    obtain rfl := Except.ok.inj es
    have hstop := h6' (by omega)
    rw [CP.shouldStop] at hstop hs
    obtain ⟨e, ee, hstop⟩ := bind_eq_ok.1 hstop
    rw [ee, bind_ok] at hs
    have g := Except.ok.inj hstop
    have g' := Except.ok.inj hs
    rw [Bool.or_eq_false_iff] at g'
    rw [Bool.or_eq_true] at g
    rcases g with g | g
    · rw [FV.absLt_mono ha g] at g'; exact absurd g'.1 (by simp)
    · rw [FV.lt_mono hb g] at g'; exact absurd g'.2 (by simp)
  obtain ⟨n, rfl⟩ := Nat.exists_eq_add_of_le hk
  refine ⟨w, w', n, h1, h1', by rw [h3, h3']; push_cast; rfl, by rw [← h4', cp_iterate_add h4], ?_⟩
  rintro rfl rfl hridge
  refine ⟨_, _, hsse, hsse', ?_⟩
  obtain ⟨hG, hXs, hw, hU, -⟩ := fit_sweeps hE hN hQ hA hridge ht e0
  rw [orbit_iterate hE hN hA.rank _ hG] at h4 h4'
  rw [← Except.ok.inj h4, ← Except.ok.inj h4']
  exact antitone_nat_of_succ_le (f := fun j => (CP.orbit E c.opts s0 j).trueSSE c.opts.rank)
    (orbit_antitone hE hN hA.rank hridge hG hw hU) (Nat.le_add_right k n)

/-- A fit of a 2 × 3 matrix with `max_its=10` and one with tolerances `1e-9`, `0` and `max_its=50`; the hypotheses of the other two theorems are
those of `C83_fit_completes` and `C80_fit_completes` (examples there). -/
example (hE : E.SVDOk) (hN : E.NNLSOk) (hQ : E.QROk) :
    ∃ w w', ∃ n : ℕ, CP.fit E ⟨⟨1, 1e-8, 1e-8, none⟩, "precomputed", none, false, [], fun _ _ _ _ => 0, id, fun _ => none⟩
        (ofMat 2 3 fun i j => (i : ℝ) * j + 1) (some 10) (.tensor ⟨1, [full [2, 1] 1, full [3, 1] 1], full [1] 1⟩)
        (CP.newObject none none 1000 [{}] none) = .ok () w ∧
      CP.fit E ⟨⟨1, 1e-9, 0, none⟩, "precomputed", none, false, [], fun _ _ _ _ => 0, id, fun _ => none⟩
        (ofMat 2 3 fun i j => (i : ℝ) * j + 1) (some 50) (.tensor ⟨1, [full [2, 1] 1, full [3, 1] 1], full [1] 1⟩)
        (CP.newObject none none 1000 [{}] none) = .ok () w' ∧
      w'.it = w.it + n ∧ ∃ e e', CP.sse w.st = .ok e ∧ CP.sse w'.st = .ok e' ∧ e' ≤ e := by
  have ht : KruskalTensor.WF ⟨1, [full [2, 1] 1, full [3, 1] 1], full [1] 1⟩ (ofMat 2 3 fun i j => (i : ℝ) * j + 1).shape 1 :=
    ⟨rfl, .cons rfl (.cons rfl .nil), rfl⟩
  obtain ⟨w, w', n, h1, h2, h3, -, h5⟩ := C158_cp hE hN hQ
    (c := ⟨⟨1, 1e-8, 1e-8, none⟩, "precomputed", none, false, [], fun _ _ _ _ => 0, id, fun _ => none⟩) (a := 1e-9) (b := 0)
    (nonNeg := none) (orth := none) (X := ofMat 2 3 fun i j => (i : ℝ) * j + 1)
    ⟨by simp, by simp [ofMat], by simp [ofMat], by simp, by simp, by simp, by simp, by simp⟩ (fun p hp => by cases hp)
    (show freqOption none ≠ 0 by decide)
    (startsFrom_precomputed (by
      show "precomputed".toLower = _
      rw [String.toLower, ← String.toList_inj, String.toList_map]; decide) ht) ht (by norm_num) (by norm_num) (budget := 1000)
    (mi := some 10) (mi' := some 50) (by decide) (by decide) (loggers := [{}]) (file := none)
    ⟨fun h => absurd h (show ¬ (0 : Int) < -1 by decide), fun h => absurd h (show ¬ (0 : Int) < -1 by decide),
      fun h => absurd h (show ¬ (0 : Int) < -1 by decide)⟩
  exact ⟨w, w', n, h1, h2, h3, h5 rfl rfl rfl⟩

/-! ## CMTF_ALS -/

/-- The same options with other tolerances. -/
def CMTF.Config.withTol (c : CMTF.Config) (a b : ℝ) : CMTF.Config := { c with cp := c.cp.withTol a b }

theorem cmtf_iterate_withTol (c : CMTF.Config) (a b : ℝ) : ∀ (n : ℕ) (s : CMTFState),
    CMTF.iterate E (c.withTol a b).cp.opts n s = CMTF.iterate E c.cp.opts n s
  | 0, _ => rfl
  | n + 1, s => by
    show (CMTF.iteration E c.cp.opts s >>= _) = (CMTF.iteration E c.cp.opts s >>= _)
    exact congrArg _ (funext fun s => cmtf_iterate_withTol c a b n s)

theorem cmtf_iterate_add {o : CPOpts} : ∀ {m n : ℕ} {s s' : CMTFState}, CMTF.iterate E o m s = .ok s' →
    CMTF.iterate E o (m + n) s = CMTF.iterate E o n s'
  | 0, n, s, s', h => by rw [Nat.zero_add, ← Except.ok.inj h]
  | m + 1, n, s, s', h => by
    rw [CMTF.iterate] at h
    obtain ⟨u, e, h⟩ := bind_eq_ok.1 h
    rw [Nat.succ_add, CMTF.iterate, e, bind_ok]
    exact cmtf_iterate_add h

theorem initCoupledLoop_withTol (c : CMTF.Config) (a b : ℝ) (nonNeg : Option (List Bool)) : ∀ (modes : List Int) (Ys : List (NDArray ℝ))
    (i : ℕ), CMTF.initCoupledLoop (c.withTol a b) nonNeg Ys i modes = CMTF.initCoupledLoop c nonNeg Ys i modes := by
  intro modes
  induction modes with
  | nil => intros; rfl
  | cons m modes ih =>
    intro Ys i
    simp only [CMTF.initCoupledLoop, ih]
    rfl

/-- C158 for `CMTF_ALS`: the states before the normalisation at the end of the fits are in this relation. -/
theorem C158_cmtf (hE : E.SVDOk) (hN : E.NNLSOk) (hQ : E.QROk) {c : CMTF.Config} {nonNeg orth : Option (List Bool)} {X : NDArray ℝ}
    (hA : CP.Admissible c.cp.opts nonNeg orth X.shape) (hnn : ∀ l, nonNeg = some l → l = List.replicate X.shape.length false)
    {Ys : List (NDArray ℝ)} {modes : List Int} {ms qs : List ℕ} (hC : CMTF.Coupled X.shape Ys modes ms qs)
    (hlog : c.Measurable ms qs) (hfreq : freqOption c.cp.freq ≠ 0) {arg : InitArg KruskalTensor} {t : KruskalTensor}
    (hi : CP.StartsFrom E c.cp nonNeg orth arg X t) (ht : t.WF X.shape c.cp.opts.rank) {a b : ℝ}
    (ha : a ≤ c.cp.opts.convergenceTol) (hb : b ≤ c.cp.opts.relLossTol) {budget : Int} {mi mi' : Option Int} (h0 : 0 < mi.getD budget)
    (hm : mi.getD budget ≤ mi'.getD budget) {loggers : List Logger} {file : Option H5File}
    (hS : Storing (CMTF.method E c) (CMTF.newObject nonNeg orth budget loggers file) []) :
    ∃ w w' sk sk', ∃ n : ℕ, CMTF.fit E c X Ys modes mi arg (CMTF.newObject nonNeg orth budget loggers file) = .ok () w ∧
      CMTF.fit E (c.withTol a b) X Ys modes mi' arg (CMTF.newObject nonNeg orth budget loggers file) = .ok () w' ∧
      w'.it = w.it + n ∧ CMTF.iterate E c.cp.opts n sk = .ok sk' ∧ CMTF.normalizeComponents sk = .ok w.st ∧
      CMTF.normalizeComponents sk' = .ok w'.st := by
  have hA' : CP.Admissible (c.withTol a b).cp.opts nonNeg orth X.shape :=
    ⟨hA.rank, hA.order, hA.nonempty, hA.nonNegLen, hA.orthLen, hA.ridgeLen, hA.orthRows, hA.notBoth⟩
  obtain ⟨u, s0, hs0, ⟨Vs, ev, es⟩, hfit⟩ := cmtf_fit_unfold_start (E := E) hQ hA hC hi ht
  obtain ⟨u', s0', hs0', ⟨Vs', ev', es'⟩, hfit'⟩ := cmtf_fit_unfold_start (E := E) (c := c.withTol a b) hQ hA' hC hi ht
  rw [initCoupledLoop_withTol, ev] at ev'
  obtain rfl := Except.ok.inj ev'
  obtain rfl : s0 = s0' := by
    have : CMTF.initRest E (CMTF.prepared c nonNeg orth X Ys modes t Vs) = .ok s0' := es'
    rw [es] at this
    exact Except.ok.inj this
  obtain ⟨sk, w, k, h1, h2, h3, h4, hn, h5, -⟩ := cmtf_completes hE hN hA hnn hlog hfreq hs0 hfit h0 hS
  obtain ⟨sk', w', k', h1', h2', h3', h4', hn', -, h6', -⟩ := cmtf_completes (c := c.withTol a b) hE hN hA' hnn hlog hfreq hs0' hfit'
    (mi := mi') (h0.trans_le hm) ⟨hS.path, hS.cks, hS.logs⟩
  rw [cmtf_iterate_withTol] at h4'
  have hk : k ≤ k' := by
    refine not_lt.1 fun hlt => ?_
    obtain ⟨s, es, hs⟩ := h5 k' hlt
    rw [h4'] at es
    obtain rfl := Except.ok.inj es
    have hstop := h6' (by omega)
    rw [CMTF.shouldStop] at hstop hs
    obtain ⟨e, ee, hstop⟩ := bind_eq_ok.1 hstop
    rw [ee, bind_ok] at hs
    have g := Except.ok.inj hstop
    have g' := Except.ok.inj hs
    rw [Bool.or_eq_false_iff] at g'
    rw [Bool.or_eq_true] at g
    rcases g with g | g
    · rw [FV.absLt_mono ha g] at g'; exact absurd g'.1 (by simp)
    · rw [FV.lt_mono hb g] at g'; exact absurd g'.2 (by simp)
  obtain ⟨n, rfl⟩ := Nat.exists_eq_add_of_le hk
  exact ⟨w, w', sk, sk', n, h1, h1', by rw [h3, h3']; push_cast; rfl, by rw [← h4', cmtf_iterate_add h4], hn, hn'⟩

/-! ## Parafac2_ALS -/

/-- The same options with another tolerance. -/
def P2.Config.withTol (c : P2.Config) (a : ℝ) : P2.Config := { c with opts := { c.opts with convergenceTol := a } }

theorem p2_orbit_withTol (c : P2.Config) (a : ℝ) (s : P2State) : ∀ n, P2.orbit E (c.withTol a).opts s n = P2.orbit E c.opts s n
  | 0 => rfl
  | n + 1 => by
    rw [P2.orbit, P2.orbit, p2_orbit_withTol c a s n]
    rfl

theorem p2_orbit_add (o : P2Opts) (s : P2State) (m : ℕ) : ∀ n, P2.orbit E o s (m + n) = P2.orbit E o (P2.orbit E o s m) n
  | 0 => rfl
  | n + 1 => by
    show P2.orbit E o s ((m + n) + 1) = _
    rw [P2.orbit, P2.orbit, p2_orbit_add o s m n]

variable {s : P2State} {I : ℕ} {Js : List ℕ}

/-- C158 for `Parafac2_ALS`. -/
theorem C158_parafac2 (hE : E.SVDOk) (hN : E.NNLSOk) (hQ : E.QROk) {c : P2.Config} {D : P2Data} {arg : InitArg P2Obj}
    {h0 : Heap} (hi : P2.StartsFrom E c D arg h0 s) (h : s.Sized I Js c.opts.rank) (hs : s.Distinct) (hal : s.Allocated)
    (hA : P2.Admissible c.opts I Js.length) (hlog : c.Measurable I Js) (hfreq : freqOption c.freq ≠ 0) {a : ℝ}
    (ha : a ≤ c.opts.convergenceTol) {budget : Int} {mi mi' : Option Int} (hm : mi.getD budget ≤ mi'.getD budget)
    {loggers : List Logger} {file : Option H5File} (hS : Storing (P2.method E c) (P2.newObject h0 budget loggers file) []) :
    ∃ w w', ∃ n : ℕ, P2.fit E c D mi arg (P2.newObject h0 budget loggers file) = .ok () w ∧
      P2.fit E (c.withTol a) D mi' arg (P2.newObject h0 budget loggers file) = .ok () w' ∧ w'.it = w.it + n ∧
      w'.st = P2.orbit E c.opts w.st n := by
  obtain ⟨l, sp, w, k, el, ep, -, h1, h2, h3, h4, h5, -⟩ := C80_fit_completes hE hN hQ hi h hs hal hA hlog hfreq (mi := mi) hS
  obtain ⟨l', sp', w', k', el', ep', -, h1', h2', h3', h4', -, h6', -⟩ := C80_fit_completes (c := c.withTol a) (mi := mi') hE hN hQ hi h hs
    hal hA hlog hfreq ⟨hS.path, hS.cks, hS.logs⟩
  have el'' : P2.loss c.opts s = .ok l' := el'
  rw [el] at el''
  obtain rfl := Except.ok.inj el''
  have ep'' : P2.prepareCp E c.opts (s.withLoss .pinf l) = .ok sp' := ep'
  rw [ep] at ep''
  obtain rfl := Except.ok.inj ep''
  rw [p2_orbit_withTol] at h4'
  have hk : k ≤ k' := by
    refine not_lt.1 fun hlt => ?_
    obtain ⟨-, hs⟩ := h5 k' hlt
    have hstop := h6' (by omega)
    rw [h4'] at hstop
    have g : (P2.orbit E c.opts sp k').relChange.absLt a = true := Except.ok.inj hstop
    have g' : (P2.orbit E c.opts sp k').relChange.absLt c.opts.convergenceTol = false := Except.ok.inj hs
    rw [FV.absLt_mono ha g] at g'
    cases g'
  obtain ⟨n, rfl⟩ := Nat.exists_eq_add_of_le hk
  exact ⟨w, w', n, h1, h1', by rw [h3, h3']; push_cast; rfl, by rw [h4', h4, p2_orbit_add]⟩

end

end TK
