import Verif.Lemmas.Explained
import Verif.Props.Resume
import Verif.Props.Scores
import Verif.Lemmas.Symmetry
import Verif.Props.Parafac2Fit

/-!
# C100: the explained variance of a fit lies between 0 and 1

Source: base_decomposer.py:94-97 (`explained_variance`), cp.py:354-423 (the updates and the loop).
-/

namespace TK
open NDArray Fit Matrix
open EStateM (Result)

noncomputable section

/-! ## `CP_ALS` -/

/-- Spec: the residual of the rank-`R` model is orthogonal to all models with the same factor matrices except possibly the
one of mode `m`. -/
def ResidualOrthogonal (X : NDArray ℝ) (w : ℕ → ℝ) (fs : List (NDArray ℝ)) (R m : ℕ) : Prop :=
  ∀ Y : NDArray ℝ, (sumIdx X.shape fun idx => (X.get idx - cpEntry w fs R idx) * cpEntry w (fs.set m Y) R idx) = 0

/-- Spec: the squared norm of the model. -/
def modelSq (shape : List ℕ) (w : ℕ → ℝ) (fs : List (NDArray ℝ)) (R : ℕ) : ℝ := sumIdx shape fun idx => cpEntry w fs R idx ^ 2

theorem ResidualOrthogonal.sqErr {X : NDArray ℝ} {w : ℕ → ℝ} {fs : List (NDArray ℝ)} {R m : ℕ} (h : ResidualOrthogonal X w fs R m)
    (hm : m < fs.length) : sqErr X w fs R = sumSq X - modelSq X.shape w fs R := by
  refine sqErr_of_orthogonal ?_
  have := h fs[m]
  rwa [List.set_getElem_self] at this

/-- Updates of all modes of which the last has neither a constraint nor a penalty leave a residual that is orthogonal to the
model. -/
theorem updateFactors_orthogonal {E : Ext} (hE : E.SVDOk) (hN : E.NNLSOk) {o : CPOpts} (hr : 0 < o.rank) {s s' : CPState}
    (h : s.Sized o.rank)
    (hcfg : ∀ m < s.X.shape.length, ∃ nn on ridge, s.ModeConfig o m nn on ridge ∧ ¬ (nn = true ∧ on = true))
    (hw : ∀ r < o.rank, s.dec.weights.get [r] = 1)
    (hc : s.ModeConfig o (s.X.shape.length - 1) false false none) (hs : CP.updateFactors E o s = .ok s') :
    ResidualOrthogonal s'.X (fun r => s'.dec.weights.get [r]) s'.dec.factorMatrices o.rank (s'.X.shape.length - 1) := by
  set d := s.X.shape.length with hd
  have hd2 := h.order
  obtain ⟨n, hn⟩ : ∃ n, d = n + 1 := ⟨d - 1, by omega⟩
  have hn1 : d - 1 = n := by omega
  rw [hn1] at hc
  obtain ⟨s1, e1, p1, hS1⟩ := cp_updateModes_total hE hN hr (List.range n) s h hcfg
    (by intro m hm; have := List.mem_range.1 hm; omega)
  have hnX : n < s1.X.shape.length := by rw [p1.X]; omega
  obtain ⟨F, hF, e2, opt⟩ := C34_update_core hE hS1 (m := n) hnX (by rw [p1.weights]; exact hw)
    ⟨by rw [p1.nonNeg]; exact hc.nonNeg, by rw [p1.orth]; exact hc.orth, hc.ridge⟩
  have e3 : CP.updateFactors E o s = .ok (s1.updated n o.rank F) := by
    rw [CP.updateFactors, ← hd, hn, List.range_succ, CP.updateModes, List.foldlM_append]
    rw [CP.updateModes] at e1
    rw [e1, bind_ok, List.foldlM_cons, e2, bind_ok]; rfl
  rw [hs] at e3
  obtain rfl := Except.ok.inj e3
  intro Y
  show (sumIdx s1.X.shape fun idx => (s1.X.get idx - cpEntry (fun r => s1.dec.weights.get [r])
    (s1.dec.factorMatrices.set n F) o.rank idx) * cpEntry (fun r => s1.dec.weights.get [r])
      ((s1.dec.factorMatrices.set n F).set (s1.X.shape.length - 1) Y) o.rank idx) = 0
  rw [p1.X, ← hd, hn1, List.set_set, ← p1.X]
  exact optimal_orthogonal hS1.wf.factors.length_eq hnX opt Y

theorem iteration_orthogonal {E : Ext} (hE : E.SVDOk) (hN : E.NNLSOk) {o : CPOpts} (hr : 0 < o.rank) {s s' : CPState}
    (h : s.Good o) (hw : ∀ r < o.rank, s.dec.weights.get [r] = 1)
    (hc : s.ModeConfig o (s.X.shape.length - 1) false false none) (hs : CP.iteration E o s = .ok s') :
    ResidualOrthogonal s'.X (fun r => s'.dec.weights.get [r]) s'.dec.factorMatrices o.rank (s'.X.shape.length - 1) := by
  rw [CP.iteration, bind_eq_ok] at hs
  obtain ⟨s1, e1, e2⟩ := hs
  rw [CP.updateConvergence, bind_eq_ok] at e2
  obtain ⟨e, -, e3⟩ := e2
  obtain rfl := pure_eq_ok.1 e3
  have := updateFactors_orthogonal hE hN hr h.sized h.config hw hc e1
  exact this

/-- The last mode has no constraint, and there are no penalties. -/
structure CP.LastFree (o : CPOpts) (nonNeg orth : Option (List Bool)) (d : ℕ) : Prop where
  nonNeg : ∀ l, nonNeg = some l → l[d - 1]? = some false
  orth : ∀ l, orth = some l → l[d - 1]? = some false
  ridge : o.ridgePenalties = none

/-- **C100**, the part that holds: if the last mode has no constraint and there are no penalties, then after a fit with at
least one iteration the residual is orthogonal to the model, the sum of squared errors is the difference of the squared norms of
the data and the model, and `explained_variance` is the quotient of these norms, hence between 0 and 1, whatever the start.
Missing: fits with a constraint on the last mode, where it can be negative (`C100_fails`). -/
theorem C100_fit_partial {E : Ext} (hE : E.SVDOk) (hN : E.NNLSOk) (hQ : E.QROk) {c : CP.Config}
    {nonNeg orth : Option (List Bool)} {X : NDArray ℝ} (hA : CP.Admissible c.opts nonNeg orth X.shape)
    (hF : CP.LastFree c.opts nonNeg orth X.shape.length)
    (hlog : c.Measurable) (hfreq : freqOption c.freq ≠ 0) {arg : InitArg KruskalTensor} {t : KruskalTensor}
    (hi : CP.StartsFrom E c nonNeg orth arg X t)
    (ht : t.WF X.shape c.opts.rank) {budget : Int} {mi : Option Int} (hb : 0 < mi.getD budget)
    {loggers : List Logger} {file : Option H5File}
    (hS : Storing (CP.method E c) (CP.newObject nonNeg orth budget loggers file) []) :
    ∃ w', CP.fit E c X mi arg (CP.newObject nonNeg orth budget loggers file) = .ok () w' ∧ w'.st.X = X ∧
      (1 ≤ w'.it →
        ResidualOrthogonal X (fun r => w'.st.dec.weights.get [r]) w'.st.dec.factorMatrices c.opts.rank (X.shape.length - 1) ∧
        CP.sse w'.st = .ok (sumSq X - modelSq X.shape (fun r => w'.st.dec.weights.get [r]) w'.st.dec.factorMatrices c.opts.rank) ∧
        ((∃ idx, Valid X.shape idx ∧ X.get idx ≠ 0) → ∃ v, CP.explainedVariance w'.st = .ok (.fin v) ∧ 0 ≤ v ∧ v ≤ 1 ∧
          v = modelSq X.shape (fun r => w'.st.dec.weights.get [r]) w'.st.dec.factorMatrices c.opts.rank / sumSq X)) := by
  obtain ⟨s0, w', k, e0, h1, -, hit, h2, -, -, hwf, hsse, hX', hw1, -⟩ := C74_fit_completes hE hN hQ hA hlog hfreq hi ht hb hS
  obtain ⟨s0', e0', hG, hX, -, -, hones, hnn, hon, -⟩ := initFit_good (E := E) hQ (old := CP.fresh nonNeg orth) rfl hA ht
  rw [e0] at e0'
  obtain rfl : s0 = s0' := by injection e0'
  rw [orbit_iterate hE hN hA.rank k hG] at h2
  have hst : w'.st = CP.orbit E c.opts s0 k := (Except.ok.inj h2).symm
  refine ⟨w', h1, hX', fun hk => ?_⟩
  obtain ⟨j, rfl⟩ : ∃ j, k = j + 1 := ⟨k - 1, by omega⟩
  obtain ⟨gj, pj⟩ := orbit_good hE hN hA.rank hG j
  obtain ⟨gk, pk⟩ := orbit_good hE hN hA.rank hG (j + 1)
  have hd2 := hA.order
  have hcfg : (CP.orbit E c.opts s0 j).ModeConfig c.opts ((CP.orbit E c.opts s0 j).X.shape.length - 1) false false none := by
    rw [pj.X, hX]
    refine ⟨⟨_, pj.nonNeg.trans hnn, ?_⟩, ⟨_, pj.orth.trans hon, ?_⟩, Or.inl ⟨hF.ridge, rfl⟩⟩
    · show (nonNeg.getD _)[X.shape.length - 1]? = _
      cases hq : nonNeg with
      | none => rw [Option.getD_none, List.getElem?_replicate, if_pos (by omega)]
      | some l => simpa using hF.nonNeg l hq
    · show (orth.getD _)[X.shape.length - 1]? = _
      cases hq : orth with
      | none => rw [Option.getD_none, List.getElem?_replicate, if_pos (by omega)]
      | some l => simpa using hF.orth l hq
  have hres := iteration_orthogonal hE hN hA.rank gj (by rw [pj.weights]; exact hones) hcfg (orbit_step hE hN hA.rank hG j)
  rw [← hst, hX'] at hres
  have hm : X.shape.length - 1 < w'.st.dec.factorMatrices.length := by rw [hwf.factors.length_eq]; omega
  have hsq := hres.sqErr hm
  have htrue : w'.st.trueSSE c.opts.rank = sumSq X -
      modelSq X.shape (fun r => w'.st.dec.weights.get [r]) w'.st.dec.factorMatrices c.opts.rank := by
    rw [CPState.trueSSE, hX']; exact hsq
  refine ⟨hres, by rw [hsse, htrue], fun h0 => ?_⟩
  obtain ⟨v, ev, hv, hv1, -⟩ := C66_explained_variance (s := w'.st) (R := c.opts.rank) (hst ▸ gk.sized) (hst ▸ gk.cached)
    (by rw [hX']; exact h0)
  have hXp : 0 < sumSq X := by
    refine lt_of_le_of_ne (sumIdx_nonneg fun _ _ => sq_nonneg _) fun hz => ?_
    obtain ⟨idx, hi, hne⟩ := h0
    exact hne (sumSq_eq_zero_iff.1 hz.symm idx hi)
  have hvq : v = modelSq X.shape (fun r => w'.st.dec.weights.get [r]) w'.st.dec.factorMatrices c.opts.rank / sumSq X := by
    rw [hv, htrue, hX']
    field_simp
    ring
  refine ⟨v, ev, ?_, hv1, hvq⟩
  rw [hvq]
  exact div_nonneg (sumIdx_nonneg fun _ _ => sq_nonneg _) hXp.le

/-- **C100**, the part that holds, for a fit with any number of iterations: if the last mode has no constraint, there are no
penalties, and the tolerance for the relative loss is at most 1 (the default is `1e-10`), then `explained_variance` is between 0
and 1 after every fit of a non-zero tensor. (A fit without iterations stops at its start because the relative loss is below the
tolerance.) -/
theorem C100_range_partial {E : Ext} (hE : E.SVDOk) (hN : E.NNLSOk) (hQ : E.QROk) {c : CP.Config}
    {nonNeg orth : Option (List Bool)} {X : NDArray ℝ} (hA : CP.Admissible c.opts nonNeg orth X.shape)
    (hF : CP.LastFree c.opts nonNeg orth X.shape.length) (htol : c.opts.relLossTol ≤ 1)
    (hlog : c.Measurable) (hfreq : freqOption c.freq ≠ 0) {arg : InitArg KruskalTensor} {t : KruskalTensor}
    (hi : CP.StartsFrom E c nonNeg orth arg X t)
    (ht : t.WF X.shape c.opts.rank) {budget : Int} {mi : Option Int} (hb : 0 < mi.getD budget)
    {loggers : List Logger} {file : Option H5File}
    (hS : Storing (CP.method E c) (CP.newObject nonNeg orth budget loggers file) [])
    (h0 : ∃ idx, Valid X.shape idx ∧ X.get idx ≠ 0) :
    ∃ w' v, CP.fit E c X mi arg (CP.newObject nonNeg orth budget loggers file) = .ok () w' ∧
      CP.explainedVariance w'.st = .ok (.fin v) ∧ 0 ≤ v ∧ v ≤ 1 := by
  obtain ⟨w1, f1, -, g⟩ := C100_fit_partial hE hN hQ hA hF hlog hfreq hi ht hb hS
  obtain ⟨s0, w', k, e0, h1, -, hit, h2, -, h6, -, hsse, hX', -⟩ := C74_fit_completes hE hN hQ hA hlog hfreq hi ht hb hS
  obtain ⟨s0', e0', hG, hX, -, hrel, -⟩ := initFit_good (E := E) hQ (old := CP.fresh nonNeg orth) rfl hA ht
  rw [e0] at e0'
  obtain rfl : s0 = s0' := by injection e0'
  obtain rfl : w1 = w' := by rw [f1] at h1; injection h1
  rcases Nat.eq_zero_or_pos k with rfl | hk
  · have hst : s0 = w1.st := Except.ok.inj h2
    rw [← hst] at hX' hsse h6
    obtain ⟨v, ev, hv, hv1, -⟩ := C66_explained_variance (s := s0) (R := c.opts.rank) hG.sized hG.cached (by rw [hX']; exact h0)
    refine ⟨w1, v, f1, by rw [← hst]; exact ev, ?_, hv1⟩
    have hp := h6 (by exact_mod_cast hb)
    have hXp : sumSq s0.X ≠ 0 := by
      intro hz
      obtain ⟨idx, hi, hne⟩ := h0
      rw [hX'] at hz
      exact hne (sumSq_eq_zero_iff.1 hz idx hi)
    have hn : s0.XNorm ^ 2 = sumSq s0.X := by
      rw [hG.cached.norm, Real.sq_sqrt (sumIdx_nonneg fun _ _ => sq_nonneg _)]; rfl
    rw [CP.shouldStop, hsse, bind_ok, hrel, hn, FV.div, if_pos hXp] at hp
    have hp' := pure_eq_ok.1 hp
    simp only [FV.absLt, FV.lt, Bool.false_or, decide_eq_true_eq] at hp'
    rw [hv]
    have : s0.trueSSE c.opts.rank / sumSq s0.X < 1 := hp'.trans_le htol
    linarith
  · obtain ⟨v, ev, h1', h2', -⟩ := (g (by omega)).2.2 h0
    exact ⟨w1, v, f1, ev, h1', h2'⟩

/-- The witness for the refutation of C100: `X = [[1, -1, 0], [0, 1, -4]]`. -/
def evData : NDArray ℝ := ofMat 2 3 fun i j =>
  if i = 0 then (if j = 0 then 1 else if j = 1 then -1 else 0) else (if j = 0 then 0 else if j = 1 then 1 else -4)

/-- Its start: the second factor matrix consists of the first two columns of the identity. -/
def evStart : KruskalTensor :=
  ⟨2, [ofMat 2 2 fun _ _ => 0, ofMat 3 2 fun i j => if i = j then 1 else 0], full [2] 1⟩

/-- Its configuration: rank 2, no tolerances, start given by the caller. -/
def evConfig : CP.Config := ⟨⟨2, 0, 0, none⟩, "precomputed", none, true, [], fun _ _ _ _ => 0, id, fun _ => none⟩

theorem ev_row {f1 f2 A B : ℝ} (h2 : 0 ≤ f2) (hA : 0 ≤ A) (hB : 0 ≤ B)
    (h : A + B + ((f1 - f2) ^ 2 + (4 - f1 + 2 * f2) ^ 2) ≤ 8) : f1 = 2 ∧ f2 = 0 ∧ A = 0 ∧ B = 0 := by
  have e : (f1 - f2) ^ 2 + (4 - f1 + 2 * f2) ^ 2 = ((4 + f2) ^ 2 + (2 * f1 - 3 * f2 - 4) ^ 2) / 2 := by ring
  rw [e] at h
  have hs := sq_nonneg (2 * f1 - 3 * f2 - 4)
  have hf : f2 = 0 := by nlinarith [sq_nonneg f2]
  subst hf
  have : (2 * f1 - 3 * 0 - 4) ^ 2 = 0 := by nlinarith
  have := pow_eq_zero_iff two_ne_zero |>.1 this
  refine ⟨by linarith, rfl, by nlinarith, by nlinarith⟩

/-- **C100** is false of the code with a constraint on the last mode: a fit of `evData` with non-negativity of the second mode
and one iteration ends with an error of 20, while the squared norm of the data is 19, and so `explained_variance` is negative.
(The model `0` would be better.) -/
theorem C100_fails {E : Ext} (hE : E.SVDOk) (hN : E.NNLSOk) (hQ : E.QROk) :
    ∃ w', CP.fit E evConfig evData (some 1) (.tensor evStart) (CP.newObject (some [false, true]) none 1 [] none) = .ok () w' ∧
      w'.it = 1 ∧ CP.sse w'.st = .ok 20 ∧ sumSq evData = 19 ∧ CP.explainedVariance w'.st = .ok (.fin (-1 / 19)) := by
  set o : CPOpts := ⟨2, 0, 0, none⟩ with ho
  have hA : CP.Admissible o (some [false, true]) none evData.shape :=
    ⟨by decide, by simp [evData], by simp [evData], by simp [evData], by simp, by simp [ho], by simp, by simp⟩
  have ht : evStart.WF evData.shape 2 := ⟨rfl, by simp [Factors, evStart, evData], rfl⟩
  have hi : evConfig.init.toLower = "precomputed" := by
    show "precomputed".toLower = _
    rw [String.toLower, ← String.toList_inj, String.toList_map]; decide
  obtain ⟨s0, w', k, e0, h1, h2, hit, h4, -, h6, -, hsse, hX', -⟩ := C74_fit_completes hE hN hQ (c := evConfig) (mi := some 1)
    (budget := 1) (loggers := []) (file := none) hA (by intro p hp; simp [evConfig] at hp) (by decide)
    (startsFrom_precomputed hi ht) ht (by decide)
    ⟨fun h => absurd h (show ¬ (0 : Int) < -1 by decide), fun h => absurd h (show ¬ (0 : Int) < -1 by decide), fun h => absurd h (show ¬ (0 : Int) < -1 by decide)⟩
  obtain ⟨s0', e0', hG, hX, -, -, hw, hnn, hon, hdec⟩ := initFit_good (E := E) hQ (old := CP.fresh (some [false, true]) none)
    (o := o) rfl hA ht
  rw [e0] at e0'
  obtain rfl : s0 = s0' := by injection e0'
  have hk : k = 1 := by
    by_contra hne
    have h2' : (k : Int) ≤ 1 := h2
    have h6' := h6 (by show (k : Int) < 1; omega)
    have hst : CP.iterate E o k s0 = .ok w'.st := h4
    rw [orbit_iterate hE hN (by decide) k hG] at hst
    have hgo := never_stops (o := o) le_rfl le_rfl (orbit_good hE hN (by decide) hG k).1
    rw [Except.ok.inj hst] at hgo
    rw [show evConfig.opts = o from rfl, hgo] at h6'
    cases h6'
  subst hk
  -- the data
  have hXs : s0.X.shape = [2, 3] := by rw [hX]; rfl
  have hx : ∀ i < 2, ∀ j < 3, s0.X.get [i, j] =
      if i = 0 then (if j = 0 then 1 else if j = 1 then -1 else 0) else (if j = 0 then 0 else if j = 1 then 1 else -4) := by
    intro i hi j hj
    rw [hX, evData, get_ofMat hi hj]
  have hfs : s0.dec.factorMatrices = [ofMat 2 2 fun _ _ => 0, ofMat 3 2 fun i j => if i = j then 1 else 0] := hdec rfl
  -- the first update
  have hc0 : s0.ModeConfig o 0 false false none := ⟨⟨_, hnn, rfl⟩, ⟨_, hon, rfl⟩, Or.inl ⟨rfl, rfl⟩⟩
  obtain ⟨F, hF, u1, hrows⟩ := update_rows hE hG.sized (m := 0) (by rw [hXs]; decide) hc0
  have hF0 : F.shape = [2, 2] := by rw [hF, hXs]; rfl
  have hFv : ∀ i < 2, ∀ b < 2, F.get [i, b] = s0.X.get [i, b] := by
    intro i hi b hb
    have := (hrows i (by rw [hXs]; exact hi)).1 b hb
    rw [show o.rank = 2 from rfl, hfs] at this
    simp only [mttkrpEntry, hXs, hfs] at this
    interval_cases b <;>
    · simp [Finset.sum_range_succ, gramProd, gramEntry, rankOne] at this
      exact this
  set s1 := s0.updated 0 2 F with hs1
  have hS1 : s1.Sized 2 := hG.sized.updated hF
  have hC1 : s1.Cached 2 := hG.cached.updated (by rw [hXs]; decide)
  -- the second update
  have hX1 : s1.X = s0.X := rfl
  have hfs1 : s1.dec.factorMatrices = [F, ofMat 3 2 fun i j => if i = j then 1 else 0] := by
    simp [hs1, CPState.updated, hfs]
  have hc1 : s1.ModeConfig o 1 true false none := ⟨⟨_, hnn, rfl⟩, ⟨_, hon, rfl⟩, Or.inl ⟨rfl, rfl⟩⟩
  obtain ⟨G, e, hGs, hGn, hopt⟩ := nonneg_core hN
    (A := ofMat 2 2 fun a b => gramProd (s1.dec.factorMatrices.eraseIdx 1) a b)
    (B := mttkrpMat s1.X s1.dec.factorMatrices 1 2) (m := 2) (n := 2) (p := 3) (shape_ofMat _ _ _)
    (by rw [mttkrpMat, shape_ofMat, hX1, hXs]; rfl)
  have hm1 : 1 < s1.X.shape.length := by rw [hX1, hXs]; decide
  have u2 : CP.updateFactor E o 1 s1 = .ok (s1.updated 1 2 G) :=
    updateFactor_ok hS1.wf.factors hS1.order hm1 (hS1.dim hm1) (getSolve_ok hc1 (by simp)) e (by rw [hGs, hX1, hXs]; rfl)
  have hV : ∀ a < 2, ∀ b < 2, (ofMat 2 2 fun a b => gramProd (s1.dec.factorMatrices.eraseIdx 1) a b).get [a, b] =
      if a = b then (if a = 0 then 1 else 2) else -1 := by
    intro a ha b hb
    rw [get_ofMat ha hb, hfs1]
    interval_cases a <;> interval_cases b <;>
      simp [gramProd, gramEntry, hF0, Finset.sum_range_succ, hFv, hx] <;> norm_num
  have hM : ∀ i < 3, ∀ b < 2, (mttkrpMat s1.X s1.dec.factorMatrices 1 2).get [i, b] =
      if i = 0 then (if b = 0 then 1 else -1) else if i = 1 then (if b = 0 then -1 else 2) else (if b = 0 then 0 else -4) := by
    intro i hi b hb
    rw [mttkrpMat, get_ofMat (by rw [hX1, hXs]; exact hi) hb, mttkrpEntry, hfs1, hX1, hXs]
    interval_cases i <;> interval_cases b <;>
      simp [rankOne, Finset.sum_range_succ, hFv, hx, List.insertIdx] <;> norm_num
  obtain ⟨W, hW⟩ : ∃ W : NDArray ℝ, W = ofMat 3 2 fun i j =>
    if i = 2 then (if j = 0 then 2 else 0) else if i = j then 1 else 0 := ⟨_, rfl⟩
  have hWg : ∀ i < 3, ∀ j < 2, W.get [i, j] = if i = 2 then (if j = 0 then 2 else 0) else if i = j then 1 else 0 := by
    intro i hi j hj; rw [hW, get_ofMat hi hj]
  have h1' := hopt W (by
    intro i hi j hj
    rw [hWg i hi j hj]
    split_ifs <;> norm_num)
  simp only [resid, Finset.sum_range_succ, Finset.sum_range_zero, zero_add] at h1'
  rw [hWg 0 (by omega) 0 (by omega), hWg 0 (by omega) 1 (by omega), hWg 1 (by omega) 0 (by omega), hWg 1 (by omega) 1 (by omega),
    hWg 2 (by omega) 0 (by omega), hWg 2 (by omega) 1 (by omega), hM 0 (by omega) 0 (by omega), hM 0 (by omega) 1 (by omega),
    hM 1 (by omega) 0 (by omega), hM 1 (by omega) 1 (by omega), hM 2 (by omega) 0 (by omega), hM 2 (by omega) 1 (by omega),
    hV 0 (by omega) 0 (by omega), hV 0 (by omega) 1 (by omega), hV 1 (by omega) 0 (by omega), hV 1 (by omega) 1 (by omega)] at h1'
  norm_num at h1'
  have n5 := hGn 2 (by omega) 1 (by omega)
  obtain ⟨g20, g21, hA0, hB0⟩ := ev_row (f1 := G.get [2, 0]) (f2 := G.get [2, 1])
    (A := (G.get [0, 0] - G.get [0, 1] - 1) ^ 2 + (-G.get [0, 0] + 2 * G.get [0, 1] + 1) ^ 2)
    (B := (G.get [1, 0] - G.get [1, 1] + 1) ^ 2 + (-G.get [1, 0] + 2 * G.get [1, 1] - 2) ^ 2) n5 (by positivity) (by positivity)
    (by nlinarith [h1'])
  obtain ⟨p1, p2⟩ := (add_eq_zero_iff_of_nonneg (sq_nonneg _) (sq_nonneg _)).1 hA0
  obtain ⟨q1, q2⟩ := (add_eq_zero_iff_of_nonneg (sq_nonneg _) (sq_nonneg _)).1 hB0
  have p1 := pow_eq_zero_iff two_ne_zero |>.1 p1
  have p2 := pow_eq_zero_iff two_ne_zero |>.1 p2
  have q1 := pow_eq_zero_iff two_ne_zero |>.1 q1
  have q2 := pow_eq_zero_iff two_ne_zero |>.1 q2
  have g01 : G.get [0, 1] = 0 := by linarith
  have g00 : G.get [0, 0] = 1 := by linarith
  have g11 : G.get [1, 1] = 1 := by linarith
  have g10 : G.get [1, 0] = 0 := by linarith
  -- the state after the iteration
  set s2 := s1.updated 1 2 G with hs2
  have hS2 : s2.Sized 2 := hS1.updated (by rw [hGs, hX1, hXs]; rfl)
  have hC2 : s2.Cached 2 := hC1.updated hm1
  have hfs2 : s2.dec.factorMatrices = [F, G] := by simp [hs2, CPState.updated, hfs1]
  have h20 : s2.trueSSE 2 = 20 := by
    have w0 : s2.dec.weights.get [0] = 1 := hw 0 (by decide)
    have w1 : s2.dec.weights.get [1] = 1 := hw 1 (by decide)
    rw [CPState.trueSSE, sqErr, hfs2, show s2.X = s0.X from rfl, hXs]
    simp only [sumIdx, Finset.sum_range_succ, Finset.sum_range_zero, zero_add, cpEntry, rankOne, w0, w1, g00, g01, g10, g11, g20,
      g21, hFv 0 (by omega) 0 (by omega), hFv 0 (by omega) 1 (by omega), hFv 1 (by omega) 0 (by omega),
      hFv 1 (by omega) 1 (by omega), hx 0 (by omega) 0 (by omega), hx 0 (by omega) 1 (by omega), hx 0 (by omega) 2 (by omega),
      hx 1 (by omega) 0 (by omega), hx 1 (by omega) 1 (by omega), hx 1 (by omega) 2 (by omega)]
    norm_num
  have hit1 : CP.iteration E o s0 = .ok (s2.withSSE (s2.trueSSE 2)) := by
    have : CP.updateFactors E o s0 = .ok s2 := by
      rw [CP.updateFactors, hXs]
      show CP.updateModes E o [0, 1] s0 = _
      rw [CP.updateModes, List.foldlM_cons, u1, bind_ok, List.foldlM_cons, u2, bind_ok]; rfl
    rw [CP.iteration, this, bind_ok, CP.updateConvergence, C35_sse hS2 hC2, bind_ok]; rfl
  have hst : w'.st = s2.withSSE (s2.trueSSE 2) := by
    have h4' : CP.iterate E o 1 s0 = .ok w'.st := h4
    rw [CP.iterate, hit1, bind_ok] at h4'
    exact (Except.ok.inj h4').symm
  have hsum : sumSq evData = 19 := by
    rw [← hX, sumSq, hXs]
    simp only [sumIdx, Finset.sum_range_succ, Finset.sum_range_zero, zero_add, hx 0 (by omega) 0 (by omega),
      hx 0 (by omega) 1 (by omega), hx 0 (by omega) 2 (by omega),
      hx 1 (by omega) 0 (by omega), hx 1 (by omega) 1 (by omega), hx 1 (by omega) 2 (by omega)]
    norm_num
  have hs20 : CP.sse w'.st = .ok 20 := by
    rw [hst, C35_sse (hS2.withSSE _) (hC2.withSSE _), show (s2.withSSE (s2.trueSSE 2)).trueSSE 2 = s2.trueSSE 2 from rfl, h20]
  have hnorm : w'.st.XNorm ^ 2 = 19 := by
    rw [hst, (hC2.withSSE _).norm, Real.sq_sqrt (sumIdx_nonneg fun _ _ => sq_nonneg _), ← hsum, ← hX]; rfl
  refine ⟨w', h1, hit, hs20, hsum, ?_⟩
  rw [CP.explainedVariance, hs20, bind_ok, hnorm, FV.div, if_pos (by norm_num)]
  refine congrArg Except.ok (congrArg FV.fin ?_)
  norm_num

/-- Fits of the same data with the constraint on the other mode instead. -/
example {E : Ext} (hE : E.SVDOk) (hN : E.NNLSOk) (hQ : E.QROk) : ∃ w' v,
    CP.fit E evConfig evData (some 5) (.tensor evStart) (CP.newObject (some [true, false]) none 1 [] none) = .ok () w' ∧
      CP.explainedVariance w'.st = .ok (.fin v) ∧ 0 ≤ v ∧ v ≤ 1 := by
  have hi : evConfig.init.toLower = "precomputed" := by
    show "precomputed".toLower = _
    rw [String.toLower, ← String.toList_inj, String.toList_map]; decide
  have ht : evStart.WF evData.shape 2 := ⟨rfl, by simp [Factors, evStart, evData], rfl⟩
  exact C100_range_partial hE hN hQ (c := evConfig)
    ⟨by decide, by simp [evData], by simp [evData], by simp [evData], by simp, by simp [evConfig], by simp, by simp⟩
    ⟨by simp [evData], by simp, rfl⟩ (by simp [evConfig]) (by intro p hp; simp [evConfig] at hp) (by decide)
    (startsFrom_precomputed hi ht) ht (by decide)
    ⟨fun h => absurd h (show ¬ (0 : Int) < -1 by decide), fun h => absurd h (show ¬ (0 : Int) < -1 by decide),
      fun h => absurd h (show ¬ (0 : Int) < -1 by decide)⟩
    ⟨[0, 0], by simp [evData, Valid], by rw [evData, get_ofMat (by omega) (by omega)]; simp⟩

/-! ## `Parafac2_ALS` -/

/-- Several updates of all modes, at least one. -/
theorem iterM_orthogonal {E : Ext} (hE : E.SVDOk) (hN : E.NNLSOk) {o : CPOpts} (hr : 0 < o.rank) {f : CPState} :
    ∀ {n : ℕ} {s : CPState}, 0 < n → s.Sized o.rank →
      (∀ m < s.X.shape.length, ∃ nn on ridge, s.ModeConfig o m nn on ridge ∧ ¬ (nn = true ∧ on = true)) →
      (∀ r < o.rank, s.dec.weights.get [r] = 1) → s.ModeConfig o (s.X.shape.length - 1) false false none →
      iterM (CP.updateFactors E o) n s = .ok f →
      ResidualOrthogonal f.X (fun r => f.dec.weights.get [r]) f.dec.factorMatrices o.rank (f.X.shape.length - 1)
  | 0, _, h, _, _, _, _, _ => absurd h (lt_irrefl 0)
  | 1, s, _, h, hcfg, hw, hc, e => by
    rw [iterM, bind_eq_ok] at e
    obtain ⟨s1, e1, e2⟩ := e
    obtain rfl : s1 = f := by simpa [iterM] using e2
    exact updateFactors_orthogonal hE hN hr h hcfg hw hc e1
  | n + 2, s, _, h, hcfg, hw, hc, e => by
    rw [iterM, bind_eq_ok] at e
    obtain ⟨s1, e1, e2⟩ := e
    obtain ⟨s1', e1', p, hS⟩ := cp_updateModes_total hE hN hr (List.range s.X.shape.length) s h hcfg (by simp)
    rw [CP.updateFactors, e1'] at e1
    obtain rfl := Except.ok.inj e1
    refine iterM_orthogonal hE hN hr (Nat.succ_pos n) hS (fun m hm => ?_) (by rw [p.weights]; exact hw) ?_ e2
    · rw [p.X] at hm
      obtain ⟨nn, on, ridge, hc, hb⟩ := hcfg m hm
      exact ⟨nn, on, ridge, ⟨by rw [p.nonNeg]; exact hc.nonNeg, by rw [p.orth]; exact hc.orth, hc.ridge⟩, hb⟩
    · rw [p.X]
      exact ⟨by rw [p.nonNeg]; exact hc.nonNeg, by rw [p.orth]; exact hc.orth, hc.ridge⟩

/-- Spec: the squared norm of all slices. -/
def slicesSq (Xs : List (NDArray ℝ)) : ℝ := (Xs.map sumSq).sum

theorem sum_map_nth (f : NDArray ℝ → ℝ) : ∀ l : List (NDArray ℝ), (l.map f).sum = ∑ k ∈ Finset.range l.length, f (nth l k)
  | [] => rfl
  | x :: l => by
    rw [List.map_cons, List.sum_cons, sum_map_nth f l, List.length_cons, Finset.sum_range_succ', add_comm]
    rfl

variable {s : P2State} {I R : ℕ} {Js : List ℕ}

theorem P2State.Sized.slicesSq (h : s.Sized I Js R) :
    slicesSq s.X = ∑ k ∈ Finset.range Js.length, LA.fsq (s.Xm I Js k) := by
  rw [TK.slicesSq, sum_map_nth, h.lenX]
  refine Finset.sum_congr rfl fun k hk => ?_
  rw [sumSq, shape_nth h.X (Finset.mem_range.1 hk), sumIdx_two, LA.fsq, Finset.sum_range]
  refine Finset.sum_congr rfl fun i _ => ?_
  rw [Finset.sum_range]; rfl

theorem projected_sumSq (s : P2State) (I : ℕ) (Js : List ℕ) (R : ℕ) :
    sumSq (p2Projected s.X s.P I Js R) = ∑ k ∈ Finset.range Js.length, LA.fsq (s.Xm I Js k * (s.Ym Js R k)ᵀ) := by
  have e1 : sumSq (p2Projected s.X s.P I Js R) = ∑ i ∈ Finset.range I, ∑ q ∈ Finset.range R, ∑ k ∈ Finset.range Js.length,
      (∑ j ∈ Finset.range (Js.getD k 0), (nth s.X k).get [i, j] * (nth s.P k).get [j, q]) ^ 2 := by
    unfold sumSq
    show sumIdx [I, R, Js.length] _ = _
    simp only [sumIdx_cons, sumIdx_nil]
    refine Finset.sum_congr rfl fun i hi => Finset.sum_congr rfl fun q hq => Finset.sum_congr rfl fun k hk => ?_
    rw [p2Projected, get_ofFn (by simp [Finset.mem_range.1 hi, Finset.mem_range.1 hq, Finset.mem_range.1 hk])]
    rfl
  have e2 : ∀ i, ∑ q ∈ Finset.range R, ∑ k ∈ Finset.range Js.length,
      (∑ j ∈ Finset.range (Js.getD k 0), (nth s.X k).get [i, j] * (nth s.P k).get [j, q]) ^ 2 =
      ∑ k ∈ Finset.range Js.length, ∑ q ∈ Finset.range R,
      (∑ j ∈ Finset.range (Js.getD k 0), (nth s.X k).get [i, j] * (nth s.P k).get [j, q]) ^ 2 := fun i => Finset.sum_comm
  rw [e1]
  simp only [e2]
  rw [Finset.sum_comm]
  refine Finset.sum_congr rfl fun k _ => ?_
  unfold LA.fsq
  rw [Finset.sum_range]
  refine Finset.sum_congr rfl fun i _ => ?_
  rw [Finset.sum_range]
  refine Finset.sum_congr rfl fun q _ => ?_
  rw [Finset.sum_range]
  simp [Matrix.mul_apply, P2State.Xm, P2State.Ym, mat]

/-- An iteration of `Parafac2_ALS` with at least one inner update whose last mode is free. -/
theorem p2_iteration_explained {E : Ext} (hE : E.SVDOk) (hN : E.NNLSOk) {o : P2Opts} {c : CPObj} {s' : P2State}
    (h : s.Working o I Js c) (hsh : s.Shares c) (hc : c.st.ModeConfig (P2.innerOpts o) 2 false false none) (hn : 0 < o.cpUpdates)
    (hs : P2.iteration E o s = .ok s') :
    s'.err I Js o.rank ≤ slicesSq s.X - modelSq [I, o.rank, Js.length] (fun _ => 1) [s'.A, s'.D, s'.C] o.rank := by
  obtain ⟨s'', c', f, e, hw, ha, -, -, hd, hX, -, -, -, -, -, ⟨ef, hf⟩, -, hcon, -⟩ := P2State.iteration_ok hE hN h
  rw [hs] at e
  obtain rfl := Except.ok.inj e
  refine hcon.err_le.trans ?_
  set Xp := p2Projected s.X s'.P I Js o.rank with hXp
  have hsz : ((c.setTarget Xp).read s.heap).Sized o.rank := h.ready.sized h.sized s'.P
  have hcfg : ∀ m < 3, ∃ nn on ridge, ((c.setTarget Xp).read s.heap).ModeConfig (P2.innerOpts o) m nn on ridge ∧
      ¬ (nn = true ∧ on = true) := fun m hm => by
    obtain ⟨nn, on, ridge, hc, hb⟩ := h.ready.config m hm
    exact ⟨nn, on, ridge, ⟨hc.nonNeg, hc.orth, hc.ridge⟩, hb⟩
  have hres := iterM_orthogonal hE hN (o := P2.innerOpts o) (show 0 < o.rank from h.sized.posR) hn hsz hcfg h.ready.wone
    ⟨hc.nonNeg, hc.orth, hc.ridge⟩ ef
  obtain ⟨f', ef', hsame, hfS⟩ := cp_iter_total hE hN (o := P2.innerOpts o) (show 0 < o.rank from h.sized.posR) o.cpUpdates
    ((c.setTarget Xp).read s.heap) hsz hcfg
  rw [ef] at ef'
  obtain rfl := Except.ok.inj ef'
  have hfX : f.X = Xp := hsame.X
  have hfw : f.dec.weights = c.st.dec.weights := hsame.weights
  have hff : f.dec.factorMatrices = [s'.A, s'.D, s'.C] := by
    rw [← hf, ha, hsh]
    show [s'.heap.mem s.dec.A, s'.heap.mem s.dec.blueprint, s'.heap.mem s.dec.C] = _
    rw [← hd]; rfl
  have hsq := hres.sqErr (by rw [hff, hfX]; show 2 < 3; decide)
  have hone : ∀ r < o.rank, f.dec.weights.get [r] = 1 := by rw [hfw]; exact h.ready.wone
  have hmod : modelSq f.X.shape (fun r => f.dec.weights.get [r]) f.dec.factorMatrices o.rank =
      modelSq [I, o.rank, Js.length] (fun _ => 1) [s'.A, s'.D, s'.C] o.rank := by
    rw [hff, hfX]
    refine sumIdx_congr fun idx _ => ?_
    rw [cpEntry_congr_weights hone]
  rw [show (P2.innerOpts o).rank = o.rank from rfl, hmod, hff, hfX] at hsq
  rw [hw.sized.pot_eq _ hone, hX, ← hXp, hsq, h.sized.slicesSq, hXp]
  have e2 := projected_sumSq s' I Js o.rank
  rw [hX] at e2
  rw [e2, Finset.sum_sub_distrib]
  have e3 : ∀ k, s'.Xm I Js k = s.Xm I Js k := fun k => by unfold P2State.Xm; rw [hX]
  simp only [e3]
  linarith

theorem p2_orbit_XNorm {E : Ext} (hE : E.SVDOk) (hN : E.NNLSOk) {o : P2Opts} {c : CPObj} (h : s.Working o I Js c) :
    ∀ j, (P2.orbit E o s j).XNorm = s.XNorm
  | 0 => rfl
  | j + 1 => by
    obtain ⟨c1, h1, -⟩ := p2_orbit_working hE hN h j
    obtain ⟨s', c', f, e, -, -, -, -, -, -, -, hn, -⟩ := P2State.iteration_ok hE hN h1
    rw [P2.orbit, e]
    simp only
    rw [hn, p2_orbit_XNorm hE hN h j]

/-- **C100** for `Parafac2_ALS`, the part that holds: without penalties and orthogonality constraints, with no constraint on
`C` and at least one inner update, after a fit with a positive iteration budget the SSE is at most the squared norm of the data minus that
of the inner model, and so `explained_variance` is between 0 and 1, whatever the start (and although the projection matrices need
not be orthonormal, C52). -/
theorem C100_parafac2_partial {E : Ext} (hE : E.SVDOk) (hN : E.NNLSOk) (hQ : E.QROk) {c : P2.Config} {D : P2Data}
    {arg : InitArg P2Obj} {h0 : Heap} (hi : P2.StartsFrom E c D arg h0 s) (h : s.Sized I Js c.opts.rank) (hs : s.Distinct)
    (hal : s.Allocated) (hnorm : s.XNorm = Real.sqrt (slicesSq s.X)) (hA : P2.Admissible c.opts I Js.length)
    (hon : c.opts.orth = none) (hridge : c.opts.ridgePenalties = none)
    (hnn : (P2.nonNegOption c.opts)[2]? = some false) (hup : 0 < c.opts.cpUpdates)
    (hlog : c.Measurable I Js) (hfreq : freqOption c.freq ≠ 0)
    {budget : Int} {mi : Option Int} (hb : 0 < mi.getD budget) {loggers : List Logger} {file : Option H5File}
    (hS : Storing (P2.method E c) (P2.newObject h0 budget loggers file) []) :
    ∃ w', P2.fit E c D mi arg (P2.newObject h0 budget loggers file) = .ok () w' ∧ w'.st.X = s.X ∧
      P2.sse w'.st = .ok (w'.st.err I Js c.opts.rank) ∧
      w'.st.err I Js c.opts.rank ≤ slicesSq s.X -
        modelSq [I, c.opts.rank, Js.length] (fun _ => 1) [w'.st.A, w'.st.D, w'.st.C] c.opts.rank ∧
      (slicesSq s.X ≠ 0 → ∃ v, P2.explainedVariance w'.st = .ok (.fin v) ∧ 0 ≤ v ∧ v ≤ 1 ∧
        v = 1 - w'.st.err I Js c.opts.rank / slicesSq s.X) := by
  have hof : P2State.orthFlags c.opts = [false, false, false] := by rw [P2State.orthFlags, hon]; rfl
  have hno : ∀ j : ℕ, ([false, false, false] : List Bool)[j]? ≠ some true := by
    intro j
    match j with
    | 0 => simp
    | 1 => simp
    | 2 => simp
    | _ + 3 => simp
  obtain ⟨l, sp, w', k, el, ep, -, hfit, -, hit, hst, -, hstop, -, hsse, hX, -⟩ := C80_fit_completes hE hN hQ hi h hs hal hA hlog hfreq
    (mi := mi) hS
  obtain ⟨h', ci, ep', hw, -, -, hn1, ho1, -, -, hsh, -⟩ := P2State.prepareCp_ok (E := E) hQ (o := c.opts) (h.withLoss .pinf l)
    (hs.loss .pinf l) hA (fun _ => hal)
  rw [ep] at ep'
  obtain rfl : sp = (s.withLoss .pinf l).withInner h' ci := by injection ep'
  rw [hof] at hsh ho1
  obtain ⟨rfl, h3⟩ := hsh hno
  have hk : k ≠ 0 := by
    rintro rfl
    have := hstop (by exact_mod_cast hb)
    rw [hst] at this
    cases this
  obtain ⟨j, rfl⟩ : ∃ j, k = j + 1 := ⟨k - 1, by omega⟩
  obtain ⟨c1, hw1, ha, hn2, ho2, hd, hXj, -⟩ := p2_orbit_working hE hN hw j
  have hsh1 : (P2.orbit E c.opts ((s.withLoss .pinf l).withInner (s.withLoss .pinf l).heap ci) j).Shares c1 := by
    unfold P2State.Shares
    rw [ha, hd]; exact h3
  have hmain := p2_iteration_explained hE hN hw1 hsh1
    ⟨⟨_, hn2.trans hn1, hnn⟩, ⟨_, ho2.trans ho1, rfl⟩, Or.inl ⟨hridge, rfl⟩⟩ hup (p2_orbit_step hE hN hw j)
  rw [← hst, hXj, show ((s.withLoss .pinf l).withInner (s.withLoss .pinf l).heap ci).X = s.X from rfl] at hmain
  refine ⟨w', hfit, hX, hsse, hmain, fun h0 => ?_⟩
  have hpos0 : 0 ≤ slicesSq s.X := by
    rw [h.slicesSq]
    exact Finset.sum_nonneg fun k _ => LA.fsq_nonneg _
  have hpos : 0 < slicesSq s.X := lt_of_le_of_ne hpos0 (Ne.symm h0)
  have hN2 : w'.st.XNorm ^ 2 = slicesSq s.X := by
    rw [hst, p2_orbit_XNorm hE hN hw]
    show s.XNorm ^ 2 = _
    rw [hnorm, Real.sq_sqrt hpos0]
  have herr : 0 ≤ w'.st.err I Js c.opts.rank := by
    rw [P2State.err_eq]
    exact Finset.sum_nonneg fun k _ => LA.fsq_nonneg _
  have hm0 : 0 ≤ modelSq [I, c.opts.rank, Js.length] (fun _ => 1) [w'.st.A, w'.st.D, w'.st.C] c.opts.rank :=
    sumIdx_nonneg fun _ _ => sq_nonneg _
  refine ⟨_, ?_, ?_, ?_, rfl⟩
  · rw [P2.explainedVariance, hsse, bind_ok, hN2, FV.div, if_pos h0]; rfl
  · rw [sub_nonneg, div_le_one hpos]; linarith
  · rw [sub_le_self_iff]; exact div_nonneg herr hpos.le

/-- **C100** for `Parafac2_ALS` with `init="random"` and default options. -/
theorem C100_parafac2_random {E : Ext} (hE : E.SVDOk) (hN : E.NNLSOk) (hQ : E.QROk) {c : P2.Config}
    (hi : c.init.toLower = "random") {n : ℕ} {g : List ℕ → ℝ} (ho : c.opts = p2Plain R (n + 1) g) (hlog : c.logs = [])
    (hfreq : c.freq = none) {Xs : List (NDArray ℝ)} (hI : 0 < I) (hX : List.Forall₂ (fun Xk J => Xk.shape = [I, J]) Xs Js)
    (hK : 0 < Js.length) (hR : 0 < R) (hJ : ∀ J ∈ Js, R ≤ J) (h0 : Heap) (budget : Int) (mi : Option Int)
    (hb : 0 < mi.getD budget) (loggers : List Logger) (file : Option H5File) (hne : slicesSq Xs ≠ 0) :
    ∃ w' v, P2.fit E c (.list Xs) mi .none (P2.newObject h0 budget loggers file) = .ok () w' ∧
      P2.explainedVariance w'.st = .ok (.fin v) ∧ 0 ≤ v ∧ v ≤ 1 ∧
        v = 1 - p2Err Xs w'.st.P w'.st.A w'.st.D w'.st.C I Js R / slicesSq Xs := by
  have hr : c.opts.rank = R := by rw [ho]; rfl
  have e0 := p2_setTarget_list hX hK (P2.fresh h0)
  set s0 : P2State := { P2.fresh h0 with
      X := Xs
      XShape := (I, Js, Js.length)
      XNorm := Real.sqrt ((Xs.map fun Xk => frobNorm Xk ^ 2).sum) } with hs0
  have hJ' : ∀ J ∈ Js, c.opts.rank ≤ J := by rw [hr]; exact hJ
  have hR' : 0 < c.opts.rank := by rw [hr]; exact hR
  have hd : s0.Data I Js := ⟨hI, fun J hJ2 => hR'.trans_le (hJ' J hJ2), hK, hX, rfl⟩
  obtain ⟨t, e, h1, h2, h3, h4, h5⟩ := P2State.initRandom_ok hQ hd hR' hJ'
  obtain ⟨g1, g2, g3, g4, -⟩ := P2State.setNew_spec hd hR' h1 h2 h3 h4
  have hstart : P2.StartsFrom E c (.list Xs) .none h0 (P2.setNew t s0) := by
    refine ⟨s0, e0, fun budget loggers file => ?_⟩
    unfold P2.initComponents
    simp only [hi]
    exact modifySt_ok (w := ⟨s0, 0, budget, loggers, file⟩) e
  have hnorm : (P2.setNew t s0).XNorm = Real.sqrt (slicesSq (P2.setNew t s0).X) := by
    show Real.sqrt ((Xs.map fun Xk => frobNorm Xk ^ 2).sum) = Real.sqrt (slicesSq Xs)
    congr 2
    exact List.map_congr_left fun Xk _ => frobNorm_sq Xk
  obtain ⟨w', q1, q2, q3, -, q4⟩ := C100_parafac2_partial hE hN hQ hstart g1 g2.distinct g3 hnorm
    (by rw [ho]; exact p2Plain_admissible hR hI hK) (by rw [ho]; rfl) (by rw [ho]; rfl) (by rw [ho]; rfl)
    (by rw [ho]; exact Nat.succ_pos n) (by intro p hp; rw [hlog] at hp; cases hp) (by rw [hfreq]; decide) (budget := budget)
    (mi := mi) hb (loggers := loggers) (file := file) (p2_storing_none hfreq _ _)
  obtain ⟨v, v1, v2, v3, v4⟩ := q4 hne
  refine ⟨w', v, q1, v1, v2, v3, ?_⟩
  rw [v4, P2State.err, q2, hr]; rfl

/-- Two slices with 2 and 3 columns. -/
example : slicesSq [full [2, 2] 1, full [2, 3] 5] ≠ 0 ∧
    List.Forall₂ (fun (Xk : NDArray ℝ) J => Xk.shape = [2, J]) [full [2, 2] 1, full [2, 3] 5] [2, 3] := by
  refine ⟨?_, .cons rfl (.cons rfl .nil)⟩
  have h1 : ∀ (l : List ℕ) (x : ℝ), sumSq (full l x) = sumIdx l fun _ => x ^ 2 := fun l x =>
    sumIdx_congr fun idx hi => by rw [get_full (s := l) hi]
  simp only [slicesSq, List.map_cons, List.map_nil, h1, sumIdx, List.sum_cons, List.sum_nil, Finset.sum_const, Finset.card_range]
  norm_num

end
end TK
