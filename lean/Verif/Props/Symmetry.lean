import Verif.Lemmas.Symmetry
import Verif.Props.Stopping

/-!
# C95-C98: what a fit does not depend on

Source: cp.py:90-97 (the normal equations), 144-190 (the updates), 400-423 (the loop and its stopping tests),
utils.py `rightsolve`.

A fit of `CP_ALS` without constraints and penalties commutes with multiplying the data by a constant, with moving the
rows of a mode, with the order and the signs of the components of the initial decomposition, and does not depend on
which singular value decomposition the numerical library returns.
-/

namespace TK
open NDArray Fit Matrix
open EStateM (Result)

noncomputable section

/-- Two states whose tensors and factor matrices correspond. -/
structure CPState.Moved (R : ℕ) (perm : Equiv.Perm ℕ) (ss : List ModeChange) (c : ℝ) (s s' : CPState) : Prop where
  tensor : TensorMoved ss c s.X s'.X
  factors : FactorsMoved R perm ss s.X.shape s.dec.factorMatrices s'.dec.factorMatrices

variable {perm : Equiv.Perm ℕ} {ss : List ModeChange} {a : ℝ}

/-- One update of two states whose other factor matrices correspond gives corresponding states. -/
theorem update_moved {E E' : Ext} (hE : E.SVDOk) (hE' : E'.SVDOk) {o : CPOpts} (hr : 0 < o.rank)
    (hridge : o.ridgePenalties = none) {s s' : CPState} (h : s.Sized o.rank) (h' : s'.Sized o.rank)
    (hU : s.Unconstrained) (hU' : s'.Unconstrained) (hC : Change o.rank perm s.X.shape ss a)
    (hT : TensorMoved ss a s.X s'.X) {m : ℕ} (hm : m < s.X.shape.length)
    (hM : FactorsMoved o.rank perm (ss.eraseIdx m) (s.X.shape.eraseIdx m) (s.dec.factorMatrices.eraseIdx m)
      (s'.dec.factorMatrices.eraseIdx m)) :
    ∃ F F', F.shape = [s.X.shape.getD m 0, o.rank] ∧ F'.shape = [s'.X.shape.getD m 0, o.rank] ∧
      CP.updateFactor E o m s = .ok (s.updated m o.rank F) ∧
      CP.updateFactor E' o m s' = .ok (s'.updated m o.rank F') ∧
      (s.updated m o.rank F).Moved o.rank perm ss a (s'.updated m o.rank F') := by
  obtain ⟨l1, a1, b1⟩ := hU.nonNeg
  obtain ⟨l2, a2, b2⟩ := hU.orth
  obtain ⟨l1', a1', b1'⟩ := hU'.nonNeg
  obtain ⟨l2', a2', b2'⟩ := hU'.orth
  have hX := hT.shape
  have hm' : m < s'.X.shape.length := by rw [hX]; exact hm
  have hss : ss.length = s.X.shape.length := hC.rows.length_eq
  have hms : m < ss.length := by rw [hss]; exact hm
  obtain ⟨F, hF, e, hrow⟩ := update_rows hE h hm ⟨⟨l1, a1, b1 m hm⟩, ⟨l2, a2, b2 m hm⟩, Or.inl ⟨hridge, rfl⟩⟩
  obtain ⟨F', hF', e', hrow'⟩ := update_rows hE' h' hm' ⟨⟨l1', a1', b1' m hm'⟩, ⟨l2', a2', b2' m hm'⟩, Or.inl ⟨hridge, rfl⟩⟩
  refine ⟨F, F', hF, hF', e, e', hT, ?_⟩
  refine FactorsMoved.set_of_eraseIdx hms hss hM h.wf.factors.length_eq
    (by rw [h'.wf.factors.length_eq, hX]) hF (by rw [hF', hX]) fun i hi r hr' => ?_
  obtain ⟨B, hB, hβ⟩ := coefProd_sq (ss := ss.eraseIdx m) (R := o.rank)
    fun t ht => hC.abs t (List.mem_of_mem_eraseIdx ht)
  have hi' : (ss[m]).row i < s'.X.shape.getD m 0 := by rw [hX]; exact (rows_get hC.rows hms i).2 hi
  obtain ⟨p1, p2⟩ := hrow i hi
  obtain ⟨p1', p2'⟩ := hrow' _ hi'
  exact row_moved hr hC.comps (V' := gramProd (s'.dec.factorMatrices.eraseIdx m)) (fun _ _ => gramProd_comm _ _ _)
    (f := fun r => F.get [i, r]) (f' := fun r => F'.get [(ss[m]).row i, r]) (α := (ss[m]).coef)
    (β := coefProd (ss.eraseIdx m)) (M := fun b => mttkrpEntry s.X s.dec.factorMatrices m i b)
    (M' := fun b => mttkrpEntry s'.X s'.dec.factorMatrices m ((ss[m]).row i) b) hB hβ
    (fun r hr => by rw [← coefProd_eraseIdx hms]; exact hC.prod r hr)
    (fun x hx y hy => hM.gramProd (rows_eraseIdx hC.rows m) hx hy)
    (fun b hb => mttkrpEntry_moved hC hT hms hss hM hi hb) p1 p1' p2 p2' r hr'

theorem updates_moved {E E' : Ext} (hE : E.SVDOk) (hE' : E'.SVDOk) {o : CPOpts} (hr : 0 < o.rank)
    (hridge : o.ridgePenalties = none) : ∀ (modes : List ℕ) {s s' : CPState}, s.Sized o.rank → s'.Sized o.rank →
    s.Unconstrained → s'.Unconstrained → Change o.rank perm s.X.shape ss a → s.Moved o.rank perm ss a s' →
    (∀ m ∈ modes, m < s.X.shape.length) → ∀ {t t'}, CP.updateModes E o modes s = .ok t →
    CP.updateModes E' o modes s' = .ok t' → t.Moved o.rank perm ss a t' := by
  intro modes
  induction modes with
  | nil =>
    intro s s' _ _ _ _ _ hM _ t t' e e'
    obtain rfl : s = t := by simpa [CP.updateModes, pure, Except.pure] using e
    obtain rfl : s' = t' := by simpa [CP.updateModes, pure, Except.pure] using e'
    exact hM
  | cons m ms ih =>
    intro s s' h h' hU hU' hC hM hm t t' e e'
    obtain ⟨F, F', hF, hF', u, u', hM1⟩ := update_moved hE hE' hr hridge h h' hU hU' hC hM.tensor
      (hm m (by simp)) (hM.factors.eraseIdx m)
    rw [CP.updateModes, List.foldlM_cons, u, bind_ok] at e
    rw [CP.updateModes, List.foldlM_cons, u', bind_ok] at e'
    exact ih (h.updated hF) (h'.updated hF') ⟨hU.nonNeg, hU.orth⟩ ⟨hU'.nonNeg, hU'.orth⟩ hC hM1
      (fun k hk => hm k (by simp [hk])) e e'

theorem orbit_moved_step {E E' : Ext} (hE : E.SVDOk) (hN : E.NNLSOk) (hE' : E'.SVDOk) (hN' : E'.NNLSOk) {o : CPOpts}
    (hr : 0 < o.rank) (hridge : o.ridgePenalties = none) {s s' : CPState} (h : s.Good o) (h' : s'.Good o)
    (hU : s.Unconstrained) (hU' : s'.Unconstrained) (hC : Change o.rank perm s.X.shape ss a) {j : ℕ}
    (ih : (CP.orbit E o s j).Moved o.rank perm ss a (CP.orbit E' o s' j)) :
    (CP.orbit E o s (j + 1)).Moved o.rank perm ss a (CP.orbit E' o s' (j + 1)) := by
  obtain ⟨g, p⟩ := orbit_good hE hN hr h j
  obtain ⟨g', p'⟩ := orbit_good hE' hN' hr h' j
  obtain ⟨t, e, q1, -, q3⟩ := iteration_inv (orbit_step hE hN hr h j)
  obtain ⟨t', e', q1', -, q3'⟩ := iteration_inv (orbit_step hE' hN' hr h' j)
  rw [ih.tensor.shape] at q1'
  have := updates_moved hE hE' hr hridge _ g.sized g'.sized (orbit_unconstrained hE hN hr h hU j)
    (orbit_unconstrained hE' hN' hr h' hU' j) (by rw [p.X]; exact hC) ih (fun m hm => by simpa using hm) q1 q1'
  rw [q3, q3']
  exact ⟨this.tensor, this.factors⟩

/-- All iterates of corresponding states correspond. -/
theorem orbit_moved {E E' : Ext} (hE : E.SVDOk) (hN : E.NNLSOk) (hE' : E'.SVDOk) (hN' : E'.NNLSOk) {o : CPOpts}
    (hr : 0 < o.rank) (hridge : o.ridgePenalties = none) {s s' : CPState} (h : s.Good o) (h' : s'.Good o)
    (hU : s.Unconstrained) (hU' : s'.Unconstrained) (hC : Change o.rank perm s.X.shape ss a)
    (hM : s.Moved o.rank perm ss a s') (j : ℕ) :
    (CP.orbit E o s j).Moved o.rank perm ss a (CP.orbit E' o s' j) := by
  induction j with
  | zero => exact hM
  | succ j ih => exact orbit_moved_step hE hN hE' hN' hr hridge h h' hU hU' hC ih

/-- After the first iteration it does not matter whether the factor matrices of the first mode corresponded. -/
theorem orbit_moved_rest {E E' : Ext} (hE : E.SVDOk) (hN : E.NNLSOk) (hE' : E'.SVDOk) (hN' : E'.NNLSOk) {o : CPOpts}
    (hr : 0 < o.rank) (hridge : o.ridgePenalties = none) {s s' : CPState} (h : s.Good o) (h' : s'.Good o)
    (hU : s.Unconstrained) (hU' : s'.Unconstrained) (hC : Change o.rank perm s.X.shape ss a)
    (hT : TensorMoved ss a s.X s'.X)
    (hM : FactorsMoved o.rank perm (ss.eraseIdx 0) (s.X.shape.eraseIdx 0) (s.dec.factorMatrices.eraseIdx 0)
      (s'.dec.factorMatrices.eraseIdx 0)) (j : ℕ) :
    (CP.orbit E o s (j + 1)).Moved o.rank perm ss a (CP.orbit E' o s' (j + 1)) := by
  induction j with
  | succ j ih => exact orbit_moved_step hE hN hE' hN' hr hridge h h' hU hU' hC ih
  | zero =>
    have hl : 0 < s.X.shape.length := by have := h.sized.order; omega
    obtain ⟨F, F', hF, hF', u, u', hM1⟩ := update_moved hE hE' hr hridge h.sized h'.sized hU hU' hC hT hl hM
    obtain ⟨t, e, q1, -, q3⟩ := iteration_inv (orbit_step hE hN hr h 0)
    obtain ⟨t', e', q1', -, q3'⟩ := iteration_inv (orbit_step hE' hN' hr h' 0)
    obtain ⟨n, hn⟩ : ∃ n, s.X.shape.length = n + 1 := ⟨s.X.shape.length - 1, by omega⟩
    rw [show CP.orbit E o s 0 = s from rfl, hn, List.range_succ_eq_map, CP.updateModes, List.foldlM_cons, u, bind_ok] at q1
    rw [show CP.orbit E' o s' 0 = s' from rfl, hT.shape, hn, List.range_succ_eq_map, CP.updateModes, List.foldlM_cons, u',
      bind_ok] at q1'
    have := updates_moved hE hE' hr hridge ((List.range n).map Nat.succ) (s := s.updated 0 o.rank F)
      (s' := s'.updated 0 o.rank F') (h.sized.updated hF) (h'.sized.updated hF')
      ⟨hU.nonNeg, hU.orth⟩ ⟨hU'.nonNeg, hU'.orth⟩ hC hM1
      (fun m hm => by
        show m < s.X.shape.length
        simp only [List.mem_map, List.mem_range] at hm
        omega) q1 q1'
    rw [q3, q3']
    exact ⟨this.tensor, this.factors⟩

theorem trueSSE_moved {R : ℕ} {s s' : CPState} (hw : ∀ r < R, s.dec.weights.get [r] = 1)
    (hw' : ∀ r < R, s'.dec.weights.get [r] = 1) (hC : Change R perm s.X.shape ss a) (hM : s.Moved R perm ss a s') :
    s'.trueSSE R = a ^ 2 * s.trueSSE R := by
  rw [CPState.trueSSE, CPState.trueSSE, sqErr_congr_weights (w' := fun _ => 1) hw',
    sqErr_congr_weights (w' := fun _ => 1) hw, sqErr_moved hC hM.tensor hM.factors]

theorem div_scale {k x y : ℝ} (hk : 0 < k) : FV.div (k * x) (k * y) = FV.div x y := by
  unfold FV.div
  by_cases hy : y = 0
  · subst hy
    simp only [mul_zero, ne_eq, not_true_eq_false, if_false]
    rw [if_congr (mul_pos_iff_of_pos_left hk) rfl rfl]
    by_cases h0 : 0 < x
    · simp [h0]
    · simp only [h0, if_false]
      refine if_congr ?_ rfl rfl
      constructor <;> intro h <;> nlinarith
  · rw [if_pos hy, if_pos (mul_ne_zero hk.ne' hy), mul_div_mul_left _ _ hk.ne']

/-- C95-C98 in one statement. Let the tensor `X'` be `X` with the rows of each mode moved and all entries multiplied by
`a`, and let the factor matrices of the initial decomposition `t'` be those of `t` with rows and columns moved and
columns multiplied by coefficients of constant absolute value per mode and product `a` per component. Then the fit of
`X'` from `t'`, by any numerical library that meets the contract of the singular value decomposition, makes as many
iterations as the fit of `X` from `t`, its factor matrices are obtained from those of the latter in the same way, its
error is `a²` times the error, the recorded relative changes are equal, and so are the verdicts of the stopping test. -/
theorem fit_moved {E E' : Ext} (hE : E.SVDOk) (hN : E.NNLSOk) (hQ : E.QROk) (hE' : E'.SVDOk) (hN' : E'.NNLSOk)
    (hQ' : E'.QROk) {c c' : CP.Config} (hopts : c'.opts = c.opts) {X X' : NDArray ℝ}
    (hA : CP.Admissible c.opts none none X.shape) (hridge : c.opts.ridgePenalties = none)
    (hlog : c.Measurable) (hlog' : c'.Measurable) (hfreq : freqOption c.freq ≠ 0) (hfreq' : freqOption c'.freq ≠ 0)
    {arg arg' : InitArg KruskalTensor} {t t' : KruskalTensor}
    (hi : CP.StartsFrom E c none none arg X t) (hi' : CP.StartsFrom E' c' none none arg' X' t')
    (ht : t.WF X.shape c.opts.rank) (ht' : t'.WF X'.shape c.opts.rank)
    (hC : Change c.opts.rank perm X.shape ss a) (hX : TensorMoved ss a X X')
    (hF : FactorsMoved c.opts.rank perm ss X.shape t.factorMatrices t'.factorMatrices)
    {budget budget' : Int} {mi mi' : Option Int} (hb : 0 < mi.getD budget) (hbb : mi'.getD budget' = mi.getD budget)
    {loggers loggers' : List Logger} {file file' : Option H5File}
    (hS : Storing (CP.method E c) (CP.newObject none none budget loggers file) [])
    (hS' : Storing (CP.method E' c') (CP.newObject none none budget' loggers' file') []) :
    ∃ w w' e, CP.fit E c X mi arg (CP.newObject none none budget loggers file) = .ok () w ∧
      CP.fit E' c' X' mi' arg' (CP.newObject none none budget' loggers' file') = .ok () w' ∧
      w'.it = w.it ∧ CP.sse w.st = .ok e ∧ CP.sse w'.st = .ok (a ^ 2 * e) ∧
      w'.st.relChange = w.st.relChange ∧ CP.shouldStop c'.opts w'.st = CP.shouldStop c.opts w.st ∧
      FactorsMoved c.opts.rank perm ss X.shape w.st.dec.factorMatrices w'.st.dec.factorMatrices ∧
      w.st.dec.WF X.shape c.opts.rank ∧ w'.st.dec.WF X.shape c.opts.rank ∧
      (∀ r < c.opts.rank, w.st.dec.weights.get [r] = 1) ∧ (∀ r < c.opts.rank, w'.st.dec.weights.get [r] = 1) := by
  have hA' : CP.Admissible c'.opts none none X'.shape := by rw [hopts, hX.shape]; exact hA
  obtain ⟨s, w, k, e0, h1, h2, h3, h4, h5, h6, hwf, -⟩ := C74_fit_completes hE hN hQ hA hlog hfreq hi ht hb hS
  obtain ⟨s', w', k', e0', h1', h2', h3', h4', h5', h6', hwf', -⟩ := C74_fit_completes hE' hN' hQ' hA' hlog' hfreq' hi'
    (by rw [hopts]; exact ht') (by rw [hbb]; exact hb) hS'
  obtain ⟨z, ez, hG, hXs, -, hrel, hw, hnn, hon, hdec⟩ :=
    initFit_good (E := E) hQ (old := CP.fresh none none) rfl hA ht
  rw [e0] at ez
  obtain rfl : s = z := Except.ok.inj ez
  obtain ⟨z, ez, hG', hXs', -, hrel', hw', hnn', hon', hdec'⟩ :=
    initFit_good (E := E') hQ' (old := CP.fresh none none) rfl hA' (by rw [hopts]; exact ht')
  rw [e0'] at ez
  obtain rfl : s' = z := Except.ok.inj ez
  rw [hopts] at hG' hw' h4' h5' h6' hwf' ⊢
  rw [hX.shape] at hwf'
  have hU : s.Unconstrained := by
    refine ⟨⟨_, hnn, fun m hm => ?_⟩, ⟨_, hon, fun m hm => ?_⟩⟩ <;>
      simpa [CP.fresh, List.getElem?_replicate] using hXs ▸ hm
  have hU' : s'.Unconstrained := by
    refine ⟨⟨_, hnn', fun m hm => ?_⟩, ⟨_, hon', fun m hm => ?_⟩⟩ <;>
      simpa [CP.fresh, List.getElem?_replicate] using hXs' ▸ hm
  have hCs : Change c.opts.rank perm s.X.shape ss a := by rw [hXs]; exact hC
  have hM : s.Moved c.opts.rank perm ss a s' := by
    refine ⟨by rw [hXs, hXs']; exact hX, ?_⟩
    rw [hXs, hdec rfl, hdec' rfl]; exact hF
  have hr := hA.rank
  have ha2 : 0 < a ^ 2 := by have := hC.ne_zero hr; positivity
  have horb := orbit_moved hE hN hE' hN' hr hridge hG hG' hU hU' hCs hM
  have hW : ∀ j, ∀ r < c.opts.rank, (CP.orbit E c.opts s j).dec.weights.get [r] = 1 := fun j => by
    rw [(orbit_good hE hN hr hG j).2.weights]; exact hw
  have hW' : ∀ j, ∀ r < c.opts.rank, (CP.orbit E' c.opts s' j).dec.weights.get [r] = 1 := fun j => by
    rw [(orbit_good hE' hN' hr hG' j).2.weights]; exact hw'
  have hsse : ∀ j, (CP.orbit E' c.opts s' j).trueSSE c.opts.rank = a ^ 2 * (CP.orbit E c.opts s j).trueSSE c.opts.rank :=
    fun j => trueSSE_moved (hW j) (hW' j) (by rw [(orbit_good hE hN hr hG j).2.X]; exact hCs) (horb j)
  have hnorm : s'.XNorm ^ 2 = a ^ 2 * s.XNorm ^ 2 := by
    rw [hG.cached.norm, hG'.cached.norm, Real.sq_sqrt (sumIdx_nonneg fun _ _ => sq_nonneg _),
      Real.sq_sqrt (sumIdx_nonneg fun _ _ => sq_nonneg _)]
    exact sqNorm_moved hCs hM.tensor
  have hrc : ∀ j, (CP.orbit E' c.opts s' j).relChange = (CP.orbit E c.opts s j).relChange := by
    intro j
    cases j with
    | zero => show s'.relChange = s.relChange; rw [hrel, hrel']
    | succ j =>
      rw [orbit_relChange hE hN hr hG j, orbit_relChange hE' hN' hr hG' j, hsse, hsse, ← mul_sub, div_scale ha2]
  have hstop : ∀ j, CP.shouldStop c.opts (CP.orbit E' c.opts s' j) = CP.shouldStop c.opts (CP.orbit E c.opts s j) := by
    intro j
    obtain ⟨g, p⟩ := orbit_good hE hN hr hG j
    obtain ⟨g', p'⟩ := orbit_good hE' hN' hr hG' j
    rw [CP.shouldStop, CP.shouldStop, C35_sse g.sized g.cached, C35_sse g'.sized g'.cached, bind_ok, bind_ok, hrc,
      hsse, p.XNorm, p'.XNorm, hnorm, div_scale ha2]
  have hst : w.st = CP.orbit E c.opts s k := by
    rw [orbit_iterate hE hN hr k hG] at h4; exact (Except.ok.inj h4).symm
  have hst' : w'.st = CP.orbit E' c.opts s' k' := by
    rw [orbit_iterate hE' hN' hr k' hG'] at h4'; exact (Except.ok.inj h4').symm
  have hgo : ∀ j < k, CP.shouldStop c.opts (CP.orbit E c.opts s j) = .ok false := by
    intro j hj
    obtain ⟨x, r1, r2⟩ := h5 j hj
    rw [orbit_iterate hE hN hr j hG] at r1
    rw [Except.ok.inj r1]; exact r2
  have hgo' : ∀ j < k', CP.shouldStop c.opts (CP.orbit E' c.opts s' j) = .ok false := by
    intro j hj
    obtain ⟨x, r1, r2⟩ := h5' j hj
    rw [orbit_iterate hE' hN' hr j hG'] at r1
    rw [Except.ok.inj r1]; exact r2
  obtain rfl : k' = k := by
    rcases lt_trichotomy k' k with hlt | heq | hlt
    · have := h6' (by omega)
      rw [hst', hstop, hgo k' hlt] at this
      cases this
    · exact heq
    · have := h6 (by omega)
      rw [hst, ← hstop, hgo' k hlt] at this
      cases this
  have g := (orbit_good hE hN hr hG k').1
  have g' := (orbit_good hE' hN' hr hG' k').1
  refine ⟨w, w', _, h1, h1', by rw [h3, h3'], by rw [hst]; exact C35_sse g.sized g.cached, ?_, by rw [hst, hst', hrc],
    by rw [hst, hst', hstop], ?_, hwf, hwf', by rw [hst]; exact hW k', by rw [hst']; exact hW' k'⟩
  · rw [hst', C35_sse g'.sized g'.cached, hsse]
  · have := (horb k').factors
    rw [(orbit_good hE hN hr hG k').2.X, hXs, ← hst, ← hst'] at this
    exact this

/-! ## C98: the numerical library -/

theorem FactorsMoved.eq {R : ℕ} {ss : List ModeChange} {sizes : List ℕ} {fs fs' : List (NDArray ℝ)}
    (h : FactorsMoved R (Equiv.refl ℕ) ss sizes fs fs') (hs : ∀ s ∈ ss, s.row = Equiv.refl ℕ ∧ ∀ r, s.coef r = 1) :
    fs' = fs := by
  induction h with
  | nil => rfl
  | @cons s n F F' ss ns fs fs' h1 h2 h3 _ ih =>
    obtain ⟨e1, e2⟩ := hs s (by simp)
    have : F' = F := by
      apply ext_get (by rw [h1, h2])
      intro idx hv
      rw [h2] at hv
      match idx, hv with
      | [i, r], hv =>
        have := h3 i hv.1 r hv.2.1
        rw [e1, e2, one_mul] at this
        exact this
    rw [this, ih fun s' hs' => hs s' (by simp [hs'])]

theorem KruskalTensor.WF.eq {t t' : KruskalTensor} {sizes : List ℕ} {R : ℕ} (h : t.WF sizes R) (h' : t'.WF sizes R)
    (hf : t'.factorMatrices = t.factorMatrices) (hw : ∀ r < R, t.weights.get [r] = 1)
    (hw' : ∀ r < R, t'.weights.get [r] = 1) : t' = t := by
  have : t'.weights = t.weights := by
    apply ext_get (by rw [h.weights, h'.weights])
    intro idx hv
    rw [h'.weights] at hv
    match idx, hv with
    | [r], hv => rw [hw r hv.1, hw' r hv.1]
  cases t; cases t'
  simp only at this hf
  have h1 := h.rank
  have h2 := h'.rank
  simp only at h1 h2
  subst this hf h1 h2
  rfl

/-- C98: the decomposition that a fit without constraints and penalties returns, its error, the number of iterations and
the verdict of the stopping test do not depend on which singular value decomposition the numerical library returns
where there is a choice (signs, the basis of a singular subspace, the vectors of the null space), nor on what it does
for non-negative least squares and the QR factorisation. -/
theorem C98_library {E E' : Ext} (hE : E.SVDOk) (hN : E.NNLSOk) (hQ : E.QROk) (hE' : E'.SVDOk) (hN' : E'.NNLSOk)
    (hQ' : E'.QROk) {c : CP.Config} {X : NDArray ℝ}
    (hA : CP.Admissible c.opts none none X.shape) (hridge : c.opts.ridgePenalties = none)
    (hlog : c.Measurable) (hfreq : freqOption c.freq ≠ 0) {arg : InitArg KruskalTensor} {t : KruskalTensor}
    (hi : CP.StartsFrom E c none none arg X t) (hi' : CP.StartsFrom E' c none none arg X t)
    (ht : t.WF X.shape c.opts.rank) {budget : Int} {mi : Option Int} (hb : 0 < mi.getD budget)
    {loggers : List Logger} {file : Option H5File}
    (hS : Storing (CP.method E c) (CP.newObject none none budget loggers file) [])
    (hS' : Storing (CP.method E' c) (CP.newObject none none budget loggers file) []) :
    ∃ w w', CP.fit E c X mi arg (CP.newObject none none budget loggers file) = .ok () w ∧
      CP.fit E' c X mi arg (CP.newObject none none budget loggers file) = .ok () w' ∧
      w'.st.dec = w.st.dec ∧ w'.it = w.it ∧ CP.sse w'.st = CP.sse w.st ∧ w'.st.relChange = w.st.relChange ∧
      CP.shouldStop c.opts w'.st = CP.shouldStop c.opts w.st := by
  have hmv : ∀ idx, Valid X.shape idx →
      moveIdx (changes X.shape.length (fun _ => Equiv.refl ℕ) fun _ _ => 1) idx = idx := fun idx hv => by
    rw [moveIdx_changes hv.length_eq, mapIdx_refl]
  obtain ⟨w, w', e, h1, h2, h3, h4, h5, h6, h7, h8, h9, h10, h11, h12⟩ := fit_moved hE hN hQ hE' hN' hQ' rfl hA hridge hlog
    hlog hfreq hfreq hi hi' ht ht (perm := Equiv.refl ℕ) (a := 1)
    (ss := changes X.shape.length (fun _ => Equiv.refl ℕ) fun _ _ => 1)
    (change_of rfl (by simp) (by simp) (fun _ _ => ⟨1, one_pos, by simp⟩) (by simp))
    ⟨rfl, fun idx hv => by rw [hmv idx hv, one_mul]⟩
    (FactorsMoved.of_get (by simp) ht.factors ht.factors fun m s F F' hs hF hF' i _ r _ => by
      obtain ⟨-, rfl⟩ := getElem?_changes hs
      rw [hF] at hF'
      obtain rfl := Option.some.inj hF'
      show F.get [i, r] = _
      rw [one_mul]) hb rfl hS hS'
  refine ⟨w, w', h1, h2, h9.eq h10 (h8.eq fun s hs => ?_) h11 h12, h3, by rw [h4, h5]; norm_num, h6, h7⟩
  simp only [changes, List.mem_map] at hs
  obtain ⟨k, -, rfl⟩ := hs
  exact ⟨rfl, fun _ => rfl⟩

/-! ## C96: order and signs of the components -/

/-- C96: moving the components of the initial decomposition to other positions, and changing the signs of its columns
such that the signs of each component multiply to one, moves the components of the result in the same way and changes
the same signs; the model tensor, its error and the number of iterations are the same. -/
theorem C96_components {E : Ext} (hE : E.SVDOk) (hN : E.NNLSOk) (hQ : E.QROk) {c : CP.Config} {X : NDArray ℝ}
    (hA : CP.Admissible c.opts none none X.shape) (hridge : c.opts.ridgePenalties = none)
    (hlog : c.Measurable) (hfreq : freqOption c.freq ≠ 0) {arg arg' : InitArg KruskalTensor} {t t' : KruskalTensor}
    (hi : CP.StartsFrom E c none none arg X t) (hi' : CP.StartsFrom E c none none arg' X t')
    (ht : t.WF X.shape c.opts.rank) (ht' : t'.WF X.shape c.opts.rank)
    {perm : Equiv.Perm ℕ} (hperm : ∀ r, perm r < c.opts.rank ↔ r < c.opts.rank) {sign : ℕ → ℕ → ℝ}
    (hsign : ∀ k < X.shape.length, ∀ r < c.opts.rank, sign k r = 1 ∨ sign k r = -1)
    (hprod : ∀ r < c.opts.rank, ∏ k ∈ Finset.range X.shape.length, sign k r = 1)
    (hstart : ∀ k F F', t.factorMatrices[k]? = some F → t'.factorMatrices[k]? = some F' →
      ∀ i < X.shape.getD k 0, ∀ r < c.opts.rank, F'.get [i, perm r] = sign k r * F.get [i, r])
    {budget : Int} {mi : Option Int} (hb : 0 < mi.getD budget) {loggers : List Logger} {file : Option H5File}
    (hS : Storing (CP.method E c) (CP.newObject none none budget loggers file) []) :
    ∃ w w', CP.fit E c X mi arg (CP.newObject none none budget loggers file) = .ok () w ∧
      CP.fit E c X mi arg' (CP.newObject none none budget loggers file) = .ok () w' ∧
      (∀ k F F', w.st.dec.factorMatrices[k]? = some F → w'.st.dec.factorMatrices[k]? = some F' →
        ∀ i < X.shape.getD k 0, ∀ r < c.opts.rank, F'.get [i, perm r] = sign k r * F.get [i, r]) ∧
      w'.st.dec.constructTensor = w.st.dec.constructTensor ∧
      w'.it = w.it ∧ CP.sse w'.st = CP.sse w.st ∧ CP.shouldStop c.opts w'.st = CP.shouldStop c.opts w.st := by
  have hmv : ∀ idx, Valid X.shape idx → moveIdx (changes X.shape.length (fun _ => Equiv.refl ℕ) sign) idx = idx :=
    fun idx hv => by rw [moveIdx_changes hv.length_eq, mapIdx_refl]
  have hC : Change c.opts.rank perm X.shape (changes X.shape.length (fun _ => Equiv.refl ℕ) sign) 1 :=
    change_of rfl (by simp) hperm (fun k hk => ⟨1, one_pos, fun r hr => by
      rcases hsign k hk r hr with h | h <;> rw [h] <;> norm_num⟩) hprod
  obtain ⟨w, w', e, h1, h2, h3, h4, h5, h6, h7, h8, h9, h10, h11, h12⟩ := fit_moved hE hN hQ hE hN hQ rfl hA hridge hlog
    hlog hfreq hfreq hi hi' ht ht' hC ⟨rfl, fun idx hv => by rw [hmv idx hv, one_mul]⟩
    (FactorsMoved.of_get (by simp) ht.factors ht'.factors fun m s F F' hs hF hF' i hi r hr => by
      obtain ⟨-, rfl⟩ := getElem?_changes hs
      exact hstart m F F' hF hF' i hi r hr) hb rfl hS hS
  refine ⟨w, w', h1, h2, fun k F F' hF hF' i hi r hr => ?_, ?_, h3, by rw [h4, h5]; norm_num, h7⟩
  · have hk : k < X.shape.length := by
      obtain ⟨hk, -⟩ := List.getElem?_eq_some_iff.1 hF
      rwa [h9.factors.length_eq] at hk
    exact h8.get (s := ⟨Equiv.refl ℕ, sign k⟩) (by simp [changes, hk]) hF hF' hi hr
  · rw [constructTensor_eq h9 hA.order, constructTensor_eq h10 hA.order]
    refine congrArg Except.ok (ofFn_congr fun idx hv => ?_)
    have := cpEntry_moved hC h8 hv
    rw [hmv idx hv, one_mul] at this
    rw [cpEntry_congr_weights (w' := fun _ => 1) h12, cpEntry_congr_weights (w' := fun _ => 1) h11]
    exact this

/-! ## C97: order of the rows -/

/-- C97: moving the rows of the modes of the data tensor, and the rows of the initial factor matrices in the same way,
moves the rows of the factor matrices of the result in the same way; the error and the number of iterations are the
same. -/
theorem C97_rows {E : Ext} (hE : E.SVDOk) (hN : E.NNLSOk) (hQ : E.QROk) {c : CP.Config} {X X' : NDArray ℝ}
    (hA : CP.Admissible c.opts none none X.shape) (hridge : c.opts.ridgePenalties = none)
    (hlog : c.Measurable) (hfreq : freqOption c.freq ≠ 0) {arg arg' : InitArg KruskalTensor} {t t' : KruskalTensor}
    (hi : CP.StartsFrom E c none none arg X t) (hi' : CP.StartsFrom E c none none arg' X' t')
    (ht : t.WF X.shape c.opts.rank) (ht' : t'.WF X.shape c.opts.rank) (hshape : X'.shape = X.shape)
    {σ : ℕ → Equiv.Perm ℕ} (hσ : ∀ k < X.shape.length, ∀ i, σ k i < X.shape.getD k 0 ↔ i < X.shape.getD k 0)
    (hX : ∀ idx, Valid X.shape idx → X'.get (idx.mapIdx fun k i => σ k i) = X.get idx)
    (hstart : ∀ k F F', t.factorMatrices[k]? = some F → t'.factorMatrices[k]? = some F' →
      ∀ i < X.shape.getD k 0, ∀ r < c.opts.rank, F'.get [σ k i, r] = F.get [i, r])
    {budget : Int} {mi : Option Int} (hb : 0 < mi.getD budget) {loggers : List Logger} {file : Option H5File}
    (hS : Storing (CP.method E c) (CP.newObject none none budget loggers file) []) :
    ∃ w w', CP.fit E c X mi arg (CP.newObject none none budget loggers file) = .ok () w ∧
      CP.fit E c X' mi arg' (CP.newObject none none budget loggers file) = .ok () w' ∧
      (∀ k F F', w.st.dec.factorMatrices[k]? = some F → w'.st.dec.factorMatrices[k]? = some F' →
        ∀ i < X.shape.getD k 0, ∀ r < c.opts.rank, F'.get [σ k i, r] = F.get [i, r]) ∧
      w'.it = w.it ∧ CP.sse w'.st = CP.sse w.st ∧ CP.shouldStop c.opts w'.st = CP.shouldStop c.opts w.st := by
  have hC : Change c.opts.rank (Equiv.refl ℕ) X.shape (changes X.shape.length σ fun _ _ => 1) 1 :=
    change_of rfl hσ (by simp) (fun k hk => ⟨1, one_pos, by simp⟩) (by simp)
  obtain ⟨w, w', e, h1, h2, h3, h4, h5, h6, h7, h8, h9, h10, h11, h12⟩ := fit_moved hE hN hQ hE hN hQ rfl hA hridge hlog
    hlog hfreq hfreq hi hi' ht (by rw [hshape]; exact ht') hC
    ⟨hshape, fun idx hv => by rw [moveIdx_changes hv.length_eq, hX idx hv, one_mul]⟩
    (FactorsMoved.of_get (by simp) ht.factors ht'.factors fun m s F F' hs hF hF' i hi r hr => by
      obtain ⟨-, rfl⟩ := getElem?_changes hs
      exact (hstart m F F' hF hF' i hi r hr).trans (one_mul _).symm) hb rfl hS hS
  refine ⟨w, w', h1, h2, fun k F F' hF hF' i hi r hr => ?_, h3, by rw [h4, h5]; norm_num, h7⟩
  have hk : k < X.shape.length := by
    obtain ⟨hk, -⟩ := List.getElem?_eq_some_iff.1 hF
    rwa [h9.factors.length_eq] at hk
  exact (h8.get (s := ⟨σ k, fun _ => 1⟩) (by simp [changes, hk]) hF hF' hi hr).trans (one_mul _)

/-! ## C95: the unit of the data -/

/-- C95. Multiplying the data tensor by `a`, and the initial factor matrices by numbers `α k` whose product is `a`,
multiplies the factor matrices of the result by the same numbers and the error by `a²`; the number of iterations and
the verdict of the stopping test are the same. (Not covered: the same initial decomposition for both tensors, see
`C95_same_start_partial` and `C95_fails`.) -/
theorem C95_scale_partial {E : Ext} (hE : E.SVDOk) (hN : E.NNLSOk) (hQ : E.QROk) {c : CP.Config} {X X' : NDArray ℝ}
    (hA : CP.Admissible c.opts none none X.shape) (hridge : c.opts.ridgePenalties = none)
    (hlog : c.Measurable) (hfreq : freqOption c.freq ≠ 0) {arg arg' : InitArg KruskalTensor} {t t' : KruskalTensor}
    (hi : CP.StartsFrom E c none none arg X t) (hi' : CP.StartsFrom E c none none arg' X' t')
    (ht : t.WF X.shape c.opts.rank) (ht' : t'.WF X.shape c.opts.rank) (hshape : X'.shape = X.shape)
    {a : ℝ} (ha : a ≠ 0) {α : ℕ → ℝ} (hα : ∏ k ∈ Finset.range X.shape.length, α k = a)
    (hX : ∀ idx, Valid X.shape idx → X'.get idx = a * X.get idx)
    (hstart : ∀ k F F', t.factorMatrices[k]? = some F → t'.factorMatrices[k]? = some F' →
      ∀ i < X.shape.getD k 0, ∀ r < c.opts.rank, F'.get [i, r] = α k * F.get [i, r])
    {budget : Int} {mi : Option Int} (hb : 0 < mi.getD budget) {loggers : List Logger} {file : Option H5File}
    (hS : Storing (CP.method E c) (CP.newObject none none budget loggers file) []) :
    ∃ w w' e, CP.fit E c X mi arg (CP.newObject none none budget loggers file) = .ok () w ∧
      CP.fit E c X' mi arg' (CP.newObject none none budget loggers file) = .ok () w' ∧
      (∀ k F F', w.st.dec.factorMatrices[k]? = some F → w'.st.dec.factorMatrices[k]? = some F' →
        ∀ i < X.shape.getD k 0, ∀ r < c.opts.rank, F'.get [i, r] = α k * F.get [i, r]) ∧
      w'.it = w.it ∧ CP.sse w.st = .ok e ∧ CP.sse w'.st = .ok (a ^ 2 * e) ∧
      CP.shouldStop c.opts w'.st = CP.shouldStop c.opts w.st := by
  have hα0 : ∀ k < X.shape.length, α k ≠ 0 := fun k hk h0 =>
    ha (by rw [← hα]; exact Finset.prod_eq_zero (Finset.mem_range.2 hk) h0)
  have hC : Change c.opts.rank (Equiv.refl ℕ) X.shape
      (changes X.shape.length (fun _ => Equiv.refl ℕ) fun k _ => α k) a :=
    change_of rfl (by simp) (by simp) (fun k hk => ⟨α k ^ 2, by have := hα0 k hk; positivity, by simp⟩) (fun _ _ => hα)
  obtain ⟨w, w', e, h1, h2, h3, h4, h5, h6, h7, h8, h9, h10, h11, h12⟩ := fit_moved hE hN hQ hE hN hQ rfl hA hridge hlog
    hlog hfreq hfreq hi hi' ht (by rw [hshape]; exact ht') hC
    ⟨hshape, fun idx hv => by rw [moveIdx_changes hv.length_eq, mapIdx_refl, hX idx hv]⟩
    (FactorsMoved.of_get (by simp) ht.factors ht'.factors fun m s F F' hs hF hF' i hi r hr => by
      obtain ⟨-, rfl⟩ := getElem?_changes hs
      exact hstart m F F' hF hF' i hi r hr) hb rfl hS hS
  refine ⟨w, w', e, h1, h2, fun k F F' hF hF' i hi r hr => ?_, h3, h4, h5, h7⟩
  have hk : k < X.shape.length := by
    obtain ⟨hk, -⟩ := List.getElem?_eq_some_iff.1 hF
    rwa [h9.factors.length_eq] at hk
  exact h8.get (s := ⟨Equiv.refl ℕ, fun _ => α k⟩) (by simp [changes, hk]) hF hF' hi hr

/-! ## The initial factor matrix of the first mode -/

/-- Tolerances that are not positive: the fits of corresponding problems correspond even when the initial factor
matrices of the first mode do not. -/
theorem fit_moved_rest {E E' : Ext} (hE : E.SVDOk) (hN : E.NNLSOk) (hQ : E.QROk) (hE' : E'.SVDOk) (hN' : E'.NNLSOk)
    (hQ' : E'.QROk) {c : CP.Config} {X X' : NDArray ℝ}
    (hA : CP.Admissible c.opts none none X.shape) (hridge : c.opts.ridgePenalties = none)
    (htol : c.opts.convergenceTol ≤ 0) (hrl : c.opts.relLossTol ≤ 0)
    (hlog : c.Measurable) (hfreq : freqOption c.freq ≠ 0)
    {arg arg' : InitArg KruskalTensor} {t t' : KruskalTensor}
    (hi : CP.StartsFrom E c none none arg X t) (hi' : CP.StartsFrom E' c none none arg' X' t')
    (ht : t.WF X.shape c.opts.rank) (ht' : t'.WF X'.shape c.opts.rank)
    (hC : Change c.opts.rank perm X.shape ss a) (hX : TensorMoved ss a X X')
    (hF : FactorsMoved c.opts.rank perm (ss.eraseIdx 0) (X.shape.eraseIdx 0) (t.factorMatrices.eraseIdx 0)
      (t'.factorMatrices.eraseIdx 0))
    {budget : Int} {mi : Option Int} (hb : 0 < mi.getD budget)
    {loggers : List Logger} {file : Option H5File}
    (hS : Storing (CP.method E c) (CP.newObject none none budget loggers file) [])
    (hS' : Storing (CP.method E' c) (CP.newObject none none budget loggers file) []) :
    ∃ w w' e, CP.fit E c X mi arg (CP.newObject none none budget loggers file) = .ok () w ∧
      CP.fit E' c X' mi arg' (CP.newObject none none budget loggers file) = .ok () w' ∧
      w.it = mi.getD budget ∧ w'.it = mi.getD budget ∧ CP.sse w.st = .ok e ∧ CP.sse w'.st = .ok (a ^ 2 * e) ∧
      FactorsMoved c.opts.rank perm ss X.shape w.st.dec.factorMatrices w'.st.dec.factorMatrices ∧
      w.st.dec.WF X.shape c.opts.rank ∧ w'.st.dec.WF X.shape c.opts.rank ∧
      (∀ r < c.opts.rank, w.st.dec.weights.get [r] = 1) ∧ (∀ r < c.opts.rank, w'.st.dec.weights.get [r] = 1) := by
  have hA' : CP.Admissible c.opts none none X'.shape := by rw [hX.shape]; exact hA
  obtain ⟨s, w, k, e0, h1, h2, h3, h4, h5, h6, hwf, -⟩ := C74_fit_completes hE hN hQ hA hlog hfreq hi ht hb hS
  obtain ⟨s', w', k', e0', h1', h2', h3', h4', h5', h6', hwf', -⟩ := C74_fit_completes hE' hN' hQ' hA' hlog hfreq hi'
    ht' hb hS'
  obtain ⟨z, ez, hG, hXs, -, -, hw, hnn, hon, hdec⟩ := initFit_good (E := E) hQ (old := CP.fresh none none) rfl hA ht
  rw [e0] at ez
  obtain rfl : s = z := Except.ok.inj ez
  obtain ⟨z, ez, hG', hXs', -, -, hw', hnn', hon', hdec'⟩ :=
    initFit_good (E := E') hQ' (old := CP.fresh none none) rfl hA' ht'
  rw [e0'] at ez
  obtain rfl : s' = z := Except.ok.inj ez
  rw [hX.shape] at hwf'
  have hU : s.Unconstrained := by
    refine ⟨⟨_, hnn, fun m hm => ?_⟩, ⟨_, hon, fun m hm => ?_⟩⟩ <;>
      simpa [CP.fresh, List.getElem?_replicate] using hXs ▸ hm
  have hU' : s'.Unconstrained := by
    refine ⟨⟨_, hnn', fun m hm => ?_⟩, ⟨_, hon', fun m hm => ?_⟩⟩ <;>
      simpa [CP.fresh, List.getElem?_replicate] using hXs' ▸ hm
  have hr := hA.rank
  have hst : w.st = CP.orbit E c.opts s k := by
    rw [orbit_iterate hE hN hr k hG] at h4; exact (Except.ok.inj h4).symm
  have hst' : w'.st = CP.orbit E' c.opts s' k' := by
    rw [orbit_iterate hE' hN' hr k' hG'] at h4'; exact (Except.ok.inj h4').symm
  obtain ⟨g, p⟩ := orbit_good hE hN hr hG k
  obtain ⟨g', p'⟩ := orbit_good hE' hN' hr hG' k'
  have hk : (k : Int) = mi.getD budget := by
    by_contra hne
    have := h6 (by omega)
    rw [hst, never_stops htol hrl g] at this
    cases this
  have hk' : (k' : Int) = mi.getD budget := by
    by_contra hne
    have := h6' (by omega)
    rw [hst', never_stops htol hrl g'] at this
    cases this
  obtain rfl : k' = k := by omega
  obtain ⟨j, rfl⟩ : ∃ j, k' = j + 1 := ⟨k' - 1, by omega⟩
  have hM := orbit_moved_rest hE hN hE' hN' hr hridge hG hG' hU hU' (by rw [hXs]; exact hC) (by rw [hXs, hXs']; exact hX)
    (by rw [hXs, hdec rfl, hdec' rfl]; exact hF) j
  have hW : ∀ r < c.opts.rank, w.st.dec.weights.get [r] = 1 := by rw [hst, p.weights]; exact hw
  have hW' : ∀ r < c.opts.rank, w'.st.dec.weights.get [r] = 1 := by rw [hst', p'.weights]; exact hw'
  refine ⟨w, w', _, h1, h1', by rw [h3, hk], by rw [h3', hk], by rw [hst]; exact C35_sse g.sized g.cached, ?_, ?_, hwf, hwf',
    hW, hW'⟩
  · rw [hst', C35_sse g'.sized g'.cached]
    refine congrArg Except.ok ?_
    rw [hst] at hW
    rw [hst'] at hW'
    exact trueSSE_moved hW hW' (by rw [p.X, hXs]; exact hC) hM
  · have := hM.factors
    rw [p.X, hXs, ← hst, ← hst'] at this
    exact this

theorem getElem?_erase_zero {β : Type} {l : List β} {m : ℕ} {x : β} (h : (l.eraseIdx 0)[m]? = some x) :
    l[m + 1]? = some x := by
  cases l with
  | nil => simp at h
  | cons b l => simpa using h

/-- C95 for two fits from the same initial decomposition. With tolerances that are not positive, multiplying the data by
`a` multiplies the first factor matrix of the result by `a` and the error by `a²` and leaves the other factor matrices
alone. (Missing: positive tolerances. The first relative change then depends on the unit, see `C95_fails`.) -/
theorem C95_same_start_partial {E : Ext} (hE : E.SVDOk) (hN : E.NNLSOk) (hQ : E.QROk) {c : CP.Config} {X X' : NDArray ℝ}
    (hA : CP.Admissible c.opts none none X.shape) (hridge : c.opts.ridgePenalties = none)
    (htol : c.opts.convergenceTol ≤ 0) (hrl : c.opts.relLossTol ≤ 0)
    (hlog : c.Measurable) (hfreq : freqOption c.freq ≠ 0) {arg arg' : InitArg KruskalTensor} {t : KruskalTensor}
    (hi : CP.StartsFrom E c none none arg X t) (hi' : CP.StartsFrom E c none none arg' X' t)
    (ht : t.WF X.shape c.opts.rank) (hshape : X'.shape = X.shape) {a : ℝ} (ha : a ≠ 0)
    (hX : ∀ idx, Valid X.shape idx → X'.get idx = a * X.get idx)
    {budget : Int} {mi : Option Int} (hb : 0 < mi.getD budget) {loggers : List Logger} {file : Option H5File}
    (hS : Storing (CP.method E c) (CP.newObject none none budget loggers file) []) :
    ∃ w w' e, CP.fit E c X mi arg (CP.newObject none none budget loggers file) = .ok () w ∧
      CP.fit E c X' mi arg' (CP.newObject none none budget loggers file) = .ok () w' ∧
      (∀ k F F', w.st.dec.factorMatrices[k]? = some F → w'.st.dec.factorMatrices[k]? = some F' →
        ∀ i < X.shape.getD k 0, ∀ r < c.opts.rank, F'.get [i, r] = (if k = 0 then a else 1) * F.get [i, r]) ∧
      CP.sse w.st = .ok e ∧ CP.sse w'.st = .ok (a ^ 2 * e) := by
  have hl : 0 < X.shape.length := by have := hA.order; omega
  have hC : Change c.opts.rank (Equiv.refl ℕ) X.shape
      (changes X.shape.length (fun _ => Equiv.refl ℕ) fun k _ => if k = 0 then a else 1) a := by
    refine change_of rfl (by simp) (by simp) (fun k _ => ⟨(if k = 0 then a else 1) ^ 2, ?_, by simp⟩) (fun _ _ => ?_)
    · split
      · positivity
      · norm_num
    · rw [Finset.prod_ite_eq' (Finset.range X.shape.length) 0 fun _ => a, if_pos (by simpa using hl)]
  obtain ⟨w, w', e, h1, h2, h3, h4, h5, h6, h8, h9, h10, -⟩ := fit_moved_rest hE hN hQ hE hN hQ hA hridge htol hrl hlog
    hfreq hi hi' ht (by rw [hshape]; exact ht) hC
    ⟨hshape, fun idx hv => by rw [moveIdx_changes hv.length_eq, mapIdx_refl, hX idx hv]⟩
    (FactorsMoved.of_get (by simp [List.length_eraseIdx]) (ht.factors.eraseIdx 0) (ht.factors.eraseIdx 0)
      fun m s F F' hs hF hF' i hi r hr => by
        obtain ⟨-, rfl⟩ := getElem?_changes (getElem?_erase_zero hs)
        rw [hF] at hF'
        obtain rfl := Option.some.inj hF'
        show F.get [i, r] = (if m + 1 = 0 then a else 1) * _
        rw [if_neg (by omega), one_mul]) hb hS hS
  refine ⟨w, w', e, h1, h2, fun k F F' hF hF' i hi r hr => ?_, h5, h6⟩
  have hk : k < X.shape.length := by
    obtain ⟨hk, -⟩ := List.getElem?_eq_some_iff.1 hF
    rwa [h9.factors.length_eq] at hk
  exact h8.get (s := ⟨Equiv.refl ℕ, fun _ => if k = 0 then a else 1⟩) (by simp [changes, hk]) hF hF' hi hr

/-- C99. With tolerances that are not positive the result of a fit does not depend on the initial factor matrix of the
first mode. (Missing: positive tolerances. The matrix enters the initial error and with it the first relative change,
see `C99_fails`.) -/
theorem C99_first_mode_partial {E : Ext} (hE : E.SVDOk) (hN : E.NNLSOk) (hQ : E.QROk) {c : CP.Config} {X : NDArray ℝ}
    (hA : CP.Admissible c.opts none none X.shape) (hridge : c.opts.ridgePenalties = none)
    (htol : c.opts.convergenceTol ≤ 0) (hrl : c.opts.relLossTol ≤ 0)
    (hlog : c.Measurable) (hfreq : freqOption c.freq ≠ 0) {arg arg' : InitArg KruskalTensor} {t t' : KruskalTensor}
    (hi : CP.StartsFrom E c none none arg X t) (hi' : CP.StartsFrom E c none none arg' X t')
    (ht : t.WF X.shape c.opts.rank) (ht' : t'.WF X.shape c.opts.rank)
    (hrest : t'.factorMatrices.tail = t.factorMatrices.tail)
    {budget : Int} {mi : Option Int} (hb : 0 < mi.getD budget) {loggers : List Logger} {file : Option H5File}
    (hS : Storing (CP.method E c) (CP.newObject none none budget loggers file) []) :
    ∃ w w', CP.fit E c X mi arg (CP.newObject none none budget loggers file) = .ok () w ∧
      CP.fit E c X mi arg' (CP.newObject none none budget loggers file) = .ok () w' ∧
      w'.st.dec = w.st.dec ∧ w'.it = w.it ∧ CP.sse w'.st = CP.sse w.st := by
  have hrest' : t'.factorMatrices.eraseIdx 0 = t.factorMatrices.eraseIdx 0 := by simpa using hrest
  obtain ⟨w, w', e, h1, h2, h3, h4, h5, h6, h8, h9, h10, h11, h12⟩ := fit_moved_rest hE hN hQ hE hN hQ hA hridge htol hrl
    hlog hfreq hi hi' ht ht' (perm := Equiv.refl ℕ) (a := 1)
    (ss := changes X.shape.length (fun _ => Equiv.refl ℕ) fun _ _ => 1)
    (change_of rfl (by simp) (by simp) (fun _ _ => ⟨1, one_pos, by simp⟩) (by simp))
    ⟨rfl, fun idx hv => by rw [moveIdx_changes hv.length_eq, mapIdx_refl, one_mul]⟩
    (FactorsMoved.of_get (by simp [List.length_eraseIdx]) (ht.factors.eraseIdx 0) (ht'.factors.eraseIdx 0)
      fun m s F F' hs hF hF' i hi r hr => by
        obtain ⟨-, rfl⟩ := getElem?_changes (getElem?_erase_zero hs)
        rw [hrest', hF] at hF'
        obtain rfl := Option.some.inj hF'
        exact (one_mul _).symm) hb hS hS
  refine ⟨w, w', h1, h2, h9.eq h10 (h8.eq fun s hs => ?_) h11 h12, by rw [h3, h4], by rw [h5, h6]; norm_num⟩
  simp only [changes, List.mem_map] at hs
  obtain ⟨k, -, rfl⟩ := hs
  exact ⟨rfl, fun _ => rfl⟩

/-! ## C95 and C99 fail for positive tolerances -/

/-- `diag(20, 10)`. -/
def diag2010 : NDArray ℝ := ofMat 2 2 fun i j => if i = j then (if i = 0 then 20 else 10) else 0

/-- The decomposition with factors `(10, 10)` and `(1, 1)`. -/
def tensKT : KruskalTensor := ⟨1, [ofMat 2 1 fun _ _ => 10, ofMat 2 1 fun _ _ => 1], full [1] 1⟩

theorem half_init : halfConfig.init.toLower = "precomputed" := by
  show "precomputed".toLower = _
  rw [String.toLower, ← String.toList_inj, String.toList_map]; decide

theorem half_storing (E : Ext) (w : World CPState) : Storing (CP.method E halfConfig) w [] := by
  have hneg : ¬ 0 < (CP.method E halfConfig).freq := by
    show ¬ (0 : Int) < -1
    decide
  exact ⟨fun h => absurd h hneg, fun h => absurd h hneg, fun h => absurd h hneg⟩

/-- With `convergence_tol=0.5` a fit of a `2 × 2` matrix whose first iteration at least halves the error makes more than
one iteration. -/
theorem half_continues {E : Ext} (hE : E.SVDOk) (hN : E.NNLSOk) (hQ : E.QROk) {X : NDArray ℝ} (hX : X.shape = [2, 2])
    {t : KruskalTensor} (ht : t.WF X.shape 1) {p q : ℝ} (hp : 0 < p) (hq : q ≤ p / 2)
    (hval : ∀ s, s.Good halfConfig.opts → s.X = X → s.dec.weights.get [0] = 1 → s.Unconstrained →
      s.dec.factorMatrices = t.factorMatrices → s.trueSSE 1 = p ∧ (CP.orbit E halfConfig.opts s 1).trueSSE 1 = q)
    {budget : Int} (hb : 2 ≤ budget) :
    ∃ w', CP.fit E halfConfig X (some budget) (.tensor t) (CP.newObject none none budget [] none) = .ok () w' ∧
      2 ≤ w'.it := by
  have hA : CP.Admissible halfConfig.opts none none X.shape :=
    ⟨by decide, by simp [hX], by simp [hX], by simp, by simp, by simp [halfConfig], by simp, by simp⟩
  obtain ⟨s0, w', k, e0, h1, h2, h3, h4, h5, h6, -⟩ := C74_fit_completes hE hN hQ
    (c := halfConfig) (mi := some budget) (budget := budget) (loggers := []) (file := none) hA
    (by intro p hp; simp [halfConfig] at hp) (by decide) (startsFrom_precomputed half_init ht) ht
    (by show 0 < budget; omega) (half_storing _ _)
  obtain ⟨s0', e0', hG, hXs, -, hrel0, hw, hnn, hon, hdec⟩ := initFit_good (E := E) hQ (old := CP.fresh none none)
    (o := halfConfig.opts) rfl hA ht
  rw [e0] at e0'
  obtain rfl : s0 = s0' := Except.ok.inj e0'
  have hU : s0.Unconstrained := by
    refine ⟨⟨_, hnn, fun m hm => ?_⟩, ⟨_, hon, fun m hm => ?_⟩⟩ <;>
      simpa [CP.fresh, List.getElem?_replicate] using hXs ▸ hm
  obtain ⟨v0, v1⟩ := hval s0 hG hXs (hw 0 (by decide)) hU (hdec rfl)
  have hst : w'.st = CP.orbit E halfConfig.opts s0 k := by
    rw [orbit_iterate hE hN (by decide) k hG] at h4
    exact (Except.ok.inj h4).symm
  have hloss : ∀ j, (FV.div ((CP.orbit E halfConfig.opts s0 j).trueSSE halfConfig.opts.rank)
      ((CP.orbit E halfConfig.opts s0 j).XNorm ^ 2)).lt halfConfig.opts.relLossTol = false := by
    intro j
    have he : 0 ≤ (CP.orbit E halfConfig.opts s0 j).trueSSE halfConfig.opts.rank := sumIdx_nonneg fun _ _ => sq_nonneg _
    unfold FV.div
    split
    · exact decide_eq_false (not_lt.2 (div_nonneg he (sq_nonneg _)))
    · split
      · rfl
      · rw [if_neg (not_lt.2 he)]; rfl
  have hrel : ∀ j < 2, (CP.orbit E halfConfig.opts s0 j).relChange.absLt halfConfig.opts.convergenceTol = false := by
    intro j hj
    obtain rfl | rfl : j = 0 ∨ j = 1 := by omega
    · show s0.relChange.absLt _ = _
      rw [hrel0]; rfl
    · rw [orbit_relChange hE hN (by decide) hG 0,
        show (CP.orbit E halfConfig.opts s0 0).trueSSE halfConfig.opts.rank = p from v0,
        show (CP.orbit E halfConfig.opts s0 (0 + 1)).trueSSE halfConfig.opts.rank = q from v1, FV.div, if_pos hp.ne']
      refine decide_eq_false (not_lt.2 ?_)
      show 1 / 2 ≤ |(p - q) / p|
      rw [abs_of_nonneg (div_nonneg (by linarith) hp.le), le_div_iff₀ hp]
      linarith
  refine ⟨w', h1, ?_⟩
  rw [h3]
  by_contra hlt
  have hk : k < 2 := by omega
  have := h6 (by show (k : Int) < budget; omega)
  obtain ⟨g, -⟩ := orbit_good hE hN (o := halfConfig.opts) (by decide) hG k
  rw [hst, CP.shouldStop, C35_sse g.sized g.cached, bind_ok, hrel k hk, hloss k] at this
  cases this

/-- C95 is false of the code for two fits from the same initial decomposition: with `convergence_tol=0.5`, the fit of
`diag(2, 1)` from ones stops after one iteration, the fit of `diag(20, 10)`, which is ten times as large, goes on. -/
theorem C95_fails {E : Ext} (hE : E.SVDOk) (hN : E.NNLSOk) (hQ : E.QROk) {budget : Int} (hb : 2 ≤ budget) :
    (∀ idx, Valid [2, 2] idx → diag2010.get idx = 10 * diag21.get idx) ∧
    ∃ w w', CP.fit E halfConfig diag21 (some budget) (.tensor onesKT) (CP.newObject none none budget [] none) = .ok () w ∧
      CP.fit E halfConfig diag2010 (some budget) (.tensor onesKT) (CP.newObject none none budget [] none) = .ok () w' ∧
      w.it = 1 ∧ 2 ≤ w'.it := by
  have hten : ∀ idx, Valid [2, 2] idx → diag2010.get idx = 10 * diag21.get idx := by
    intro idx hv
    match idx, hv with
    | [i, j], hv =>
      rw [diag2010, diag21, get_ofMat hv.1 hv.2.1, get_ofMat hv.1 hv.2.1]
      split
      · split <;> norm_num
      · norm_num
  have hA : CP.Admissible halfConfig.opts none none diag21.shape :=
    ⟨by decide, by simp [diag21], by simp [diag21], by simp, by simp, by simp [halfConfig], by simp, by simp⟩
  have ht : onesKT.WF diag21.shape 1 := ⟨rfl, by simp [Factors, onesKT, diag21], rfl⟩
  refine ⟨hten, ?_⟩
  obtain ⟨s0, w, e0, h1, h2, -⟩ := C92_fails hE hN hQ hb
  obtain ⟨z, ez, hG, hXs, -, -, hw, hnn, hon, hdec⟩ := initFit_good (E := E) hQ (old := CP.fresh none none)
    (o := halfConfig.opts) rfl hA ht
  rw [e0] at ez
  obtain rfl : s0 = z := Except.ok.inj ez
  have hU : s0.Unconstrained := by
    refine ⟨⟨_, hnn, fun m hm => ?_⟩, ⟨_, hon, fun m hm => ?_⟩⟩ <;>
      simpa [CP.fresh, List.getElem?_replicate] using hXs ▸ hm
  obtain ⟨v0, v1⟩ := diag21_first hE hN (o := halfConfig.opts) rfl rfl hG hXs (hw 0 (by decide)) hU (hdec rfl)
  have hval : ∀ s, s.Good halfConfig.opts → s.X = diag2010 → s.dec.weights.get [0] = 1 → s.Unconstrained →
      s.dec.factorMatrices = onesKT.factorMatrices → s.trueSSE 1 = 444 ∧ (CP.orbit E halfConfig.opts s 1).trueSSE 1 = 160 := by
    intro s hs hsX hsw hsU hsf
    constructor
    · have hsh : s.X.shape = [2, 2] := by rw [hsX]; rfl
      have hx : ∀ i < 2, ∀ j < 2, s.X.get [i, j] = if i = j then (if i = 0 then 20 else 10) else 0 := by
        intro i hi j hj
        rw [hsX, diag2010, get_ofMat hi hj]
      have hone : ∀ i < 2, (ofMat 2 1 fun _ _ => (1 : ℝ)).get [i, 0] = 1 := fun i hi => get_ofMat hi (by omega)
      rw [CPState.trueSSE, hsf]
      show sqErr s.X _ [_, _] 1 = 444
      rw [sqErr22 (w := fun r => s.dec.weights.get [r]) hsh hsw, err22, hx 0 (by omega) 0 (by omega),
        hx 0 (by omega) 1 (by omega), hx 1 (by omega) 0 (by omega), hx 1 (by omega) 1 (by omega), hone 0 (by omega),
        hone 1 (by omega)]
      norm_num
    · have hC : Change 1 (Equiv.refl ℕ) [2, 2] (changes 2 (fun _ => Equiv.refl ℕ) fun k _ => if k = 0 then 10 else 1) 10 :=
        change_of rfl (by simp) (by simp) (fun k _ => ⟨(if k = 0 then 10 else 1) ^ 2, by split <;> norm_num, by simp⟩)
          (fun _ _ => by simp [Finset.prod_range_succ])
      have hXsh : s0.X.shape = [2, 2] := by rw [hXs]; rfl
      have hM := orbit_moved_rest hE hN hE hN (o := halfConfig.opts) (by decide) rfl hG hs hU hsU (by rw [hXsh]; exact hC)
        ⟨by rw [hXs, hsX]; rfl, fun idx hv => by
          rw [hXsh] at hv
          rw [moveIdx_changes (d := 2) hv.length_eq, mapIdx_refl, hXs, hsX, hten idx hv]⟩
        (by
          rw [hXsh, hdec rfl, hsf]
          refine FactorsMoved.of_get rfl (ht.factors.eraseIdx 0) (ht.factors.eraseIdx 0) fun m s F F' e1 e2 e3 i hi r hr => ?_
          obtain ⟨-, rfl⟩ := getElem?_changes (getElem?_erase_zero e1)
          rw [e2] at e3
          obtain rfl := Option.some.inj e3
          show F.get [i, r] = (if m + 1 = 0 then 10 else 1) * _
          rw [if_neg (by omega), one_mul]) 0
      obtain ⟨-, p⟩ := orbit_good hE hN (o := halfConfig.opts) (by decide) hG 1
      obtain ⟨-, p'⟩ := orbit_good hE hN (o := halfConfig.opts) (by decide) hs 1
      have := trueSSE_moved (R := 1) (by rw [p.weights]; exact hw)
        (by rw [p'.weights]; intro r hr; obtain rfl : r = 0 := by omega
            exact hsw) (by rw [p.X, hXsh]; exact hC) hM
      rw [show (0 + 1 : ℕ) = 1 from rfl, show (CP.orbit E halfConfig.opts s0 1).trueSSE 1 = 8 / 5 from v1] at this
      rw [this]; norm_num
  obtain ⟨w', h1', h2'⟩ := half_continues hE hN hQ (X := diag2010) rfl (t := onesKT) ht (by norm_num) (by norm_num) hval hb
  exact ⟨w, w', h1, h1', h2, h2'⟩

/-- C99 is false of the code: with `convergence_tol=0.5`, the fit of `diag(2, 1)` from the factors `(1, 1)` and `(1, 1)`
stops after one iteration, the one from `(10, 10)` and `(1, 1)` goes on, although the two have the same first
iterate. -/
theorem C99_fails {E : Ext} (hE : E.SVDOk) (hN : E.NNLSOk) (hQ : E.QROk) {budget : Int} (hb : 2 ≤ budget) :
    tensKT.factorMatrices.tail = onesKT.factorMatrices.tail ∧
    ∃ w w', CP.fit E halfConfig diag21 (some budget) (.tensor onesKT) (CP.newObject none none budget [] none) = .ok () w ∧
      CP.fit E halfConfig diag21 (some budget) (.tensor tensKT) (CP.newObject none none budget [] none) = .ok () w' ∧
      w.it = 1 ∧ 2 ≤ w'.it := by
  have hA : CP.Admissible halfConfig.opts none none diag21.shape :=
    ⟨by decide, by simp [diag21], by simp [diag21], by simp, by simp, by simp [halfConfig], by simp, by simp⟩
  have ht : onesKT.WF diag21.shape 1 := ⟨rfl, by simp [Factors, onesKT, diag21], rfl⟩
  have ht' : tensKT.WF diag21.shape 1 := ⟨rfl, by simp [Factors, tensKT, diag21], rfl⟩
  refine ⟨rfl, ?_⟩
  obtain ⟨s0, w, e0, h1, h2, -⟩ := C92_fails hE hN hQ hb
  obtain ⟨z, ez, hG, hXs, -, -, hw, hnn, hon, hdec⟩ := initFit_good (E := E) hQ (old := CP.fresh none none)
    (o := halfConfig.opts) rfl hA ht
  rw [e0] at ez
  obtain rfl : s0 = z := Except.ok.inj ez
  have hU : s0.Unconstrained := by
    refine ⟨⟨_, hnn, fun m hm => ?_⟩, ⟨_, hon, fun m hm => ?_⟩⟩ <;>
      simpa [CP.fresh, List.getElem?_replicate] using hXs ▸ hm
  obtain ⟨v0, v1⟩ := diag21_first hE hN (o := halfConfig.opts) rfl rfl hG hXs (hw 0 (by decide)) hU (hdec rfl)
  have hval : ∀ s, s.Good halfConfig.opts → s.X = diag21 → s.dec.weights.get [0] = 1 → s.Unconstrained →
      s.dec.factorMatrices = tensKT.factorMatrices → s.trueSSE 1 = 345 ∧ (CP.orbit E halfConfig.opts s 1).trueSSE 1 = 8 / 5 := by
    intro s hs hsX hsw hsU hsf
    have hsh : s.X.shape = [2, 2] := by rw [hsX]; rfl
    constructor
    · have hx : ∀ i < 2, ∀ j < 2, s.X.get [i, j] = if i = j then (if i = 0 then 2 else 1) else 0 := by
        intro i hi j hj
        rw [hsX, diag21, get_ofMat hi hj]
      have hone : ∀ (x : ℝ), ∀ i < 2, (ofMat 2 1 fun _ _ => x).get [i, 0] = x := fun x i hi => get_ofMat hi (by omega)
      rw [CPState.trueSSE, hsf]
      show sqErr s.X _ [_, _] 1 = 345
      rw [sqErr22 (w := fun r => s.dec.weights.get [r]) hsh hsw, err22, hx 0 (by omega) 0 (by omega),
        hx 0 (by omega) 1 (by omega), hx 1 (by omega) 0 (by omega), hx 1 (by omega) 1 (by omega), hone 10 0 (by omega),
        hone 10 1 (by omega), hone 1 0 (by omega), hone 1 1 (by omega)]
      norm_num
    · have hC : Change 1 (Equiv.refl ℕ) [2, 2] (changes 2 (fun _ => Equiv.refl ℕ) fun _ _ => 1) 1 :=
        change_of rfl (by simp) (by simp) (fun k _ => ⟨1, one_pos, by simp⟩) (by simp)
      have hXsh : s0.X.shape = [2, 2] := by rw [hXs]; rfl
      have hM := orbit_moved_rest hE hN hE hN (o := halfConfig.opts) (by decide) rfl hG hs hU hsU (by rw [hXsh]; exact hC)
        ⟨by rw [hXs, hsX], fun idx hv => by
          rw [hXsh] at hv
          rw [moveIdx_changes (d := 2) hv.length_eq, mapIdx_refl, hXs, hsX, one_mul]⟩
        (by
          rw [hXsh, hdec rfl, hsf]
          refine FactorsMoved.of_get rfl (ht.factors.eraseIdx 0) (ht'.factors.eraseIdx 0) fun m s F F' e1 e2 e3 i hi r hr => ?_
          obtain ⟨-, rfl⟩ := getElem?_changes (getElem?_erase_zero e1)
          have e3 : (onesKT.factorMatrices.eraseIdx 0)[m]? = some F' := e3
          rw [e2] at e3
          obtain rfl := Option.some.inj e3
          exact (one_mul _).symm) 0
      obtain ⟨-, p⟩ := orbit_good hE hN (o := halfConfig.opts) (by decide) hG 1
      obtain ⟨-, p'⟩ := orbit_good hE hN (o := halfConfig.opts) (by decide) hs 1
      have := trueSSE_moved (R := 1) (by rw [p.weights]; exact hw)
        (by rw [p'.weights]; intro r hr; obtain rfl : r = 0 := by omega
            exact hsw) (by rw [p.X, hXsh]; exact hC) hM
      rw [show (0 + 1 : ℕ) = 1 from rfl, show (CP.orbit E halfConfig.opts s0 1).trueSSE 1 = 8 / 5 from v1] at this
      rw [this]; norm_num
  obtain ⟨w', h1', h2'⟩ := half_continues hE hN hQ (X := diag21) rfl (t := tensKT) ht' (by norm_num) (by norm_num) hval hb
  exact ⟨w, w', h1, h1', h2, h2'⟩

/-! ## Concrete cases -/

theorem half_admissible {X : NDArray ℝ} (hX : X.shape = [2, 2]) : CP.Admissible halfConfig.opts none none X.shape :=
  ⟨by decide, by simp [hX], by simp [hX], by simp, by simp, by simp [halfConfig], by simp, by simp⟩

/-- `C95_scale_partial` for `diag(2, 1)` and `diag(20, 10)`, from `(1, 1)`, `(1, 1)` and from `(10, 10)`, `(1, 1)`: both
fits stop after one iteration. -/
example {E : Ext} (hE : E.SVDOk) (hN : E.NNLSOk) (hQ : E.QROk) (budget : Int) (hb : 2 ≤ budget) :
    ∃ w', CP.fit E halfConfig diag2010 (some budget) (.tensor tensKT) (CP.newObject none none budget [] none) = .ok () w' ∧
      w'.it = 1 ∧ CP.sse w'.st = .ok 160 := by
  have ht : onesKT.WF diag21.shape 1 := ⟨rfl, by simp [Factors, onesKT, diag21], rfl⟩
  have ht' : tensKT.WF diag21.shape 1 := ⟨rfl, by simp [Factors, tensKT, diag21], rfl⟩
  obtain ⟨s0, w0, -, a1, a2, -, a3, -⟩ := C92_fails hE hN hQ hb
  obtain ⟨w, w', e, h1, h2, -, h4, h5, h6, -⟩ := C95_scale_partial hE hN hQ (c := halfConfig) (X := diag21) (X' := diag2010)
    (half_admissible rfl) rfl (by intro p hp; simp [halfConfig] at hp) (by decide) (startsFrom_precomputed half_init ht)
    (startsFrom_precomputed half_init ht') ht ht' rfl (a := 10) (by norm_num) (α := fun k => if k = 0 then 10 else 1)
    (by simp [diag21, Finset.prod_range_succ]) (C95_fails hE hN hQ hb).1
    (by
      intro k F F' hF hF' i hi r hr
      obtain rfl : r = 0 := by have : r < 1 := hr; omega
      match k, hF, hF' with
      | 0, hF, hF' =>
        obtain rfl := Option.some.inj hF
        obtain rfl := Option.some.inj hF'
        have hi : i < 2 := hi
        rw [get_ofMat hi (by omega), get_ofMat hi (by omega)]; norm_num
      | 1, hF, hF' =>
        obtain rfl := Option.some.inj hF
        obtain rfl := Option.some.inj hF'
        have hi : i < 2 := hi
        rw [get_ofMat hi (by omega)]; norm_num)
    (mi := some budget) (budget := budget) (loggers := []) (file := none) (by show 0 < budget; omega) (half_storing _ _)
  rw [a1] at h1
  injection h1 with _ h1
  subst h1
  rw [a3] at h5
  refine ⟨w', h2, h4.trans a2, ?_⟩
  rw [h6, ← Except.ok.inj h5]; norm_num

/-- Two components. -/
def pairConfig : CP.Config :=
  ⟨⟨2, 1 / 2, 1 / 10, none⟩, "precomputed", none, true, [], fun _ _ _ _ => 0, id, fun _ => none⟩

/-- Factors `((1, 2), (3, 4))` and `((5, 6), (7, 8))`. -/
def pairKT : KruskalTensor :=
  ⟨2, [ofMat 2 2 fun i r => 2 * i + r + 1, ofMat 2 2 fun i r => 2 * i + r + 5], full [2] 1⟩

/-- The same with the components exchanged and the signs of the (old) first component changed. -/
def pairKT' : KruskalTensor :=
  ⟨2, [ofMat 2 2 fun i r => if r = 0 then 2 * i + 2 else -(2 * i + 1),
    ofMat 2 2 fun i r => if r = 0 then 2 * i + 6 else -(2 * i + 5)], full [2] 1⟩

/-- The factors of `pairKT` with the rows of the first mode exchanged. -/
def pairKTrows : KruskalTensor :=
  ⟨2, [ofMat 2 2 fun i r => if i = 0 then 3 + r else 1 + r, ofMat 2 2 fun i r => 2 * i + r + 5], full [2] 1⟩

theorem swap_lt (r : ℕ) : Equiv.swap 0 1 r < 2 ↔ r < 2 := by
  rw [Equiv.swap_apply_def]; split
  · omega
  · split <;> omega

theorem pair_admissible {X : NDArray ℝ} (hX : X.shape = [2, 2]) : CP.Admissible pairConfig.opts none none X.shape :=
  ⟨by decide, by simp [hX], by simp [hX], by simp, by simp, by simp [pairConfig], by simp, by simp⟩

theorem pair_init : pairConfig.init.toLower = "precomputed" := half_init

theorem pair_storing (E : Ext) (w : World CPState) : Storing (CP.method E pairConfig) w [] := by
  have hneg : ¬ 0 < (CP.method E pairConfig).freq := by
    show ¬ (0 : Int) < -1
    decide
  exact ⟨fun h => absurd h hneg, fun h => absurd h hneg, fun h => absurd h hneg⟩

/-- The hypotheses of `C96_components` for `pairKT` and `pairKT'`. -/
example {E : Ext} (hE : E.SVDOk) (hN : E.NNLSOk) (hQ : E.QROk) (budget : Int) (hb : 0 < budget) :
    ∃ w w', CP.fit E pairConfig diag21 (some budget) (.tensor pairKT) (CP.newObject none none budget [] none) = .ok () w ∧
      CP.fit E pairConfig diag21 (some budget) (.tensor pairKT') (CP.newObject none none budget [] none) = .ok () w' ∧
      w'.st.dec.constructTensor = w.st.dec.constructTensor ∧ w'.it = w.it := by
  have ht : pairKT.WF diag21.shape 2 := ⟨rfl, by simp [Factors, pairKT, diag21], rfl⟩
  have ht' : pairKT'.WF diag21.shape 2 := ⟨rfl, by simp [Factors, pairKT', diag21], rfl⟩
  obtain ⟨w, w', h1, h2, -, h4, h5, -⟩ := C96_components hE hN hQ (c := pairConfig) (X := diag21)
    (pair_admissible rfl) rfl (by intro p hp; simp [pairConfig] at hp) (by decide) (startsFrom_precomputed pair_init ht)
    (startsFrom_precomputed pair_init ht') ht ht' (perm := Equiv.swap 0 1) swap_lt
    (sign := fun _ r => if r = 0 then -1 else 1) (by intro k _ r _; split <;> simp)
    (by intro r _; by_cases h : r = 0 <;> simp [diag21, Finset.prod_range_succ, h])
    (by
      intro k F F' hF hF' i hi r hr
      match k, hF, hF' with
      | 0, hF, hF' =>
        obtain rfl := Option.some.inj hF
        obtain rfl := Option.some.inj hF'
        have hi : i < 2 := hi
        have hr : r < 2 := hr
        rw [get_ofMat hi ((swap_lt r).2 hr), get_ofMat hi hr]
        obtain rfl | rfl : r = 0 ∨ r = 1 := by omega
        · rw [Equiv.swap_apply_left]; simp
        · rw [Equiv.swap_apply_right]; simp; ring
      | 1, hF, hF' =>
        obtain rfl := Option.some.inj hF
        obtain rfl := Option.some.inj hF'
        have hi : i < 2 := hi
        have hr : r < 2 := hr
        rw [get_ofMat hi ((swap_lt r).2 hr), get_ofMat hi hr]
        obtain rfl | rfl : r = 0 ∨ r = 1 := by omega
        · rw [Equiv.swap_apply_left]; simp
        · rw [Equiv.swap_apply_right]; simp; ring)
    (mi := some budget) (budget := budget) (loggers := []) (file := none) hb (pair_storing _ _)
  exact ⟨w, w', h1, h2, h4, h5⟩

/-- The hypotheses of `C97_rows` for `diag(2, 1)` with its rows exchanged. -/
example {E : Ext} (hE : E.SVDOk) (hN : E.NNLSOk) (hQ : E.QROk) (budget : Int) (hb : 0 < budget) :
    ∃ w w', CP.fit E pairConfig diag21 (some budget) (.tensor pairKT) (CP.newObject none none budget [] none) = .ok () w ∧
      CP.fit E pairConfig (ofMat 2 2 fun i j => if i = j then 0 else (if i = 0 then 1 else 2)) (some budget)
        (.tensor pairKTrows) (CP.newObject none none budget [] none) = .ok () w' ∧
      CP.sse w'.st = CP.sse w.st ∧ w'.it = w.it := by
  have ht : pairKT.WF diag21.shape 2 := ⟨rfl, by simp [Factors, pairKT, diag21], rfl⟩
  have ht' : pairKTrows.WF diag21.shape 2 := ⟨rfl, by simp [Factors, pairKTrows, diag21], rfl⟩
  obtain ⟨w, w', h1, h2, -, h4, h5, -⟩ := C97_rows hE hN hQ (c := pairConfig) (X := diag21)
    (X' := ofMat 2 2 fun i j => if i = j then 0 else (if i = 0 then 1 else 2))
    (pair_admissible rfl) rfl (by intro p hp; simp [pairConfig] at hp) (by decide) (startsFrom_precomputed pair_init ht)
    (startsFrom_precomputed pair_init ht') ht ht' rfl
    (σ := fun k => if k = 0 then Equiv.swap 0 1 else Equiv.refl ℕ)
    (by
      intro k hk i
      have hk : k < 2 := hk
      obtain rfl | rfl : k = 0 ∨ k = 1 := by omega
      · exact swap_lt i
      · exact Iff.rfl)
    (by
      intro idx hv
      match idx, hv with
      | [i, j], hv =>
        have hi : i < 2 := hv.1
        have hj : j < 2 := hv.2.1
        show (ofMat 2 2 fun i j => if i = j then (0 : ℝ) else (if i = 0 then 1 else 2)).get [Equiv.swap 0 1 i, j] = _
        rw [diag21, get_ofMat ((swap_lt i).2 hi) hj, get_ofMat hi hj]
        obtain rfl | rfl : i = 0 ∨ i = 1 := by omega
        · rw [Equiv.swap_apply_left]
          obtain rfl | rfl : j = 0 ∨ j = 1 := by omega
          · norm_num
          · norm_num
        · rw [Equiv.swap_apply_right]
          obtain rfl | rfl : j = 0 ∨ j = 1 := by omega
          · norm_num
          · norm_num)
    (by
      intro k F F' hF hF' i hi r hr
      match k, hF, hF' with
      | 0, hF, hF' =>
        obtain rfl := Option.some.inj hF
        obtain rfl := Option.some.inj hF'
        have hi : i < 2 := hi
        have hr : r < 2 := hr
        show (ofMat 2 2 _).get [Equiv.swap 0 1 i, r] = _
        rw [get_ofMat ((swap_lt i).2 hi) hr, get_ofMat hi hr]
        obtain rfl | rfl : i = 0 ∨ i = 1 := by omega
        · rw [Equiv.swap_apply_left]; simp; ring
        · rw [Equiv.swap_apply_right]; simp; ring
      | 1, hF, hF' =>
        obtain rfl := Option.some.inj hF
        obtain rfl := Option.some.inj hF'
        rfl)
    (mi := some budget) (budget := budget) (loggers := []) (file := none) hb (pair_storing _ _)
  exact ⟨w, w', h1, h2, h5, h4⟩

/-- The hypotheses of `C98_library` for `diag(2, 1)` from ones, for any two libraries. -/
example {E E' : Ext} (hE : E.SVDOk) (hN : E.NNLSOk) (hQ : E.QROk) (hE' : E'.SVDOk) (hN' : E'.NNLSOk) (hQ' : E'.QROk)
    (budget : Int) (hb : 0 < budget) :
    ∃ w w', CP.fit E pairConfig diag21 (some budget) (.tensor pairKT) (CP.newObject none none budget [] none) = .ok () w ∧
      CP.fit E' pairConfig diag21 (some budget) (.tensor pairKT) (CP.newObject none none budget [] none) = .ok () w' ∧
      w'.st.dec = w.st.dec := by
  have ht : pairKT.WF diag21.shape 2 := ⟨rfl, by simp [Factors, pairKT, diag21], rfl⟩
  obtain ⟨w, w', h1, h2, h3, -⟩ := C98_library hE hN hQ hE' hN' hQ' (c := pairConfig) (X := diag21)
    (pair_admissible rfl) rfl (by intro p hp; simp [pairConfig] at hp) (by decide) (startsFrom_precomputed pair_init ht)
    (startsFrom_precomputed pair_init ht) ht (mi := some budget) (budget := budget) (loggers := []) (file := none) hb
    (pair_storing _ _) (pair_storing _ _)
  exact ⟨w, w', h1, h2, h3⟩

/-- The hypotheses of `C95_same_start_partial` and `C99_first_mode_partial` hold without tolerances for `diag(2, 1)`,
`diag(20, 10)` and the initial decompositions `onesKT` and `tensKT`. -/
example {E : Ext} (hE : E.SVDOk) (hN : E.NNLSOk) (hQ : E.QROk) (budget : Int) (hb : 2 ≤ budget) :
    (∃ w w' e, CP.fit E (plainConfig "precomputed" none) diag21 (some budget) (.tensor onesKT)
        (CP.newObject none none budget [] none) = .ok () w ∧
      CP.fit E (plainConfig "precomputed" none) diag2010 (some budget) (.tensor onesKT)
        (CP.newObject none none budget [] none) = .ok () w' ∧
      CP.sse w.st = .ok e ∧ CP.sse w'.st = .ok (10 ^ 2 * e)) ∧
    ∃ w w', CP.fit E (plainConfig "precomputed" none) diag21 (some budget) (.tensor onesKT)
        (CP.newObject none none budget [] none) = .ok () w ∧
      CP.fit E (plainConfig "precomputed" none) diag21 (some budget) (.tensor tensKT)
        (CP.newObject none none budget [] none) = .ok () w' ∧ w'.st.dec = w.st.dec := by
  have ht : onesKT.WF diag21.shape 1 := ⟨rfl, by simp [Factors, onesKT, diag21], rfl⟩
  have ht' : tensKT.WF diag21.shape 1 := ⟨rfl, by simp [Factors, tensKT, diag21], rfl⟩
  have hA : CP.Admissible (plainConfig "precomputed" none).opts none none diag21.shape :=
    ⟨by decide, by simp [diag21], by simp [diag21], by simp, by simp, by simp [plainConfig], by simp, by simp⟩
  have hi : (plainConfig "precomputed" none).init.toLower = "precomputed" := half_init
  have hneg : ¬ 0 < (CP.method E (plainConfig "precomputed" none)).freq := by
    show ¬ (0 : Int) < -1
    decide
  have hS : ∀ w, Storing (CP.method E (plainConfig "precomputed" none)) w [] := fun w =>
    ⟨fun h => absurd h hneg, fun h => absurd h hneg, fun h => absurd h hneg⟩
  constructor
  · obtain ⟨w, w', e, h1, h2, -, h4, h5⟩ := C95_same_start_partial hE hN hQ hA rfl le_rfl le_rfl
      (by intro p hp; simp [plainConfig] at hp) (by decide) (startsFrom_precomputed hi ht)
      (startsFrom_precomputed (X := diag2010) hi ht) ht rfl (a := 10) (by norm_num) (C95_fails hE hN hQ hb).1
      (mi := some budget) (budget := budget) (loggers := []) (file := none) (by show 0 < budget; omega) (hS _)
    exact ⟨w, w', e, h1, h2, h4, h5⟩
  · obtain ⟨w, w', h1, h2, h3, -⟩ := C99_first_mode_partial hE hN hQ hA rfl le_rfl le_rfl
      (by intro p hp; simp [plainConfig] at hp) (by decide) (startsFrom_precomputed hi ht)
      (startsFrom_precomputed hi ht') ht ht' rfl
      (mi := some budget) (budget := budget) (loggers := []) (file := none) (by show 0 < budget; omega) (hS _)
    exact ⟨w, w', h1, h2, h3⟩

end
end TK
