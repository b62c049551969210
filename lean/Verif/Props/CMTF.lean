import Verif.Lemmas.CMTFUpdate
import Verif.Lemmas.Normalize

/-!
# Coupled matrix and tensor factorisation: iterations (C57, C58, C59, C67)
-/

namespace TK
open NDArray

noncomputable section

/-- What the updates leave alone. -/
structure CMTFState.Same (s t : CMTFState) : Prop where
  X : t.cp.X = s.cp.X
  XNorm : t.cp.XNorm = s.cp.XNorm
  nonNeg : t.cp.nonNeg = s.cp.nonNeg
  orth : t.cp.orth = s.cp.orth
  weights : t.cp.dec.weights = s.cp.dec.weights
  prev : t.cp.prevSSE = s.cp.prevSSE
  Ys : t.Ys = s.Ys
  modes : t.modes = s.modes
  map : t.map = s.map

theorem CMTFState.Same.refl (s : CMTFState) : s.Same s := ⟨rfl, rfl, rfl, rfl, rfl, rfl, rfl, rfl, rfl⟩

theorem CMTFState.Same.trans {s t u : CMTFState} (h1 : s.Same t) (h2 : t.Same u) : s.Same u :=
  ⟨h2.X.trans h1.X, h2.XNorm.trans h1.XNorm, h2.nonNeg.trans h1.nonNeg, h2.orth.trans h1.orth, h2.weights.trans h1.weights,
    h2.prev.trans h1.prev, h2.Ys.trans h1.Ys, h2.modes.trans h1.modes, h2.map.trans h1.map⟩

/-- The options allow the updates: no mode is to be non-negative (see `C59_fails`), every mode has a flag for orthonormality and
(if there are any) a penalty. -/
structure CMTFState.Cfg (s : CMTFState) (o : CPOpts) : Prop where
  nonNeg : s.cp.nonNeg = some (List.replicate s.cp.X.shape.length false)
  conf : ∀ m < s.cp.X.shape.length, ∃ on ridge, s.cp.ModeConfig o m false on ridge

theorem CMTFState.Cfg.same {s t : CMTFState} {o : CPOpts} (h : s.Cfg o) (hs : s.Same t) : t.Cfg o := by
  refine ⟨by rw [hs.nonNeg, hs.X]; exact h.nonNeg, fun m hm => ?_⟩
  rw [hs.X] at hm
  obtain ⟨on, ridge, hc⟩ := h.conf m hm
  exact ⟨on, ridge, by rw [hs.nonNeg]; exact hc.nonNeg, by rw [hs.orth]; exact hc.orth, hc.ridge⟩

/-- There are no constraints and penalties, and the coupling modes are given as `0, 1, …`. -/
structure CMTFState.Free (s : CMTFState) (o : CPOpts) (ms : List ℕ) : Prop where
  plain : s.Plain ms
  conf : ∀ m < s.cp.X.shape.length, s.cp.ModeConfig o m false false none

theorem CMTFState.Free.same {s t : CMTFState} {o : CPOpts} {ms : List ℕ} (h : s.Free o ms) (hs : s.Same t) : t.Free o ms := by
  refine ⟨by rw [CMTFState.Plain, hs.modes]; exact h.plain, fun m hm => ?_⟩
  rw [hs.X] at hm
  have hc := h.conf m hm
  exact ⟨by rw [hs.nonNeg]; exact hc.nonNeg, by rw [hs.orth]; exact hc.orth, hc.ridge⟩

theorem cmtf_flag {s : CMTFState} {o : CPOpts} (h : s.Cfg o) {m : ℕ} (hm : m < s.cp.X.shape.length) :
    CMTF.flagAt s.cp.nonNeg m = .ok false := by
  rw [h.nonNeg]
  simp only [CMTF.flagAt]
  rw [pyGet_ok (k := m) (norm_nat (by simpa using hm))]
  simp

/-- The updates of the factor matrices never fail, and without constraints and penalties the loss does not increase. -/
theorem cmtf_updateModes_ok {E : Ext} (hE : E.SVDOk) (hN : E.NNLSOk) {o : CPOpts} (hr : 0 < o.rank) {ms qs : List ℕ} :
    ∀ (modes : List ℕ) (s : CMTFState), s.Sized o.rank ms qs → s.Cfg o → (∀ m ∈ modes, m < s.cp.X.shape.length) →
      ∃ s', CMTF.updateModes E o modes s = .ok s' ∧ s'.Sized o.rank ms qs ∧ s.Same s' ∧ s'.V = s.V ∧
        (s.Free o ms → s'.fitLoss o.rank ms ≤ s.fitLoss o.rank ms) := by
  intro modes
  induction modes with
  | nil => intro s h _ _; exact ⟨s, rfl, h, .refl s, rfl, fun _ => le_rfl⟩
  | cons m modes ih =>
    intro s h hc hm
    have hm0 := hm m (by simp)
    have step : ∃ c F, F.shape = [s.cp.X.shape.getD m 0, o.rank] ∧ CMTF.updateFactor E o m s = .ok (s.upd m c F) ∧
        (s.Free o ms → (s.upd m c F).fitLoss o.rank ms ≤ s.fitLoss o.rank ms) := by
      by_cases hf : s.Free o ms
      · obtain ⟨c, F, hF, e, hopt⟩ := cmtf_update_core hE h hf.plain hm0 (hf.conf m hm0)
        refine ⟨c, F, hF, e, fun _ => ?_⟩
        have hm' : m < s.cp.dec.factorMatrices.length := by rw [h.cp.wf.factors.length_eq]; exact hm0
        refine (hopt _ (h.cp.wf.factors.shape_get hm')).trans (le_of_eq ?_)
        simp [CMTFState.fitLoss, CMTFState.upd]
      · obtain ⟨on, ridge, hmc⟩ := hc.conf m hm0
        obtain ⟨c, F, hF, e⟩ := cmtf_updateFactor_total hE hN h hr hm0 hmc (by simp)
        exact ⟨c, F, hF, e, fun h => absurd h hf⟩
    obtain ⟨c, F, hF, e, hle⟩ := step
    have hsame : s.Same (s.upd m c F) := ⟨rfl, rfl, rfl, rfl, rfl, rfl, rfl, rfl, rfl⟩
    obtain ⟨s', e', h1, h2, h3, h4⟩ := ih (s.upd m c F) (h.upd hF) (hc.same hsame) (fun k hk => hm k (by simp [hk]))
    refine ⟨s', ?_, h1, hsame.trans h2, h3, fun hf => (h4 (hf.same hsame)).trans (hle hf)⟩
    rw [CMTF.updateModes, List.foldlM_cons, cmtf_flag hc hm0, bind_ok]
    simp only [Bool.false_eq_true, if_false]
    rw [e, bind_ok]
    exact e'

/-- Matrix number `i` is the first one with its coupling mode (as it was given). -/
def FirstOf (modes : List Int) (i : ℕ) : Prop := i < modes.length ∧ ∀ j < i, modes[j]? ≠ modes[i]?

theorem firstErr_mono {fs Ys V V' : List (NDArray ℝ)} {ms : List ℕ} {R : ℕ}
    (h : ∀ i < ms.length, V'.getD i noArr = V.getD i noArr ∨
      BestV (Ys.getD i noArr) (fs.getD (ms.getD i 0) noArr) (V'.getD i noArr) R) :
    firstErr fs Ys V' ms R ≤ firstErr fs Ys V ms R := by
  refine Finset.sum_le_sum fun i hi => ?_
  have hi : i < ms.length := by simp at hi; exact hi.1
  unfold coupledErrAt
  rcases h i hi with e | hb
  · rw [e]
  · exact hb _

/-- The updates of the right factors never fail. Every matrix that is the first one with its coupling mode gets the best right
factor; all others keep theirs. -/
theorem cmtf_uncoupled_ok {E : Ext} (hE : E.SVDOk) {o : CPOpts} {R : ℕ} {ms qs : List ℕ} {s : CMTFState} (h : s.Sized R ms qs)
    (hc : s.Cfg o) :
    ∃ V', s.map.foldlM (CMTF.updateUncoupled E) s = .ok { s with V := V' } ∧ ({ s with V := V' } : CMTFState).Sized R ms qs ∧
      (∀ i, FirstOf s.modes i → BestV (s.Ys.getD i noArr) (s.cp.dec.factorMatrices.getD (ms.getD i 0) noArr)
        (V'.getD i noArr) R) ∧
      (∀ i, ¬ FirstOf s.modes i → V'.getD i noArr = s.V.getD i noArr) := by
  have hD := mapOk s.modes
  rw [← h.map] at hD
  obtain ⟨V', e2, h2, hb, hk⟩ := uncoupled_fold hE s.map s h hc.nonNeg
    (fun p hp => by
      obtain ⟨i, t, e, hi, -⟩ := hD.head hp
      exact ⟨i, t, e, hi⟩) hD.nodup
  refine ⟨V', e2, h2, fun i hi => ?_, fun i hi => ?_⟩
  · obtain ⟨l, hl⟩ := hD.mem i hi.1 _ (List.getElem?_eq_getElem hi.1)
    obtain ⟨j, t, rfl, hj, hjf, -⟩ := hD.head hl
    obtain rfl : i = j := by
      rcases Nat.lt_trichotomy i j with hlt | rfl | hgt
      · exact absurd (List.getElem?_eq_getElem hi.1) (hjf i hlt)
      · rfl
      · exact absurd (hj.trans (List.getElem?_eq_getElem hi.1).symm) (hi.2 j hgt)
    exact hb _ hl i t rfl
  · rw [hk i]
    intro p hp hh
    obtain ⟨j, t, e, hj, hjf, hall⟩ := hD.head hp
    rw [e] at hh
    obtain rfl : j = i := by simpa using hh
    exact hi ⟨(hall j (by rw [e]; simp)).1, fun k hk => by rw [hj]; exact hjf k hk⟩

/-- One round of updates never fails. Every matrix that is the first one with its coupling mode gets the best right factor for
the new factor matrices; all others keep theirs. Without constraints and penalties the loss without weights, with only the
first matrix of every mode, does not increase. -/
theorem cmtf_updateFactors_ok {E : Ext} (hE : E.SVDOk) (hN : E.NNLSOk) {o : CPOpts} (hr : 0 < o.rank) {ms qs : List ℕ}
    {s : CMTFState} (h : s.Sized o.rank ms qs) (hc : s.Cfg o) :
    ∃ s', CMTF.updateFactors E o s = .ok s' ∧ s'.Sized o.rank ms qs ∧ s.Same s' ∧
      (∀ i, FirstOf s.modes i → BestV (s.Ys.getD i noArr) (s'.cp.dec.factorMatrices.getD (ms.getD i 0) noArr)
        (s'.V.getD i noArr) o.rank) ∧
      (∀ i, ¬ FirstOf s.modes i → s'.V.getD i noArr = s.V.getD i noArr) ∧
      (s.Free o ms → s'.fitLoss o.rank ms ≤ s.fitLoss o.rank ms) := by
  obtain ⟨s1, e1, h1, hs1, hV1, hle⟩ := cmtf_updateModes_ok hE hN hr (List.range s.cp.X.shape.length) s h hc (by simp)
  obtain ⟨V', e2, h2, hbest, hkeep⟩ := cmtf_uncoupled_ok hE h1 (hc.same hs1)
  rw [hs1.modes, hs1.Ys] at hbest
  rw [hs1.modes, hV1] at hkeep
  refine ⟨{ s1 with V := V' }, ?_, h2, ⟨hs1.X, hs1.XNorm, hs1.nonNeg, hs1.orth, hs1.weights, hs1.prev, hs1.Ys, hs1.modes,
    hs1.map⟩, hbest, hkeep, fun hf => ?_⟩
  · rw [CMTF.updateFactors, e1, bind_ok, e2]
  · refine le_trans ?_ (hle hf)
    simp only [CMTFState.fitLoss]
    refine add_le_add le_rfl (firstErr_mono fun i _ => ?_)
    by_cases hi : FirstOf s.modes i
    · right; rw [hs1.Ys]; exact hbest i hi
    · left; rw [hkeep i hi, hV1]

/-- The state after `_update_convergence`. -/
def CMTFState.withSSE (s : CMTFState) (e : ℝ) : CMTFState := { s with cp := s.cp.withSSE e }

theorem CMTFState.Sized.withSSE {s : CMTFState} {R : ℕ} {ms qs : List ℕ} (h : s.Sized R ms qs) (e : ℝ) :
    (s.withSSE e).Sized R ms qs :=
  ⟨h.cp.withSSE e, h.modes, h.map, h.lenY, h.lenV, h.lenW, h.shapeY, h.shapeV⟩

/-- What an iteration leaves alone. -/
structure CMTFState.SameProblem (s t : CMTFState) : Prop where
  X : t.cp.X = s.cp.X
  XNorm : t.cp.XNorm = s.cp.XNorm
  nonNeg : t.cp.nonNeg = s.cp.nonNeg
  orth : t.cp.orth = s.cp.orth
  weights : t.cp.dec.weights = s.cp.dec.weights
  Ys : t.Ys = s.Ys
  modes : t.modes = s.modes
  map : t.map = s.map

theorem CMTFState.SameProblem.refl (s : CMTFState) : s.SameProblem s := ⟨rfl, rfl, rfl, rfl, rfl, rfl, rfl, rfl⟩

theorem CMTFState.SameProblem.trans {s t u : CMTFState} (h1 : s.SameProblem t) (h2 : t.SameProblem u) : s.SameProblem u :=
  ⟨h2.X.trans h1.X, h2.XNorm.trans h1.XNorm, h2.nonNeg.trans h1.nonNeg, h2.orth.trans h1.orth, h2.weights.trans h1.weights,
    h2.Ys.trans h1.Ys, h2.modes.trans h1.modes, h2.map.trans h1.map⟩

theorem CMTFState.Cfg.sameProblem {s t : CMTFState} {o : CPOpts} (h : s.Cfg o) (hs : s.SameProblem t) : t.Cfg o := by
  refine ⟨by rw [hs.nonNeg, hs.X]; exact h.nonNeg, fun m hm => ?_⟩
  rw [hs.X] at hm
  obtain ⟨on, ridge, hc⟩ := h.conf m hm
  exact ⟨on, ridge, by rw [hs.nonNeg]; exact hc.nonNeg, by rw [hs.orth]; exact hc.orth, hc.ridge⟩

theorem CMTFState.Free.sameProblem {s t : CMTFState} {o : CPOpts} {ms : List ℕ} (h : s.Free o ms) (hs : s.SameProblem t) :
    t.Free o ms := by
  refine ⟨by rw [CMTFState.Plain, hs.modes]; exact h.plain, fun m hm => ?_⟩
  rw [hs.X] at hm
  have hc := h.conf m hm
  exact ⟨by rw [hs.nonNeg]; exact hc.nonNeg, by rw [hs.orth]; exact hc.orth, hc.ridge⟩

/-- C57/C58 for one iteration: it never fails, reports the true loss, updates the right factors of the first matrices only, and
does not increase the loss without weights in which only the first matrices occur. -/
theorem cmtf_iteration_ok {E : Ext} (hE : E.SVDOk) (hN : E.NNLSOk) {o : CPOpts} (hr : 0 < o.rank) {ms qs : List ℕ}
    {s : CMTFState} (h : s.Sized o.rank ms qs) (hc : s.Cfg o) :
    ∃ s', CMTF.iteration E o s = .ok s' ∧ s'.Sized o.rank ms qs ∧ s.SameProblem s' ∧ s'.Cfg o ∧
      s'.cp.prevSSE = s'.trueLoss o.rank ms ∧
      s'.cp.relChange = FV.div (s.cp.prevSSE - s'.trueLoss o.rank ms) s.cp.prevSSE ∧
      (∀ i, FirstOf s.modes i → BestV (s.Ys.getD i noArr) (s'.cp.dec.factorMatrices.getD (ms.getD i 0) noArr)
        (s'.V.getD i noArr) o.rank) ∧
      (∀ i, ¬ FirstOf s.modes i → s'.V.getD i noArr = s.V.getD i noArr) ∧
      (s.Free o ms → s'.fitLoss o.rank ms ≤ s.fitLoss o.rank ms) := by
  obtain ⟨s1, e1, h1, hs, hb, hk, hle⟩ := cmtf_updateFactors_ok hE hN hr h hc
  have hsp : s.SameProblem (s1.withSSE (s1.trueLoss o.rank ms)) :=
    ⟨hs.X, hs.XNorm, hs.nonNeg, hs.orth, hs.weights, hs.Ys, hs.modes, hs.map⟩
  refine ⟨s1.withSSE (s1.trueLoss o.rank ms), ?_, h1.withSSE _, hsp, hc.sameProblem hsp, rfl, ?_, hb, hk, hle⟩
  · rw [CMTF.iteration, e1, bind_ok, CMTF.updateConvergence, cmtf_sse_ok h1, bind_ok]; rfl
  · show FV.div (s1.cp.prevSSE - s1.trueLoss o.rank ms) s1.cp.prevSSE = FV.div (s.cp.prevSSE - s1.trueLoss o.rank ms) s.cp.prevSSE
    rw [hs.prev]

/-! ## C57 -/

/-- The loss of C57, written out: `‖X - [[U]]‖² + Σ_i ‖Y_i - U_{m_i} V_iᵀ‖²` (with the weights of the decomposition). -/
theorem fitLoss_eq_trueLoss {s : CMTFState} {R : ℕ} {ms : List ℕ} (hw : ∀ r < R, s.cp.dec.weights.get [r] = 1) (hd : ms.Nodup) :
    s.fitLoss R ms = s.trueLoss R ms := by
  unfold CMTFState.fitLoss CMTFState.trueLoss
  congr 1
  · rw [CPState.trueSSE]
    exact sqErr_congr_weights fun r hr => (hw r hr).symm
  · unfold firstErr coupledErr
    congr 1
    rw [Finset.filter_eq_self]
    intro i hi j hj e
    have hi : i < ms.length := by simpa using hi
    rw [getD_of_lt hi, getD_of_lt (by omega)] at e
    exact absurd ((List.Nodup.getElem_inj_iff hd).1 e) (by omega)

/-- **C57**, the part that holds: with unit weights, without constraints and penalties, with different coupling modes given as
`0, 1, …`, an iteration never fails, the SSE it reports is the true coupled loss, and this loss does not increase.
Missing: several matrices coupled to one mode (false, `C57_shared_mode_fails`), a coupling mode given as `-1, -2, …` (false,
`C57_negative_mode_fails`) and weights other than one, which `fit` produces (false, `C82_fit_gets_worse`). -/
theorem C57_partial {E : Ext} (hE : E.SVDOk) (hN : E.NNLSOk) {o : CPOpts} (hr : 0 < o.rank) {ms qs : List ℕ}
    {s : CMTFState} (h : s.Sized o.rank ms qs) (hc : s.Cfg o) (hf : s.Free o ms) (hd : ms.Nodup)
    (hw : ∀ r < o.rank, s.cp.dec.weights.get [r] = 1) :
    ∃ s', CMTF.iteration E o s = .ok s' ∧ CMTF.sse s = .ok (s.trueLoss o.rank ms) ∧
      CMTF.sse s' = .ok (s'.trueLoss o.rank ms) ∧ s'.trueLoss o.rank ms ≤ s.trueLoss o.rank ms ∧
      s'.Sized o.rank ms qs ∧ s.SameProblem s' := by
  obtain ⟨s', e, h1, hs, -, -, -, -, -, hle⟩ := cmtf_iteration_ok hE hN hr h hc
  refine ⟨s', e, cmtf_sse_ok h, cmtf_sse_ok h1, ?_, h1, hs⟩
  have := hle hf
  rwa [fitLoss_eq_trueLoss hw hd, fitLoss_eq_trueLoss (by rw [hs.weights]; exact hw) hd] at this

/-- C57 for the objective of the updates: whatever the weights are and however many matrices share a mode, an iteration does not
increase `‖X - [[U]]‖² + Σ ‖Y_i - U_{m_i} V_iᵀ‖²` with unit weights, where the sum is over the matrices that are the first one of
their mode. -/
theorem C57_first_matrices {E : Ext} (hE : E.SVDOk) (hN : E.NNLSOk) {o : CPOpts} (hr : 0 < o.rank) {ms qs : List ℕ}
    {s : CMTFState} (h : s.Sized o.rank ms qs) (hc : s.Cfg o) (hf : s.Free o ms) :
    ∃ s', CMTF.iteration E o s = .ok s' ∧
      sqErr s.cp.X (fun _ => 1) s'.cp.dec.factorMatrices o.rank + firstErr s'.cp.dec.factorMatrices s.Ys s'.V ms o.rank
        ≤ sqErr s.cp.X (fun _ => 1) s.cp.dec.factorMatrices o.rank + firstErr s.cp.dec.factorMatrices s.Ys s.V ms o.rank := by
  obtain ⟨s', e, h1, hs, -, -, -, -, -, hle⟩ := cmtf_iteration_ok hE hN hr h hc
  refine ⟨s', e, ?_⟩
  have := hle hf
  unfold CMTFState.fitLoss at this
  rwa [hs.X, hs.Ys] at this

end
end TK
