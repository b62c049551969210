import Verif.Lemmas.CoupledDescent
import Verif.Props.CMTFFitMore

/-!
# C137: how far iterations move a coupled model, and where they lead

Source: cmtf.py:146-189 (`_update_als_factors`, `_get_als_lhs`, `_get_als_rhs`, `_update_uncoupled_matrix_factors`) and the loop
inherited from `CP_ALS` (cp.py:408-427).
-/

namespace TK
open NDArray Fit Filter Topology
open EStateM (Result)

noncomputable section

/-! ## Iterations are sweeps -/

/-- The state before the update of mode `m`. -/
def CMTF.partial (E : Ext) (o : CPOpts) (s : CMTFState) (m : ℕ) : CMTFState :=
  match CMTF.updateModes E o (List.range m) s with
  | .ok s' => s'
  | .error _ => s

/-- The matrices of a state. -/
def CMTFState.mats (s : CMTFState) : List (NDArray ℝ) × List (NDArray ℝ) := (s.cp.dec.factorMatrices, s.V)

/-- The matrices before the update of mode `m` in the iteration from `s` to `s'`, then before and after the update of the right
factors. -/
def CMTF.during (E : Ext) (o : CPOpts) (s s' : CMTFState) (m : ℕ) : List (NDArray ℝ) × List (NDArray ℝ) :=
  if m ≤ s.cp.X.shape.length then (CMTF.partial E o s m).mats else s'.mats

theorem firstOf_of_isFirst {modes : List Int} {ms : List ℕ} (hp : modes = ms.map fun m : ℕ => (m : Int)) {i : ℕ}
    (hi : i < ms.length) (hf : IsFirst ms i) : FirstOf modes i := by
  subst hp
  refine ⟨by simpa using hi, fun j hj e => hf j hj ?_⟩
  rw [List.getElem?_map, List.getElem?_map, List.getElem?_eq_getElem hi, List.getElem?_eq_getElem (by omega)] at e
  rw [getD_of_lt hi, getD_of_lt (by omega)]
  simpa using e

theorem cmtf_partial {E : Ext} (hE : E.SVDOk) {o : CPOpts} {ms qs : List ℕ} {s : CMTFState}
    (h : s.Sized o.rank ms qs) (hc : s.Cfg o) (hf : s.Free o ms) :
    (∀ m ≤ s.cp.X.shape.length, CMTF.updateModes E o (List.range m) s = .ok (CMTF.partial E o s m) ∧
      (CMTF.partial E o s m).Sized o.rank ms qs ∧ s.Same (CMTF.partial E o s m)) ∧
    ∀ m < s.cp.X.shape.length, ∃ F, (CMTF.partial E o s (m + 1)).mats =
        ((CMTF.partial E o s m).cp.dec.factorMatrices.set m F, (CMTF.partial E o s m).V) ∧
      ∀ Z : NDArray ℝ, Z.shape = [s.cp.X.shape.getD m 0, o.rank] →
        coupledLoss s.cp.X s.Ys ms o.rank (CMTF.partial E o s (m + 1)).mats.1 (CMTF.partial E o s (m + 1)).mats.2 ≤
          coupledLoss s.cp.X s.Ys ms o.rank ((CMTF.partial E o s m).cp.dec.factorMatrices.set m Z) (CMTF.partial E o s m).V := by
  have hstep : ∀ m < s.cp.X.shape.length, CMTF.updateModes E o (List.range m) s = .ok (CMTF.partial E o s m) →
      (CMTF.partial E o s m).Sized o.rank ms qs → s.Same (CMTF.partial E o s m) →
      ∃ c F, F.shape = [s.cp.X.shape.getD m 0, o.rank] ∧
        CMTF.updateModes E o (List.range (m + 1)) s = .ok ((CMTF.partial E o s m).upd m c F) ∧
        CMTF.partial E o s (m + 1) = (CMTF.partial E o s m).upd m c F ∧
        ∀ Y : NDArray ℝ, Y.shape = [s.cp.X.shape.getD m 0, o.rank] →
          ((CMTF.partial E o s m).upd m c F).fitLoss o.rank ms ≤ ((CMTF.partial E o s m).upd m c Y).fitLoss o.rank ms := by
    intro m hm e hs hp
    obtain ⟨c, F, hF, eF, opt⟩ := cmtf_update_core hE hs (hf.same hp).plain (m := m) (by rw [hp.X]; exact hm)
      ((hf.same hp).conf m (by rw [hp.X]; exact hm))
    rw [hp.X] at hF opt
    have e1 : CMTF.updateModes E o (List.range (m + 1)) s = .ok ((CMTF.partial E o s m).upd m c F) := by
      rw [List.range_succ, CMTF.updateModes, List.foldlM_append]
      rw [CMTF.updateModes] at e
      rw [e, bind_ok, List.foldlM_cons, cmtf_flag (hc.same hp) (by rw [hp.X]; exact hm), bind_ok]
      simp only [Bool.false_eq_true, if_false]
      rw [eF, bind_ok]; rfl
    exact ⟨c, F, hF, e1, by rw [CMTF.partial, e1], opt⟩
  have hall : ∀ m ≤ s.cp.X.shape.length, CMTF.updateModes E o (List.range m) s = .ok (CMTF.partial E o s m) ∧
      (CMTF.partial E o s m).Sized o.rank ms qs ∧ s.Same (CMTF.partial E o s m) := by
    intro m
    induction m with
    | zero => exact fun _ => ⟨rfl, h, .refl s⟩
    | succ m ih =>
      intro hm
      obtain ⟨i1, i2, i3⟩ := ih (by omega)
      obtain ⟨c, F, hF, e1, e2, -⟩ := hstep m hm i1 i2 i3
      rw [e2]
      exact ⟨e1, i2.upd (by rw [i3.X]; exact hF), i3.trans ⟨rfl, rfl, rfl, rfl, rfl, rfl, rfl, rfl, rfl⟩⟩
  refine ⟨hall, fun m hm => ?_⟩
  obtain ⟨i1, i2, i3⟩ := hall m hm.le
  obtain ⟨c, F, hF, e1, e2, opt⟩ := hstep m hm i1 i2 i3
  refine ⟨F, by rw [e2]; rfl, fun Z hZ => ?_⟩
  have h1 := opt Z hZ
  simp only [CMTFState.fitLoss, CMTFState.upd, i3.X, i3.Ys] at h1
  rw [e2]
  exact h1

theorem cmtf_sweep {E : Ext} (hE : E.SVDOk) {o : CPOpts} {ms qs : List ℕ} {s s' : CMTFState}
    (h : s.Sized o.rank ms qs) (hc : s.Cfg o) (hf : s.Free o ms) (hrows : RowsFit s.cp.X s.Ys ms)
    (e : CMTF.iteration E o s = .ok s') : CoupledSweep s.cp.X s.Ys ms o.rank (CMTF.during E o s s') := by
  obtain ⟨h1, h2⟩ := cmtf_partial hE h hc hf
  set d := s.cp.X.shape.length with hd
  have hle : ∀ m ≤ d, CMTF.during E o s s' m = (CMTF.partial E o s m).mats := fun m hm => if_pos hm
  have hgt : CMTF.during E o s s' (d + 1) = s'.mats := if_neg (by omega)
  obtain ⟨e1, hS1, hs1⟩ := h1 d le_rfl
  obtain ⟨V', e2, h3, hbest, -⟩ := cmtf_uncoupled_ok hE hS1 (hc.same hs1)
  have hs' : s'.mats = ((CMTF.partial E o s d).cp.dec.factorMatrices, V') := by
    rw [CMTF.iteration, CMTF.updateFactors, ← hd, e1, bind_ok, e2, bind_ok, CMTF.updateConvergence, cmtf_sse_ok h3, bind_ok] at e
    rw [← pure_eq_ok.1 e]
    rfl
  refine ⟨hrows, fun m hm => ?_, fun m hm => ?_, ?_, fun i hi hfi => ?_⟩
  · rw [hle m hm]
    have := (h1 m hm).2.1.cp.wf.factors.length_eq
    rw [(h1 m hm).2.2.X] at this
    exact this
  · rw [hle m hm.le, hle (m + 1) hm]
    exact h2 m hm
  · rw [← hd, hgt, hs', hle d le_rfl]; rfl
  · rw [← hd, hgt, hs', hle d le_rfl]
    have := hbest i (by
      rw [hs1.modes]
      exact firstOf_of_isFirst hf.plain hi hfi)
    rw [hs1.Ys] at this
    exact this

/-! ## C137 -/

/-- A new object without constraints starts a fit that is a sequence of sweeps. -/
theorem cmtf_fit_sweeps {E : Ext} (hE : E.SVDOk) (hN : E.NNLSOk) {c : CMTF.Config} {X : NDArray ℝ}
    (hA : CP.Admissible c.cp.opts none none X.shape) (hridge : c.cp.opts.ridgePenalties = none)
    {Ys : List (NDArray ℝ)} {ms qs : List ℕ} (hC : CMTF.Coupled X.shape Ys (ms.map fun m : ℕ => (m : Int)) ms qs)
    {t u : KruskalTensor} {s0 : CMTFState} (h0 : CMTF.Started c none none X Ys (ms.map fun m : ℕ => (m : Int)) ms qs t u s0) :
    (∀ j, CoupledSweep X Ys ms c.cp.opts.rank (CMTF.during E c.cp.opts (CMTF.orbit E c.cp.opts s0 j)
      (CMTF.orbit E c.cp.opts s0 (j + 1)))) ∧
    (∀ j, CMTF.during E c.cp.opts (CMTF.orbit E c.cp.opts s0 j) (CMTF.orbit E c.cp.opts s0 (j + 1)) 0 =
      (CMTF.orbit E c.cp.opts s0 j).mats) ∧
    ∀ j, CMTF.during E c.cp.opts (CMTF.orbit E c.cp.opts s0 j) (CMTF.orbit E c.cp.opts s0 (j + 1)) (X.shape.length + 1) =
      (CMTF.orbit E c.cp.opts s0 (j + 1)).mats := by
  have hcfg := h0.cfg hA (by simp)
  have hfree := h0.free hA (by simp) hridge rfl
  have hrows : RowsFit X Ys ms := by
    intro i hi
    have hm : ms.getD i 0 < X.shape.length := by
      have := (List.forall₂_iff_get.1 hC.modes).2 i (by simpa using hi) hi
      rw [getD_of_lt hi]
      exact this.1
    exact ⟨hm, by rw [hC.shapeY i hi]; rfl⟩
  have hg := cmtf_orbit_good hE hN hA.rank h0.sized hcfg
  refine ⟨fun j => ?_, fun j => ?_, fun j => ?_⟩
  · obtain ⟨g1, g2, g3, g4, -⟩ := hg j
    have := cmtf_sweep hE g1 g2 (hfree.sameProblem g3) (by rw [g3.X, g3.Ys, h0.eqX, h0.eqYs]; exact hrows) g4
    rwa [g3.X, g3.Ys, h0.eqX, h0.eqYs] at this
  · exact if_pos (Nat.zero_le _)
  · exact if_neg (by rw [(hg j).2.2.1.X, h0.eqX]; omega)

/-- **C137.** Let `CMTF_ALS` run without constraints and penalties, the coupling modes given as `0, 1, …`. Each iteration moves the
coupled model (the tensor and the matrices that are the first ones of their modes, with unit weights) by at most the number of
modes plus one, times the decrease of the coupled error; hence all iterations together move it by at most that number times the
decrease over the whole fit. -/
theorem C137_movement {E : Ext} (hE : E.SVDOk) (hN : E.NNLSOk) (hQ : E.QROk) {c : CMTF.Config} {X : NDArray ℝ}
    (hA : CP.Admissible c.cp.opts none none X.shape) (hridge : c.cp.opts.ridgePenalties = none)
    {Ys : List (NDArray ℝ)} {ms qs : List ℕ} (hC : CMTF.Coupled X.shape Ys (ms.map fun m : ℕ => (m : Int)) ms qs)
    (hlog : c.Measurable ms qs) (hfreq : freqOption c.cp.freq ≠ 0) {arg : InitArg KruskalTensor} {t : KruskalTensor}
    (hi : CP.StartsFrom E c.cp none none arg X t) (ht : t.WF X.shape c.cp.opts.rank)
    {budget : Int} {mi : Option Int} (hb : 0 < mi.getD budget) {loggers : List Logger} {file : Option H5File}
    (hS : Storing (CMTF.method E c) (CMTF.newObject none none budget loggers file) []) :
    ∃ u s0 w', ∃ st : ℕ → CMTFState, ∃ k : ℕ,
      CMTF.Started c none none X Ys (ms.map fun m : ℕ => (m : Int)) ms qs t u s0 ∧
      CMTF.fit E c X Ys (ms.map fun m : ℕ => (m : Int)) mi arg (CMTF.newObject none none budget loggers file) = .ok () w' ∧
      w'.it = k ∧ (∀ j, CMTF.iterate E c.cp.opts j s0 = .ok (st j)) ∧ CMTF.normalizeComponents (st k) = .ok w'.st ∧
      (∀ j, coupledDist X Ys ms c.cp.opts.rank (st j).cp.dec.factorMatrices (st j).V (st (j + 1)).cp.dec.factorMatrices
          (st (j + 1)).V ≤ (X.shape.length + 1 : ℕ) *
        (coupledLoss X Ys ms c.cp.opts.rank (st j).cp.dec.factorMatrices (st j).V -
          coupledLoss X Ys ms c.cp.opts.rank (st (j + 1)).cp.dec.factorMatrices (st (j + 1)).V)) ∧
      (∑ j ∈ Finset.range k, coupledDist X Ys ms c.cp.opts.rank (st j).cp.dec.factorMatrices (st j).V
          (st (j + 1)).cp.dec.factorMatrices (st (j + 1)).V) ≤ (X.shape.length + 1 : ℕ) *
        (coupledLoss X Ys ms c.cp.opts.rank (st 0).cp.dec.factorMatrices (st 0).V -
          coupledLoss X Ys ms c.cp.opts.rank (st k).cp.dec.factorMatrices (st k).V) := by
  obtain ⟨u, s0, sk, w', k, h0, hfit, -, hit, hk, hnorm, -⟩ := C83_fit_completes hE hN hQ hA (by simp) hC hlog hfreq hi ht hb hS
  have horb := fun j => cmtf_orbit_iterate hE hN hA.rank j h0.sized (h0.cfg hA (by simp))
  have hsk : sk = CMTF.orbit E c.cp.opts s0 k := by
    rw [horb k] at hk
    exact (Except.ok.inj hk).symm
  obtain ⟨q1, q2, q3⟩ := cmtf_fit_sweeps hE hN hA hridge hC h0
  have hstep : ∀ j, coupledDist X Ys ms c.cp.opts.rank (CMTF.orbit E c.cp.opts s0 j).cp.dec.factorMatrices
        (CMTF.orbit E c.cp.opts s0 j).V (CMTF.orbit E c.cp.opts s0 (j + 1)).cp.dec.factorMatrices
        (CMTF.orbit E c.cp.opts s0 (j + 1)).V ≤ (X.shape.length + 1 : ℕ) *
      (coupledLoss X Ys ms c.cp.opts.rank (CMTF.orbit E c.cp.opts s0 j).cp.dec.factorMatrices (CMTF.orbit E c.cp.opts s0 j).V -
        coupledLoss X Ys ms c.cp.opts.rank (CMTF.orbit E c.cp.opts s0 (j + 1)).cp.dec.factorMatrices
          (CMTF.orbit E c.cp.opts s0 (j + 1)).V) := by
    intro j
    have := (q1 j).dist_le
    rw [q2 j, q3 j] at this
    exact this
  refine ⟨u, s0, w', CMTF.orbit E c.cp.opts s0, k, h0, hfit, hit, horb, hsk ▸ hnorm, hstep, ?_⟩
  refine (Finset.sum_le_sum fun j _ => hstep j).trans (le_of_eq ?_)
  rw [← Finset.mul_sum, Finset.sum_range_sub' (fun j => coupledLoss X Ys ms c.cp.opts.rank
    (CMTF.orbit E c.cp.opts s0 j).cp.dec.factorMatrices (CMTF.orbit E c.cp.opts s0 j).V)]

/-- **C137**, limits: if the matrices after `0, 1, 2, …` iterations converge, then no change of a single factor matrix or right
factor of the limit lowers the coupled error, and the derivative of the coupled error at the limit vanishes in all joint
directions. -/
theorem C137_limit {E : Ext} (hE : E.SVDOk) (hN : E.NNLSOk) {c : CMTF.Config} {X : NDArray ℝ}
    (hA : CP.Admissible c.cp.opts none none X.shape) (hridge : c.cp.opts.ridgePenalties = none)
    {Ys : List (NDArray ℝ)} {ms qs : List ℕ} (hC : CMTF.Coupled X.shape Ys (ms.map fun m : ℕ => (m : Int)) ms qs)
    {t u : KruskalTensor} {s0 : CMTFState} (h0 : CMTF.Started c none none X Ys (ms.map fun m : ℕ => (m : Int)) ms qs t u s0)
    {st : ℕ → CMTFState} (hst : ∀ j, CMTF.iterate E c.cp.opts j s0 = .ok (st j))
    {fs Vs : List (NDArray ℝ)} (hf : fs.length = X.shape.length) (hV : Vs.length = ms.length)
    (hlim : FactorsTendTo atTop (fun j => (st j).cp.dec.factorMatrices) fs X.shape c.cp.opts.rank)
    (hlimV : FactorsTendTo atTop (fun j => (st j).V) Vs (colCounts Ys) c.cp.opts.rank) :
    CoupledOptimal X Ys ms c.cp.opts.rank fs Vs ∧ CoupledStationary X Ys ms c.cp.opts.rank fs Vs := by
  have horb : ∀ j, st j = CMTF.orbit E c.cp.opts s0 j := by
    intro j
    have := hst j
    rw [cmtf_orbit_iterate hE hN hA.rank j h0.sized (h0.cfg hA (by simp))] at this
    exact (Except.ok.inj this).symm
  obtain ⟨q1, q2, q3⟩ := cmtf_fit_sweeps hE hN hA hridge hC h0
  have h1 : CoupledOptimal X Ys ms c.cp.opts.rank fs Vs :=
    coupledOptimal_of_tendsto q1 (fun j => (q3 j).trans (q2 (j + 1)).symm) hC.len hf
      (by simpa only [q2, CMTFState.mats, horb] using hlim) (by simpa only [q2, CMTFState.mats, horb] using hlimV)
  exact ⟨h1, h1.stationary hf (q1 0).rows hC.len hV⟩

/-- **C137** for accumulation points: the same holds for the limit of a subsequence, if for each mode the rank-one terms formed
by the other modes of the limit are linearly independent. -/
theorem C137_accumulation {E : Ext} (hE : E.SVDOk) (hN : E.NNLSOk) {c : CMTF.Config} {X : NDArray ℝ}
    (hA : CP.Admissible c.cp.opts none none X.shape) (hridge : c.cp.opts.ridgePenalties = none)
    {Ys : List (NDArray ℝ)} {ms qs : List ℕ} (hC : CMTF.Coupled X.shape Ys (ms.map fun m : ℕ => (m : Int)) ms qs)
    {t u : KruskalTensor} {s0 : CMTFState} (h0 : CMTF.Started c none none X Ys (ms.map fun m : ℕ => (m : Int)) ms qs t u s0)
    {st : ℕ → CMTFState} (hst : ∀ j, CMTF.iterate E c.cp.opts j s0 = .ok (st j))
    {fs Vs : List (NDArray ℝ)} (hf : fs.length = X.shape.length) (hV : Vs.length = ms.length) {φ : ℕ → ℕ} (hφ : StrictMono φ)
    (hlim : FactorsTendTo atTop (fun j => (st (φ j)).cp.dec.factorMatrices) fs X.shape c.cp.opts.rank)
    (hlimV : FactorsTendTo atTop (fun j => (st (φ j)).V) Vs (colCounts Ys) c.cp.opts.rank)
    (hI : Independent X.shape fs c.cp.opts.rank) :
    CoupledOptimal X Ys ms c.cp.opts.rank fs Vs ∧ CoupledStationary X Ys ms c.cp.opts.rank fs Vs := by
  have horb : ∀ j, st j = CMTF.orbit E c.cp.opts s0 j := by
    intro j
    have := hst j
    rw [cmtf_orbit_iterate hE hN hA.rank j h0.sized (h0.cfg hA (by simp))] at this
    exact (Except.ok.inj this).symm
  obtain ⟨q1, q2, q3⟩ := cmtf_fit_sweeps hE hN hA hridge hC h0
  have h1 : CoupledOptimal X Ys ms c.cp.opts.rank fs Vs :=
    coupledOptimal_of_cluster q1 (fun j => (q3 j).trans (q2 (j + 1)).symm) hC.len hf hφ
      (by simpa only [q2, CMTFState.mats, horb] using hlim) (by simpa only [q2, CMTFState.mats, horb] using hlimV) hI
  exact ⟨h1, h1.stationary hf (q1 0).rows hC.len hV⟩

/-- **C137**, steps: the steps of the coupled model tend to zero, whether or not the matrices converge. -/
theorem C137_steps {E : Ext} (hE : E.SVDOk) (hN : E.NNLSOk) {c : CMTF.Config} {X : NDArray ℝ}
    (hA : CP.Admissible c.cp.opts none none X.shape) (hridge : c.cp.opts.ridgePenalties = none)
    {Ys : List (NDArray ℝ)} {ms qs : List ℕ} (hC : CMTF.Coupled X.shape Ys (ms.map fun m : ℕ => (m : Int)) ms qs)
    {t u : KruskalTensor} {s0 : CMTFState} (h0 : CMTF.Started c none none X Ys (ms.map fun m : ℕ => (m : Int)) ms qs t u s0)
    {st : ℕ → CMTFState} (hst : ∀ j, CMTF.iterate E c.cp.opts j s0 = .ok (st j)) :
    Tendsto (fun j => coupledDist X Ys ms c.cp.opts.rank (st j).cp.dec.factorMatrices (st j).V
      (st (j + 1)).cp.dec.factorMatrices (st (j + 1)).V) atTop (𝓝 0) := by
  have horb : ∀ j, st j = CMTF.orbit E c.cp.opts s0 j := by
    intro j
    have := hst j
    rw [cmtf_orbit_iterate hE hN hA.rank j h0.sized (h0.cfg hA (by simp))] at this
    exact (Except.ok.inj this).symm
  obtain ⟨q1, q2, q3⟩ := cmtf_fit_sweeps hE hN hA hridge hC h0
  have := tendsto_coupledDist q1 fun j => (q3 j).trans (q2 (j + 1)).symm
  simpa only [q2, CMTFState.mats, horb] using this

/-! ## A concrete case -/

/-- A sweep for the data `[2b]` with the coupled matrix `[2]` on mode 0, whose second factor is `b` and whose right factor is 1,
leads to the matrices `2`, `b` and `1`. -/
theorem coupledSweep_one {b : ℝ} {g : ℕ → List (NDArray ℝ) × List (NDArray ℝ)}
    (h : CoupledSweep (one1 (2 * b)) [one1 2] [0] 1 g) (h1 : (modeMat (g 0).1 1).get [0, 0] = b)
    (h2 : (modeMat (g 0).2 0).get [0, 0] = 1) :
    (modeMat (g 3).1 0).get [0, 0] = 2 ∧ (modeMat (g 3).1 1).get [0, 0] = b ∧ (modeMat (g 3).2 0).get [0, 0] = 1 := by
  have hmat : ∀ F G : NDArray ℝ, matErr (one1 2) F G 1 = (2 - F.get [0, 0] * G.get [0, 0]) ^ 2 := by
    intro F G
    rw [matErr_one rfl, get_one1]
  have herr : ∀ fs Vs : List (NDArray ℝ), fs.length = 2 → coupledLoss (one1 (2 * b)) [one1 2] [0] 1 fs Vs =
      (2 * b - (modeMat fs 0).get [0, 0] * (modeMat fs 1).get [0, 0]) ^ 2 +
        (2 - (modeMat fs 0).get [0, 0] * (modeMat Vs 0).get [0, 0]) ^ 2 := by
    intro fs Vs hl
    have hf : (Finset.range [0].length).filter (IsFirst [0]) = {0} := by decide
    rw [coupledLoss, firstErr, hf, Finset.sum_singleton, coupledErrAt]
    congr 1
    · match fs, hl with
      | [F, G], _ => rw [sqErr_one rfl, get_one1, one_mul]; rfl
    · exact hmat _ _
  have hl0 := h.len 0 (by simp)
  have hl1 := h.len 1 (by simp)
  have hl2 := h.len 2 (by simp)
  simp only [shape_one1, List.length_cons, List.length_nil, zero_add] at hl0 hl1 hl2
  obtain ⟨F, e, opt⟩ := h.step 0 (by simp)
  obtain ⟨G, e', opt'⟩ := h.step 1 (by simp)
  have hv0 : (g 1).2 = (g 0).2 := by rw [show 1 = 0 + 1 from rfl, e]
  have hv1 : (g 2).2 = (g 1).2 := by rw [show 2 = 1 + 1 from rfl, e']
  have a1 := opt (one1 2) rfl
  have hb1 := h.before (m := 1) (k := 1) (by simp) le_rfl
  rw [zero_add, herr _ _ hl1, herr _ _ (by rw [List.length_set]; exact hl0),
    modeMat_set_self (fs := (g 0).1) (m := 0) (hl0.symm ▸ Nat.two_pos),
    modeMat_set_ne (fs := (g 0).1) (m := 0) (k := 1) one_ne_zero, get_one1, h1, h2, hv0, h2, hb1, h1] at a1
  have c1 : (modeMat (g 1).1 0).get [0, 0] = 2 := by
    have h3 : (2 - (modeMat (g 1).1 0).get [0, 0] * 1) ^ 2 ≤ 0 := by
      nlinarith [sq_nonneg (2 * b - (modeMat (g 1).1 0).get [0, 0] * b)]
    have := pow_eq_zero_iff two_ne_zero |>.1 (le_antisymm h3 (sq_nonneg _))
    linarith
  have a2 := opt' (one1 b) rfl
  rw [show 1 + 1 = 2 from rfl, herr _ _ hl2, herr _ _ (by rw [List.length_set]; exact hl1),
    modeMat_set_self (fs := (g 1).1) (m := 1) (hl1.symm ▸ Nat.one_lt_two),
    modeMat_set_ne (fs := (g 1).1) (m := 1) (k := 0) zero_ne_one, get_one1, c1, hv1, hv0, h2] at a2
  have b2 : (modeMat (g 2).1 0).get [0, 0] = 2 := by
    rw [show 2 = 1 + 1 from rfl, e', modeMat_set_ne (by omega), c1]
  rw [b2] at a2
  have c2 : (modeMat (g 2).1 1).get [0, 0] = b := by
    have h3 : (2 * b - 2 * (modeMat (g 2).1 1).get [0, 0]) ^ 2 ≤ 0 := by linarith
    have := pow_eq_zero_iff two_ne_zero |>.1 (le_antisymm h3 (sq_nonneg _))
    linarith
  have h3 : (g 3).1 = (g 2).1 := h.last
  have h4 : matErr (one1 2) (modeMat (g 2).1 0) (modeMat (g 3).2 0) 1 ≤ matErr (one1 2) (modeMat (g 2).1 0) (one1 1) 1 :=
    h.best 0 (by simp) (fun j hj => by omega) (one1 1)
  rw [h3]
  refine ⟨b2, c2, ?_⟩
  rw [hmat, hmat, b2, get_one1] at h4
  have h6 : (2 - 2 * (modeMat (g 3).2 0).get [0, 0]) ^ 2 ≤ 0 := by linarith
  have := pow_eq_zero_iff two_ne_zero |>.1 (le_antisymm h6 (sq_nonneg _))
  linarith

/-- The start of the concrete case: both factors are 1. -/
def t137 : KruskalTensor := ⟨1, [one1 1, one1 1], full [1] 1⟩

/-- The second factor after the normalisation of the start. -/
def b137 : ℝ := 1 / (1 + 1e-15)

/-- The hypotheses of `C137_movement`, `C137_limit`, `C137_accumulation` and `C137_steps`: the data `[2b]` with the coupled matrix `[2]` on mode 0,
started from ones (which the normalisation at the start turns into `b`). After each iteration the matrices are `2`, `b` and `1`,
which is therefore the limit. -/
example {E : Ext} (hE : E.SVDOk) (hN : E.NNLSOk) (hQ : E.QROk) :
    ∃ u s0, ∃ st : ℕ → CMTFState, CP.Admissible c82.cp.opts none none (one1 (2 * b137)).shape ∧
      c82.cp.opts.ridgePenalties = none ∧
      CMTF.Coupled (one1 (2 * b137)).shape [one1 2] ([0].map fun m : ℕ => (m : Int)) [0] [1] ∧ c82.Measurable [0] [1] ∧
      freqOption c82.cp.freq ≠ 0 ∧ CP.StartsFrom E c82.cp none none (.tensor t137) (one1 (2 * b137)) t137 ∧
      t137.WF (one1 (2 * b137)).shape c82.cp.opts.rank ∧ Storing (CMTF.method E c82) (CMTF.newObject none none 1 [] none) [] ∧
      CMTF.Started c82 none none (one1 (2 * b137)) [one1 2] ([0].map fun m : ℕ => (m : Int)) [0] [1] t137 u s0 ∧
      (∀ j, CMTF.iterate E c82.cp.opts j s0 = .ok (st j)) ∧
      FactorsTendTo atTop (fun j => (st j).cp.dec.factorMatrices) [one1 2, one1 b137] (one1 (2 * b137)).shape c82.cp.opts.rank ∧
      FactorsTendTo atTop (fun j => (st j).V) [one1 1] (colCounts [one1 2]) c82.cp.opts.rank ∧
      Independent (one1 (2 * b137)).shape [one1 2, one1 b137] c82.cp.opts.rank := by
  have hA : CP.Admissible c82.cp.opts none none (one1 (2 * b137)).shape := by
    refine ⟨by simp [c82], by simp, by simp, by simp, by simp, by simp [c82], by simp, by simp⟩
  have hC : CMTF.Coupled (one1 (2 * b137)).shape [one1 2] ([0].map fun m : ℕ => (m : Int)) [0] [1] :=
    ⟨.cons (isMode_nat (by norm_num)) .nil, rfl, by simp⟩
  have ht : t137.WF (one1 (2 * b137)).shape c82.cp.opts.rank := ⟨rfl, .cons rfl (.cons rfl .nil), rfl⟩
  have hi : CP.StartsFrom E c82.cp none none (.tensor t137) (one1 (2 * b137)) t137 := startsFrom_precomputed (by
    show "precomputed".toLower = _
    rw [String.toLower, ← String.toList_inj, String.toList_map]; decide) ht
  have hno : ¬ 0 < (CMTF.method E c82).freq := by show ¬ (0 : Int) < -1; decide
  obtain ⟨u, s0, h0, -⟩ := cmtf_fit_unfold hQ hA hC hi ht
  obtain ⟨q1, q2, q3⟩ := cmtf_fit_sweeps hE hN hA rfl hC h0
  have horb := fun j => cmtf_orbit_iterate hE hN hA.rank j h0.sized (h0.cfg hA (by simp))
  have hv0 : (modeMat s0.V 0).get [0, 0] = 1 := by
    show (s0.V.getD 0 noArr).get [0, 0] = 1
    rw [h0.V 0 (by simp)]
    show (ofMat 1 1 fun j r => (1 : ℝ) / colLen (ofMat 1 1 fun _ _ => (1 : ℝ)) 1 r).get [0, 0] = 1
    rw [get_ofMat (by norm_num) (by norm_num), colLen_one, get_ofMat (by norm_num) (by norm_num), abs_one, div_one]
  have hf0 : (modeMat s0.cp.dec.factorMatrices 1).get [0, 0] = b137 := by
    obtain ⟨v, e, -, hf, -⟩ := normalizeComponents_ok h0.wf true 1e-15
    have := h0.normalised
    rw [e] at this
    injection this with this
    rw [h0.same rfl] at hf
    rw [← this, hf]
    show (normMat (one1 1) 1 1 1e-15).get [0, 0] = b137
    rw [normMat, get_ofMat (by norm_num) (by norm_num), colLen_one, get_one1, abs_one, b137]
  have hone : ∀ j, (modeMat (CMTF.orbit E c82.cp.opts s0 j).mats.1 1).get [0, 0] = b137 ∧
      (modeMat (CMTF.orbit E c82.cp.opts s0 j).mats.2 0).get [0, 0] = 1 := by
    intro j
    induction j with
    | zero => exact ⟨hf0, hv0⟩
    | succ j ih =>
      rw [← q2 j] at ih
      have := coupledSweep_one (q1 j) ih.1 ih.2
      rw [← q3 j]
      exact this.2
  have hall : ∀ j, (modeMat (CMTF.orbit E c82.cp.opts s0 (j + 1)).mats.1 0).get [0, 0] = 2 := by
    intro j
    have h1 := hone j
    rw [← q2 j] at h1
    rw [← q3 j]
    exact (coupledSweep_one (q1 j) h1.1 h1.2).1
  refine ⟨u, s0, CMTF.orbit E c82.cp.opts s0, hA, rfl, hC, fun p hp => by simp [c82] at hp, by decide, hi, ht,
    ⟨fun h => absurd h hno, fun h => absurd h hno, fun h => absurd h hno⟩, h0, horb, ?_, ?_, ?_⟩
  · intro m hm i hi' r hr'
    obtain rfl : r = 0 := by simpa [c82] using hr'
    rw [← tendsto_add_atTop_iff_nat 1]
    match m, hm with
    | 0, _ =>
      obtain rfl : i = 0 := by simpa using hi'
      exact tendsto_const_nhds.congr fun j => (get_one1 2).trans (hall j).symm
    | 1, _ =>
      obtain rfl : i = 0 := by simpa using hi'
      exact tendsto_const_nhds.congr fun j => (get_one1 b137).trans (hone (j + 1)).1.symm
  · intro m hm i hi' r hr'
    obtain rfl : r = 0 := by simpa [c82] using hr'
    obtain rfl : m = 0 := by simpa [colCounts] using hm
    obtain rfl : i = 0 := by simpa [colCounts] using hi'
    exact tendsto_const_nhds.congr fun j => (get_one1 1).trans (hone j).2.symm
  · intro m hm v hv r hr'
    obtain rfl : r = 0 := by simpa [c82] using hr'
    have hb : b137 ≠ 0 := by norm_num [b137]
    match m, hm with
    | 0, _ =>
      have := hv [0] (by simp [Valid])
      simpa [c82, rankOne, hb] using this
    | 1, _ =>
      have := hv [0] (by simp [Valid])
      simpa [c82, rankOne] using this

end
end TK
