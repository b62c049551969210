import Verif.Props.CMTFFitMore
import Verif.Props.Parafac2Fit
import Verif.Props.Relations

/-!
# C131 for PARAFAC2 and CMTF

Source: parafac2.py:244-255, parafac2.py:389-440, cmtf.py:88-93, cmtf.py:146-187.
-/

namespace TK
open NDArray Matrix

noncomputable section

variable {s : P2State} {I R : ℕ} {Js : List ℕ}

/-! ### PARAFAC2 -/

/-- A relation between the rows of all slices is one between the slices of the projected data along the first mode. -/
theorem projected_related {X : List (NDArray ℝ)} (P : List (NDArray ℝ)) (R : ℕ) {c : ℕ → ℝ}
    (h : ∀ k < Js.length, RowsRelated (nth X k) I (Js.getD k 0) c) : SlicesRelated (p2Projected X P I Js R) 0 c := by
  intro idx hv
  have hv : Valid [R, Js.length] idx := hv
  match idx, hv with
  | [r, k], hv =>
    have hr : r < R := hv.1
    have hk : k < Js.length := hv.2.1
    have e : ∀ i ∈ Finset.range I, c i * (p2Projected X P I Js R).get ([r, k].insertIdx 0 i) =
        ∑ j ∈ Finset.range (Js.getD k 0), c i * (nth X k).get [i, j] * (nth P k).get [j, r] := by
      intro i hi
      show c i * (p2Projected X P I Js R).get [i, r, k] = _
      rw [p2Projected, NDArray.get_ofFn (by simp [Valid, Finset.mem_range.1 hi, hr, hk]), Finset.mul_sum]
      refine Finset.sum_congr rfl fun j _ => ?_
      simp [mul_assoc]
    show ∑ i ∈ Finset.range I, _ = 0
    rw [Finset.sum_congr rfl e, Finset.sum_comm]
    refine Finset.sum_eq_zero fun j hj => ?_
    rw [← Finset.sum_mul, h k hk j (Finset.mem_range.1 hj), zero_mul]

/-- A relation between the columns of slice `k` holds between the rows of its new projection matrix. -/
theorem newP_related {E : Ext} (hE : E.SVDOk) (h : s.Sized I Js R) {k : ℕ} (hk : k < Js.length) {v : NDArray ℝ}
    (hv : P2State.NewP E s I Js R k v) {c : ℕ → ℝ} (hc : ∀ i < I, ∑ j ∈ Finset.range (Js.getD k 0), c j * (nth s.X k).get [i, j] = 0) :
    RowsRelated v (Js.getD k 0) R c := by
  obtain ⟨-, Q, e, rfl⟩ := hv
  obtain ⟨-, -, -, -, X', -, -, -, -, e3, s1, -⟩ := orthogonalSolve_mat hE (shape_ofMat I R _) (shape_nth h.X hk) h.posR
    (h.posJk hk) (A := p2Score s.A s.D s.C I R k)
  obtain rfl : Q = X' := Except.ok.inj (e.symm.trans e3)
  rw [rowsRelated_iff, mat_T s1, vecMul_transpose]
  refine orthogonalSolve_related hE (shape_ofMat I R _) (shape_nth h.X hk) h.posR (h.posJk hk) ?_ e
  ext i
  have := hc i i.2
  rw [Finset.sum_range] at this
  rw [mulVec, dotProduct, Pi.zero_apply, ← this]
  exact Finset.sum_congr rfl fun j _ => mul_comm _ _

theorem flagOf_three {l : Option (List Bool)} {m : ℕ} {b : Bool} (h : (l.getD [false, false, false])[m]? = some b) :
    flagOf l m = b :=
  flagOf_eq (n := 3) h

/-- **C131**, the first iteration and every later one of `Parafac2_ALS`: `A` and the projection matrices. -/
theorem C131_parafac2_iteration {E : Ext} (hE : E.SVDOk) (hN : E.NNLSOk) {o : P2Opts} {ci : CPObj} (h : s.Working o I Js ci)
    {s' : P2State} (e : P2.iteration E o s = .ok s') :
    (∀ {nn on : Bool} {ridge : Option ℝ} {c : ℕ → ℝ}, ci.addrs[0]? = some s.dec.A → 1 ≤ o.cpUpdates →
      ci.st.ModeConfig (P2.innerOpts o) 0 nn on ridge → ¬ (nn = true ∧ on = true) → Respected nn I c →
      (∀ k < Js.length, RowsRelated (nth s.X k) I (Js.getD k 0) c) → RowsRelated s'.A I o.rank c) ∧
    ∀ {k : ℕ} {c : ℕ → ℝ}, s.dec.P.Nodup → k < Js.length →
      (∀ i < I, ∑ j ∈ Finset.range (Js.getD k 0), c j * (nth s.X k).get [i, j] = 0) →
      RowsRelated (nth s'.P k) (Js.getD k 0) o.rank c := by
  obtain ⟨s1, c', f, e1, hw, ha, hn1, hn2, hd, hX, -, -, -, -, hnew, ⟨ef, hf⟩, -⟩ := P2State.iteration_ok hE hN h
  obtain rfl : s1 = s' := Except.ok.inj (e1.symm.trans e)
  constructor
  · intro nn on ridge c h0 hcp hc hb hcr hrel
    have hS := h.ready.sized h.sized s1.P
    obtain ⟨F, hF, hFr⟩ := related_iterM hE (o := P2.innerOpts o) h.sized.posR hb o.cpUpdates (m := 0) (c := c) hS
      (show 0 < [I, o.rank, Js.length].length by simp)
      (nn := nn) (on := on) (ridge := ridge) ⟨hc.nonNeg, hc.orth, hc.ridge⟩ (show Respected nn I c from hcr)
      (projected_related s1.P o.rank hrel) (Or.inl hcp) ef
    have hfX : f.X.shape.getD 0 0 = I := by
      obtain ⟨f', ef', hsame, -⟩ := cp_iter_total hE hN (o := P2.innerOpts o) h.sized.posR o.cpUpdates
        ((ci.setTarget (p2Projected s.X s1.P I Js o.rank)).read s.heap) hS (fun m hm => by
        obtain ⟨nn, on, ridge, hc, hb⟩ := h.ready.config m hm
        exact ⟨nn, on, ridge, ⟨hc.nonNeg, hc.orth, hc.ridge⟩, hb⟩)
      obtain rfl : f' = f := Except.ok.inj (ef'.symm.trans ef)
      rw [hsame.X]; rfl
    rw [← hf, List.getElem?_map, ha, h0] at hF
    obtain rfl : s1.heap.mem s.dec.A = F := Option.some.inj hF
    rw [hfX] at hFr
    unfold P2State.A
    rw [hd]
    exact hFr
  · intro k c hnd hk hc
    obtain ⟨k', hl, hP⟩ := hnew k hk
    obtain rfl := hl.eq_of_nodup hnd h.sized.lenP hk
    exact newP_related hE h.sized hk hP hc

/-- **C131**, `Parafac2_ALS`: after a fit with one or more iterations (and one or more inner updates per iteration) a relation
between the rows of all slices holds between the rows of `A`, if `A` has no orthonormality constraint, and (if every slice has
its own projection array) a relation between the columns of slice `k` holds between the rows of `P_k` and of the evolving factor
`B_k = P_k D`. Missing: an orthonormality constraint of `A`, for which the first claim is false (`C131_parafac2_fails`). -/
theorem C131_parafac2_partial {E : Ext} (hE : E.SVDOk) (hN : E.NNLSOk) (hQ : E.QROk) {c : P2.Config} {D : P2Data}
    {arg : InitArg P2Obj} {h0 : Heap} (hi : P2.StartsFrom E c D arg h0 s) (h : s.Sized I Js c.opts.rank) (hs : s.Distinct)
    (hal : s.Allocated) (hA : P2.Admissible c.opts I Js.length) (hlog : c.Measurable I Js) (hfreq : freqOption c.freq ≠ 0)
    {budget : Int} {mi : Option Int} {loggers : List Logger} {file : Option H5File}
    (hS : Storing (P2.method E c) (P2.newObject h0 budget loggers file) []) :
    ∃ w', P2.fit E c D mi arg (P2.newObject h0 budget loggers file) = .ok () w' ∧ (0 < w'.it →
      (∀ v : ℕ → ℝ, flagOf c.opts.orth 0 = false → 1 ≤ c.opts.cpUpdates → Respected (flagOf c.opts.nonNeg 0) I v →
        (∀ k < Js.length, RowsRelated (nth s.X k) I (Js.getD k 0) v) → RowsRelated w'.st.A I c.opts.rank v) ∧
      ∀ (v : ℕ → ℝ) (k : ℕ), s.dec.P.Nodup → k < Js.length →
        (∀ i < I, ∑ j ∈ Finset.range (Js.getD k 0), v j * (nth s.X k).get [i, j] = 0) →
        RowsRelated (nth w'.st.P k) (Js.getD k 0) c.opts.rank v ∧
        ∀ r < c.opts.rank, ∑ j ∈ Finset.range (Js.getD k 0),
          v j * ∑ q ∈ Finset.range c.opts.rank, (nth w'.st.P k).get [j, q] * w'.st.D.get [q, r] = 0) := by
  obtain ⟨l, sp, w', k, el, ep, -, e, -, hk, hst, -, -, -, -, -, -⟩ :=
    C80_fit_completes hE hN hQ (mi := mi) hi h hs hal hA hlog hfreq hS
  refine ⟨w', e, fun hpos => ?_⟩
  obtain ⟨h', ci, ep', hw, -, -, hn, ho, -, hkeep, -⟩ := P2State.prepareCp_ok (E := E) hQ (o := c.opts) (h.withLoss .pinf l)
    (hs.loss .pinf l) hA (fun _ => hal)
  obtain rfl : (s.withLoss .pinf l).withInner h' ci = sp := Except.ok.inj (ep'.symm.trans ep)
  obtain ⟨k, rfl⟩ : ∃ k', k = k' + 1 := ⟨k - 1, by omega⟩
  set sp := (s.withLoss .pinf l).withInner h' ci with hsp
  obtain ⟨c1, hw1, ha1, hn1, ho1, hd1, hX1, -⟩ := p2_orbit_working hE hN hw k
  obtain ⟨g1, g2⟩ := C131_parafac2_iteration hE hN hw1 (p2_orbit_step hE hN hw k)
  rw [hst]
  constructor
  · intro v hon hcp hr hrel
    obtain ⟨nn, on, ridge, hc, hb⟩ := hw1.ready.config 0 (by omega)
    obtain ⟨l1, hl1, hm1⟩ := hc.nonNeg
    obtain ⟨l2, hl2, hm2⟩ := hc.orth
    rw [hn1, hn] at hl1
    rw [ho1, ho] at hl2
    obtain rfl := Option.some.inj hl1
    obtain rfl := Option.some.inj hl2
    have hf := flagOf_three hm1
    rw [hf] at hr
    have hf2 := flagOf_three hm2
    rw [hon] at hf2
    subst hf2
    refine g1 ?_ hcp hc hb hr ?_
    · rw [ha1, hkeep 0 hm2, hd1]; rfl
    · rw [hX1]; exact hrel
  · intro v j hnd hj hrel
    have hP := g2 (k := j) (c := v) (by rw [hd1]; exact hnd) hj (by rw [hX1]; exact hrel)
    refine ⟨hP, fun r hr => ?_⟩
    simp only [Finset.mul_sum]
    rw [Finset.sum_comm]
    refine Finset.sum_eq_zero fun q hq => ?_
    rw [← zero_mul ((P2.orbit E c.opts sp (k + 1)).D.get [q, r]), ← hP q (Finset.mem_range.1 hq), Finset.sum_mul]
    exact Finset.sum_congr rfl fun i _ => by ring

/-- **C131, refuted** for `A` with an orthonormality constraint: the decomposition keeps the matrix `A` of the start, so rows which
differ there differ after the fit, whatever the data are. -/
theorem C131_parafac2_fails {E : Ext} (hE : E.SVDOk) (hN : E.NNLSOk) (hQ : E.QROk) {c : P2.Config} {D : P2Data}
    {arg : InitArg P2Obj} {h0 : Heap} (hi : P2.StartsFrom E c D arg h0 s) (h : s.Sized I Js c.opts.rank) (hs : s.Distinct)
    (hal : s.Allocated) (hA : P2.Admissible c.opts I Js.length) (hlog : c.Measurable I Js) (hfreq : freqOption c.freq ≠ 0)
    {budget : Int} {mi : Option Int} {loggers : List Logger} {file : Option H5File}
    (hS : Storing (P2.method E c) (P2.newObject h0 budget loggers file) []) (hon : flagOf c.opts.orth 0 = true)
    {i j : ℕ} (hi' : i < I) (hj : j < I) {r : ℕ} (hr : r < c.opts.rank) (hne : s.A.get [i, r] ≠ s.A.get [j, r]) :
    ∃ w', P2.fit E c D mi arg (P2.newObject h0 budget loggers file) = .ok () w' ∧
      ¬ RowsRelated w'.st.A I c.opts.rank (sameAs i j) := by
  obtain ⟨l, sp, w', k, el, ep, -, e, -, hk, hst, -, -, -, -, -, -⟩ :=
    C80_fit_completes hE hN hQ (mi := mi) hi h hs hal hA hlog hfreq hS
  refine ⟨w', e, fun hrel => ?_⟩
  obtain ⟨t, e0, e1, ht⟩ := C55_shared_partial hE hN hQ (o := c.opts) (h.withLoss .pinf l) (hs.loss .pinf l) hA hal
  obtain rfl : t 0 = sp := Except.ok.inj (e0.symm.trans ep)
  have horb : ∀ n, P2.orbit E c.opts (t 0) n = t n := by
    intro n
    induction n with
    | zero => rfl
    | succ n ih => rw [P2.orbit, ih, e1 n]
  rw [hst, horb] at hrel
  obtain ⟨Fs, -, -, h3, -⟩ := ht k
  have hflag : (P2State.orthFlags c.opts)[0]? = some true := by
    unfold P2State.orthFlags
    unfold flagOf at hon
    cases ho : c.opts.orth with
    | none => rw [ho] at hon; simp at hon
    | some l =>
      rw [ho] at hon
      cases l with
      | nil => simp at hon
      | cons b l => simpa using hon
  have h4 := h3 0 (by omega) hflag
  have h5 : (t k).A = (s.withLoss .pinf l).A := by simpa using h4
  rw [show (s.withLoss .pinf l).A = s.A from rfl] at h5
  rw [h5, rowsRelated_sameAs hi' hj] at hrel
  exact hne (hrel r hr)

/-! ### CMTF -/

/-- The relation `c` holds between the slices of the tensor along mode `m` and between the rows of every matrix coupled to it. -/
structure CMTFState.DataRelated (s : CMTFState) (ms qs : List ℕ) (m : ℕ) (c : ℕ → ℝ) : Prop where
  tensor : SlicesRelated s.cp.X m c
  matrices : ∀ i < ms.length, ms.getD i 0 = m → RowsRelated (s.Ys.getD i noArr) (s.cp.X.shape.getD m 0) (qs.getD i 0) c

theorem unfoldMat_related {X : NDArray ℝ} {m : ℕ} {c : ℕ → ℝ} (h : SlicesRelated X m c) :
    RowsRelated (unfoldMat X m) (X.shape.getD m 0) (X.shape.eraseIdx m).prod c := by
  intro p hp
  rw [← h (unravel (X.shape.eraseIdx m) p) (unravel_valid hp)]
  refine Finset.sum_congr rfl fun i hi => ?_
  rw [unfoldMat, get_ofMat (Finset.mem_range.1 hi) hp]

/-- One update of a mode of a coupled problem. -/
theorem C131_cmtf_update {E : Ext} (hE : E.SVDOk) (hN : E.NNLSOk) {o : CPOpts} (hr : 0 < o.rank) {s : CMTFState} {m : ℕ}
    {ms qs : List ℕ} {nn on : Bool} {ridge : Option ℝ} (h : s.Sized o.rank ms qs) (hm : m < s.cp.X.shape.length)
    (hc : s.cp.ModeConfig o m nn on ridge) (hb : ¬ (nn = true ∧ on = true)) {c : ℕ → ℝ}
    (hcr : Respected nn (s.cp.X.shape.getD m 0) c) (hd : s.DataRelated ms qs m c) :
    ∃ d F, F.shape = [s.cp.X.shape.getD m 0, o.rank] ∧ CMTF.updateFactor E o m s = .ok (s.upd m d F) ∧
      RowsRelated F (s.cp.X.shape.getD m 0) o.rank c := by
  have hn := Nat.pos_of_ne_zero (h.cp.dim hm)
  rcases h.lookup m with ⟨hl, -⟩ | ⟨i, t, hl, -, -, hall, hi⟩
  · obtain ⟨F, eF, hF, e⟩ := updateFactor_total hE hN h.cp hr hm hc hb
    refine ⟨mttkrpMat s.cp.X s.cp.dec.factorMatrices m o.rank, F, hF, ?_,
      C131_solver hE (shape_ofMat _ _ _) (shape_ofMat _ _ _) hr hn hcr (hd.tensor.mttkrp _ _) eF⟩
    rw [updateFactor_uncoupled hl, e]
    rfl
  · have hi' := hi hm
    have hil := hall i (by simp)
    have hrel : RowsRelated (coupledRhs s.cp.X (s.Ys.getD i noArr) m (qs.getD i 0)) (s.cp.X.shape.getD m 0)
        ((s.cp.X.shape.eraseIdx m).prod + qs.getD i 0) c := by
      intro j hj
      by_cases hjp : j < (s.cp.X.shape.eraseIdx m).prod
      · rw [← unfoldMat_related hd.tensor j hjp]
        refine Finset.sum_congr rfl fun k hk => ?_
        rw [coupledRhs, get_ofMat (Finset.mem_range.1 hk) hj, if_pos hjp]
      · rw [← hd.matrices i hil hi' (j - (s.cp.X.shape.eraseIdx m).prod) (by omega)]
        refine Finset.sum_congr rfl fun k hk => ?_
        rw [coupledRhs, get_ofMat (Finset.mem_range.1 hk) hj, if_neg hjp]
    obtain ⟨F, -, eF, -, sF, -⟩ := withRidge_moved hE nn on ridge (n := s.cp.X.shape.getD m 0)
      (A := coupledLhs s.cp.X s.cp.dec.factorMatrices (s.V.getD i noArr) m (qs.getD i 0) o.rank)
      (B := coupledRhs s.cp.X (s.Ys.getD i noArr) m (qs.getD i 0)) (shape_ofMat _ _ _) (shape_ofMat _ _ _) (shape_ofMat _ _ _)
      hr hn (σ := Equiv.refl ℕ) (by simp) (fun i hi j hj => rfl)
    exact ⟨_, F, sF, updateFactor_coupled h hm hl hall hi' (getSolve_ok hc hb) eF sF,
      C131_solver hE (shape_ofMat _ _ _) (shape_ofMat _ _ _) hr hn hcr hrel eF⟩

/-- Without non-negativity constraints (with one, every update raises, C59). -/
theorem cmtf_related_updates {E : Ext} (hE : E.SVDOk) (hN : E.NNLSOk) {o : CPOpts} (hr : 0 < o.rank) {ms qs : List ℕ} {m : ℕ}
    {c : ℕ → ℝ} : ∀ (modes : List ℕ) {s s' : CMTFState}, s.Sized o.rank ms qs → s.Cfg o → (∀ k ∈ modes, k < s.cp.X.shape.length) →
      s.DataRelated ms qs m c → (m ∈ modes ∨ s.cp.Related m o.rank c) → CMTF.updateModes E o modes s = .ok s' →
      s'.cp.Related m o.rank c
  | [], s, s', _, _, _, _, hst, e => by
    obtain rfl : s = s' := by simpa [CMTF.updateModes, pure, Except.pure] using e
    exact hst.resolve_left (by simp)
  | k :: ks, s, s', h, hc, hm, hd, hst, e => by
    have hk := hm k (by simp)
    obtain ⟨on, ridge, hmc⟩ := hc.conf k hk
    have step : ∃ d F, F.shape = [s.cp.X.shape.getD k 0, o.rank] ∧ CMTF.updateFactor E o k s = .ok (s.upd k d F) ∧
        (k = m → RowsRelated F (s.cp.X.shape.getD m 0) o.rank c) := by
      by_cases hkm : k = m
      · subst hkm
        obtain ⟨d, F, a1, a2, a3⟩ := C131_cmtf_update hE hN hr h hk hmc (by simp) (Or.inl rfl) hd
        exact ⟨d, F, a1, a2, fun _ => a3⟩
      · obtain ⟨d, F, hF, e⟩ := cmtf_updateFactor_total hE hN h hr hk hmc (by simp)
        exact ⟨d, F, hF, e, fun h => absurd h hkm⟩
    obtain ⟨d, F, hF, eF, hrel⟩ := step
    have hsame : s.Same (s.upd k d F) := ⟨rfl, rfl, rfl, rfl, rfl, rfl, rfl, rfl, rfl⟩
    rw [CMTF.updateModes, List.foldlM_cons, cmtf_flag hc hk, bind_ok] at e
    simp only [Bool.false_eq_true, if_false] at e
    rw [eF, bind_ok] at e
    have hk' : k < s.cp.dec.factorMatrices.length := by rw [h.cp.wf.factors.length_eq]; exact hk
    refine cmtf_related_updates hE hN hr ks (s := s.upd k d F) (h.upd hF) (hc.same hsame) (fun j hj => hm j (by simp [hj]))
      ⟨hd.tensor, hd.matrices⟩ ?_ e
    by_cases hkm : k = m
    · subst hkm
      right
      exact ⟨F, by simp [CMTFState.upd, hk'], hrel rfl⟩
    · rcases hst with h3 | ⟨G, hG1, hG2⟩
      · left; simpa [Ne.symm hkm] using h3
      · right
        refine ⟨G, ?_, hG2⟩
        rw [← hG1]
        simp [CMTFState.upd, List.getElem?_set, hkm]

/-- The combination `c` of the columns of the matrix `Y` with `n` rows and `q` columns is zero. -/
def ColumnsRelated (Y : NDArray ℝ) (n q : ℕ) (c : ℕ → ℝ) : Prop :=
  ∀ i < n, ∑ j ∈ Finset.range q, c j * Y.get [i, j] = 0

theorem updateUncoupled_related {E : Ext} (hE : E.SVDOk) {R : ℕ} {s s' : CMTFState} {ms qs : List ℕ} (h : s.Sized R ms qs)
    (hnn : s.cp.nonNeg = some (List.replicate s.cp.X.shape.length false)) {m : Int} {i : ℕ} {t : List ℕ}
    (hi : s.modes[i]? = some m) {c : ℕ → ℝ}
    (hc : ColumnsRelated (s.Ys.getD i noArr) (s.cp.X.shape.getD (ms.getD i 0) 0) (qs.getD i 0) c)
    (e : CMTF.updateUncoupled E s (m, i :: t) = .ok s') : RowsRelated (s'.V.getD i noArr) (qs.getD i 0) R c := by
  have hil : i < ms.length := by rw [← h.lenM]; exact (List.getElem?_eq_some_iff.1 hi).1
  have em : s.modes[i]'(by rw [h.lenM]; exact hil) = m := (List.getElem?_eq_some_iff.1 hi).2
  have hg := h.getFactor hil
  rw [em] at hg
  have hmode := h.mode hil
  rw [em] at hmode
  have hU := h.shapeU hil
  have hY := h.shapeY i hil
  obtain ⟨V', e1, hV', -⟩ := rightsolve_mat hE (shape_T hU) (shape_T hY)
  have hrel : RowsRelated V' (qs.getD i 0) R c := by
    refine rightsolve_related hE (shape_T hU) (shape_T hY) (fun k hk => ?_) e1
    rw [← hc k hk]
    refine Finset.sum_congr rfl fun j hj => ?_
    rw [get_T hY (Finset.mem_range.1 hj) hk]
  rw [CMTF.updateUncoupled] at e
  simp only at e
  rw [pyGet_zero_cons, bind_ok, hg, bind_ok, pyGet_ok (norm_nat (by rw [h.lenY]; exact hil)), bind_ok, hnn] at e
  simp only [CMTF.flagAt] at e
  rw [pyGet_ok (l := List.replicate s.cp.X.shape.length false) (by rw [List.length_replicate]; exact hmode.norm), bind_ok] at e
  simp only [List.getElem_replicate, Bool.false_eq_true, if_false] at e
  rw [getD_of_lt (l := s.Ys) (by rw [h.lenY]; exact hil)] at e1
  rw [e1, bind_ok, pyGet_ok (norm_nat (by rw [h.lenV]; exact hil)), bind_ok, assignAll_same, bind_ok] at e
  · obtain rfl := Except.ok.inj e
    show RowsRelated ((s.V.set i V').getD i noArr) _ _ _
    rw [getD_set, if_pos ⟨rfl, by rw [h.lenV]; exact hil⟩]
    exact hrel
  · have := h.shapeV i hil
    rw [getD_of_lt (by rw [h.lenV]; exact hil)] at this
    rw [hV', this]

theorem uncoupled_related {E : Ext} (hE : E.SVDOk) {R : ℕ} {ms qs : List ℕ} {i : ℕ} {c : ℕ → ℝ} :
    ∀ (D : List (Int × List ℕ)) {s s' : CMTFState}, s.Sized R ms qs →
    s.cp.nonNeg = some (List.replicate s.cp.X.shape.length false) → (∀ p ∈ D, EntryOk s.modes p) →
    ColumnsRelated (s.Ys.getD i noArr) (s.cp.X.shape.getD (ms.getD i 0) 0) (qs.getD i 0) c →
    ((∃ p ∈ D, p.2.head? = some i) ∨ RowsRelated (s.V.getD i noArr) (qs.getD i 0) R c) →
    D.foldlM (CMTF.updateUncoupled E) s = .ok s' → RowsRelated (s'.V.getD i noArr) (qs.getD i 0) R c
  | [], s, s', _, _, _, _, hst, e => by
    obtain rfl : s = s' := by simpa [pure, Except.pure] using e
    exact hst.resolve_left (by simp)
  | (m, l) :: D, s, s', h, hnn, hD, hc, hst, e => by
    obtain ⟨j, t, rfl, hj⟩ := hD (m, l) List.mem_cons_self
    obtain ⟨V1, e1, hV1, hjl, -⟩ := updateUncoupled_ok hE h hnn hj (t := t)
    rw [List.foldlM_cons, e1, bind_ok] at e
    refine uncoupled_related hE D (s := { s with V := s.V.set j V1 }) (h.setV hV1) hnn (fun p hp => hD p (by simp [hp])) hc ?_ e
    by_cases hji : j = i
    · subst hji
      right
      exact updateUncoupled_related hE h hnn hj hc e1
    · rcases hst with ⟨p, hp, hh⟩ | hst
      · rcases List.mem_cons.1 hp with rfl | hp
        · simp at hh; exact absurd hh hji
        · exact Or.inl ⟨p, hp, hh⟩
      · right
        simp only [getD_set]
        rw [if_neg (fun hh => hji hh.1)]
        exact hst

/-- **C131**, one iteration of `CMTF_ALS`: a factor matrix, and the right factor of a matrix that is the first one of its mode. -/
theorem C131_cmtf_iteration {E : Ext} (hE : E.SVDOk) (hN : E.NNLSOk) {o : CPOpts} (hr : 0 < o.rank) {ms qs : List ℕ}
    {s s' : CMTFState} (h : s.Sized o.rank ms qs) (hc : s.Cfg o) (e : CMTF.iteration E o s = .ok s') :
    (∀ {m : ℕ} {c : ℕ → ℝ}, m < s.cp.X.shape.length → s.DataRelated ms qs m c → s'.cp.Related m o.rank c) ∧
    ∀ {i : ℕ} {c : ℕ → ℝ}, FirstOf s.modes i →
      ColumnsRelated (s.Ys.getD i noArr) (s.cp.X.shape.getD (ms.getD i 0) 0) (qs.getD i 0) c →
      RowsRelated (s'.V.getD i noArr) (qs.getD i 0) o.rank c := by
  rw [CMTF.iteration, bind_eq_ok] at e
  obtain ⟨s2, e12, e3⟩ := e
  rw [CMTF.updateConvergence, bind_eq_ok] at e3
  obtain ⟨x, -, e3⟩ := e3
  obtain rfl := Except.ok.inj e3
  rw [CMTF.updateFactors, bind_eq_ok] at e12
  obtain ⟨s1, e1, e2⟩ := e12
  obtain ⟨s1', e1', h1, hs1, -⟩ := cmtf_updateModes_ok hE hN hr (List.range s.cp.X.shape.length) s h hc (by simp)
  obtain rfl : s1' = s1 := Except.ok.inj (e1'.symm.trans e1)
  obtain ⟨V', e2', -⟩ := cmtf_uncoupled_ok hE h1 (hc.same hs1)
  obtain rfl := Except.ok.inj (e2'.symm.trans e2)
  constructor
  · intro m c hm hd
    have := cmtf_related_updates hE hN hr (List.range s.cp.X.shape.length) h hc (by simp) hd (Or.inl (by simpa using hm)) e1
    exact this
  · intro i c hi hY
    have hD := mapOk s1'.modes
    rw [← h1.map] at hD
    refine uncoupled_related (s' := { s1' with V := V' }) hE s1'.map h1 (hc.same hs1).nonNeg (fun p hp => by
      obtain ⟨i, t, e, hi, -⟩ := hD.head hp
      exact ⟨i, t, e, hi⟩) (by rw [hs1.Ys, hs1.X]; exact hY) (Or.inl ?_) e2
    rw [← hs1.modes] at hi
    obtain ⟨l, hl⟩ := hD.mem i hi.1 _ (List.getElem?_eq_getElem hi.1)
    obtain ⟨j, t, rfl, hj, hjf, -⟩ := hD.head hl
    obtain rfl : i = j := by
      rcases Nat.lt_trichotomy i j with hlt | rfl | hgt
      · exact absurd (List.getElem?_eq_getElem hi.1) (hjf i hlt)
      · rfl
      · exact absurd (hj.trans (List.getElem?_eq_getElem hi.1).symm) (hi.2 j hgt)
    exact ⟨_, hl, rfl⟩

theorem related_scaled {F G : NDArray ℝ} {n q : ℕ} {c a : ℕ → ℝ} (h : RowsRelated F n q c)
    (hG : ∀ i < n, ∀ r < q, G.get [i, r] = F.get [i, r] * a r) : RowsRelated G n q c := by
  intro r hr
  rw [← zero_mul (a r), ← h r hr, Finset.sum_mul]
  exact Finset.sum_congr rfl fun i hi => by rw [hG i (Finset.mem_range.1 hi) r hr]; ring

/-- **C131**, `CMTF_ALS`: after a fit with one or more iterations, a relation between the slices of the tensor along mode `m` and
between the rows of all matrices coupled to this mode holds between the rows of factor matrix `m`, and a relation between the
columns of a coupled matrix which is the first one of its mode holds between the rows of its right factor. Missing: the right
factors of the other matrices, which are never updated (C58), and non-negativity constraints, with which every fit raises (C59). -/
theorem C131_cmtf_partial {E : Ext} (hE : E.SVDOk) (hN : E.NNLSOk) (hQ : E.QROk) {c : CMTF.Config}
    {nonNeg orth : Option (List Bool)} {X : NDArray ℝ} (hA : CP.Admissible c.cp.opts nonNeg orth X.shape)
    (hnn : ∀ l, nonNeg = some l → l = List.replicate X.shape.length false)
    {Ys : List (NDArray ℝ)} {modes : List Int} {ms qs : List ℕ} (hC : CMTF.Coupled X.shape Ys modes ms qs)
    (hlog : c.Measurable ms qs) (hfreq : freqOption c.cp.freq ≠ 0) {arg : InitArg KruskalTensor} {t : KruskalTensor}
    (hi : CP.StartsFrom E c.cp nonNeg orth arg X t) (ht : t.WF X.shape c.cp.opts.rank)
    {budget : Int} {mi : Option Int} (hb : 0 < mi.getD budget) {loggers : List Logger} {file : Option H5File}
    (hS : Storing (CMTF.method E c) (CMTF.newObject nonNeg orth budget loggers file) []) :
    ∃ w', CMTF.fit E c X Ys modes mi arg (CMTF.newObject nonNeg orth budget loggers file) = .ok () w' ∧ (0 < w'.it →
      (∀ (m : ℕ) (v : ℕ → ℝ), m < X.shape.length → SlicesRelated X m v →
        (∀ i < ms.length, ms.getD i 0 = m → RowsRelated (Ys.getD i noArr) (X.shape.getD m 0) (qs.getD i 0) v) →
        ∃ F, w'.st.cp.dec.factorMatrices[m]? = some F ∧ RowsRelated F (X.shape.getD m 0) c.cp.opts.rank v) ∧
      ∀ (i : ℕ) (v : ℕ → ℝ), FirstOf modes i →
        ColumnsRelated (Ys.getD i noArr) (X.shape.getD (ms.getD i 0) 0) (qs.getD i 0) v →
        RowsRelated (w'.st.V.getD i noArr) (qs.getD i 0) c.cp.opts.rank v) := by
  obtain ⟨u, s0, sk, w', k, h0, e, -, hk, hit, hnorm, -, -, hsk, -, -, -, -, -, -⟩ :=
    C83_fit_completes hE hN hQ hA hnn hC hlog hfreq hi ht hb hS
  refine ⟨w', e, fun hpos => ?_⟩
  obtain ⟨k, rfl⟩ : ∃ k', k = k' + 1 := ⟨k - 1, by omega⟩
  have hcfg := h0.cfg hA hnn
  obtain ⟨g1, g2, g3, g4, -⟩ := cmtf_orbit_good hE hN hA.rank h0.sized hcfg k
  obtain rfl : CMTF.orbit E c.cp.opts s0 (k + 1) = sk :=
    Except.ok.inj ((cmtf_orbit_iterate hE hN hA.rank (k + 1) h0.sized hcfg).symm.trans hit)
  have hX : (CMTF.orbit E c.cp.opts s0 k).cp.X = X := g3.X.trans h0.eqX
  have hY : (CMTF.orbit E c.cp.opts s0 k).Ys = Ys := g3.Ys.trans h0.eqYs
  have hM : (CMTF.orbit E c.cp.opts s0 k).modes = modes := g3.modes.trans h0.eqModes
  have hX' : (CMTF.orbit E c.cp.opts s0 (k + 1)).cp.X = X :=
    (cmtf_orbit_good hE hN hA.rank h0.sized hcfg (k + 1)).2.2.1.X.trans h0.eqX
  obtain ⟨r1, r2⟩ := C131_cmtf_iteration hE hN hA.rank g1 g2 g4
  rw [hX, hY, hM] at r2
  rw [hX] at r1
  obtain ⟨s', e', -, -, -, -, -, hfs, hV⟩ := cmtf_normalize_ok hsk 1e-15
  obtain rfl : s' = w'.st := Except.ok.inj (e'.symm.trans hnorm)
  rw [hX'] at hfs hV
  constructor
  · intro m v hm hv hvY
    obtain ⟨F, hF, hFr⟩ := r1 hm (c := v) ⟨by rw [hX]; exact hv, by rw [hX, hY]; exact hvY⟩
    rw [hX'] at hFr
    refine ⟨normMat F (X.shape.getD m 0) c.cp.opts.rank 1e-15, ?_, related_scaled hFr
      (a := fun r => (colLen F (X.shape.getD m 0) r + 1e-15)⁻¹) fun i hi r hr => ?_⟩
    · have hXm : X.shape[m]? = some (X.shape.getD m 0) := by
        rw [List.getElem?_eq_getElem hm, getD_of_lt hm]
      rw [hfs, List.getElem?_zipWith, hF, hXm]
    · rw [normMat, get_ofMat hi hr, div_eq_mul_inv]
  · intro i v hi hv
    have hil : i < ms.length := by rw [← h0.sized.lenM, h0.eqModes]; exact hi.1
    rw [hV i hil]
    refine related_scaled (r2 hi hv) (a := fun r => colLen ((CMTF.orbit E c.cp.opts s0 (k + 1)).cp.dec.factorMatrices.getD
      (ms.getD i 0) noArr) (X.shape.getD (ms.getD i 0) 0) r) fun j hj r hr => ?_
    rw [scaledBy, get_ofMat hj hr]

/-- Two slices with two equal rows each, one of them with two columns of which one is the double of the other. -/
example : (∀ k < [2, 3].length,
      RowsRelated (nth [ofMat 2 2 fun _ j => (j : ℝ) + 1, full [2, 3] 5] k) 2 ([2, 3].getD k 0) (sameAs 0 1)) ∧
    ∀ i < 2, ∑ j ∈ Finset.range ([2, 3].getD 0 0), (if j = 0 then 2 else -1) *
      (nth [ofMat 2 2 fun _ j => (j : ℝ) + 1, full [2, 3] 5] 0).get [i, j] = 0 := by
  constructor
  · intro k hk
    have hk : k < 2 := hk
    interval_cases k
    · refine (rowsRelated_sameAs (by omega) (by omega)).2 fun r hr => ?_
      have hr : r < 2 := hr
      show (ofMat 2 2 fun _ j => (j : ℝ) + 1).get [0, r] = (ofMat 2 2 fun _ j => (j : ℝ) + 1).get [1, r]
      rw [get_ofMat (by omega) hr, get_ofMat (by omega) hr]
    · refine (rowsRelated_sameAs (by omega) (by omega)).2 fun r hr => ?_
      have hr : r < 3 := hr
      show (full [2, 3] (5 : ℝ)).get [0, r] = (full [2, 3] (5 : ℝ)).get [1, r]
      rw [get_full (by simp [Valid, hr]), get_full (by simp [Valid, hr])]
  · intro i hi
    show ∑ j ∈ Finset.range 2, (if j = 0 then (2 : ℝ) else -1) * (ofMat 2 2 fun _ j => (j : ℝ) + 1).get [i, j] = 0
    simp only [Finset.sum_range_succ, Finset.sum_range_zero]
    rw [get_ofMat hi (by omega), get_ofMat hi (by omega)]
    norm_num

/-- A coupled problem with two equal rows. -/
example {E : Ext} (hE : E.SVDOk) (hN : E.NNLSOk) (hQ : E.QROk) :
    ∃ w', CMTF.fit E ⟨⟨⟨2, 1e-8, 1e-8, none⟩, "precomputed", none, false, [], fun _ _ _ _ => 0, id, fun _ => none⟩,
        [], fun _ _ _ => 1, fun _ _ _ => 1⟩
      (full [2, 3] 1) [full [2, 4] 5, full [3, 2] 6] [0, -1] (some 10) (.tensor ⟨2, [full [2, 2] 1, full [3, 2] 1], full [2] 1⟩)
      (CMTF.newObject none none 1000 [{}] none) = .ok () w' ∧
      (0 < w'.it → ∃ F, w'.st.cp.dec.factorMatrices[0]? = some F ∧ ∀ r < 2, F.get [0, r] = F.get [1, r]) := by
  have hA : CP.Admissible ⟨2, 1e-8, 1e-8, none⟩ none none (full [2, 3] (1 : ℝ)).shape := by
    refine ⟨by simp, by simp, by simp, by simp, by simp, by simp, by simp, by simp⟩
  have hC : CMTF.Coupled (full [2, 3] (1 : ℝ)).shape [full [2, 4] 5, full [3, 2] 6] [0, -1] [0, 1] [4, 2] := by
    refine ⟨.cons ⟨by decide, Or.inl rfl⟩ (.cons ⟨by decide, Or.inr rfl⟩ .nil), rfl, fun i hi => ?_⟩
    have : i < 2 := hi
    interval_cases i <;> rfl
  have ht : KruskalTensor.WF ⟨2, [full [2, 2] 1, full [3, 2] 1], full [2] 1⟩ (full [2, 3] (1 : ℝ)).shape 2 :=
    ⟨rfl, .cons rfl (.cons rfl .nil), rfl⟩
  obtain ⟨w', e, h⟩ := C131_cmtf_partial hE hN hQ
    (c := ⟨⟨⟨2, 1e-8, 1e-8, none⟩, "precomputed", none, false, [], fun _ _ _ _ => 0, id, fun _ => none⟩,
      [], fun _ _ _ => 1, fun _ _ _ => 1⟩) hA (by simp) hC (fun p hp s hs => by simp at hp) (show freqOption none ≠ 0 by decide)
    (startsFrom_precomputed (by
      show "precomputed".toLower = _
      rw [String.toLower, ← String.toList_inj, String.toList_map]; decide) ht) ht (budget := 1000) (mi := some 10) (by decide)
    (loggers := [{}]) (file := none)
    ⟨fun h => absurd h (show ¬ (0 : Int) < -1 by decide), fun h => absurd h (show ¬ (0 : Int) < -1 by decide),
      fun h => absurd h (show ¬ (0 : Int) < -1 by decide)⟩
  refine ⟨w', e, fun hpos => ?_⟩
  obtain ⟨F, h1, h2⟩ := (h hpos).1 0 (sameAs 0 1) (by simp)
    (fun idx hv => by
      have hv : Valid [3] idx := hv
      match idx, hv with
      | [j], hv =>
        have hj : j < 3 := hv.1
        have := sum_sameAs (n := 2) (i := 0) (j := 1) (by omega) (by omega) fun k => (full [2, 3] (1 : ℝ)).get [k, j]
        rw [get_full (by simp [Valid, hj]), get_full (by simp [Valid, hj]), sub_self] at this
        exact this)
    (fun i hi hm => by
      have : i < 2 := hi
      interval_cases i
      · refine (rowsRelated_sameAs (n := 2) (by omega) (by omega)).2 fun r hr => ?_
        have hr : r < 4 := hr
        show (full [2, 4] (5 : ℝ)).get [0, r] = (full [2, 4] (5 : ℝ)).get [1, r]
        rw [get_full (by simp [Valid, hr]), get_full (by simp [Valid, hr])]
      · simp at hm)
  exact ⟨F, h1, (rowsRelated_sameAs (n := 2) (by omega) (by omega)).1 h2⟩

end

end TK
