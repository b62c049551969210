import Verif.Props.Stopping
import Verif.Props.CMTFFitMore

/-!
# C91 for `Parafac2_ALS` and `CMTF_ALS`

Source: parafac2.py:387-400, cmtf.py:219-246 and cp.py:400-423 (the loops and the stopping tests).
-/

namespace TK
open NDArray Fit Matrix
open EStateM (Result)

noncomputable section

/-- Losses whose relative changes do not stop a fit decrease geometrically. -/
theorem geometric_decrease {L : ℕ → ℝ} {tol : ℝ} (h0 : ∀ j, 0 ≤ L j) {N : ℕ} (hmono : ∀ j < N, L (j + 1) ≤ L j)
    (hgo : ∀ j < N, (FV.div (L j - L (j + 1)) (L j)).absLt tol = false) : L N ≤ max 0 (1 - tol) ^ N * L 0 := by
  induction N with
  | zero => simp
  | succ N ih =>
    have h1 := ih (fun j hj => hmono j (by omega)) fun j hj => hgo j (by omega)
    have h2 : L (N + 1) ≤ max 0 (1 - tol) * L N := by
      rcases (h0 N).lt_or_eq with hp | hz
      · have a := div_absLt_false hp (hgo N (by omega))
        rw [abs_of_nonneg (sub_nonneg.2 (hmono N (by omega)))] at a
        have := mul_le_mul_of_nonneg_right (le_max_right 0 (1 - tol)) hp.le
        linarith
      · have := hmono N (by omega)
        rw [← hz] at this ⊢
        simpa using this
    have h3 := mul_le_mul_of_nonneg_left h1 (le_max_left 0 (1 - tol))
    rw [pow_succ']
    linarith

/-! ## `Parafac2_ALS` -/

theorem p2_err_nonneg (s : P2State) (I : ℕ) (Js : List ℕ) (R : ℕ) : 0 ≤ s.err I Js R := by
  rw [P2State.err_eq]
  exact Finset.sum_nonneg fun k _ => LA.fsq_nonneg _

variable {s : P2State} {I : ℕ} {Js : List ℕ}

/-- As long as the projection updates treat no singular value as zero, the SSE does not increase along a fit. -/
theorem p2_orbit_antitone {E : Ext} (hE : E.SVDOk) (hN : E.NNLSOk) {o : P2Opts} (hridge : o.ridgePenalties = none)
    {c : CPObj} (h : s.Working o I Js c) (hnd : s.dec.P.Nodup) (hsh : s.Shares c) (hfree : P2State.Free c)
    (ho : s.Orthonormal Js o.rank) (hJ : ∀ J ∈ Js, o.rank ≤ J) {N : ℕ}
    (hk : ∀ j < N, ∀ k < Js.length, (P2.orbit E o s j).KeepsAll E I Js o.rank k) :
    ∀ j ≤ N, (P2.orbit E o s j).Orthonormal Js o.rank ∧
      (∀ i < j, (P2.orbit E o s (i + 1)).err I Js o.rank ≤ (P2.orbit E o s i).err I Js o.rank) := by
  intro j hj
  induction j with
  | zero => exact ⟨ho, fun i hi => absurd hi (by omega)⟩
  | succ j ih =>
    obtain ⟨i1, i2⟩ := ih (by omega)
    obtain ⟨c', h1, h2, h3, h4, h5, -⟩ := p2_orbit_working hE hN h j
    obtain ⟨s', c'', e, -, -, -, g5, g6⟩ := C53_full_rank_partial hE hN hridge h1 (by rw [h5]; exact hnd)
      (by unfold P2State.Shares; rw [h2, h5]; exact hsh) (hfree.of_eq h3 h4) i1 hJ (hk j (by omega))
    rw [p2_orbit_step hE hN h j] at e
    obtain rfl : P2.orbit E o s (j + 1) = s' := by injection e
    refine ⟨g5, fun i hi => ?_⟩
    rcases Nat.lt_succ_iff_lt_or_eq.1 hi with hi | rfl
    · exact i2 i hi
    · exact g6

/-- The relative change after `j + 1` iterations, in terms of the losses. -/
theorem p2_orbit_relChange {E : Ext} (hE : E.SVDOk) (hN : E.NNLSOk) {o : P2Opts} (hridge : o.ridgePenalties = none)
    {c : CPObj} (h : s.Working o I Js c) (hp : s.prevLoss = s.err I Js o.rank) (j : ℕ) :
    (P2.orbit E o s j).prevLoss = (P2.orbit E o s j).err I Js o.rank ∧
    (P2.orbit E o s (j + 1)).relChange = FV.div ((P2.orbit E o s j).err I Js o.rank
      - (P2.orbit E o s (j + 1)).err I Js o.rank) ((P2.orbit E o s j).err I Js o.rank) := by
  have key : ∀ j, (P2.orbit E o s (j + 1)).prevLoss = (P2.orbit E o s (j + 1)).err I Js o.rank ∧
      (P2.orbit E o s (j + 1)).relChange = FV.div ((P2.orbit E o s j).prevLoss - (P2.orbit E o s (j + 1)).prevLoss)
        (P2.orbit E o s j).prevLoss := by
    intro j
    obtain ⟨c', h1, -⟩ := p2_orbit_working hE hN h j
    obtain ⟨s', c', f, e, hw', -, -, -, -, -, -, -, hl, hrel, -⟩ := P2State.iteration_ok hE hN h1
    rw [p2_orbit_step hE hN h j] at e
    obtain rfl : P2.orbit E o s (j + 1) = s' := Except.ok.inj e
    obtain ⟨l', el', hl'⟩ := hw'.sized.loss (o := o)
    rw [hl] at el'
    exact ⟨by rw [Except.ok.inj el', hl' hridge], hrel⟩
  have hprev : (P2.orbit E o s j).prevLoss = (P2.orbit E o s j).err I Js o.rank := by
    cases j with
    | zero => exact hp
    | succ j => exact (key j).1
  exact ⟨hprev, by rw [(key j).2, (key j).1, hprev]⟩

/-- C91 for `Parafac2_ALS` without constraints and penalties, from orthonormal projection matrices, as long as its updates treat
no singular value as zero: if `(1 - convergence_tol)^N · SSE₀ < ε`, then the fit makes at most `N` iterations, whatever `max_its`
is, and with `max_its > N` it is the stopping test that ends it, unless its error falls below `ε` within `N` iterations. Missing:
data that can be fitted exactly (false, `C91_parafac2_fails`). -/
theorem C91_parafac2_bound_partial {E : Ext} (hE : E.SVDOk) (hN : E.NNLSOk) (hQ : E.QROk) {c : P2.Config} {D : P2Data}
    {arg : InitArg P2Obj} {h0 : Heap} (hi : P2.StartsFrom E c D arg h0 s) (h : s.Sized I Js c.opts.rank) (hs : s.Separate)
    (hal : s.Allocated) (hort : s.Orthonormal Js c.opts.rank) (hJ : ∀ J ∈ Js, c.opts.rank ≤ J)
    (hnn : c.opts.nonNeg = none) (hon : c.opts.orth = none) (hridge : c.opts.ridgePenalties = none)
    (hlog : c.Measurable I Js) (hfreq : freqOption c.freq ≠ 0) {l : ℝ} {sp : P2State} (el : P2.loss c.opts s = .ok l)
    (ep : P2.prepareCp E c.opts (s.withLoss .pinf l) = .ok sp) {N : ℕ}
    (hk : ∀ j < N, ∀ k < Js.length, (P2.orbit E c.opts sp j).KeepsAll E I Js c.opts.rank k) {ε : ℝ}
    (hbound : max 0 (1 - c.opts.convergenceTol) ^ N * s.err I Js c.opts.rank < ε)
    {budget : Int} {mi : Option Int} {loggers : List Logger} {file : Option H5File}
    (hS : Storing (P2.method E c) (P2.newObject h0 budget loggers file) []) :
    ∃ w', P2.fit E c D mi arg (P2.newObject h0 budget loggers file) = .ok () w' ∧
      ((w'.it ≤ N ∧ ((N : Int) < mi.getD budget → P2.shouldStop c.opts w'.st = .ok true)) ∨
        (P2.orbit E c.opts sp N).err I Js c.opts.rank < ε) := by
  have hnf : P2.nonNegOption c.opts = [false, false, false] := by rw [P2.nonNegOption, hnn]; rfl
  have hof : P2State.orthFlags c.opts = [false, false, false] := by rw [P2State.orthFlags, hon]; rfl
  have hno : ∀ j : ℕ, ([false, false, false] : List Bool)[j]? ≠ some true := by
    intro j
    match j with
    | 0 => simp
    | 1 => simp
    | 2 => simp
    | _ + 3 => simp
  have hA : P2.Admissible c.opts I Js.length := by
    have h1 := h.posI
    have h2 := h.posR
    have h3 := h.posK
    refine ⟨h2, by simp, ?_, by simp [hnf], by simp [hon], by simp [P2.innerOpts, hridge], by simp [hon], by simp [hon]⟩
    intro n hn
    simp only [List.mem_cons, List.not_mem_nil, or_false] at hn
    rcases hn with rfl | rfl | rfl <;> omega
  obtain ⟨l', sp', w', k, el', ep', -, hfit, hkb, hit, hst, hgo, hstop, -⟩ :=
    C80_fit_completes hE hN hQ hi h hs.distinct hal hA hlog hfreq (mi := mi) hS
  rw [el] at el'
  obtain rfl : l = l' := Except.ok.inj el'
  rw [ep] at ep'
  obtain rfl : sp = sp' := Except.ok.inj ep'
  obtain ⟨h', ci, ep', hw, -, -, hn1, ho1, -, -, hsh, -⟩ := P2State.prepareCp_ok (E := E) hQ (o := c.opts) (h.withLoss .pinf l)
    (hs.distinct.loss .pinf l) hA (fun _ => hal)
  rw [ep] at ep'
  obtain rfl : sp = (s.withLoss .pinf l).withInner h' ci := Except.ok.inj ep'
  rw [hof] at hsh ho1
  rw [hnf] at hn1
  obtain ⟨rfl, h3⟩ := hsh hno
  have hfree : P2State.Free ci := by
    refine ⟨⟨_, hn1, ?_⟩, ⟨_, ho1, ?_⟩⟩ <;>
    · intro m hm
      interval_cases m <;> simp
  set sp := (s.withLoss .pinf l).withInner (s.withLoss .pinf l).heap ci with hsp
  have herr : sp.err I Js c.opts.rank = s.err I Js c.opts.rank := rfl
  have hprev : sp.prevLoss = sp.err I Js c.opts.rank := by
    obtain ⟨l', e, hl⟩ := h.loss (o := c.opts)
    rw [el] at e
    rw [herr, ← hl hridge, ← Except.ok.inj e]; rfl
  refine ⟨w', hfit, ?_⟩
  by_cases hkN : k ≤ N
  · exact .inl ⟨by rw [hit]; exact_mod_cast hkN, fun hlt => hstop (by omega)⟩
  · right
    have hmono := (p2_orbit_antitone hE hN hridge hw hs.nodup h3 hfree (show sp.Orthonormal Js c.opts.rank from hort) hJ hk N
      le_rfl).2
    have := geometric_decrease (L := fun j => (P2.orbit E c.opts sp j).err I Js c.opts.rank) (tol := c.opts.convergenceTol)
      (fun j => p2_err_nonneg _ _ _ _) (N := N) hmono (fun j hj => by
        have := (hgo (j + 1) (by omega)).2
        rw [P2.shouldStop, (p2_orbit_relChange hE hN hridge hw hprev j).2] at this
        exact Except.ok.inj this)
    exact lt_of_le_of_lt this hbound

/-- C91 for `Parafac2_ALS`: if no PARAFAC2 model of the rank has an error below some `ε > 0`, such a fit stops by itself: there is
a number of iterations that no budget makes it exceed. -/
theorem C91_parafac2_stops_partial {E : Ext} (hE : E.SVDOk) (hN : E.NNLSOk) (hQ : E.QROk) {c : P2.Config} {D : P2Data}
    {arg : InitArg P2Obj} {h0 : Heap} (hi : P2.StartsFrom E c D arg h0 s) (h : s.Sized I Js c.opts.rank) (hs : s.Separate)
    (hal : s.Allocated) (hort : s.Orthonormal Js c.opts.rank) (hJ : ∀ J ∈ Js, c.opts.rank ≤ J)
    (hnn : c.opts.nonNeg = none) (hon : c.opts.orth = none) (hridge : c.opts.ridgePenalties = none)
    (hlog : c.Measurable I Js) (hfreq : freqOption c.freq ≠ 0) {l : ℝ} {sp : P2State} (el : P2.loss c.opts s = .ok l)
    (ep : P2.prepareCp E c.opts (s.withLoss .pinf l) = .ok sp)
    (hk : ∀ j, ∀ k < Js.length, (P2.orbit E c.opts sp j).KeepsAll E I Js c.opts.rank k)
    (htol : 0 < c.opts.convergenceTol) {ε : ℝ} (hε : 0 < ε)
    (hfit : ∀ (P : List (NDArray ℝ)) (A D C : NDArray ℝ), ε ≤ p2Err s.X P A D C I Js c.opts.rank) :
    ∃ N : ℕ, ∀ (budget : Int) (mi : Option Int) (loggers : List Logger) (file : Option H5File),
      Storing (P2.method E c) (P2.newObject h0 budget loggers file) [] →
      ∃ w', P2.fit E c D mi arg (P2.newObject h0 budget loggers file) = .ok () w' ∧ w'.it ≤ N ∧
        ((N : Int) < mi.getD budget → P2.shouldStop c.opts w'.st = .ok true) := by
  have hq : max 0 (1 - c.opts.convergenceTol) < 1 := max_lt one_pos (by linarith)
  have hlim := (tendsto_pow_atTop_nhds_zero_of_lt_one (le_max_left 0 (1 - c.opts.convergenceTol)) hq).mul_const
    (s.err I Js c.opts.rank)
  rw [zero_mul] at hlim
  obtain ⟨N, hb⟩ := (hlim.eventually_lt_const hε).exists
  refine ⟨N, fun budget mi loggers file hS => ?_⟩
  obtain ⟨w', e, hor⟩ := C91_parafac2_bound_partial hE hN hQ hi h hs hal hort hJ hnn hon hridge hlog hfreq el ep
    (N := N) (fun j _ => hk j) hb (mi := mi) hS
  refine ⟨w', e, ?_⟩
  rcases hor with hor | hor
  · exact hor
  · have hX : (P2.orbit E c.opts sp N).X = s.X := by
      have hA : P2.Admissible c.opts I Js.length := by
        have h1 := h.posI
        have h2 := h.posR
        have h3 := h.posK
        refine ⟨h2, by simp, ?_, by simp [P2.nonNegOption, hnn], by simp [hon], by simp [P2.innerOpts, hridge], by simp [hon],
          by simp [hon]⟩
        intro n hn
        simp only [List.mem_cons, List.not_mem_nil, or_false] at hn
        rcases hn with rfl | rfl | rfl <;> omega
      obtain ⟨h', ci, ep', hw, -⟩ := P2State.prepareCp_ok (E := E) hQ (o := c.opts) (h.withLoss .pinf l)
        (hs.distinct.loss .pinf l) hA (fun _ => hal)
      rw [ep] at ep'
      obtain rfl : sp = (s.withLoss .pinf l).withInner h' ci := Except.ok.inj ep'
      obtain ⟨-, -, -, -, -, -, hX, -⟩ := p2_orbit_working hE hN hw N
      exact hX
    have := hfit (P2.orbit E c.opts sp N).P (P2.orbit E c.opts sp N).A (P2.orbit E c.opts sp N).D (P2.orbit E c.opts sp N).C
    rw [← hX] at this
    exact absurd this (not_le.2 hor)

/-! ### One slice and rank one -/

/-- For one slice and rank one, a model that is better than the zero model has a positive singular value. -/
theorem keepsAll_rank_one {E : Ext} (hE : E.SVDOk) {J : ℕ} (hJ : (J : ℝ) * 1e-16 < 1)
    (hlt : s.err I [J] 1 < LA.fsq (s.Xm I [J] 0)) : s.KeepsAll E I [J] 1 0 := by
  have hsh : (s.cross I [J] 1 0).shape = [J, 1] := by rw [P2State.cross, shape_ofMat]; rfl
  have hpos : 0 < (E.svd (s.cross I [J] 1 0)).2.1.get [0] ∨ min J 1 = 0 := by
    by_contra hn
    rw [not_or, not_lt] at hn
    have h0 : 0 < min J 1 := Nat.pos_of_ne_zero hn.2
    have hnn : 0 ≤ (E.svd (s.cross I [J] 1 0)).2.1.get [0] := (hE _ _ _ hsh).svd.nonneg ⟨0, h0⟩
    have hz := (svd_zero_iff hE hsh).1 (fun i hi => by
      obtain rfl : i = 0 := by omega
      exact le_antisymm hn.1 hnn)
    rw [P2State.err_eq] at hlt
    simp only [List.length_singleton, Finset.sum_range_one] at hlt
    rw [LA.fsq_sub, LA.fip_mul_left'] at hlt
    have hc : (s.Mm I 1 0)ᵀ * s.Xm I [J] 0 = 0 := by
      ext q j
      have := hz j j.2 q q.2
      rw [P2State.cross, get_ofMat (show (j : ℕ) < [J].getD 0 0 from j.2) q.2] at this
      rw [Matrix.mul_apply, Matrix.zero_apply, ← this, Finset.sum_range]
      exact Finset.sum_congr rfl fun i _ => mul_comm _ _
    rw [hc, LA.fip_zero_right] at hlt
    have := LA.fsq_nonneg (s.Mm I 1 0 * s.Ym [J] 1 0)
    linarith
  intro i hi
  have hi : i < min J 1 := hi
  obtain rfl : i = 0 := by omega
  rcases hpos with hp | hp
  · show (J : ℝ) * _ * _ < _
    nlinarith
  · omega

/-- For one slice and rank one, nothing has to be assumed about singular values if the start is better than the zero model. -/
theorem p2_orbit_keepsAll {E : Ext} (hE : E.SVDOk) (hN : E.NNLSOk) {o : P2Opts} (hridge : o.ridgePenalties = none) {J : ℕ}
    {c : CPObj} (h : s.Working o I [J] c) (hsh : s.Shares c) (hfree : P2State.Free c) (ho : s.Orthonormal [J] o.rank)
    (hr : o.rank = 1) (hJ : (J : ℝ) * 1e-16 < 1) (hlt : s.err I [J] 1 < LA.fsq (s.Xm I [J] 0)) (j : ℕ) :
    ∀ k < [J].length, (P2.orbit E o s j).KeepsAll E I [J] o.rank k := by
  have hnd : s.dec.P.Nodup := by
    have := h.sized.P.length_eq
    simp only [P2State.P, List.length_map, List.length_singleton] at this
    obtain ⟨a, ha⟩ := List.length_eq_one_iff.1 this
    rw [ha]; simp
  have hJ1 : ∀ J' ∈ [J], o.rank ≤ J' := by
    intro J' h'
    rw [hr]
    exact h.sized.posJ J' h'
  induction j using Nat.strong_induction_on with
  | _ j ih =>
    intro k hk
    obtain rfl : k = 0 := by simpa using hk
    rw [hr]
    have hmono := (p2_orbit_antitone hE hN hridge h hnd hsh hfree ho hJ1 (N := j) ih j le_rfl).2
    have hle : ∀ i ≤ j, (P2.orbit E o s i).err I [J] o.rank ≤ s.err I [J] o.rank := by
      intro i hi
      induction i with
      | zero => exact le_rfl
      | succ i ih' => exact (hmono i (by omega)).trans (ih' (by omega))
    refine keepsAll_rank_one hE hJ ?_
    obtain ⟨-, -, -, -, -, -, hX, -⟩ := p2_orbit_working hE hN h j
    have e1 : (P2.orbit E o s j).Xm I [J] 0 = s.Xm I [J] 0 := by unfold P2State.Xm; rw [hX]
    rw [e1]
    have := hle j le_rfl
    rw [hr] at this
    exact lt_of_le_of_lt this hlt

/-- A rank-one model of the `2 × 2` identity matrix has an error of at least one. -/
theorem p2_eye_err (P : List (NDArray ℝ)) (A D C : NDArray ℝ) :
    1 ≤ p2Err [ofMat 2 2 fun i j => if i = j then (1 : ℝ) else 0] P A D C 2 [2] 1 := by
  rw [P2State.p2Err_eq]
  simp only [List.length_singleton, Finset.sum_range_one]
  have hX : mat (nth [ofMat 2 2 fun i j => if i = j then (1 : ℝ) else 0] 0) 2 2 = !![1, 0; 0, 1] := by
    ext i j
    show (ofMat 2 2 fun i j => if i = j then (1 : ℝ) else 0).get [(i : ℕ), (j : ℕ)] = _
    rw [get_ofMat i.2 j.2]
    fin_cases i <;> fin_cases j <;> simp
  show 1 ≤ LA.fsq (mat (p2Score A D C 2 1 0) 2 1 * (mat (nth P 0) 2 1)ᵀ
    - mat (nth [ofMat 2 2 fun i j => if i = j then (1 : ℝ) else 0] 0) 2 2)
  rw [hX]
  generalize mat (p2Score A D C 2 1 0) 2 1 = M
  generalize mat (nth P 0) 2 1 = Y
  simp only [LA.fsq, Fin.sum_univ_two, Matrix.sub_apply, Matrix.mul_apply, Finset.univ_unique, Finset.sum_singleton,
    Matrix.transpose_apply, Matrix.of_apply, Matrix.cons_val', Matrix.cons_val_zero, Matrix.cons_val_one, Matrix.cons_val_fin_one]
  nlinarith [sq_nonneg (1 - (M 0 default * Y 0 default + M 1 default * Y 1 default)),
    sq_nonneg (M 0 default * Y 1 default - M 1 default * Y 0 default)]

/-- The hypotheses of `C91_parafac2_bound_partial` and `C91_parafac2_stops_partial` hold: a fit of rank one to the `2 × 2` identity
matrix, from `A = (1, 0)`, `D = C = 1` and `P = (1, 0)`, makes at most one iteration, whatever its budget is. -/
example {E : Ext} (hE : E.SVDOk) (hN : E.NNLSOk) (hQ : E.QROk) {c : P2.Config} (hi : c.init.toLower = "precomputed") {n : ℕ}
    {g : List ℕ → ℝ} (ho : c.opts = p2Plain 1 n g) (hlog : c.logs = []) (hfreq : c.freq = none) (budget : Int) (hb : 1 < budget) :
    ∃ (h0 : Heap) (d : P2Obj), ∃ w', P2.fit E c (.list [ofMat 2 2 fun i j => if i = j then 1 else 0]) none (.tensor d)
        (P2.newObject h0 budget [] none) = .ok () w' ∧ w'.it ≤ 1 ∧ P2.shouldStop c.opts w'.st = .ok true := by
  have hr : c.opts.rank = 1 := by rw [ho]; rfl
  set h0 : Heap := ⟨fun a => if a = 0 then ofMat 2 1 (fun i _ => if i = 0 then 1 else 0) else if a = 1 then ofMat 1 1 (fun _ _ => 1)
      else if a = 2 then ofMat 1 1 (fun _ _ => 1) else ofMat 2 1 fun i _ => if i = 0 then 1 else 0, 4⟩ with hh0
  set d : P2Obj := ⟨1, 0, 1, 2, [3], true, true, [(2, 2)], 3⟩ with hd
  set X : NDArray ℝ := ofMat 2 2 fun i j => if i = j then 1 else 0 with hX
  obtain ⟨s, h1, h2, h3, h4, h5⟩ := p2_startsFrom_precomputed (E := E) (c := c) hi (I := 2) (Js := [2]) (Xs := [X]) (by norm_num)
    (.cons rfl .nil) (by simp) (by omega) (by simp) (h0 := h0) (d := d) (by rw [hr]; rfl) (by rw [hr]; rfl) (by rw [hr]; rfl)
    (by rw [hr]; exact .cons rfl .nil)
  have hsep : s.Separate := by rw [P2State.Separate, h3]; simp [hd]
  have hal : s.Allocated := by rw [P2State.Allocated, h3, h4]; simp [hd, hh0]
  have hort : s.Orthonormal [2] c.opts.rank := by
    rw [hr]
    intro k hk i hi j hj
    obtain rfl : k = 0 := by simpa using hk
    obtain rfl : i = 0 := by omega
    obtain rfl : j = 0 := by omega
    rw [P2State.P, h3, h4]
    show ∑ l ∈ Finset.range 2, (ofMat 2 1 fun i _ => if i = 0 then (1 : ℝ) else 0).get [l, 0]
      * (ofMat 2 1 fun i _ => if i = 0 then (1 : ℝ) else 0).get [l, 0] = _
    rw [Finset.sum_range_succ, Finset.sum_range_one, get_ofMat (by norm_num) (by norm_num), get_ofMat (by norm_num) (by norm_num)]
    norm_num
  have herr : s.err 2 [2] 1 = 1 := by
    rw [P2State.err, h5, P2State.P, P2State.A, P2State.D, P2State.C, h3, h4]
    have e1 : ∀ i < 2, (ofMat 2 1 fun i _ => if i = 0 then (1 : ℝ) else 0).get [i, 0] = if i = 0 then 1 else 0 :=
      fun i hi => get_ofMat hi (by norm_num)
    have e2 : (ofMat 1 1 fun _ _ => (1 : ℝ)).get [0, 0] = 1 := get_ofMat (by norm_num) (by norm_num)
    show ∑ k ∈ Finset.range 1, ∑ i ∈ Finset.range 2, ∑ j ∈ Finset.range 2, (X.get [i, j]
      - p2Entry (ofMat 2 1 fun i _ => if i = 0 then (1 : ℝ) else 0) (ofMat 1 1 fun _ _ => (1 : ℝ)) (ofMat 1 1 fun _ _ => (1 : ℝ))
        (nth [ofMat 2 1 fun i _ => if i = 0 then (1 : ℝ) else 0] k) 1 k i j) ^ 2 = 1
    rw [Finset.sum_range_one]
    have e3 : ∀ i < 2, ∀ j < 2, (X.get [i, j] - p2Entry (ofMat 2 1 fun i _ => if i = 0 then (1 : ℝ) else 0)
        (ofMat 1 1 fun _ _ => (1 : ℝ)) (ofMat 1 1 fun _ _ => (1 : ℝ))
        (nth [ofMat 2 1 fun i _ => if i = 0 then (1 : ℝ) else 0] 0) 1 0 i j)
        = (if i = j then 1 else 0) - (if i = 0 then 1 else 0) * (if j = 0 then 1 else 0) := by
      intro i hi j hj
      rw [p2Entry, Finset.sum_range_one, Finset.sum_range_one, hX, get_ofMat hi hj, e1 i hi, e2]
      show _ - _ * 1 * ((ofMat 2 1 fun i _ => if i = 0 then (1 : ℝ) else 0).get [j, 0] * 1) = _
      rw [e1 j hj, mul_one, mul_one]
    rw [Finset.sum_range_succ, Finset.sum_range_one, Finset.sum_range_succ, Finset.sum_range_one, Finset.sum_range_succ,
      Finset.sum_range_one, e3 0 (by norm_num) 0 (by norm_num), e3 0 (by norm_num) 1 (by norm_num),
      e3 1 (by norm_num) 0 (by norm_num), e3 1 (by norm_num) 1 (by norm_num)]
    norm_num
  have hfsq : LA.fsq (s.Xm 2 [2] 0) = 2 := by
    unfold P2State.Xm
    rw [h5]
    show LA.fsq (mat X 2 2) = 2
    have e : ∀ i j : Fin 2, mat X 2 2 i j = if i = j then 1 else 0 := by
      intro i j
      show X.get [(i : ℕ), (j : ℕ)] = _
      rw [hX, get_ofMat i.2 j.2]
      simp only [Fin.val_inj]
    simp only [LA.fsq, Fin.sum_univ_two, e]
    norm_num
  obtain ⟨l, el, hl⟩ := h2.loss (o := c.opts)
  have hnn : c.opts.nonNeg = none := by rw [ho]; rfl
  have hon : c.opts.orth = none := by rw [ho]; rfl
  have hridge : c.opts.ridgePenalties = none := by rw [ho]; rfl
  have htol : c.opts.convergenceTol = 1e-8 := by rw [ho]; rfl
  have hp := p2Plain_prepare (E := E) hQ (n := n) (g := g) (s := s.withLoss .pinf l) (by rw [hr] at h2; exact h2.withLoss _ _)
    (hsep.loss .pinf l)
  rw [← ho] at hp
  obtain ⟨ci, ep, hw, hsh, hfree⟩ := hp
  have hk := p2_orbit_keepsAll hE hN hridge hw hsh hfree (show P2State.Orthonormal _ [2] c.opts.rank from hort) hr (by norm_num)
    (show s.err 2 [2] 1 < LA.fsq (s.Xm 2 [2] 0) by rw [herr, hfsq]; norm_num)
  obtain ⟨w', e, hor⟩ := C91_parafac2_bound_partial hE hN hQ h1 h2 hsep hal hort (by rw [hr]; simp) hnn hon hridge
    (by intro p hp; rw [hlog] at hp; cases hp) (by rw [hfreq]; decide) el ep (N := 1) (fun j _ => hk j) (ε := 1)
    (by rw [htol, hr, herr]; norm_num) (mi := none) (budget := budget) (loggers := []) (file := none) (p2_storing_none hfreq _ _)
  refine ⟨h0, d, w', e, ?_⟩
  rcases hor with ⟨a, b⟩ | hlt
  · exact ⟨a, b hb⟩
  · obtain ⟨-, -, -, -, -, -, hXo, -⟩ := p2_orbit_working hE hN hw 1
    have := p2_eye_err (P2.orbit E c.opts ((s.withLoss .pinf l).withInner s.heap ci) 1).P
      (P2.orbit E c.opts ((s.withLoss .pinf l).withInner s.heap ci) 1).A (P2.orbit E c.opts ((s.withLoss .pinf l).withInner s.heap ci) 1).D
      (P2.orbit E c.opts ((s.withLoss .pinf l).withInner s.heap ci) 1).C
    rw [hr, P2State.err, hXo] at hlt
    have hlt : p2Err s.X _ _ _ _ 2 [2] 1 < 1 := hlt
    rw [h5] at hlt
    exact absurd this (not_le.2 hlt)

/-! ## `CMTF_ALS` -/

/-- C91 for `CMTF_ALS` without constraints and penalties, with different coupling modes given as `0, 1, …` and a start whose
components have norm product one: the fit makes at most `N + 1` iterations as soon as
`(1 - convergence_tol)^N · SSE₀ < rel_loss_tol · ‖X‖²`, where `SSE₀` is the coupled error of the normalised start, whatever `max_its`
is. Missing: other starts, for which the updates do not lower the error (false, `C82_fit_gets_worse`), and `X = 0`. -/
theorem C91_cmtf_bound_partial {E : Ext} (hE : E.SVDOk) (hN : E.NNLSOk) (hQ : E.QROk) {c : CMTF.Config}
    {X : NDArray ℝ} (hA : CP.Admissible c.cp.opts none none X.shape) (hr : c.cp.opts.ridgePenalties = none)
    {Ys : List (NDArray ℝ)} {ms qs : List ℕ} (hC : CMTF.Coupled X.shape Ys (ms.map fun m : ℕ => (m : Int)) ms qs) (hd : ms.Nodup)
    (hlog : c.Measurable ms qs) (hfreq : freqOption c.cp.freq ≠ 0) {arg : InitArg KruskalTensor} {t : KruskalTensor}
    (hi : CP.StartsFrom E c.cp none none arg X t) (ht : t.WF X.shape c.cp.opts.rank)
    (hone : ∀ r < c.cp.opts.rank, modeProd (fun F m => colLen F m r) t.factorMatrices X.shape = 1)
    (hrel : 0 < c.cp.opts.relLossTol) (hX : 0 < sumIdx X.shape fun idx => X.get idx ^ 2) :
    ∃ u s0, CMTF.Started c none none X Ys (ms.map fun m : ℕ => (m : Int)) ms qs t u s0 ∧
      ∀ N : ℕ, max 0 (1 - c.cp.opts.convergenceTol) ^ N * s0.trueLoss c.cp.opts.rank ms <
          c.cp.opts.relLossTol * (sumIdx X.shape fun idx => X.get idx ^ 2) →
        ∀ (budget : Int) (mi : Option Int) (loggers : List Logger) (file : Option H5File), 0 < mi.getD budget →
          Storing (CMTF.method E c) (CMTF.newObject none none budget loggers file) [] →
          ∃ w', CMTF.fit E c X Ys (ms.map fun m : ℕ => (m : Int)) mi arg (CMTF.newObject none none budget loggers file) = .ok () w' ∧
            w'.it ≤ N + 1 ∧ ((N : Int) + 1 < mi.getD budget → ∃ sk, CMTF.normalizeComponents sk = .ok w'.st ∧
              CMTF.shouldStop c.cp.opts sk = .ok true) := by
  obtain ⟨u, s0, h0, hfit⟩ := cmtf_fit_unfold hQ hA hC hi ht
  refine ⟨u, s0, h0, fun N hbound budget mi loggers file hb hS => ?_⟩
  obtain ⟨sk, w', k, e, hk1, hit, -, hnorm, hgo, hstop, -⟩ := cmtf_completes hE hN hA (by simp) hlog hfreq h0 hfit hb hS
  have hcfg := h0.cfg hA (by simp)
  have hfree := h0.free hA (by simp) hr rfl
  have hw : ∀ r < c.cp.opts.rank, s0.cp.dec.weights.get [r] = 1 := fun r hr => by rw [h0.startWeights hr, hone r hr]
  have hgood := cmtf_orbit_good hE hN hA.rank h0.sized hcfg
  set L := fun j => (CMTF.orbit E c.cp.opts s0 j).trueLoss c.cp.opts.rank ms with hL
  have hstep : ∀ j, L (j + 1) ≤ L j ∧ (CMTF.orbit E c.cp.opts s0 (j + 1)).cp.prevSSE = L (j + 1) ∧
      (CMTF.orbit E c.cp.opts s0 (j + 1)).cp.relChange
        = FV.div ((CMTF.orbit E c.cp.opts s0 j).cp.prevSSE - L (j + 1)) (CMTF.orbit E c.cp.opts s0 j).cp.prevSSE := by
    intro j
    obtain ⟨g1, g2, g3, g4, -⟩ := hgood j
    obtain ⟨s', e, h1, h2, -, h4, h5, -, -, h6⟩ := cmtf_iteration_ok hE hN hA.rank g1 g2
    rw [g4] at e
    obtain rfl : CMTF.orbit E c.cp.opts s0 (j + 1) = s' := Except.ok.inj e
    refine ⟨?_, h4, h5⟩
    have hwj : ∀ r < c.cp.opts.rank, (CMTF.orbit E c.cp.opts s0 j).cp.dec.weights.get [r] = 1 := by
      rw [g3.weights]; exact hw
    have := h6 (hfree.sameProblem g3)
    rwa [fitLoss_eq_trueLoss hwj hd, fitLoss_eq_trueLoss (by rw [h2.weights]; exact hwj) hd] at this
  have hkN : k ≤ N + 1 := by
    by_contra hlt
    rw [not_le] at hlt
    have hns : ∀ j < k, (CMTF.orbit E c.cp.opts s0 j).cp.relChange.absLt c.cp.opts.convergenceTol = false ∧
        c.cp.opts.relLossTol * (sumIdx X.shape fun idx => X.get idx ^ 2) ≤ L j := by
      intro j hj
      obtain ⟨s, e1, e2⟩ := hgo j hj
      rw [cmtf_orbit_iterate hE hN hA.rank j h0.sized hcfg] at e1
      obtain rfl : CMTF.orbit E c.cp.opts s0 j = s := Except.ok.inj e1
      rw [CMTF.shouldStop, cmtf_sse_ok (hgood j).1, bind_ok] at e2
      obtain ⟨a, b⟩ := Bool.or_eq_false_iff.1 (Except.ok.inj e2)
      refine ⟨a, ?_⟩
      have hn : (CMTF.orbit E c.cp.opts s0 j).cp.XNorm ^ 2 = sumIdx X.shape fun idx => X.get idx ^ 2 := by
        rw [(hgood j).2.2.1.XNorm, h0.eqNorm, frobNorm_sq]
      rw [hn] at b
      exact div_lt_false hX b
    have hg := geometric_decrease (L := fun j => L (j + 1)) (tol := c.cp.opts.convergenceTol)
      (fun j => trueLoss_nonneg _ _ _) (N := N) (fun j _ => (hstep (j + 1)).1) (fun j hj => by
        have := (hns (j + 1 + 1) (by omega)).1
        rwa [(hstep (j + 1)).2.2, (hstep j).2.1] at this)
    have h1 := (hns (N + 1) hlt).2
    have h2 : L 1 ≤ L 0 := (hstep 0).1
    have h3 : L 0 = s0.trueLoss c.cp.opts.rank ms := rfl
    have h4 := mul_le_mul_of_nonneg_left h2 (pow_nonneg (le_max_left 0 (1 - c.cp.opts.convergenceTol)) N)
    simp only [Nat.zero_add] at hg
    rw [h3] at h4
    linarith
  exact ⟨w', e, by rw [hit]; exact_mod_cast hkN, fun hlt => ⟨sk, hnorm, hstop (by omega)⟩⟩

/-- C91 for `CMTF_ALS`: such a fit stops by itself. -/
theorem C91_cmtf_stops_partial {E : Ext} (hE : E.SVDOk) (hN : E.NNLSOk) (hQ : E.QROk) {c : CMTF.Config}
    {X : NDArray ℝ} (hA : CP.Admissible c.cp.opts none none X.shape) (hr : c.cp.opts.ridgePenalties = none)
    {Ys : List (NDArray ℝ)} {ms qs : List ℕ} (hC : CMTF.Coupled X.shape Ys (ms.map fun m : ℕ => (m : Int)) ms qs) (hd : ms.Nodup)
    (hlog : c.Measurable ms qs) (hfreq : freqOption c.cp.freq ≠ 0) {arg : InitArg KruskalTensor} {t : KruskalTensor}
    (hi : CP.StartsFrom E c.cp none none arg X t) (ht : t.WF X.shape c.cp.opts.rank)
    (hone : ∀ r < c.cp.opts.rank, modeProd (fun F m => colLen F m r) t.factorMatrices X.shape = 1)
    (htol : 0 < c.cp.opts.convergenceTol) (hrel : 0 < c.cp.opts.relLossTol)
    (hX : 0 < sumIdx X.shape fun idx => X.get idx ^ 2) :
    ∃ N : ℕ, ∀ (budget : Int) (mi : Option Int) (loggers : List Logger) (file : Option H5File), 0 < mi.getD budget →
      Storing (CMTF.method E c) (CMTF.newObject none none budget loggers file) [] →
      ∃ w', CMTF.fit E c X Ys (ms.map fun m : ℕ => (m : Int)) mi arg (CMTF.newObject none none budget loggers file) = .ok () w' ∧
        w'.it ≤ N ∧ ((N : Int) < mi.getD budget → ∃ sk, CMTF.normalizeComponents sk = .ok w'.st ∧
          CMTF.shouldStop c.cp.opts sk = .ok true) := by
  obtain ⟨u, s0, -, h⟩ := C91_cmtf_bound_partial hE hN hQ hA hr hC hd hlog hfreq hi ht hone hrel hX
  have hq : max 0 (1 - c.cp.opts.convergenceTol) < 1 := max_lt one_pos (by linarith)
  have hlim := (tendsto_pow_atTop_nhds_zero_of_lt_one (le_max_left 0 (1 - c.cp.opts.convergenceTol)) hq).mul_const
    (s0.trueLoss c.cp.opts.rank ms)
  rw [zero_mul] at hlim
  obtain ⟨N, hb⟩ := (hlim.eventually_lt_const (mul_pos hrel hX)).exists
  refine ⟨N + 1, fun budget mi loggers file h1 h2 => ?_⟩
  obtain ⟨w', e, a, b⟩ := h N hb budget mi loggers file h1 h2
  exact ⟨w', e, by exact_mod_cast a, fun hlt => b (by exact_mod_cast hlt)⟩

/-- The hypotheses hold for a `1 × 1` tensor with a coupled `1 × 2` matrix, rank one and a start of ones. -/
example {E : Ext} (hE : E.SVDOk) (hN : E.NNLSOk) (hQ : E.QROk) :
    ∃ N : ℕ, ∀ mi : Option Int, 0 < mi.getD 1000 →
      ∃ w', CMTF.fit E ⟨⟨⟨1, 1e-8, 1e-8, none⟩, "precomputed", none, false, [], fun _ _ _ _ => 0, id, fun _ => none⟩,
          [("SSE".toList, CMTF.sse)], fun _ _ _ => 1, fun _ _ _ => 1⟩ (full [1, 1] 2) [full [1, 2] 5] [0] mi
          (.tensor ⟨1, [full [1, 1] 1, full [1, 1] 1], full [1] 1⟩) (CMTF.newObject none none 1000 [{}] none) = .ok () w' ∧
        w'.it ≤ N := by
  have ht : (⟨1, [full [1, 1] 1, full [1, 1] 1], full [1] 1⟩ : KruskalTensor).WF [1, 1] 1 := ⟨rfl, .cons rfl (.cons rfl .nil), rfl⟩
  have hg : (full [1, 1] (1 : ℝ)).get [0, 0] = 1 := get_full (by simp [Valid])
  have hA : CP.Admissible (⟨1, 1e-8, 1e-8, none⟩ : CPOpts) none none (full [1, 1] (2 : ℝ)).shape :=
    ⟨by norm_num, by simp, by simp, by simp, by simp, by simp, by simp, by simp⟩
  obtain ⟨N, h⟩ := C91_cmtf_stops_partial hE hN hQ (c := ⟨⟨⟨1, 1e-8, 1e-8, none⟩, "precomputed", none, false, [], fun _ _ _ _ => 0, id,
      fun _ => none⟩, [("SSE".toList, CMTF.sse)], fun _ _ _ => 1, fun _ _ _ => 1⟩) (X := full [1, 1] 2) hA rfl (Ys := [full [1, 2] 5])
    (ms := [0]) (qs := [2]) ⟨.cons (isMode_nat (by norm_num)) .nil, rfl, by simp⟩ (by simp)
    (fun p hp s hs => by
      simp only [List.mem_singleton] at hp
      subst hp
      exact cmtf_measurable_sse s hs) (by decide)
    (arg := .tensor ⟨1, [full [1, 1] 1, full [1, 1] 1], full [1] 1⟩) (t := ⟨1, [full [1, 1] 1, full [1, 1] 1], full [1] 1⟩)
    (startsFrom_precomputed (by
      show "precomputed".toLower = _
      rw [String.toLower, ← String.toList_inj, String.toList_map]; decide) ht) ht
    (by
      intro r hr
      obtain rfl : r = 0 := by simpa using hr
      simp [modeProd, colLen, hg]) (by norm_num) (by norm_num)
    (by
      show 0 < sumIdx [1, 1] _
      rw [sumIdx_two]
      have h2 : (full [1, 1] (2 : ℝ)).get [0, 0] = 2 := get_full (by simp [Valid])
      simp [h2])
  refine ⟨N, fun mi hmi => ?_⟩
  obtain ⟨w', e, h1, -⟩ := h 1000 mi [{}] none hmi
    ⟨fun h => absurd h (by show ¬ (0 : Int) < -1; decide), fun h => absurd h (by show ¬ (0 : Int) < -1; decide),
      fun h => absurd h (by show ¬ (0 : Int) < -1; decide)⟩
  exact ⟨w', e, h1⟩

end
end TK
