import Verif.Lemmas.P2Descent
import Verif.Props.Stationary
import Verif.Props.StoppingMore

/-!
# Limits of PARAFAC2 fits (C139)
-/

namespace TK
open NDArray Matrix Filter Topology

noncomputable section

/-! ## From the code to steps -/

/-- `n` CP updates of an unconstrained problem are `n` sweeps. -/
theorem iterM_sweeps {E : Ext} (hE : E.SVDOk) {o : CPOpts} (hridge : o.ridgePenalties = none) (n : ℕ) {s f : CPState}
    (h : s.Sized o.rank) (hw : ∀ r < o.rank, s.dec.weights.get [r] = 1) (hU : s.Unconstrained)
    (e : iterM (CP.updateFactors E o) n s = .ok f) :
    ∃ G : ℕ → ℕ → List (NDArray ℝ), G 0 0 = s.dec.factorMatrices ∧ G n 0 = f.dec.factorMatrices ∧
      ∀ i < n, Sweep s.X o.rank (G i) ∧ G i s.X.shape.length = G (i + 1) 0 := by
  induction n generalizing s with
  | zero =>
    obtain rfl : s = f := Except.ok.inj e
    exact ⟨fun _ _ => s.dec.factorMatrices, rfl, rfl, fun i hi => absurd hi (by omega)⟩
  | succ n ih =>
    obtain ⟨h1, h2⟩ := partial_sweep hE hridge h hw hU
    obtain ⟨e1, hs1, p1⟩ := h1 _ le_rfl
    rw [iterM, CP.updateFactors, e1, bind_ok] at e
    have hU1 : (CP.partial E o s s.X.shape.length).Unconstrained :=
      ⟨by rw [p1.nonNeg, p1.X]; exact hU.nonNeg, by rw [p1.orth, p1.X]; exact hU.orth⟩
    obtain ⟨G, g0, gn, hG⟩ := ih hs1 (by rw [p1.weights]; exact hw) hU1 e
    refine ⟨fun i => match i with
      | 0 => fun m => (CP.partial E o s m).dec.factorMatrices
      | i + 1 => G i, rfl, gn, fun i hi => ?_⟩
    cases i with
    | zero => exact ⟨h2, g0.symm⟩
    | succ i =>
      have := hG i (by omega)
      rw [p1.X] at this
      exact this

variable {s : P2State} {I : ℕ} {Js : List ℕ}

/-- The factor matrices of a state. -/
def P2State.facs (s : P2State) : List (NDArray ℝ) := [s.A, s.D, s.C]

/-- An iteration without constraints and penalties that treats no singular value as zero is a step. -/
theorem p2_iteration_step {E : Ext} (hE : E.SVDOk) (hN : E.NNLSOk) {o : P2Opts} (hridge : o.ridgePenalties = none)
    {c : CPObj} (h : s.Working o I Js c) (hnd : s.dec.P.Nodup) (hsh : s.Shares c) (hfree : P2State.Free c)
    (hJ : ∀ J ∈ Js, o.rank ≤ J) (hk : ∀ k < Js.length, s.KeepsAll E I Js o.rank k) {s' : P2State}
    (es : P2.iteration E o s = .ok s') : P2Step s.X I Js o.rank o.cpUpdates s.facs s'.P s'.facs := by
  obtain ⟨s'', c', f, e, hw, ha, hn, hn', hd, hX, -, -, -, -, hnew, ⟨ef, hf⟩, -⟩ := P2State.iteration_ok hE hN h
  rw [es] at e
  obtain rfl : s' = s'' := Except.ok.inj e
  have hnew' : ∀ k < Js.length, P2State.NewP E s I Js o.rank k (nth s'.P k) := by
    intro k hk'
    obtain ⟨k', hl, hn⟩ := hnew k hk'
    obtain rfl := hl.eq_of_nodup hnd h.sized.lenP hk'
    exact hn
  have horth : OrthoAll s'.P Js o.rank := by
    intro k hk'
    have hRJ : o.rank ≤ Js.getD k 0 := by rw [getD_eq_getElem' _ hk']; exact hJ _ (List.getElem_mem hk')
    exact (newP_orthonormal_iff hE h.sized hk' (hnew' k hk') hRJ).2 (hk _ hk')
  refine ⟨horth, fun Q hQ => ?_, ?_⟩
  · show p2Err s.X s'.P s.A s.D s.C I Js o.rank ≤ p2Err s.X Q s.A s.D s.C I Js o.rank
    rw [P2State.p2Err_eq, P2State.p2Err_eq]
    refine Finset.sum_le_sum fun k hk' => ?_
    have hk' := Finset.mem_range.1 hk'
    have hY := orthoCols_iff.1 (hQ k hk')
    have hY' : ((mat (nth Q k) (Js.getD k 0) o.rank)ᵀ) * ((mat (nth Q k) (Js.getD k 0) o.rank)ᵀ)ᵀ = 1 := by
      rw [transpose_transpose]; exact hY
    have b1 := newP_bound hE h.sized hk' (hnew' k hk') (LA.contr_of_orth hY')
    rw [LA.pot_eq_of_orth hY', droppedAt_of_keepsAll (hk k hk'), mul_zero, add_zero] at b1
    have b2 := (newP_contr hE h.sized hk' (hnew' k hk')).le_pot (s.Xm I Js k) (s.Mm I o.rank k)
    exact b2.trans b1
  · have hU : ((c.setTarget (p2Projected s.X s'.P I Js o.rank)).read s.heap).Unconstrained := by
      obtain ⟨l1, a1, b1⟩ := hfree.nonNeg
      obtain ⟨l2, a2, b2⟩ := hfree.orth
      exact ⟨⟨l1, a1, b1⟩, ⟨l2, a2, b2⟩⟩
    obtain ⟨G, g0, gn, hG⟩ := iterM_sweeps hE (o := P2.innerOpts o) hridge o.cpUpdates (h.ready.sized h.sized s'.P)
      h.ready.wone hU ef
    refine ⟨G, ?_, ?_, hG⟩
    · rw [g0]
      show c.addrs.map s.heap.mem = _
      rw [hsh]; rfl
    · rw [gn, ← hf, ha, hsh]
      unfold P2State.facs P2State.A P2State.D P2State.C
      rw [hd]; rfl

/-- The iterations of a fit are steps. -/
theorem p2_orbit_steps {E : Ext} (hE : E.SVDOk) (hN : E.NNLSOk) {o : P2Opts} (hridge : o.ridgePenalties = none)
    {c : CPObj} (h : s.Working o I Js c) (hnd : s.dec.P.Nodup) (hsh : s.Shares c) (hfree : P2State.Free c)
    (hJ : ∀ J ∈ Js, o.rank ≤ J) (hk : ∀ j, ∀ k < Js.length, (P2.orbit E o s j).KeepsAll E I Js o.rank k) (j : ℕ) :
    P2Step s.X I Js o.rank o.cpUpdates (P2.orbit E o s j).facs (P2.orbit E o s (j + 1)).P (P2.orbit E o s (j + 1)).facs := by
  obtain ⟨c', h1, h2, h3, h4, h5, h6, -⟩ := p2_orbit_working hE hN h j
  have := p2_iteration_step hE hN hridge h1 (by rw [h5]; exact hnd) (by unfold P2State.Shares; rw [h2, h5]; exact hsh)
    (hfree.of_eq h3 h4) hJ (hk j) (p2_orbit_step hE hN h j)
  rwa [h6] at this

theorem p2_free_admissible {o : P2Opts} (h : s.Sized I Js o.rank) (hnn : o.nonNeg = none) (hon : o.orth = none)
    (hridge : o.ridgePenalties = none) : P2.Admissible o I Js.length := by
  have h1 := h.posI
  have h2 := h.posR
  have h3 := h.posK
  have hnf : P2.nonNegOption o = [false, false, false] := by rw [P2.nonNegOption, hnn]; rfl
  refine ⟨h2, by simp, ?_, by simp [hnf], by simp [hon], by simp [P2.innerOpts, hridge], by simp [hon], by simp [hon]⟩
  intro n hn
  simp only [List.mem_cons, List.not_mem_nil, or_false] at hn
  rcases hn with rfl | rfl | rfl <;> omega

/-- The start of the iterations of a fit without constraints and penalties. -/
theorem p2_fit_start {E : Ext} (hQ : E.QROk) {c : P2.Config} (h : s.Sized I Js c.opts.rank) (hs : s.Separate)
    (hal : s.Allocated) (hnn : c.opts.nonNeg = none) (hon : c.opts.orth = none) (hridge : c.opts.ridgePenalties = none) {l : ℝ}
    {sp : P2State} (ep : P2.prepareCp E c.opts (s.withLoss .pinf l) = .ok sp) :
    P2.Admissible c.opts I Js.length ∧ ∃ ci, sp.Working c.opts I Js ci ∧ sp.dec = s.dec ∧ sp.heap = s.heap ∧ sp.X = s.X ∧
      sp.Shares ci ∧ P2State.Free ci := by
  have hnf : P2.nonNegOption c.opts = [false, false, false] := by rw [P2.nonNegOption, hnn]; rfl
  have hof : P2State.orthFlags c.opts = [false, false, false] := by rw [P2State.orthFlags, hon]; rfl
  have hno : ∀ j : ℕ, ([false, false, false] : List Bool)[j]? ≠ some true := by
    intro j
    match j with
    | 0 => simp
    | 1 => simp
    | 2 => simp
    | _ + 3 => simp
  have hA := p2_free_admissible h hnn hon hridge
  obtain ⟨h', ci, ep', hw, -, -, hn1, ho1, -, -, hsh, -⟩ := P2State.prepareCp_ok (E := E) hQ (o := c.opts) (h.withLoss .pinf l)
    (hs.distinct.loss .pinf l) hA (fun _ => hal)
  rw [ep] at ep'
  obtain rfl : sp = (s.withLoss .pinf l).withInner h' ci := Except.ok.inj ep'
  rw [hof] at hsh ho1
  rw [hnf] at hn1
  obtain ⟨rfl, h3⟩ := hsh hno
  refine ⟨hA, ci, hw, rfl, rfl, rfl, h3, ⟨_, hn1, ?_⟩, ⟨_, ho1, ?_⟩⟩ <;>
  · intro m hm
    interval_cases m <;> simp

/-- Fits of `1, 2, …` iterations from the same start are the iterates of one orbit. -/
theorem p2_full_fits {E : Ext} (hE : E.SVDOk) (hN : E.NNLSOk) (hQ : E.QROk) {c : P2.Config} {D : P2Data}
    {arg : InitArg P2Obj} {h0 : Heap} (hi : P2.StartsFrom E c D arg h0 s) (h : s.Sized I Js c.opts.rank) (hs : s.Separate)
    (hal : s.Allocated) (hA : P2.Admissible c.opts I Js.length) (hlog : c.Measurable I Js) (hfreq : freqOption c.freq ≠ 0) {l : ℝ}
    {sp : P2State} (el : P2.loss c.opts s = .ok l) (ep : P2.prepareCp E c.opts (s.withLoss .pinf l) = .ok sp)
    {budget : Int} {loggers : List Logger} {file : Option H5File}
    (hS : Storing (P2.method E c) (P2.newObject h0 budget loggers file) []) {res : ℕ → World P2State}
    (hres : ∀ n : ℕ, P2.fit E c D (some (n + 1)) arg (P2.newObject h0 budget loggers file) = .ok () (res n))
    (hit : ∀ n : ℕ, (res n).it = n + 1) (n : ℕ) : (res n).st = P2.orbit E c.opts sp (n + 1) := by
  obtain ⟨l', sp', w', k, el', ep', -, hfit, -, hk, hst, -⟩ :=
    C80_fit_completes hE hN hQ hi h hs.distinct hal hA hlog hfreq (mi := some ((n : Int) + 1)) hS
  rw [el] at el'
  obtain rfl : l = l' := Except.ok.inj el'
  rw [ep] at ep'
  obtain rfl : sp = sp' := Except.ok.inj ep'
  obtain rfl : res n = w' := by
    have := hres n
    rw [hfit] at this
    injection this with _ h
    exact h.symm
  have : k = n + 1 := by
    have := hit n
    rw [hk] at this
    exact_mod_cast this
  rw [hst, this]

/-! ## C139 -/

/-- **C139.** Let `Parafac2_ALS` run without constraints and penalties, for `1, 2, 3, …` iterations from the same start, without
the stopping tests ending a fit earlier and without an update treating a singular value as zero. If the entries of all matrices
converge, the projection matrices of the limit have orthonormal columns, and neither other projection matrices with orthonormal
columns nor another `A` nor another `C` lower the error of the limit. With `cp_updates = 1` (or with `C139_accumulation_partial`)
this also holds for the blueprint matrix, and the derivative of the error in all joint directions of the factor matrices vanishes.
Missing: fits in which singular values are treated as zero, after which the projection matrices are not orthonormal
(`C53`, `C52`). -/
theorem C139_limit_partial {E : Ext} (hE : E.SVDOk) (hN : E.NNLSOk) (hQ : E.QROk) {c : P2.Config} {D : P2Data}
    {arg : InitArg P2Obj} {h0 : Heap} (hi : P2.StartsFrom E c D arg h0 s) (h : s.Sized I Js c.opts.rank) (hs : s.Separate)
    (hal : s.Allocated) (hJ : ∀ J ∈ Js, c.opts.rank ≤ J) (hcp : 0 < c.opts.cpUpdates)
    (hnn : c.opts.nonNeg = none) (hon : c.opts.orth = none) (hridge : c.opts.ridgePenalties = none)
    (hlog : c.Measurable I Js) (hfreq : freqOption c.freq ≠ 0) {l : ℝ} {sp : P2State} (el : P2.loss c.opts s = .ok l)
    (ep : P2.prepareCp E c.opts (s.withLoss .pinf l) = .ok sp)
    (hk : ∀ j, ∀ k < Js.length, (P2.orbit E c.opts sp j).KeepsAll E I Js c.opts.rank k)
    {budget : Int} {loggers : List Logger} {file : Option H5File}
    (hS : Storing (P2.method E c) (P2.newObject h0 budget loggers file) []) {res : ℕ → World P2State}
    (hres : ∀ n : ℕ, P2.fit E c D (some (n + 1)) arg (P2.newObject h0 budget loggers file) = .ok () (res n))
    (hit : ∀ n : ℕ, (res n).it = n + 1) {P : List (NDArray ℝ)} {A B C : NDArray ℝ}
    (hP : FactorsTendTo atTop (fun n => (res n).st.P) P Js c.opts.rank)
    (hF : FactorsTendTo atTop (fun n => [(res n).st.A, (res n).st.D, (res n).st.C]) [A, B, C] [I, c.opts.rank, Js.length] c.opts.rank) :
    P2Optimal s.X P A B C I Js c.opts.rank ∧
      (c.opts.cpUpdates = 1 → P2OptimalD s.X P A B C I Js c.opts.rank ∧ P2Stationary s.X P A B C I Js c.opts.rank) := by
  obtain ⟨hA, ci, hw, hd, -, hX, hsh, hfree⟩ := p2_fit_start hQ h hs hal hnn hon hridge ep
  have hst := p2_full_fits hE hN hQ hi h hs hal hA hlog hfreq el ep hS hres hit
  simp only [hst] at hP hF
  have hsteps := p2_orbit_steps hE hN hridge hw (by rw [hd]; exact hs.nodup) hsh hfree hJ hk
  rw [hX] at hsteps
  obtain ⟨h1, h2⟩ := p2Optimal_of_tendsto (Ps := fun j => (P2.orbit E c.opts sp (j + 1)).P)
    (Fs := fun j => (P2.orbit E c.opts sp (j + 1)).facs) (fs := [A, B, C]) hcp (fun j => hsteps (j + 1)) rfl hP hF
  exact ⟨h1, fun e => ⟨h2 e, P2Optimal.stationary h1 (h2 e)⟩⟩

/-- **C139** for accumulation points: for the limit of a subsequence, if for each factor matrix the rank-one terms formed by the
two others are linearly independent in the limit. -/
theorem C139_accumulation_partial {E : Ext} (hE : E.SVDOk) (hN : E.NNLSOk) (hQ : E.QROk) {c : P2.Config} {D : P2Data}
    {arg : InitArg P2Obj} {h0 : Heap} (hi : P2.StartsFrom E c D arg h0 s) (h : s.Sized I Js c.opts.rank) (hs : s.Separate)
    (hal : s.Allocated) (hJ : ∀ J ∈ Js, c.opts.rank ≤ J) (hcp : 0 < c.opts.cpUpdates)
    (hnn : c.opts.nonNeg = none) (hon : c.opts.orth = none) (hridge : c.opts.ridgePenalties = none)
    (hlog : c.Measurable I Js) (hfreq : freqOption c.freq ≠ 0) {l : ℝ} {sp : P2State} (el : P2.loss c.opts s = .ok l)
    (ep : P2.prepareCp E c.opts (s.withLoss .pinf l) = .ok sp)
    (hk : ∀ j, ∀ k < Js.length, (P2.orbit E c.opts sp j).KeepsAll E I Js c.opts.rank k)
    {budget : Int} {loggers : List Logger} {file : Option H5File}
    (hS : Storing (P2.method E c) (P2.newObject h0 budget loggers file) []) {res : ℕ → World P2State}
    (hres : ∀ n : ℕ, P2.fit E c D (some (n + 1)) arg (P2.newObject h0 budget loggers file) = .ok () (res n))
    (hit : ∀ n : ℕ, (res n).it = n + 1) {P : List (NDArray ℝ)} {A B C : NDArray ℝ} {φ : ℕ → ℕ} (hφ : StrictMono φ)
    (hP : FactorsTendTo atTop (fun n => (res (φ n)).st.P) P Js c.opts.rank)
    (hF : FactorsTendTo atTop (fun n => [(res (φ n)).st.A, (res (φ n)).st.D, (res (φ n)).st.C]) [A, B, C]
      [I, c.opts.rank, Js.length] c.opts.rank) (hI : Independent [I, c.opts.rank, Js.length] [A, B, C] c.opts.rank) :
    P2Optimal s.X P A B C I Js c.opts.rank ∧ P2OptimalD s.X P A B C I Js c.opts.rank ∧
      P2Stationary s.X P A B C I Js c.opts.rank := by
  obtain ⟨hA, ci, hw, hd, -, hX, hsh, hfree⟩ := p2_fit_start hQ h hs hal hnn hon hridge ep
  have hst := p2_full_fits hE hN hQ hi h hs hal hA hlog hfreq el ep hS hres hit
  simp only [hst] at hP hF
  have hsteps := p2_orbit_steps hE hN hridge hw (by rw [hd]; exact hs.nodup) hsh hfree hJ hk
  rw [hX] at hsteps
  obtain ⟨h1, h2⟩ := p2Optimal_of_cluster (Ps := fun j => (P2.orbit E c.opts sp (j + 1)).P)
    (Fs := fun j => (P2.orbit E c.opts sp (j + 1)).facs) (fs := [A, B, C]) hcp (fun j => hsteps (j + 1)) rfl hφ hP hF hI
  exact ⟨h1, h2, P2Optimal.stationary h1 h2⟩

/-! ## An example -/

/-- The `2 × 2` identity matrix. -/
def p2Eye : NDArray ℝ := ofMat 2 2 fun i j => if i = j then 1 else 0

/-- The error of a rank-one model of the `2 × 2` identity matrix. -/
theorem p2Eye_loss (P fs : List (NDArray ℝ)) : p2Loss [p2Eye] P fs 2 [2] 1 =
    (1 - (modeMat fs 0).get [0, 0] * (modeMat fs 2).get [0, 0] * ((nth P 0).get [0, 0] * (modeMat fs 1).get [0, 0])) ^ 2
    + ((modeMat fs 0).get [0, 0] * (modeMat fs 2).get [0, 0] * ((nth P 0).get [1, 0] * (modeMat fs 1).get [0, 0])) ^ 2
    + (((modeMat fs 0).get [1, 0] * (modeMat fs 2).get [0, 0] * ((nth P 0).get [0, 0] * (modeMat fs 1).get [0, 0])) ^ 2
    + (1 - (modeMat fs 0).get [1, 0] * (modeMat fs 2).get [0, 0] * ((nth P 0).get [1, 0] * (modeMat fs 1).get [0, 0])) ^ 2) := by
  have e : ∀ i < 2, ∀ j < 2, (nth [p2Eye] 0).get [i, j] = if i = j then 1 else 0 := fun i hi j hj => by
    show p2Eye.get [i, j] = _
    rw [p2Eye, get_ofMat hi hj]
  unfold p2Loss p2Err p2Entry
  show ∑ k ∈ Finset.range 1, ∑ i ∈ Finset.range 2, ∑ j ∈ Finset.range ([2].getD k 0), _ = _
  rw [Finset.sum_range_one]
  show ∑ i ∈ Finset.range 2, ∑ j ∈ Finset.range 2, _ = _
  simp only [Finset.sum_range_succ, Finset.sum_range_zero, zero_add]
  rw [e 0 (by norm_num) 0 (by norm_num), e 0 (by norm_num) 1 (by norm_num), e 1 (by norm_num) 0 (by norm_num),
    e 1 (by norm_num) 1 (by norm_num)]
  norm_num

/-- The model `A = (1, 0)`, `D = C = 1`. -/
def EyeFacs (fs : List (NDArray ℝ)) : Prop :=
  (modeMat fs 0).get [0, 0] = 1 ∧ (modeMat fs 0).get [1, 0] = 0 ∧ (modeMat fs 1).get [0, 0] = 1 ∧ (modeMat fs 2).get [0, 0] = 1

theorem eye_sweep {P : List (NDArray ℝ)} (ho : OrthoAll P [2] 1) (hP : (nth P 0).get [0, 0] = 1 ∧ (nth P 0).get [1, 0] = 0)
    {g : ℕ → List (NDArray ℝ)} (h : Sweep (p2Projected [p2Eye] P 2 [2] 1) 1 g) (h0 : EyeFacs (g 0)) : EyeFacs (g 3) := by
  have key : ∀ m < 3, EyeFacs (g m) → EyeFacs (g (m + 1)) := by
    intro m hm hg
    have h1 := h.p2_anti ho hm
    obtain ⟨F, eF, -⟩ := h.step m hm
    have hl : (g m).length = 3 := h.len m (show m ≤ 3 by omega)
    rw [p2Eye_loss, p2Eye_loss, hP.1, hP.2] at h1
    unfold EyeFacs at hg ⊢
    obtain ⟨a0, a1, a2, a3⟩ := hg
    rw [eF] at h1 ⊢
    interval_cases m
    · rw [modeMat_set_self (by omega), modeMat_set_ne (by omega), modeMat_set_ne (by omega)] at h1 ⊢
      simp only [a0, a1, a2, a3] at h1 ⊢
      have u1 : (F.get [0, 0] - 1) ^ 2 ≤ 0 := by nlinarith [sq_nonneg (F.get [1, 0])]
      have u2 : (F.get [1, 0]) ^ 2 ≤ 0 := by nlinarith [sq_nonneg (F.get [0, 0] - 1)]
      refine ⟨?_, ?_, trivial, trivial⟩
      · linarith [pow_eq_zero_iff (two_ne_zero) |>.1 (le_antisymm u1 (sq_nonneg _))]
      · exact pow_eq_zero_iff two_ne_zero |>.1 (le_antisymm u2 (sq_nonneg _))
    · rw [modeMat_set_self (by omega), modeMat_set_ne (by omega), modeMat_set_ne (by omega)] at h1 ⊢
      simp only [a0, a1, a2, a3] at h1 ⊢
      have u1 : (F.get [0, 0] - 1) ^ 2 ≤ 0 := by nlinarith
      refine ⟨trivial, trivial, ?_, trivial⟩
      linarith [pow_eq_zero_iff (two_ne_zero) |>.1 (le_antisymm u1 (sq_nonneg _))]
    · rw [modeMat_set_self (by omega), modeMat_set_ne (by omega), modeMat_set_ne (by omega)] at h1 ⊢
      simp only [a0, a1, a2, a3] at h1 ⊢
      have u1 : (F.get [0, 0] - 1) ^ 2 ≤ 0 := by nlinarith
      refine ⟨trivial, trivial, trivial, ?_⟩
      linarith [pow_eq_zero_iff (two_ne_zero) |>.1 (le_antisymm u1 (sq_nonneg _))]
  exact key 2 (by omega) (key 1 (by omega) (key 0 (by omega) h0))

/-- A step leaves the model unchanged. -/
theorem eye_step {n : ℕ} {fs P' fs' : List (NDArray ℝ)} (h : P2Step [p2Eye] 2 [2] 1 n fs P' fs') (h0 : EyeFacs fs) :
    ((nth P' 0).get [0, 0] = 1 ∧ (nth P' 0).get [1, 0] = 0) ∧ EyeFacs fs' := by
  have hP : (nth P' 0).get [0, 0] = 1 ∧ (nth P' 0).get [1, 0] = 0 := by
    have e1 : ∀ i < 2, (ofMat 2 1 fun i _ => if i = 0 then (1 : ℝ) else 0).get [i, 0] = if i = 0 then 1 else 0 :=
      fun i hi => get_ofMat hi (by norm_num)
    have h1 := h.proj [ofMat 2 1 fun i _ => if i = 0 then 1 else 0] (by
      intro k hk a ha b hb
      obtain rfl : k = 0 := by simpa using hk
      obtain rfl : a = 0 := by omega
      obtain rfl : b = 0 := by omega
      show ∑ l ∈ Finset.range 2, (ofMat 2 1 fun i _ => if i = 0 then (1 : ℝ) else 0).get [l, 0]
        * (ofMat 2 1 fun i _ => if i = 0 then (1 : ℝ) else 0).get [l, 0] = _
      rw [Finset.sum_range_succ, Finset.sum_range_one, e1 0 (by norm_num), e1 1 (by norm_num)]
      norm_num)
    obtain ⟨a0, a1, a2, a3⟩ := h0
    rw [p2Eye_loss, p2Eye_loss, a0, a1, a2, a3] at h1
    have e2 : nth [ofMat 2 1 fun i _ => if i = 0 then (1 : ℝ) else 0] 0 = ofMat 2 1 fun i _ => if i = 0 then (1 : ℝ) else 0 := rfl
    rw [e2, e1 0 (by norm_num), e1 1 (by norm_num)] at h1
    norm_num at h1
    have u1 : ((nth P' 0).get [0, 0] - 1) ^ 2 ≤ 0 := by nlinarith [sq_nonneg ((nth P' 0).get [1, 0])]
    have u2 : ((nth P' 0).get [1, 0]) ^ 2 ≤ 0 := by nlinarith [sq_nonneg ((nth P' 0).get [0, 0] - 1)]
    exact ⟨by linarith [pow_eq_zero_iff (two_ne_zero) |>.1 (le_antisymm u1 (sq_nonneg _))],
      pow_eq_zero_iff two_ne_zero |>.1 (le_antisymm u2 (sq_nonneg _))⟩
  refine ⟨hP, ?_⟩
  obtain ⟨G, e0, en, hG⟩ := h.inner
  have : ∀ i ≤ n, EyeFacs (G i 0) := by
    intro i
    induction i with
    | zero => intro _; rw [e0]; exact h0
    | succ i ih =>
      intro hi
      rw [← (hG i hi).2]
      exact eye_sweep h.orth hP (hG i hi).1 (ih (by omega))
  rw [← en]
  exact this n le_rfl

/-- The hypotheses of `C139_limit_partial` and `C139_accumulation_partial` hold: the fits of rank one to the `2 × 2` identity
matrix from `A = (1, 0)`, `D = C = 1` and `P = (1, 0)` with `convergence_tol = 0` never stop, their matrices stay what they are,
and the conclusions hold for this model of error one. -/
example {E : Ext} (hE : E.SVDOk) (hN : E.NNLSOk) (hQ : E.QROk) {c : P2.Config} (hi : c.init.toLower = "precomputed") {n : ℕ}
    (hn : 0 < n) {g : List ℕ → ℝ} (ho : c.opts = ⟨1, 0, n, none, none, none, g⟩) (hlog : c.logs = []) (hfreq : c.freq = none)
    (budget : Int) {A D C P : NDArray ℝ} (hA : A = ofMat 2 1 fun i _ => if i = 0 then 1 else 0) (hD : D = ofMat 1 1 fun _ _ => 1)
    (hC : C = ofMat 1 1 fun _ _ => 1) (hP : P = ofMat 2 1 fun i _ => if i = 0 then 1 else 0) :
    P2Optimal [p2Eye] [P] A D C 2 [2] 1 ∧ P2OptimalD [p2Eye] [P] A D C 2 [2] 1 ∧ P2Stationary [p2Eye] [P] A D C 2 [2] 1 := by
  have hr : c.opts.rank = 1 := by rw [ho]
  set h0 : Heap := ⟨fun a => if a = 0 then A else if a = 1 then D else if a = 2 then C else P, 4⟩ with hh0
  set d : P2Obj := ⟨1, 0, 1, 2, [3], true, true, [(2, 2)], 3⟩ with hd
  obtain ⟨s, h1, h2, h3, h4, h5⟩ := p2_startsFrom_precomputed (E := E) (c := c) hi (I := 2) (Js := [2]) (Xs := [p2Eye]) (by norm_num)
    (.cons rfl .nil) (by simp) (by omega) (by simp) (h0 := h0) (d := d) (by rw [hr]; show A.shape = _; rw [hA]; rfl)
    (by rw [hr]; show D.shape = _; rw [hD]; rfl) (by rw [hr]; show C.shape = _; rw [hC]; rfl)
    (by rw [hr]; exact .cons (by show P.shape = _; rw [hP]; rfl) .nil)
  have hsep : s.Separate := by rw [P2State.Separate, h3]; simp [hd]
  have hal : s.Allocated := by rw [P2State.Allocated, h3, h4]; simp [hd, hh0]
  have eA : ∀ i < 2, A.get [i, 0] = if i = 0 then 1 else 0 := fun i hi => by rw [hA]; exact get_ofMat hi (by norm_num)
  have eP : ∀ i < 2, P.get [i, 0] = if i = 0 then 1 else 0 := fun i hi => by rw [hP]; exact get_ofMat hi (by norm_num)
  have eD : D.get [0, 0] = 1 := by rw [hD]; exact get_ofMat (by norm_num) (by norm_num)
  have eC : C.get [0, 0] = 1 := by rw [hC]; exact get_ofMat (by norm_num) (by norm_num)
  have sA : s.A = A := by rw [P2State.A, h3, h4]; rfl
  have sD : s.D = D := by rw [P2State.D, h3, h4]; rfl
  have sC : s.C = C := by rw [P2State.C, h3, h4]; rfl
  have sP : s.P = [P] := by rw [P2State.P, h3, h4]; rfl
  have hort : s.Orthonormal [2] c.opts.rank := by
    rw [hr]
    intro k hk i hi j hj
    obtain rfl : k = 0 := by simpa using hk
    obtain rfl : i = 0 := by omega
    obtain rfl : j = 0 := by omega
    rw [sP]
    show ∑ l ∈ Finset.range 2, P.get [l, 0] * P.get [l, 0] = _
    rw [Finset.sum_range_succ, Finset.sum_range_one, eP 0 (by norm_num), eP 1 (by norm_num)]
    norm_num
  have hfac : EyeFacs s.facs := by
    unfold P2State.facs
    rw [sA, sD, sC]
    exact ⟨eA 0 (by norm_num), eA 1 (by norm_num), eD, eC⟩
  have herr : s.err 2 [2] 1 = 1 := by
    have : s.err 2 [2] 1 = p2Loss [p2Eye] [P] [A, D, C] 2 [2] 1 := by rw [P2State.err, h5, sA, sD, sC, sP]; rfl
    rw [this, p2Eye_loss]
    show (1 - A.get [0, 0] * C.get [0, 0] * (P.get [0, 0] * D.get [0, 0])) ^ 2
      + (A.get [0, 0] * C.get [0, 0] * (P.get [1, 0] * D.get [0, 0])) ^ 2
      + ((A.get [1, 0] * C.get [0, 0] * (P.get [0, 0] * D.get [0, 0])) ^ 2
      + (1 - A.get [1, 0] * C.get [0, 0] * (P.get [1, 0] * D.get [0, 0])) ^ 2) = 1
    rw [eA 0 (by norm_num), eA 1 (by norm_num), eP 0 (by norm_num), eP 1 (by norm_num), eD, eC]
    norm_num
  have hfsq : LA.fsq (s.Xm 2 [2] 0) = 2 := by
    unfold P2State.Xm
    rw [h5]
    show LA.fsq (mat p2Eye 2 2) = 2
    have e : ∀ i j : Fin 2, mat p2Eye 2 2 i j = if i = j then 1 else 0 := by
      intro i j
      show p2Eye.get [(i : ℕ), (j : ℕ)] = _
      rw [p2Eye, get_ofMat i.2 j.2]
      simp only [Fin.val_inj]
    simp only [LA.fsq, Fin.sum_univ_two, e]
    norm_num
  have hnn : c.opts.nonNeg = none := by rw [ho]
  have hon : c.opts.orth = none := by rw [ho]
  have hridge : c.opts.ridgePenalties = none := by rw [ho]
  have htol : c.opts.convergenceTol = 0 := by rw [ho]
  have hcp : 0 < c.opts.cpUpdates := by rw [ho]; exact hn
  have hadm := p2_free_admissible h2 hnn hon hridge
  have hlog' : c.Measurable 2 [2] := by intro p hp; rw [hlog] at hp; cases hp
  have hfreq' : freqOption c.freq ≠ 0 := by rw [hfreq]; decide
  have hstop : ∀ t, P2.shouldStop c.opts t = .ok false := by
    intro t
    rw [P2.shouldStop, htol]
    congr 1
    cases t.relChange <;> simp [FV.absLt]
  obtain ⟨l, el, -⟩ := h2.loss (o := c.opts)
  obtain ⟨h', ci, ep, -⟩ := P2State.prepareCp_ok (E := E) hQ (o := c.opts) (h2.withLoss .pinf l) (hsep.distinct.loss .pinf l) hadm
    (fun _ => hal)
  generalize (s.withLoss .pinf l).withInner h' ci = sp at ep
  obtain ⟨-, ci, hw, hd', hh, hX, hsh, hfree⟩ := p2_fit_start hQ h2 hsep hal hnn hon hridge ep
  have pfac : EyeFacs sp.facs := by
    have : sp.facs = s.facs := by unfold P2State.facs P2State.A P2State.D P2State.C; rw [hd', hh]
    rw [this]; exact hfac
  have pP : sp.P = s.P := by unfold P2State.P; rw [hd', hh]
  have port : sp.Orthonormal [2] c.opts.rank := by
    unfold P2State.Orthonormal; rw [pP]; exact hort
  have perr : sp.err 2 [2] 1 < LA.fsq (sp.Xm 2 [2] 0) := by
    have e1 : sp.err 2 [2] 1 = s.err 2 [2] 1 := by
      unfold P2State.err P2State.A P2State.D P2State.C; rw [pP, hX, hd', hh]
    have e2 : sp.Xm 2 [2] 0 = s.Xm 2 [2] 0 := by unfold P2State.Xm; rw [hX]
    rw [e1, e2, herr, hfsq]; norm_num
  have hk := p2_orbit_keepsAll hE hN hridge hw hsh hfree port hr (by norm_num) perr
  have hJ : ∀ J ∈ [2], c.opts.rank ≤ J := by rw [hr]; simp
  have hsteps := p2_orbit_steps hE hN hridge hw (by rw [hd']; exact hsep.nodup) hsh hfree hJ hk
  rw [hX, h5, hr] at hsteps
  have hinv : ∀ j, EyeFacs (P2.orbit E c.opts sp j).facs := by
    intro j
    induction j with
    | zero => exact pfac
    | succ j ih => exact (eye_step (hsteps j) ih).2
  have hinvP := fun j => (eye_step (hsteps j) (hinv j)).1
  have hex : ∀ n : ℕ, ∃ w', P2.fit E c (.list [p2Eye]) (some (n + 1)) (.tensor d) (P2.newObject h0 budget [] none) = .ok () w' ∧
      w'.it = n + 1 := by
    intro n
    obtain ⟨-, -, w', k, -, -, -, hfit, hkb, hit, -, -, hst, -⟩ :=
      C80_fit_completes hE hN hQ h1 h2 hsep.distinct hal hadm hlog' hfreq' (mi := some ((n : Int) + 1)) (budget := budget)
        (loggers := []) (file := none) (p2_storing_none hfreq _ _)
    refine ⟨w', hfit, ?_⟩
    rw [hit]
    by_contra hne
    simp only [Option.getD_some] at hkb hst
    have := hst (by omega)
    rw [hstop] at this
    cases this
  choose res hres hit using hex
  have hst := p2_full_fits hE hN hQ h1 h2 hsep hal hadm hlog' hfreq' el ep (p2_storing_none hfreq _ _) hres hit
  have limP : FactorsTendTo atTop (fun n => (res n).st.P) [P] [2] c.opts.rank := by
    rw [hr]
    intro m hm i hi r hr'
    obtain rfl : m = 0 := by simpa using hm
    obtain rfl : r = 0 := by omega
    refine tendsto_const_nhds.congr fun j => ?_
    simp only [hst]
    have hi : i < 2 := hi
    have := hinvP j
    show P.get [i, 0] = (nth (P2.orbit E c.opts sp (j + 1)).P 0).get [i, 0]
    rw [eP i hi]
    interval_cases i
    · rw [this.1]; rfl
    · rw [this.2]; rfl
  have limF : FactorsTendTo atTop (fun n => [(res n).st.A, (res n).st.D, (res n).st.C]) [A, D, C] [2, c.opts.rank, [2].length]
      c.opts.rank := by
    rw [hr]
    intro m hm i hi r hr'
    have hm : m < 3 := hm
    obtain rfl : r = 0 := by omega
    refine tendsto_const_nhds.congr fun j => ?_
    simp only [hst]
    obtain ⟨a0, a1, a2, a3⟩ := hinv (j + 1)
    interval_cases m
    · have hi : i < 2 := hi
      show A.get [i, 0] = (modeMat (P2.orbit E c.opts sp (j + 1)).facs 0).get [i, 0]
      rw [eA i hi]
      interval_cases i
      · rw [a0]; rfl
      · rw [a1]; rfl
    · obtain rfl : i = 0 := by have : i < 1 := hi; omega
      show D.get [0, 0] = (modeMat (P2.orbit E c.opts sp (j + 1)).facs 1).get [0, 0]
      rw [a2, eD]
    · obtain rfl : i = 0 := by have : i < 1 := hi; omega
      show C.get [0, 0] = (modeMat (P2.orbit E c.opts sp (j + 1)).facs 2).get [0, 0]
      rw [a3, eC]
  have hind : Independent [2, c.opts.rank, [2].length] [A, D, C] c.opts.rank := by
    rw [hr]
    intro m hm v hv r hr'
    have hm : m < 3 := hm
    obtain rfl : r = 0 := by omega
    interval_cases m
    · have := hv [0, 0] (by simp)
      simpa [rankOne, eD, eC] using this
    · have := hv [0, 0] (by simp)
      simpa [rankOne, eA 0, eC] using this
    · have := hv [0, 0] (by simp)
      simpa [rankOne, eA 0, eD] using this
  have g1 := C139_limit_partial hE hN hQ h1 h2 hsep hal hJ hcp hnn hon hridge hlog' hfreq' el ep hk (p2_storing_none hfreq _ _)
    hres hit limP limF
  have g2 := C139_accumulation_partial hE hN hQ h1 h2 hsep hal hJ hcp hnn hon hridge hlog' hfreq' el ep hk
    (p2_storing_none hfreq _ _) hres hit strictMono_id limP limF hind
  rw [h5, hr] at g1 g2
  exact ⟨g1.1, g2.2⟩

end
end TK
