import Verif.Props.CMTFFit

/-!
# Whole fits of `CMTF_ALS`, part two: C56 (CMTF part), C58, C59, C82
-/

namespace TK
open NDArray
open EStateM (Result)
open Fit

noncomputable section

/-! ## C56 for `CMTF_ALS` -/

/-- C56. `fit_transform` of `CMTF_ALS` is `fit` with the same arguments; then the decomposition is returned together with the
pairs of coupled and uncoupled factor matrices. -/
theorem C56_cmtf_fit_transform (E : Ext) (c : CMTF.Config) (X : NDArray ℝ) (Ys : List (NDArray ℝ)) (modes : List Int)
    (mi : Option Int) (arg : InitArg KruskalTensor) (w : World CMTFState) :
    CMTF.fitTransform E c X Ys modes mi arg w =
      match CMTF.fit E c X Ys modes mi arg w with
      | .error e w' => .error e w'
      | .ok _ w' => match CMTF.coupledFactors w'.st with
        | .ok Us => .ok (w'.st.cp.dec, Us.zip w'.st.V) w'
        | .error e => .error e w' := by
  unfold CMTF.fitTransform
  cases h : CMTF.fit E c X Ys modes mi arg w with
  | error e w' => rw [bind_of_error h]
  | ok u w' =>
    rw [bind_of_ok h]
    refine (bind_of_ok (get_def w')).trans ?_
    rcases h2 : CMTF.coupledFactors w'.st with e | Us
    · refine (bind_of_error (lift_error rfl w')).trans ?_
      simp only [h2]
    · refine (bind_of_ok (lift_ok rfl w')).trans ?_
      simp only [h2]; rfl

/-! ## C58 -/

/-- **C58, what holds of a whole fit.** As in `C83_fit_completes`; when at least one iteration was performed, every matrix that is
the first one with its coupling mode had the best right factor before the final normalisation. Every other matrix has, whatever
its data are, the right factor drawn at the start, multiplied by the column norms of the factor matrix. -/
theorem C58_fit_partial {E : Ext} (hE : E.SVDOk) (hN : E.NNLSOk) (hQ : E.QROk) {c : CMTF.Config}
    {nonNeg orth : Option (List Bool)} {X : NDArray ℝ} (hA : CP.Admissible c.cp.opts nonNeg orth X.shape)
    (hnn : ∀ l, nonNeg = some l → l = List.replicate X.shape.length false)
    {Ys : List (NDArray ℝ)} {modes : List Int} {ms qs : List ℕ} (hC : CMTF.Coupled X.shape Ys modes ms qs)
    (hlog : c.Measurable ms qs) (hfreq : freqOption c.cp.freq ≠ 0) {arg : InitArg KruskalTensor} {t : KruskalTensor}
    (hi : CP.StartsFrom E c.cp nonNeg orth arg X t) (ht : t.WF X.shape c.cp.opts.rank)
    {budget : Int} {mi : Option Int} (hb : 0 < mi.getD budget) {loggers : List Logger} {file : Option H5File}
    (hS : Storing (CMTF.method E c) (CMTF.newObject nonNeg orth budget loggers file) []) :
    ∃ w' sk, CMTF.fit E c X Ys modes mi arg (CMTF.newObject nonNeg orth budget loggers file) = .ok () w' ∧
      CMTF.normalizeComponents sk = .ok w'.st ∧
      (0 < w'.it → ∀ i, FirstOf modes i → ∀ W : NDArray ℝ,
        matErr (Ys.getD i noArr) (sk.cp.dec.factorMatrices.getD (ms.getD i 0) noArr) (sk.V.getD i noArr) c.cp.opts.rank
          ≤ matErr (Ys.getD i noArr) (sk.cp.dec.factorMatrices.getD (ms.getD i 0) noArr) W c.cp.opts.rank) ∧
      ∀ i < ms.length, ¬ FirstOf modes i → w'.st.V.getD i noArr = scaledBy
        (drawnV (if flagOf nonNeg (ms.getD i 0) then c.drawU i else c.drawN i) (qs.getD i 0) c.cp.opts.rank)
        (sk.cp.dec.factorMatrices.getD (ms.getD i 0) noArr) (X.shape.getD (ms.getD i 0) 0) (qs.getD i 0) c.cp.opts.rank := by
  obtain ⟨u, s0, sk, w', k, h0, hfit, -, hit, hk, hnorm, -, -, hsk, -⟩ :=
    C83_fit_completes hE hN hQ hA hnn hC hlog hfreq hi ht hb hS
  obtain ⟨sk', hk', -, -, hsp, hfirst, hrest⟩ := C58_partial hE hN hA.rank k h0.sized (h0.cfg hA hnn)
  obtain rfl : sk' = sk := by rw [hk] at hk'; injection hk' with h; exact h.symm
  refine ⟨w', sk', hfit, hnorm, fun hpos i hi W => ?_, fun i hi hnf => ?_⟩
  · have := hfirst (by omega) i (by rw [h0.eqModes]; exact hi) W
    rwa [h0.eqYs] at this
  · obtain ⟨s', e', -, -, -, -, -, -, hV⟩ := cmtf_normalize_ok hsk 1e-15
    have hs' : s' = w'.st := by
      rw [hnorm] at e'
      injection e' with h
      exact h.symm
    rw [← hs', hV i hi, hrest i (by rw [h0.eqModes]; exact hnf), h0.V i hi, hsp.X, h0.eqX]

/-! ## C59 -/

theorem trueLoss_nonneg (s : CMTFState) (R : ℕ) (ms : List ℕ) : 0 ≤ s.trueLoss R ms :=
  add_nonneg (sumIdx_nonneg fun _ _ => sq_nonneg _) (Finset.sum_nonneg fun _ _ => matErr_nonneg _ _ _ _)

/-- The first iteration is performed if there is no tolerance on the loss. -/
theorem cmtf_first_iteration {o : CPOpts} {s : CMTFState} {R : ℕ} {ms qs : List ℕ} (h : s.Sized R ms qs)
    (hrel : s.cp.relChange = .pinf) (htol : o.relLossTol ≤ 0) : CMTF.shouldStop o s = .ok false := by
  rw [CMTF.shouldStop, cmtf_sse_ok h, bind_ok, hrel]
  refine congrArg Except.ok ?_
  have h0 := trueLoss_nonneg s R ms
  have : (FV.div (s.trueLoss R ms) (s.cp.XNorm ^ 2)).lt o.relLossTol = false := by
    unfold FV.div
    split
    · simp only [FV.lt, decide_eq_false_iff_not, not_lt]
      exact htol.trans (div_nonneg h0 (sq_nonneg _))
    · split
      · rfl
      · split
        · rename_i h; exact absurd h (not_lt.2 h0)
        · rfl
  rw [this]
  rfl

/-- **C59, refuted for whole fits**: with a non-negativity constraint on some mode, `fit` raises `AttributeError`, from every start
and for every data, as soon as one iteration is performed. -/
theorem C59_fit_raises {E : Ext} (hE : E.SVDOk) (hN : E.NNLSOk) (hQ : E.QROk) {c : CMTF.Config}
    {l : List Bool} {orth : Option (List Bool)} {X : NDArray ℝ} (hA : CP.Admissible c.cp.opts (some l) orth X.shape)
    {m : ℕ} (hm : l[m]? = some true)
    {Ys : List (NDArray ℝ)} {modes : List Int} {ms qs : List ℕ} (hC : CMTF.Coupled X.shape Ys modes ms qs)
    {arg : InitArg KruskalTensor} {t : KruskalTensor}
    (hi : CP.StartsFrom E c.cp (some l) orth arg X t) (ht : t.WF X.shape c.cp.opts.rank)
    (htol : c.cp.opts.relLossTol ≤ 0) {budget : Int} {mi : Option Int} (hb : 0 < mi.getD budget) (loggers : List Logger)
    (file : Option H5File) :
    ∃ w', CMTF.fit E c X Ys modes mi arg (CMTF.newObject (some l) orth budget loggers file) = .error .attributeError w' := by
  obtain ⟨u, s0, h0, hfit⟩ := cmtf_fit_unfold hQ hA hC hi ht
  have hl := hA.nonNegLen l rfl
  obtain ⟨-, e⟩ := C59_fails hE hN hA.rank h0.sized (l := l) h0.eqNonNeg (by rw [hl, h0.eqX])
    (fun k hk hkf => by
      rw [h0.eqX] at hk
      obtain ⟨on, ridge, hc, -⟩ := h0.conf hA k hk
      refine ⟨on, ridge, ?_⟩
      have : flagOf (some l) k = false := by simp [flagOf, List.getD, hkf]
      rwa [this] at hc) hm
  have hstop := cmtf_first_iteration (o := c.cp.opts) h0.sized h0.rel htol
  obtain ⟨n, hn⟩ : ∃ n, (mi.getD budget - 0).toNat = n + 1 := ⟨(mi.getD budget).toNat - 1, by omega⟩
  refine ⟨⟨s0, 0, mi.getD budget, loggers, file⟩, ?_⟩
  rw [hfit, run, bind_of_ok (modifySt_ok (f := (CMTF.method E c).prepare) (s := s0) rfl)]
  refine (bind_of_ok (get_def _)).trans ?_
  refine bind_of_error ?_
  show loop (CMTF.method E c) (mi.getD budget - 0).toNat 0 none _ = _
  rw [hn, loop]
  refine (bind_of_ok (get_def _)).trans ?_
  refine (bind_of_ok (lift_ok hstop _)).trans ?_
  simp only [Bool.false_eq_true, if_false]
  exact bind_of_error (modifySt_error e)

/-! ## C82 -/

theorem CMTF.Started.startWeights {c : CMTF.Config} {nonNeg : Option (List Bool)} {X : NDArray ℝ} {Ys : List (NDArray ℝ)}
    {modes : List Int} {ms qs : List ℕ} {t u : KruskalTensor} {s : CMTFState} (h : CMTF.Started c nonNeg none X Ys modes ms qs t u s)
    {r : ℕ} (hr : r < c.cp.opts.rank) :
    s.cp.dec.weights.get [r] = modeProd (fun F m => colLen F m r) t.factorMatrices X.shape := by
  obtain ⟨v, e, -, -, hw⟩ := normalizeComponents_ok h.wf true 1e-15
  have := h.normalised
  rw [e] at this
  injection this with this
  rw [← this, hw r hr, h.weights r hr, h.same rfl, if_pos rfl, one_mul]

/-- **C82, what holds.** Without constraints and penalties, with coupling modes given as `0, 1, …`, a whole fit does not increase
the objective of the updates (unit weights, only the first matrix of every mode) between the normalised start `s0` and the state
`sk` before the final normalisation. If every component of the start has norm product one and the modes are different, this is the
coupled SSE that the object reports. Missing: other starts (false, `C82_fit_gets_worse`). -/
theorem C82_partial {E : Ext} (hE : E.SVDOk) (hN : E.NNLSOk) (hQ : E.QROk) {c : CMTF.Config}
    {X : NDArray ℝ} (hA : CP.Admissible c.cp.opts none none X.shape) (hr : c.cp.opts.ridgePenalties = none)
    {Ys : List (NDArray ℝ)} {ms qs : List ℕ} (hC : CMTF.Coupled X.shape Ys (ms.map fun m : ℕ => (m : Int)) ms qs)
    (hlog : c.Measurable ms qs) (hfreq : freqOption c.cp.freq ≠ 0) {arg : InitArg KruskalTensor} {t : KruskalTensor}
    (hi : CP.StartsFrom E c.cp none none arg X t) (ht : t.WF X.shape c.cp.opts.rank)
    {budget : Int} {mi : Option Int} (hb : 0 < mi.getD budget) {loggers : List Logger} {file : Option H5File}
    (hS : Storing (CMTF.method E c) (CMTF.newObject none none budget loggers file) []) :
    ∃ u s0 sk w', CMTF.Started c none none X Ys (ms.map fun m : ℕ => (m : Int)) ms qs t u s0 ∧
      CMTF.fit E c X Ys (ms.map fun m : ℕ => (m : Int)) mi arg (CMTF.newObject none none budget loggers file) = .ok () w' ∧
      CMTF.normalizeComponents sk = .ok w'.st ∧
      sqErr X (fun _ => 1) sk.cp.dec.factorMatrices c.cp.opts.rank
          + firstErr sk.cp.dec.factorMatrices Ys sk.V ms c.cp.opts.rank
        ≤ sqErr X (fun _ => 1) s0.cp.dec.factorMatrices c.cp.opts.rank
          + firstErr s0.cp.dec.factorMatrices Ys s0.V ms c.cp.opts.rank ∧
      (ms.Nodup → (∀ r < c.cp.opts.rank, modeProd (fun F m => colLen F m r) t.factorMatrices X.shape = 1) →
        ∃ e0 e, CMTF.sse s0 = .ok e0 ∧ CMTF.sse sk = .ok e ∧ e ≤ e0) := by
  obtain ⟨u, s0, sk, w', k, h0, hfit, -, -, hk, hnorm, -, -, hsk, -⟩ :=
    C83_fit_completes hE hN hQ hA (by simp) hC hlog hfreq hi ht hb hS
  have hcfg := h0.cfg hA (by simp)
  have hfree := h0.free hA (by simp) hr rfl
  obtain ⟨-, -, hsp, -, -, hle⟩ := cmtf_orbit_good hE hN hA.rank h0.sized hcfg k
  have he := cmtf_orbit_iterate hE hN hA.rank k h0.sized hcfg
  rw [hk] at he
  injection he with he
  rw [← he] at hsp hle
  have hle := hle hfree
  refine ⟨u, s0, sk, w', h0, hfit, hnorm, ?_, fun hd hone => ?_⟩
  · unfold CMTFState.fitLoss at hle
    rwa [hsp.X, hsp.Ys, h0.eqX, h0.eqYs] at hle
  · have hw : ∀ r < c.cp.opts.rank, s0.cp.dec.weights.get [r] = 1 := fun r hr => by rw [h0.startWeights hr, hone r hr]
    refine ⟨_, _, cmtf_sse_ok h0.sized, cmtf_sse_ok hsk, ?_⟩
    rwa [fitLoss_eq_trueLoss hw hd, fitLoss_eq_trueLoss (by rw [hsp.weights]; exact hw) hd] at hle

/-- An iteration on a matrix without constraints: both factors are the best ones in turn. -/
theorem cmtf_iteration_free {E : Ext} (hE : E.SVDOk) {o : CPOpts} {ms qs : List ℕ}
    {s : CMTFState} (h : s.Sized o.rank ms qs) (hc : s.Cfg o) (hf : s.Free o ms) (h2 : s.cp.X.shape.length = 2) {A B : NDArray ℝ}
    (hAB : s.cp.dec.factorMatrices = [A, B]) :
    ∃ s' F G, CMTF.iteration E o s = .ok s' ∧ s.SameProblem s' ∧ s'.cp.dec.factorMatrices = [F, G] ∧
      (∀ Z : NDArray ℝ, Z.shape = [s.cp.X.shape.getD 0 0, o.rank] →
        sqErr s.cp.X (fun _ => 1) [F, B] o.rank + firstErr [F, B] s.Ys s.V ms o.rank
          ≤ sqErr s.cp.X (fun _ => 1) [Z, B] o.rank + firstErr [Z, B] s.Ys s.V ms o.rank) ∧
      (∀ Z : NDArray ℝ, Z.shape = [s.cp.X.shape.getD 1 0, o.rank] →
        sqErr s.cp.X (fun _ => 1) [F, G] o.rank + firstErr [F, G] s.Ys s.V ms o.rank
          ≤ sqErr s.cp.X (fun _ => 1) [F, Z] o.rank + firstErr [F, Z] s.Ys s.V ms o.rank) := by
  obtain ⟨c, F, hF, e0, hopt0⟩ := cmtf_update_core hE h hf.plain (m := 0) (by omega) (hf.conf 0 (by omega))
  have hs0 : s.Same (s.upd 0 c F) := ⟨rfl, rfl, rfl, rfl, rfl, rfl, rfl, rfl, rfl⟩
  have h0 := h.upd (c := c) hF
  have hf0 := hf.same hs0
  obtain ⟨c1, G, hG, e1, hopt1⟩ := cmtf_update_core hE h0 hf0.plain (m := 1) (by show 1 < s.cp.X.shape.length; omega)
    (hf0.conf 1 (by show 1 < s.cp.X.shape.length; omega))
  have hs1 : s.Same ((s.upd 0 c F).upd 1 c1 G) := ⟨rfl, rfl, rfl, rfl, rfl, rfl, rfl, rfl, rfl⟩
  have h1 := h0.upd (c := c1) hG
  obtain ⟨V', e2, h3, -, hk⟩ := cmtf_uncoupled_ok hE h1 (hc.same hs1)
  have hfm0 : ∀ c' Z, (s.upd 0 c' Z).cp.dec.factorMatrices = [Z, B] := fun c' Z => by
    show s.cp.dec.factorMatrices.set 0 Z = _; rw [hAB]; rfl
  have hfm1 : ∀ c' Z, ((s.upd 0 c F).upd 1 c' Z).cp.dec.factorMatrices = [F, Z] := fun c' Z => by
    show (s.cp.dec.factorMatrices.set 0 F).set 1 Z = _; rw [hAB]; rfl
  refine ⟨CMTFState.withSSE { (s.upd 0 c F).upd 1 c1 G with V := V' }
    (CMTFState.trueLoss { (s.upd 0 c F).upd 1 c1 G with V := V' } o.rank ms), F, G, ?_,
    ⟨rfl, rfl, rfl, rfl, rfl, rfl, rfl, rfl⟩, hfm1 c1 G, fun Z hZ => ?_, fun Z hZ => ?_⟩
  · have em : CMTF.updateModes E o (List.range s.cp.X.shape.length) s = .ok ((s.upd 0 c F).upd 1 c1 G) := by
      rw [h2, show List.range 2 = [0, 1] from rfl, CMTF.updateModes, List.foldlM_cons, cmtf_flag hc (by omega), bind_ok]
      simp only [Bool.false_eq_true, if_false]
      rw [e0, bind_ok, List.foldlM_cons, cmtf_flag (hc.same hs0) (by show 1 < s.cp.X.shape.length; omega), bind_ok]
      simp only [Bool.false_eq_true, if_false]
      rw [e1, bind_ok]; rfl
    rw [CMTF.iteration, CMTF.updateFactors, em, bind_ok, e2, bind_ok, CMTF.updateConvergence, cmtf_sse_ok h3, bind_ok]; rfl
  · have := hopt0 Z hZ
    unfold CMTFState.fitLoss at this
    rwa [hfm0, hfm0] at this
  · have := hopt1 Z hZ
    unfold CMTFState.fitLoss at this
    rwa [hfm1, hfm1] at this

theorem colLen_one {F : NDArray ℝ} : colLen F 1 0 = |F.get [0, 0]| := by
  rw [colLen]; simp [Real.sqrt_sq_eq_abs]

/-- The options of the witness below: rank 1, no tolerances, the start is given, all random numbers are 1. -/
def c82 : CMTF.Config :=
  ⟨⟨⟨1, 0, 0, none⟩, "precomputed", none, false, [], fun _ _ _ _ => 1, id, fun _ => none⟩, [], fun _ _ _ => 1, fun _ _ _ => 1⟩

/-- The start of the witness below: both factors are 2. -/
def t82 : KruskalTensor := ⟨1, [one1 2, one1 2], full [1] 1⟩

/-- **C82, refuted**: `X = [2]` with the coupled matrix `[2]` on mode 0, rank 1. The start has factors 2 and 2 and the right factor
1, so the coupled SSE is `(2 - 4)² + (2 - 2·1)² = 4`. `_init_fit` normalises the decomposition, which gives it the weight 4; the
updates ignore the weight. One iteration makes the product of the factors 2, so the object reconstructs about 8, and the SSE after
the fit is larger than 30. -/
theorem C82_fit_gets_worse {E : Ext} (hE : E.SVDOk) (hN : E.NNLSOk) (hQ : E.QROk) :
    ∃ u s0 w', CMTF.Started c82 none none (one1 2) [one1 2] [0] [0] [1] t82 u s0 ∧ s0.cp.prevSSE = 4 ∧
      CMTF.fit E c82 (one1 2) [one1 2] [0] (some 1) (.tensor t82) (CMTF.newObject none none 1 [] none) = .ok () w' ∧
      w'.it = 1 ∧ ∃ e, CMTF.sse w'.st = .ok e ∧ 30 < e := by
  have hA : CP.Admissible c82.cp.opts none none (one1 2).shape := by
    refine ⟨by simp [c82], by simp, by simp, by simp, by simp, by simp [c82], by simp, by simp⟩
  have hC : CMTF.Coupled (one1 2).shape [one1 2] [0] [0] [1] :=
    ⟨.cons (isMode_nat (by norm_num)) .nil, rfl, by simp⟩
  have ht : t82.WF (one1 2).shape c82.cp.opts.rank := ⟨rfl, .cons rfl (.cons rfl .nil), rfl⟩
  have hi : CP.StartsFrom E c82.cp none none (.tensor t82) (one1 2) t82 := startsFrom_precomputed (by
    show "precomputed".toLower = _
    rw [String.toLower, ← String.toList_inj, String.toList_map]; decide) ht
  have hno : ¬ 0 < (CMTF.method E c82).freq := by show ¬ (0 : Int) < -1; decide
  obtain ⟨u, s0, sk, w', k, h0, hfit, hk1, hit, hk, hnorm, -, hk2, hsk, hs', hX', hY', -, hsse, -⟩ :=
    C83_fit_completes hE hN hQ hA (by simp) hC (fun p hp => by simp [c82] at hp) (by decide) hi ht (budget := 1) (mi := some 1)
      (by simp) (loggers := []) (file := none)
      ⟨fun h => absurd h hno, fun h => absurd h hno, fun h => absurd h hno⟩
  have hstop := cmtf_first_iteration (o := c82.cp.opts) h0.sized h0.rel (by simp [c82])
  have hk' : k = 1 := by
    rcases Nat.lt_or_ge k 1 with hlt | hge
    · obtain rfl : k = 0 := by omega
      have h1 := hk2 (by simp)
      have h2 : sk = s0 := by
        rw [CMTF.iterate] at hk
        injection hk with hk
        exact hk.symm
      rw [h2, hstop] at h1
      injection h1 with h1
      exact absurd h1 (by simp)
    · have : (k : Int) ≤ 1 := by simpa using hk1
      omega
  subst hk'
  have hV : s0.V.getD 0 noArr = one1 1 := by
    rw [h0.V 0 (by simp)]
    refine ofMat_congr fun i hi j hj => ?_
    have hone : ∀ x : ℝ, x = 1 → (1 : ℝ) / x = 1 := fun x hx => by rw [hx, div_one]
    have hi0 : i = 0 := by simpa using hi
    have hj0 : j = 0 := by simpa [c82] using hj
    subst hi0 hj0
    refine hone _ ?_
    show colLen (ofMat 1 1 fun _ _ => (1 : ℝ)) 1 0 = 1
    rw [colLen_one, get_ofMat (by norm_num) (by norm_num), abs_one]
  refine ⟨u, s0, w', h0, ?_, hfit, by rw [hit]; simp, _, hsse, ?_⟩
  · rw [h0.prev, h0.same rfl, coupledErr]
    simp only [List.length_cons, List.length_nil, Finset.sum_range_succ, Finset.sum_range_zero, coupledErrAt, hV]
    show sqErr (one1 2) _ [one1 2, one1 2] 1 + (0 + matErr _ _ _ 1) = 4
    rw [sqErr_one rfl, matErr_one rfl]
    simp [t82]
    norm_num
  -- the decomposition after `_init_fit`
  have hw0 : s0.cp.dec.weights.get [0] = 4 := by
    rw [h0.startWeights (r := 0) (by simp [c82])]
    show colLen (one1 2) 1 0 * (colLen (one1 2) 1 0 * 1) = 4
    rw [colLen_one, get_one1, abs_two]; norm_num
  set b0 : ℝ := 2 / (2 + 1e-15) with hb0
  have hb1 : 1 / 2 ≤ b0 ∧ b0 ≤ 1 := by constructor <;> norm_num [hb0]
  obtain ⟨A, B, hAB, hB⟩ : ∃ A B, s0.cp.dec.factorMatrices = [A, B] ∧ B.get [0, 0] = b0 := by
    obtain ⟨v, e, -, hf, -⟩ := normalizeComponents_ok h0.wf true 1e-15
    have := h0.normalised
    rw [e] at this
    injection this with this
    rw [h0.same rfl] at hf
    refine ⟨_, _, by rw [← this, hf]; rfl, ?_⟩
    show (normMat (one1 2) 1 1 1e-15).get [0, 0] = b0
    rw [normMat, get_ofMat (by norm_num) (by norm_num), colLen_one, get_one1, abs_two]
  clear_value b0
  -- the iteration
  obtain ⟨s1, F, G, e1, hsp, hFG, hoF, hoG⟩ := cmtf_iteration_free hE h0.sized (h0.cfg hA (by simp))
    (h0.free hA (by simp) rfl rfl) (by rw [h0.eqX]; rfl) hAB
  obtain rfl : s1 = sk := by
    rw [CMTF.iterate, e1, bind_ok, CMTF.iterate] at hk
    injection hk
  have hloss : ∀ Z W : NDArray ℝ, sqErr s0.cp.X (fun _ => 1) [Z, W] 1 + firstErr [Z, W] s0.Ys s0.V [0] 1
      = (2 - Z.get [0, 0] * W.get [0, 0]) ^ 2 + (2 - Z.get [0, 0]) ^ 2 := by
    intro Z W
    have hfil : (Finset.range [0].length).filter (IsFirst [0]) = {0} := by decide
    rw [firstErr, hfil, Finset.sum_singleton, coupledErrAt, hV, h0.eqX, h0.eqYs, sqErr_one rfl, matErr_one rfl]
    simp
  have h1 := hoF (one1 2) (by rw [h0.eqX]; rfl)
  change sqErr s0.cp.X (fun _ => 1) [F, B] 1 + firstErr [F, B] s0.Ys s0.V [0] 1
    ≤ sqErr s0.cp.X (fun _ => 1) [one1 2, B] 1 + firstErr [one1 2, B] s0.Ys s0.V [0] 1 at h1
  rw [hloss, hloss, hB, get_one1] at h1
  set a := F.get [0, 0] with ha
  have ha1 : 1 ≤ a ∧ a ≤ 3 := by
    have h3 : (2 - 2 * b0) ^ 2 ≤ 1 := by
      nlinarith [mul_nonneg (sub_nonneg.2 hb1.2) (sub_nonneg.2 hb1.1), hb1.1, hb1.2]
    have : (2 - a) ^ 2 ≤ 1 := by linarith [sq_nonneg (2 - a * b0)]
    constructor <;> nlinarith
  have ha0 : a ≠ 0 := fun h => by have := ha1.1; rw [h] at this; norm_num at this
  have h2 := hoG (one1 (2 / a)) (by rw [h0.eqX]; rfl)
  change sqErr s0.cp.X (fun _ => 1) [F, G] 1 + firstErr [F, G] s0.Ys s0.V [0] 1
    ≤ sqErr s0.cp.X (fun _ => 1) [F, one1 (2 / a)] 1 + firstErr [F, one1 (2 / a)] s0.Ys s0.V [0] 1 at h2
  rw [hloss, hloss, get_one1, ← ha, mul_div_cancel₀ _ ha0] at h2
  set b := G.get [0, 0] with hb
  have hab : a * b = 2 := by
    have h3 : (2 - a * b) ^ 2 = 0 := le_antisymm (by linarith) (sq_nonneg _)
    have := pow_eq_zero_iff (two_ne_zero) |>.1 h3
    linarith
  obtain ⟨ha2, ha3⟩ := ha1
  have hb2 : 0 < b := by
    by_contra h
    nlinarith [mul_nonneg (show 0 ≤ a by linarith) (show 0 ≤ -b by linarith)]
  have hb3 : b ≤ 2 := by nlinarith
  -- the final normalisation
  obtain ⟨s2, X', e2, hs2, -, -, hct, hXs, hXg, -⟩ := C60_normalisation hsk (eps := 1e-15) (by norm_num)
  obtain rfl : s2 = w'.st := by
    rw [hnorm] at e2
    injection e2 with h
    exact h.symm
  have hrec : 7.9 ≤ X'.get [0, 0] := by
    rw [hXg [0, 0] (by rw [hsp.X, h0.eqX]; exact ⟨by norm_num, by norm_num, trivial⟩)]
    show 7.9 ≤ ∑ r ∈ Finset.range 1, _
    rw [Finset.sum_range_one, hsp.weights, hw0, hFG, hsp.X, h0.eqX]
    show 7.9 ≤ colLen F 1 0 / (colLen F 1 0 + 1e-15) * (colLen G 1 0 / (colLen G 1 0 + 1e-15) * 1) * (4 * (a * (b * 1)))
    rw [colLen_one, colLen_one, ← ha, ← hb, abs_of_pos (by linarith), abs_of_pos hb2, mul_one, mul_one, hab,
      div_mul_div_comm, hab, div_mul_eq_mul_div, le_div_iff₀ (by nlinarith)]
    nlinarith
  have hend : (2 - X'.get [0, 0]) ^ 2 ≤ w'.st.trueLoss 1 [0] := by
    have hs1 : w'.st.Sized 1 [0] [1] := hs'
    have h3 := constructTensor_eq hs1.cp.wf hs1.cp.order
    rw [hct] at h3
    injection h3 with h3
    rw [CMTFState.trueLoss, CPState.trueSSE, h3]
    refine le_add_of_le_of_nonneg (le_of_eq ?_) (Finset.sum_nonneg fun _ _ => matErr_nonneg _ _ _ _)
    rw [hX', get_ofFn (show Valid (one1 2).shape [0, 0] from ⟨by norm_num, by norm_num, trivial⟩), sqErr]
    simp
  show 30 < w'.st.trueLoss 1 [0]
  nlinarith

/-- The hypotheses of `C83_fit_completes`, `C58_fit_partial` and `C82_partial` hold for the data of `C82_fit_gets_worse`, those of
`C59_fit_raises` for the same data with a constraint on the first mode. -/
example : ∃ E w', CMTF.fit E c82 (one1 2) [one1 2] [0] (some 1) (.tensor t82) (CMTF.newObject (some [true, false]) none 1 [] none)
    = .error .attributeError w' := by
  obtain ⟨E, hE, hN, hQ⟩ := exists_ext
  have ht : t82.WF (one1 2).shape c82.cp.opts.rank := ⟨rfl, .cons rfl (.cons rfl .nil), rfl⟩
  have hA : CP.Admissible c82.cp.opts (some [true, false]) none (one1 2).shape := by
    refine ⟨by simp [c82], by simp, by simp, by simp, by simp, by simp [c82], by simp, by simp⟩
  exact ⟨E, C59_fit_raises hE hN hQ hA (m := 0) rfl ⟨.cons (isMode_nat (by norm_num)) .nil, rfl, by simp⟩ (ms := [0]) (qs := [1])
    (startsFrom_precomputed (by
      show "precomputed".toLower = _
      rw [String.toLower, ← String.toList_inj, String.toList_map]; decide) ht) ht (by simp [c82]) (by simp) [] none⟩

/-! ## C45 for `CMTF_ALS` -/

/-- C45 is false of `CMTF_ALS`: storing checkpoints in a file works, but `checkpoint_its` is never written. -/
theorem C45_cmtf_no_list (E : Ext) (c : CMTF.Config) {w : World CMTFState} {L : List (Int × KruskalTensor)}
    (hp : c.cp.hasPath = true) (hc : CheckpointsAt KruskalTensor.storeIn false w.file L)
    (hl : LogsOk (w.file.getD H5File.empty) (c.logs.map Prod.fst)) (hn : w.it ∉ L.map Prod.fst) :
    ∃ g ls f, storeCheckpoint (CMTF.method E c) w = .ok () { w with file := some f, loggers := ls } ∧
      w.st.cp.dec.storeIn Group.empty = .ok g ∧
      f.groups.find ("checkpoint_".toList ++ fmtInt 5 w.it) = some g ∧ f.root.attrs.find "checkpoint_its".toList = none := by
  obtain ⟨ls, f, h1, h2, h3⟩ := C45_no_list (CMTF.method E c) rfl (w := w) hp hc hl hn (kruskal_storeIn_eq w.st.cp.dec)
  exact ⟨_, ls, f, h1, kruskal_storeIn_eq w.st.cp.dec, h2, h3⟩

/-- The hypotheses of `C45_cmtf_no_list` hold for a file that does not exist yet. -/
example (c : CMTF.Config) (w : World CMTFState) (hf : w.file = none) :
    CheckpointsAt KruskalTensor.storeIn false w.file [] ∧ LogsOk (w.file.getD H5File.empty) ([] : List Name) := by
  rw [hf]
  exact ⟨⟨by simp, by simp, by simp [H5File.empty, Dict.has], rfl, rfl, rfl, by simp [H5File.empty]⟩, by simp [LogsOk]⟩

end
end TK
