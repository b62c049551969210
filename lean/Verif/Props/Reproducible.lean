import Verif.Props.CMTFFitMore
import Verif.Props.Parafac2Fit

/-!
# C145: which fits depend on the random numbers

A fit of `CP_ALS` or `Parafac2_ALS` whose start is not drawn gives the same result whatever numbers the random generator would
give. `CMTF_ALS` draws the uncoupled factor matrices in every fit, also when the start is given, so the result of a coupled fit
depends on them: a start that belongs to an exact model of the data can be lost or kept.
-/

namespace TK
open NDArray
open EStateM (Result)
open Fit

noncomputable section

/-- **C145** for `CP_ALS`: unless the start is drawn (`init="random"`), the whole outcome of a fit -- the result or the error, the
state of the object, the logs and the checkpoint file -- does not depend on the random numbers. -/
theorem C145_cp {E : Ext} {c : CP.Config} (hi : c.init.toLower ≠ "random")
    (d : KruskalTensor.RandomMethod → ℕ → ℕ → ℕ → ℝ) (X : NDArray ℝ) (mi : Option Int) (arg : InitArg KruskalTensor)
    (w : World CPState) :
    CP.fit E { c with draw := d } X mi arg w = CP.fit E c X mi arg w := by
  have h : CP.initComponents E { c with draw := d } arg = CP.initComponents E c arg := by
    unfold CP.initComponents
    simp only [if_neg hi]
    rfl
  unfold CP.fit
  rw [h]
  rfl

/-- **C145** for `Parafac2_ALS`: unless the start is drawn (`init="random"`) or is a CP model, whose fit starts from random factors
(`init="cp"`), the whole outcome of a fit does not depend on the random numbers. -/
theorem C145_parafac2 {E : Ext} {c : P2.Config} (hi : c.init.toLower ≠ "random") (hc : c.init.toLower ≠ "cp")
    (dA dC : ℕ → ℕ → ℝ) (dP : ℕ → ℕ → ℕ → ℝ) (d : KruskalTensor.RandomMethod → ℕ → ℕ → ℕ → ℝ) (D : P2Data) (mi : Option Int)
    (arg : InitArg P2Obj) (w : World P2State) :
    P2.fit E { c with drawA := dA, drawC := dC, drawP := dP, cpDraw := d } D mi arg w = P2.fit E c D mi arg w := by
  have h : P2.initComponents E { c with drawA := dA, drawC := dC, drawP := dP, cpDraw := d } arg
      = P2.initComponents E c arg := by
    unfold P2.initComponents
    simp only [if_neg hi, if_neg hc]
    rfl
  unfold P2.fit
  rw [h]
  rfl

/-- The same for a Parafac2 fit from random components: only the numbers drawn for them matter, and for one from a CP model only
those drawn by the CP fit. -/
theorem C145_parafac2_sources {E : Ext} {c : P2.Config} (dA dC : ℕ → ℕ → ℝ) (dP : ℕ → ℕ → ℕ → ℝ)
    (d : KruskalTensor.RandomMethod → ℕ → ℕ → ℕ → ℝ) (D : P2Data) (mi : Option Int) (arg : InitArg P2Obj) (w : World P2State) :
    (c.init.toLower ≠ "random" → P2.fit E { c with drawA := dA, drawC := dC, drawP := dP } D mi arg w = P2.fit E c D mi arg w) ∧
      (c.init.toLower ≠ "cp" → P2.fit E { c with cpDraw := d } D mi arg w = P2.fit E c D mi arg w) := by
  constructor
  · intro hi
    have h : P2.initComponents E { c with drawA := dA, drawC := dC, drawP := dP } arg = P2.initComponents E c arg := by
      unfold P2.initComponents
      simp only [if_neg hi]
      rfl
    unfold P2.fit
    rw [h]
    rfl
  · intro hi
    have h : P2.initComponents E { c with cpDraw := d } arg = P2.initComponents E c arg := by
      unfold P2.initComponents
      simp only [if_neg hi]
      rfl
    unfold P2.fit
    rw [h]
    rfl

/-! ## Coupled fits -/

/-- Random numbers divided by the norms of their columns, as `_init_coupled_matrices` computes it. -/
def drawnCols (n R : ℕ) (f : ℕ → ℕ → ℝ) : Py (NDArray ℝ) := do
  let Q ← zipB (· / ·) (ofMat n R f) (colNorms (ofMat n R f))
  assignAll (ofMat n R f) Q

theorem initCoupledLoop_cons (c : CMTF.Config) (nonNeg : Option (List Bool)) (Ys : List (NDArray ℝ)) (i : ℕ) (mode : Int)
    (modes : List Int) :
    CMTF.initCoupledLoop c nonNeg Ys i (mode :: modes) = (do
      let Y ← pyGet Ys i
      let n ← cols Y
      let nn ← CMTF.initFlag nonNeg mode
      let V ← drawnCols n c.cp.opts.rank (if nn then c.drawU i else c.drawN i)
      let Vs ← CMTF.initCoupledLoop c nonNeg Ys (i + 1) modes
      pure (V :: Vs)) := by
  simp only [CMTF.initCoupledLoop, drawnCols, bind_assoc]

theorem initCoupledLoop_congr {c c' : CMTF.Config} {nonNeg : Option (List Bool)} {Ys : List (NDArray ℝ)}
    (hN : ∀ i n, drawnCols n c'.cp.opts.rank (c'.drawN i) = drawnCols n c.cp.opts.rank (c.drawN i))
    (hU : ∀ i n, drawnCols n c'.cp.opts.rank (c'.drawU i) = drawnCols n c.cp.opts.rank (c.drawU i)) (modes : List Int) :
    ∀ i : ℕ, CMTF.initCoupledLoop c' nonNeg Ys i modes = CMTF.initCoupledLoop c nonNeg Ys i modes := by
  induction modes with
  | nil => intro i; rw [CMTF.initCoupledLoop, CMTF.initCoupledLoop]
  | cons mode modes ih =>
    intro i
    rw [initCoupledLoop_cons, initCoupledLoop_cons, ih (i + 1)]
    refine congrArg _ (funext fun Y => congrArg _ (funext fun n => congrArg _ (funext fun nn => ?_)))
    cases nn with
    | false => simp only [Bool.false_eq_true, if_false, hN]
    | true => simp only [if_true, hU]

theorem modifySt_at {σ : Type} {f g : σ → Py σ} {w : World σ} (h : f w.st = g w.st) : Fit.modifySt f w = Fit.modifySt g w := by
  have e : ∀ f : σ → Py σ, Fit.modifySt f w = match f w.st with
      | .ok s => .ok () { w with st := s }
      | .error e => .error e w := by
    intro f
    cases hf : f w.st with
    | ok s => exact modifySt_ok hf
    | error e => exact modifySt_error hf
  rw [e, e, h]

theorem bind_at {σ α β : Type} {x : Fit σ α} {f g : α → Fit σ β} {s : World σ}
    (h : ∀ a s', x s = .ok a s' → f a s' = g a s') : (x >>= f) s = (x >>= g) s := by
  cases hx : x s with
  | error e s' => rw [bind_of_error hx, bind_of_error hx]
  | ok a s' => rw [bind_of_ok hx, bind_of_ok hx, h a s' hx]

/-- A coupled fit whose start is not drawn depends on the random numbers only through the uncoupled factor matrices. -/
theorem cmtf_fit_congr {E : Ext} {c c' : CMTF.Config} (hi : c.cp.init.toLower ≠ "random")
    {d : KruskalTensor.RandomMethod → ℕ → ℕ → ℕ → ℝ} (hc : c'.cp = { c.cp with draw := d }) (hl : c'.logs = c.logs)
    {Ys : List (NDArray ℝ)} {modes : List Int}
    (h : ∀ nonNeg, CMTF.initCoupledLoop c' nonNeg Ys 0 modes = CMTF.initCoupledLoop c nonNeg Ys 0 modes)
    (X : NDArray ℝ) (mi : Option Int) (arg : InitArg KruskalTensor) (w : World CMTFState) :
    CMTF.fit E c' X Ys modes mi arg w = CMTF.fit E c X Ys modes mi arg w := by
  have e1 : CP.initComponents E c'.cp arg = CP.initComponents E c.cp arg := by
    rw [hc]
    unfold CP.initComponents
    simp only [if_neg hi]
    rfl
  have hr : c'.cp.opts = c.cp.opts := by rw [hc]
  have hm : CMTF.method E c' = CMTF.method E c := by
    unfold CMTF.method
    rw [hl, hc]
  have h1 : ∀ v : World CMTFState, v.st.Ys = Ys → v.st.modes = modes →
      CMTF.initComponents E c' arg v = CMTF.initComponents E c arg v := by
    intro v hY hM
    unfold CMTF.initComponents
    rw [e1]
    cases hz : CMTF.zoom (CP.initComponents E c.cp arg) v with
    | error e v' => rw [bind_of_error hz, bind_of_error hz]
    | ok u v' =>
      rw [bind_of_ok hz, bind_of_ok hz]
      have hv : v'.st.Ys = Ys ∧ v'.st.modes = modes := by
        unfold CMTF.zoom at hz
        split at hz
        · injection hz with _ hz
          rw [← hz]
          exact ⟨hY, hM⟩
        · exact absurd hz (by simp)
      have : CMTF.initCoupled c' v'.st = CMTF.initCoupled c v'.st := by
        unfold CMTF.initCoupled
        rw [hv.1, hv.2, h, hr]
      exact modifySt_at this
  unfold CMTF.fit
  rw [hm]
  have h2 : ∀ v : World CMTFState, v.st.Ys = Ys → v.st.modes = modes →
      Fit.fit (CMTF.method E c) (CMTF.setTarget X) (CMTF.initComponents E c' arg) mi v
        = Fit.fit (CMTF.method E c) (CMTF.setTarget X) (CMTF.initComponents E c arg) mi v := by
    intro v hY hM
    have h3 : Fit.initFit (CMTF.method E c) (CMTF.setTarget X) (CMTF.initComponents E c' arg) mi v
        = Fit.initFit (CMTF.method E c) (CMTF.setTarget X) (CMTF.initComponents E c arg) mi v := by
      unfold Fit.initFit
      refine bind_at (x := modify fun w => { w with it := 0 }) (s := v) fun _ v1 hv1 => ?_
      obtain ⟨-, rfl⟩ := hv1
      refine bind_at (x := Fit.modifySt (CMTF.setTarget X)) fun _ v2 hv2 => ?_
      have hv2' : v2.st.Ys = Ys ∧ v2.st.modes = modes := by
        obtain ⟨-, rfl⟩ := hv2
        exact ⟨hY, hM⟩
      have h4 := h1 v2 hv2'.1 hv2'.2
      cases hz : CMTF.initComponents E c arg v2 with
      | error e v' => rw [bind_of_error hz, bind_of_error (h4.trans hz)]
      | ok u v' => rw [bind_of_ok hz, bind_of_ok (h4.trans hz)]
    unfold Fit.fit
    cases hz : Fit.initFit (CMTF.method E c) (CMTF.setTarget X) (CMTF.initComponents E c arg) mi v with
    | error e v' => rw [bind_of_error hz, bind_of_error (h3.trans hz)]
    | ok u v' => rw [bind_of_ok hz, bind_of_ok (h3.trans hz)]
  refine bind_at (x := Fit.modifySt fun s => .ok (CMTF.setCoupled Ys modes s)) fun _ v1 hv1 => ?_
  obtain ⟨-, rfl⟩ := hv1
  exact h2 _ rfl rfl

/-- The random numbers divided by the norms of their columns. -/
theorem drawnCols_eq (n R : ℕ) (f : ℕ → ℕ → ℝ) :
    drawnCols n R f = .ok (ofMat n R fun k r => f k r / colLen (ofMat n R f) n r) := by
  have hsh : (ofMat n R f).shape = [n, R] := rfl
  rw [drawnCols, zipB_mat_vec _ (shape_colNorms hsh) hsh, bind_ok,
    assignAll_same (A := ofMat n R f) (B := ofMat n R fun k r => (ofMat n R f).get [k, r] / (colNorms (ofMat n R f)).get [r]) rfl]
  refine congrArg Except.ok (ofMat_congr fun k hk r hr => ?_)
  rw [colNorms_get hsh hr, get_ofMat hk hr]

/-- Sizes of the columns do not matter. -/
theorem drawnCols_scaled {n R : ℕ} {f g : ℕ → ℕ → ℝ} {t : ℕ → ℝ} (ht : ∀ r, 0 < t r) (h : ∀ k r, g k r = t r * f k r) :
    drawnCols n R g = drawnCols n R f := by
  rw [drawnCols_eq, drawnCols_eq]
  refine congrArg _ (ofMat_congr fun k hk r hr => ?_)
  have : colLen (ofMat n R g) n r = t r * colLen (ofMat n R f) n r := by
    unfold colLen
    rw [← Real.sqrt_sq (ht r).le, ← Real.sqrt_mul (sq_nonneg _), Finset.mul_sum]
    refine congrArg _ (Finset.sum_congr rfl fun k hk => ?_)
    rw [get_ofMat (Finset.mem_range.1 hk) hr, get_ofMat (Finset.mem_range.1 hk) hr, h]
    ring
  rw [this, h, mul_div_mul_left _ _ (ht r).ne']

/-- **C145** for `CMTF_ALS`, as far as it holds: with a start that is not drawn, the whole outcome of a fit does not depend on the
random numbers of the start and on the sizes of the columns that are drawn for the uncoupled factor matrices, and without coupled
matrices it does not depend on the random numbers at all. Missing: independence of the directions of the drawn columns, which is
false (`C145_coupled_depends`). -/
theorem C145_coupled_partial {E : Ext} {c : CMTF.Config} (hi : c.cp.init.toLower ≠ "random")
    (d : KruskalTensor.RandomMethod → ℕ → ℕ → ℕ → ℝ) (dN dU : ℕ → ℕ → ℕ → ℝ) (X : NDArray ℝ) (Ys : List (NDArray ℝ))
    (modes : List Int) (mi : Option Int) (arg : InitArg KruskalTensor) (w : World CMTFState) :
    ((∃ t u : ℕ → ℕ → ℝ, (∀ i r, 0 < t i r ∧ 0 < u i r) ∧
        ∀ i k r, dN i k r = t i r * c.drawN i k r ∧ dU i k r = u i r * c.drawU i k r) →
      CMTF.fit E { c with cp := { c.cp with draw := d }, drawN := dN, drawU := dU } X Ys modes mi arg w
        = CMTF.fit E c X Ys modes mi arg w) ∧
    (modes = [] → CMTF.fit E { c with cp := { c.cp with draw := d }, drawN := dN, drawU := dU } X Ys modes mi arg w
        = CMTF.fit E c X Ys modes mi arg w) := by
  constructor
  · rintro ⟨t, u, hp, h⟩
    have key : ∀ c' : CMTF.Config, c'.cp = { c.cp with draw := d } → c'.logs = c.logs → c'.drawN = dN → c'.drawU = dU →
        CMTF.fit E c' X Ys modes mi arg w = CMTF.fit E c X Ys modes mi arg w := by
      intro c' h1 h2 h3 h4
      have hr : c'.cp.opts.rank = c.cp.opts.rank := by rw [h1]
      refine cmtf_fit_congr hi h1 h2 (fun nonNeg => initCoupledLoop_congr (fun i n => ?_) (fun i n => ?_) modes 0) X mi arg w
      · rw [hr, h3]
        exact drawnCols_scaled (t := t i) (fun r => (hp i r).1) fun k r => (h i k r).1
      · rw [hr, h4]
        exact drawnCols_scaled (t := u i) (fun r => (hp i r).2) fun k r => (h i k r).2
    exact key _ rfl rfl rfl rfl
  · rintro rfl
    have key : ∀ c' : CMTF.Config, c'.cp = { c.cp with draw := d } → c'.logs = c.logs →
        CMTF.fit E c' X Ys [] mi arg w = CMTF.fit E c X Ys [] mi arg w := by
      intro c' h1 h2
      refine cmtf_fit_congr hi h1 h2 (fun nonNeg => ?_) X mi arg w
      rw [CMTF.initCoupledLoop, CMTF.initCoupledLoop]
    exact key _ rfl rfl

/-- The options of the witness below: rank 1, no tolerances, the start is given, all numbers drawn for the uncoupled factor matrix
are `d`. -/
def c145 (d : ℝ) : CMTF.Config :=
  ⟨⟨⟨1, 0, 0, none⟩, "precomputed", none, false, [], fun _ _ _ _ => 1, id, fun _ => none⟩, [], fun _ _ _ => d, fun _ _ _ => 1⟩

/-- The start of the witness below: both factors and the weight are 1. -/
def t145 : KruskalTensor := ⟨1, [one1 1, one1 1], full [1] 1⟩

/-- The coupled matrix of the witness below. -/
def y145 : ℝ := 1 / (1 + 1e-15)

/-- One iteration on the tensor `[[1]]` with the coupled matrix `[[y145]]` from the start `t145`. -/
theorem c145_fit {E : Ext} (hE : E.SVDOk) (hN : E.NNLSOk) (hQ : E.QROk) {d : ℝ} (hd : |d| = 1) :
    ∃ w' X' e, ∃ a b : ℝ, CMTF.fit E (c145 d) (one1 1) [one1 y145] [0] (some 1) (.tensor t145) (CMTF.newObject none none 1 [] none)
        = .ok () w' ∧ w'.it = 1 ∧ w'.st.cp.dec.constructTensor = .ok X' ∧ CMTF.sse w'.st = .ok e ∧
      X'.get [0, 0] = |a| / (|a| + 1e-15) * (|b| / (|b| + 1e-15)) * (a * b) ∧ (1 - X'.get [0, 0]) ^ 2 ≤ e ∧
      (∀ z : ℝ, (1 - a * y145) ^ 2 + (y145 - a * d) ^ 2 ≤ (1 - z * y145) ^ 2 + (y145 - z * d) ^ 2) ∧
      ∀ z : ℝ, (1 - a * b) ^ 2 ≤ (1 - a * z) ^ 2 := by
  have hA : CP.Admissible (c145 d).cp.opts none none (one1 1).shape := by
    refine ⟨by simp [c145], by simp, by simp, by simp, by simp, by simp [c145], by simp, by simp⟩
  have hC : CMTF.Coupled (one1 1).shape [one1 y145] [0] [0] [1] :=
    ⟨.cons (isMode_nat (by norm_num)) .nil, rfl, by simp⟩
  have ht : t145.WF (one1 1).shape (c145 d).cp.opts.rank := ⟨rfl, .cons rfl (.cons rfl .nil), rfl⟩
  have hi : CP.StartsFrom E (c145 d).cp none none (.tensor t145) (one1 1) t145 := startsFrom_precomputed (by
    show "precomputed".toLower = _
    rw [String.toLower, ← String.toList_inj, String.toList_map]; decide) ht
  have hno : ¬ 0 < (CMTF.method E (c145 d)).freq := by show ¬ (0 : Int) < -1; decide
  obtain ⟨u, s0, sk, w', k, h0, hfit, hk1, hit, hk, hnorm, -, hk2, hsk, hs', hX', hY', -, hsse, -⟩ :=
    C83_fit_completes hE hN hQ hA (by simp) hC (fun p hp => by simp [c145] at hp) (show freqOption none ≠ 0 by decide) hi ht (budget := 1) (mi := some 1)
      (by simp) (loggers := []) (file := none)
      ⟨fun h => absurd h hno, fun h => absurd h hno, fun h => absurd h hno⟩
  have hstop := cmtf_first_iteration (o := (c145 d).cp.opts) h0.sized h0.rel (by simp [c145])
  have hk' : k = 1 := by
    rcases Nat.lt_or_ge k 1 with hlt | hge
    · obtain rfl : k = 0 := by omega
      have h1 := hk2 (by simp)
      have h2 : sk = s0 := by
        rw [CMTF.iterate] at hk
        injection hk with hk
        exact hk.symm
      rw [h2, hstop] at h1
      injection h1 with h1
      exact absurd h1 (by simp)
    · have : (k : Int) ≤ 1 := by simpa using hk1
      omega
  subst hk'
  have hV : s0.V.getD 0 noArr = one1 d := by
    rw [h0.V 0 (by simp)]
    refine ofMat_congr fun i hi j hj => ?_
    have hone : ∀ x : ℝ, x = 1 → d / x = d := fun x hx => by rw [hx, div_one]
    have hi0 : i = 0 := by simpa using hi
    have hj0 : j = 0 := by simpa [c145] using hj
    subst hi0 hj0
    refine hone _ ?_
    show colLen (ofMat 1 1 fun _ _ => d) 1 0 = 1
    rw [colLen_one, get_ofMat (by norm_num) (by norm_num), hd]
  have hw0 : s0.cp.dec.weights.get [0] = 1 := by
    rw [h0.startWeights (r := 0) (by simp [c145])]
    show colLen (one1 1) 1 0 * (colLen (one1 1) 1 0 * 1) = 1
    rw [colLen_one, get_one1, abs_one]; norm_num
  obtain ⟨A, B, hAB, hB⟩ : ∃ A B, s0.cp.dec.factorMatrices = [A, B] ∧ B.get [0, 0] = y145 := by
    obtain ⟨v, e, -, hf, -⟩ := normalizeComponents_ok h0.wf true 1e-15
    have := h0.normalised
    rw [e] at this
    injection this with this
    rw [h0.same rfl] at hf
    refine ⟨_, _, by rw [← this, hf]; rfl, ?_⟩
    show (normMat (one1 1) 1 1 1e-15).get [0, 0] = y145
    rw [normMat, get_ofMat (by norm_num) (by norm_num), colLen_one, get_one1, abs_one, y145]
  obtain ⟨s1, F, G, e1, hsp, hFG, hoF, hoG⟩ := cmtf_iteration_free hE h0.sized (h0.cfg hA (by simp))
    (h0.free hA (by simp) rfl rfl) (by rw [h0.eqX]; rfl) hAB
  obtain rfl : s1 = sk := by
    rw [CMTF.iterate, e1, bind_ok, CMTF.iterate] at hk
    injection hk
  have hloss : ∀ Z W : NDArray ℝ, sqErr s0.cp.X (fun _ => 1) [Z, W] 1 + firstErr [Z, W] s0.Ys s0.V [0] 1
      = (1 - Z.get [0, 0] * W.get [0, 0]) ^ 2 + (y145 - Z.get [0, 0] * d) ^ 2 := by
    intro Z W
    have hfil : (Finset.range [0].length).filter (IsFirst [0]) = {0} := by decide
    rw [firstErr, hfil, Finset.sum_singleton, coupledErrAt, hV, h0.eqX, h0.eqYs, sqErr_one rfl, matErr_one rfl]
    simp
  obtain ⟨s2, X', e2, hs2, -, -, hct, hXs, hXg, -⟩ := C60_normalisation hsk (eps := 1e-15) (by norm_num)
  obtain rfl : s2 = w'.st := by
    rw [hnorm] at e2
    injection e2 with h
    exact h.symm
  refine ⟨w', X', _, F.get [0, 0], G.get [0, 0], hfit, by rw [hit]; simp, hct, hsse, ?_, ?_, ?_, ?_⟩
  · rw [hXg [0, 0] (by rw [hsp.X, h0.eqX]; exact ⟨by norm_num, by norm_num, trivial⟩)]
    show ∑ r ∈ Finset.range 1, _ = _
    rw [Finset.sum_range_one, hsp.weights, hw0, hFG, hsp.X, h0.eqX]
    show colLen F 1 0 / (colLen F 1 0 + 1e-15) * (colLen G 1 0 / (colLen G 1 0 + 1e-15) * 1)
      * (1 * (F.get [0, 0] * (G.get [0, 0] * 1))) = _
    rw [colLen_one, colLen_one, mul_one, mul_one, one_mul]
  · have hs1 : w'.st.Sized 1 [0] [1] := hs'
    have h3 := constructTensor_eq hs1.cp.wf hs1.cp.order
    rw [hct] at h3
    injection h3 with h3
    show _ ≤ w'.st.trueLoss 1 [0]
    rw [CMTFState.trueLoss, CPState.trueSSE, h3]
    refine le_add_of_le_of_nonneg (le_of_eq ?_) (Finset.sum_nonneg fun _ _ => matErr_nonneg _ _ _ _)
    rw [hX', get_ofFn (show Valid (one1 1).shape [0, 0] from ⟨by norm_num, by norm_num, trivial⟩), sqErr]
    simp
  · intro z
    have h1 := hoF (one1 z) (by rw [h0.eqX]; rfl)
    change sqErr s0.cp.X (fun _ => 1) [F, B] 1 + firstErr [F, B] s0.Ys s0.V [0] 1
      ≤ sqErr s0.cp.X (fun _ => 1) [one1 z, B] 1 + firstErr [one1 z, B] s0.Ys s0.V [0] 1 at h1
    rwa [hloss, hloss, hB, get_one1] at h1
  · intro z
    have h2 := hoG (one1 z) (by rw [h0.eqX]; rfl)
    change sqErr s0.cp.X (fun _ => 1) [F, G] 1 + firstErr [F, G] s0.Ys s0.V [0] 1
      ≤ sqErr s0.cp.X (fun _ => 1) [F, one1 z] 1 + firstErr [F, one1 z] s0.Ys s0.V [0] 1 at h2
    rw [hloss, hloss, get_one1] at h2
    linarith

/-- **C145, refuted** for `CMTF_ALS`: the tensor is `[[1]]`, the coupled matrix `[[y]]` and the given start, with all entries one, is
exact (with the uncoupled factor `y`). If the number drawn for the uncoupled factor is positive, the model after one iteration
reproduces the tensor up to 1 %. If it is negative, the first update gives zero, the model after the iteration is zero, and the
reported error is at least one, although that of the exact model the start belongs to is zero. -/
theorem C145_coupled_depends {E : Ext} (hE : E.SVDOk) (hN : E.NNLSOk) (hQ : E.QROk) :
    (∃ w' X', CMTF.fit E (c145 1) (one1 1) [one1 y145] [0] (some 1) (.tensor t145) (CMTF.newObject none none 1 [] none)
        = .ok () w' ∧ w'.it = 1 ∧ w'.st.cp.dec.constructTensor = .ok X' ∧ 0.99 < X'.get [0, 0]) ∧
    ∃ w' X' e, CMTF.fit E (c145 (-1)) (one1 1) [one1 y145] [0] (some 1) (.tensor t145) (CMTF.newObject none none 1 [] none)
        = .ok () w' ∧ w'.it = 1 ∧ w'.st.cp.dec.constructTensor = .ok X' ∧ X'.get [0, 0] = 0 ∧ CMTF.sse w'.st = .ok e ∧ 1 ≤ e := by
  have hy : 0.9 < y145 ∧ y145 < 1 := by unfold y145; constructor <;> norm_num
  constructor
  · obtain ⟨w', X', e, a, b, hfit, hit, hct, -, hX, -, ha, hb⟩ := c145_fit hE hN hQ (d := 1) (by norm_num)
    refine ⟨w', X', hfit, hit, hct, ?_⟩
    generalize y145 = y at hy ha
    have ha1 := ha 1
    have ha2 : 0.5 < a ∧ a < 2 := by
      have h1 : (y - a) ^ 2 ≤ 0.04 := by
        have : (1 - 1 * y) ^ 2 + (y - 1 * 1) ^ 2 ≤ 0.04 := by nlinarith [hy.1, hy.2]
        rw [mul_one] at ha1
        linarith [sq_nonneg (1 - a * y)]
      have h2 : |y - a| ≤ 0.2 := by
        rw [← Real.sqrt_sq_eq_abs, show (0.2 : ℝ) = √0.04 by rw [show (0.04 : ℝ) = 0.2 ^ 2 by norm_num, Real.sqrt_sq (by norm_num)]]
        exact Real.sqrt_le_sqrt h1
      rw [abs_le] at h2
      constructor <;> linarith [h2.1, h2.2, hy.1, hy.2]
    have ha0 : a ≠ 0 := by linarith [ha2.1]
    have hab : a * b = 1 := by
      have h1 := hb (1 / a)
      rw [mul_one_div_cancel ha0, sub_self, zero_pow two_ne_zero] at h1
      have := pow_eq_zero_iff two_ne_zero |>.1 (le_antisymm h1 (sq_nonneg _))
      linarith
    have hb0 : 0.5 < b := by nlinarith [ha2.1, ha2.2]
    have hq : ∀ x : ℝ, 0.5 < x → 0.999 ≤ |x| / (|x| + 1e-15) := by
      intro x hx
      rw [abs_of_pos (by linarith), le_div_iff₀ (by linarith)]
      linarith
    rw [hX, hab, mul_one]
    have h1 := hq a ha2.1
    have h2 := hq b hb0
    nlinarith
  · obtain ⟨w', X', e, a, b, hfit, hit, hct, hsse, hX, he, ha, -⟩ := c145_fit hE hN hQ (d := -1) (by norm_num)
    have ha0 : a = 0 := by
      have h1 := ha 0
      generalize y145 = y at h1
      have h2 : a ^ 2 * (y ^ 2 + 1) ≤ 0 := by nlinarith
      have h3 : a ^ 2 ≤ 0 := by nlinarith [sq_nonneg a, mul_nonneg (sq_nonneg a) (sq_nonneg y)]
      exact pow_eq_zero_iff two_ne_zero |>.1 (le_antisymm h3 (sq_nonneg _))
    have hX0 : X'.get [0, 0] = 0 := by rw [hX, ha0]; simp
    refine ⟨w', X', e, hfit, hit, hct, hX0, hsse, ?_⟩
    rw [hX0] at he
    linarith

/-- The hypothesis of the theorems above holds for the usual ways to give a start. -/
example : "precomputed".toLower ≠ "random" ∧ "svd".toLower ≠ "cp" ∧ (c145 1).cp.init.toLower ≠ "random" := by
  have h : ∀ s t : String, s.toList.map Char.toLower ≠ t.toList → s.toLower ≠ t := by
    intro s t h e
    rw [String.toLower, ← String.toList_inj, String.toList_map] at e
    exact h e
  exact ⟨h _ _ (by decide), h _ _ (by decide), h _ _ (by decide)⟩

end
end TK
