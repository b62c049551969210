import Verif.Props.OneComponentNonNeg

/-!
# C100: fits with a ridge penalty on the last mode

Source: cp.py (`CP_ALS._fit`, `explained_variance`), utils.py (`add_rightsolve_ridge`). The update of the last mode adds the penalty to the
normal equations instead of the data (C37), and so the residual is not orthogonal to the model. But the model is too short in its own
direction and never too long, and so the explained variance is still between 0 and 1.
-/

namespace TK
open NDArray Fit Matrix
open EStateM (Result)

noncomputable section

/-- A minimiser of `‖F KᵀK - UK‖² + l ‖F‖²` has `⟨F KᵀK, F⟩ ≤ ⟨F, UK⟩`. -/
theorem ridge_short {n k q : ℕ} {F M : Matrix (Fin n) (Fin k) ℝ} {K : Matrix (Fin q) (Fin k) ℝ} {U : Matrix (Fin n) (Fin q) ℝ} {l : ℝ}
    (hl : 0 ≤ l) (hU : M = U * K) (h : ∀ Y : Matrix (Fin n) (Fin k) ℝ, LA.fsq (F * (Kᵀ * K) - M) + l * LA.fsq F ≤ LA.fsq (Y * (Kᵀ * K) - M) + l * LA.fsq Y) :
    LA.fip (F * (Kᵀ * K)) F ≤ LA.fip F M := by
  set V := Kᵀ * K with hV
  set G := M - F * V with hG
  have hGV : LA.fip (G * V) G = LA.fsq (G * Kᵀ) := by
    rw [LA.fsq_eq_fip, LA.fip_mul_left G Kᵀ, transpose_transpose, Matrix.mul_assoc, LA.fip_comm]
  have hs : ∀ (c : ℝ) (A B : Matrix (Fin n) (Fin k) ℝ), LA.fip (c • A) B = c * LA.fip A B := by
    intro c A B
    simp only [LA.fip, Matrix.smul_apply, smul_eq_mul, Finset.mul_sum]
    exact Finset.sum_congr rfl fun i _ => Finset.sum_congr rfl fun j _ => by ring
  have hp : l * LA.fip F G - LA.fip (G * V) G = 0 := by
    refine slope_zero (q := LA.fsq (G * V) + l * LA.fsq G) (by have := LA.fsq_nonneg (G * V); have := LA.fsq_nonneg G; positivity) fun u _ => ?_
    have h1 := h (F + u • G)
    have e1 : (F + u • G) * V - M = u • (G * V) - G := by
      rw [Matrix.add_mul, Matrix.smul_mul, hG]; abel
    have e2 : F * V - M = -G := by rw [hG]; abel
    have x1 : LA.fsq (u • (G * V) - G) = u ^ 2 * LA.fsq (G * V) - 2 * (u * LA.fip (G * V) G) + LA.fsq G := by
      rw [LA.fsq_sub, hs, LA.fsq_eq_fip (u • (G * V)), hs, LA.fip_comm _ (u • (G * V)), hs, ← LA.fsq_eq_fip]
      ring
    have x2 : LA.fsq (F + u • G) = LA.fsq F + 2 * (u * LA.fip F G) + u ^ 2 * LA.fsq G := by
      rw [LA.fsq_eq_fip, LA.fip_add_left, LA.fip_add_right, LA.fip_add_right, hs, hs, LA.fip_comm F (u • G), hs, LA.fip_comm G (u • G), hs,
        LA.fip_comm G F, ← LA.fsq_eq_fip, ← LA.fsq_eq_fip]
      ring
    have x3 : LA.fsq (-G) = LA.fsq G := by simp [LA.fsq]
    rw [e1, e2, x1, x2, x3] at h1
    linarith
  have h2 : 0 ≤ l * LA.fip F G := by
    rw [hGV] at hp
    have := LA.fsq_nonneg (G * Kᵀ)
    linarith
  have h3 : 0 ≤ LA.fip F G := by
    rcases hl.lt_or_eq with hpos | rfl
    · exact nonneg_of_mul_nonneg_right h2 hpos
    · -- without a penalty the normal equations hold
      rw [hGV, zero_mul, zero_sub, neg_eq_zero, LA.fsq_eq_zero_iff] at hp
      have hW : G = (U - F * Kᵀ) * K := by rw [hG, hU, hV, Matrix.sub_mul, Matrix.mul_assoc]
      have : LA.fsq G = 0 := by
        rw [LA.fsq_eq_fip]
        nth_rw 1 [hW]
        rw [LA.fip_mul_left, hp, LA.fip_zero_right]
      rw [LA.fsq_eq_zero_iff.1 this, LA.fip_zero_right]
  rw [hG, LA.fip_sub_right, LA.fip_comm F (F * V)] at h3
  linarith

theorem fip_smul_left {n k : ℕ} (c : ℝ) (A B : Matrix (Fin n) (Fin k) ℝ) : LA.fip (c • A) B = c * LA.fip A B := by
  simp only [LA.fip, Matrix.smul_apply, smul_eq_mul, Finset.mul_sum]
  exact Finset.sum_congr rfl fun i _ => Finset.sum_congr rfl fun j _ => by ring

/-- The same for one component and a minimiser over a part of the ray through `F`. -/
theorem ridge_short_one {n k q : ℕ} (hk : k = 1) {F M : Matrix (Fin n) (Fin k) ℝ} {K : Matrix (Fin q) (Fin k) ℝ} {U : Matrix (Fin n) (Fin q) ℝ} {l : ℝ}
    (hl : 0 ≤ l) (hU : M = U * K)
    (h : ∀ u : ℝ, u ≤ 1 → LA.fsq (F * (Kᵀ * K) - M) + l * LA.fsq F ≤ LA.fsq (((1 - u) • F) * (Kᵀ * K) - M) + l * LA.fsq ((1 - u) • F)) :
    LA.fip (F * (Kᵀ * K)) F ≤ LA.fip F M := by
  subst hk
  set v : ℝ := ∑ a, K a 0 ^ 2 with hv
  have hFV : F * (Kᵀ * K) = v • F := by
    ext a b
    obtain rfl : b = 0 := Subsingleton.elim _ _
    simp [Matrix.mul_apply, hv, pow_two, mul_comm]
  have hv0 : 0 ≤ v := Finset.sum_nonneg fun _ _ => sq_nonneg _
  rw [hFV, fip_smul_left, ← LA.fsq_eq_fip]
  have hsm : ∀ c : ℝ, LA.fsq (c • F) = c ^ 2 * LA.fsq F := fun c => by
    rw [LA.fsq_eq_fip, fip_smul_left, LA.fip_comm, fip_smul_left, ← LA.fsq_eq_fip]; ring
  have hp : v * LA.fip F M - v ^ 2 * LA.fsq F - l * LA.fsq F = 0 := by
    refine slope_zero (q := v ^ 2 * LA.fsq F + l * LA.fsq F) (by have := LA.fsq_nonneg F; positivity) fun u hu => ?_
    have h1 := h u hu
    rw [Matrix.smul_mul, hFV, smul_smul, hsm, LA.fsq_sub, LA.fsq_sub, hsm, hsm, fip_smul_left, fip_smul_left] at h1
    nlinarith [h1]
  rcases hv0.lt_or_eq with hpos | hz
  · have h0 : 0 ≤ v * (LA.fip F M - v * LA.fsq F) := by
      have := mul_nonneg hl (LA.fsq_nonneg F)
      nlinarith
    have := nonneg_of_mul_nonneg_right h0 hpos
    linarith
  · have hK : K = 0 := by
      ext a b
      obtain rfl : b = 0 := Subsingleton.elim _ _
      have := (Finset.sum_eq_zero_iff_of_nonneg fun a _ => sq_nonneg (K a 0)).1 (hv.symm.trans hz.symm) a (Finset.mem_univ a)
      exact pow_eq_zero_iff two_ne_zero |>.1 this
    rw [hU, hK, Matrix.mul_zero, LA.fip_zero_right, ← hz, zero_mul]

/-- One ridge update, of a mode without constraints or (with one component) a non-negative one: the squared error is at most the difference of the
squared norms of the data and the model. -/
theorem ridge_update_short {E : Ext} (hE : E.SVDOk) (hN : E.NNLSOk) {o : CPOpts} {s : CPState} {m : ℕ} {l : ℝ} (h : s.Sized o.rank)
    (hm : m < s.X.shape.length) (hw : ∀ r < o.rank, s.dec.weights.get [r] = 1) (hl : 0 ≤ l) {nn : Bool} (h1 : nn = false ∨ o.rank = 1)
    (hc : s.ModeConfig o m nn false (some l)) :
    ∃ F, F.shape = [s.X.shape.getD m 0, o.rank] ∧ CP.updateFactor E o m s = .ok (s.updated m o.rank F) ∧
      (s.updated m o.rank F).trueSSE o.rank ≤
        sumSq s.X - modelSq s.X.shape (fun r => s.dec.weights.get [r]) (s.dec.factorMatrices.set m F) o.rank := by
  set R := o.rank
  set n := s.X.shape.getD m 0 with hn
  set q := (s.X.shape.eraseIdx m).prod with hq
  set K := mat (s.krp m R) q R with hK
  have hV := mat_gramProd (m := m) h
  obtain ⟨F, hF, e, hshort⟩ : ∃ F, F.shape = [n, R] ∧ withRidge (some l) (baseSolve E nn false)
      (ofMat R R fun a b => gramProd (s.dec.factorMatrices.eraseIdx m) a b) (mttkrpMat s.X s.dec.factorMatrices m R) = .ok F ∧
      LA.fip (mat F n R * (Kᵀ * K)) (mat F n R) ≤ LA.fip (mat F n R) (mat (mttkrpMat s.X s.dec.factorMatrices m R) n R) := by
    cases nn with
    | false =>
      obtain ⟨F, e, hF, hopt, -⟩ := C12_ridge hE hl
        (A := ofMat R R fun a b => gramProd (s.dec.factorMatrices.eraseIdx m) a b)
        (B := mttkrpMat s.X s.dec.factorMatrices m R) (shape_ofMat _ _ _) (shape_ofMat _ _ _)
      refine ⟨F, hF, e, ridge_short hl (by rw [mat_mttkrp]; rfl) fun Y => ?_⟩
      have h1 := hopt (ofMat n R fun i j => if hi : i < n then if hj : j < R then Y ⟨i, hi⟩ ⟨j, hj⟩ else 0 else 0)
      have hY : mat (ofMat n R fun i j => if hi : i < n then if hj : j < R then Y ⟨i, hi⟩ ⟨j, hj⟩ else 0 else 0) n R = Y := by
        ext i j
        rw [mat_ofMat]
        simp
      rw [resid_eq, resid_eq, normSq_eq, normSq_eq, hY, hV] at h1
      exact h1
    | true =>
      obtain ⟨F, e, hF, hFn, hopt⟩ := C12_ridge_nonneg hN hl
        (A := ofMat R R fun a b => gramProd (s.dec.factorMatrices.eraseIdx m) a b)
        (B := mttkrpMat s.X s.dec.factorMatrices m R) (shape_ofMat _ _ _) (shape_ofMat _ _ _)
      refine ⟨F, hF, e, ridge_short_one (by simpa using h1) hl (by rw [mat_mttkrp]; rfl) fun u hu => ?_⟩
      have h1 := hopt (ofMat n R fun i j => (1 - u) * F.get [i, j]) fun i hi j hj => by
        rw [get_ofMat hi hj]
        exact mul_nonneg (by linarith) (hFn i hi j hj)
      have hY : mat (ofMat n R fun i j => (1 - u) * F.get [i, j]) n R = (1 - u) • mat F n R := by
        ext i j
        rw [mat_ofMat]
        rfl
      rw [resid_eq, resid_eq, normSq_eq, normSq_eq, hY, hV] at h1
      exact h1
  refine ⟨F, hF, updateFactor_ok h.wf.factors h.order hm (h.dim hm) (getSolve_ok hc (by simp)) e hF, ?_⟩
  have hs : ∀ (c : ℝ) (A B : Matrix (Fin n) (Fin R) ℝ), LA.fip (c • A) B = c * LA.fip A B := by
    intro c A B
    simp only [LA.fip, Matrix.smul_apply, smul_eq_mul, Finset.mul_sum]
    exact Finset.sum_congr rfl fun i _ => Finset.sum_congr rfl fun j _ => by ring
  set a := LA.fip (mat F n R * (Kᵀ * K)) (mat F n R) with ha
  set b := LA.fip (mat F n R) (mat (mttkrpMat s.X s.dec.factorMatrices m R) n R) with hb
  set x := LA.fsq (mat (unfoldMat s.X m) n q) with hx
  -- the squared error of `c F`, in two ways
  have h1 : ∀ c : ℝ, (s.updated m R (ofMat n R fun i j => c * F.get [i, j])).trueSSE R = c ^ 2 * a - 2 * (c * b) + x := by
    intro c
    have hZ : mat (ofMat n R fun i j => c * F.get [i, j]) n R = c • mat F n R := by
      ext i j
      rw [mat_ofMat]
      rfl
    rw [trueSSE_updated h hm hw (shape_ofMat _ _ _), ← hn, ← hq, ← hK, hZ, fsq_normal, Matrix.smul_mul, hs, hs, LA.fip_comm _ (c • mat F n R), hs,
      LA.fip_comm (mat F n R) (mat F n R * _), ← ha, hb, mat_mttkrp, hK, ← hx]
    unfold CPState.krp
    ring
  set y := sumIdx s.X.shape fun idx => s.X.get idx * cpEntry (fun r => s.dec.weights.get [r]) (s.dec.factorMatrices.set m F) R idx with hy
  set M := modelSq s.X.shape (fun r => s.dec.weights.get [r]) (s.dec.factorMatrices.set m F) R with hM
  have h2 : ∀ c : ℝ, (s.updated m R (ofMat n R fun i j => c * F.get [i, j])).trueSSE R = c ^ 2 * M - 2 * (c * y) + sumSq s.X := by
    intro c
    show sqErr s.X (fun r => s.dec.weights.get [r]) (s.dec.factorMatrices.set m (ofMat n R fun i j => c * F.get [i, j])) R = _
    have : c ^ 2 * M - 2 * (c * y) + sumSq s.X = c ^ 2 * M + -2 * c * y + sumSq s.X := by ring
    rw [this, hM, hy, modelSq, sumSq, mul_sumIdx, mul_sumIdx, ← sumIdx_add, ← sumIdx_add, sqErr]
    refine sumIdx_congr fun idx hidx => ?_
    rw [cpEntry_set_linear h.wf.factors.length_eq hm (F := F) (Y := F) (c := c - 1) _ (fun i hi r hr => by rw [get_ofMat hi hr]; ring) hidx]
    ring
  have hF1 : (s.updated m R F).trueSSE R = M - 2 * y + sumSq s.X := by
    show sqErr s.X (fun r => s.dec.weights.get [r]) (s.dec.factorMatrices.set m F) R = _
    have : M - 2 * y + sumSq s.X = M + -2 * y + sumSq s.X := by ring
    rw [this, hM, hy, modelSq, sumSq, mul_sumIdx, ← sumIdx_add, ← sumIdx_add, sqErr]
    exact sumIdx_congr fun idx _ => by ring
  have e0 := (h1 0).symm.trans (h2 0)
  have e1 := (h1 1).symm.trans (h2 1)
  have e2 := (h1 (-1)).symm.trans (h2 (-1))
  rw [hF1]
  linarith

/-- Updates of all modes of which the last has a penalty and no constraint (one component: no orthonormality): the squared error is at most the difference of the squared norms
of the data and the model. -/
theorem updateFactors_short {E : Ext} (hE : E.SVDOk) (hN : E.NNLSOk) {o : CPOpts} (hr : 0 < o.rank) {s s' : CPState}
    (h : s.Sized o.rank)
    (hcfg : ∀ m < s.X.shape.length, ∃ nn on ridge, s.ModeConfig o m nn on ridge ∧ ¬ (nn = true ∧ on = true))
    (hw : ∀ r < o.rank, s.dec.weights.get [r] = 1) {l : ℝ} (hl : 0 ≤ l) {nn : Bool} (h1 : nn = false ∨ o.rank = 1)
    (hc : s.ModeConfig o (s.X.shape.length - 1) nn false (some l)) (hs : CP.updateFactors E o s = .ok s') :
    s'.trueSSE o.rank ≤ sumSq s'.X - modelSq s'.X.shape (fun r => s'.dec.weights.get [r]) s'.dec.factorMatrices o.rank := by
  set d := s.X.shape.length with hd
  have hd2 := h.order
  obtain ⟨n, hn⟩ : ∃ n, d = n + 1 := ⟨d - 1, by omega⟩
  have hn1 : d - 1 = n := by omega
  rw [hn1] at hc
  obtain ⟨s1, e1, p1, hS1⟩ := cp_updateModes_total hE hN hr (List.range n) s h hcfg
    (by intro m hm; have := List.mem_range.1 hm; omega)
  have hnX : n < s1.X.shape.length := by rw [p1.X]; omega
  obtain ⟨F, hF, e2, opt⟩ := ridge_update_short hE hN hS1 (m := n) hnX (by rw [p1.weights]; exact hw) hl h1
    ⟨by rw [p1.nonNeg]; exact hc.nonNeg, by rw [p1.orth]; exact hc.orth, hc.ridge⟩
  have e3 : CP.updateFactors E o s = .ok (s1.updated n o.rank F) := by
    rw [CP.updateFactors, ← hd, hn, List.range_succ, CP.updateModes, List.foldlM_append]
    rw [CP.updateModes] at e1
    rw [e1, bind_ok, List.foldlM_cons, e2, bind_ok]; rfl
  rw [hs] at e3
  obtain rfl := Except.ok.inj e3
  exact opt

/-- There are penalties, none of them negative (`np.sqrt` of a negative one is `nan`), and the last mode has no constraint; with one
component it may be non-negative. -/
structure CP.LastRidge (o : CPOpts) (nonNeg orth : Option (List Bool)) (d : ℕ) : Prop where
  nonNeg : o.rank = 1 ∨ ∀ l, nonNeg = some l → l[d - 1]? = some false
  orth : ∀ l, orth = some l → l[d - 1]? = some false
  ridge : ∃ ps l, o.ridgePenalties = some ps ∧ ps[d - 1]? = some l ∧ ∀ x ∈ ps, (0 : ℝ) ≤ x

/-- **C100**, the part that holds, for fits with ridge penalties: if the last mode has no constraint (with one component:
no orthonormality constraint), then after a fit with at least one iteration
the sum of squared errors is at most the difference of the squared norms of the data and the model, and `explained_variance` is between the quotient
of these norms and 1, whatever the start, the penalties and the constraints of the other modes. Missing: fits with a constraint on the last mode,
where it can be negative (`C100_fails`). -/
theorem C100_ridge_partial {E : Ext} (hE : E.SVDOk) (hN : E.NNLSOk) (hQ : E.QROk) {c : CP.Config}
    {nonNeg orth : Option (List Bool)} {X : NDArray ℝ} (hA : CP.Admissible c.opts nonNeg orth X.shape)
    (hF : CP.LastRidge c.opts nonNeg orth X.shape.length)
    (hlog : c.Measurable) (hfreq : freqOption c.freq ≠ 0) {arg : InitArg KruskalTensor} {t : KruskalTensor}
    (hi : CP.StartsFrom E c nonNeg orth arg X t)
    (ht : t.WF X.shape c.opts.rank) {budget : Int} {mi : Option Int} (hb : 0 < mi.getD budget)
    {loggers : List Logger} {file : Option H5File}
    (hS : Storing (CP.method E c) (CP.newObject nonNeg orth budget loggers file) []) :
    ∃ w', CP.fit E c X mi arg (CP.newObject nonNeg orth budget loggers file) = .ok () w' ∧ w'.st.X = X ∧
      (1 ≤ w'.it →
        (∃ e, CP.sse w'.st = .ok e ∧
          e ≤ sumSq X - modelSq X.shape (fun r => w'.st.dec.weights.get [r]) w'.st.dec.factorMatrices c.opts.rank) ∧
        ((∃ idx, Valid X.shape idx ∧ X.get idx ≠ 0) → ∃ v, CP.explainedVariance w'.st = .ok (.fin v) ∧ 0 ≤ v ∧ v ≤ 1 ∧
          modelSq X.shape (fun r => w'.st.dec.weights.get [r]) w'.st.dec.factorMatrices c.opts.rank / sumSq X ≤ v)) := by
  obtain ⟨s0, w', k, e0, h1, -, hit, h2, -, -, hwf, hsse, hX', hw1, -⟩ := C74_fit_completes hE hN hQ hA hlog hfreq hi ht hb hS
  obtain ⟨s0', e0', hG, hX, -, -, hones, hnn, hon, -⟩ := initFit_good (E := E) hQ (old := CP.fresh nonNeg orth) rfl hA ht
  rw [e0] at e0'
  obtain rfl : s0 = s0' := by injection e0'
  rw [orbit_iterate hE hN hA.rank k hG] at h2
  have hst : w'.st = CP.orbit E c.opts s0 k := (Except.ok.inj h2).symm
  refine ⟨w', h1, hX', fun hk => ?_⟩
  obtain ⟨j, rfl⟩ : ∃ j, k = j + 1 := ⟨k - 1, by omega⟩
  obtain ⟨gj, pj⟩ := orbit_good hE hN hA.rank hG j
  obtain ⟨gk, pk⟩ := orbit_good hE hN hA.rank hG (j + 1)
  have hd2 := hA.order
  obtain ⟨ps, l, hps, hpl, hl⟩ := hF.ridge
  replace hl : 0 ≤ l := hl l (List.mem_of_getElem? hpl)
  obtain ⟨nn, hnn1, hnn2⟩ : ∃ nn : Bool, (nn = false ∨ c.opts.rank = 1) ∧
      (nonNeg.getD (List.replicate X.shape.length false))[X.shape.length - 1]? = some nn := by
    cases hq : nonNeg with
    | none => exact ⟨false, Or.inl rfl, by rw [Option.getD_none, List.getElem?_replicate, if_pos (by omega)]⟩
    | some l =>
      have hlen := hA.nonNegLen l hq
      rcases hF.nonNeg with h1 | h1
      · exact ⟨l[X.shape.length - 1]'(by omega), Or.inr h1, by rw [Option.getD_some]; exact List.getElem?_eq_getElem _⟩
      · exact ⟨false, Or.inl rfl, by simpa using h1 l hq⟩
  have hcfg : (CP.orbit E c.opts s0 j).ModeConfig c.opts ((CP.orbit E c.opts s0 j).X.shape.length - 1) nn false (some l) := by
    rw [pj.X, hX]
    refine ⟨⟨_, pj.nonNeg.trans hnn, hnn2⟩, ⟨_, pj.orth.trans hon, ?_⟩, Or.inr ⟨ps, l, hps, hpl, rfl⟩⟩
    show (orth.getD _)[X.shape.length - 1]? = _
    cases hq : orth with
    | none => rw [Option.getD_none, List.getElem?_replicate, if_pos (by omega)]
    | some l => simpa using hF.orth l hq
  have hle : w'.st.trueSSE c.opts.rank ≤ sumSq X -
      modelSq X.shape (fun r => w'.st.dec.weights.get [r]) w'.st.dec.factorMatrices c.opts.rank := by
    have hs := orbit_step hE hN hA.rank hG j
    rw [← hst, CP.iteration, bind_eq_ok] at hs
    obtain ⟨s1, e1, e2⟩ := hs
    rw [CP.updateConvergence, bind_eq_ok] at e2
    obtain ⟨e, -, e3⟩ := e2
    have e4 := pure_eq_ok.1 e3
    have := updateFactors_short hE hN hA.rank gj.sized gj.config (by rw [pj.weights]; exact hones) hl hnn1 hcfg e1
    rw [← hX', ← e4]
    exact this
  refine ⟨⟨_, hsse, hle⟩, fun h0 => ?_⟩
  obtain ⟨v, ev, hv, hv1, -⟩ := C66_explained_variance (s := w'.st) (R := c.opts.rank) (hst ▸ gk.sized) (hst ▸ gk.cached)
    (by rw [hX']; exact h0)
  have hXp : 0 < sumSq X := by
    refine lt_of_le_of_ne (sumIdx_nonneg fun _ _ => sq_nonneg _) fun hz => ?_
    obtain ⟨idx, hi, hne⟩ := h0
    exact hne (sumSq_eq_zero_iff.1 hz.symm idx hi)
  have hq : modelSq X.shape (fun r => w'.st.dec.weights.get [r]) w'.st.dec.factorMatrices c.opts.rank / sumSq X ≤ v := by
    rw [hv, hX', div_le_iff₀ hXp, sub_mul, div_mul_cancel₀ _ hXp.ne']
    linarith
  exact ⟨v, ev, (div_nonneg (sumIdx_nonneg fun _ _ => sq_nonneg _) hXp.le).trans hq, hv1, hq⟩

/-- Penalties on both modes of a matrix, a non-negative first factor matrix, two components. -/
def evRidged : CP.Config := { evConfig with opts := { evConfig.opts with ridgePenalties := some [3, 2] } }

/-- The hypotheses are met. -/
example {E : Ext} (hE : E.SVDOk) (hN : E.NNLSOk) (hQ : E.QROk) : ∃ w',
    CP.fit E evRidged evData (some 5) (.tensor evStart) (CP.newObject (some [true, false]) none 1 [] none) = .ok () w' ∧
      (1 ≤ w'.it → ∃ v, CP.explainedVariance w'.st = .ok (.fin v) ∧ 0 ≤ v ∧ v ≤ 1) := by
  have hi : evRidged.init.toLower = "precomputed" := by
    show "precomputed".toLower = _
    rw [String.toLower, ← String.toList_inj, String.toList_map]; decide
  have ht : evStart.WF evData.shape 2 := ⟨rfl, by simp [Factors, evStart, evData], rfl⟩
  obtain ⟨w', h1, -, h2⟩ := C100_ridge_partial hE hN hQ (c := evRidged) (X := evData) (nonNeg := some [true, false]) (orth := none)
    ⟨by decide, by simp [evData], by simp [evData], by simp [evData], by simp, by simp [evRidged, evData], by simp, by simp⟩
    ⟨Or.inr (by simp [evData]), by simp, [3, 2], 2, rfl, by simp [evData], by simp⟩ (by intro p hp; simp [evRidged, evConfig] at hp) (by decide)
    (startsFrom_precomputed hi ht) ht (mi := some 5) (budget := 1) (by decide)
    ⟨fun h => absurd h (show ¬ (0 : Int) < -1 by decide), fun h => absurd h (show ¬ (0 : Int) < -1 by decide),
      fun h => absurd h (show ¬ (0 : Int) < -1 by decide)⟩
  refine ⟨w', h1, fun hk => ?_⟩
  obtain ⟨v, ev, h3, h4, -⟩ := (h2 hk).2 ⟨[0, 0], by simp [evData, Valid], by rw [evData, get_ofMat (by omega) (by omega)]; simp⟩
  exact ⟨v, ev, h3, h4⟩

end
end TK
