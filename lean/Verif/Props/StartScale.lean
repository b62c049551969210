import Verif.Lemmas.MatrixFits
import Verif.Props.Stationary
import Verif.Props.Stopping
import Verif.Props.Scores
import Verif.Props.Resume
import Verif.Props.MatrixFits

/-!
# C156: the lengths of the columns of the start do not matter

Source: cp.py:385-423 (`_update_als_factor`, `_update_als_factors`, the loop). Two starts of `CP_ALS` that differ in the lengths of their
columns (and arbitrarily in the first mode) give the same models, as long as no update is underdetermined.
-/

namespace TK
open NDArray Fit Matrix
open EStateM (Result)

noncomputable section

/-- Spec: the rank-one terms formed by the modes other than `m` are linearly independent, so that the update of mode `m` has only
one solution. -/
def RestIndependent (sizes : List ℕ) (fs : List (NDArray ℝ)) (m R : ℕ) : Prop :=
  ∀ v : ℕ → ℝ, (∀ idx, Valid (sizes.eraseIdx m) idx → ∑ r ∈ Finset.range R, v r * rankOne (fs.eraseIdx m) idx r = 0) → ∀ r < R, v r = 0

/-- Spec: column `r` of matrix `k` of `fs'` is `σ k r` times that of `fs`. -/
def ScaledBy (sizes : List ℕ) (σ : ℕ → ℕ → ℝ) (R k : ℕ) (fs fs' : List (NDArray ℝ)) : Prop :=
  ∀ i < sizes.getD k 0, ∀ r < R, (modeMat fs' k).get [i, r] = σ k r * (modeMat fs k).get [i, r]

variable {X : NDArray ℝ} {R m : ℕ} {fs fs' : List (NDArray ℝ)} {σ : ℕ → ℕ → ℝ}

theorem cpEntry_scaled (hf : fs.length = X.shape.length) (hf' : fs'.length = X.shape.length)
    (hσ : ∀ r < R, ∏ k ∈ Finset.range X.shape.length, σ k r = 1)
    (h : ∀ k < X.shape.length, ScaledBy X.shape σ R k fs fs') {idx : List ℕ} (hidx : Valid X.shape idx) :
    cpEntry (fun _ => 1) fs' R idx = cpEntry (fun _ => 1) fs R idx := by
  refine Finset.sum_congr rfl fun r hr => ?_
  rw [rankOne_eq_prod r (hidx.length_eq.trans hf'.symm), rankOne_eq_prod r (hidx.length_eq.trans hf.symm), hf, hf']
  rw [Finset.prod_congr rfl fun k hk => h k (Finset.mem_range.1 hk) _ (hidx.getD_lt (Finset.mem_range.1 hk)) r (Finset.mem_range.1 hr),
    Finset.prod_mul_distrib, hσ r (Finset.mem_range.1 hr), one_mul]

/-- Two optimal matrices of one mode are the same if the rank-one terms of the other modes are independent. -/
theorem optimal_unique (hf : fs.length = X.shape.length) (hm : m < X.shape.length) (hI : RestIndependent X.shape fs m R) {F Y : NDArray ℝ}
    (hF : ∀ Z : NDArray ℝ, Z.shape = [X.shape.getD m 0, R] → sqErr X (fun _ => 1) (fs.set m F) R ≤ sqErr X (fun _ => 1) (fs.set m Z) R)
    (hY : ∀ Z : NDArray ℝ, Z.shape = [X.shape.getD m 0, R] → sqErr X (fun _ => 1) (fs.set m Y) R ≤ sqErr X (fun _ => 1) (fs.set m Z) R)
    {i r : ℕ} (hi : i < X.shape.getD m 0) (hr : r < R) : F.get [i, r] = Y.get [i, r] := by
  have a1 := optimal_orthogonal hf hm hF F
  have a2 := optimal_orthogonal hf hm hF Y
  have a3 := optimal_orthogonal hf hm hY F
  have a4 := optimal_orthogonal hf hm hY Y
  have hz : (sumIdx X.shape fun idx => (cpEntry (fun _ => 1) (fs.set m F) R idx - cpEntry (fun _ => 1) (fs.set m Y) R idx) ^ 2) = 0 := by
    have h1 : (sumIdx X.shape fun idx => (cpEntry (fun _ => 1) (fs.set m F) R idx - cpEntry (fun _ => 1) (fs.set m Y) R idx) ^ 2) =
        ((sumIdx X.shape fun idx => (X.get idx - cpEntry (fun _ => 1) (fs.set m Y) R idx) * cpEntry (fun _ => 1) (fs.set m F) R idx) -
        (sumIdx X.shape fun idx => (X.get idx - cpEntry (fun _ => 1) (fs.set m F) R idx) * cpEntry (fun _ => 1) (fs.set m F) R idx)) -
        ((sumIdx X.shape fun idx => (X.get idx - cpEntry (fun _ => 1) (fs.set m Y) R idx) * cpEntry (fun _ => 1) (fs.set m Y) R idx) -
        (sumIdx X.shape fun idx => (X.get idx - cpEntry (fun _ => 1) (fs.set m F) R idx) * cpEntry (fun _ => 1) (fs.set m Y) R idx)) := by
      rw [← sumIdx_sub, ← sumIdx_sub, ← sumIdx_sub]
      exact sumIdx_congr fun idx _ => by ring
    rw [h1, a1, a2, a3, a4]; ring
  have hz' := sumSq_eq_zero_iff.1 hz
  refine sub_eq_zero.1 (hI (fun r => F.get [i, r] - Y.get [i, r]) (fun idx hidx => ?_) r hr)
  have hm' : m < fs.length := by omega
  have hl : idx.length + 1 = fs.length := by
    rw [hidx.length_eq, List.length_eraseIdx_of_lt hm]; omega
  have hv : Valid X.shape (idx.insertIdx m i) := by
    have := hidx.insertIdx (n := m) (by rw [List.length_eraseIdx_of_lt hm]; omega) hi
    rwa [insertIdx_eraseIdx_getD hm] at this
  have h2 := hz' _ hv
  rw [cpEntry_insertIdx _ (by rw [List.length_set]; exact hm') (by rw [List.length_set]; exact hl),
    cpEntry_insertIdx _ (by rw [List.length_set]; exact hm') (by rw [List.length_set]; exact hl), ← Finset.sum_sub_distrib] at h2
  rw [← h2]
  refine Finset.sum_congr rfl fun q _ => ?_
  rw [List.getElem_set_self, List.getElem_set_self, eraseIdx_set_self, eraseIdx_set_self]
  ring

/-- One update of two lists of factor matrices whose other modes differ by scales. -/
theorem scaled_step {g g' : ℕ → List (NDArray ℝ)} (h : Sweep X R g) (h' : Sweep X R g') (hm : m < X.shape.length)
    (hσ : ∀ r < R, ∏ k ∈ Finset.range X.shape.length, σ k r = 1) (hs : ∀ k < X.shape.length, k ≠ m → ScaledBy X.shape σ R k (g m) (g' m))
    (hI : RestIndependent X.shape (g m) m R) : ∀ k < X.shape.length, ScaledBy X.shape σ R k (g (m + 1)) (g' (m + 1)) := by
  obtain ⟨F, e, opt⟩ := h.step m hm
  obtain ⟨F', e', opt'⟩ := h'.step m hm
  have hl := h.len m hm.le
  have hl' := h'.len m hm.le
  have hne : ∀ r < R, σ m r ≠ 0 := fun r hr h0 => by
    have := hσ r hr
    rw [Finset.prod_eq_zero (Finset.mem_range.2 hm) h0] at this
    exact zero_ne_one this
  -- scaled matrices give the same model
  have hmodel : ∀ Y Y' : NDArray ℝ, (∀ i < X.shape.getD m 0, ∀ r < R, Y'.get [i, r] = σ m r * Y.get [i, r]) →
      sqErr X (fun _ => 1) ((g' m).set m Y') R = sqErr X (fun _ => 1) ((g m).set m Y) R := by
    intro Y Y' hY
    refine sumIdx_congr fun idx hidx => ?_
    rw [cpEntry_scaled (σ := σ) (fs := (g m).set m Y) (by rw [List.length_set, hl]) (by rw [List.length_set, hl']) hσ (fun k hk => ?_) hidx]
    intro i hi r hr
    by_cases hkm : k = m
    · subst hkm
      rw [modeMat_set_self (hl' ▸ hk), modeMat_set_self (hl ▸ hk)]
      exact hY i hi r hr
    · rw [modeMat_set_ne hkm, modeMat_set_ne hkm]
      exact hs k hk hkm i hi r hr
  rw [e] at opt
  rw [e'] at opt'
  let Y : NDArray ℝ := ofMat (X.shape.getD m 0) R fun i r => F'.get [i, r] / σ m r
  have hYF : ∀ i < X.shape.getD m 0, ∀ r < R, F'.get [i, r] = σ m r * Y.get [i, r] := fun i hi r hr => by
    rw [get_ofMat hi hr, mul_div_cancel₀ _ (hne r hr)]
  have hYopt : ∀ Z : NDArray ℝ, Z.shape = [X.shape.getD m 0, R] →
      sqErr X (fun _ => 1) ((g m).set m Y) R ≤ sqErr X (fun _ => 1) ((g m).set m Z) R := by
    intro Z _
    rw [← hmodel Y F' hYF, ← hmodel Z (ofMat (X.shape.getD m 0) R fun i r => σ m r * Z.get [i, r]) fun i hi r hr => get_ofMat hi hr]
    exact opt' _ (shape_ofMat _ _ _)
  intro k hk i hi r hr
  rw [e, e']
  by_cases hkm : k = m
  · subst hkm
    rw [modeMat_set_self (hl' ▸ hk), modeMat_set_self (hl ▸ hk), hYF i hi r hr, optimal_unique hl hm hI opt hYopt hi hr]
  · rw [modeMat_set_ne hkm, modeMat_set_ne hkm]
    exact hs k hk hkm i hi r hr

/-- A sweep keeps the scales, whatever the matrices of the first mode are. -/
theorem scaled_sweep {g g' : ℕ → List (NDArray ℝ)} (h : Sweep X R g) (h' : Sweep X R g')
    (hσ : ∀ r < R, ∏ k ∈ Finset.range X.shape.length, σ k r = 1) (hs : ∀ k < X.shape.length, 0 < k → ScaledBy X.shape σ R k (g 0) (g' 0))
    (hI : ∀ m < X.shape.length, RestIndependent X.shape (g m) m R) :
    ∀ m < X.shape.length, ∀ k < X.shape.length, ScaledBy X.shape σ R k (g (m + 1)) (g' (m + 1))
  | 0, hm => scaled_step h h' hm hσ (fun k hk h0 => hs k hk (Nat.pos_of_ne_zero h0)) (hI 0 hm)
  | m + 1, hm => scaled_step h h' hm hσ (fun k hk _ => scaled_sweep h h' hσ hs hI m (by omega) k hk) (hI _ hm)

/-- The matrices before the update of mode `m` are the new ones of the modes before it and the old ones of the others. -/
theorem sweep_mid {g : ℕ → List (NDArray ℝ)} (h : Sweep X R g) (hm : m ≤ X.shape.length) :
    g m = (g X.shape.length).take m ++ (g 0).drop m := by
  have h0 := h.len 0 (Nat.zero_le _)
  have h1 := h.len _ le_rfl
  have h2 := h.len m hm
  refine List.ext_getElem (by rw [List.length_append, List.length_take, List.length_drop, h0, h1, h2]; omega) fun k hk _ => ?_
  have hk' : k < X.shape.length := h2 ▸ hk
  have key : ∀ (l : List (NDArray ℝ)) (hl : k < l.length), l[k] = modeMat l k := fun l hl => by
    rw [modeMat, List.getD_eq_getElem?_getD, List.getElem?_eq_getElem hl]; rfl
  have hlen : ((g X.shape.length).take m).length = m := by rw [List.length_take, h1]; omega
  by_cases hkm : k < m
  · rw [List.getElem_append_left (by rw [List.length_take, h1]; omega), List.getElem_take, key _ hk, key _ (lt_of_lt_of_eq hk' h1.symm),
      h.after (n := X.shape.length - m) (by omega) hkm]
  · have hidx : m + (k - ((g X.shape.length).take m).length) = k := by omega
    rw [List.getElem_append_right (by omega), List.getElem_drop, key _ hk, h.before hm (by omega)]
    simp only [hidx]
    exact (key _ (by omega)).symm

/-! ## Fits -/

/-- Spec: no update of the fit from `t` is underdetermined: before each update of a mode (with the new matrices of the modes before
it and the old ones of the modes after it) the rank-one terms of the other modes are linearly independent. -/
def Determined (E : Ext) (o : CPOpts) (X : NDArray ℝ) (t : KruskalTensor) : Prop :=
  ∀ s0, CP.initFit E (CP.fresh none none) X t = .ok s0 → ∀ j a b, CP.iterate E o j s0 = .ok a → CP.iterate E o (j + 1) s0 = .ok b →
    ∀ m < X.shape.length, RestIndependent X.shape (b.dec.factorMatrices.take m ++ a.dec.factorMatrices.drop m) m o.rank

/-- The scales of all modes, given those of the modes after the first. -/
def allScales (s : ℕ → ℕ → ℝ) (d k r : ℕ) : ℝ := if k = 0 then (∏ l ∈ Finset.range (d - 1), s (l + 1) r)⁻¹ else s k r

theorem prod_allScales {s : ℕ → ℕ → ℝ} {d r : ℕ} (hd : 0 < d) (hs : ∀ k, s k r ≠ 0) :
    ∏ k ∈ Finset.range d, allScales s d k r = 1 := by
  obtain ⟨d, rfl⟩ : ∃ e, d = e + 1 := ⟨d - 1, by omega⟩
  rw [Finset.prod_range_succ']
  simp only [allScales, Nat.succ_ne_zero, if_false, if_true, Nat.add_sub_cancel]
  exact mul_inv_cancel₀ (Finset.prod_ne_zero_iff.2 fun k _ => hs _)

variable {E : Ext} {c : CP.Config} {arg arg' : InitArg KruskalTensor} {t t' : KruskalTensor} {budget : Int} {loggers : List Logger}
  {file : Option H5File}

/-- The iterations from the two starts. -/
theorem scaled_orbit (hE : E.SVDOk) (hN : E.NNLSOk) (hQ : E.QROk) (hA : CP.Admissible c.opts none none X.shape)
    (hridge : c.opts.ridgePenalties = none) (ht : t.WF X.shape c.opts.rank) (ht' : t'.WF X.shape c.opts.rank) {s : ℕ → ℕ → ℝ}
    (hs : ∀ r < c.opts.rank, ∀ k, s k r ≠ 0)
    (hsc : ∀ k < X.shape.length, 0 < k → ScaledBy X.shape s c.opts.rank k t.factorMatrices t'.factorMatrices)
    (hD : Determined E c.opts X t) {s0 s0' : CPState} (e0 : CP.initFit E (CP.fresh none none) X t = .ok s0)
    (e0' : CP.initFit E (CP.fresh none none) X t' = .ok s0') : ∀ j, ∀ k < X.shape.length,
      ScaledBy X.shape (allScales s X.shape.length) c.opts.rank k (CP.orbit E c.opts s0 (j + 1)).dec.factorMatrices
        (CP.orbit E c.opts s0' (j + 1)).dec.factorMatrices := by
  obtain ⟨hG, hXs, hw, hU, hdec, q1, q2, hq⟩ := fit_sweeps hE hN hQ hA hridge ht e0
  obtain ⟨hG', hXs', hw', hU', hdec', q1', q2', hq'⟩ := fit_sweeps hE hN hQ hA hridge ht' e0'
  have hd : 0 < X.shape.length := by have := hA.order; omega
  have hσ : ∀ r < c.opts.rank, ∏ k ∈ Finset.range X.shape.length, allScales s X.shape.length k r = 1 :=
    fun r hr => prod_allScales hd (hs r hr)
  have hI : ∀ j, ∀ m < X.shape.length, RestIndependent X.shape (CP.during E c.opts s0 j m) m c.opts.rank := by
    intro j m hm
    rw [sweep_mid (q1 j) hm.le, q2 j]
    exact hD s0 e0 j _ _ (orbit_iterate hE hN hA.rank j hG) (orbit_iterate hE hN hA.rank (j + 1) hG) m hm
  have hlast : ∀ j, (∀ k < X.shape.length, 0 < k → ScaledBy X.shape (allScales s X.shape.length) c.opts.rank k (CP.during E c.opts s0 j 0)
      (CP.during E c.opts s0' j 0)) → ∀ k < X.shape.length,
      ScaledBy X.shape (allScales s X.shape.length) c.opts.rank k (CP.during E c.opts s0 (j + 1) 0) (CP.during E c.opts s0' (j + 1) 0) := by
    intro j hj k hk
    have := scaled_sweep (q1 j) (q1' j) hσ hj (hI j) (X.shape.length - 1) (by omega) k hk
    rwa [Nat.sub_add_cancel hd, q2 j, q2' j] at this
  intro j
  induction j with
  | zero =>
    refine hlast 0 fun k hk h0 i hi r hr => ?_
    rw [during_zero, during_zero, show CP.orbit E c.opts s0 0 = s0 from rfl, show CP.orbit E c.opts s0' 0 = s0' from rfl, hdec, hdec',
      allScales, if_neg (by omega)]
    exact hsc k hk h0 i hi r hr
  | succ j ih => exact hlast (j + 1) fun k hk _ => ih k hk

/-- **C156.** Let two starts of `CP_ALS` (without constraints and penalties) differ in the scales `s k r ≠ 0` of the columns of the modes
after the first, and arbitrarily in the first mode, and let no update of the first fit be underdetermined. Both fits complete. If both
perform the same number `j + 1` of iterations, they give the same model and report the same error, and the columns of the factor matrices
still differ by `s k r` (in the first mode by the inverse of their product). If both perform more than one iteration, they do perform the
same number; and so they do if the tolerances are not positive. -/
theorem C156_scale (hE : E.SVDOk) (hN : E.NNLSOk) (hQ : E.QROk) (hA : CP.Admissible c.opts none none X.shape)
    (hridge : c.opts.ridgePenalties = none) (hlog : c.Measurable) (hfreq : freqOption c.freq ≠ 0)
    (hi : CP.StartsFrom E c none none arg X t) (hi' : CP.StartsFrom E c none none arg' X t')
    (ht : t.WF X.shape c.opts.rank) (ht' : t'.WF X.shape c.opts.rank) {mi : Option Int} (hb : 0 < mi.getD budget)
    (hS : Storing (CP.method E c) (CP.newObject none none budget loggers file) []) {s : ℕ → ℕ → ℝ}
    (hs : ∀ r < c.opts.rank, ∀ k, s k r ≠ 0)
    (hsc : ∀ k < X.shape.length, 0 < k → ScaledBy X.shape s c.opts.rank k t.factorMatrices t'.factorMatrices)
    (hD : Determined E c.opts X t) :
    ∃ w w', CP.fit E c X mi arg (CP.newObject none none budget loggers file) = .ok () w ∧
      CP.fit E c X mi arg' (CP.newObject none none budget loggers file) = .ok () w' ∧
      (∀ j : ℕ, w.it = j + 1 → w'.it = j + 1 →
        (∀ idx, Valid X.shape idx → cpEntry (fun r => w'.st.dec.weights.get [r]) w'.st.dec.factorMatrices c.opts.rank idx =
          cpEntry (fun r => w.st.dec.weights.get [r]) w.st.dec.factorMatrices c.opts.rank idx) ∧
        (∃ e, CP.sse w.st = .ok e ∧ CP.sse w'.st = .ok e) ∧
        (∀ k < X.shape.length, 0 < k → ScaledBy X.shape s c.opts.rank k w.st.dec.factorMatrices w'.st.dec.factorMatrices) ∧
        ∀ i < X.shape.getD 0 0, ∀ r < c.opts.rank, (modeMat w'.st.dec.factorMatrices 0).get [i, r] =
          (∏ l ∈ Finset.range (X.shape.length - 1), s (l + 1) r)⁻¹ * (modeMat w.st.dec.factorMatrices 0).get [i, r]) ∧
      (1 < w.it → 1 < w'.it → w.it = w'.it) ∧
      (c.opts.convergenceTol ≤ 0 → c.opts.relLossTol ≤ 0 → w.it = mi.getD budget ∧ w'.it = mi.getD budget) := by
  obtain ⟨s0, w, k, e0, h1, hle, hit, h4, hgo, hstop, hwf, hsse, hXw, hw1, -⟩ := C74_fit_completes hE hN hQ hA hlog hfreq hi ht hb hS
  obtain ⟨s0', w', k', e0', h1', hle', hit', h4', hgo', hstop', hwf', hsse', hXw', hw1', -⟩ :=
    C74_fit_completes hE hN hQ hA hlog hfreq hi' ht' hb hS
  obtain ⟨hG, hXs, hw, hU, hdec, q1, q2, hq⟩ := fit_sweeps hE hN hQ hA hridge ht e0
  obtain ⟨hG', hXs', hw', hU', hdec', q1', q2', hq'⟩ := fit_sweeps hE hN hQ hA hridge ht' e0'
  have horb := scaled_orbit hE hN hQ hA hridge ht ht' hs hsc hD e0 e0'
  have hd : 0 < X.shape.length := by have := hA.order; omega
  have hσ : ∀ r < c.opts.rank, ∏ k ∈ Finset.range X.shape.length, allScales s X.shape.length k r = 1 :=
    fun r hr => prod_allScales hd (hs r hr)
  rw [orbit_iterate hE hN hA.rank k hG] at h4
  rw [orbit_iterate hE hN hA.rank k' hG'] at h4'
  have hst := (Except.ok.inj h4).symm
  have hst' := (Except.ok.inj h4').symm
  have hlen : ∀ j, (CP.orbit E c.opts s0 j).dec.factorMatrices.length = X.shape.length := fun j => (q1 j).len 0 (Nat.zero_le _)
  have hlen' : ∀ j, (CP.orbit E c.opts s0' j).dec.factorMatrices.length = X.shape.length := fun j => (q1' j).len 0 (Nat.zero_le _)
  have hmod : ∀ j idx, Valid X.shape idx → cpEntry (fun _ => 1) (CP.orbit E c.opts s0' (j + 1)).dec.factorMatrices c.opts.rank idx =
      cpEntry (fun _ => 1) (CP.orbit E c.opts s0 (j + 1)).dec.factorMatrices c.opts.rank idx :=
    fun j idx hidx => cpEntry_scaled (hlen _) (hlen' _) hσ (horb j) hidx
  have hloss : ∀ j, (CP.orbit E c.opts s0' (j + 1)).trueSSE c.opts.rank = (CP.orbit E c.opts s0 (j + 1)).trueSSE c.opts.rank := by
    intro j
    rw [hq, hq']
    exact sumIdx_congr fun idx hidx => by rw [hmod j idx hidx]
  refine ⟨w, w', h1, h1', fun j hj hj' => ⟨fun idx hidx => ?_, ?_, ?_, ?_⟩, fun hk hk' => ?_, fun t1 t2 => ?_⟩
  · obtain rfl : k = j + 1 := by rw [hit] at hj; exact_mod_cast hj
    obtain rfl : k' = j + 1 := by rw [hit'] at hj'; exact_mod_cast hj'
    have c1 : ∀ (v : ℕ → ℝ) (fs : List (NDArray ℝ)), (∀ r < c.opts.rank, v r = 1) →
        cpEntry v fs c.opts.rank idx = cpEntry (fun _ => 1) fs c.opts.rank idx := fun v fs hv =>
      Finset.sum_congr rfl fun r hr => by rw [hv r (Finset.mem_range.1 hr)]
    rw [c1 _ _ hw1, c1 _ _ hw1', hst, hst', hmod j idx hidx]
  · obtain rfl : k = j + 1 := by rw [hit] at hj; exact_mod_cast hj
    obtain rfl : k' = j + 1 := by rw [hit'] at hj'; exact_mod_cast hj'
    exact ⟨_, hsse, by rw [hsse', hst, hst', hloss j]⟩
  · obtain rfl : k = j + 1 := by rw [hit] at hj; exact_mod_cast hj
    obtain rfl : k' = j + 1 := by rw [hit'] at hj'; exact_mod_cast hj'
    intro l hl hl0 i hi r hr
    have := horb j l hl i hi r hr
    rw [allScales, if_neg (by omega)] at this
    rw [hst, hst', this]
  · obtain rfl : k = j + 1 := by rw [hit] at hj; exact_mod_cast hj
    obtain rfl : k' = j + 1 := by rw [hit'] at hj'; exact_mod_cast hj'
    intro i hi r hr
    have := horb j 0 hd i hi r hr
    rw [allScales, if_pos rfl] at this
    rw [hst, hst', this]
  · have hs2 : ∀ j, CP.shouldStop c.opts (CP.orbit E c.opts s0' (j + 2)) = CP.shouldStop c.opts (CP.orbit E c.opts s0 (j + 2)) := by
      intro j
      obtain ⟨g, p⟩ := orbit_good hE hN hA.rank hG (j + 2)
      obtain ⟨g', p'⟩ := orbit_good hE hN hA.rank hG' (j + 2)
      rw [CP.shouldStop, CP.shouldStop, C35_sse g.sized g.cached, C35_sse g'.sized g'.cached, bind_ok, bind_ok,
        orbit_relChange hE hN hA.rank hG (j + 1), orbit_relChange hE hN hA.rank hG' (j + 1), hloss, hloss, p.XNorm, p'.XNorm,
        hG.cached.norm, hG'.cached.norm, hXs, hXs']
    rw [hit] at hk ⊢
    rw [hit'] at hk' ⊢
    obtain ⟨n, rfl⟩ : ∃ n, k = n + 2 := ⟨k - 2, by omega⟩
    obtain ⟨n', rfl⟩ : ∃ n, k' = n + 2 := ⟨k' - 2, by omega⟩
    obtain hlt | heq | hgt := lt_trichotomy n n'
    · obtain ⟨a, ea, ha⟩ := hgo' (n + 2) (by omega)
      rw [orbit_iterate hE hN hA.rank _ hG'] at ea
      rw [← Except.ok.inj ea, hs2, ← hst, hstop (by push_cast at hle' ⊢; omega)] at ha
      cases ha
    · rw [heq]
    · obtain ⟨a, ea, ha⟩ := hgo (n' + 2) (by omega)
      rw [orbit_iterate hE hN hA.rank _ hG] at ea
      rw [← Except.ok.inj ea, ← hs2, ← hst', hstop' (by push_cast at hle ⊢; omega)] at ha
      cases ha
  · refine ⟨?_, ?_⟩
    · rw [hit]
      refine le_antisymm hle (not_lt.1 fun hlt => ?_)
      have := hstop hlt
      rw [hst, never_stops t1 t2 (orbit_good hE hN hA.rank hG k).1] at this
      cases this
    · rw [hit']
      refine le_antisymm hle' (not_lt.1 fun hlt => ?_)
      have := hstop' hlt
      rw [hst', never_stops t1 t2 (orbit_good hE hN hA.rank hG' k').1] at this
      cases this

/-! ## A concrete case -/

/-- The fit of `diag(2, 1)` with one component from the second factor matrix `(0, 1)` has no underdetermined update. -/
theorem determined_matrix21 (hE : E.SVDOk) (hN : E.NNLSOk) (hQ : E.QROk) : Determined E matrixConfig.opts matrix21 (matrixStart 0 1) := by
  have hA : CP.Admissible matrixConfig.opts none none matrix21.shape :=
    ⟨by decide, by simp [matrix21], by simp [matrix21], by simp, by simp, by simp [matrixConfig], by simp, by simp⟩
  have ht : (matrixStart 0 1).WF matrix21.shape matrixConfig.opts.rank := ⟨rfl, .cons rfl (.cons rfl .nil), rfl⟩
  intro s0 e0 j a b ea eb
  obtain ⟨hG, hXs, hw, hU, hdec, q1, q2, hq⟩ := fit_sweeps hE hN hQ hA rfl ht e0
  rw [orbit_iterate hE hN hA.rank _ hG] at ea eb
  obtain rfl := Except.ok.inj ea
  obtain rfl := Except.ok.inj eb
  have hone : (!![0; 1] : Matrix (Fin 2) (Fin 1) ℝ)ᵀ * (!![0; 1] : Matrix (Fin 2) (Fin 1) ℝ) = 1 := by
    ext i j; fin_cases i; fin_cases j; simp [mul_apply]
  have step : ∀ j A B, CP.during E matrixConfig.opts s0 j 0 = [A, B] → mat B 2 1 = !![0; 1] →
      ∃ F H, CP.during E matrixConfig.opts s0 (j + 1) 0 = [F, H] ∧ mat F 2 1 = !![0; 1] ∧ mat H 2 1 = !![0; 1] := by
    intro j A B e hB
    obtain ⟨F, H, e', n1, n2, -⟩ := sweep_two (I := 2) (J := 2) (X := matrix21) (R := 1) rfl (q1 j) e
    rw [hB, hone, Matrix.mul_one, mat_matrix21] at n1
    have hF : mat F 2 1 = !![0; 1] := by
      rw [n1]; ext i j; fin_cases i <;> fin_cases j <;> simp [mul_apply]
    rw [hF, hone, Matrix.mul_one, mat_matrix21] at n2
    refine ⟨F, H, by rw [← q2 j]; exact e', hF, ?_⟩
    rw [n2]; ext i j; fin_cases i <;> fin_cases j <;> simp [mul_apply]
  have key : ∀ j, ∃ A B, CP.during E matrixConfig.opts s0 j 0 = [A, B] ∧ mat B 2 1 = !![0; 1] := by
    intro j
    induction j with
    | zero =>
      refine ⟨_, _, by rw [during_zero, show CP.orbit E matrixConfig.opts s0 0 = s0 from rfl, hdec]; rfl, ?_⟩
      ext i j
      rw [mat, get_ofMat i.2 j.2]
      fin_cases i <;> fin_cases j <;> simp
    | succ j ih =>
      obtain ⟨A, B, e, hB⟩ := ih
      obtain ⟨F, H, e', -, hH⟩ := step j A B e hB
      exact ⟨F, H, e', hH⟩
  obtain ⟨A, B, e, hB⟩ := key j
  obtain ⟨F, H, e', hF, hH⟩ := step j A B e hB
  rw [during_zero] at e e'
  have hind : ∀ G : NDArray ℝ, mat G 2 1 = !![0; 1] → ∀ v : ℕ → ℝ,
      (∀ idx, Valid [2] idx → ∑ r ∈ Finset.range 1, v r * rankOne [G] idx r = 0) → ∀ r < 1, v r = 0 := by
    intro G hG v hv r hr
    obtain rfl : r = 0 := by omega
    have h1 : G.get [1, 0] = 1 := by
      have := congrFun (congrFun hG 1) 0
      simpa [mat] using this
    have := hv [1] (by simp [Valid])
    simpa [rankOne, h1] using this
  rw [e, e']
  intro m hm
  obtain rfl | rfl : m = 0 ∨ m = 1 := by
    have : m < 2 := hm
    omega
  · exact hind B hB
  · exact hind F hF

/-- The hypotheses of `C156_scale`: the starts `(1, 1), (0, 1)` and `(1, 1), (0, -3)`. -/
example (hE : E.SVDOk) (hN : E.NNLSOk) (hQ : E.QROk) : CP.Admissible matrixConfig.opts none none matrix21.shape ∧
    CP.StartsFrom E matrixConfig none none (.tensor (matrixStart 0 1)) matrix21 (matrixStart 0 1) ∧
    CP.StartsFrom E matrixConfig none none (.tensor (matrixStart 0 (-3))) matrix21 (matrixStart 0 (-3)) ∧
    (matrixStart 0 1).WF matrix21.shape 1 ∧ (matrixStart 0 (-3)).WF matrix21.shape 1 ∧
    Storing (CP.method E matrixConfig) (CP.newObject none none 10 [] none) [] ∧
    (∀ k < 2, 0 < k → ScaledBy matrix21.shape (fun _ _ => -3) 1 k (matrixStart 0 1).factorMatrices (matrixStart 0 (-3)).factorMatrices) ∧
    Determined E matrixConfig.opts matrix21 (matrixStart 0 1) := by
  have ht : ∀ x y, (matrixStart x y).WF matrix21.shape matrixConfig.opts.rank := fun _ _ => ⟨rfl, .cons rfl (.cons rfl .nil), rfl⟩
  have hi : matrixConfig.init.toLower = "precomputed" := by
    show "precomputed".toLower = _
    rw [String.toLower, ← String.toList_inj, String.toList_map]; decide
  refine ⟨⟨by decide, by simp [matrix21], by simp [matrix21], by simp, by simp, by simp [matrixConfig], by simp, by simp⟩,
    startsFrom_precomputed hi (ht _ _), startsFrom_precomputed hi (ht _ _), ht _ _, ht _ _,
    ⟨fun h => absurd h (show ¬ (0 : Int) < -1 by decide), fun h => absurd h (show ¬ (0 : Int) < -1 by decide),
      fun h => absurd h (show ¬ (0 : Int) < -1 by decide)⟩, ?_, determined_matrix21 hE hN hQ⟩
  intro k hk h0 i hi r hr
  obtain rfl : k = 1 := by omega
  have hi' : i < 2 := hi
  show (ofMat 2 1 fun i _ => if i = 0 then (0 : ℝ) else -3).get [i, r] = -3 * (ofMat 2 1 fun i _ => if i = 0 then (0 : ℝ) else 1).get [i, r]
  rw [get_ofMat hi' hr, get_ofMat hi' hr]
  split <;> norm_num

end

end TK
