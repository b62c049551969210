import Verif.Props.OneComponentCore
import Verif.Props.IterationBound

/-!
# C100, C165: fits with one component and non-negative factor matrices

Source: cp.py (`CP_ALS._fit`), metrics.py (`core_consistency`). `C100_fails` has a constraint on the last mode and two components. With one component the
non-negative update minimises the squared error, and so the residual is orthogonal to the model although it need not be orthogonal to other
models with the same factor matrices in the other modes.
-/

namespace TK
open NDArray Fit
open EStateM (Result)

noncomputable section

/-- A quadratic function that is not negative on `(-∞, 1]` and zero at 0 has slope zero there. -/
theorem slope_zero {p q : ℝ} (hq : 0 ≤ q) (h : ∀ u ≤ 1, 0 ≤ 2 * u * p + u ^ 2 * q) : p = 0 := by
  by_contra hp
  have hD : 0 < q + |p| + 1 := by positivity
  have h1 := h (-p / (q + |p| + 1)) (by
    rw [div_le_one hD]
    linarith [neg_le_abs p])
  have h2 : 2 * (-p / (q + |p| + 1)) * p + (-p / (q + |p| + 1)) ^ 2 * q = -(p ^ 2 * (q + 2 * |p| + 2)) / (q + |p| + 1) ^ 2 := by
    field_simp
    ring
  rw [h2] at h1
  have h3 : 0 < p ^ 2 * (q + 2 * |p| + 2) := by positivity
  have := div_neg_of_neg_of_pos (neg_neg_of_pos h3) (pow_pos hD 2)
  linarith

variable {X : NDArray ℝ} {R : ℕ} {flags : List Bool} {g : ℕ → List (NDArray ℝ)}

/-- After a sweep with one component, or without flags, the residual is orthogonal to the model. -/
theorem NonNegSweep.orthogonal (h : NonNegSweep X R flags g) (hR : R = 1 ∨ ∀ m : ℕ, flags[m]? ≠ some true) (h0 : 0 < X.shape.length) :
    (sumIdx X.shape fun idx => (X.get idx - cpEntry (fun _ => 1) (g X.shape.length) R idx) * cpEntry (fun _ => 1) (g X.shape.length) R idx) = 0 := by
  obtain ⟨m, hm1⟩ : ∃ m, X.shape.length = m + 1 := ⟨X.shape.length - 1, by omega⟩
  have hm : m < X.shape.length := by omega
  obtain ⟨F, e, -, h2⟩ := h.step m hm
  rw [hm1]
  refine slope_zero (q := sumIdx X.shape fun idx => cpEntry (fun _ => 1) (g (m + 1)) R idx ^ 2) (sumIdx_nonneg fun _ _ => sq_nonneg _) fun u hu => ?_
  have hb := h.best hR hm (Y := ofMat (X.shape.getD m 0) R fun i r => (1 - u) * F.get [i, r]) rfl fun hf i hi r hr => by
    rw [get_ofMat hi hr]
    exact mul_nonneg (by linarith) ((h2 hf).1 i hi r hr)
  have hs : sqErr X (fun _ => 1) ((g m).set m (ofMat (X.shape.getD m 0) R fun i r => (1 - u) * F.get [i, r])) R =
      sqErr X (fun _ => 1) (g (m + 1)) R + (2 * u * (sumIdx X.shape fun idx => (X.get idx - cpEntry (fun _ => 1) (g (m + 1)) R idx) *
        cpEntry (fun _ => 1) (g (m + 1)) R idx) + u ^ 2 * sumIdx X.shape fun idx => cpEntry (fun _ => 1) (g (m + 1)) R idx ^ 2) := by
    rw [sqErr, sqErr, mul_sumIdx, mul_sumIdx, ← sumIdx_add, ← sumIdx_add]
    refine sumIdx_congr fun idx hidx => ?_
    rw [cpEntry_set_linear (h.len m hm.le) hm (F := F) (Y := F) (c := -u) _ (fun i hi r hr => by rw [get_ofMat hi hr]; ring) hidx, ← e]
    ring
  rw [hs] at hb
  linarith

/-- **C100** for one component (or no constraints) and any non-negativity constraints, also on the last mode: after a fit of `CP_ALS` without penalties and
orthonormality constraints that makes an iteration, the residual is orthogonal to the model and the explained variance is between 0 and 1. -/
theorem C100_one_partial {E : Ext} (hE : E.SVDOk) (hN : E.NNLSOk) (hQ : E.QROk) {c : CP.Config} {nonNeg : Option (List Bool)}
    (hA : CP.Admissible c.opts nonNeg none X.shape) (hridge : c.opts.ridgePenalties = none) (hR : c.opts.rank = 1 ∨ nonNeg = none)
    (hlog : c.Measurable) (hfreq : freqOption c.freq ≠ 0) {arg : InitArg KruskalTensor} {t : KruskalTensor}
    (hi : CP.StartsFrom E c nonNeg none arg X t) (ht : t.WF X.shape c.opts.rank)
    {budget : Int} {mi : Option Int} (hb : 0 < mi.getD budget) {loggers : List Logger} {file : Option H5File}
    (hS : Storing (CP.method E c) (CP.newObject nonNeg none budget loggers file) []) :
    ∃ w, CP.fit E c X mi arg (CP.newObject nonNeg none budget loggers file) = .ok () w ∧ w.st.X = X ∧ w.st.dec.WF X.shape c.opts.rank ∧
      (∀ r < c.opts.rank, w.st.dec.weights.get [r] = 1) ∧ (1 ≤ w.it →
        (sumIdx X.shape fun idx => (X.get idx - cpEntry (fun _ => 1) w.st.dec.factorMatrices c.opts.rank idx) *
          cpEntry (fun _ => 1) w.st.dec.factorMatrices c.opts.rank idx) = 0 ∧
        CP.sse w.st = .ok (sumSq X - modelSq X.shape (fun _ => 1) w.st.dec.factorMatrices c.opts.rank) ∧
        ((∃ idx, Valid X.shape idx ∧ X.get idx ≠ 0) → ∃ v, CP.explainedVariance w.st = .ok (.fin v) ∧ 0 ≤ v ∧ v ≤ 1 ∧
          v = modelSq X.shape (fun _ => 1) w.st.dec.factorMatrices c.opts.rank / sumSq X)) := by
  obtain ⟨s0, w, k, e0, h1, -, hit, h2, -, -, hwf, hsse, hX', hw1, -⟩ := C74_fit_completes hE hN hQ hA hlog hfreq hi ht hb hS
  obtain ⟨s0', e0', hG, hXs, -, -, hones, hnn, hon, -⟩ := initFit_good (E := E) hQ (old := CP.fresh nonNeg none) rfl hA ht
  rw [e0] at e0'
  obtain rfl : s0 = s0' := Except.ok.inj e0'
  rw [orbit_iterate hE hN hA.rank k hG] at h2
  have hst : w.st = CP.orbit E c.opts s0 k := (Except.ok.inj h2).symm
  have hone : ∀ r < c.opts.rank, w.st.dec.weights.get [r] = 1 := fun r hr => by
    rw [hst, (orbit_good hE hN hA.rank hG k).2.weights]; exact hones r hr
  refine ⟨w, h1, hX', hwf, hone, fun hk => ?_⟩
  obtain ⟨j, rfl⟩ : ∃ j, k = j + 1 := ⟨k - 1, by omega⟩
  obtain ⟨gk, pk⟩ := orbit_good hE hN hA.rank hG (j + 1)
  have hU : s0.Flagged (CP.flagsOf nonNeg X.shape.length) := by
    refine ⟨hnn, ?_, _, hon, fun m hm => ?_⟩
    · rw [hXs]
      cases hq : nonNeg with
      | none => simp [CP.flagsOf]
      | some l => simpa [CP.flagsOf] using hA.nonNegLen l hq
    · simpa [CP.fresh, List.getElem?_replicate] using hXs ▸ hm
  have hR' : c.opts.rank = 1 ∨ ∀ m : ℕ, (CP.flagsOf nonNeg X.shape.length)[m]? ≠ some true := by
    refine hR.imp_right fun h m hm => ?_
    rw [h, CP.flagsOf, Option.getD_none, List.getElem?_replicate] at hm
    split at hm <;> simp at hm
  obtain ⟨q1, q2⟩ := flagged_orbit hE hN hA.rank hridge hG hones hU
  rw [hXs] at q1 q2
  have hres := (q1 j).orthogonal hR' (by have := hA.order; omega)
  rw [q2 j, during_zero, ← hst] at hres
  have htrue : w.st.trueSSE c.opts.rank = sumSq X - modelSq X.shape (fun _ => 1) w.st.dec.factorMatrices c.opts.rank := by
    rw [CPState.trueSSE, hX', sqErr_congr_weights (w' := fun _ => 1) hone]
    exact sqErr_of_orthogonal hres
  refine ⟨hres, by rw [hsse, htrue], fun h0 => ?_⟩
  obtain ⟨v, ev, hv, hv1, -⟩ := C66_explained_variance (s := w.st) (R := c.opts.rank) (hst ▸ gk.sized) (hst ▸ gk.cached)
    (by rw [hX']; exact h0)
  have hXp : 0 < sumSq X := by
    refine lt_of_le_of_ne (sumIdx_nonneg fun _ _ => sq_nonneg _) fun hz => ?_
    obtain ⟨idx, hi, hne⟩ := h0
    exact hne (sumSq_eq_zero_iff.1 hz.symm idx hi)
  have hvq : v = modelSq X.shape (fun _ => 1) w.st.dec.factorMatrices c.opts.rank / sumSq X := by
    rw [hv, htrue, hX']
    field_simp
    ring
  refine ⟨v, ev, ?_, hv1, hvq⟩
  rw [hvq]
  exact div_nonneg (sumIdx_nonneg fun _ _ => sq_nonneg _) hXp.le

/-- **C165** with non-negative factor matrices, also of the last mode. -/
theorem C165_nonneg {E : Ext} (hE : E.SVDOk) (hN : E.NNLSOk) (hQ : E.QROk) {c : CP.Config} {nonNeg : Option (List Bool)}
    {I J K : ℕ} (hX : X.shape = [I, J, K]) (hR : c.opts.rank = 1)
    (hA : CP.Admissible c.opts nonNeg none X.shape) (hridge : c.opts.ridgePenalties = none)
    (hlog : c.Measurable) (hfreq : freqOption c.freq ≠ 0) {arg : InitArg KruskalTensor} {t : KruskalTensor}
    (hi : CP.StartsFrom E c nonNeg none arg X t) (ht : t.WF X.shape c.opts.rank)
    {budget : Int} {mi : Option Int} (hb : 0 < mi.getD budget) {loggers : List Logger} {file : Option H5File}
    (hS : Storing (CP.method E c) (CP.newObject nonNeg none budget loggers file) []) :
    ∃ w, CP.fit E c X mi arg (CP.newObject nonNeg none budget loggers file) = .ok () w ∧ (1 ≤ w.it →
      (∃ idx, Valid X.shape idx ∧ cpEntry (fun _ => 1) w.st.dec.factorMatrices 1 idx ≠ 0) →
      ∀ {E' : Ext}, E'.QROk → ∀ {eps : ℝ}, 0 < eps →
        w.st.dec.coreConsistency E' X false eps =
          .ok (.fin (100 * (1 - (1 / guard eps w.st.dec.factorMatrices [I, J, K] 0 - 1) ^ 2)))) := by
  obtain ⟨w, h1, -, hwf, -, hgo⟩ := C100_one_partial hE hN hQ hA hridge (Or.inl hR) hlog hfreq hi ht hb hS
  refine ⟨w, h1, fun hit hne E' hE' eps he => ?_⟩
  obtain ⟨hres, -⟩ := hgo hit
  have hfs := hwf.factors
  rw [hX, hR] at hfs
  obtain ⟨A, B, C, hf, hsA, hsB, hsC⟩ : ∃ A B C, w.st.dec.factorMatrices = [A, B, C] ∧ A.shape = [I, 1] ∧ B.shape = [J, 1] ∧
      C.shape = [K, 1] := by
    revert hfs
    generalize w.st.dec.factorMatrices = fs
    intro hfs
    cases hfs with
    | cons h1 h2 => cases h2 with
      | cons h2 h3 => cases h3 with
        | cons h3 h4 => cases h4; exact ⟨_, _, _, rfl, h1, h2, h3⟩
  have hentry : ∀ i j l, cpEntry (fun _ => 1) [A, B, C] 1 [i, j, l] = A.get [i, 0] * B.get [j, 0] * C.get [l, 0] := by
    intro i j l
    rw [cpEntry, Finset.sum_range_one]
    simp only [rankOne]
    ring
  rw [hf] at hne hres ⊢
  obtain ⟨idx, hv, hne⟩ := hne
  rw [hX] at hv
  match idx, hv with
  | [i, j, l], ⟨a, b, d, _⟩ =>
    rw [hentry] at hne
    have nA : A.get [i, 0] ≠ 0 := fun h => hne (by rw [h]; ring)
    have nB : B.get [j, 0] ≠ 0 := fun h => hne (by rw [h]; ring)
    have nC : C.get [l, 0] ≠ 0 := fun h => hne (by rw [h]; ring)
    rw [hX, hR, sumIdx_three] at hres
    simp only [hentry] at hres
    have := core_of_orthogonal hE' he hX hsA hsB hsC (indep_one a nA) (indep_one b nB) (indep_one d nC) hres
    rw [KruskalTensor.coreConsistency, hf]
    exact this

/-- **C38** for fits with one component: from non-negative factor matrices, the SSE after a fit with non-negativity constraints and no penalties is at
most that of the start (with weights one, which `_init_fit` sets). -/
theorem C38_one_partial {E : Ext} (hE : E.SVDOk) (hN : E.NNLSOk) (hQ : E.QROk) {c : CP.Config} {nonNeg : Option (List Bool)}
    (hA : CP.Admissible c.opts nonNeg none X.shape) (hridge : c.opts.ridgePenalties = none) (hR : c.opts.rank = 1 ∨ nonNeg = none)
    (hlog : c.Measurable) (hfreq : freqOption c.freq ≠ 0) {arg : InitArg KruskalTensor} {t : KruskalTensor}
    (hi : CP.StartsFrom E c nonNeg none arg X t) (ht : t.WF X.shape c.opts.rank)
    (hstart : ∀ l, nonNeg = some l → ∀ m < X.shape.length, l[m]? = some true → NonNeg (modeMat t.factorMatrices m) (X.shape.getD m 0) c.opts.rank)
    {budget : Int} {mi : Option Int} (hb : 0 < mi.getD budget) {loggers : List Logger} {file : Option H5File}
    (hS : Storing (CP.method E c) (CP.newObject nonNeg none budget loggers file) []) :
    ∃ w e, CP.fit E c X mi arg (CP.newObject nonNeg none budget loggers file) = .ok () w ∧ CP.sse w.st = .ok e ∧
      e ≤ sqErr X (fun _ => 1) t.factorMatrices c.opts.rank := by
  obtain ⟨s0, w, k, e0, h1, -, hit, h2, -, -, hwf, hsse, hX', hw1, -⟩ := C74_fit_completes hE hN hQ hA hlog hfreq hi ht hb hS
  obtain ⟨s0', e0', hG, hXs, -, -, hones, hnn, hon, hdec⟩ := initFit_good (E := E) hQ (old := CP.fresh nonNeg none) rfl hA ht
  rw [e0] at e0'
  obtain rfl : s0 = s0' := Except.ok.inj e0'
  rw [orbit_iterate hE hN hA.rank k hG] at h2
  have hst : w.st = CP.orbit E c.opts s0 k := (Except.ok.inj h2).symm
  have hfl : ∀ {m : ℕ}, m < X.shape.length → (CP.flagsOf nonNeg X.shape.length)[m]? = some true →
      NonNeg (modeMat t.factorMatrices m) (X.shape.getD m 0) c.opts.rank := by
    intro m hm hf
    cases hq : nonNeg with
    | none =>
      rw [hq, CP.flagsOf, Option.getD_none, List.getElem?_replicate] at hf
      split at hf <;> simp at hf
    | some l => exact hstart l hq m hm (by rw [hq] at hf; exact hf)
  have hU : s0.Flagged (CP.flagsOf nonNeg X.shape.length) := by
    refine ⟨hnn, ?_, _, hon, fun m hm => ?_⟩
    · rw [hXs]
      cases hq : nonNeg with
      | none => simp [CP.flagsOf]
      | some l => simpa [CP.flagsOf] using hA.nonNegLen l hq
    · simpa [CP.fresh, List.getElem?_replicate] using hXs ▸ hm
  have hR' : c.opts.rank = 1 ∨ ∀ m : ℕ, (CP.flagsOf nonNeg X.shape.length)[m]? ≠ some true := by
    refine hR.imp_right fun h m hm => ?_
    rw [h, CP.flagsOf, Option.getD_none, List.getElem?_replicate] at hm
    split at hm <;> simp at hm
  obtain ⟨q1, q2⟩ := flagged_orbit hE hN hA.rank hridge hG hones hU
  rw [hXs] at q1 q2
  have hmono : ∀ j, sqErr X (fun _ => 1) (CP.during E c.opts s0 j 0) c.opts.rank ≤ sqErr X (fun _ => 1) t.factorMatrices c.opts.rank ∧
      ∀ m < X.shape.length, (CP.flagsOf nonNeg X.shape.length)[m]? = some true →
        NonNeg (modeMat (CP.during E c.opts s0 j 0) m) (X.shape.getD m 0) c.opts.rank := by
    intro j
    induction j with
    | zero =>
      rw [during_zero, show CP.orbit E c.opts s0 0 = s0 from rfl, hdec rfl]
      exact ⟨le_rfl, fun m hm hf => hfl hm hf⟩
    | succ j ih =>
      rw [← q2 j]
      exact ⟨((q1 j).le_start hR' ih.2 _ le_rfl).trans ih.1, fun m hm hf => (q1 j).admissible hm hf⟩
  refine ⟨w, _, h1, hsse, ?_⟩
  rw [CPState.trueSSE, hX', sqErr_congr_weights (w' := fun _ => 1) (fun r hr => by
    rw [hst, (orbit_good hE hN hA.rank hG k).2.weights]; exact hones r hr), hst]
  exact (hmono k).1

/-- A case of the hypotheses of `C38_one_partial`, `C100_one_partial` and `C165_nonneg`: `cornerTensor` with three non-negative modes, ten iterations from the
first unit vectors, where the error is 2. -/
example {E : Ext} (hE : E.SVDOk) (hN : E.NNLSOk) (hQ : E.QROk) :
    ∃ w e v, CP.fit E matrixConfig cornerTensor (some 10) (.tensor ⟨1, [ofMat 2 1 fun i _ => if i = 0 then 1 else 0, ofMat 2 1 fun i _ => if i = 0 then 1 else 0,
        ofMat 2 1 fun i _ => if i = 0 then 1 else 0], full [1] 1⟩) (CP.newObject (some [true, true, true]) none 10 [] none) = .ok () w ∧
      CP.sse w.st = .ok e ∧ e ≤ 2 ∧ CP.explainedVariance w.st = .ok (.fin v) ∧ 3 / 5 ≤ v ∧ v ≤ 1 ∧
      w.st.dec.coreConsistency E cornerTensor false 1e-15 =
        .ok (.fin (100 * (1 - (1 / guard 1e-15 w.st.dec.factorMatrices [2, 2, 2] 0 - 1) ^ 2))) := by
  set U : NDArray ℝ := ofMat 2 1 fun i _ => if i = 0 then 1 else 0 with hU
  have ht : KruskalTensor.WF ⟨1, [U, U, U], full [1] 1⟩ cornerTensor.shape matrixConfig.opts.rank :=
    ⟨rfl, .cons rfl (.cons rfl (.cons rfl .nil)), rfl⟩
  have hi : matrixConfig.init.toLower = "precomputed" := by
    show "precomputed".toLower = _
    rw [String.toLower, ← String.toList_inj, String.toList_map]; decide
  have hA : CP.Admissible matrixConfig.opts (some [true, true, true]) none cornerTensor.shape :=
    ⟨by decide, by simp [cornerTensor, ofFn, ofFlat], by simp [cornerTensor, ofFn, ofFlat], by simp [cornerTensor, ofFn, ofFlat], by simp,
      by simp [matrixConfig], by simp, by simp⟩
  have hS : Storing (CP.method E matrixConfig) (CP.newObject (some [true, true, true]) none 10 [] none) [] :=
    ⟨fun h => absurd h (show ¬ (0 : Int) < -1 by decide), fun h => absurd h (show ¬ (0 : Int) < -1 by decide),
      fun h => absurd h (show ¬ (0 : Int) < -1 by decide)⟩
  have hlog : matrixConfig.Measurable := fun p hp => by cases hp
  have hfreq : freqOption matrixConfig.freq ≠ 0 := show freqOption none ≠ 0 by decide
  have hst := startsFrom_precomputed (E := E) (c := matrixConfig) (nonNeg := some [true, true, true]) (orth := none) hi ht
  obtain ⟨w, e, h1, h2, h3⟩ := C38_one_partial hE hN hQ hA rfl (Or.inl rfl) hlog hfreq hst ht (fun l hl m hm hf i hi r hr => by
      have hm : m < 3 := hm
      have hr : r < 1 := hr
      have : modeMat [U, U, U] m = U := by interval_cases m <;> rfl
      show 0 ≤ (modeMat [U, U, U] m).get [i, r]
      have hi : i < 2 := by interval_cases m <;> exact hi
      rw [this, hU, get_ofMat hi hr]
      split <;> norm_num)
    (mi := some 10) (budget := 10) (loggers := []) (file := none) (by decide) hS
  obtain ⟨w', h1', hX', -, -, hgo⟩ := C100_one_partial hE hN hQ hA rfl (Or.inl rfl) hlog hfreq hst ht
    (mi := some 10) (budget := 10) (loggers := []) (file := none) (by decide) hS
  rw [h1] at h1'
  obtain rfl : w = w' := by injection h1'
  obtain ⟨w', h1', hcore⟩ := C165_nonneg hE hN hQ (X := cornerTensor) (I := 2) (J := 2) (K := 2) rfl rfl hA rfl hlog hfreq hst ht
    (mi := some 10) (budget := 10) (loggers := []) (file := none) (by decide) hS
  rw [h1] at h1'
  obtain rfl : w = w' := by injection h1'
  obtain ⟨s0, w', k, e0, h1', -, hit, hk, -, hstop, -⟩ := C74_fit_completes hE hN hQ hA hlog hfreq hst ht
    (mi := some 10) (budget := 10) (loggers := []) (file := none) (by decide) hS
  rw [h1] at h1'
  obtain rfl : w = w' := by injection h1'
  have hpos : 1 ≤ w.it := by
    by_contra hlt
    have hk0 : (k : Int) < 10 := by omega
    obtain ⟨s0', e0', hG, -⟩ := initFit_good (E := E) hQ (old := CP.fresh (some [true, true, true]) none) rfl hA ht
    rw [e0] at e0'
    obtain rfl : s0 = s0' := Except.ok.inj e0'
    rw [orbit_iterate hE hN hA.rank k hG] at hk
    have h3 := never_stops (o := matrixConfig.opts) le_rfl le_rfl (orbit_good hE hN hA.rank hG k).1
    rw [Except.ok.inj hk, hstop hk0] at h3
    cases h3
  have hv : ∀ i < 2, ∀ j < 2, ∀ l < 2, Valid [2, 2, 2] [i, j, l] := fun i hi j hj l hl => ⟨hi, hj, hl, trivial⟩
  have e1 : sumSq cornerTensor = 5 := by
    rw [sumSq, show cornerTensor.shape = [2, 2, 2] from rfl, sumIdx_three]
    simp only [Finset.sum_range_succ, Finset.sum_range_zero, cornerTensor]
    repeat rw [get_ofFn (hv _ (by norm_num) _ (by norm_num) _ (by norm_num))]
    norm_num
  have e2 : sqErr cornerTensor (fun _ => 1) [U, U, U] 1 = 2 := by
    rw [sqErr, show cornerTensor.shape = [2, 2, 2] from rfl, sumIdx_three]
    simp only [Finset.sum_range_succ, Finset.sum_range_zero, cornerTensor, cpEntry, rankOne, hU]
    repeat rw [get_ofFn (hv _ (by norm_num) _ (by norm_num) _ (by norm_num))]
    simp only [get_ofMat (show 0 < 2 by norm_num) (show 0 < 1 by norm_num), get_ofMat (show 1 < 2 by norm_num) (show 0 < 1 by norm_num)]
    norm_num
  obtain ⟨-, h4, h5⟩ := hgo hpos
  rw [h2] at h4
  have h4 := Except.ok.inj h4
  have h3 : e ≤ 2 := by rw [← e2]; exact h3
  rw [e1] at h4
  obtain ⟨v, ev, -, v1, hv2⟩ := h5 ⟨[0, 0, 0], hv 0 (by omega) 0 (by omega) 0 (by omega), by
    rw [cornerTensor, get_ofFn (hv 0 (by omega) 0 (by omega) 0 (by omega))]; norm_num⟩
  rw [e1] at hv2
  refine ⟨w, e, v, h1, h2, h3, ev, ?_, v1, hcore hpos ?_ hQ (by norm_num)⟩
  · rw [hv2]; linarith
  · by_contra hne
    push Not at hne
    have e3 : modelSq cornerTensor.shape (fun _ => 1) w.st.dec.factorMatrices matrixConfig.opts.rank = 0 := by
      rw [modelSq]
      refine (sumIdx_congr fun idx hidx => ?_).trans (sumIdx_zero _)
      rw [show matrixConfig.opts.rank = 1 from rfl, hne idx hidx]
      norm_num
    rw [e3] at h4
    linarith

end

end TK
