import Verif.Props.StartScale
import Verif.Lemmas.NonNegLimits
import Mathlib.Topology.Instances.Matrix

/-!
# C157: fits depend continuously on the data and the start

Source: cp.py:385-423 (`_update_als_factor`, `_update_als_factors`, the loop).
-/

namespace TK
open NDArray Fit Matrix Filter Topology
open EStateM (Result)

noncomputable section

variable {X : NDArray ℝ} {R m : ℕ} {fs : List (NDArray ℝ)}

/-- A minimiser meets the normal equations. -/
theorem normal_equations (hf : fs.length = X.shape.length) (hm : m < X.shape.length) {F : NDArray ℝ}
    (hF : ∀ Z : NDArray ℝ, Z.shape = [X.shape.getD m 0, R] → sqErr X (fun _ => 1) (fs.set m F) R ≤ sqErr X (fun _ => 1) (fs.set m Z) R)
    {i r : ℕ} (hi : i < X.shape.getD m 0) (hr : r < R) :
    ∑ a ∈ Finset.range R, F.get [i, a] * restDot X fs m a r = mttkrpEntry X fs m i r := by
  have h := optimal_orthogonal hf hm hF (unitMat (X.shape.getD m 0) R i r)
  rw [← inner_unit hf hm F hi hr, mttkrpEntry, ← sumIdx_unit hf hm (fun idx => X.get idx) hi hr, ← sub_eq_zero, ← sumIdx_sub, ← neg_eq_zero,
    ← h, ← neg_one_mul, mul_sumIdx]
  exact sumIdx_congr fun idx _ => by ring

theorem restGram_det' (h : RestIndependent X.shape fs m R) : (restGram X.shape fs R m).det ≠ 0 := by
  intro h0
  obtain ⟨v, hv, hz⟩ := Matrix.exists_mulVec_eq_zero_iff.2 h0
  refine hv ?_
  let u : ℕ → ℝ := fun r => if hr : r < R then v ⟨r, hr⟩ else 0
  have hu : ∀ r : Fin R, u r = v r := fun r => by simp [u]
  have hsum : (sumIdx (X.shape.eraseIdx m) fun idx => (∑ r ∈ Finset.range R, u r * rankOne (fs.eraseIdx m) idx r) ^ 2) = 0 := by
    have h1 : (sumIdx (X.shape.eraseIdx m) fun idx => (∑ r ∈ Finset.range R, u r * rankOne (fs.eraseIdx m) idx r) ^ 2) =
        v ⬝ᵥ (restGram X.shape fs R m *ᵥ v) := by
      simp only [dotProduct, mulVec, restGram, Matrix.of_apply, Finset.mul_sum]
      simp only [← hu]
      rw [Finset.sum_congr rfl fun a _ => Finset.sum_congr rfl fun b _ => by rw [mul_comm (sumIdx _ _), mul_sumIdx, mul_sumIdx]]
      rw [Finset.sum_congr rfl fun a _ => (sumIdx_sum _ _ _).symm, ← sumIdx_sum]
      refine sumIdx_congr fun idx _ => ?_
      rw [sq, Finset.sum_mul_sum, Finset.sum_range]
      refine Finset.sum_congr rfl fun a _ => ?_
      rw [Finset.sum_range]
      exact Finset.sum_congr rfl fun b _ => by ring
    rw [h1, hz, dotProduct_zero]
  funext r
  rw [← hu]
  exact h u (sumSq_eq_zero_iff.1 hsum) r r.2

/-- Cramer's rule for the update. -/
theorem cramer_update (hf : fs.length = X.shape.length) (hm : m < X.shape.length) {F : NDArray ℝ}
    (hF : ∀ Z : NDArray ℝ, Z.shape = [X.shape.getD m 0, R] → sqErr X (fun _ => 1) (fs.set m F) R ≤ sqErr X (fun _ => 1) (fs.set m Z) R)
    {i : ℕ} (hi : i < X.shape.getD m 0) (r : Fin R) :
    (restGram X.shape fs R m).det * F.get [i, r] =
      ∑ a : Fin R, mttkrpEntry X fs m i a * (restGram X.shape fs R m).adjugate a r := by
  have h1 : (fun a : Fin R => F.get [i, (a : ℕ)]) ᵥ* restGram X.shape fs R m = fun a : Fin R => mttkrpEntry X fs m i a := by
    funext a
    rw [← normal_equations hf hm hF hi a.2, Finset.sum_range]
    rfl
  have h2 := congrFun (congrArg (· ᵥ* (restGram X.shape fs R m).adjugate) h1) r
  simp only [vecMul_vecMul, mul_adjugate, vecMul_smul, vecMul_one, Pi.smul_apply, smul_eq_mul] at h2
  exact h2

/-- Spec: the data converge entry by entry. -/
def DataTendTo (Xs : ℕ → NDArray ℝ) (X : NDArray ℝ) : Prop :=
  (∀ n, (Xs n).shape = X.shape) ∧ ∀ idx, Valid X.shape idx → Tendsto (fun n => (Xs n).get idx) atTop (𝓝 (X.get idx))

/-- Spec: the entries of the matrix of mode `k` converge. -/
def ModeTendTo (gs : ℕ → List (NDArray ℝ)) (fs : List (NDArray ℝ)) (sizes : List ℕ) (R k : ℕ) : Prop :=
  ∀ i < sizes.getD k 0, ∀ r < R, Tendsto (fun n => (modeMat (gs n) k).get [i, r]) atTop (𝓝 ((modeMat fs k).get [i, r]))

/-- One update. -/
theorem continuous_step {Xs : ℕ → NDArray ℝ} (hX : DataTendTo Xs X) {g : ℕ → List (NDArray ℝ)} {gs : ℕ → ℕ → List (NDArray ℝ)}
    (h : Sweep X R g) (hs : ∀ n, Sweep (Xs n) R (gs n)) (hm : m < X.shape.length)
    (ht : ∀ k < X.shape.length, k ≠ m → ModeTendTo (fun n => gs n m) (g m) X.shape R k)
    (hI : RestIndependent X.shape (g m) m R) : ∀ k < X.shape.length, ModeTendTo (fun n => gs n (m + 1)) (g (m + 1)) X.shape R k := by
  obtain ⟨F, e, opt⟩ := h.step m hm
  have hstep : ∀ n, ∃ F, gs n (m + 1) = (gs n m).set m F ∧ ∀ Y : NDArray ℝ, Y.shape = [X.shape.getD m 0, R] →
      sqErr (Xs n) (fun _ => 1) ((gs n m).set m F) R ≤ sqErr (Xs n) (fun _ => 1) ((gs n m).set m Y) R := by
    intro n
    obtain ⟨G, e', o'⟩ := (hs n).step m (by rw [hX.1]; exact hm)
    rw [e', hX.1 n] at o'
    exact ⟨G, e', o'⟩
  choose Fs es opts using hstep
  have hl := h.len m hm.le
  have hls : ∀ n, (gs n m).length = X.shape.length := fun n => by
    have := (hs n).len m (by rw [hX.1]; exact hm.le)
    rwa [hX.1] at this
  rw [e] at opt
  -- the rank-one terms of the other modes
  have hrest : ∀ idx, Valid (X.shape.eraseIdx m) idx → ∀ r < R,
      Tendsto (fun n => rankOne ((gs n m).eraseIdx m) idx r) atTop (𝓝 (rankOne ((g m).eraseIdx m) idx r)) := by
    intro idx hidx r hr
    have hall : FactorsTendTo atTop (fun n => (gs n m).set m F) ((g m).set m F) X.shape R := by
      intro k hk i hi r hr
      by_cases hkm : k = m
      · subst hkm
        rw [modeMat_set_self (hl.symm ▸ hk)]
        refine Tendsto.congr (fun n => ?_) tendsto_const_nhds
        rw [modeMat_set_self ((hls n).symm ▸ hk)]
      · rw [modeMat_set_ne hkm]
        refine Tendsto.congr (fun n => ?_) (ht k hk hkm i hi r hr)
        rw [modeMat_set_ne hkm]
    have := tendsto_rankOne (hall.eraseIdx hm) (fun n => by rw [eraseIdx_set_self, List.length_eraseIdx_of_lt (by rw [hls n]; exact hm),
      List.length_eraseIdx_of_lt hm, hls n]) (by rw [eraseIdx_set_self, List.length_eraseIdx_of_lt (by rw [hl]; exact hm),
      List.length_eraseIdx_of_lt hm, hl]) hidx hr
    simpa only [eraseIdx_set_self] using this
  have hgram : Tendsto (fun n => restGram X.shape (gs n m) R m) atTop (𝓝 (restGram X.shape (g m) R m)) := by
    refine tendsto_pi_nhds.2 fun a => tendsto_pi_nhds.2 fun b => ?_
    exact tendsto_sumIdx fun idx hidx => (hrest idx hidx a a.2).mul (hrest idx hidx b b.2)
  have hrhs : ∀ i < X.shape.getD m 0, ∀ r < R, Tendsto (fun n => mttkrpEntry (Xs n) (gs n m) m i r) atTop (𝓝 (mttkrpEntry X (g m) m i r)) := by
    intro i hi r hr
    simp only [mttkrpEntry, hX.1]
    refine tendsto_sumIdx fun idx hidx => (hX.2 _ ?_).mul (hrest idx hidx r hr)
    have := hidx.insertIdx (n := m) (by rw [List.length_eraseIdx_of_lt hm]; omega) hi
    rwa [insertIdx_eraseIdx_getD hm] at this
  have hdet : Tendsto (fun n => (restGram X.shape (gs n m) R m).det) atTop (𝓝 (restGram X.shape (g m) R m).det) :=
    ((continuous_id.matrix_det).tendsto _).comp hgram
  have hadj : ∀ a b, Tendsto (fun n => (restGram X.shape (gs n m) R m).adjugate a b) atTop (𝓝 ((restGram X.shape (g m) R m).adjugate a b)) :=
    fun a b => (((continuous_id.matrix_adjugate).matrix_elem a b).tendsto _).comp hgram
  have hne := restGram_det' hI
  intro k hk i hi r hr
  by_cases hkm : k = m
  · subst hkm
    rw [e, modeMat_set_self (hl.symm ▸ hk)]
    have h1 := cramer_update hl hk opt hi ⟨r, hr⟩
    have h2 : F.get [i, r] = (∑ a : Fin R, mttkrpEntry X (g k) k i a * (restGram X.shape (g k) R k).adjugate a ⟨r, hr⟩) /
        (restGram X.shape (g k) R k).det := by
      rw [← h1, mul_div_cancel_left₀ _ hne]
    rw [h2]
    refine Tendsto.congr' ?_ ((tendsto_finsetSum Finset.univ fun (a : Fin R) _ => (hrhs i hi a a.2).mul (hadj a ⟨r, hr⟩)).div hdet hne)
    filter_upwards [hdet.eventually_ne hne] with n hn
    have h3 := cramer_update (X := Xs n) (fs := gs n k) (R := R) (m := k) (F := Fs n) (by rw [hls n, hX.1]) (by rw [hX.1]; exact hk)
      (by rw [hX.1]; exact opts n) (by rw [hX.1]; exact hi) ⟨r, hr⟩
    rw [hX.1] at h3
    show _ = (modeMat (gs n (k + 1)) k).get [i, r]
    rw [es n, modeMat_set_self ((hls n).symm ▸ hk), Pi.div_apply, div_eq_iff hn, mul_comm, h3]
  · rw [e, modeMat_set_ne hkm]
    refine Tendsto.congr (fun n => ?_) (ht k hk hkm i hi r hr)
    show _ = (modeMat (gs n (m + 1)) k).get [i, r]
    rw [es n, modeMat_set_ne hkm]

/-- One sweep. -/
theorem continuous_sweep {Xs : ℕ → NDArray ℝ} (hX : DataTendTo Xs X) {g : ℕ → List (NDArray ℝ)} {gs : ℕ → ℕ → List (NDArray ℝ)}
    (h : Sweep X R g) (hs : ∀ n, Sweep (Xs n) R (gs n))
    (ht : ∀ k < X.shape.length, 0 < k → ModeTendTo (fun n => gs n 0) (g 0) X.shape R k)
    (hI : ∀ m < X.shape.length, RestIndependent X.shape (g m) m R) :
    ∀ m < X.shape.length, ∀ k < X.shape.length, ModeTendTo (fun n => gs n (m + 1)) (g (m + 1)) X.shape R k
  | 0, hm => continuous_step hX h hs hm (fun k hk h0 => ht k hk (Nat.pos_of_ne_zero h0)) (hI 0 hm)
  | m + 1, hm => continuous_step hX h hs hm (fun k hk _ => continuous_sweep hX h hs ht hI m (by omega) k hk) (hI _ hm)

/-! ## Fits -/

variable {E : Ext} {c : CP.Config} {arg : InitArg KruskalTensor} {args : ℕ → InitArg KruskalTensor} {t : KruskalTensor}
  {ts : ℕ → KruskalTensor} {Xs : ℕ → NDArray ℝ} {budget : Int} {loggers : List Logger} {file : Option H5File}

theorem continuous_orbit (hE : E.SVDOk) (hN : E.NNLSOk) (hQ : E.QROk) (hA : CP.Admissible c.opts none none X.shape)
    (hridge : c.opts.ridgePenalties = none) (hX : DataTendTo Xs X) (ht : t.WF X.shape c.opts.rank)
    (hts : ∀ n, (ts n).WF X.shape c.opts.rank)
    (hst : ∀ k < X.shape.length, 0 < k → ModeTendTo (fun n => (ts n).factorMatrices) t.factorMatrices X.shape c.opts.rank k)
    (hD : Determined E c.opts X t) {s0 : CPState} {ss : ℕ → CPState} (e0 : CP.initFit E (CP.fresh none none) X t = .ok s0)
    (es : ∀ n, CP.initFit E (CP.fresh none none) (Xs n) (ts n) = .ok (ss n)) (j : ℕ) :
    FactorsTendTo atTop (fun n => (CP.orbit E c.opts (ss n) (j + 1)).dec.factorMatrices) (CP.orbit E c.opts s0 (j + 1)).dec.factorMatrices
      X.shape c.opts.rank := by
  obtain ⟨hG, hXs, hw, hU, hdec, q1, q2, hq⟩ := fit_sweeps hE hN hQ hA hridge ht e0
  have hfs := fun n => fit_sweeps hE hN hQ (X := Xs n) (by rw [hX.1]; exact hA) hridge (by rw [hX.1]; exact hts n) (es n)
  have hd : 0 < X.shape.length := by have := hA.order; omega
  have hI : ∀ j, ∀ m < X.shape.length, RestIndependent X.shape (CP.during E c.opts s0 j m) m c.opts.rank := by
    intro j m hm
    rw [sweep_mid (q1 j) hm.le, q2 j]
    exact hD s0 e0 j _ _ (orbit_iterate hE hN hA.rank j hG) (orbit_iterate hE hN hA.rank (j + 1) hG) m hm
  have hlast : ∀ j, (∀ k < X.shape.length, 0 < k → ModeTendTo (fun n => CP.during E c.opts (ss n) j 0) (CP.during E c.opts s0 j 0)
      X.shape c.opts.rank k) → ∀ k < X.shape.length,
      ModeTendTo (fun n => CP.during E c.opts (ss n) (j + 1) 0) (CP.during E c.opts s0 (j + 1) 0) X.shape c.opts.rank k := by
    intro j hj k hk
    have := continuous_sweep hX (q1 j) (fun n => (hfs n).2.2.2.2.2.1 j) hj (hI j) (X.shape.length - 1) (by omega) k hk
    rw [Nat.sub_add_cancel hd, q2 j] at this
    refine fun i hi r hr => (this i hi r hr).congr fun n => ?_
    have h2 := (hfs n).2.2.2.2.2.2.1 j
    rw [hX.1] at h2
    show (modeMat (CP.during E c.opts (ss n) j X.shape.length) k).get [i, r] = _
    rw [h2]
  intro k hk
  induction j generalizing k with
  | zero =>
    refine hlast 0 (fun l hl h0 i hi r hr => ?_) k hk
    rw [during_zero, show CP.orbit E c.opts s0 0 = s0 from rfl, hdec]
    refine (hst l hl h0 i hi r hr).congr fun n => ?_
    show _ = (modeMat (CP.during E c.opts (ss n) 0 0) l).get [i, r]
    rw [during_zero, show CP.orbit E c.opts (ss n) 0 = ss n from rfl, (hfs n).2.2.2.2.1]
  | succ j ih => exact hlast (j + 1) (fun l hl _ => ih l hl) k hk

/-- **C157.** Let data `X_n` converge to `X` and starts `t_n` to `t` (in the modes after the first), and let no update of the fit of `X`
from `t` be underdetermined. Then the factor matrices, the models and the reported errors of fits of the `X_n` with `j + 1` iterations
converge to those of the fit of `X` with as many iterations. -/
theorem C157_continuous (hE : E.SVDOk) (hN : E.NNLSOk) (hQ : E.QROk) (hA : CP.Admissible c.opts none none X.shape)
    (hridge : c.opts.ridgePenalties = none) (hlog : c.Measurable) (hfreq : freqOption c.freq ≠ 0)
    (hX : DataTendTo Xs X) (hi : CP.StartsFrom E c none none arg X t) (his : ∀ n, CP.StartsFrom E c none none (args n) (Xs n) (ts n))
    (ht : t.WF X.shape c.opts.rank) (hts : ∀ n, (ts n).WF X.shape c.opts.rank) {mi : Option Int} (hb : 0 < mi.getD budget)
    (hS : Storing (CP.method E c) (CP.newObject none none budget loggers file) [])
    (hst : ∀ k < X.shape.length, 0 < k → ModeTendTo (fun n => (ts n).factorMatrices) t.factorMatrices X.shape c.opts.rank k)
    (hD : Determined E c.opts X t) {w : World CPState} {res : ℕ → World CPState}
    (hw : CP.fit E c X mi arg (CP.newObject none none budget loggers file) = .ok () w)
    (hres : ∀ n, CP.fit E c (Xs n) mi (args n) (CP.newObject none none budget loggers file) = .ok () (res n))
    {j : ℕ} (hit : w.it = j + 1) (hits : ∀ n, (res n).it = j + 1) :
    FactorsTendTo atTop (fun n => (res n).st.dec.factorMatrices) w.st.dec.factorMatrices X.shape c.opts.rank ∧
      (∀ idx, Valid X.shape idx → Tendsto (fun n => cpEntry (fun r => (res n).st.dec.weights.get [r]) (res n).st.dec.factorMatrices
        c.opts.rank idx) atTop (𝓝 (cpEntry (fun r => w.st.dec.weights.get [r]) w.st.dec.factorMatrices c.opts.rank idx))) ∧
      ∃ e, ∃ es : ℕ → ℝ, CP.sse w.st = .ok e ∧ (∀ n, CP.sse (res n).st = .ok (es n)) ∧ Tendsto es atTop (𝓝 e) := by
  have hAn : ∀ n, CP.Admissible c.opts none none (Xs n).shape := fun n => by rw [hX.1]; exact hA
  have htn : ∀ n, (ts n).WF (Xs n).shape c.opts.rank := fun n => by rw [hX.1]; exact hts n
  obtain ⟨s0, w0, k, e0, h1, -, h3, h4, -, -, -, hsse, hXw, hw1, -⟩ := C74_fit_completes hE hN hQ hA hlog hfreq hi ht hb hS
  rw [hw] at h1
  obtain rfl : w = w0 := by injection h1
  obtain rfl : k = j + 1 := by rw [h3] at hit; exact_mod_cast hit
  have hn : ∀ n, ∃ s, CP.initFit E (CP.fresh none none) (Xs n) (ts n) = .ok s ∧ CP.iterate E c.opts (j + 1) s = .ok (res n).st ∧
      CP.sse (res n).st = .ok ((res n).st.trueSSE c.opts.rank) ∧ (res n).st.X = Xs n ∧
      ∀ r < c.opts.rank, (res n).st.dec.weights.get [r] = 1 := by
    intro n
    obtain ⟨s, w', k', e, h1, -, h3, h4, -, -, -, hsse, hX', hw', -⟩ := C74_fit_completes hE hN hQ (hAn n) hlog hfreq (his n) (htn n) hb hS
    rw [hres n] at h1
    obtain rfl : res n = w' := by injection h1
    obtain rfl : k' = j + 1 := by have := hits n; rw [h3] at this; exact_mod_cast this
    exact ⟨s, e, h4, hsse, hX', hw'⟩
  choose ss es hiter hsses hXn hwn using hn
  have hco := continuous_orbit hE hN hQ hA hridge hX ht hts hst hD e0 es j
  obtain ⟨hG, hXs, hone, hU, hdec, q1, q2, hq⟩ := fit_sweeps hE hN hQ hA hridge ht e0
  have hfs := fun n => fit_sweeps hE hN hQ (hAn n) hridge (htn n) (es n)
  have hstw : w.st = CP.orbit E c.opts s0 (j + 1) := by
    rw [orbit_iterate hE hN hA.rank _ hG] at h4
    exact (Except.ok.inj h4).symm
  have hstn : ∀ n, (res n).st = CP.orbit E c.opts (ss n) (j + 1) := fun n => by
    have := hiter n
    rw [orbit_iterate hE hN hA.rank _ (hfs n).1] at this
    exact (Except.ok.inj this).symm
  have hlen : w.st.dec.factorMatrices.length = X.shape.length := by rw [hstw]; exact (q1 (j + 1)).len 0 (Nat.zero_le _)
  have hlens : ∀ n, (res n).st.dec.factorMatrices.length = X.shape.length := fun n => by
    rw [hstn n, ← hX.1 n]; exact ((hfs n).2.2.2.2.2.1 (j + 1)).len 0 (Nat.zero_le _)
  have hfac : FactorsTendTo atTop (fun n => (res n).st.dec.factorMatrices) w.st.dec.factorMatrices X.shape c.opts.rank := by
    simp only [hstn, hstw]
    exact hco
  have c1 : ∀ (v : ℕ → ℝ) (fs : List (NDArray ℝ)) idx, (∀ r < c.opts.rank, v r = 1) →
      cpEntry v fs c.opts.rank idx = cpEntry (fun _ => 1) fs c.opts.rank idx := fun v fs idx hv =>
    Finset.sum_congr rfl fun r hr => by rw [hv r (Finset.mem_range.1 hr)]
  have hmodel : ∀ idx, Valid X.shape idx → Tendsto (fun n => cpEntry (fun r => (res n).st.dec.weights.get [r]) (res n).st.dec.factorMatrices
      c.opts.rank idx) atTop (𝓝 (cpEntry (fun r => w.st.dec.weights.get [r]) w.st.dec.factorMatrices c.opts.rank idx)) := by
    intro idx hidx
    rw [c1 _ _ _ hw1]
    refine (tendsto_cpEntry hfac hlens hlen (fun _ => 1) hidx).congr fun n => ?_
    rw [c1 _ _ _ (hwn n)]
  refine ⟨hfac, hmodel, _, fun n => (res n).st.trueSSE c.opts.rank, hsse, hsses, ?_⟩
  simp only [CPState.trueSSE, hXn, hXw, sqErr, hX.1]
  exact tendsto_sumIdx fun idx hidx => ((hX.2 idx hidx).sub (hmodel idx hidx)).pow 2

/-- C157: with tolerances that are not positive all these fits exist and perform `j + 1` iterations, so their results converge. -/
theorem C157_full (hE : E.SVDOk) (hN : E.NNLSOk) (hQ : E.QROk) (hA : CP.Admissible c.opts none none X.shape)
    (hridge : c.opts.ridgePenalties = none) (hlog : c.Measurable) (hfreq : freqOption c.freq ≠ 0)
    (hX : DataTendTo Xs X) (hi : CP.StartsFrom E c none none arg X t) (his : ∀ n, CP.StartsFrom E c none none (args n) (Xs n) (ts n))
    (ht : t.WF X.shape c.opts.rank) (hts : ∀ n, (ts n).WF X.shape c.opts.rank)
    (hS : Storing (CP.method E c) (CP.newObject none none budget loggers file) [])
    (hst : ∀ k < X.shape.length, 0 < k → ModeTendTo (fun n => (ts n).factorMatrices) t.factorMatrices X.shape c.opts.rank k)
    (hD : Determined E c.opts X t) (t1 : c.opts.convergenceTol ≤ 0) (t2 : c.opts.relLossTol ≤ 0) (j : ℕ) :
    ∃ w, ∃ res : ℕ → World CPState,
      CP.fit E c X (some (j + 1)) arg (CP.newObject none none budget loggers file) = .ok () w ∧ w.it = j + 1 ∧
      (∀ n, CP.fit E c (Xs n) (some (j + 1)) (args n) (CP.newObject none none budget loggers file) = .ok () (res n) ∧ (res n).it = j + 1) ∧
      FactorsTendTo atTop (fun n => (res n).st.dec.factorMatrices) w.st.dec.factorMatrices X.shape c.opts.rank ∧
      ∃ e, ∃ es : ℕ → ℝ, CP.sse w.st = .ok e ∧ (∀ n, CP.sse (res n).st = .ok (es n)) ∧ Tendsto es atTop (𝓝 e) := by
  have hfull : ∀ {Z : NDArray ℝ} {a : InitArg KruskalTensor} {u : KruskalTensor}, CP.Admissible c.opts none none Z.shape →
      CP.StartsFrom E c none none a Z u → u.WF Z.shape c.opts.rank →
      ∃ w, CP.fit E c Z (some (j + 1)) a (CP.newObject none none budget loggers file) = .ok () w ∧ w.it = j + 1 := by
    intro Z a u hA hi hu
    obtain ⟨s0, w, k, e0, h1, h2, h3, h4, -, h6, -⟩ := C74_fit_completes hE hN hQ hA hlog hfreq hi hu (mi := some ((j : Int) + 1))
      (budget := budget) (by simp only [Option.getD_some]; omega) hS
    refine ⟨w, h1, ?_⟩
    obtain ⟨hG, -⟩ := fit_sweeps hE hN hQ hA hridge hu e0
    rw [orbit_iterate hE hN hA.rank k hG] at h4
    rw [h3]
    refine le_antisymm (by simpa using h2) (not_lt.1 fun hlt => ?_)
    have := h6 (by simpa using hlt)
    rw [← Except.ok.inj h4, never_stops t1 t2 (orbit_good hE hN hA.rank hG k).1] at this
    cases this
  obtain ⟨w, hw, hit⟩ := hfull hA hi ht
  have hn := fun n => hfull (Z := Xs n) (a := args n) (u := ts n) (by rw [hX.1]; exact hA) (his n) (by rw [hX.1]; exact hts n)
  choose res hres hits using hn
  obtain ⟨g1, -, g3⟩ := C157_continuous hE hN hQ hA hridge hlog hfreq hX hi his ht hts (mi := some ((j : Int) + 1)) (budget := budget)
    (by simp only [Option.getD_some]; omega) hS hst hD hw hres hit hits
  exact ⟨w, res, hw, hit, fun n => ⟨hres n, hits n⟩, g1, g3⟩

/-- The hypotheses of `C157_full`: the data `diag(2 + 1/n, 1)` converge to `diag(2, 1)` and the starts `(1, 1), (1/n, 1)` to `(1, 1), (0, 1)`. -/
example (hE : E.SVDOk) (hN : E.NNLSOk) (hQ : E.QROk) : ∃ (Xs : ℕ → NDArray ℝ) (ts : ℕ → KruskalTensor),
    CP.Admissible matrixConfig.opts none none matrix21.shape ∧ DataTendTo Xs matrix21 ∧ (∀ n, (Xs n).get [0, 0] ≠ matrix21.get [0, 0]) ∧
    CP.StartsFrom E matrixConfig none none (.tensor (matrixStart 0 1)) matrix21 (matrixStart 0 1) ∧
    (∀ n, CP.StartsFrom E matrixConfig none none (.tensor (ts n)) (Xs n) (ts n)) ∧
    (matrixStart 0 1).WF matrix21.shape 1 ∧ (∀ n, (ts n).WF matrix21.shape 1) ∧
    Storing (CP.method E matrixConfig) (CP.newObject none none 10 [] none) [] ∧
    (∀ k < 2, 0 < k → ModeTendTo (fun n => (ts n).factorMatrices) (matrixStart 0 1).factorMatrices matrix21.shape 1 k) ∧
    Determined E matrixConfig.opts matrix21 (matrixStart 0 1) ∧ matrixConfig.opts.convergenceTol ≤ 0 ∧ matrixConfig.opts.relLossTol ≤ 0 := by
  have ht : ∀ x y, (matrixStart x y).WF matrix21.shape matrixConfig.opts.rank := fun _ _ => ⟨rfl, .cons rfl (.cons rfl .nil), rfl⟩
  have hi : matrixConfig.init.toLower = "precomputed" := by
    show "precomputed".toLower = _
    rw [String.toLower, ← String.toList_inj, String.toList_map]; decide
  let Xs : ℕ → NDArray ℝ := fun n => ofMat 2 2 fun i j => matrix21.get [i, j] + if i = 0 ∧ j = 0 then 1 / ((n : ℝ) + 1) else 0
  refine ⟨Xs, fun n => matrixStart (1 / ((n : ℝ) + 1)) 1,
    ⟨by decide, by simp [matrix21], by simp [matrix21], by simp, by simp, by simp [matrixConfig], by simp, by simp⟩, ⟨fun n => rfl, ?_⟩, ?_,
    startsFrom_precomputed hi (ht _ _), fun n => startsFrom_precomputed hi (ht _ _), ht _ _, fun n => ht _ _,
    ⟨fun h => absurd h (show ¬ (0 : Int) < -1 by decide), fun h => absurd h (show ¬ (0 : Int) < -1 by decide),
      fun h => absurd h (show ¬ (0 : Int) < -1 by decide)⟩, ?_, determined_matrix21 hE hN hQ, le_rfl, le_rfl⟩
  · intro idx hidx
    match idx, hidx with
    | [i, j], ⟨h1, h2, _⟩ =>
      simp only [Xs, get_ofMat h1 h2]
      split
      · simpa using (tendsto_one_div_add_atTop_nhds_zero_nat (𝕜 := ℝ)).const_add (matrix21.get [i, j])
      · simp
  · intro n h
    have h0 : (0 : ℝ) < 1 / ((n : ℝ) + 1) := by positivity
    have : (Xs n).get [0, 0] = matrix21.get [0, 0] + 1 / ((n : ℝ) + 1) := by
      simp only [Xs]
      rw [get_ofMat (by omega) (by omega), if_pos ⟨rfl, rfl⟩]
    linarith
  · intro k hk h0 i hi r hr
    obtain rfl : k = 1 := by omega
    have hi' : i < 2 := hi
    show Tendsto (fun n : ℕ => (ofMat 2 1 fun i _ => if i = 0 then 1 / ((n : ℝ) + 1) else (1 : ℝ)).get [i, r]) atTop
      (𝓝 ((ofMat 2 1 fun i _ => if i = 0 then (0 : ℝ) else 1).get [i, r]))
    simp only [get_ofMat hi' hr]
    split
    · exact tendsto_one_div_add_atTop_nhds_zero_nat (𝕜 := ℝ)
    · exact tendsto_const_nhds

end

end TK
