import Verif.Lemmas.CoupledRankOne
import Verif.Props.CMTFNorm

/-!
# C150: coupled data with one component

Source: cmtf.py:75-95 (`_init_fit`, `_fit`, `_normalize_components`), cmtf.py:146-189 (the updates).
-/

namespace TK
open NDArray Fit
open EStateM (Result)

noncomputable section

/-- Spec: no mode of the model has a zero column. -/
def NoColumnVanishes (sizes : List ℕ) (fs : List (NDArray ℝ)) : Prop := ∀ m < sizes.length, modeDot sizes fs fs m ≠ 0

/-- Consecutive sweeps: after the first one with nonzero columns before and after, and after one more, the model is exact. -/
theorem coupled_sweeps_exact {X : NDArray ℝ} {Ys : List (NDArray ℝ)} {ms : List ℕ} {a ys : List (NDArray ℝ)}
    (hD : OneComponent X Ys ms a ys) (hself : ∀ k < X.shape.length, modeDot X.shape a a k ≠ 0)
    {G : ℕ → ℕ → List (NDArray ℝ) × List (NDArray ℝ)} (hS : ∀ j, CoupledSweep X Ys ms 1 (G j))
    (hnext : ∀ j, G j (X.shape.length + 1) = G (j + 1) 0) {l : ℕ} (hl : l < X.shape.length)
    (hfree : ∀ i < ms.length, ms.getD i 0 ≠ l) {n : ℕ} (hn : n = 1 ∧ l + 1 = X.shape.length ∨ n = 2)
    (hz : ∀ j ≤ n, NoColumnVanishes X.shape (G j 0).1) {j : ℕ} (hj : n ≤ j) :
    coupledLoss X Ys ms 1 (G j 0).1 (G j 0).2 = 0 := by
  have hend : ∀ j, (G j X.shape.length).1 = (G (j + 1) 0).1 := fun j => by rw [← (hS j).last, hnext]
  have hmul : ∀ j < n, ∀ k < X.shape.length, ∃ c, c ≠ 0 ∧ ∀ m ≤ X.shape.length, k < m → IsMultiple X.shape a (G j m).1 k c :=
    fun j hj => coupled_multiples hD (hS j) (fun k hk _ => hz j hj.le k hk) (by rw [hend]; exact hz (j + 1) hj)
  induction j, hj using Nat.le_induction with
  | base =>
    rcases hn with ⟨rfl, hn⟩ | rfl
    · rw [← hnext]
      exact coupled_exact hD hself (hS 0) hl hfree (hmul 0 (by omega)) (.inl hn)
    · rw [← hnext]
      refine coupled_exact hD hself (hS 1) hl hfree (hmul 1 (by omega)) (.inr ⟨fun k hk => ?_, fun i hi hf => ?_⟩)
      · obtain ⟨c, hc, e⟩ := hmul 0 (by omega) k hk
        refine ⟨c, hc, ?_⟩
        rw [← hend]
        exact e _ le_rfl hk
      · obtain ⟨c, hc, e⟩ := hmul 0 (by omega) _ ((hS 0).rows i hi).1
        rw [← hnext]
        exact (coupled_right hD (hS 0) hself hi hf hc (e _ le_rfl ((hS 0).rows i hi).1)).1
  | succ j hj ih =>
    have h1 := (coupledDist_nonneg (G j 0).1 (G j 0).2 (G j (X.shape.length + 1)).1 (G j (X.shape.length + 1)).2).trans (hS j).dist_le
    rw [hnext, ih, zero_sub] at h1
    have h2 := coupledLoss_nonneg (X := X) (Ys := Ys) (ms := ms) (R := 1) (G (j + 1) 0).1 (G (j + 1) 0).2
    have h3 : (0 : ℝ) < ((X.shape.length + 1 : ℕ) : ℝ) := by positivity
    nlinarith

/-- Consecutive sweeps from a start with positive inner products have no zero columns. -/
theorem coupled_sweeps_positive {X : NDArray ℝ} {Ys : List (NDArray ℝ)} {ms : List ℕ} {a ys : List (NDArray ℝ)}
    (hD : OneComponent X Ys ms a ys) (hself : ∀ k < X.shape.length, modeDot X.shape a a k ≠ 0)
    {G : ℕ → ℕ → List (NDArray ℝ) × List (NDArray ℝ)} (hS : ∀ j, CoupledSweep X Ys ms 1 (G j))
    (hnext : ∀ j, G j (X.shape.length + 1) = G (j + 1) 0)
    (h0 : ∀ k < X.shape.length, k ≠ 0 → 0 < modeDot X.shape a (G 0 0).1 k)
    (hV : ∀ i < ms.length, IsFirst ms i → 0 ≤ rightDot Ys ys (G 0 0).2 i) (j : ℕ) :
    (∀ k < X.shape.length, k ≠ 0 ∨ 0 < j → 0 < modeDot X.shape a (G j 0).1 k) ∧
      ∀ i < ms.length, IsFirst ms i → 0 ≤ rightDot Ys ys (G j 0).2 i := by
  induction j with
  | zero => exact ⟨fun k hk h => h0 k hk (by omega), hV⟩
  | succ j ih =>
    have hp := coupled_positive hD hself (hS j) (fun k hk h => ih.1 k hk (.inl h)) ih.2
    refine ⟨fun k hk _ => ?_, fun i hi hf => ?_⟩
    · obtain ⟨c, hc, e⟩ := hp k hk
      rw [← hnext, (hS j).last, (e _ le_rfl hk).dot]
      exact mul_pos hc (lt_of_le_of_ne (modeDot_self_nonneg _ _ _) (hself k hk).symm)
    · obtain ⟨c, hc, e⟩ := hp _ ((hS j).rows i hi).1
      have := (coupled_right hD (hS j) hself hi hf hc.ne' (e _ le_rfl ((hS j).rows i hi).1)).2
      rw [← hnext, rightDot]
      refine Finset.sum_nonneg fun q hq => ?_
      rw [this q (Finset.mem_range.1 hq), ← mul_div_assoc]
      exact div_nonneg (mul_self_nonneg _) hc.le

theorem modeMat_eq_noArr (fs : List (NDArray ℝ)) (m : ℕ) : modeMat fs m = fs.getD m noArr := rfl

theorem modeMat_zipWith_norm {fs : List (NDArray ℝ)} {sizes : List ℕ} (hl : fs.length = sizes.length) {R : ℕ} {eps : ℝ} {m : ℕ}
    (hm : m < sizes.length) :
    modeMat (List.zipWith (fun F n => normMat F n R eps) fs sizes) m = normMat (modeMat fs m) (sizes.getD m 0) R eps := by
  rw [modeMat, modeMat, getD_of_lt (by simp; omega), getD_of_lt (by omega), getD_of_lt hm, List.getElem_zipWith]

/-- **C150, what holds for the iterates.** Let the tensor be a single component that is not zero and let the matrices that are the
first ones of their modes share its columns. Let `CMTF_ALS` run with rank one and without constraints or penalties, and let some
mode `l` have no coupled matrix. If no column of the first two iterates (and of the start) is zero, then all later iterates
reproduce the tensor and these matrices exactly (with unit weights). If `l` is the last mode, the first iterate is enough. -/
theorem C150_iterates_partial {E : Ext} (hE : E.SVDOk) (hN : E.NNLSOk) {c : CMTF.Config} (hrank : c.cp.opts.rank = 1)
    {X : NDArray ℝ} (hA : CP.Admissible c.cp.opts none none X.shape) (hridge : c.cp.opts.ridgePenalties = none)
    {Ys : List (NDArray ℝ)} {ms qs : List ℕ} (hC : CMTF.Coupled X.shape Ys (ms.map fun m : ℕ => (m : Int)) ms qs)
    {t u : KruskalTensor} {s0 : CMTFState} (h0 : CMTF.Started c none none X Ys (ms.map fun m : ℕ => (m : Int)) ms qs t u s0)
    {st : ℕ → CMTFState} (hst : ∀ j, CMTF.iterate E c.cp.opts j s0 = .ok (st j))
    {a ys : List (NDArray ℝ)} (hD : OneComponent X Ys ms a ys) {i0 : List ℕ} (hi0 : Valid X.shape i0) (hnz : X.get i0 ≠ 0)
    {l : ℕ} (hl : l < X.shape.length) (hfree : ∀ i < ms.length, ms.getD i 0 ≠ l) {n : ℕ}
    (hn : n = 1 ∧ l + 1 = X.shape.length ∨ n = 2) (hz : ∀ j ≤ n, NoColumnVanishes X.shape (st j).cp.dec.factorMatrices) {j : ℕ}
    (hj : n ≤ j) :
    (∀ idx, Valid X.shape idx → X.get idx = rankOne (st j).cp.dec.factorMatrices idx 0) ∧
      ∀ i < ms.length, IsFirst ms i → ∀ p < (Ys.getD i noArr).shape.getD 0 0, ∀ q < (Ys.getD i noArr).shape.getD 1 0,
        (Ys.getD i noArr).get [p, q] =
          (modeMat (st j).cp.dec.factorMatrices (ms.getD i 0)).get [p, 0] * ((st j).V.getD i noArr).get [q, 0] := by
  have horb : ∀ j, st j = CMTF.orbit E c.cp.opts s0 j := by
    intro j
    have := hst j
    rw [cmtf_orbit_iterate hE hN hA.rank j h0.sized (h0.cfg hA (by simp))] at this
    exact (Except.ok.inj this).symm
  obtain ⟨q1, q2, q3⟩ := cmtf_fit_sweeps hE hN hA hridge hC h0
  rw [hrank] at q1
  have hself : ∀ m < X.shape.length, modeDot X.shape a a m ≠ 0 := fun m hm =>
    modeDot_self_ne_zero hD.len hi0 (by rw [← hD.tensor i0 hi0]; exact hnz) hm
  have hL := coupled_sweeps_exact hD hself q1 (fun j => (q3 j).trans (q2 (j + 1)).symm) hl hfree hn
    (fun j hj => by rw [q2 j]; show NoColumnVanishes _ (CMTF.orbit E c.cp.opts s0 j).cp.dec.factorMatrices; rw [← horb]; exact hz j hj) hj
  rw [q2 j, CMTFState.mats, ← horb, coupledLoss] at hL
  have hnn : 0 ≤ firstErr (st j).cp.dec.factorMatrices Ys (st j).V ms 1 := Finset.sum_nonneg fun i _ => by
    unfold coupledErrAt matErr
    exact Finset.sum_nonneg fun _ _ => Finset.sum_nonneg fun _ _ => sq_nonneg _
  have hnn' : 0 ≤ sqErr X (fun _ => 1) (st j).cp.dec.factorMatrices 1 := sumIdx_nonneg fun _ _ => sq_nonneg _
  have h1 : sqErr X (fun _ => 1) (st j).cp.dec.factorMatrices 1 = 0 := by linarith
  have h2 : firstErr (st j).cp.dec.factorMatrices Ys (st j).V ms 1 = 0 := by linarith
  refine ⟨fun idx hidx => ?_, fun i hi hf p hp q hq => ?_⟩
  · rw [sqErr_eq_zero_iff] at h1
    rw [h1 idx hidx, cpEntry_one]
  · rw [firstErr, Finset.sum_eq_zero_iff_of_nonneg fun i _ => by
      unfold coupledErrAt matErr
      exact Finset.sum_nonneg fun _ _ => Finset.sum_nonneg fun _ _ => sq_nonneg _] at h2
    have h3 := h2 i (by simp [hi, hf])
    rw [coupledErrAt, matErr, Finset.sum_eq_zero_iff_of_nonneg fun _ _ => Finset.sum_nonneg fun _ _ => sq_nonneg _] at h3
    have h4 := h3 p (Finset.mem_range.2 hp)
    rw [Finset.sum_eq_zero_iff_of_nonneg fun _ _ => sq_nonneg _] at h4
    have h5 := pow_eq_zero_iff two_ne_zero |>.1 (h4 q (Finset.mem_range.2 hq))
    rw [Finset.sum_range_one] at h5
    rw [modeMat_eq_noArr]
    linarith

/-- **C150, what holds for the result.** If moreover the columns of the start `t` (in all modes but the first) and the numbers drawn
for the right factors have positive inner products with those of the data, no column of an iterate is zero. A fit that performs
two iterations (one, if the last mode has no coupled matrix) then returns the coupled matrices times `n / (n + 1e-15)`, `n` being
the length of the column of the mode before the final normalisation, and the tensor times the product of these numbers over the
modes **and times the product of the lengths of the columns of the start**. Missing: this last factor should not be there
(`C150_fails`), and the matrices that are not the first ones of their modes. -/
theorem C150_result_partial {E : Ext} (hE : E.SVDOk) (hN : E.NNLSOk) (hQ : E.QROk) {c : CMTF.Config} (hrank : c.cp.opts.rank = 1)
    {X : NDArray ℝ} (hA : CP.Admissible c.cp.opts none none X.shape) (hridge : c.cp.opts.ridgePenalties = none)
    {Ys : List (NDArray ℝ)} {ms qs : List ℕ} (hC : CMTF.Coupled X.shape Ys (ms.map fun m : ℕ => (m : Int)) ms qs)
    (hlog : c.Measurable ms qs) (hfreq : freqOption c.cp.freq ≠ 0) {arg : InitArg KruskalTensor} {t : KruskalTensor}
    (hi : CP.StartsFrom E c.cp none none arg X t) (ht : t.WF X.shape c.cp.opts.rank)
    {budget : Int} {mi : Option Int} (hb : 0 < mi.getD budget) {loggers : List Logger} {file : Option H5File}
    (hS : Storing (CMTF.method E c) (CMTF.newObject none none budget loggers file) [])
    {a ys : List (NDArray ℝ)} (hD : OneComponent X Ys ms a ys) {i0 : List ℕ} (hi0 : Valid X.shape i0) (hnz : X.get i0 ≠ 0)
    {l : ℕ} (hl : l < X.shape.length) (hfree : ∀ i < ms.length, ms.getD i 0 ≠ l)
    (hpos : ∀ m < X.shape.length, 0 < modeDot X.shape a t.factorMatrices m)
    (hdraw : ∀ i < ms.length, IsFirst ms i → 0 ≤ ∑ q ∈ Finset.range (qs.getD i 0), (ys.getD i noArr).get [q, 0] * c.drawN i q 0) :
    ∃ sk w' X' Zs, CMTF.fit E c X Ys (ms.map fun m : ℕ => (m : Int)) mi arg (CMTF.newObject none none budget loggers file) =
        .ok () w' ∧
      CMTF.normalizeComponents sk = .ok w'.st ∧ w'.st.cp.dec.constructTensor = .ok X' ∧ X'.shape = X.shape ∧
      CMTF.reconstructed w'.st = .ok Zs ∧ NoColumnVanishes X.shape sk.cp.dec.factorMatrices ∧
      (2 ≤ w'.it ∨ 1 ≤ w'.it ∧ l + 1 = X.shape.length →
        (∀ idx, Valid X.shape idx → X'.get idx =
          modeProd (fun F m => colLen F m 0 / (colLen F m 0 + 1e-15)) sk.cp.dec.factorMatrices X.shape *
            (modeProd (fun F m => colLen F m 0) t.factorMatrices X.shape * X.get idx)) ∧
        ∀ i < ms.length, IsFirst ms i → ∀ p < X.shape.getD (ms.getD i 0) 0, ∀ q < qs.getD i 0, (Zs.getD i noArr).get [p, q] =
          colLen (sk.cp.dec.factorMatrices.getD (ms.getD i 0) noArr) (X.shape.getD (ms.getD i 0) 0) 0
            / (colLen (sk.cp.dec.factorMatrices.getD (ms.getD i 0) noArr) (X.shape.getD (ms.getD i 0) 0) 0 + 1e-15) *
          (Ys.getD i noArr).get [p, q]) := by
  obtain ⟨u, s0, sk, w', k, h0, hfit, -, hit, hk, hnorm, -, -, hsk, -⟩ :=
    C83_fit_completes hE hN hQ hA (by simp) hC hlog hfreq hi ht hb hS
  have horb := fun j => cmtf_orbit_iterate hE hN hA.rank j h0.sized (h0.cfg hA (by simp))
  have hsk' : sk = CMTF.orbit E c.cp.opts s0 k := by
    rw [horb k] at hk
    exact (Except.ok.inj hk).symm
  have hsame := (cmtf_orbit_good hE hN hA.rank h0.sized (h0.cfg hA (by simp)) k).2.2.1
  rw [← hsk'] at hsame
  obtain ⟨q1, q2, q3⟩ := cmtf_fit_sweeps hE hN hA hridge hC h0
  have hself : ∀ m < X.shape.length, modeDot X.shape a a m ≠ 0 := fun m hm =>
    modeDot_self_ne_zero hD.len hi0 (by rw [← hD.tensor i0 hi0]; exact hnz) hm
  have hstart : ∀ m < X.shape.length, 0 < modeDot X.shape a s0.cp.dec.factorMatrices m := by
    intro m hm
    obtain ⟨v, e, -, hf, -⟩ := normalizeComponents_ok h0.wf true 1e-15
    have := h0.normalised
    rw [e] at this
    injection this with this
    rw [h0.same rfl] at hf
    rw [← this, modeDot, hf, modeMat_zipWith_norm ht.factors.length_eq hm]
    have hpd : 0 < colLen (modeMat t.factorMatrices m) (X.shape.getD m 0) 0 + 1e-15 := by
      have := colLen_nonneg (modeMat t.factorMatrices m) (X.shape.getD m 0) 0
      linarith
    have : ∑ i ∈ Finset.range (X.shape.getD m 0), (modeMat a m).get [i, 0] *
        (normMat (modeMat t.factorMatrices m) (X.shape.getD m 0) c.cp.opts.rank 1e-15).get [i, 0] =
        modeDot X.shape a t.factorMatrices m / (colLen (modeMat t.factorMatrices m) (X.shape.getD m 0) 0 + 1e-15) := by
      rw [modeDot, Finset.sum_div]
      refine Finset.sum_congr rfl fun i hi => ?_
      rw [normMat, get_ofMat (Finset.mem_range.1 hi) hA.rank]
      ring
    rw [this]
    exact div_pos (hpos m hm) hpd
  have hright : ∀ i < ms.length, IsFirst ms i → 0 ≤ rightDot Ys ys s0.V i := by
    intro i hi hf
    rw [rightDot, h0.V i hi, hC.shapeY i hi]
    show 0 ≤ ∑ q ∈ Finset.range (qs.getD i 0), _
    have : ∑ q ∈ Finset.range (qs.getD i 0), (ys.getD i noArr).get [q, 0] *
        (drawnV (if flagOf none (ms.getD i 0) then c.drawU i else c.drawN i) (qs.getD i 0) c.cp.opts.rank).get [q, 0] =
        (∑ q ∈ Finset.range (qs.getD i 0), (ys.getD i noArr).get [q, 0] * c.drawN i q 0) /
          colLen (ofMat (qs.getD i 0) c.cp.opts.rank (c.drawN i)) (qs.getD i 0) 0 := by
      rw [Finset.sum_div]
      refine Finset.sum_congr rfl fun q hq => ?_
      rw [drawnV, get_ofMat (Finset.mem_range.1 hq) hA.rank]
      show _ * (c.drawN i q 0 / colLen (ofMat (qs.getD i 0) c.cp.opts.rank (c.drawN i)) (qs.getD i 0) 0) = _
      ring
    rw [this]
    exact div_nonneg (hdraw i hi hf) (colLen_nonneg _ _ _)
  rw [hrank] at q1
  have hz : ∀ j, NoColumnVanishes X.shape (CMTF.orbit E c.cp.opts s0 j).cp.dec.factorMatrices := by
    intro j m hm
    have hp := (coupled_sweeps_positive hD hself q1 (fun j => (q3 j).trans (q2 (j + 1)).symm)
      (fun k hk _ => by rw [q2 0]; exact hstart k hk) (fun i hi hf => by rw [q2 0]; exact hright i hi hf) j).1
    rw [q2 j] at hp
    rcases Nat.eq_zero_or_pos j with rfl | hj
    · exact modeDot_self_of_dot (hstart m hm).ne'
    · exact modeDot_self_of_dot (hp m hm (.inr hj)).ne'
  obtain ⟨s', X', e1, -, -, -, e2, e3, e4, Zs, e5, -, e6⟩ := C60_normalisation hsk (eps := 1e-15) (by norm_num)
  have hs' : s' = w'.st := by
    have := e1.symm.trans hnorm
    exact Except.ok.inj this
  subst hs'
  have hX : sk.cp.X = X := hsame.X.trans h0.eqX
  refine ⟨sk, w', X', Zs, hfit, hnorm, e2, by rw [e3, hX], e5, by rw [hsk']; exact hz k, fun hk2 => ?_⟩
  obtain ⟨n, hn, hnk⟩ : ∃ n, (n = 1 ∧ l + 1 = X.shape.length ∨ n = 2) ∧ n ≤ k := by
    rcases hk2 with h | h
    · exact ⟨2, .inr rfl, by omega⟩
    · exact ⟨1, .inl ⟨rfl, h.2⟩, by omega⟩
  obtain ⟨r1, r2⟩ := C150_iterates_partial hE hN hrank hA hridge hC h0 horb hD hi0 hnz hl hfree hn (fun j _ => hz j) hnk
  rw [← hsk'] at r1 r2
  rw [hX] at e4 e6
  refine ⟨fun idx hidx => ?_, fun i hi hf p hp q hq => ?_⟩
  · rw [e4 idx hidx, hrank, Finset.sum_range_one, ← r1 idx hidx, hsame.weights, h0.startWeights hA.rank]
  · rw [(e6 i hi).2 p hp q hq, hrank, Finset.sum_range_one,
      r2 i hi hf p (by rw [hC.shapeY i hi]; exact hp) q (by rw [hC.shapeY i hi]; exact hq)]
    rfl

/-- The data of the witness below have one component. -/
theorem one82 : OneComponent (one1 2) [one1 2] [0] [one1 2, one1 1] [one1 1] := by
  refine ⟨rfl, fun idx hidx => ?_, fun i hi _ p hp q hq => ?_⟩
  · match idx, hidx with
    | [i, j], hidx =>
      obtain ⟨hi, hj, -⟩ := hidx
      obtain rfl : i = 0 := by omega
      obtain rfl : j = 0 := by omega
      simp [rankOne]
  · obtain rfl : i = 0 := by simpa using hi
    obtain rfl : p = 0 := by simpa using hp
    obtain rfl : q = 0 := by simpa using hq
    simp [modeMat]

theorem positive82 : ∀ m < (one1 2).shape.length, 0 < modeDot (one1 2).shape [one1 2, one1 1] t82.factorMatrices m := by
  intro m hm
  have : m = 0 ∨ m = 1 := by simp at hm; omega
  rcases this with rfl | rfl <;> simp [modeDot, modeMat, t82]

/-- **C150, refuted**: `X = [2]` and the coupled matrix `[2]` on mode 0 have one component, mode 1 has no coupled matrix, and the
start (factors 2 and 2, right factor 1) meets the hypotheses of `C150_result_partial`. The fit with one iteration succeeds, but the
coupled SSE of its result is larger than 30, because the tensor is multiplied by the lengths of the columns of the start. -/
theorem C150_fails {E : Ext} (hE : E.SVDOk) (hN : E.NNLSOk) (hQ : E.QROk) :
    OneComponent (one1 2) [one1 2] [0] [one1 2, one1 1] [one1 1] ∧
      (∀ m < (one1 2).shape.length, 0 < modeDot (one1 2).shape [one1 2, one1 1] t82.factorMatrices m) ∧
      ∃ w' e, CMTF.fit E c82 (one1 2) [one1 2] [0] (some 1) (.tensor t82) (CMTF.newObject none none 1 [] none) = .ok () w' ∧
        w'.it = 1 ∧ CMTF.sse w'.st = .ok e ∧ 30 < e := by
  obtain ⟨-, -, w', -, -, h1, h2, e, h3, h4⟩ := C82_fit_gets_worse hE hN hQ
  exact ⟨one82, positive82, w', e, h1, h2, h3, h4⟩

/-- The hypotheses of `C150_result_partial` and `C150_iterates_partial`, for the data of `C150_fails`: the fit with one iteration
returns the matrix up to the guard of the normalisation. -/
example {E : Ext} (hE : E.SVDOk) (hN : E.NNLSOk) (hQ : E.QROk) :
    ∃ sk w' Zs, CMTF.fit E c82 (one1 2) [one1 2] [0] (some 1) (.tensor t82) (CMTF.newObject none none 1 [] none) = .ok () w' ∧
      CMTF.reconstructed w'.st = .ok Zs ∧ (Zs.getD 0 noArr).get [0, 0] =
        colLen sk 1 0 / (colLen sk 1 0 + 1e-15) * 2 := by
  have hA : CP.Admissible c82.cp.opts none none (one1 2).shape := by
    refine ⟨by simp [c82], by simp, by simp, by simp, by simp, by simp [c82], by simp, by simp⟩
  have hC : CMTF.Coupled (one1 2).shape [one1 2] ([0].map fun m : ℕ => (m : Int)) [0] [1] :=
    ⟨.cons (isMode_nat (by norm_num)) .nil, rfl, by simp⟩
  have ht : t82.WF (one1 2).shape c82.cp.opts.rank := ⟨rfl, .cons rfl (.cons rfl .nil), rfl⟩
  have hi : CP.StartsFrom E c82.cp none none (.tensor t82) (one1 2) t82 := startsFrom_precomputed (by
    show "precomputed".toLower = _
    rw [String.toLower, ← String.toList_inj, String.toList_map]; decide) ht
  have hno : ¬ 0 < (CMTF.method E c82).freq := by show ¬ (0 : Int) < -1; decide
  obtain ⟨sk, w', X', Zs, h1, -, -, -, h2, -, h3⟩ := C150_result_partial hE hN hQ (c := c82) rfl hA rfl hC
    (fun p hp => by simp [c82] at hp) (by decide) hi ht (budget := 1) (mi := some 1) (by simp) (loggers := []) (file := none)
    ⟨fun h => absurd h hno, fun h => absurd h hno, fun h => absurd h hno⟩ one82 (i0 := [0, 0]) (by simp [Valid])
    (by simp) (l := 1) (by simp) (fun i hi => by obtain rfl : i = 0 := by simpa using hi
                                                 simp) positive82
    (fun i hi _ => by
      obtain rfl : i = 0 := by simpa using hi
      simp [c82])
  obtain ⟨-, -, w2, -, -, g1, g2, -⟩ := C82_fit_gets_worse hE hN hQ
  have hw : w' = w2 := by
    have := h1.symm.trans (show CMTF.fit E c82 (one1 2) [one1 2] ([0].map fun m : ℕ => (m : Int)) (some 1) (.tensor t82)
      (CMTF.newObject none none 1 [] none) = .ok () w2 from g1)
    exact (Result.ok.injEq _ _ _ _ ▸ this).2
  refine ⟨sk.cp.dec.factorMatrices.getD 0 noArr, w', Zs, h1, h2, ?_⟩
  have := (h3 (.inr ⟨by rw [hw, g2], rfl⟩)).2 0 (by simp) (fun j hj => by omega) 0 (by simp) 0 (by simp)
  rw [this]
  show _ / _ * (one1 2).get [0, 0] = _
  rw [get_one1]
  rfl

end
end TK
