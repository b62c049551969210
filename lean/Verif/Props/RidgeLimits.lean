import Verif.Spec.RidgeLimits
import Verif.Props.NonNegLimits

/-!
# C152: limits of fits with ridge penalties

Source: cp.py:300-423 (`_update_als_factor`, `_update_als_factors`, the loop), base.py:46-61 (`add_rightsolve_ridge`: the penalty
is added to the residual of the normal equations, not to the squared error).
-/

namespace TK
open NDArray Fit Matrix Filter Topology
open EStateM (Result)

noncomputable section

variable {X : NDArray ℝ} {R : ℕ} {flags : List Bool} {ps : List ℝ} {g : ℕ → List (NDArray ℝ)}

/-! ## Sweeps -/

/-- Spec: `g m` are the factor matrices before the update of mode `m`, which minimises `slopeLoss` over the admissible matrices. -/
structure RidgeSweep (X : NDArray ℝ) (R : ℕ) (flags : List Bool) (ps : List ℝ) (g : ℕ → List (NDArray ℝ)) : Prop where
  len : ∀ m ≤ X.shape.length, (g m).length = X.shape.length
  step : ∀ m < X.shape.length, ∃ F, g (m + 1) = (g m).set m F ∧ (flags[m]? = some true → NonNeg F (X.shape.getD m 0) R) ∧
    ∀ Y : NDArray ℝ, Y.shape = [X.shape.getD m 0, R] → (flags[m]? = some true → NonNeg Y (X.shape.getD m 0) R) →
      slopeLoss X R (g m) m (ps.getD m 0) F ≤ slopeLoss X R (g m) m (ps.getD m 0) Y

theorem RidgeSweep.before (h : RidgeSweep X R flags ps g) {k : ℕ} : ∀ {m : ℕ}, m ≤ X.shape.length → m ≤ k →
    modeMat (g m) k = modeMat (g 0) k
  | 0, _, _ => rfl
  | m + 1, hm, hk => by
    obtain ⟨F, e, -⟩ := h.step m hm
    rw [e, modeMat_set_ne (by omega), h.before (by omega) (by omega)]

theorem RidgeSweep.after (h : RidgeSweep X R flags ps g) {k : ℕ} : ∀ {n m : ℕ}, m + n = X.shape.length → k < m →
    modeMat (g m) k = modeMat (g X.shape.length) k
  | 0, m, hm, _ => by rw [← hm]; rfl
  | n + 1, m, hm, hk => by
    obtain ⟨F, e, -⟩ := h.step m (by omega)
    rw [← h.after (n := n) (m := m + 1) (by omega) (by omega), e, modeMat_set_ne (by omega)]

/-- What holds for limits of such sweeps. -/
theorem RidgeSweep.limit {G : ℕ → ℕ → List (NDArray ℝ)} (hS : ∀ j, RidgeSweep X R flags ps (G j))
    (hnext : ∀ j, G j X.shape.length = G (j + 1) 0) {fs : List (NDArray ℝ)} (hf : fs.length = X.shape.length)
    (hlim : FactorsTendTo atTop (fun j => G j 0) fs X.shape R) {m : ℕ} (hm : m < X.shape.length) :
    (flags[m]? = some true → NonNeg (modeMat fs m) (X.shape.getD m 0) R) ∧
    ∀ Y : NDArray ℝ, Y.shape = [X.shape.getD m 0, R] → (flags[m]? = some true → NonNeg Y (X.shape.getD m 0) R) →
      slopeLoss X R fs m (ps.getD m 0) (modeMat fs m) ≤ slopeLoss X R fs m (ps.getD m 0) Y := by
  have h : ∀ m ≤ X.shape.length, FactorsTendTo atTop (fun j => G j m) fs X.shape R := by
    intro m hm k hk i hi r hr
    by_cases hkm : k < m
    · have := (hlim k hk i hi r hr).comp (tendsto_add_atTop_nat 1)
      refine this.congr fun j => ?_
      rw [(hS j).after (n := X.shape.length - m) (by omega) hkm, hnext j]
      rfl
    · refine (hlim k hk i hi r hr).congr fun j => ?_
      rw [(hS j).before hm (not_lt.1 hkm)]
  refine ⟨fun hfl i hi r hr => ?_, fun Y hY hYn => ?_⟩
  · refine ge_of_tendsto' (h (m + 1) hm m hm i hi r hr) fun j => ?_
    obtain ⟨F, e, hn, -⟩ := (hS j).step m hm
    show 0 ≤ (modeMat (G j (m + 1)) m).get [i, r]
    rw [e, modeMat_set_self (by rw [(hS j).len m hm.le]; exact hm)]
    exact hn hfl i hi r hr
  · have hset : fs.set m (modeMat fs m) = fs := by
      rw [modeMat_eq (hf.symm ▸ hm), List.set_getElem_self]
    have hunit : ∀ i r, FactorsTendTo atTop (fun j => (G j m).set m (unitMat (X.shape.getD m 0) R i r))
        (fs.set m (unitMat (X.shape.getD m 0) R i r)) X.shape R := fun i r =>
      (h m hm.le).set (fun j => (hS j).len _ hm.le) hf m _
    have hl1 : ∀ j (Z : NDArray ℝ), ((G j m).set m Z).length = X.shape.length := fun j Z => by
      rw [List.length_set]; exact (hS j).len _ hm.le
    have hl2 : ∀ Z : NDArray ℝ, (fs.set m Z).length = X.shape.length := fun Z => by rw [List.length_set]; exact hf
    have h1 : Tendsto (fun j => (∑ i ∈ Finset.range (X.shape.getD m 0), ∑ r ∈ Finset.range R,
        (tensorSlope X R (G j (m + 1)) ((G j m).set m (unitMat (X.shape.getD m 0) R i r))) ^ 2) / 4 +
          ps.getD m 0 * normSq (modeMat (G j (m + 1)) m) (X.shape.getD m 0) R) atTop
        (𝓝 (slopeLoss X R fs m (ps.getD m 0) (modeMat fs m))) := by
      refine (Tendsto.div_const ?_ 4).add (Tendsto.const_mul _ ?_)
      · refine tendsto_finsetSum _ fun i _ => tendsto_finsetSum _ fun r _ => Tendsto.pow ?_ 2
        rw [entrySlope_eq hf hm, hset]
        exact tendsto_tensorSlope (h (m + 1) hm) (fun j => (hS j).len _ hm) hf (hunit i r) (fun j => hl1 j _) (hl2 _)
      · refine tendsto_finsetSum _ fun i hi => tendsto_finsetSum _ fun r hr => Tendsto.pow ?_ 2
        exact h (m + 1) hm m hm i (Finset.mem_range.1 hi) r (Finset.mem_range.1 hr)
    have h2 : Tendsto (fun j => slopeLoss X R (G j m) m (ps.getD m 0) Y) atTop (𝓝 (slopeLoss X R fs m (ps.getD m 0) Y)) := by
      refine (Tendsto.div_const ?_ 4).add tendsto_const_nhds
      refine tendsto_finsetSum _ fun i _ => tendsto_finsetSum _ fun r _ => Tendsto.pow ?_ 2
      rw [entrySlope_eq hf hm]
      have := tendsto_tensorSlope ((h m hm.le).set (fun j => (hS j).len _ hm.le) hf m Y) (fun j => hl1 j _) (hl2 _) (hunit i r)
        (fun j => hl1 j _) (hl2 _)
      refine this.congr fun j => ?_
      rw [entrySlope_eq ((hS j).len _ hm.le) hm]
    refine le_of_tendsto_of_tendsto' h1 h2 fun j => ?_
    obtain ⟨F, e, -, hn⟩ := (hS j).step m hm
    have h3 := hn Y hY hYn
    refine le_trans (le_of_eq ?_) h3
    rw [slopeLoss, slopeSq, e, modeMat_set_self (by rw [(hS j).len m hm.le]; exact hm)]
    congr 2
    refine Finset.sum_congr rfl fun i _ => Finset.sum_congr rfl fun r _ => ?_
    rw [entrySlope_eq ((hS j).len _ hm.le) hm]

/-- If the rank-one terms of the other modes are orthogonal and of the same length, squared slopes and squared errors differ by a
factor and a constant. -/
theorem slopeSq_sub {fs : List (NDArray ℝ)} {m : ℕ} (hf : fs.length = X.shape.length) (hm : m < X.shape.length) {γ : ℝ}
    (hγ : ∀ a < R, ∀ b < R, restDot X fs m a b = if a = b then γ else 0) {F Y : NDArray ℝ} (hY : Y.shape = [X.shape.getD m 0, R]) :
    (slopeSq X R fs m Y - slopeSq X R fs m F) / 4 =
      γ * (sqErr X (fun _ => 1) (fs.set m Y) R - sqErr X (fun _ => 1) (fs.set m F) R) := by
  set n := X.shape.getD m 0 with hn
  set D : NDArray ℝ := ofMat n R fun i r => Y.get [i, r] - F.get [i, r] with hD
  have e : Y = lineMat n R F D 1 := by
    refine ext_mat hY rfl fun i hi r hr => ?_
    rw [lineMat, get_ofMat hi hr, hD, get_ofMat hi hr]
    ring
  have hc : ∀ i ∈ Finset.range n, ∀ r ∈ Finset.range R, entryCurve X R fs m D i r = 2 * (D.get [i, r] * γ) := fun i hi r hr => by
    have hr' := Finset.mem_range.1 hr
    rw [entryCurve_eq hf hm D (Finset.mem_range.1 hi) hr', Finset.sum_eq_single r]
    · rw [hγ r hr' r hr', if_pos rfl]
    · intro a ha hne
      rw [hγ a (Finset.mem_range.1 ha) r hr', if_neg hne, mul_zero]
    · intro h; exact absurd hr h
  have hq : (sumIdx X.shape fun idx => (cpEntry (fun _ => 1) (fs.set m D) R idx) ^ 2) =
      ∑ i ∈ Finset.range n, ∑ r ∈ Finset.range R, γ * D.get [i, r] ^ 2 := by
    have h1 := curve_units (R := R) hf hm D D
    rw [Finset.sum_congr rfl fun i hi => Finset.sum_congr rfl fun r hr => by rw [hc i hi r hr]] at h1
    have h2 : (sumIdx X.shape fun idx => (cpEntry (fun _ => 1) (fs.set m D) R idx) ^ 2) =
        sumIdx X.shape fun idx => cpEntry (fun _ => 1) (fs.set m D) R idx * cpEntry (fun _ => 1) (fs.set m D) R idx :=
      sumIdx_congr fun idx _ => sq _
    have h3 : ∑ i ∈ Finset.range n, ∑ r ∈ Finset.range R, D.get [i, r] * (2 * (D.get [i, r] * γ)) =
        2 * ∑ i ∈ Finset.range n, ∑ r ∈ Finset.range R, γ * D.get [i, r] ^ 2 := by
      simp only [Finset.mul_sum]
      exact Finset.sum_congr rfl fun i _ => Finset.sum_congr rfl fun r _ => by ring
    rw [h2]
    linarith
  rw [e, slopeSq_line hf hm, sqErr_line hf hm, hq, tensorSlope_units hf hm]
  simp only [one_mul, one_pow]
  rw [add_assoc, add_assoc, add_sub_cancel_left, add_sub_cancel_left, ← Finset.sum_add_distrib, Finset.mul_sum, Finset.mul_sum,
    ← Finset.sum_add_distrib, Finset.sum_div]
  refine Finset.sum_congr rfl fun i hi => ?_
  rw [← Finset.sum_add_distrib, Finset.mul_sum, Finset.mul_sum, ← Finset.sum_add_distrib, Finset.sum_div]
  refine Finset.sum_congr rfl fun r hr => ?_
  rw [hc i hi r hr]
  ring

/-! ## Iterations are sweeps -/

/-- The update of a mode with a penalty, with or without the flag. -/
theorem ridge_update {E : Ext} (hE : E.SVDOk) (hN : E.NNLSOk) {o : CPOpts} (hps : o.ridgePenalties = some ps) (hp0 : ∀ l ∈ ps, 0 ≤ l)
    {s : CPState} (hpl : ps.length = s.X.shape.length) (h : s.Sized o.rank) (hU : s.Flagged flags) {m : ℕ}
    (hm : m < s.X.shape.length) :
    ∃ F, F.shape = [s.X.shape.getD m 0, o.rank] ∧ CP.updateFactor E o m s = .ok (s.updated m o.rank F) ∧
      (flags[m]? = some true → NonNeg F (s.X.shape.getD m 0) o.rank) ∧
      ∀ Y : NDArray ℝ, Y.shape = [s.X.shape.getD m 0, o.rank] → (flags[m]? = some true → NonNeg Y (s.X.shape.getD m 0) o.rank) →
        slopeLoss s.X o.rank s.dec.factorMatrices m (ps.getD m 0) F ≤ slopeLoss s.X o.rank s.dec.factorMatrices m (ps.getD m 0) Y := by
  obtain ⟨l2, a2, b2⟩ := hU.orth
  have hfl : flags[m]? = some (flags[m]'(hU.len.symm ▸ hm)) := List.getElem?_eq_getElem _
  have hpm : ps[m]? = some (ps.getD m 0) := by
    rw [List.getD_eq_getElem?_getD, List.getElem?_eq_getElem (by omega : m < ps.length), Option.getD_some]
  have hl : 0 ≤ ps.getD m 0 := hp0 _ (List.mem_of_getElem? hpm)
  have key : ∀ F Y : NDArray ℝ, resid F (ofMat o.rank o.rank fun a b => gramProd (s.dec.factorMatrices.eraseIdx m) a b)
        (mttkrpMat s.X s.dec.factorMatrices m o.rank) (s.X.shape.getD m 0) o.rank o.rank +
          ps.getD m 0 * normSq F (s.X.shape.getD m 0) o.rank ≤
      resid Y (ofMat o.rank o.rank fun a b => gramProd (s.dec.factorMatrices.eraseIdx m) a b)
        (mttkrpMat s.X s.dec.factorMatrices m o.rank) (s.X.shape.getD m 0) o.rank o.rank +
          ps.getD m 0 * normSq Y (s.X.shape.getD m 0) o.rank →
      slopeLoss s.X o.rank s.dec.factorMatrices m (ps.getD m 0) F ≤ slopeLoss s.X o.rank s.dec.factorMatrices m (ps.getD m 0) Y := by
    intro F Y hFY
    rw [slopeLoss, slopeLoss, slopeSq_eq h.wf.factors hm, slopeSq_eq h.wf.factors hm]
    linarith
  cases hb : flags[m]'(hU.len.symm ▸ hm) with
  | false =>
    rw [hb] at hfl
    obtain ⟨F, e, hF, hopt, -⟩ := C12_ridge hE hl (A := ofMat o.rank o.rank fun a b => gramProd (s.dec.factorMatrices.eraseIdx m) a b)
      (B := mttkrpMat s.X s.dec.factorMatrices m o.rank) (m := o.rank) (n := o.rank) (p := s.X.shape.getD m 0) rfl rfl
    refine ⟨F, hF, updateFactor_ok h.wf.factors h.order hm (h.dim hm)
      (getSolve_ok (nn := false) (on := false) (ridge := some (ps.getD m 0)) ⟨⟨flags, hU.nonNeg, hfl⟩, ⟨l2, a2, b2 m hm⟩,
        Or.inr ⟨ps, _, hps, hpm, rfl⟩⟩ (by simp)) e hF, fun h => by rw [hfl] at h; simp at h, fun Y _ _ => key F Y (hopt Y)⟩
  | true =>
    rw [hb] at hfl
    obtain ⟨F, e, hF, hFn, hopt⟩ := C12_ridge_nonneg hN hl
      (A := ofMat o.rank o.rank fun a b => gramProd (s.dec.factorMatrices.eraseIdx m) a b)
      (B := mttkrpMat s.X s.dec.factorMatrices m o.rank) (m := o.rank) (n := o.rank) (p := s.X.shape.getD m 0) rfl rfl
    exact ⟨F, hF, updateFactor_ok h.wf.factors h.order hm (h.dim hm)
      (getSolve_ok (nn := true) (on := false) (ridge := some (ps.getD m 0)) ⟨⟨flags, hU.nonNeg, hfl⟩, ⟨l2, a2, b2 m hm⟩,
        Or.inr ⟨ps, _, hps, hpm, rfl⟩⟩ (by simp)) e hF, fun _ => hFn, fun Y _ hYn => key F Y (hopt Y (hYn hfl))⟩

theorem ridge_sweep {E : Ext} (hE : E.SVDOk) (hN : E.NNLSOk) {o : CPOpts} (hps : o.ridgePenalties = some ps) (hp0 : ∀ l ∈ ps, 0 ≤ l)
    {s : CPState} (hpl : ps.length = s.X.shape.length) (h : s.Sized o.rank) (hU : s.Flagged flags) :
    (∀ m ≤ s.X.shape.length, CP.updateModes E o (List.range m) s = .ok (CP.partial E o s m) ∧ (CP.partial E o s m).Sized o.rank ∧
      s.SameProblem (CP.partial E o s m)) ∧
    RidgeSweep s.X o.rank flags ps fun m => (CP.partial E o s m).dec.factorMatrices := by
  have hstep : ∀ m < s.X.shape.length, (CP.partial E o s m).Sized o.rank → s.SameProblem (CP.partial E o s m) →
      CP.updateModes E o (List.range m) s = .ok (CP.partial E o s m) →
      ∃ F, F.shape = [s.X.shape.getD m 0, o.rank] ∧
        CP.updateModes E o (List.range (m + 1)) s = .ok ((CP.partial E o s m).updated m o.rank F) ∧
        CP.partial E o s (m + 1) = (CP.partial E o s m).updated m o.rank F ∧
        (flags[m]? = some true → NonNeg F (s.X.shape.getD m 0) o.rank) ∧
        ∀ Y : NDArray ℝ, Y.shape = [s.X.shape.getD m 0, o.rank] → (flags[m]? = some true → NonNeg Y (s.X.shape.getD m 0) o.rank) →
          slopeLoss s.X o.rank (CP.partial E o s m).dec.factorMatrices m (ps.getD m 0) F ≤
            slopeLoss s.X o.rank (CP.partial E o s m).dec.factorMatrices m (ps.getD m 0) Y := by
    intro m hm hs hp e
    obtain ⟨F, hF, eF, opt⟩ := ridge_update hE hN hps hp0 (by rw [hp.X]; exact hpl) hs (hU.same hp) (m := m) (by rw [hp.X]; exact hm)
    rw [hp.X] at hF opt
    have e1 : CP.updateModes E o (List.range (m + 1)) s = .ok ((CP.partial E o s m).updated m o.rank F) := by
      rw [List.range_succ, CP.updateModes, List.foldlM_append]
      rw [CP.updateModes] at e
      rw [e, bind_ok, List.foldlM_cons, eF, bind_ok]; rfl
    exact ⟨F, hF, e1, by rw [CP.partial, e1], opt⟩
  have hall : ∀ m ≤ s.X.shape.length, CP.updateModes E o (List.range m) s = .ok (CP.partial E o s m) ∧
      (CP.partial E o s m).Sized o.rank ∧ s.SameProblem (CP.partial E o s m) := by
    intro m
    induction m with
    | zero => exact fun _ => ⟨rfl, h, .refl s⟩
    | succ m ih =>
      intro hm
      obtain ⟨i1, i2, i3⟩ := ih (by omega)
      obtain ⟨F, hF, e1, e2, -⟩ := hstep m hm i2 i3 i1
      rw [e2]
      exact ⟨e1, i2.updated (by rw [i3.X]; exact hF), i3.trans ⟨rfl, rfl, rfl, rfl, rfl, rfl⟩⟩
  refine ⟨hall, fun m hm => ?_, fun m hm => ?_⟩
  · obtain ⟨-, i2, i3⟩ := hall m hm
    rw [i2.wf.factors.length_eq, i3.X]
  · obtain ⟨i1, i2, i3⟩ := hall m hm.le
    obtain ⟨F, hF, e1, e2, opt⟩ := hstep m hm i2 i3 i1
    exact ⟨F, by rw [e2]; rfl, opt⟩

theorem ridge_orbit {E : Ext} (hE : E.SVDOk) (hN : E.NNLSOk) {o : CPOpts} (hr : 0 < o.rank)
    (hps : o.ridgePenalties = some ps) (hp0 : ∀ l ∈ ps, 0 ≤ l) {s : CPState} (hpl : ps.length = s.X.shape.length) (h : s.Good o)
    (hU : s.Flagged flags) :
    (∀ j, RidgeSweep s.X o.rank flags ps (CP.during E o s j)) ∧
      ∀ j, CP.during E o s j s.X.shape.length = CP.during E o s (j + 1) 0 := by
  have hj : ∀ j, (CP.orbit E o s j).Good o ∧ s.SameProblem (CP.orbit E o s j) := orbit_good hE hN hr h
  refine ⟨fun j => ?_, fun j => ?_⟩
  · obtain ⟨g, p⟩ := hj j
    have := (ridge_sweep hE hN hps hp0 (by rw [p.X]; exact hpl) g.sized (hU.same p)).2
    rw [p.X] at this
    exact this
  · obtain ⟨g, p⟩ := hj j
    have e := orbit_step hE hN hr h j
    obtain ⟨h1, -⟩ := ridge_sweep hE hN hps hp0 (by rw [p.X]; exact hpl) g.sized (hU.same p)
    rw [CP.iteration, CP.updateFactors, (h1 _ le_rfl).1, bind_ok, CP.updateConvergence] at e
    obtain ⟨x, -, hx⟩ := bind_eq_ok.1 e
    rw [during_zero, ← pure_eq_ok.1 hx, CP.during, p.X]

/-- The flags of a configuration: none at all means that no mode has a flag. -/
def CP.flagsOf (nonNeg : Option (List Bool)) (d : ℕ) : List Bool := nonNeg.getD (List.replicate d false)

theorem ridge_fits {E : Ext} (hE : E.SVDOk) (hN : E.NNLSOk) (hQ : E.QROk) {c : CP.Config} {nonNeg : Option (List Bool)}
    (hA : CP.Admissible c.opts nonNeg none X.shape) (hps : c.opts.ridgePenalties = some ps) (hp0 : ∀ l ∈ ps, 0 ≤ l)
    (hlog : c.Measurable) (hfreq : freqOption c.freq ≠ 0) {arg : InitArg KruskalTensor} {t : KruskalTensor}
    (hi : CP.StartsFrom E c nonNeg none arg X t) (ht : t.WF X.shape c.opts.rank)
    {budget : Int} {loggers : List Logger} {file : Option H5File}
    (hS : Storing (CP.method E c) (CP.newObject nonNeg none budget loggers file) [])
    {res : ℕ → World CPState}
    (hres : ∀ n : ℕ, CP.fit E c X (some (n + 1)) arg (CP.newObject nonNeg none budget loggers file) = .ok () (res n))
    (hit : ∀ n : ℕ, (res n).it = n + 1) :
    ∃ s0, CP.initFit E (CP.fresh nonNeg none) X t = .ok s0 ∧ (∀ n, (res n).st = CP.orbit E c.opts s0 (n + 1)) ∧
      (∀ j, RidgeSweep X c.opts.rank (CP.flagsOf nonNeg X.shape.length) ps (CP.during E c.opts s0 j)) ∧
      ∀ j, CP.during E c.opts s0 j X.shape.length = CP.during E c.opts s0 (j + 1) 0 := by
  obtain ⟨s0, e0, hG, hX, -, -, hw, hnn, hon, -⟩ := initFit_good (E := E) hQ (old := CP.fresh nonNeg none) rfl hA ht
  have hU : s0.Flagged (CP.flagsOf nonNeg X.shape.length) := by
    refine ⟨hnn, ?_, _, hon, fun m hm => ?_⟩
    · rw [hX]
      cases hq : nonNeg with
      | none => simp [CP.flagsOf]
      | some l => simpa [CP.flagsOf] using hA.nonNegLen l hq
    · simpa [CP.fresh, List.getElem?_replicate] using hX ▸ hm
  obtain ⟨q1, q2⟩ := ridge_orbit hE hN hA.rank hps hp0 (by rw [hX]; exact hA.ridgeLen _ hps) hG hU
  rw [hX] at q1 q2
  refine ⟨s0, e0, fun n => ?_, q1, q2⟩
  obtain ⟨s0', w', k, e0', h1, -, h3, h4, -⟩ := C74_fit_completes hE hN hQ hA hlog hfreq hi ht
    (mi := some ((n : Int) + 1)) (budget := budget) (by simp only [Option.getD_some]; omega) hS
  rw [e0] at e0'
  obtain rfl : s0 = s0' := Except.ok.inj e0'
  obtain rfl : res n = w' := by
    have := hres n
    rw [h1] at this
    injection this with _ h
    exact h.symm
  have hk : k = n + 1 := by
    have := hit n
    rw [h3] at this
    exact_mod_cast this
  subst hk
  rw [orbit_iterate hE hN hA.rank _ hG] at h4
  exact (Except.ok.inj h4).symm

/-! ## C152 -/

/-- **C152**, the part that holds in general: let `CP_ALS` run with ridge penalties (and perhaps non-negative modes), for
`1, 2, 3, …` iterations from the same start, without the stopping tests ending a fit earlier. If the entries of the factor
matrices converge, then for each mode the limit minimises, over the admissible matrices, a quarter of the sum of the squares of
the partial derivatives of the squared error plus the penalty. Missing: that it minimises the squared error plus the penalty, the
documented loss; this is false, see `C152_fails`. -/
theorem C152_limit_partial {E : Ext} (hE : E.SVDOk) (hN : E.NNLSOk) (hQ : E.QROk) {c : CP.Config} {nonNeg : Option (List Bool)}
    (hA : CP.Admissible c.opts nonNeg none X.shape) (hps : c.opts.ridgePenalties = some ps) (hp0 : ∀ l ∈ ps, 0 ≤ l)
    (hlog : c.Measurable) (hfreq : freqOption c.freq ≠ 0) {arg : InitArg KruskalTensor} {t : KruskalTensor}
    (hi : CP.StartsFrom E c nonNeg none arg X t) (ht : t.WF X.shape c.opts.rank)
    {budget : Int} {loggers : List Logger} {file : Option H5File}
    (hS : Storing (CP.method E c) (CP.newObject nonNeg none budget loggers file) [])
    {res : ℕ → World CPState}
    (hres : ∀ n : ℕ, CP.fit E c X (some (n + 1)) arg (CP.newObject nonNeg none budget loggers file) = .ok () (res n))
    (hit : ∀ n : ℕ, (res n).it = n + 1) {fs : List (NDArray ℝ)} (hf : fs.length = X.shape.length)
    (hlim : FactorsTendTo atTop (fun n => (res n).st.dec.factorMatrices) fs X.shape c.opts.rank) {m : ℕ} (hm : m < X.shape.length) :
    ((CP.flagsOf nonNeg X.shape.length)[m]? = some true → NonNeg (modeMat fs m) (X.shape.getD m 0) c.opts.rank) ∧
    ∀ Y : NDArray ℝ, Y.shape = [X.shape.getD m 0, c.opts.rank] →
      ((CP.flagsOf nonNeg X.shape.length)[m]? = some true → NonNeg Y (X.shape.getD m 0) c.opts.rank) →
      slopeLoss X c.opts.rank fs m (ps.getD m 0) (modeMat fs m) ≤ slopeLoss X c.opts.rank fs m (ps.getD m 0) Y := by
  obtain ⟨s0, -, hst, q1, q2⟩ := ridge_fits hE hN hQ hA hps hp0 hlog hfreq hi ht hS hres hit
  exact RidgeSweep.limit (G := fun j => CP.during E c.opts s0 (j + 1)) (fun j => q1 (j + 1)) (fun j => q2 (j + 1)) hf
    (by simpa only [hst, during_zero] using hlim) hm

/-- **C152** for limits at which the rank-one terms formed by the other modes are orthogonal and of the same squared length `γ > 0`
(always so for one component, if they are not zero): there the limit minimises the documented loss with the penalty `l / γ`
instead of `l`. For `γ = 1` this is the documented loss. -/
theorem C152_orthogonal_partial {E : Ext} (hE : E.SVDOk) (hN : E.NNLSOk) (hQ : E.QROk) {c : CP.Config} {nonNeg : Option (List Bool)}
    (hA : CP.Admissible c.opts nonNeg none X.shape) (hps : c.opts.ridgePenalties = some ps) (hp0 : ∀ l ∈ ps, 0 ≤ l)
    (hlog : c.Measurable) (hfreq : freqOption c.freq ≠ 0) {arg : InitArg KruskalTensor} {t : KruskalTensor}
    (hi : CP.StartsFrom E c nonNeg none arg X t) (ht : t.WF X.shape c.opts.rank)
    {budget : Int} {loggers : List Logger} {file : Option H5File}
    (hS : Storing (CP.method E c) (CP.newObject nonNeg none budget loggers file) [])
    {res : ℕ → World CPState}
    (hres : ∀ n : ℕ, CP.fit E c X (some (n + 1)) arg (CP.newObject nonNeg none budget loggers file) = .ok () (res n))
    (hit : ∀ n : ℕ, (res n).it = n + 1) {fs : List (NDArray ℝ)} (hf : fs.length = X.shape.length)
    (hlim : FactorsTendTo atTop (fun n => (res n).st.dec.factorMatrices) fs X.shape c.opts.rank) {m : ℕ} (hm : m < X.shape.length)
    {γ : ℝ} (hpos : 0 < γ)
    (hγ : ∀ a < c.opts.rank, ∀ b < c.opts.rank, (sumIdx (X.shape.eraseIdx m) fun idx =>
      rankOne (fs.eraseIdx m) idx a * rankOne (fs.eraseIdx m) idx b) = if a = b then γ else 0)
    {Y : NDArray ℝ} (hY : Y.shape = [X.shape.getD m 0, c.opts.rank])
    (hYn : (CP.flagsOf nonNeg X.shape.length)[m]? = some true → NonNeg Y (X.shape.getD m 0) c.opts.rank) :
    modeLoss X c.opts.rank fs m (ps.getD m 0 / γ) (modeMat fs m) ≤ modeLoss X c.opts.rank fs m (ps.getD m 0 / γ) Y := by
  have h1 := (C152_limit_partial hE hN hQ hA hps hp0 hlog hfreq hi ht hS hres hit hf hlim hm).2 Y hY hYn
  have h2 := slopeSq_sub hf hm hγ (F := modeMat fs m) hY
  rw [slopeLoss, slopeLoss] at h1
  rw [modeLoss, modeLoss]
  have h3 : 0 ≤ γ * ((sqErr X (fun _ => 1) (fs.set m Y) c.opts.rank + ps.getD m 0 / γ * normSq Y (X.shape.getD m 0) c.opts.rank) -
      (sqErr X (fun _ => 1) (fs.set m (modeMat fs m)) c.opts.rank +
        ps.getD m 0 / γ * normSq (modeMat fs m) (X.shape.getD m 0) c.opts.rank)) := by
    have e1 : ∀ N : ℝ, γ * (ps.getD m 0 / γ * N) = ps.getD m 0 * N := fun N => by field_simp
    have e2 := e1 (normSq Y (X.shape.getD m 0) c.opts.rank)
    have e3 := e1 (normSq (modeMat fs m) (X.shape.getD m 0) c.opts.rank)
    nlinarith [h1, h2, e2, e3]
  have := nonneg_of_mul_nonneg_right h3 hpos
  linarith

/-! ## The refutation and a concrete case -/

theorem ridge_full {E : Ext} (hE : E.SVDOk) (hN : E.NNLSOk) (hQ : E.QROk) {c : CP.Config} {nonNeg : Option (List Bool)}
    (hA : CP.Admissible c.opts nonNeg none X.shape) (htol : c.opts.convergenceTol ≤ 0) (hrel : c.opts.relLossTol ≤ 0)
    (hlog : c.Measurable) (hfreq : freqOption c.freq ≠ 0) {arg : InitArg KruskalTensor} {t : KruskalTensor}
    (hi : CP.StartsFrom E c nonNeg none arg X t) (ht : t.WF X.shape c.opts.rank)
    {budget : Int} {loggers : List Logger} {file : Option H5File}
    (hS : Storing (CP.method E c) (CP.newObject nonNeg none budget loggers file) []) (n : ℕ) :
    ∃ w', CP.fit E c X (some (n + 1)) arg (CP.newObject nonNeg none budget loggers file) = .ok () w' ∧ w'.it = n + 1 := by
  obtain ⟨s0, e0, hG, -⟩ := initFit_good (E := E) hQ (old := CP.fresh nonNeg none) (o := c.opts) rfl hA ht
  obtain ⟨s0', w', k, e0', h1, h2, h3, h4, -, h6, -⟩ := C74_fit_completes hE hN hQ hA hlog hfreq hi ht
    (mi := some ((n : Int) + 1)) (budget := budget) (by simp only [Option.getD_some]; omega) hS
  refine ⟨w', h1, ?_⟩
  rw [e0] at e0'
  obtain rfl : s0 = s0' := Except.ok.inj e0'
  rw [orbit_iterate hE hN hA.rank k hG] at h4
  obtain rfl | hlt : k = n + 1 ∨ k < n + 1 := by simp only [Option.getD_some] at h2; omega
  · rw [h3]; push_cast; rfl
  · have := h6 (by simp only [Option.getD_some]; omega)
    rw [← Except.ok.inj h4, never_stops htol hrel (orbit_good hE hN hA.rank hG k).1] at this
    cases this

/-- A sweep for the 1 × 1 data `5` with the penalties `4` whose second matrix is `2` leads to the matrices `2` and `2`. -/
theorem ridge_sweep_stuck {g : ℕ → List (NDArray ℝ)} (h : RidgeSweep (full [1, 1] 5) 1 [false, false] [4, 4] g)
    (h1 : (modeMat (g 0) 1).get [0, 0] = 2) :
    (modeMat (g 2) 0).get [0, 0] = 2 ∧ (modeMat (g 2) 1).get [0, 0] = 2 := by
  have hl0 : (g 0).length = 2 := h.len 0 (by simp)
  obtain ⟨F, e, -, hmin⟩ := h.step 0 (by simp [full])
  obtain ⟨G, e', -, hmin'⟩ := h.step 1 (by simp [full])
  have h5 : (full [1, 1] (5 : ℝ)).get [0, 0] = 5 := get_full (s := [1, 1]) ⟨by omega, by omega, trivial⟩
  have h2 : (full [1, 1] (2 : ℝ)).get [0, 0] = 2 := get_full (s := [1, 1]) ⟨by omega, by omega, trivial⟩
  have hg0 : (g 0).eraseIdx 0 = [modeMat (g 0) 1] := by
    match hg : g 0, hl0 with
    | [A, B], _ => simp [modeMat]
  have hsq : ∀ Z : NDArray ℝ, slopeLoss (full [1, 1] 5) 1 (g 0) 0 4 Z = (2 * (Z.get [0, 0] * 4 - 10)) ^ 2 / 4 + 4 * Z.get [0, 0] ^ 2 := by
    intro Z
    rw [slopeLoss, slopeSq, normSq, show (full [1, 1] (5 : ℝ)).shape.getD 0 0 = 1 from rfl, Finset.sum_range_one, Finset.sum_range_one,
      entrySlope_formula (X := full [1, 1] (5 : ℝ)) (m := 0) (by rw [hl0]; rfl) (by simp [full]) Z (by simp [full]) Nat.one_pos,
      Finset.sum_range_one, restDot, mttkrpEntry, hg0, show (full [1, 1] (5 : ℝ)).shape = [1, 1] from rfl]
    simp [rankOne, h1, h5]
    norm_num
  have a1 := hmin (full [1, 1] 2) rfl (by simp)
  rw [show ([4, 4] : List ℝ).getD 0 0 = 4 from rfl, hsq, hsq, h2] at a1
  have f0 : F.get [0, 0] = 2 := by
    have h3 : (F.get [0, 0] - 2) ^ 2 ≤ 0 := by nlinarith [a1]
    have := pow_eq_zero_iff two_ne_zero |>.1 (le_antisymm h3 (sq_nonneg _))
    linarith
  have hg1 : g 1 = [F, modeMat (g 0) 1] := by
    rw [show 1 = 0 + 1 from rfl, e]
    match hg : g 0, hl0 with
    | [A, B], _ => simp [modeMat]
  have hg2 : g 2 = [F, G] := by
    rw [show 2 = 1 + 1 from rfl, e', hg1]; rfl
  have hsq' : ∀ Z : NDArray ℝ, slopeLoss (full [1, 1] 5) 1 (g 1) 1 4 Z = (2 * (Z.get [0, 0] * 4 - 10)) ^ 2 / 4 + 4 * Z.get [0, 0] ^ 2 := by
    intro Z
    rw [slopeLoss, slopeSq, normSq, show (full [1, 1] (5 : ℝ)).shape.getD 1 0 = 1 from rfl, Finset.sum_range_one, Finset.sum_range_one,
      entrySlope_formula (X := full [1, 1] (5 : ℝ)) (m := 1) (by rw [hg1]; rfl) (by simp [full]) Z (by simp [full]) Nat.one_pos,
      Finset.sum_range_one, restDot, mttkrpEntry, hg1, show (full [1, 1] (5 : ℝ)).shape = [1, 1] from rfl]
    simp [rankOne, f0, h5, List.insertIdx]
    norm_num
  have a2 := hmin' (full [1, 1] 2) rfl (by simp)
  rw [show ([4, 4] : List ℝ).getD 1 0 = 4 from rfl, hsq', hsq', h2] at a2
  have g0 : G.get [0, 0] = 2 := by
    have h3 : (G.get [0, 0] - 2) ^ 2 ≤ 0 := by nlinarith [a2]
    have := pow_eq_zero_iff two_ne_zero |>.1 (le_antisymm h3 (sq_nonneg _))
    linarith
  rw [hg2]
  exact ⟨f0, g0⟩

/-- The start of the refutation: `2 · 2`. -/
def ridgeStart : KruskalTensor := ⟨1, [full [1, 1] 2, full [1, 1] 2], full [1] 1⟩

/-- Its configuration: rank 1, penalties 4 and 4, no tolerances, start given by the caller. -/
def ridgeConfig : CP.Config := ⟨⟨1, 0, 0, some [4, 4]⟩, "precomputed", none, true, [], fun _ _ _ _ => 0, id, fun _ => none⟩

/-- **C152** is false of the code: for the 1 × 1 data `5` with the penalties 4 and 4, all fits from the start `2 · 2` end where they
started, so that this is also the limit; its documented loss is 33, while the model zero has the loss 25, and already
replacing the first factor by `5/4` gives the loss 28.5. (The hypotheses of `C152_limit_partial` and `C152_orthogonal_partial` hold here, the
latter with `γ = 4`.) -/
theorem C152_fails {E : Ext} (hE : E.SVDOk) (hN : E.NNLSOk) (hQ : E.QROk) :
    ∃ res : ℕ → World CPState,
      CP.Admissible ridgeConfig.opts none none [1, 1] ∧ ridgeConfig.Measurable ∧ freqOption ridgeConfig.freq ≠ 0 ∧
      CP.StartsFrom E ridgeConfig none none (.tensor ridgeStart) (full [1, 1] 5) ridgeStart ∧ ridgeStart.WF [1, 1] 1 ∧
      Storing (CP.method E ridgeConfig) (CP.newObject none none 10 [] none) [] ∧
      (∀ n : ℕ, CP.fit E ridgeConfig (full [1, 1] 5) (some (n + 1)) (.tensor ridgeStart) (CP.newObject none none 10 [] none) =
        .ok () (res n)) ∧ (∀ n : ℕ, (res n).it = n + 1) ∧
      (∀ n : ℕ, CP.loss ridgeConfig.opts (res n).st = .ok 33) ∧
      FactorsTendTo atTop (fun n => (res n).st.dec.factorMatrices) [full [1, 1] 2, full [1, 1] 2] [1, 1] 1 ∧
      ridgeLoss (full [1, 1] 5) (fun _ => 1) [full [1, 1] 0, full [1, 1] 0] 1 [4, 4] = 25 ∧
      ¬ RidgeOptimal (full [1, 1] 5) [full [1, 1] 2, full [1, 1] 2] 1 [false, false] [4, 4] := by
  have hA : CP.Admissible ridgeConfig.opts none none (full [1, 1] (5 : ℝ)).shape :=
    ⟨by decide, by simp, by simp, by simp, by simp, by simp [ridgeConfig], by simp, by simp⟩
  have ht : ridgeStart.WF (full [1, 1] (5 : ℝ)).shape ridgeConfig.opts.rank := ⟨rfl, .cons rfl (.cons rfl .nil), rfl⟩
  have hi : ridgeConfig.init.toLower = "precomputed" := by
    show "precomputed".toLower = _
    rw [String.toLower, ← String.toList_inj, String.toList_map]; decide
  have hlog : ridgeConfig.Measurable := by intro p hp; simp [ridgeConfig] at hp
  have hfreq : freqOption ridgeConfig.freq ≠ 0 := show freqOption none ≠ 0 by decide
  have hst := startsFrom_precomputed (E := E) (c := ridgeConfig) (X := full [1, 1] (5 : ℝ)) (nonNeg := none) (orth := none) hi ht
  have hS : Storing (CP.method E ridgeConfig) (CP.newObject none none 10 [] none) [] :=
    ⟨fun h => absurd h (show ¬ (0 : Int) < -1 by decide), fun h => absurd h (show ¬ (0 : Int) < -1 by decide),
      fun h => absurd h (show ¬ (0 : Int) < -1 by decide)⟩
  choose res hres hit using ridge_full hE hN hQ hA le_rfl le_rfl hlog hfreq hst ht hS (budget := 10)
  obtain ⟨s0, e0, horb, q1, q2⟩ := ridge_fits hE hN hQ hA (ps := [4, 4]) rfl (by simp) hlog hfreq hst ht hS hres hit
  obtain ⟨s0', e0', hG, hX, -, -, hw, -, -, hdec⟩ := initFit_good (E := E) hQ (old := CP.fresh none none)
    (o := ridgeConfig.opts) rfl hA ht
  rw [e0] at e0'
  obtain rfl : s0 = s0' := Except.ok.inj e0'
  have h2v : (full [1, 1] (2 : ℝ)).get [0, 0] = 2 := get_full (s := [1, 1]) ⟨by omega, by omega, trivial⟩
  have h0v : (full [1, 1] (0 : ℝ)).get [0, 0] = 0 := get_full (s := [1, 1]) ⟨by omega, by omega, trivial⟩
  have h5v : (full [1, 1] (5 : ℝ)).get [0, 0] = 5 := get_full (s := [1, 1]) ⟨by omega, by omega, trivial⟩
  have hB : ∀ j, (modeMat (CP.during E ridgeConfig.opts s0 j 0) 1).get [0, 0] = 2 := by
    intro j
    induction j with
    | zero =>
      rw [during_zero, show CP.orbit E ridgeConfig.opts s0 0 = s0 from rfl, hdec rfl]
      exact h2v
    | succ j ih =>
      rw [← q2 j]
      exact (ridge_sweep_stuck (q1 j) ih).2
  refine ⟨res, hA, hlog, hfreq, hst, ht, hS, hres, hit, fun n => ?_, fun m hm i hi' r hr' => ?_, ?_, fun hopt => ?_⟩
  · obtain ⟨g1, p1⟩ := orbit_good hE hN hA.rank hG (n + 1)
    rw [horb n, C37_loss g1.sized g1.cached rfl, p1.X, hX]
    obtain ⟨a, b⟩ := ridge_sweep_stuck (q1 n) (hB n)
    have hfs := q2 n
    rw [during_zero] at hfs
    have hfa := g1.sized.wf.factors
    have hl := hfa.length_eq
    rw [p1.X, hX] at hfa hl
    rw [show (full [1, 1] (5 : ℝ)).shape.length = 2 from rfl] at hfs
    rw [hfs] at a b
    match hq : (CP.orbit E ridgeConfig.opts s0 (n + 1)).dec.factorMatrices, hl with
    | [F, G], _ =>
      rw [hq] at a b hfa
      obtain ⟨hF, hfa⟩ := List.forall₂_cons.1 hfa
      obtain ⟨hG', -⟩ := List.forall₂_cons.1 hfa
      have w0 : (CP.orbit E ridgeConfig.opts s0 (n + 1)).dec.weights.get [0] = 1 := by rw [p1.weights]; exact hw 0 (by decide)
      have a' : F.get [0, 0] = 2 := a
      have b' : G.get [0, 0] = 2 := b
      rw [ridgeLoss, sqErr, show (full [1, 1] (5 : ℝ)).shape = [1, 1] from rfl, show ridgeConfig.opts.rank = 1 from rfl]
      simp [sumIdx, cpEntry, rankOne, normSq, hF, hG', a', b', w0, h5v]
      norm_num
  · have hconst : ∀ j, (modeMat (res j).st.dec.factorMatrices m).get [i, r] =
        (modeMat [full [1, 1] 2, full [1, 1] 2] m).get [i, r] := by
      intro j
      rw [horb j, ← during_zero, ← q2 j]
      obtain ⟨a, b⟩ := ridge_sweep_stuck (q1 j) (hB j)
      obtain rfl : r = 0 := by omega
      match m, hm with
      | 0, _ =>
        obtain rfl : i = 0 := by simpa using hi'
        exact a.trans h2v.symm
      | 1, _ =>
        obtain rfl : i = 0 := by simpa using hi'
        exact b.trans h2v.symm
    exact tendsto_const_nhds.congr fun j => (hconst j).symm
  · rw [ridgeLoss, sqErr, show (full [1, 1] (5 : ℝ)).shape = [1, 1] from rfl]
    simp [sumIdx, cpEntry, rankOne, normSq, h0v, h5v]
    norm_num
  · have h54 : (full [1, 1] (5 / 4 : ℝ)).get [0, 0] = 5 / 4 := get_full (s := [1, 1]) ⟨by omega, by omega, trivial⟩
    have := hopt 0 (by simp [full]) (full [1, 1] (5 / 4)) rfl (by simp)
    rw [modeLoss, modeLoss, sqErr, sqErr, show (full [1, 1] (5 : ℝ)).shape = [1, 1] from rfl] at this
    simp [sumIdx, cpEntry, rankOne, normSq, modeMat, h2v, h5v, h54] at this
    norm_num at this

/-- The further hypothesis of `C152_orthogonal_partial` for the limit of `C152_fails`: with `γ = 4`. -/
example : ∀ a < 1, ∀ b < 1, (sumIdx ((full [1, 1] (5 : ℝ)).shape.eraseIdx 0) fun idx =>
    rankOne ([full [1, 1] (2 : ℝ), full [1, 1] 2].eraseIdx 0) idx a * rankOne ([full [1, 1] (2 : ℝ), full [1, 1] 2].eraseIdx 0) idx b) =
      if a = b then 4 else 0 := by
  intro a ha b hb
  obtain rfl : a = 0 := by omega
  obtain rfl : b = 0 := by omega
  have h2v : (full [1, 1] (2 : ℝ)).get [0, 0] = 2 := get_full (s := [1, 1]) ⟨by omega, by omega, trivial⟩
  rw [show (full [1, 1] (5 : ℝ)).shape = [1, 1] from rfl]
  simp [sumIdx, rankOne, h2v]
  norm_num

/-- The matrices of the other modes need not be of size one: two orthonormal columns. -/
example : ∀ a < 2, ∀ b < 2, (sumIdx [2] fun idx =>
    rankOne [ofMat 2 2 fun i r => if i = r then (1 : ℝ) else 0] idx a * rankOne [ofMat 2 2 fun i r => if i = r then (1 : ℝ) else 0] idx b) =
      if a = b then 1 else 0 := by
  intro a ha b hb
  have e : ∀ i < 2, ∀ r < 2, (ofMat 2 2 fun i r => if i = r then (1 : ℝ) else 0).get [i, r] = if i = r then 1 else 0 :=
    fun i hi r hr => get_ofMat hi hr
  simp only [sumIdx, rankOne, Finset.sum_range_succ, Finset.sum_range_zero, e _ (by omega : 0 < 2) _ ha, e _ (by omega : 0 < 2) _ hb,
    e _ (by omega : 1 < 2) _ ha, e _ (by omega : 1 < 2) _ hb]
  interval_cases a <;> interval_cases b <;> simp

end

end TK
