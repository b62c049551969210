import Verif.Props.Best
import Verif.Props.CPConstrained

/-!
# C142: ridge penalties

With a positive penalty for each mode the documented loss has a minimum, and a bound on the attribute `loss` is a bound on the factor
matrices.
-/

namespace TK
open NDArray

noncomputable section

/-- The penalties, mode by mode. -/
theorem penalty_sum {R : ℕ} : ∀ {ps : List ℝ} {fs : List (NDArray ℝ)} {sizes : List ℕ}, Factors fs sizes R → ps.length = sizes.length →
    (List.zipWith (fun l (F : NDArray ℝ) => l * normSq F (F.shape.getD 0 0) R) ps fs).sum
      = ∑ m ∈ Finset.range sizes.length, ps.getD m 0 * normSq (modeMat fs m) (sizes.getD m 0) R
  | [], [], [], _, _ => by simp
  | [], _ :: _, [], h, _ => by cases h
  | _ :: _, _, [], _, hl => by simp at hl
  | [], _, _ :: _, _, hl => by simp at hl
  | _ :: _, [], _ :: _, h, _ => by cases h
  | l :: ps, F :: fs, n :: ns, h, hl => by
    cases h with
    | cons hF h =>
      rw [List.zipWith_cons_cons, List.sum_cons, penalty_sum h (by simpa using hl), List.length_cons, Finset.sum_range_succ', hF, add_comm]
      rfl

namespace Params

variable {sizes : List ℕ} {R : ℕ}

/-- The penalties. -/
def penalty (sizes : List ℕ) (R : ℕ) (ps : List ℝ) (p : Params) : ℝ :=
  ∑ m ∈ Finset.range sizes.length, ps.getD m 0 * ∑ i ∈ Finset.range (sizes.getD m 0), ∑ r ∈ Finset.range R, p.2 m i r ^ 2

theorem continuous_penalty (sizes : List ℕ) (R : ℕ) (ps : List ℝ) : Continuous (penalty sizes R ps) :=
  continuous_finsetSum _ fun m _ => continuous_const.mul <| continuous_finsetSum _ fun i _ => continuous_finsetSum _ fun r _ =>
    (continuous_cell m i r).pow 2

/-- The models with weights one and entries in `[-b, b]`. -/
def cube (b : ℝ) : Set Params :=
  {p | (∀ r, p.1 r ∈ Set.Icc (1 : ℝ) 1) ∧ ∀ m i r, p.2 m i r ∈ Set.Icc (-b) b}

theorem isCompact_cube (b : ℝ) : IsCompact (cube b) := by
  have h1 : IsCompact (Set.univ.pi fun _ : ℕ => Set.Icc (1 : ℝ) 1) := isCompact_univ_pi fun _ => isCompact_Icc
  have h2 : IsCompact (Set.univ.pi fun _ : ℕ => Set.univ.pi fun _ : ℕ => Set.univ.pi fun _ : ℕ => Set.Icc (-b) b) :=
    isCompact_univ_pi fun _ => isCompact_univ_pi fun _ => isCompact_univ_pi fun _ => isCompact_Icc
  have h := h1.prod h2
  convert h using 1
  ext p
  simp only [cube, Set.mem_prod, Set.mem_pi, Set.mem_univ, true_implies]
  rfl

/-- The entries inside the factor matrices; weights one. -/
def inside (sizes : List ℕ) (R : ℕ) (p : Params) : Params :=
  (fun _ => 1, fun m i r => if m < sizes.length ∧ i < sizes.getD m 0 ∧ r < R then p.2 m i r else 0)

theorem inside_err {X : NDArray ℝ} {p : Params} (hw : ∀ r < R, p.1 r = 1) : err X R (p.inside X.shape R) = err X R p :=
  sumIdx_congr fun idx h => by
    simp only [entry, term, inside]
    congr 2
    refine Finset.sum_congr rfl fun r hr => ?_
    have hr := Finset.mem_range.1 hr
    rw [hw r hr]
    congr 1
    refine Finset.prod_congr rfl fun m hm => ?_
    have hm := Finset.mem_range.1 hm
    rw [if_pos ⟨hm, getD_lt h hm, hr⟩]

theorem inside_penalty {ps : List ℝ} {p : Params} : (p.inside sizes R).penalty sizes R ps = p.penalty sizes R ps := by
  refine Finset.sum_congr rfl fun m hm => congrArg _ (Finset.sum_congr rfl fun i hi => Finset.sum_congr rfl fun r hr => ?_)
  simp only [inside]
  rw [if_pos ⟨Finset.mem_range.1 hm, Finset.mem_range.1 hi, Finset.mem_range.1 hr⟩]

theorem cell_le_penalty {ps : List ℝ} (hp : ∀ m < sizes.length, 0 < ps.getD m 0) {p : Params} {m i r : ℕ} (hm : m < sizes.length)
    (hi : i < sizes.getD m 0) (hr : r < R) : ps.getD m 0 * p.2 m i r ^ 2 ≤ p.penalty sizes R ps := by
  have h1 : ∀ m ∈ Finset.range sizes.length,
      0 ≤ ps.getD m 0 * ∑ i ∈ Finset.range (sizes.getD m 0), ∑ r ∈ Finset.range R, p.2 m i r ^ 2 := fun m hm =>
    mul_nonneg (hp m (Finset.mem_range.1 hm)).le (Finset.sum_nonneg fun _ _ => Finset.sum_nonneg fun _ _ => sq_nonneg _)
  refine le_trans (mul_le_mul_of_nonneg_left ?_ (hp m hm).le) (Finset.single_le_sum h1 (Finset.mem_range.2 hm))
  exact (Finset.single_le_sum (f := fun r => p.2 m i r ^ 2) (fun _ _ => sq_nonneg _) (Finset.mem_range.2 hr)).trans
    (Finset.single_le_sum (f := fun i => ∑ r ∈ Finset.range R, p.2 m i r ^ 2)
      (fun _ _ => Finset.sum_nonneg fun _ _ => sq_nonneg _) (Finset.mem_range.2 hi))

/-- The penalised error has a minimum. -/
theorem exists_best_ridge (X : NDArray ℝ) (R : ℕ) {ps : List ℝ} (hp : ∀ m < X.shape.length, 0 < ps.getD m 0) :
    ∃ p : Params, (∀ r, p.1 r = 1) ∧ ∀ q : Params, (∀ r < R, q.1 r = 1) →
      err X R p + p.penalty X.shape R ps ≤ err X R q + q.penalty X.shape R ps := by
  set p0 : Params := (fun _ => 1, fun _ _ _ => 0) with hp0
  set L0 := err X R p0 + p0.penalty X.shape R ps with hL0
  have err0 : ∀ q : Params, 0 ≤ err X R q := fun q => sumIdx_nonneg fun _ _ => sq_nonneg _
  have pen0 : p0.penalty X.shape R ps = 0 := by simp [penalty, hp0]
  have hL : 0 ≤ L0 := by rw [hL0, pen0, add_zero]; exact err0 _
  set b : ℝ := Real.sqrt (∑ m ∈ Finset.range X.shape.length, L0 / ps.getD m 0) with hb
  have hterm : ∀ m ∈ Finset.range X.shape.length, 0 ≤ L0 / ps.getD m 0 := fun m hm =>
    div_nonneg hL (hp m (Finset.mem_range.1 hm)).le
  have hb2 : b ^ 2 = ∑ m ∈ Finset.range X.shape.length, L0 / ps.getD m 0 := Real.sq_sqrt (Finset.sum_nonneg hterm)
  have hb0 : 0 ≤ b := Real.sqrt_nonneg _
  have key : ∀ q : Params, err X R q + q.penalty X.shape R ps ≤ L0 → q.inside X.shape R ∈ cube b := fun q h =>
    ⟨fun r => ⟨le_rfl, le_rfl⟩, fun m i r => by
      simp only [inside]
      split_ifs with hc
      · have h1 := cell_le_penalty hp (p := q) hc.1 hc.2.1 hc.2.2
        have h2 := err0 q
        refine abs_le.1 (abs_le_of_sq_le_sq ?_ hb0)
        rw [hb2]
        refine le_trans ?_ (Finset.single_le_sum hterm (Finset.mem_range.2 hc.1))
        rw [le_div_iff₀ (hp m hc.1)]
        linarith
      · exact ⟨by linarith, hb0⟩⟩
  obtain ⟨p, hpc, hmin⟩ := (isCompact_cube b).exists_isMinOn ⟨_, key p0 le_rfl⟩
    ((continuous_err X R).add (continuous_penalty X.shape R ps)).continuousOn
  have hval : ∀ q : Params, (∀ r < R, q.1 r = 1) → err X R q + q.penalty X.shape R ps ≤ L0 →
      err X R p + p.penalty X.shape R ps ≤ err X R q + q.penalty X.shape R ps := fun q hq h => by
    have := hmin (key q h)
    simp only [Set.mem_ofPred_eq, Pi.add_apply, inside_err hq, inside_penalty] at this
    exact this
  refine ⟨p, fun r => le_antisymm (hpc.1 r).2 (hpc.1 r).1, fun q hq => ?_⟩
  by_cases h : err X R q + q.penalty X.shape R ps ≤ L0
  · exact hval q hq h
  · have := hval p0 (fun _ _ => rfl) le_rfl
    linarith

end Params

/-- **C142.** With a positive ridge penalty for each mode, the loss that the code documents has a minimum over the factor matrices. -/
theorem C142_best_ridge (X : NDArray ℝ) (R : ℕ) {ps : List ℝ} (hl : ps.length = X.shape.length) (hp : ∀ l ∈ ps, 0 < l) :
    ∃ fs, Factors fs X.shape R ∧ ∀ fs', Factors fs' X.shape R → ridgeLoss X (fun _ => 1) fs R ps ≤ ridgeLoss X (fun _ => 1) fs' R ps := by
  have hp' : ∀ m < X.shape.length, 0 < ps.getD m 0 := fun m hm => by
    rw [getD_eq_getElem' 0 (by rw [hl]; exact hm)]
    exact hp _ (List.getElem_mem _)
  obtain ⟨p, h1, hmin⟩ := Params.exists_best_ridge X R hp'
  refine ⟨p.mats X.shape R, Params.mats_factors, fun fs' hf => ?_⟩
  rw [ridgeLoss, ridgeLoss, penalty_sum Params.mats_factors hl, penalty_sum hf hl]
  have e1 : sqErr X (fun _ => 1) (p.mats X.shape R) R = Params.err X R p := by
    rw [← Params.sqErr_kruskal]
    refine sumIdx_congr fun idx _ => ?_
    congr 2
    exact Finset.sum_congr rfl fun r hr => by simp only [Params.kruskal_weight (Finset.mem_range.1 hr), h1 r]; rfl
  have e2 : ∑ m ∈ Finset.range X.shape.length, ps.getD m 0 * normSq (modeMat (p.mats X.shape R) m) (X.shape.getD m 0) R
      = p.penalty X.shape R ps :=
    Finset.sum_congr rfl fun m hm => congrArg _ (Finset.sum_congr rfl fun i hi => Finset.sum_congr rfl fun r hr => by
      rw [Params.mats_get (Finset.mem_range.1 hm), get_ofMat (Finset.mem_range.1 hi) (Finset.mem_range.1 hr)])
  rw [e1, e2]
  refine (hmin (Params.ofModel (fun _ => 1) fs') fun _ _ => rfl).trans (le_of_eq ?_)
  rw [Params.err_ofModel hf.length_eq]
  rfl

/-- **C142.** The attribute `loss` of a fit with ridge penalties bounds the factor matrices of the modes with a positive penalty. -/
theorem C142_ridge_bound {o : CPOpts} {s : CPState} (h : s.Sized o.rank) (hc : s.Cached o.rank) {ps : List ℝ}
    (hp : o.ridgePenalties = some ps) (hl : ps.length = s.X.shape.length) (h0 : ∀ l ∈ ps, 0 ≤ l) :
    ∃ v, CP.loss o s = .ok v ∧ ∀ m l F, ps[m]? = some l → 0 < l → s.dec.factorMatrices[m]? = some F →
      normSq F (s.X.shape.getD m 0) o.rank ≤ v / l := by
  refine ⟨_, C37_loss h hc hp, fun m l F hm hpos hF => ?_⟩
  obtain ⟨hm', rfl⟩ := List.getElem?_eq_some_iff.1 hm
  rw [le_div_iff₀ hpos, ridgeLoss, penalty_sum h.wf.factors hl]
  have h1 : 0 ≤ sqErr s.X (fun r => s.dec.weights.get [r]) s.dec.factorMatrices o.rank := sumIdx_nonneg fun _ _ => sq_nonneg _
  have h2 := Finset.single_le_sum (s := Finset.range s.X.shape.length)
    (f := fun m => ps.getD m 0 * normSq (modeMat s.dec.factorMatrices m) (s.X.shape.getD m 0) o.rank) (fun m hm => by
      rw [getD_eq_getElem' 0 (by rw [hl]; exact Finset.mem_range.1 hm)]
      exact mul_nonneg (h0 _ (List.getElem_mem _)) (Finset.sum_nonneg fun _ _ => Finset.sum_nonneg fun _ _ => sq_nonneg _))
    (Finset.mem_range.2 (by rw [← hl]; exact hm'))
  simp only [modeMat_some hF, getD_eq_getElem' 0 hm'] at h2
  linarith

/-- A state with penalties to which `C142_ridge_bound` applies. -/
example : ∃ v, CP.loss ⟨1, 0, 0, some [1, 1]⟩ ridgeWitness = .ok v ∧ ∀ m l F, [1, (1 : ℝ)][m]? = some l → 0 < l →
    ridgeWitness.dec.factorMatrices[m]? = some F → normSq F (ridgeWitness.X.shape.getD m 0) 1 ≤ v / l :=
  C142_ridge_bound (o := ⟨1, 0, 0, some [1, 1]⟩) ridgeWitness_sized ridgeWitness_cached rfl (by simp [ridgeWitness]) (by simp)

/-- Penalties to which `C142_best_ridge` applies. -/
example : ∃ fs, Factors fs wTensor.shape 2 ∧ ∀ fs', Factors fs' wTensor.shape 2 →
    ridgeLoss wTensor (fun _ => 1) fs 2 [1, 2, 3] ≤ ridgeLoss wTensor (fun _ => 1) fs' 2 [1, 2, 3] :=
  C142_best_ridge wTensor 2 (by simp [wTensor]) (by simp)

end

end TK
