import Verif.Lemmas.Best
import Verif.Props.CP
import Verif.Props.CPFit
import Verif.Props.Scores

/-!
# C142: sizes of components and best models

The components of a model whose factor matrices are non-negative, or that has one factor matrix with orthogonal columns, cannot
cancel, and among these models there is a best one. Without such a constraint the components can cancel; if there is no exact model
but models with arbitrarily small errors, then these have arbitrarily large components.
-/

namespace TK
open NDArray Fit

noncomputable section

/-! ### Components that do not cancel -/

variable {sizes : List ℕ} {R : ℕ} {w : ℕ → ℝ} {fs : List (NDArray ℝ)}

theorem sum_mul_sum_comp (sizes : List ℕ) (R : ℕ) (g : List ℕ → ℕ → ℝ) :
    (sumIdx sizes fun idx => (∑ r ∈ Finset.range R, g idx r) ^ 2)
      = ∑ r ∈ Finset.range R, ∑ s ∈ Finset.range R, sumIdx sizes fun idx => g idx r * g idx s := by
  rw [sumIdx_congr fun idx _ => show (∑ r ∈ Finset.range R, g idx r) ^ 2
    = ∑ r ∈ Finset.range R, ∑ s ∈ Finset.range R, g idx r * g idx s by rw [sq, Finset.sum_mul_sum], sumIdx_sum]
  exact Finset.sum_congr rfl fun r _ => sumIdx_sum _ _ _

theorem rankOne_nonneg {R : ℕ} : ∀ {fs : List (NDArray ℝ)} {sizes idx : List ℕ}, fs.length = sizes.length →
    (∀ m F, fs[m]? = some F → NonNeg F (sizes.getD m 0) R) → Valid sizes idx → ∀ r < R, 0 ≤ rankOne fs idx r
  | [], _, _, _, _, _, r, _ => by simp [rankOne]
  | F :: fs, [], _, hl, _, _, _, _ => by simp at hl
  | F :: fs, n :: ns, idx, hl, h, hv, r, hr => by
    obtain ⟨i, is, rfl, hi, his⟩ := valid_cons_iff.1 hv
    exact mul_nonneg (h 0 F rfl i (by simpa using hi) r hr)
      (rankOne_nonneg (by simpa using hl) (fun m G hG => by simpa using h (m + 1) G (by simpa using hG)) his r hr)

/-- **C142.** The squared norms of non-negative components add up to at most that of their sum. -/
theorem C142_nonneg (hl : fs.length = sizes.length) (hw : ∀ r < R, 0 ≤ w r)
    (h : ∀ m F, fs[m]? = some F → NonNeg F (sizes.getD m 0) R) :
    ∑ r ∈ Finset.range R, compSq sizes w fs r ≤ modelSq sizes w fs R := by
  rw [modelSq]
  simp only [cpEntry]
  rw [sum_mul_sum_comp]
  refine Finset.sum_le_sum fun r hr => ?_
  have e : compSq sizes w fs r = sumIdx sizes fun idx => w r * rankOne fs idx r * (w r * rankOne fs idx r) :=
    sumIdx_congr fun idx _ => sq _
  rw [e]
  refine Finset.single_le_sum (f := fun s => sumIdx sizes fun idx => w r * rankOne fs idx r * (w s * rankOne fs idx s))
    (fun s hs => sumIdx_nonneg fun idx hv => ?_) hr
  have hr := Finset.mem_range.1 hr
  have hs := Finset.mem_range.1 hs
  exact mul_nonneg (mul_nonneg (hw r hr) (rankOne_nonneg hl h hv r hr))
    (mul_nonneg (hw s hs) (rankOne_nonneg hl h hv s hs))

/-- **C142.** If one factor matrix has orthogonal columns, the squared norms of the components add up to that of their sum. -/
theorem C142_orth (hf : Factors fs sizes R) {k : ℕ} {F : NDArray ℝ} (hk : fs[k]? = some F)
    (h : ∀ r < R, ∀ s < R, r ≠ s → ∑ i ∈ Finset.range (sizes.getD k 0), F.get [i, r] * F.get [i, s] = 0) :
    ∑ r ∈ Finset.range R, compSq sizes w fs r = modelSq sizes w fs R := by
  rw [modelSq]
  simp only [cpEntry]
  rw [sum_mul_sum_comp]
  refine Finset.sum_congr rfl fun r hr => ?_
  have hr := Finset.mem_range.1 hr
  rw [Finset.sum_eq_single r]
  · exact sumIdx_congr fun idx _ => sq _
  · intro s hs hne
    have hs := Finset.mem_range.1 hs
    have e : (sumIdx sizes fun idx => w r * rankOne fs idx r * (w s * rankOne fs idx s))
        = w r * w s * sumIdx sizes fun idx => rankOne fs idx r * rankOne fs idx s := by
      rw [mul_sumIdx]; exact sumIdx_congr fun idx _ => by ring
    rw [e, sumIdx_rankOne_mul hf, gramProd]
    obtain ⟨hk', rfl⟩ := List.getElem?_eq_some_iff.1 hk
    have hz : gramEntry fs[k] r s = 0 := by
      rw [gramEntry, hf.shape_get hk']
      exact h r hr s hs hne.symm
    rw [List.prod_eq_zero (List.mem_map.2 ⟨_, List.getElem_mem hk', hz⟩), mul_zero]
  · intro h'; exact absurd (Finset.mem_range.2 hr) h'

theorem compSq_nonneg (r : ℕ) : 0 ≤ compSq sizes w fs r := sumIdx_nonneg fun _ _ => sq_nonneg _

theorem cauchy_sumIdx (s : List ℕ) (f g : List ℕ → ℝ) :
    (sumIdx s fun idx => f idx * g idx) ^ 2 ≤ (sumIdx s fun idx => f idx ^ 2) * (sumIdx s fun idx => g idx ^ 2) := by
  set a := sumIdx s fun idx => f idx ^ 2 with ha
  set b := sumIdx s fun idx => f idx * g idx with hb
  set c := sumIdx s fun idx => g idx ^ 2 with hc
  have ha0 : 0 ≤ a := sumIdx_nonneg fun _ _ => sq_nonneg _
  have key : ∀ t : ℝ, 0 ≤ a * (t * t) + 2 * b * t + c := fun t => by
    have : a * (t * t) + 2 * b * t + c = sumIdx s fun idx => (t * f idx + g idx) ^ 2 := by
      rw [sumIdx_congr fun idx _ => show (t * f idx + g idx) ^ 2 = (t * t) * f idx ^ 2 + (2 * t) * (f idx * g idx) + g idx ^ 2 by ring,
        sumIdx_add, sumIdx_add, ← mul_sumIdx, ← mul_sumIdx, ← ha, ← hb, ← hc]
      ring
    rw [this]
    exact sumIdx_nonneg fun _ _ => sq_nonneg _
  have := discrim_le_zero key
  rw [discrim] at this
  nlinarith

/-- The norm of the model is at most that of the data plus the square root of the error. -/
theorem model_norm_le (X : NDArray ℝ) :
    Real.sqrt (modelSq X.shape w fs R) ≤ Real.sqrt (sumSq X) + Real.sqrt (sqErr X w fs R) := by
  have h1 : 0 ≤ sumSq X := sumIdx_nonneg fun _ _ => sq_nonneg _
  have h2 : 0 ≤ sqErr X w fs R := sumIdx_nonneg fun _ _ => sq_nonneg _
  have hc := cauchy_sumIdx X.shape (fun idx => X.get idx) fun idx => X.get idx - cpEntry w fs R idx
  set b := sumIdx X.shape fun idx => X.get idx * (X.get idx - cpEntry w fs R idx) with hb
  have e : modelSq X.shape w fs R = sumSq X - 2 * b + sqErr X w fs R := by
    rw [modelSq, sumSq, sqErr, hb, mul_sumIdx, ← sumIdx_sub, ← sumIdx_add]
    exact sumIdx_congr fun idx _ => by ring
  refine Real.sqrt_le_iff.2 ⟨by positivity, ?_⟩
  have h3 : -b ≤ Real.sqrt (sumSq X) * Real.sqrt (sqErr X w fs R) := by
    rw [← Real.sqrt_mul h1]
    exact (neg_le_abs b).trans (Real.abs_le_sqrt hc)
  rw [e, add_sq, Real.sq_sqrt h1, Real.sq_sqrt h2]
  linarith

/-- **C142.** After a fit with at least one iteration and non-negativity constraints on all modes (with or without ridge penalties),
the squared norms of the components add up to at most that of the model, and no component is larger than the norm of the data plus
the square root of the error that the fit reports. -/
theorem C142_fit {E : Ext} (hE : E.SVDOk) (hN : E.NNLSOk) (hQ : E.QROk) {c : CP.Config}
    {nonNeg orth : Option (List Bool)} {X : NDArray ℝ} (hA : CP.Admissible c.opts nonNeg orth X.shape)
    (hnn : nonNeg = some (List.replicate X.shape.length true))
    (hlog : c.Measurable) (hfreq : freqOption c.freq ≠ 0) {arg : InitArg KruskalTensor} {t : KruskalTensor}
    (hi : CP.StartsFrom E c nonNeg orth arg X t)
    (ht : t.WF X.shape c.opts.rank) {budget : Int} {mi : Option Int} (hb : 0 < mi.getD budget)
    {loggers : List Logger} {file : Option H5File}
    (hS : Storing (CP.method E c) (CP.newObject nonNeg orth budget loggers file) []) :
    ∃ w' v, CP.fit E c X mi arg (CP.newObject nonNeg orth budget loggers file) = .ok () w' ∧ CP.sse w'.st = .ok v ∧
      (1 ≤ w'.it →
        ∑ r ∈ Finset.range c.opts.rank, compSq X.shape (fun r => w'.st.dec.weights.get [r]) w'.st.dec.factorMatrices r
          ≤ modelSq X.shape (fun r => w'.st.dec.weights.get [r]) w'.st.dec.factorMatrices c.opts.rank ∧
        ∀ r < c.opts.rank, Real.sqrt (compSq X.shape (fun r => w'.st.dec.weights.get [r]) w'.st.dec.factorMatrices r)
          ≤ Real.sqrt (sumSq X) + Real.sqrt v) := by
  obtain ⟨s0, w', k, e0, h1, -, hit, h2, -, -, hwf, hsse, hX', hw1, -⟩ := C74_fit_completes hE hN hQ hA hlog hfreq hi ht hb hS
  obtain ⟨s0', e0', hG, hX, -, -, hones, hn0, hon, -⟩ := initFit_good (E := E) hQ (old := CP.fresh nonNeg orth) rfl hA ht
  rw [e0] at e0'
  obtain rfl : s0 = s0' := by injection e0'
  refine ⟨w', _, h1, hsse, fun hk => ?_⟩
  have hk' : 1 ≤ k := by omega
  have hpos : ∀ m F, w'.st.dec.factorMatrices[m]? = some F → NonNeg F (X.shape.getD m 0) c.opts.rank := by
    intro m F hF
    have hm : m < s0.X.shape.length := by
      rw [hX, ← hwf.factors.length_eq]
      exact (List.getElem?_eq_some_iff.1 hF).1
    obtain ⟨nn, on, ridge, hc, hnb⟩ := hG.config m hm
    obtain ⟨l, hl1, hl2⟩ := hc.nonNeg
    have htrue : nn = true := by
      rw [hn0] at hl1
      obtain rfl := Option.some.inj hl1
      have : (CP.fresh nonNeg orth).nonNeg = nonNeg := rfl
      rw [this, hnn, Option.getD_some, List.getElem?_replicate, if_pos (by rwa [hX] at hm)] at hl2
      exact (Option.some.inj hl2).symm
    subst htrue
    have hfalse : on = false := by
      cases on
      · rfl
      · exact absurd ⟨rfl, rfl⟩ hnb
    subst hfalse
    obtain ⟨G, hG1, hG2⟩ := C40_nonneg_after_fit hN hG.sized hm hc hk' h2
    rw [hF] at hG1
    obtain rfl := Option.some.inj hG1
    rwa [hX] at hG2
  have hsum := C142_nonneg (w := fun r => w'.st.dec.weights.get [r]) hwf.factors.length_eq
    (fun r hr => by simp only [hw1 r hr]; norm_num) hpos
  refine ⟨hsum, fun r hr => ?_⟩
  have h3 := model_norm_le (w := fun r => w'.st.dec.weights.get [r]) (fs := w'.st.dec.factorMatrices) (R := c.opts.rank) X
  rw [CPState.trueSSE, hX']
  refine (Real.sqrt_le_sqrt ?_).trans h3
  exact (Finset.single_le_sum (f := fun r => compSq X.shape (fun r => w'.st.dec.weights.get [r]) w'.st.dec.factorMatrices r)
    (fun _ _ => compSq_nonneg _) (Finset.mem_range.2 hr)).trans hsum

/-! ### Best models -/

/-- The squared error of a decomposition. -/
def errOf (X : NDArray ℝ) (R : ℕ) (t : KruskalTensor) : ℝ := sqErr X (fun r => t.weights.get [r]) t.factorMatrices R

/-- The weights and the entries of a decomposition. -/
def paramsOf (t : KruskalTensor) : Params := Params.ofModel (fun r => t.weights.get [r]) t.factorMatrices

theorem err_paramsOf {X : NDArray ℝ} {t : KruskalTensor} (ht : t.WF X.shape R) : Params.err X R (paramsOf t) = errOf X R t :=
  Params.err_ofModel ht.factors.length_eq

theorem modeMat_some {fs : List (NDArray ℝ)} {m : ℕ} {F : NDArray ℝ} (h : fs[m]? = some F) : modeMat fs m = F := by
  obtain ⟨hm, rfl⟩ := List.getElem?_eq_some_iff.1 h
  exact modeMat_eq hm

/-- The decomposition with given parameters, mode by mode. -/
theorem kruskal_mode {p : Params} {m : ℕ} {F : NDArray ℝ} (h : (p.kruskal sizes R).factorMatrices[m]? = some F) {i r : ℕ}
    (hi : i < sizes.getD m 0) (hr : r < R) : m < sizes.length ∧ F.get [i, r] = p.2 m i r := by
  have hm : m < sizes.length := by
    have := (List.getElem?_eq_some_iff.1 h).1
    simpa [Params.kruskal, Params.mats_length] using this
  refine ⟨hm, ?_⟩
  rw [← modeMat_some h]
  show (modeMat (p.mats sizes R) m).get [i, r] = _
  rw [Params.mats_get hm, get_ofMat hi hr]

/-- A best decomposition in a class of decompositions that is described by a closed set of parameters. -/
theorem best_of_class {X : NDArray ℝ} {P : KruskalTensor → Prop} {C : Set Params} (hC : IsClosed C)
    (hu : ∀ p ∈ C, p.unit X.shape R ∈ C) {B : ℝ} (hB : 0 ≤ B)
    (hb : ∀ p ∈ C, ∀ r < R, p.comp X.shape r ≤ B + p.model X.shape R)
    (h1 : ∀ t : KruskalTensor, t.WF X.shape R → P t → paramsOf t ∈ C) (h2 : ∀ p ∈ C, P (p.kruskal X.shape R)) (h0 : C.Nonempty) :
    ∃ t : KruskalTensor, t.WF X.shape R ∧ P t ∧ ∀ t' : KruskalTensor, t'.WF X.shape R → P t' → errOf X R t ≤ errOf X R t' := by
  obtain ⟨p, hp, hmin⟩ := Params.exists_best hC hu hB hb h0
  refine ⟨p.kruskal X.shape R, Params.kruskal_wf, h2 p hp, fun t' ht' hP => ?_⟩
  rw [← err_paramsOf ht', errOf, Params.sqErr_kruskal]
  exact hmin _ (h1 t' ht' hP)

theorem comp_kruskal (p : Params) {r : ℕ} (hr : r < R) :
    compSq sizes (fun r => (p.kruskal sizes R).weights.get [r]) (p.kruskal sizes R).factorMatrices r = p.comp sizes r :=
  sumIdx_congr fun idx h => by
    simp only [Params.kruskal_weight hr]
    exact congrArg (fun x => (p.1 r * x) ^ 2) (Params.rankOne_mats h hr)

theorem model_kruskal (p : Params) :
    modelSq sizes (fun r => (p.kruskal sizes R).weights.get [r]) (p.kruskal sizes R).factorMatrices R = p.model sizes R :=
  sumIdx_congr fun idx h => by
    simp only [cpEntry, Params.entry, Params.term]
    congr 1
    refine Finset.sum_congr rfl fun r hr => ?_
    have hr := Finset.mem_range.1 hr
    rw [Params.kruskal_weight hr]
    exact congrArg _ (Params.rankOne_mats h hr)

theorem comp_le_model {p : Params} (h : ∑ r ∈ Finset.range R, compSq sizes (fun r => (p.kruskal sizes R).weights.get [r])
      (p.kruskal sizes R).factorMatrices r ≤ modelSq sizes (fun r => (p.kruskal sizes R).weights.get [r])
      (p.kruskal sizes R).factorMatrices R) {r : ℕ} (hr : r < R) : p.comp sizes r ≤ 0 + p.model sizes R := by
  rw [zero_add, ← comp_kruskal p hr, ← model_kruskal p]
  exact (Finset.single_le_sum (f := fun r => compSq sizes (fun r => (p.kruskal sizes R).weights.get [r])
      (p.kruskal sizes R).factorMatrices r) (fun _ _ => compSq_nonneg _) (Finset.mem_range.2 hr)).trans h

/-- Spec: a decomposition with non-negative weights and factor matrices. -/
def NonNegModel (t : KruskalTensor) (sizes : List ℕ) (R : ℕ) : Prop :=
  (∀ r < R, 0 ≤ t.weights.get [r]) ∧ ∀ m F, t.factorMatrices[m]? = some F → NonNeg F (sizes.getD m 0) R

/-- **C142.** Every tensor has a best non-negative decomposition. -/
theorem C142_best_nonneg (X : NDArray ℝ) (R : ℕ) :
    ∃ t : KruskalTensor, t.WF X.shape R ∧ NonNegModel t X.shape R ∧
      ∀ t' : KruskalTensor, t'.WF X.shape R → NonNegModel t' X.shape R → errOf X R t ≤ errOf X R t' := by
  have back : ∀ p : Params, ((∀ r, r < R → 0 ≤ p.1 r) ∧ ∀ m, m < X.shape.length → ∀ i, i < X.shape.getD m 0 → ∀ r, r < R → 0 ≤ p.2 m i r) →
      NonNegModel (p.kruskal X.shape R) X.shape R := fun p hp =>
    ⟨fun r hr => by rw [Params.kruskal_weight hr]; exact hp.1 r hr, fun m F hF i hi r hr => by
      obtain ⟨hm, e⟩ := kruskal_mode hF hi hr
      rw [e]; exact hp.2 m hm i hi r hr⟩
  refine best_of_class (C := {p | (∀ r, r < R → 0 ≤ p.1 r) ∧
    ∀ m, m < X.shape.length → ∀ i, i < X.shape.getD m 0 → ∀ r, r < R → 0 ≤ p.2 m i r}) ?_ ?_ le_rfl ?_ ?_ back ?_
  · simp only [Set.ofPred_and, Set.ofPred_forall]
    exact (isClosed_iInter fun r => isClosed_iInter fun _ => isClosed_le continuous_const (Params.continuous_weight r)).inter
      (isClosed_iInter fun m => isClosed_iInter fun _ => isClosed_iInter fun i => isClosed_iInter fun _ =>
        isClosed_iInter fun r => isClosed_iInter fun _ => isClosed_le continuous_const (Params.continuous_cell m i r))
  · rintro p ⟨h1, h2⟩
    refine ⟨fun r hr => ?_, fun m hm i hi r hr => ?_⟩
    · simp only [Params.unit, if_pos hr]
      exact mul_nonneg (h1 r hr) (Finset.prod_nonneg fun _ _ => Params.len_nonneg _ _)
    · simp only [Params.unit]
      rw [if_pos ⟨hm, hi, hr⟩]
      exact div_nonneg (h2 m hm i hi r hr) (Params.len_nonneg _ _)
  · intro p hp r hr
    have hp' := back p hp
    exact comp_le_model (C142_nonneg Params.mats_length hp'.1 hp'.2) hr
  · intro t ht hP
    refine ⟨hP.1, fun m hm i hi r hr => ?_⟩
    have hm' : m < t.factorMatrices.length := by rw [ht.factors.length_eq]; exact hm
    show 0 ≤ (modeMat t.factorMatrices m).get [i, r]
    rw [modeMat_eq hm']
    exact hP.2 m _ (List.getElem?_eq_getElem hm') i hi r hr
  · exact ⟨(fun _ => 0, fun _ _ _ => 0), fun _ _ => le_rfl, fun _ _ _ _ _ _ => le_rfl⟩

/-- **C142.** Every tensor has a best decomposition among those whose factor matrix of mode `k` has orthonormal columns (if there
are not more components than rows). -/
theorem C142_best_orth (X : NDArray ℝ) {R k : ℕ} (hk : k < X.shape.length) (hR : R ≤ X.shape.getD k 0) :
    ∃ t : KruskalTensor, t.WF X.shape R ∧ (∃ F, t.factorMatrices[k]? = some F ∧ OrthoCols F (X.shape.getD k 0) R) ∧
      ∀ t' : KruskalTensor, t'.WF X.shape R → (∃ F, t'.factorMatrices[k]? = some F ∧ OrthoCols F (X.shape.getD k 0) R) →
        errOf X R t ≤ errOf X R t' := by
  have back : ∀ p : Params, (∀ a, a < R → ∀ b, b < R → ∑ i ∈ Finset.range (X.shape.getD k 0), p.2 k i a * p.2 k i b = if a = b then 1 else 0) →
      ∃ F, (p.kruskal X.shape R).factorMatrices[k]? = some F ∧ OrthoCols F (X.shape.getD k 0) R := fun p hp => by
    have hk' : k < (p.kruskal X.shape R).factorMatrices.length := by simpa [Params.kruskal, Params.mats_length] using hk
    refine ⟨_, List.getElem?_eq_getElem hk', fun a ha b hb => ?_⟩
    rw [← hp a ha b hb]
    refine Finset.sum_congr rfl fun i hi => ?_
    have hi := Finset.mem_range.1 hi
    rw [(kruskal_mode (List.getElem?_eq_getElem hk') hi ha).2, (kruskal_mode (List.getElem?_eq_getElem hk') hi hb).2]
  refine best_of_class (C := {p | ∀ a, a < R → ∀ b, b < R →
    ∑ i ∈ Finset.range (X.shape.getD k 0), p.2 k i a * p.2 k i b = if a = b then 1 else 0}) ?_ ?_ le_rfl ?_ ?_ back ?_
  · simp only [Set.ofPred_forall]
    exact isClosed_iInter fun a => isClosed_iInter fun _ => isClosed_iInter fun b => isClosed_iInter fun _ =>
      isClosed_eq (continuous_finsetSum _ fun i _ => (Params.continuous_cell k i a).mul (Params.continuous_cell k i b)) continuous_const
  · intro p hp a ha b hb
    have hlen : ∀ a < R, p.len X.shape k a = 1 := fun a ha => by
      rw [Params.len, Finset.sum_congr rfl fun i _ => sq (p.2 k i a), hp a ha a ha, if_pos rfl, Real.sqrt_one]
    rw [← hp a ha b hb]
    refine Finset.sum_congr rfl fun i hi => ?_
    have hi := Finset.mem_range.1 hi
    simp only [Params.unit]
    rw [if_pos ⟨hk, hi, ha⟩, if_pos ⟨hk, hi, hb⟩, hlen a ha, hlen b hb, div_one, div_one]
  · intro p hp r hr
    obtain ⟨F, hF, hO⟩ := back p hp
    exact comp_le_model (C142_orth Params.mats_factors hF fun a ha b hb hne => by rw [hO a ha b hb, if_neg hne]).le hr
  · rintro t ht ⟨F, hF, hO⟩ a ha b hb
    show ∑ i ∈ Finset.range (X.shape.getD k 0), (modeMat t.factorMatrices k).get [i, a] * (modeMat t.factorMatrices k).get [i, b] = _
    rw [modeMat_some hF]
    exact hO a ha b hb
  · refine ⟨(fun _ => 0, fun _ i r => if i = r then 1 else 0), fun a ha b hb => ?_⟩
    simp only [ite_mul, one_mul, zero_mul]
    rw [Finset.sum_ite_eq' , if_pos (Finset.mem_range.2 (ha.trans_le hR))]

/-- **C142.** Every tensor has a best decomposition with one component. -/
theorem C142_best_one (X : NDArray ℝ) :
    ∃ t : KruskalTensor, t.WF X.shape 1 ∧ ∀ t' : KruskalTensor, t'.WF X.shape 1 → errOf X 1 t ≤ errOf X 1 t' := by
  obtain ⟨t, h1, -, h2⟩ := best_of_class (X := X) (R := 1) (P := fun _ => True) (C := Set.univ) isClosed_univ
    (fun _ _ => Set.mem_univ _) le_rfl (fun p _ r hr => by
      obtain rfl : r = 0 := by omega
      rw [zero_add]
      refine (sumIdx_congr fun idx _ => ?_).le
      simp [Params.entry]) (fun _ _ _ => Set.mem_univ _) (fun _ _ => trivial) Set.univ_nonempty
  exact ⟨t, h1, fun t' ht' => h2 t' ht' trivial⟩

/-- **C142.** If a tensor is not the sum of `R` components, then decompositions with `R` components and small errors have large
components: for every bound on the sizes of the components there is a positive bound on the error. -/
theorem C142_large_components {X : NDArray ℝ} {R : ℕ} (h : ∀ t : KruskalTensor, t.WF X.shape R → errOf X R t ≠ 0) (B : ℝ) :
    ∃ δ > 0, ∀ t : KruskalTensor, t.WF X.shape R → errOf X R t < δ →
      ∃ r < R, B < compSq X.shape (fun r => t.weights.get [r]) t.factorMatrices r := by
  have hB0 : 0 ≤ max B 0 := le_max_right _ _
  obtain ⟨t, h1, -, h2⟩ := best_of_class (X := X) (R := R)
    (P := fun t => ∀ r < R, compSq X.shape (fun r => t.weights.get [r]) t.factorMatrices r ≤ max B 0)
    (C := {p | ∀ r, r < R → p.comp X.shape r ≤ max B 0})
    (by
      simp only [Set.ofPred_forall]
      exact isClosed_iInter fun r => isClosed_iInter fun _ => isClosed_le (Params.continuous_comp X.shape r) continuous_const)
    (fun p hp r hr => by
      have : (p.unit X.shape R).comp X.shape r = p.comp X.shape r :=
        sumIdx_congr fun idx hv => by rw [Params.unit_term hv hr]
      rw [this]; exact hp r hr)
    hB0 (fun p hp r hr => (hp r hr).trans (le_add_of_nonneg_right (sumIdx_nonneg fun _ _ => sq_nonneg _)))
    (fun t ht hP r hr => by
      rw [paramsOf, Params.comp_ofModel ht.factors.length_eq]; exact hP r hr)
    (fun p hp r hr => by rw [comp_kruskal p hr]; exact hp r hr)
    ⟨(fun _ => 0, fun _ _ _ => 0), fun r _ => by simp [Params.comp, Params.term, sumIdx_zero]⟩
  refine ⟨errOf X R t, lt_of_le_of_ne (sumIdx_nonneg fun _ _ => sq_nonneg _) (h t h1).symm, fun t' ht' hlt => ?_⟩
  by_contra hc
  push Not at hc
  exact absurd (h2 t' ht' fun r hr => (hc r hr).trans (le_max_left _ _)) (not_le.2 hlt)

/-! ### A tensor without best model -/

/-- The tensor `e₀∘e₀∘e₁ + e₀∘e₁∘e₀ + e₁∘e₀∘e₀`. -/
def wTensor : NDArray ℝ := ofFn [2, 2, 2] fun idx => if idx.getD 0 0 + idx.getD 1 0 + idx.getD 2 0 = 1 then 1 else 0

theorem wTensor_get {i j k : ℕ} (hi : i < 2) (hj : j < 2) (hk : k < 2) : wTensor.get [i, j, k] = if i + j + k = 1 then 1 else 0 := by
  rw [wTensor, get_ofFn (by simp [hi, hj, hk])]; simp

/-- It is not the sum of two components. -/
theorem no_two_components {a0 a1 b0 b1 c0 c1 p0 p1 q0 q1 r0 r1 : ℝ}
    (h000 : a0 * b0 * c0 + p0 * q0 * r0 = 0) (h001 : a0 * b0 * c1 + p0 * q0 * r1 = 1)
    (h010 : a0 * b1 * c0 + p0 * q1 * r0 = 1) (h011 : a0 * b1 * c1 + p0 * q1 * r1 = 0)
    (h100 : a1 * b0 * c0 + p1 * q0 * r0 = 1) (h101 : a1 * b0 * c1 + p1 * q0 * r1 = 0)
    (h110 : a1 * b1 * c0 + p1 * q1 * r0 = 0) (h111 : a1 * b1 * c1 + p1 * q1 * r1 = 0) : False := by
  set x000 := a0 * b0 * c0 + p0 * q0 * r0 with e000
  set x001 := a0 * b0 * c1 + p0 * q0 * r1 with e001
  set x010 := a0 * b1 * c0 + p0 * q1 * r0 with e010
  set x011 := a0 * b1 * c1 + p0 * q1 * r1 with e011
  set x100 := a1 * b0 * c0 + p1 * q0 * r0 with e100
  set x101 := a1 * b0 * c1 + p1 * q0 * r1 with e101
  set x110 := a1 * b1 * c0 + p1 * q1 * r0 with e110
  set x111 := a1 * b1 * c1 + p1 * q1 * r1 with e111
  have hyp : ((a0 * p1 - a1 * p0) * (b0 * q1 - b1 * q0) * (c0 * r1 - c1 * r0)) ^ 2
      = x000 ^ 2 * x111 ^ 2 + x001 ^ 2 * x110 ^ 2 + x010 ^ 2 * x101 ^ 2 + x011 ^ 2 * x100 ^ 2
        - 2 * (x000 * x001 * x110 * x111 + x000 * x010 * x101 * x111 + x000 * x011 * x100 * x111
          + x001 * x010 * x101 * x110 + x001 * x011 * x110 * x100 + x010 * x011 * x101 * x100)
        + 4 * (x000 * x011 * x101 * x110 + x001 * x010 * x100 * x111) := by
    simp only [e000, e001, e010, e011, e100, e101, e110, e111]; ring
  have ma : x001 * x100 - x000 * x101 = (a0 * p1 - a1 * p0) * (b0 * q0 * (c1 * r0 - c0 * r1)) := by
    simp only [e000, e001, e100, e101]; ring
  have mb : x001 * x010 - x000 * x011 = (b0 * q1 - b1 * q0) * (a0 * p0 * (c1 * r0 - c0 * r1)) := by
    simp only [e000, e001, e010, e011]; ring
  rw [h000, h001, h010, h011, h100, h101, h110, h111] at hyp
  rw [h000, h001, h100, h101] at ma
  rw [h000, h001, h010, h011] at mb
  have hz : (a0 * p1 - a1 * p0) * (b0 * q1 - b1 * q0) * (c0 * r1 - c1 * r0) = 0 := by
    have : ((a0 * p1 - a1 * p0) * (b0 * q1 - b1 * q0) * (c0 * r1 - c1 * r0)) ^ 2 = 0 := by rw [hyp]; norm_num
    exact pow_eq_zero_iff two_ne_zero |>.1 this
  rcases mul_eq_zero.1 hz with h | h
  · rcases mul_eq_zero.1 h with h | h
    · rw [h] at ma; norm_num at ma
    · rw [h] at mb; norm_num at mb
  · have h' : c1 * r0 - c0 * r1 = 0 := by linarith
    rw [h'] at ma; norm_num at ma

theorem errOf_wTensor (t : KruskalTensor) (ht : t.WF [2, 2, 2] 2) : errOf wTensor 2 t ≠ 0 := by
  intro h
  have hz := fun idx (hv : Valid [2, 2, 2] idx) => sumSq_eq_zero_iff.1 h idx hv
  obtain ⟨rk, fl, ws⟩ := t
  obtain ⟨-, hf, -⟩ := ht
  simp only at hf hz
  obtain ⟨A, B, C, rfl⟩ : ∃ A B C, fl = [A, B, C] := by
    have := hf.length_eq
    match fl, this with
    | [A, B, C], _ => exact ⟨A, B, C, rfl⟩
  have key : ∀ i < 2, ∀ j < 2, ∀ k < 2, ws.get [0] * A.get [i, 0] * B.get [j, 0] * C.get [k, 0]
      + ws.get [1] * A.get [i, 1] * B.get [j, 1] * C.get [k, 1] = if i + j + k = 1 then 1 else 0 := fun i hi j hj k hk => by
    have := hz [i, j, k] (by simp [hi, hj, hk])
    rw [wTensor_get hi hj hk] at this
    simp only [cpEntry, rankOne, Finset.sum_range_succ, Finset.sum_range_zero] at this
    linarith
  exact no_two_components (by simpa using key 0 (by norm_num) 0 (by norm_num) 0 (by norm_num))
    (by simpa using key 0 (by norm_num) 0 (by norm_num) 1 (by norm_num))
    (by simpa using key 0 (by norm_num) 1 (by norm_num) 0 (by norm_num))
    (by simpa using key 0 (by norm_num) 1 (by norm_num) 1 (by norm_num))
    (by simpa using key 1 (by norm_num) 0 (by norm_num) 0 (by norm_num))
    (by simpa using key 1 (by norm_num) 0 (by norm_num) 1 (by norm_num))
    (by simpa using key 1 (by norm_num) 1 (by norm_num) 0 (by norm_num))
    (by simpa using key 1 (by norm_num) 1 (by norm_num) 1 (by norm_num))

/-- Two components that nearly cancel: `n (e₀ + e₁/n)∘³ - n e₀∘³`. -/
def nearW (x : ℝ) : KruskalTensor :=
  ⟨2, [ofMat 2 2 fun i r => if i = 0 then 1 else if r = 0 then x else 0, ofMat 2 2 fun i r => if i = 0 then 1 else if r = 0 then x else 0,
    ofMat 2 2 fun i r => if i = 0 then 1 else if r = 0 then x else 0], ofFn [2] fun idx => if idx.getD 0 0 = 0 then x⁻¹ else -x⁻¹⟩

theorem nearW_wf (x : ℝ) : (nearW x).WF [2, 2, 2] 2 := ⟨rfl, .cons rfl (.cons rfl (.cons rfl .nil)), rfl⟩

theorem errOf_nearW {x : ℝ} (hx : x ≠ 0) : errOf wTensor 2 (nearW x) = 3 * x ^ 2 + x ^ 4 := by
  have hg : ∀ i < 2, ∀ r < 2, (ofMat 2 2 fun i r => if i = 0 then 1 else if r = 0 then x else 0 : NDArray ℝ).get [i, r]
      = if i = 0 then 1 else if r = 0 then x else 0 := fun i hi r hr => get_ofMat hi hr
  have hw0 : (nearW x).weights.get [0] = x⁻¹ := by simp only [nearW]; rw [get_ofFn (by simp)]; simp
  have hw1 : (nearW x).weights.get [1] = -x⁻¹ := by simp only [nearW]; rw [get_ofFn (by simp)]; simp
  simp only [errOf, sqErr, cpEntry, Finset.sum_range_succ, Finset.sum_range_zero, hw0, hw1]
  simp only [nearW, wTensor, shape_ofFn, sumIdx_cons, sumIdx_nil, Finset.sum_range_succ, Finset.sum_range_zero, rankOne]
  simp only [hg 0 (by norm_num) 0 (by norm_num), hg 0 (by norm_num) 1 (by norm_num), hg 1 (by norm_num) 0 (by norm_num),
    hg 1 (by norm_num) 1 (by norm_num)]
  rw [← wTensor, wTensor_get (by norm_num) (by norm_num) (by norm_num), wTensor_get (by norm_num) (by norm_num) (by norm_num),
    wTensor_get (by norm_num) (by norm_num) (by norm_num), wTensor_get (by norm_num) (by norm_num) (by norm_num),
    wTensor_get (by norm_num) (by norm_num) (by norm_num), wTensor_get (by norm_num) (by norm_num) (by norm_num),
    wTensor_get (by norm_num) (by norm_num) (by norm_num), wTensor_get (by norm_num) (by norm_num) (by norm_num)]
  simp
  field_simp
  ring

/-- **C142.** There need not be a best decomposition: `wTensor` has decompositions with two components and arbitrarily small errors,
but no exact one, and so none is best. -/
theorem C142_no_best :
    (∀ ε > 0, ∃ t : KruskalTensor, t.WF wTensor.shape 2 ∧ errOf wTensor 2 t < ε) ∧
    (∀ t : KruskalTensor, t.WF wTensor.shape 2 → 0 < errOf wTensor 2 t) ∧
    ¬ ∃ t : KruskalTensor, t.WF wTensor.shape 2 ∧ ∀ t' : KruskalTensor, t'.WF wTensor.shape 2 → errOf wTensor 2 t ≤ errOf wTensor 2 t' := by
  have h1 : ∀ ε > 0, ∃ t : KruskalTensor, t.WF wTensor.shape 2 ∧ errOf wTensor 2 t < ε := fun ε hε => by
    set x : ℝ := min 1 (ε / 8) with hx
    have hx0 : 0 < x := lt_min one_pos (by positivity)
    have hx1 : x ≤ 1 := min_le_left _ _
    have hx2 : x ≤ ε / 8 := min_le_right _ _
    refine ⟨nearW x, nearW_wf x, ?_⟩
    rw [errOf_nearW hx0.ne']
    have hx3 : x ^ 2 ≤ x := by nlinarith
    have hx4 : x ^ 4 ≤ x := by nlinarith [sq_nonneg (x ^ 2), sq_nonneg x]
    linarith
  have h2 : ∀ t : KruskalTensor, t.WF wTensor.shape 2 → 0 < errOf wTensor 2 t := fun t ht =>
    lt_of_le_of_ne (sumIdx_nonneg fun _ _ => sq_nonneg _) (errOf_wTensor t ht).symm
  refine ⟨h1, h2, ?_⟩
  rintro ⟨t, ht, hmin⟩
  obtain ⟨t', ht', hlt⟩ := h1 _ (h2 t ht)
  exact absurd (hmin t' ht') (not_le.2 hlt)

/-- **C142.** Fits of `wTensor` with two components: the reported error is positive, and if it is small, a component is large. -/
theorem C142_fits_no_best (B : ℝ) : ∃ δ > 0, ∀ s : CPState, s.Sized 2 → s.Cached 2 → s.X = wTensor →
    ∃ v, CP.sse s = .ok v ∧ 0 < v ∧
      (v < δ → ∃ r < 2, B < compSq s.X.shape (fun r => s.dec.weights.get [r]) s.dec.factorMatrices r) := by
  obtain ⟨δ, hδ, h⟩ := C142_large_components (fun t ht => errOf_wTensor t ht) B
  refine ⟨δ, hδ, fun s hs hc hX => ?_⟩
  have wf : s.dec.WF wTensor.shape 2 := by rw [← hX]; exact hs.wf
  have e : s.trueSSE 2 = errOf wTensor 2 s.dec := by rw [CPState.trueSSE, hX]; rfl
  refine ⟨_, C35_sse hs hc, ?_, fun hlt => ?_⟩
  · rw [e]; exact C142_no_best.2.1 _ wf
  · rw [e] at hlt
    rw [hX]
    exact h _ wf hlt

/-! ### Examples -/

/-- A fit with one iteration that satisfies the hypotheses of `C142_fit`. -/
example {E : Ext} (hE : E.SVDOk) (hN : E.NNLSOk) (hQ : E.QROk) :
    ∃ w' v, CP.fit E evConfig evData (some 1) (.tensor evStart) (CP.newObject (some [true, true]) none 1 [] none) = .ok () w' ∧
      CP.sse w'.st = .ok v ∧ (1 ≤ w'.it → ∀ r < 2, Real.sqrt (compSq evData.shape (fun r => w'.st.dec.weights.get [r])
        w'.st.dec.factorMatrices r) ≤ Real.sqrt (sumSq evData) + Real.sqrt v) := by
  have hA : CP.Admissible evConfig.opts (some [true, true]) none evData.shape :=
    ⟨by decide, by simp [evData], by simp [evData], by simp [evData], by simp, by simp [evConfig], by simp, by simp⟩
  have ht : evStart.WF evData.shape 2 := ⟨rfl, by simp [Factors, evStart, evData], rfl⟩
  have hi : evConfig.init.toLower = "precomputed" := by
    show "precomputed".toLower = _
    rw [String.toLower, ← String.toList_inj, String.toList_map]; decide
  obtain ⟨w', v, h1, h2, h3⟩ := C142_fit hE hN hQ hA rfl (c := evConfig) (mi := some 1) (budget := 1) (loggers := []) (file := none)
    (by intro p hp; simp [evConfig] at hp) (by decide) (startsFrom_precomputed hi ht) ht (by decide)
    ⟨fun h => absurd h (show ¬ (0 : Int) < -1 by decide), fun h => absurd h (show ¬ (0 : Int) < -1 by decide), fun h => absurd h (show ¬ (0 : Int) < -1 by decide)⟩
  exact ⟨w', v, h1, h2, fun hk => (h3 hk).2⟩

/-- The best orthonormal and non-negative models exist for `wTensor`. -/
example : (∃ t : KruskalTensor, t.WF wTensor.shape 2 ∧ NonNegModel t wTensor.shape 2) ∧
    ∃ t : KruskalTensor, t.WF wTensor.shape 2 ∧ ∃ F, t.factorMatrices[0]? = some F ∧ OrthoCols F 2 2 := by
  obtain ⟨t, h1, h2, -⟩ := C142_best_nonneg wTensor 2
  obtain ⟨t', h1', h2', -⟩ := C142_best_orth wTensor (R := 2) (k := 0) (by simp [wTensor]) (by simp [wTensor])
  exact ⟨⟨t, h1, h2⟩, t', h1', h2'⟩

end

end TK
