import Verif.Props.RankOne
import Verif.Spec.Best
import Mathlib.Topology.Order.Compact
import Mathlib.Topology.Compactness.Compact

/-!
# Best models in a closed class

Models are described here by functions: `w r` is the weight of component `r` and `f m i r` the entry `(i, r)` of the factor matrix
of mode `m`.
-/

namespace TK
open NDArray Filter Topology

noncomputable section

/-- Weights and entries of the factor matrices. -/
abbrev Params := (ℕ → ℝ) × (ℕ → ℕ → ℕ → ℝ)

namespace Params

/-- Entry of component `r`. -/
def term (p : Params) (N : ℕ) (idx : List ℕ) (r : ℕ) : ℝ := p.1 r * ∏ m ∈ Finset.range N, p.2 m (idx.getD m 0) r

/-- Entry of the model. -/
def entry (p : Params) (N R : ℕ) (idx : List ℕ) : ℝ := ∑ r ∈ Finset.range R, p.term N idx r

/-- Squared error. -/
def err (X : NDArray ℝ) (R : ℕ) (p : Params) : ℝ := sumIdx X.shape fun idx => (X.get idx - p.entry X.shape.length R idx) ^ 2

/-- Squared norm of a component. -/
def comp (sizes : List ℕ) (p : Params) (r : ℕ) : ℝ := sumIdx sizes fun idx => (p.term sizes.length idx r) ^ 2

/-- Squared norm of the model. -/
def model (sizes : List ℕ) (R : ℕ) (p : Params) : ℝ := sumIdx sizes fun idx => (p.entry sizes.length R idx) ^ 2

/-- Length of a column. -/
def len (sizes : List ℕ) (p : Params) (m r : ℕ) : ℝ := Real.sqrt (∑ i ∈ Finset.range (sizes.getD m 0), p.2 m i r ^ 2)

/-- Columns of length one; the lengths are moved into the weights. -/
def unit (sizes : List ℕ) (R : ℕ) (p : Params) : Params :=
  (fun r => if r < R then p.1 r * ∏ m ∈ Finset.range sizes.length, p.len sizes m r else 0,
   fun m i r => if m < sizes.length ∧ i < sizes.getD m 0 ∧ r < R then p.2 m i r / p.len sizes m r else 0)

variable {sizes : List ℕ} {R : ℕ} {p : Params}

theorem len_nonneg (m r : ℕ) : 0 ≤ p.len sizes m r := Real.sqrt_nonneg _

theorem abs_le_len {m i r : ℕ} (hi : i < sizes.getD m 0) : |p.2 m i r| ≤ p.len sizes m r := by
  rw [← Real.sqrt_sq_eq_abs]
  exact Real.sqrt_le_sqrt (Finset.single_le_sum (f := fun i => p.2 m i r ^ 2) (fun _ _ => sq_nonneg _) (Finset.mem_range.2 hi))

theorem len_mul {m i r : ℕ} (hi : i < sizes.getD m 0) : p.len sizes m r * (p.2 m i r / p.len sizes m r) = p.2 m i r := by
  by_cases h : p.len sizes m r = 0
  · have := abs_le_len (p := p) (r := r) hi
    rw [h] at this
    rw [h, zero_mul, abs_nonpos_iff.1 this]
  · rw [mul_div_assoc', mul_div_cancel_left₀ _ h]

theorem getD_lt {sizes idx : List ℕ} (h : Valid sizes idx) {m : ℕ} (hm : m < sizes.length) : idx.getD m 0 < sizes.getD m 0 := by
  induction sizes generalizing idx m with
  | nil => simp at hm
  | cons n ns ih =>
    obtain ⟨i, is, rfl, hi, his⟩ := valid_cons_iff.1 h
    cases m with
    | zero => simpa using hi
    | succ m => simpa using ih his (m := m) (by simpa using hm)

theorem unit_term {idx : List ℕ} (h : Valid sizes idx) {r : ℕ} (hr : r < R) :
    (p.unit sizes R).term sizes.length idx r = p.term sizes.length idx r := by
  simp only [term, unit, if_pos hr]
  rw [mul_assoc, ← Finset.prod_mul_distrib]
  congr 1
  refine Finset.prod_congr rfl fun m hm => ?_
  have hm := Finset.mem_range.1 hm
  rw [if_pos ⟨hm, getD_lt h hm, hr⟩, len_mul (getD_lt h hm)]

theorem unit_entry {idx : List ℕ} (h : Valid sizes idx) : (p.unit sizes R).entry sizes.length R idx = p.entry sizes.length R idx :=
  Finset.sum_congr rfl fun _ hr => unit_term h (Finset.mem_range.1 hr)

theorem unit_err {X : NDArray ℝ} : err X R (p.unit X.shape R) = err X R p :=
  sumIdx_congr fun idx h => by rw [unit_entry h]

theorem comp_eq (r : ℕ) : p.comp sizes r = (p.1 r * ∏ m ∈ Finset.range sizes.length, p.len sizes m r) ^ 2 := by
  simp only [comp, term, mul_pow, ← Finset.prod_pow]
  rw [← mul_sumIdx, sumIdx_prod sizes fun m i => p.2 m i r ^ 2]
  congr 1
  refine Finset.prod_congr rfl fun m _ => ?_
  rw [len, Real.sq_sqrt (Finset.sum_nonneg fun _ _ => sq_nonneg _)]

/-- The models with weights in `[-b, b]` and entries in `[-1, 1]`. -/
def box (b : ℝ) : Set Params :=
  {p | (∀ r, p.1 r ∈ Set.Icc (-b) b) ∧ ∀ m i r, p.2 m i r ∈ Set.Icc (-1 : ℝ) 1}

theorem isCompact_box (b : ℝ) : IsCompact (box b) := by
  have h1 : IsCompact (Set.univ.pi fun _ : ℕ => Set.Icc (-b) b) := isCompact_univ_pi fun _ => isCompact_Icc
  have h2 : IsCompact (Set.univ.pi fun _ : ℕ => Set.univ.pi fun _ : ℕ => Set.univ.pi fun _ : ℕ => Set.Icc (-1 : ℝ) 1) :=
    isCompact_univ_pi fun _ => isCompact_univ_pi fun _ => isCompact_univ_pi fun _ => isCompact_Icc
  have h := h1.prod h2
  convert h using 1
  ext p
  simp only [box, Set.mem_prod, Set.mem_pi, Set.mem_univ, true_implies]
  rfl

theorem unit_mem_box {b : ℝ} (hb : 0 ≤ b) (h : ∀ r < R, p.comp sizes r ≤ b ^ 2) : p.unit sizes R ∈ box b := by
  constructor
  · intro r
    simp only [unit]
    split_ifs with hr
    · have := h r hr
      rw [comp_eq] at this
      exact abs_le.1 (abs_le_of_sq_le_sq this hb)
    · exact ⟨by linarith, hb⟩
  · intro m i r
    simp only [unit]
    split_ifs with hr
    · refine abs_le.1 ?_
      rw [abs_div, abs_of_nonneg (len_nonneg m r)]
      exact div_le_one_of_le₀ (abs_le_len hr.2.1) (len_nonneg m r)
    · norm_num

theorem continuous_sumIdx {T : Type*} [TopologicalSpace T] : ∀ (s : List ℕ) (g : List ℕ → T → ℝ), (∀ idx, Continuous (g idx)) →
    Continuous fun p => sumIdx s fun idx => g idx p
  | [], g, h => by simpa using h []
  | n :: ns, g, h => by
    simp only [sumIdx_cons]
    exact continuous_finsetSum _ fun i _ => continuous_sumIdx ns (fun is => g (i :: is)) fun is => h _

theorem continuous_weight (r : ℕ) : Continuous fun p : Params => p.1 r := (continuous_apply r).comp continuous_fst

theorem continuous_cell (m i r : ℕ) : Continuous fun p : Params => p.2 m i r :=
  (continuous_apply r).comp ((continuous_apply i).comp ((continuous_apply m).comp continuous_snd))

theorem continuous_term (N : ℕ) (idx : List ℕ) (r : ℕ) : Continuous fun p : Params => p.term N idx r :=
  (continuous_weight r).mul (continuous_finsetProd _ fun m _ => continuous_cell m _ r)

theorem continuous_err (X : NDArray ℝ) (R : ℕ) : Continuous (err X R) :=
  continuous_sumIdx _ _ fun idx =>
    (continuous_const.sub (continuous_finsetSum _ fun r _ => continuous_term _ idx r)).pow 2

theorem continuous_comp (sizes : List ℕ) (r : ℕ) : Continuous fun p : Params => p.comp sizes r :=
  continuous_sumIdx _ _ fun idx => (continuous_term _ idx r).pow 2

theorem model_le (X : NDArray ℝ) : model X.shape R p ≤ 2 * (sumIdx X.shape fun idx => X.get idx ^ 2) + 2 * err X R p := by
  rw [model, err, mul_sumIdx, mul_sumIdx, ← sumIdx_add, ← sub_nonneg, ← sumIdx_sub]
  refine sumIdx_nonneg fun idx _ => ?_
  nlinarith [sq_nonneg (2 * X.get idx - p.entry X.shape.length R idx)]

/-- A closed class of models that is closed under moving the lengths of the columns into the weights and whose components cannot be
much larger than the model contains a best model. -/
theorem exists_best {X : NDArray ℝ} {C : Set Params} (hC : IsClosed C) (hu : ∀ p ∈ C, p.unit X.shape R ∈ C) {B : ℝ} (hB : 0 ≤ B)
    (hb : ∀ p ∈ C, ∀ r < R, p.comp X.shape r ≤ B + p.model X.shape R) (h0 : C.Nonempty) :
    ∃ p ∈ C, ∀ q ∈ C, err X R p ≤ err X R q := by
  obtain ⟨p0, hp0⟩ := h0
  set S : ℝ := sumIdx X.shape fun idx => X.get idx ^ 2 with hS
  have hS0 : 0 ≤ S := sumIdx_nonneg fun _ _ => sq_nonneg _
  have he0 : 0 ≤ err X R p0 := sumIdx_nonneg fun _ _ => sq_nonneg _
  set b : ℝ := Real.sqrt (B + (2 * S + 2 * err X R p0)) with hbd
  have hb2 : b ^ 2 = B + (2 * S + 2 * err X R p0) := Real.sq_sqrt (by linarith)
  have key : ∀ q ∈ C, err X R q ≤ err X R p0 → q.unit X.shape R ∈ C ∩ box b := fun q hq h =>
    ⟨hu q hq, unit_mem_box (Real.sqrt_nonneg _) fun r hr => by
      have h1 := hb q hq r hr
      have h2 := model_le (R := R) (p := q) X
      rw [hb2]
      linarith⟩
  have hK : IsCompact (C ∩ box b) := (isCompact_box b).inter_left hC
  obtain ⟨p, hp, hmin⟩ := hK.exists_isMinOn ⟨_, key p0 hp0 le_rfl⟩ (continuous_err X R).continuousOn
  refine ⟨p, hp.1, fun q hq => ?_⟩
  by_cases h : err X R q ≤ err X R p0
  · have := hmin (key q hq h)
    simp only [Set.mem_ofPred_eq, unit_err] at this
    exact this
  · have := hmin (key p0 hp0 le_rfl)
    simp only [Set.mem_ofPred_eq, unit_err] at this
    linarith

/-- The entries of a list of factor matrices. -/
def ofModel (w : ℕ → ℝ) (fs : List (NDArray ℝ)) : Params := (w, fun m i r => (modeMat fs m).get [i, r])

/-- The factor matrices. -/
def mats (sizes : List ℕ) (R : ℕ) (p : Params) : List (NDArray ℝ) :=
  (List.range sizes.length).map fun m => ofMat (sizes.getD m 0) R (p.2 m)

/-- The decomposition. -/
def kruskal (sizes : List ℕ) (R : ℕ) (p : Params) : KruskalTensor :=
  ⟨R, p.mats sizes R, ofFn [R] fun idx => p.1 (idx.getD 0 0)⟩

theorem mats_length : (p.mats sizes R).length = sizes.length := by simp [mats]

theorem mats_get {m : ℕ} (hm : m < sizes.length) : modeMat (p.mats sizes R) m = ofMat (sizes.getD m 0) R (p.2 m) := by
  rw [modeMat_eq (by rw [mats_length]; exact hm)]
  simp [mats]

theorem mats_factors : Factors (p.mats sizes R) sizes R := by
  unfold Factors
  rw [List.forall₂_iff_get]
  refine ⟨mats_length, fun i h1 h2 => ?_⟩
  have h3 : i < sizes.length := h2
  simp [mats, h3]

theorem kruskal_wf : (p.kruskal sizes R).WF sizes R := ⟨rfl, mats_factors, rfl⟩

theorem kruskal_weight {r : ℕ} (hr : r < R) : (p.kruskal sizes R).weights.get [r] = p.1 r := by
  simp only [kruskal]
  rw [get_ofFn (by simp [hr])]
  simp

theorem rankOne_mats {idx : List ℕ} (h : Valid sizes idx) {r : ℕ} (hr : r < R) :
    rankOne (p.mats sizes R) idx r = ∏ m ∈ Finset.range sizes.length, p.2 m (idx.getD m 0) r := by
  rw [rankOne_eq_prod r (by rw [mats_length]; exact h.length_eq), mats_length]
  refine Finset.prod_congr rfl fun m hm => ?_
  have hm := Finset.mem_range.1 hm
  rw [mats_get hm, get_ofMat (getD_lt h hm) hr]

theorem sqErr_kruskal (X : NDArray ℝ) :
    sqErr X (fun r => (p.kruskal X.shape R).weights.get [r]) (p.kruskal X.shape R).factorMatrices R = err X R p := by
  refine sumIdx_congr fun idx h => ?_
  simp only [cpEntry, entry, term]
  congr 2
  refine Finset.sum_congr rfl fun r hr => ?_
  have hr := Finset.mem_range.1 hr
  rw [kruskal_weight hr]
  exact congrArg _ (rankOne_mats h hr)

theorem ofModel_term {w : ℕ → ℝ} {fs : List (NDArray ℝ)} {idx : List ℕ} (h : Valid sizes idx) (hl : fs.length = sizes.length) (r : ℕ) :
    (ofModel w fs).term sizes.length idx r = w r * rankOne fs idx r := by
  rw [rankOne_eq_prod r (by rw [hl]; exact h.length_eq), hl]; rfl

theorem err_ofModel {X : NDArray ℝ} {w : ℕ → ℝ} {fs : List (NDArray ℝ)} (hl : fs.length = X.shape.length) :
    err X R (ofModel w fs) = sqErr X w fs R :=
  sumIdx_congr fun idx h => by
    simp only [entry, cpEntry]
    congr 2
    exact Finset.sum_congr rfl fun r _ => ofModel_term h hl r

theorem model_ofModel {w : ℕ → ℝ} {fs : List (NDArray ℝ)} (hl : fs.length = sizes.length) :
    (ofModel w fs).model sizes R = modelSq sizes w fs R :=
  sumIdx_congr fun idx h => by
    simp only [entry, cpEntry]
    congr 1
    exact Finset.sum_congr rfl fun r _ => ofModel_term h hl r

theorem comp_ofModel {w : ℕ → ℝ} {fs : List (NDArray ℝ)} (hl : fs.length = sizes.length) (r : ℕ) :
    (ofModel w fs).comp sizes r = compSq sizes w fs r :=
  sumIdx_congr fun idx h => by rw [ofModel_term h hl r]

end Params

end

end TK
