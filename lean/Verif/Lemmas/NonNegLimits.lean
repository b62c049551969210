import Verif.Spec.NonNegLimits
import Verif.Lemmas.CoupledDescent

/-!
# Sweeps with non-negative least squares updates

The update of a mode with the non-negativity flag minimises, over the non-negative matrices, the sum of the squares of the
partial derivatives of the squared error (not the squared error itself).
-/

namespace TK
open NDArray Filter Topology

noncomputable section

/-- The matrix with a single one. -/
def unitMat (p R i r : ℕ) : NDArray ℝ := ofMat p R fun a b => if a = i ∧ b = r then 1 else 0

variable {X : NDArray ℝ} {R : ℕ} {fs : List (NDArray ℝ)} {m : ℕ}

/-! ## Partial derivatives -/

theorem entryMoved_eq (p R : ℕ) (F : NDArray ℝ) (i r : ℕ) (t : ℝ) : entryMoved p R F i r t = lineMat p R F (unitMat p R i r) t := by
  refine ofMat_congr fun a ha b hb => ?_
  rw [unitMat, get_ofMat ha hb]
  split <;> simp

theorem hasDerivAt_line (hf : fs.length = X.shape.length) (hm : m < X.shape.length) (F D : NDArray ℝ) :
    HasDerivAt (fun t => sqErr X (fun _ => 1) (fs.set m (lineMat (X.shape.getD m 0) R F D t)) R)
      (tensorSlope X R (fs.set m F) (fs.set m D)) 0 := by
  have e : (fun t => sqErr X (fun _ => 1) (fs.set m (lineMat (X.shape.getD m 0) R F D t)) R) = fun t =>
      sqErr X (fun _ => 1) (fs.set m F) R + t * tensorSlope X R (fs.set m F) (fs.set m D) +
      t ^ 2 * sumIdx X.shape fun idx => (cpEntry (fun _ => 1) (fs.set m D) R idx) ^ 2 := by
    funext t
    exact sqErr_line hf hm F D t
  rw [e]
  have h1 := ((hasDerivAt_id (0 : ℝ)).mul_const (tensorSlope X R (fs.set m F) (fs.set m D))).const_add
    (sqErr X (fun _ => 1) (fs.set m F) R)
  have h2 := (((hasDerivAt_id (0 : ℝ)).pow 2).mul_const
    (sumIdx X.shape fun idx => (cpEntry (fun _ => 1) (fs.set m D) R idx) ^ 2))
  exact (h1.add h2).congr_deriv (by simp)

theorem entrySlope_eq (hf : fs.length = X.shape.length) (hm : m < X.shape.length) (F : NDArray ℝ) (i r : ℕ) :
    entrySlope X R fs m F i r = tensorSlope X R (fs.set m F) (fs.set m (unitMat (X.shape.getD m 0) R i r)) := by
  unfold entrySlope
  simp only [entryMoved_eq]
  exact (hasDerivAt_line hf hm F _).deriv

/-- The model that a matrix gives is a sum over its entries. -/
theorem cpEntry_units (hf : fs.length = X.shape.length) (hm : m < X.shape.length) {idx : List ℕ} (hidx : Valid X.shape idx)
    (D : NDArray ℝ) : cpEntry (fun _ => 1) (fs.set m D) R idx =
      ∑ i ∈ Finset.range (X.shape.getD m 0), ∑ r ∈ Finset.range R,
        D.get [i, r] * cpEntry (fun _ => 1) (fs.set m (unitMat (X.shape.getD m 0) R i r)) R idx := by
  have hl : idx.length = fs.length := hidx.length_eq.trans hf.symm
  have hi := hidx.getD_lt hm
  have h1 : ∀ i < X.shape.getD m 0, ∀ r < R,
      cpEntry (fun _ => 1) (fs.set m (unitMat (X.shape.getD m 0) R i r)) R idx =
        if idx.getD m 0 = i then ∏ k ∈ (Finset.range fs.length).erase m, (modeMat fs k).get [idx.getD k 0, r] else 0 := by
    intro i _ r hr
    simp only [cpEntry, one_mul]
    rw [Finset.sum_eq_single r]
    · rw [rankOne_set_eq hl (hf.symm ▸ hm), unitMat, get_ofMat hi hr]
      simp
    · intro b hb hbr
      rw [rankOne_set_eq hl (hf.symm ▸ hm), unitMat, get_ofMat hi (Finset.mem_range.1 hb), if_neg (by tauto), mul_zero]
    · intro h; exact absurd (Finset.mem_range.2 hr) h
  have h2 : ∀ i ∈ Finset.range (X.shape.getD m 0), (∑ r ∈ Finset.range R,
        D.get [i, r] * cpEntry (fun _ => 1) (fs.set m (unitMat (X.shape.getD m 0) R i r)) R idx) =
      if idx.getD m 0 = i then ∑ r ∈ Finset.range R, D.get [i, r] *
        ∏ k ∈ (Finset.range fs.length).erase m, (modeMat fs k).get [idx.getD k 0, r] else 0 := by
    intro i hi'
    split
    · rename_i h
      refine Finset.sum_congr rfl fun r hr => ?_
      rw [h1 i (Finset.mem_range.1 hi') r (Finset.mem_range.1 hr), if_pos h]
    · rename_i h
      refine Finset.sum_eq_zero fun r hr => ?_
      rw [h1 i (Finset.mem_range.1 hi') r (Finset.mem_range.1 hr), if_neg h, mul_zero]
  rw [Finset.sum_congr rfl h2, Finset.sum_ite_eq, if_pos (Finset.mem_range.2 hi)]
  simp only [cpEntry, one_mul]
  refine Finset.sum_congr rfl fun r hr => ?_
  rw [rankOne_set_eq hl (hf.symm ▸ hm), mul_comm]

theorem sumIdx_units (hf : fs.length = X.shape.length) (hm : m < X.shape.length) (f : List ℕ → ℝ) (D : NDArray ℝ) :
    (sumIdx X.shape fun idx => f idx * cpEntry (fun _ => 1) (fs.set m D) R idx) =
      ∑ i ∈ Finset.range (X.shape.getD m 0), ∑ r ∈ Finset.range R,
        D.get [i, r] * sumIdx X.shape fun idx => f idx * cpEntry (fun _ => 1) (fs.set m (unitMat (X.shape.getD m 0) R i r)) R idx := by
  simp only [mul_sumIdx]
  rw [Finset.sum_congr rfl fun i _ => (sumIdx_sum _ _ _).symm, ← sumIdx_sum]
  refine sumIdx_congr fun idx hidx => ?_
  rw [cpEntry_units hf hm hidx, Finset.mul_sum]
  refine Finset.sum_congr rfl fun i _ => ?_
  rw [Finset.mul_sum]
  refine Finset.sum_congr rfl fun r _ => ?_
  ring

/-- The derivative in a direction is the sum of the partial derivatives. -/
theorem tensorSlope_units (hf : fs.length = X.shape.length) (hm : m < X.shape.length) (F D : NDArray ℝ) :
    tensorSlope X R (fs.set m F) (fs.set m D) = ∑ i ∈ Finset.range (X.shape.getD m 0), ∑ r ∈ Finset.range R,
      D.get [i, r] * entrySlope X R fs m F i r := by
  rw [tensorSlope, sumIdx_units hf hm, Finset.mul_sum]
  refine Finset.sum_congr rfl fun i _ => ?_
  rw [Finset.mul_sum]
  refine Finset.sum_congr rfl fun r _ => ?_
  rw [entrySlope_eq hf hm, tensorSlope]
  ring

/-- The second derivative in the direction `D` and an entry. -/
def entryCurve (X : NDArray ℝ) (R : ℕ) (fs : List (NDArray ℝ)) (m : ℕ) (D : NDArray ℝ) (i r : ℕ) : ℝ :=
  2 * sumIdx X.shape fun idx => cpEntry (fun _ => 1) (fs.set m D) R idx *
    cpEntry (fun _ => 1) (fs.set m (unitMat (X.shape.getD m 0) R i r)) R idx

theorem entrySlope_line (hf : fs.length = X.shape.length) (hm : m < X.shape.length) (F D : NDArray ℝ) (t : ℝ) (i r : ℕ) :
    entrySlope X R fs m (lineMat (X.shape.getD m 0) R F D t) i r = entrySlope X R fs m F i r + t * entryCurve X R fs m D i r := by
  rw [entrySlope_eq hf hm, entrySlope_eq hf hm, entryCurve, tensorSlope, tensorSlope, mul_sumIdx, mul_sumIdx, mul_sumIdx, mul_sumIdx,
    ← sumIdx_add]
  refine sumIdx_congr fun idx hidx => ?_
  rw [cpEntry_line hf hm hidx]
  ring

theorem slopeSq_line (hf : fs.length = X.shape.length) (hm : m < X.shape.length) (F D : NDArray ℝ) (t : ℝ) :
    slopeSq X R fs m (lineMat (X.shape.getD m 0) R F D t) = slopeSq X R fs m F +
      t * (2 * ∑ i ∈ Finset.range (X.shape.getD m 0), ∑ r ∈ Finset.range R, entrySlope X R fs m F i r * entryCurve X R fs m D i r) +
      t ^ 2 * ∑ i ∈ Finset.range (X.shape.getD m 0), ∑ r ∈ Finset.range R, (entryCurve X R fs m D i r) ^ 2 := by
  unfold slopeSq
  simp only [Finset.mul_sum, ← Finset.sum_add_distrib]
  refine Finset.sum_congr rfl fun i _ => Finset.sum_congr rfl fun r _ => ?_
  rw [entrySlope_line hf hm]
  ring

/-- `∑ D_ir c_ir(D') = 2 ⟨[[D]], [[D']]⟩`. -/
theorem curve_units (hf : fs.length = X.shape.length) (hm : m < X.shape.length) (D D' : NDArray ℝ) :
    ∑ i ∈ Finset.range (X.shape.getD m 0), ∑ r ∈ Finset.range R, D.get [i, r] * entryCurve X R fs m D' i r =
      2 * sumIdx X.shape fun idx => cpEntry (fun _ => 1) (fs.set m D') R idx * cpEntry (fun _ => 1) (fs.set m D) R idx := by
  rw [sumIdx_units hf hm, Finset.mul_sum]
  refine Finset.sum_congr rfl fun i _ => ?_
  rw [Finset.mul_sum]
  refine Finset.sum_congr rfl fun r _ => ?_
  rw [entryCurve]
  ring

/-! ## Minima of the squared slopes -/

/-- A quadratic function that is smallest at zero among small arguments. -/
theorem linear_zero_near {b c ε : ℝ} (hε : 0 < ε) (h : ∀ t : ℝ, |t| < ε → 0 ≤ t * b + t ^ 2 * c) : b = 0 := by
  by_contra hb
  have hb' : 0 < |b| := abs_pos.2 hb
  have hc : 0 ≤ |c| := abs_nonneg c
  obtain ⟨s, hs0, hs1, hs2⟩ : ∃ s : ℝ, 0 < s ∧ s * |b| < ε ∧ s * |c| < 1 := by
    refine ⟨min (ε / (2 * |b|)) (1 / (2 * (|c| + 1))), by positivity, ?_, ?_⟩
    · refine (mul_le_mul_of_nonneg_right (min_le_left _ _) hb'.le).trans_lt ?_
      have e : ε / (2 * |b|) * |b| = ε / 2 := by field_simp
      rw [e]
      linarith
    · refine (mul_le_mul_of_nonneg_right (min_le_right _ _) hc).trans_lt ?_
      rw [div_mul_eq_mul_div, div_lt_one (by positivity)]
      linarith
  have h1 := h (-(s * b)) (by rw [abs_neg, abs_mul, abs_of_pos hs0]; exact hs1)
  have h2 : -(s * b) * b + (-(s * b)) ^ 2 * c = s * b ^ 2 * (s * c - 1) := by ring
  rw [h2] at h1
  have h3 : s * c - 1 < 0 := by
    have := mul_le_mul_of_nonneg_left (le_abs_self c) hs0.le
    linarith
  have h4 : 0 < s * b ^ 2 := by positivity
  have := mul_neg_of_pos_of_neg h4 h3
  linarith

/-- If the squared slopes are smallest at a positive matrix, all slopes vanish there. -/
theorem slopes_zero_of_pos (hf : fs.length = X.shape.length) (hm : m < X.shape.length) {F : NDArray ℝ}
    (hF : ∀ i < X.shape.getD m 0, ∀ r < R, 0 < F.get [i, r])
    (h : ∀ Y : NDArray ℝ, Y.shape = [X.shape.getD m 0, R] → NonNeg Y (X.shape.getD m 0) R →
      slopeSq X R fs m F ≤ slopeSq X R fs m Y) (D : NDArray ℝ) :
    tensorSlope X R (fs.set m F) (fs.set m D) = 0 := by
  set n := X.shape.getD m 0 with hn
  set S : NDArray ℝ := ofMat n R fun i r => entrySlope X R fs m F i r with hS
  have hSg : ∀ i ∈ Finset.range n, ∀ r ∈ Finset.range R, S.get [i, r] = entrySlope X R fs m F i r := fun i hi r hr => by
    rw [hS, get_ofMat (Finset.mem_range.1 hi) (Finset.mem_range.1 hr)]
  -- small steps are allowed
  obtain ⟨ε, hε, hsmall⟩ : ∃ ε : ℝ, 0 < ε ∧ ∀ t : ℝ, |t| < ε → NonNeg (lineMat n R F S t) n R := by
    have : ∀ᶠ t : ℝ in 𝓝 0, ∀ i ∈ Finset.range n, ∀ r ∈ Finset.range R, 0 < F.get [i, r] + t * S.get [i, r] := by
      rw [Filter.eventually_all_finset]
      intro i hi
      rw [Filter.eventually_all_finset]
      intro r hr
      have hc : Tendsto (fun t : ℝ => F.get [i, r] + t * S.get [i, r]) (𝓝 0) (𝓝 (F.get [i, r] + 0 * S.get [i, r])) :=
        (tendsto_id.mul_const _).const_add _
      rw [zero_mul, add_zero] at hc
      exact hc.eventually (lt_mem_nhds (hF i (Finset.mem_range.1 hi) r (Finset.mem_range.1 hr)))
    obtain ⟨ε, hε, hb⟩ := Metric.eventually_nhds_iff.1 this
    refine ⟨ε, hε, fun t ht i hi r hr => ?_⟩
    rw [lineMat, get_ofMat hi hr]
    exact (hb (by simpa [Real.dist_eq] using ht) i (Finset.mem_range.2 hi) r (Finset.mem_range.2 hr)).le
  have h1 := linear_zero_near hε fun t ht => by
    have h2 := h (lineMat n R F S t) rfl (hsmall t ht)
    rw [slopeSq_line hf hm] at h2
    have : 0 ≤ t * (2 * ∑ i ∈ Finset.range n, ∑ r ∈ Finset.range R, entrySlope X R fs m F i r * entryCurve X R fs m S i r) +
      t ^ 2 * ∑ i ∈ Finset.range n, ∑ r ∈ Finset.range R, (entryCurve X R fs m S i r) ^ 2 := by linarith
    exact this
  rw [Finset.sum_congr rfl fun i hi => Finset.sum_congr rfl fun r hr => by rw [← hSg i hi r hr], curve_units hf hm] at h1
  have h2 : (sumIdx X.shape fun idx => cpEntry (fun _ => 1) (fs.set m S) R idx * cpEntry (fun _ => 1) (fs.set m S) R idx) = 0 := by
    linarith
  have h3 : ∀ idx, Valid X.shape idx → cpEntry (fun _ => 1) (fs.set m S) R idx = 0 := by
    intro idx hidx
    refine (sumSq_eq_zero_iff (f := fun idx => cpEntry (fun _ => 1) (fs.set m S) R idx)).1 ?_ idx hidx
    rw [← h2]
    exact sumIdx_congr fun idx _ => sq _
  have h4 : tensorSlope X R (fs.set m F) (fs.set m S) = 0 := by
    rw [tensorSlope, show (sumIdx X.shape fun idx => (X.get idx - cpEntry (fun _ => 1) (fs.set m F) R idx) *
      cpEntry (fun _ => 1) (fs.set m S) R idx) = sumIdx X.shape fun _ => (0 : ℝ) from
        sumIdx_congr fun idx hidx => by rw [h3 idx hidx, mul_zero], sumIdx_zero, mul_zero]
  rw [tensorSlope_units hf hm, Finset.sum_congr rfl fun i hi => Finset.sum_congr rfl fun r hr => by rw [hSg i hi r hr],
    Finset.sum_eq_zero_iff_of_nonneg fun i _ => Finset.sum_nonneg fun r _ => mul_self_nonneg _] at h4
  rw [tensorSlope_units hf hm]
  refine Finset.sum_eq_zero fun i hi => Finset.sum_eq_zero fun r hr => ?_
  have h5 := h4 i hi
  rw [Finset.sum_eq_zero_iff_of_nonneg fun r _ => mul_self_nonneg _] at h5
  rw [mul_self_eq_zero.1 (h5 r hr), mul_zero]

/-- Where all slopes vanish, no change of the matrix lowers the squared error. -/
theorem sqErr_le_of_slopes (hf : fs.length = X.shape.length) (hm : m < X.shape.length) {F : NDArray ℝ}
    (h : ∀ D, tensorSlope X R (fs.set m F) (fs.set m D) = 0) (Y : NDArray ℝ) (hY : Y.shape = [X.shape.getD m 0, R]) :
    sqErr X (fun _ => 1) (fs.set m F) R ≤ sqErr X (fun _ => 1) (fs.set m Y) R := by
  have e : Y = lineMat (X.shape.getD m 0) R F (ofMat (X.shape.getD m 0) R fun i r => Y.get [i, r] - F.get [i, r]) 1 := by
    refine ext_mat hY rfl fun i hi r hr => ?_
    rw [lineMat, get_ofMat hi hr, get_ofMat hi hr]
    ring
  rw [e, sqErr_line hf hm, h]
  have : 0 ≤ sumIdx X.shape fun idx => (cpEntry (fun _ => 1) (fs.set m
    (ofMat (X.shape.getD m 0) R fun i r => Y.get [i, r] - F.get [i, r])) R idx) ^ 2 := sumIdx_nonneg fun _ _ => sq_nonneg _
  linarith

/-! ## The slopes in terms of the matrices of the update -/

theorem sumIdx_unit (hf : fs.length = X.shape.length) (hm : m < X.shape.length) (f : List ℕ → ℝ) {i r : ℕ}
    (hi : i < X.shape.getD m 0) (hr : r < R) :
    (sumIdx X.shape fun idx => f idx * cpEntry (fun _ => 1) (fs.set m (unitMat (X.shape.getD m 0) R i r)) R idx) =
      sumIdx (X.shape.eraseIdx m) fun idx => f (idx.insertIdx m i) * rankOne (fs.eraseIdx m) idx r := by
  rw [sumIdx_split hm, Finset.sum_eq_single i]
  · refine sumIdx_congr fun idx hidx => ?_
    have hl : idx.length + 1 = (fs.set m (unitMat (X.shape.getD m 0) R i r)).length := by
      rw [hidx.length_eq, List.length_eraseIdx_of_lt hm, List.length_set, hf]; omega
    rw [cpEntry_insertIdx _ (by rw [List.length_set, hf]; exact hm) hl, Finset.sum_eq_single r]
    · rw [List.getElem_set_self, unitMat, get_ofMat hi hr, if_pos ⟨rfl, rfl⟩, one_mul, one_mul, eraseIdx_set_self]
    · intro b hb hbr
      rw [List.getElem_set_self, unitMat, get_ofMat hi (Finset.mem_range.1 hb), if_neg (by tauto)]
      ring
    · intro h; exact absurd (Finset.mem_range.2 hr) h
  · intro a ha hai
    refine (sumIdx_congr fun idx hidx => ?_).trans (sumIdx_zero _)
    have hl : idx.length + 1 = (fs.set m (unitMat (X.shape.getD m 0) R i r)).length := by
      rw [hidx.length_eq, List.length_eraseIdx_of_lt hm, List.length_set, hf]; omega
    rw [cpEntry_insertIdx _ (by rw [List.length_set, hf]; exact hm) hl, Finset.sum_eq_zero, mul_zero]
    intro b hb
    rw [List.getElem_set_self, unitMat, get_ofMat (Finset.mem_range.1 ha) (Finset.mem_range.1 hb), if_neg (by tauto)]
    ring
  · intro h; exact absurd (Finset.mem_range.2 hi) h

/-- The inner products of the rank-one terms of the other modes. -/
def restDot (X : NDArray ℝ) (fs : List (NDArray ℝ)) (m a b : ℕ) : ℝ :=
  sumIdx (X.shape.eraseIdx m) fun idx => rankOne (fs.eraseIdx m) idx a * rankOne (fs.eraseIdx m) idx b

theorem inner_unit (hf : fs.length = X.shape.length) (hm : m < X.shape.length) (D : NDArray ℝ) {i r : ℕ}
    (hi : i < X.shape.getD m 0) (hr : r < R) :
    (sumIdx X.shape fun idx => cpEntry (fun _ => 1) (fs.set m D) R idx *
      cpEntry (fun _ => 1) (fs.set m (unitMat (X.shape.getD m 0) R i r)) R idx) =
      ∑ a ∈ Finset.range R, D.get [i, a] * restDot X fs m a r := by
  rw [sumIdx_unit hf hm _ hi hr]
  simp only [restDot, mul_sumIdx]
  rw [← sumIdx_sum]
  refine sumIdx_congr fun idx hidx => ?_
  have hl : idx.length + 1 = (fs.set m D).length := by
    rw [hidx.length_eq, List.length_eraseIdx_of_lt hm, List.length_set, hf]; omega
  rw [cpEntry_insertIdx _ (by rw [List.length_set, hf]; exact hm) hl, List.getElem_set_self, eraseIdx_set_self, Finset.sum_mul]
  refine Finset.sum_congr rfl fun a _ => ?_
  ring

theorem entryCurve_eq (hf : fs.length = X.shape.length) (hm : m < X.shape.length) (D : NDArray ℝ) {i r : ℕ}
    (hi : i < X.shape.getD m 0) (hr : r < R) :
    entryCurve X R fs m D i r = 2 * ∑ a ∈ Finset.range R, D.get [i, a] * restDot X fs m a r := by
  rw [entryCurve, inner_unit hf hm D hi hr]

theorem entrySlope_formula (hf : fs.length = X.shape.length) (hm : m < X.shape.length) (F : NDArray ℝ) {i r : ℕ}
    (hi : i < X.shape.getD m 0) (hr : r < R) :
    entrySlope X R fs m F i r = 2 * ((∑ a ∈ Finset.range R, F.get [i, a] * restDot X fs m a r) - mttkrpEntry X fs m i r) := by
  rw [entrySlope_eq hf hm, tensorSlope, ← inner_unit hf hm F hi hr, mttkrpEntry, ← sumIdx_unit hf hm (fun idx => X.get idx) hi hr,
    ← sumIdx_sub, mul_sumIdx, mul_sumIdx]
  refine sumIdx_congr fun idx _ => ?_
  ring

/-- What the non-negative update minimises. -/
theorem slopeSq_eq (hf : Factors fs X.shape R) (hm : m < X.shape.length) (F : NDArray ℝ) :
    slopeSq X R fs m F = 4 * resid F (ofMat R R fun a b => gramProd (fs.eraseIdx m) a b) (mttkrpMat X fs m R) (X.shape.getD m 0) R R := by
  rw [slopeSq, resid, Finset.mul_sum]
  refine Finset.sum_congr rfl fun i hi => ?_
  rw [Finset.mul_sum]
  refine Finset.sum_congr rfl fun r hr => ?_
  have hi' := Finset.mem_range.1 hi
  have hr' := Finset.mem_range.1 hr
  rw [entrySlope_formula hf.length_eq hm F hi' hr', mttkrpMat, get_ofMat hi' hr', mul_pow]
  norm_num
  congr 2
  refine Finset.sum_congr rfl fun a ha => ?_
  rw [get_ofMat (Finset.mem_range.1 ha) hr', restDot, sumIdx_rankOne_mul (hf.eraseIdx m)]

/-- With one component, the matrices with the smallest squared slopes have the smallest squared error. -/
theorem sqErr_le_of_slopeSq_one (hf : fs.length = X.shape.length) (hm : m < X.shape.length) {F Y : NDArray ℝ}
    (hY : Y.shape = [X.shape.getD m 0, 1]) (h : slopeSq X 1 fs m F ≤ slopeSq X 1 fs m Y) :
    sqErr X (fun _ => 1) (fs.set m F) 1 ≤ sqErr X (fun _ => 1) (fs.set m Y) 1 := by
  set n := X.shape.getD m 0 with hn
  set D : NDArray ℝ := ofMat n 1 fun i r => Y.get [i, r] - F.get [i, r] with hD
  have e : Y = lineMat n 1 F D 1 := by
    refine ext_mat hY rfl fun i hi r hr => ?_
    rw [lineMat, get_ofMat hi hr, hD, get_ofMat hi hr]
    ring
  set g := restDot X fs m 0 0 with hg
  have hc : ∀ i ∈ Finset.range n, entryCurve X 1 fs m D i 0 = 2 * (D.get [i, 0] * g) := fun i hi => by
    rw [entryCurve_eq hf hm D (Finset.mem_range.1 hi) Nat.one_pos, Finset.sum_range_one]
  have hq : (sumIdx X.shape fun idx => (cpEntry (fun _ => 1) (fs.set m D) 1 idx) ^ 2) = ∑ i ∈ Finset.range n, g * D.get [i, 0] ^ 2 := by
    have := curve_units (R := 1) hf hm D D
    simp only [Finset.sum_range_one] at this
    rw [Finset.sum_congr rfl fun i hi => by rw [hc i hi]] at this
    have h2 : (sumIdx X.shape fun idx => (cpEntry (fun _ => 1) (fs.set m D) 1 idx) ^ 2) =
        sumIdx X.shape fun idx => cpEntry (fun _ => 1) (fs.set m D) 1 idx * cpEntry (fun _ => 1) (fs.set m D) 1 idx :=
      sumIdx_congr fun idx _ => sq _
    have h3 : ∑ i ∈ Finset.range n, D.get [i, 0] * (2 * (D.get [i, 0] * g)) = 2 * ∑ i ∈ Finset.range n, g * D.get [i, 0] ^ 2 := by
      rw [Finset.mul_sum]
      exact Finset.sum_congr rfl fun i _ => by ring
    rw [h2]
    linarith
  have hd := tensorSlope_units (R := 1) hf hm F D
  simp only [Finset.sum_range_one] at hd
  have h1 : sqErr X (fun _ => 1) (fs.set m Y) 1 - sqErr X (fun _ => 1) (fs.set m F) 1 =
      ∑ i ∈ Finset.range n, (D.get [i, 0] * entrySlope X 1 fs m F i 0 + g * D.get [i, 0] ^ 2) := by
    rw [e, sqErr_line hf hm, hq, hd, Finset.sum_add_distrib]
    ring
  have h2 : slopeSq X 1 fs m Y - slopeSq X 1 fs m F =
      4 * g * ∑ i ∈ Finset.range n, (D.get [i, 0] * entrySlope X 1 fs m F i 0 + g * D.get [i, 0] ^ 2) := by
    rw [e, slopeSq_line hf hm]
    simp only [Finset.sum_range_one]
    simp only [Finset.mul_sum, one_mul, one_pow]
    rw [add_assoc, add_sub_cancel_left, ← Finset.sum_add_distrib]
    exact Finset.sum_congr rfl fun i hi => by rw [hc i hi]; ring
  have hg0 : 0 ≤ g := by
    rw [hg, restDot]
    exact sumIdx_nonneg fun _ _ => mul_self_nonneg _
  rcases hg0.lt_or_eq with hpos | hzero
  · have h3 : 0 ≤ 4 * g * ∑ i ∈ Finset.range n, (D.get [i, 0] * entrySlope X 1 fs m F i 0 + g * D.get [i, 0] ^ 2) := by linarith
    have := nonneg_of_mul_nonneg_right h3 (by positivity)
    linarith
  · -- the other modes vanish, and so do all slopes
    have hr0 : ∀ idx, Valid (X.shape.eraseIdx m) idx → rankOne (fs.eraseIdx m) idx 0 = 0 := by
      refine (sumSq_eq_zero_iff (f := fun idx => rankOne (fs.eraseIdx m) idx 0)).1 ?_
      rw [hzero, hg, restDot]
      exact sumIdx_congr fun idx _ => sq _
    have hs : ∀ i ∈ Finset.range n, D.get [i, 0] * entrySlope X 1 fs m F i 0 + g * D.get [i, 0] ^ 2 = 0 := by
      intro i hi
      rw [entrySlope_formula hf hm F (Finset.mem_range.1 hi) Nat.one_pos, Finset.sum_range_one, ← hg, ← hzero, mttkrpEntry,
        (sumIdx_congr fun idx hidx => by rw [hr0 idx hidx, mul_zero]).trans (sumIdx_zero (α := ℝ) (X.shape.eraseIdx m))]
      ring
    rw [Finset.sum_eq_zero hs] at h1
    linarith

/-! ## Sweeps -/

/-- Spec: `g m` are the factor matrices before the update of mode `m`. The update of a mode without a flag minimises the squared
error; that of a mode with a flag minimises the squared slopes over the non-negative matrices. -/
structure NonNegSweep (X : NDArray ℝ) (R : ℕ) (flags : List Bool) (g : ℕ → List (NDArray ℝ)) : Prop where
  len : ∀ m ≤ X.shape.length, (g m).length = X.shape.length
  step : ∀ m < X.shape.length, ∃ F, g (m + 1) = (g m).set m F ∧
    (flags[m]? ≠ some true → ∀ Y : NDArray ℝ, Y.shape = [X.shape.getD m 0, R] →
      sqErr X (fun _ => 1) (g (m + 1)) R ≤ sqErr X (fun _ => 1) ((g m).set m Y) R) ∧
    (flags[m]? = some true → NonNeg F (X.shape.getD m 0) R ∧ ∀ Y : NDArray ℝ, Y.shape = [X.shape.getD m 0, R] →
      NonNeg Y (X.shape.getD m 0) R → slopeSq X R (g m) m F ≤ slopeSq X R (g m) m Y)

variable {flags : List Bool} {g : ℕ → List (NDArray ℝ)}

theorem NonNegSweep.before (h : NonNegSweep X R flags g) {k : ℕ} : ∀ {m : ℕ}, m ≤ X.shape.length → m ≤ k →
    modeMat (g m) k = modeMat (g 0) k
  | 0, _, _ => rfl
  | m + 1, hm, hk => by
    obtain ⟨F, e, -⟩ := h.step m hm
    rw [e, modeMat_set_ne (by omega), h.before (by omega) (by omega)]

theorem NonNegSweep.after (h : NonNegSweep X R flags g) {k : ℕ} : ∀ {n m : ℕ}, m + n = X.shape.length → k < m →
    modeMat (g m) k = modeMat (g X.shape.length) k
  | 0, m, hm, _ => by rw [← hm]; rfl
  | n + 1, m, hm, hk => by
    obtain ⟨F, e, -⟩ := h.step m (by omega)
    rw [← h.after (n := n) (m := m + 1) (by omega) (by omega), e, modeMat_set_ne (by omega)]

theorem tendsto_tensorSlope {l : Filter ℕ} {gs hs : ℕ → List (NDArray ℝ)} {fs ks : List (NDArray ℝ)}
    (h : FactorsTendTo l gs fs X.shape R) (hg : ∀ j, (gs j).length = X.shape.length) (hf : fs.length = X.shape.length)
    (h' : FactorsTendTo l hs ks X.shape R) (hh : ∀ j, (hs j).length = X.shape.length) (hk : ks.length = X.shape.length) :
    Tendsto (fun j => tensorSlope X R (gs j) (hs j)) l (𝓝 (tensorSlope X R fs ks)) :=
  (tendsto_sumIdx fun _ hidx => ((tendsto_cpEntry h hg hf _ hidx).const_sub _).mul (tendsto_cpEntry h' hh hk _ hidx)).const_mul _

/-- What holds for limits of sweeps with non-negative updates. -/
theorem NonNegSweep.limit {G : ℕ → ℕ → List (NDArray ℝ)} (hS : ∀ j, NonNegSweep X R flags (G j))
    (hnext : ∀ j, G j X.shape.length = G (j + 1) 0) {fs : List (NDArray ℝ)} (hf : fs.length = X.shape.length)
    (hlim : FactorsTendTo atTop (fun j => G j 0) fs X.shape R) {m : ℕ} (hm : m < X.shape.length) :
    (flags[m]? ≠ some true → ∀ Y : NDArray ℝ, Y.shape = [X.shape.getD m 0, R] →
      sqErr X (fun _ => 1) fs R ≤ sqErr X (fun _ => 1) (fs.set m Y) R) ∧
    (flags[m]? = some true → NonNeg (modeMat fs m) (X.shape.getD m 0) R ∧ ∀ Y : NDArray ℝ, Y.shape = [X.shape.getD m 0, R] →
      NonNeg Y (X.shape.getD m 0) R → slopeSq X R fs m (modeMat fs m) ≤ slopeSq X R fs m Y) := by
  have h : ∀ m ≤ X.shape.length, FactorsTendTo atTop (fun j => G j m) fs X.shape R := by
    intro m hm k hk i hi r hr
    by_cases hkm : k < m
    · have := (hlim k hk i hi r hr).comp (tendsto_add_atTop_nat 1)
      refine this.congr fun j => ?_
      rw [(hS j).after (n := X.shape.length - m) (by omega) hkm, hnext j]
      rfl
    · refine (hlim k hk i hi r hr).congr fun j => ?_
      rw [(hS j).before hm (not_lt.1 hkm)]
  refine ⟨fun hfl Y hY => ?_, fun hfl => ⟨fun i hi r hr => ?_, fun Y hY hYn => ?_⟩⟩
  · have h1 := tendsto_sqErr (h (m + 1) hm) (fun j => (hS j).len _ hm) hf fun _ => 1
    have h2 := tendsto_sqErr ((h m hm.le).set (fun j => (hS j).len _ hm.le) hf m Y)
      (fun j => by rw [List.length_set]; exact (hS j).len _ hm.le) (by rw [List.length_set]; exact hf) fun _ => 1
    refine le_of_tendsto_of_tendsto' h1 h2 fun j => ?_
    obtain ⟨F, -, opt, -⟩ := (hS j).step m hm
    exact opt hfl Y hY
  · refine ge_of_tendsto' (h (m + 1) hm m hm i hi r hr) fun j => ?_
    obtain ⟨F, e, -, hn⟩ := (hS j).step m hm
    show 0 ≤ (modeMat (G j (m + 1)) m).get [i, r]
    rw [e, modeMat_set_self (by rw [(hS j).len m hm.le]; exact hm)]
    exact (hn hfl).1 i hi r hr
  · have hset : fs.set m (modeMat fs m) = fs := by
      rw [modeMat_eq (hf.symm ▸ hm), List.set_getElem_self]
    have hunit : ∀ i r, FactorsTendTo atTop (fun j => (G j m).set m (unitMat (X.shape.getD m 0) R i r))
        (fs.set m (unitMat (X.shape.getD m 0) R i r)) X.shape R := fun i r =>
      (h m hm.le).set (fun j => (hS j).len _ hm.le) hf m _
    have hl1 : ∀ j (Z : NDArray ℝ), ((G j m).set m Z).length = X.shape.length := fun j Z => by
      rw [List.length_set]; exact (hS j).len _ hm.le
    have hl2 : ∀ Z : NDArray ℝ, (fs.set m Z).length = X.shape.length := fun Z => by rw [List.length_set]; exact hf
    have h1 : Tendsto (fun j => ∑ i ∈ Finset.range (X.shape.getD m 0), ∑ r ∈ Finset.range R,
        (tensorSlope X R (G j (m + 1)) ((G j m).set m (unitMat (X.shape.getD m 0) R i r))) ^ 2) atTop
        (𝓝 (slopeSq X R fs m (modeMat fs m))) := by
      refine tendsto_finsetSum _ fun i _ => tendsto_finsetSum _ fun r _ => Tendsto.pow ?_ 2
      rw [entrySlope_eq hf hm, hset]
      exact tendsto_tensorSlope (h (m + 1) hm) (fun j => (hS j).len _ hm) hf (hunit i r) (fun j => hl1 j _) (hl2 _)
    have h2 : Tendsto (fun j => slopeSq X R (G j m) m Y) atTop (𝓝 (slopeSq X R fs m Y)) := by
      refine tendsto_finsetSum _ fun i _ => tendsto_finsetSum _ fun r _ => Tendsto.pow ?_ 2
      rw [entrySlope_eq hf hm]
      have := tendsto_tensorSlope ((h m hm.le).set (fun j => (hS j).len _ hm.le) hf m Y) (fun j => hl1 j _) (hl2 _) (hunit i r)
        (fun j => hl1 j _) (hl2 _)
      refine this.congr fun j => ?_
      rw [entrySlope_eq ((hS j).len _ hm.le) hm]
    refine le_of_tendsto_of_tendsto' h1 h2 fun j => ?_
    obtain ⟨F, e, -, hn⟩ := (hS j).step m hm
    have h3 := (hn hfl).2 Y hY hYn
    refine le_trans (le_of_eq ?_) h3
    rw [slopeSq]
    refine Finset.sum_congr rfl fun i _ => Finset.sum_congr rfl fun r _ => ?_
    rw [entrySlope_eq ((hS j).len _ hm.le) hm, e]

end

end TK
