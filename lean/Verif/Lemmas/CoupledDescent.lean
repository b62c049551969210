import Verif.Spec.CoupledDescent
import Verif.Lemmas.CMTFUpdate

/-!
# Sweeps of least squares updates of a coupled model
-/

namespace TK
open NDArray Filter Topology

noncomputable section

/-! ## Motions along lines -/

/-- A quadratic function that is smallest at zero. -/
theorem linear_zero {b c : ℝ} (h : ∀ t : ℝ, 0 ≤ t * b + t ^ 2 * c) : b = 0 := by
  by_contra hb
  have hc : 0 ≤ c := by
    have h1 := h 1
    have h2 := h (-1)
    nlinarith
  have := h (-b / (c + 1))
  have h2 : -b / (c + 1) * b + (-b / (c + 1)) ^ 2 * c = -(b ^ 2) / (c + 1) ^ 2 := by field_simp; ring
  rw [h2] at this
  have h3 : 0 < b ^ 2 / (c + 1) ^ 2 := by positivity
  rw [neg_div] at this
  linarith

/-- `F + t D`. -/
def lineMat (p R : ℕ) (F D : NDArray ℝ) (t : ℝ) : NDArray ℝ := ofMat p R fun i r => F.get [i, r] + t * D.get [i, r]

theorem cpEntry_line {sizes : List ℕ} {fs : List (NDArray ℝ)} {m R : ℕ} (hf : fs.length = sizes.length) (hm : m < sizes.length)
    {idx : List ℕ} (hidx : Valid sizes idx) (F D : NDArray ℝ) (t : ℝ) :
    cpEntry (fun _ => 1) (fs.set m (lineMat (sizes.getD m 0) R F D t)) R idx
      = cpEntry (fun _ => 1) (fs.set m F) R idx + t * cpEntry (fun _ => 1) (fs.set m D) R idx := by
  simp only [cpEntry, one_mul, Finset.mul_sum, ← Finset.sum_add_distrib]
  refine Finset.sum_congr rfl fun r hr => ?_
  have hl : idx.length = fs.length := hidx.length_eq.trans hf.symm
  rw [rankOne_set_eq hl (hf.symm ▸ hm), rankOne_set_eq hl (hf.symm ▸ hm), rankOne_set_eq hl (hf.symm ▸ hm), lineMat,
    get_ofMat (hidx.getD_lt hm) (Finset.mem_range.1 hr)]
  ring

theorem sqErr_line {X : NDArray ℝ} {fs : List (NDArray ℝ)} {m R : ℕ} (hf : fs.length = X.shape.length)
    (hm : m < X.shape.length) (F D : NDArray ℝ) (t : ℝ) :
    sqErr X (fun _ => 1) (fs.set m (lineMat (X.shape.getD m 0) R F D t)) R = sqErr X (fun _ => 1) (fs.set m F) R +
      t * tensorSlope X R (fs.set m F) (fs.set m D) +
      t ^ 2 * sumIdx X.shape fun idx => (cpEntry (fun _ => 1) (fs.set m D) R idx) ^ 2 := by
  rw [tensorSlope, ← mul_assoc, mul_sumIdx, mul_sumIdx, sqErr, sqErr, ← sumIdx_add, ← sumIdx_add]
  refine sumIdx_congr fun idx hidx => ?_
  rw [cpEntry_line hf hm hidx]
  ring

/-- The derivative of the error of a matrix, when its model moves in direction `U' V'ᵀ`. -/
def matSlope (Y U V U' V' : NDArray ℝ) (R : ℕ) : ℝ :=
  -2 * ∑ i ∈ Finset.range (Y.shape.getD 0 0), ∑ j ∈ Finset.range (Y.shape.getD 1 0),
    (Y.get [i, j] - ∑ r ∈ Finset.range R, U.get [i, r] * V.get [j, r]) * ∑ r ∈ Finset.range R, U'.get [i, r] * V'.get [j, r]

/-- `‖U Vᵀ‖²` over the entries of `Y`. -/
def matSq (Y U V : NDArray ℝ) (R : ℕ) : ℝ :=
  ∑ i ∈ Finset.range (Y.shape.getD 0 0), ∑ j ∈ Finset.range (Y.shape.getD 1 0),
    (∑ r ∈ Finset.range R, U.get [i, r] * V.get [j, r]) ^ 2

theorem sum2_line {p q : ℕ} {f g h k : ℕ → ℕ → ℝ} {t : ℝ}
    (e : ∀ i < p, ∀ j < q, f i j = g i j + t * (-2 * h i j) + t ^ 2 * k i j) :
    ∑ i ∈ Finset.range p, ∑ j ∈ Finset.range q, f i j = ∑ i ∈ Finset.range p, ∑ j ∈ Finset.range q, g i j +
      t * (-2 * ∑ i ∈ Finset.range p, ∑ j ∈ Finset.range q, h i j) +
      t ^ 2 * ∑ i ∈ Finset.range p, ∑ j ∈ Finset.range q, k i j := by
  simp only [Finset.mul_sum, ← Finset.sum_add_distrib]
  exact Finset.sum_congr rfl fun i hi => Finset.sum_congr rfl fun j hj => e i (Finset.mem_range.1 hi) j (Finset.mem_range.1 hj)

theorem matErr_lineU {Y U V D : NDArray ℝ} {R p : ℕ} (hp : Y.shape.getD 0 0 = p) (t : ℝ) :
    matErr Y (lineMat p R U D t) V R = matErr Y U V R + t * matSlope Y U V D V R + t ^ 2 * matSq Y D V R := by
  subst hp
  refine sum2_line fun i hi j _ => ?_
  have : ∑ r ∈ Finset.range R, (lineMat (Y.shape.getD 0 0) R U D t).get [i, r] * V.get [j, r]
      = ∑ r ∈ Finset.range R, U.get [i, r] * V.get [j, r] + t * ∑ r ∈ Finset.range R, D.get [i, r] * V.get [j, r] := by
    rw [Finset.mul_sum, ← Finset.sum_add_distrib]
    refine Finset.sum_congr rfl fun r hr => ?_
    rw [lineMat, get_ofMat hi (Finset.mem_range.1 hr)]
    ring
  rw [this]
  ring

theorem matErr_lineV {Y U V D : NDArray ℝ} {R q : ℕ} (hq : Y.shape.getD 1 0 = q) (t : ℝ) :
    matErr Y U (lineMat q R V D t) R = matErr Y U V R + t * matSlope Y U V U D R + t ^ 2 * matSq Y U D R := by
  subst hq
  refine sum2_line fun i _ j hj => ?_
  have : ∑ r ∈ Finset.range R, U.get [i, r] * (lineMat (Y.shape.getD 1 0) R V D t).get [j, r]
      = ∑ r ∈ Finset.range R, U.get [i, r] * V.get [j, r] + t * ∑ r ∈ Finset.range R, U.get [i, r] * D.get [j, r] := by
    rw [Finset.mul_sum, ← Finset.sum_add_distrib]
    refine Finset.sum_congr rfl fun r hr => ?_
    rw [lineMat, get_ofMat hj (Finset.mem_range.1 hr)]
    ring
  rw [this]
  ring

/-! ## Change of one factor matrix of the tensor -/

/-- The matrices that are the first ones of their mode. -/
def firstOnes (ms : List ℕ) : Finset ℕ := (Finset.range ms.length).filter (IsFirst ms)

theorem firstErr_line {Ys fs Vs : List (NDArray ℝ)} {ms : List ℕ} {R m p : ℕ} (hm : m < fs.length)
    (hp : ∀ i < ms.length, ms.getD i 0 = m → (Ys.getD i noArr).shape.getD 0 0 = p) (F D : NDArray ℝ) (t : ℝ) :
    firstErr (fs.set m (lineMat p R F D t)) Ys Vs ms R = firstErr (fs.set m F) Ys Vs ms R +
      t * (∑ i ∈ (firstOnes ms).filter (fun i => ms.getD i 0 = m),
        matSlope (Ys.getD i noArr) F (Vs.getD i noArr) D (Vs.getD i noArr) R) +
      t ^ 2 * ∑ i ∈ (firstOnes ms).filter (fun i => ms.getD i 0 = m), matSq (Ys.getD i noArr) D (Vs.getD i noArr) R := by
  unfold firstErr
  rw [show (Finset.range ms.length).filter (IsFirst ms) = firstOnes ms from rfl, Finset.sum_filter, Finset.sum_filter,
    Finset.mul_sum, Finset.mul_sum, ← Finset.sum_add_distrib, ← Finset.sum_add_distrib]
  refine Finset.sum_congr rfl fun i hi => ?_
  have hi : i < ms.length := by simp [firstOnes] at hi; exact hi.1
  rw [coupledErrAt, coupledErrAt, getD_set, getD_set]
  by_cases hmi : m = ms.getD i 0
  · rw [if_pos ⟨hmi, by rw [← hmi]; exact hm⟩, if_pos ⟨hmi, by rw [← hmi]; exact hm⟩, if_pos hmi.symm, if_pos hmi.symm,
      matErr_lineU (hp i hi hmi.symm)]
  · rw [if_neg (fun h => hmi h.1), if_neg (fun h => hmi h.1), if_neg (Ne.symm hmi), if_neg (Ne.symm hmi)]
    ring

/-- What the change of one factor matrix changes in first order. -/
def modeSlope (X : NDArray ℝ) (Ys : List (NDArray ℝ)) (ms : List ℕ) (R m : ℕ) (fs Vs : List (NDArray ℝ)) (F D : NDArray ℝ) : ℝ :=
  tensorSlope X R (fs.set m F) (fs.set m D) + ∑ i ∈ (firstOnes ms).filter (fun i => ms.getD i 0 = m),
    matSlope (Ys.getD i noArr) F (Vs.getD i noArr) D (Vs.getD i noArr) R

/-- The coupled matrices have as many rows as the tensor in their mode. -/
def RowsFit (X : NDArray ℝ) (Ys : List (NDArray ℝ)) (ms : List ℕ) : Prop :=
  ∀ i < ms.length, ms.getD i 0 < X.shape.length ∧ (Ys.getD i noArr).shape.getD 0 0 = X.shape.getD (ms.getD i 0) 0

theorem coupledLoss_line {X : NDArray ℝ} {Ys fs Vs : List (NDArray ℝ)} {ms : List ℕ} {R m : ℕ} (hf : fs.length = X.shape.length)
    (hm : m < X.shape.length) (hp : RowsFit X Ys ms) (F D : NDArray ℝ) :
    ∃ c, ∀ t : ℝ, coupledLoss X Ys ms R (fs.set m (lineMat (X.shape.getD m 0) R F D t)) Vs =
      coupledLoss X Ys ms R (fs.set m F) Vs + t * modeSlope X Ys ms R m fs Vs F D + t ^ 2 * c := by
  refine ⟨(sumIdx X.shape fun idx => (cpEntry (fun _ => 1) (fs.set m D) R idx) ^ 2) +
    ∑ i ∈ (firstOnes ms).filter (fun i => ms.getD i 0 = m), matSq (Ys.getD i noArr) D (Vs.getD i noArr) R, fun t => ?_⟩
  rw [coupledLoss, sqErr_line hf hm, firstErr_line (hf.symm ▸ hm) (fun i hi e => by rw [(hp i hi).2, e]), coupledLoss, modeSlope]
  ring

/-- At an optimal matrix, the first order change vanishes. -/
theorem modeSlope_zero {X : NDArray ℝ} {Ys fs Vs : List (NDArray ℝ)} {ms : List ℕ} {R m : ℕ} (hf : fs.length = X.shape.length)
    (hm : m < X.shape.length) (hp : RowsFit X Ys ms) {F : NDArray ℝ}
    (hopt : ∀ Z : NDArray ℝ, Z.shape = [X.shape.getD m 0, R] →
      coupledLoss X Ys ms R (fs.set m F) Vs ≤ coupledLoss X Ys ms R (fs.set m Z) Vs) (D : NDArray ℝ) :
    modeSlope X Ys ms R m fs Vs F D = 0 := by
  obtain ⟨c, hc⟩ := coupledLoss_line (Vs := Vs) hf hm hp F D (R := R)
  refine linear_zero (c := c) fun t => ?_
  have := hopt (lineMat (X.shape.getD m 0) R F D t) rfl
  rw [hc t] at this
  linarith

theorem matErr_sub (Y U V U' V' : NDArray ℝ) (R : ℕ) :
    matErr Y U V R - matErr Y U' V' R = matSlope Y U' V' U V R - matSlope Y U' V' U' V' R +
      matDist (Y.shape.getD 0 0) (Y.shape.getD 1 0) U V U' V' R := by
  have key : ∀ a b c : ℕ → ℕ → ℝ, ∀ p q : ℕ,
      ∑ i ∈ Finset.range p, ∑ j ∈ Finset.range q, (a i j - b i j) ^ 2
        - ∑ i ∈ Finset.range p, ∑ j ∈ Finset.range q, (a i j - c i j) ^ 2 =
      -2 * (∑ i ∈ Finset.range p, ∑ j ∈ Finset.range q, (a i j - c i j) * b i j)
        - -2 * (∑ i ∈ Finset.range p, ∑ j ∈ Finset.range q, (a i j - c i j) * c i j)
        + ∑ i ∈ Finset.range p, ∑ j ∈ Finset.range q, (b i j - c i j) ^ 2 := by
    intro a b c p q
    simp only [Finset.mul_sum, ← Finset.sum_add_distrib, ← Finset.sum_sub_distrib]
    exact Finset.sum_congr rfl fun i _ => Finset.sum_congr rfl fun j _ => by ring
  exact key (fun i j => Y.get [i, j]) (fun i j => ∑ r ∈ Finset.range R, U.get [i, r] * V.get [j, r])
    (fun i j => ∑ r ∈ Finset.range R, U'.get [i, r] * V'.get [j, r]) _ _

theorem matDist_self (p q : ℕ) (U V : NDArray ℝ) (R : ℕ) : matDist p q U V U V R = 0 := by
  simp [matDist]

theorem sqErr_sub (X : NDArray ℝ) (fs gs : List (NDArray ℝ)) (R : ℕ) :
    sqErr X (fun _ => 1) fs R - sqErr X (fun _ => 1) gs R =
      tensorSlope X R gs fs - tensorSlope X R gs gs + modelDist X.shape fs gs R := by
  rw [tensorSlope, tensorSlope, modelDist, mul_sumIdx, mul_sumIdx, sqErr, sqErr, ← sumIdx_sub, ← sumIdx_sub, ← sumIdx_add]
  exact sumIdx_congr fun idx _ => by ring

/-- Replacing the matrix of one mode by an optimal one moves the model by the amount by which the error falls. -/
theorem dist_of_optimal {X : NDArray ℝ} {Ys fs Vs : List (NDArray ℝ)} {ms : List ℕ} {R m : ℕ} (hf : fs.length = X.shape.length)
    (hm : m < X.shape.length) (hp : RowsFit X Ys ms) {F : NDArray ℝ}
    (hopt : ∀ Z : NDArray ℝ, Z.shape = [X.shape.getD m 0, R] →
      coupledLoss X Ys ms R (fs.set m F) Vs ≤ coupledLoss X Ys ms R (fs.set m Z) Vs) :
    coupledDist X Ys ms R fs Vs (fs.set m F) Vs = coupledLoss X Ys ms R fs Vs - coupledLoss X Ys ms R (fs.set m F) Vs := by
  have hm' : m < fs.length := hf.symm ▸ hm
  have h1 := modeSlope_zero hf hm hp hopt fs[m]
  have h2 := modeSlope_zero hf hm hp hopt F
  rw [modeSlope, List.set_getElem_self] at h1
  rw [modeSlope] at h2
  rw [coupledDist, coupledLoss, coupledLoss, show ∀ a b c d : ℝ, a + b - (c + d) = (a - c) + (b - d) from fun _ _ _ _ => by ring,
    sqErr_sub, firstErr, firstErr, ← Finset.sum_sub_distrib]
  have h3 : ∑ i ∈ (Finset.range ms.length).filter (IsFirst ms), (coupledErrAt fs Ys Vs ms R i
        - coupledErrAt (fs.set m F) Ys Vs ms R i) =
      (∑ i ∈ (firstOnes ms).filter (fun i => ms.getD i 0 = m), matSlope (Ys.getD i noArr) F (Vs.getD i noArr) fs[m] (Vs.getD i noArr) R)
      - (∑ i ∈ (firstOnes ms).filter (fun i => ms.getD i 0 = m), matSlope (Ys.getD i noArr) F (Vs.getD i noArr) F (Vs.getD i noArr) R)
      + ∑ i ∈ (Finset.range ms.length).filter (IsFirst ms),
        matDist ((Ys.getD i noArr).shape.getD 0 0) ((Ys.getD i noArr).shape.getD 1 0)
          (fs.getD (ms.getD i 0) noArr) (Vs.getD i noArr) ((fs.set m F).getD (ms.getD i 0) noArr) (Vs.getD i noArr) R := by
    rw [show (Finset.range ms.length).filter (IsFirst ms) = firstOnes ms from rfl, Finset.sum_filter, Finset.sum_filter,
      ← Finset.sum_sub_distrib, ← Finset.sum_add_distrib]
    refine Finset.sum_congr rfl fun i _ => ?_
    rw [coupledErrAt, coupledErrAt, matErr_sub, getD_set]
    by_cases hmi : m = ms.getD i 0
    · rw [if_pos ⟨hmi, by rw [← hmi]; exact hm'⟩, if_pos hmi.symm, if_pos hmi.symm, ← hmi, getD_of_lt hm']
    · rw [if_neg (fun h => hmi h.1), if_neg (Ne.symm hmi), if_neg (Ne.symm hmi), sub_self, sub_self]
  rw [h3]
  linarith

/-! ## Change of the right factors -/

theorem matSlope_zero {Y U V : NDArray ℝ} {R : ℕ} (h : BestV Y U V R) (D : NDArray ℝ) : matSlope Y U V U D R = 0 := by
  refine linear_zero (c := matSq Y U D R) fun t => ?_
  have := h (lineMat (Y.shape.getD 1 0) R V D t)
  rw [matErr_lineV rfl] at this
  linarith

theorem dist_of_best {X : NDArray ℝ} {Ys fs Vs Ws : List (NDArray ℝ)} {ms : List ℕ} {R : ℕ}
    (h : ∀ i < ms.length, IsFirst ms i → BestV (Ys.getD i noArr) (fs.getD (ms.getD i 0) noArr) (Ws.getD i noArr) R) :
    coupledDist X Ys ms R fs Vs fs Ws = coupledLoss X Ys ms R fs Vs - coupledLoss X Ys ms R fs Ws := by
  have h0 : modelDist X.shape fs fs R = 0 := by
    rw [modelDist, ← sumIdx_congr (f := fun _ => (0 : ℝ)) fun idx _ => by simp]
    exact sumIdx_zero _
  rw [coupledDist, h0, coupledLoss, coupledLoss, zero_add, add_sub_add_left_eq_sub, firstErr, firstErr, ← Finset.sum_sub_distrib]
  refine Finset.sum_congr rfl fun i hi => ?_
  simp only [Finset.mem_filter, Finset.mem_range] at hi
  rw [coupledErrAt, coupledErrAt, matErr_sub, matSlope_zero (h i hi.1 hi.2), matSlope_zero (h i hi.1 hi.2)]
  ring

/-! ## Sweeps -/

/-- Spec: `g m` are the matrices of the model before the update of mode `m`, which minimises the coupled error; at the end the
right factors of the first matrices of the modes are replaced by optimal ones. -/
structure CoupledSweep (X : NDArray ℝ) (Ys : List (NDArray ℝ)) (ms : List ℕ) (R : ℕ)
    (g : ℕ → List (NDArray ℝ) × List (NDArray ℝ)) : Prop where
  rows : RowsFit X Ys ms
  len : ∀ m ≤ X.shape.length, (g m).1.length = X.shape.length
  step : ∀ m < X.shape.length, ∃ F, g (m + 1) = ((g m).1.set m F, (g m).2) ∧
    ∀ Z : NDArray ℝ, Z.shape = [X.shape.getD m 0, R] →
      coupledLoss X Ys ms R (g (m + 1)).1 (g (m + 1)).2 ≤ coupledLoss X Ys ms R ((g m).1.set m Z) (g m).2
  last : (g (X.shape.length + 1)).1 = (g X.shape.length).1
  best : ∀ i < ms.length, IsFirst ms i → BestV (Ys.getD i noArr) ((g X.shape.length).1.getD (ms.getD i 0) noArr)
    ((g (X.shape.length + 1)).2.getD i noArr) R

namespace CoupledSweep

variable {X : NDArray ℝ} {Ys : List (NDArray ℝ)} {ms : List ℕ} {R : ℕ} {g : ℕ → List (NDArray ℝ) × List (NDArray ℝ)}

/-- Each update moves the model by exactly the amount by which it lowers the coupled error. -/
theorem dist (h : CoupledSweep X Ys ms R g) {m : ℕ} (hm : m < X.shape.length + 1) :
    coupledDist X Ys ms R (g m).1 (g m).2 (g (m + 1)).1 (g (m + 1)).2 =
      coupledLoss X Ys ms R (g m).1 (g m).2 - coupledLoss X Ys ms R (g (m + 1)).1 (g (m + 1)).2 := by
  by_cases hm' : m < X.shape.length
  · obtain ⟨F, e, opt⟩ := h.step m hm'
    rw [e] at opt ⊢
    exact dist_of_optimal (h.len m hm'.le) hm' h.rows opt
  · obtain rfl : m = X.shape.length := by omega
    rw [h.last]
    exact dist_of_best h.best

/-- The whole sweep moves the model by at most the number of updates times the decrease of the coupled error. -/
theorem dist_le (h : CoupledSweep X Ys ms R g) :
    coupledDist X Ys ms R (g 0).1 (g 0).2 (g (X.shape.length + 1)).1 (g (X.shape.length + 1)).2 ≤
      (X.shape.length + 1 : ℕ) * (coupledLoss X Ys ms R (g 0).1 (g 0).2 -
        coupledLoss X Ys ms R (g (X.shape.length + 1)).1 (g (X.shape.length + 1)).2) := by
  set d := X.shape.length + 1 with hd
  have h1 : coupledLoss X Ys ms R (g 0).1 (g 0).2 - coupledLoss X Ys ms R (g d).1 (g d).2 =
      ∑ m ∈ Finset.range d, coupledDist X Ys ms R (g m).1 (g m).2 (g (m + 1)).1 (g (m + 1)).2 := by
    rw [Finset.sum_congr rfl fun m hm => h.dist (Finset.mem_range.1 hm),
      Finset.sum_range_sub' (fun m => coupledLoss X Ys ms R (g m).1 (g m).2)]
  rw [h1]
  have cs : ∀ f : ℕ → ℝ, (f 0 - f d) ^ 2 ≤ d * ∑ m ∈ Finset.range d, (f m - f (m + 1)) ^ 2 := by
    intro f
    rw [← Finset.sum_range_sub' f d]
    simpa using sq_sum_le_card_mul_sum_sq (s := Finset.range d) (f := fun m => f m - f (m + 1))
  simp only [coupledDist, Finset.sum_add_distrib, mul_add]
  refine _root_.add_le_add ?_ ?_
  · simp only [modelDist]
    rw [← sumIdx_sum, mul_sumIdx, ← sub_nonneg, ← sumIdx_sub]
    refine sumIdx_nonneg fun idx _ => ?_
    rw [sub_nonneg]
    exact cs fun m => cpEntry (fun _ => 1) (g m).1 R idx
  · rw [Finset.sum_comm, Finset.mul_sum]
    refine Finset.sum_le_sum fun i _ => ?_
    have comm : ∀ (p q : ℕ) (f : ℕ → ℕ → ℕ → ℝ), (d : ℝ) * ∑ m ∈ Finset.range d, ∑ a ∈ Finset.range p, ∑ b ∈ Finset.range q,
        f m a b = ∑ a ∈ Finset.range p, ∑ b ∈ Finset.range q, d * ∑ m ∈ Finset.range d, f m a b := by
      intro p q f
      rw [Finset.sum_comm, Finset.mul_sum]
      refine Finset.sum_congr rfl fun a _ => ?_
      rw [Finset.sum_comm, Finset.mul_sum]
    simp only [matDist]
    rw [comm]
    refine Finset.sum_le_sum fun a _ => Finset.sum_le_sum fun b _ => ?_
    exact cs fun m => ∑ r ∈ Finset.range R, ((g m).1.getD (ms.getD i 0) noArr).get [a, r] * ((g m).2.getD i noArr).get [b, r]

end CoupledSweep

/-! ## Limits of sweeps -/

section Limits

variable {X : NDArray ℝ} {Ys : List (NDArray ℝ)} {ms : List ℕ} {R : ℕ}

theorem colCounts_getD (Ys : List (NDArray ℝ)) (i : ℕ) : (colCounts Ys).getD i 0 = (Ys.getD i noArr).shape.getD 1 0 := by
  simp only [colCounts, List.getD, List.getElem?_map]
  cases Ys[i]? <;> rfl

theorem tendsto_matErr {l : Filter ℕ} {Y U V : NDArray ℝ} {Us Vs : ℕ → NDArray ℝ}
    (hU : ∀ i < Y.shape.getD 0 0, ∀ r < R, Tendsto (fun j => (Us j).get [i, r]) l (𝓝 (U.get [i, r])))
    (hV : ∀ i < Y.shape.getD 1 0, ∀ r < R, Tendsto (fun j => (Vs j).get [i, r]) l (𝓝 (V.get [i, r]))) :
    Tendsto (fun j => matErr Y (Us j) (Vs j) R) l (𝓝 (matErr Y U V R)) := by
  refine tendsto_finsetSum _ fun a ha => tendsto_finsetSum _ fun b hb => ?_
  refine Tendsto.pow (Tendsto.const_sub _ (tendsto_finsetSum _ fun r hr => ?_)) 2
  exact (hU a (Finset.mem_range.1 ha) r (Finset.mem_range.1 hr)).mul (hV b (Finset.mem_range.1 hb) r (Finset.mem_range.1 hr))

theorem FactorsTendTo.right {l : Filter ℕ} {Ws : ℕ → List (NDArray ℝ)} {Vs : List (NDArray ℝ)}
    (hV : FactorsTendTo l Ws Vs (colCounts Ys) R) {i : ℕ} (hi : i < Ys.length) :
    ∀ a < (Ys.getD i noArr).shape.getD 1 0, ∀ r < R, Tendsto (fun j => ((Ws j).getD i noArr).get [a, r]) l
      (𝓝 ((Vs.getD i noArr).get [a, r])) := by
  intro a ha r hr
  exact hV i (by simpa [colCounts] using hi) a (by rw [colCounts_getD]; exact ha) r hr

theorem FactorsTendTo.left {l : Filter ℕ} {gs : ℕ → List (NDArray ℝ)} {fs : List (NDArray ℝ)} (hp : RowsFit X Ys ms)
    (h : FactorsTendTo l gs fs X.shape R) {i : ℕ} (hi : i < ms.length) :
    ∀ a < (Ys.getD i noArr).shape.getD 0 0, ∀ r < R, Tendsto (fun j => ((gs j).getD (ms.getD i 0) noArr).get [a, r]) l
      (𝓝 ((fs.getD (ms.getD i 0) noArr).get [a, r])) := by
  intro a ha r hr
  obtain ⟨h1, h2⟩ := hp i hi
  exact h _ h1 a (by rw [← h2]; exact ha) r hr

theorem tendsto_coupledLoss {l : Filter ℕ} {gs Ws : ℕ → List (NDArray ℝ)} {fs Vs : List (NDArray ℝ)} (hp : RowsFit X Ys ms)
    (hY : Ys.length = ms.length) (h : FactorsTendTo l gs fs X.shape R) (hg : ∀ j, (gs j).length = X.shape.length)
    (hf : fs.length = X.shape.length) (hV : FactorsTendTo l Ws Vs (colCounts Ys) R) :
    Tendsto (fun j => coupledLoss X Ys ms R (gs j) (Ws j)) l (𝓝 (coupledLoss X Ys ms R fs Vs)) := by
  refine Tendsto.add (tendsto_sqErr h hg hf fun _ => 1) (tendsto_finsetSum _ fun i hi => ?_)
  have hi : i < ms.length := by simp at hi; exact hi.1
  exact tendsto_matErr (h.left hp hi) (hV.right (hY.symm ▸ hi))

namespace CoupledSweep

variable {g : ℕ → List (NDArray ℝ) × List (NDArray ℝ)}

theorem right (h : CoupledSweep X Ys ms R g) : ∀ {m : ℕ}, m ≤ X.shape.length → (g m).2 = (g 0).2
  | 0, _ => rfl
  | m + 1, hm => by
    obtain ⟨F, e, -⟩ := h.step m hm
    rw [e]
    exact h.right (by omega)

theorem before (h : CoupledSweep X Ys ms R g) {k : ℕ} : ∀ {m : ℕ}, m ≤ X.shape.length → m ≤ k →
    modeMat (g m).1 k = modeMat (g 0).1 k
  | 0, _, _ => rfl
  | m + 1, hm, hk => by
    obtain ⟨F, e, -⟩ := h.step m hm
    rw [e, modeMat_set_ne (by omega), h.before (by omega) (by omega)]

theorem after (h : CoupledSweep X Ys ms R g) {k : ℕ} : ∀ {n m : ℕ}, m + n = X.shape.length → k < m →
    modeMat (g m).1 k = modeMat (g X.shape.length).1 k
  | 0, m, hm, _ => by rw [← hm]; rfl
  | n + 1, m, hm, hk => by
    obtain ⟨F, e, -⟩ := h.step m (by omega)
    rw [← h.after (n := n) (m := m + 1) (by omega) (by omega), e, modeMat_set_ne (by omega)]

end CoupledSweep

theorem coupledLoss_nonneg (fs Vs : List (NDArray ℝ)) : 0 ≤ coupledLoss X Ys ms R fs Vs := by
  refine _root_.add_nonneg (sumIdx_nonneg fun _ _ => sq_nonneg _) (Finset.sum_nonneg fun _ _ => ?_)
  unfold coupledErrAt matErr
  exact Finset.sum_nonneg fun _ _ => Finset.sum_nonneg fun _ _ => sq_nonneg _

theorem coupledDist_nonneg (fs Vs gs Ws : List (NDArray ℝ)) : 0 ≤ coupledDist X Ys ms R fs Vs gs Ws := by
  refine _root_.add_nonneg (sumIdx_nonneg fun _ _ => sq_nonneg _) (Finset.sum_nonneg fun _ _ => ?_)
  unfold matDist
  exact Finset.sum_nonneg fun _ _ => Finset.sum_nonneg fun _ _ => sq_nonneg _

/-- Limits of consecutive sweeps are optimal for each mode and for each right factor. -/
theorem coupledOptimal_of_tendsto {G : ℕ → ℕ → List (NDArray ℝ) × List (NDArray ℝ)}
    (hS : ∀ j, CoupledSweep X Ys ms R (G j)) (hnext : ∀ j, G j (X.shape.length + 1) = G (j + 1) 0)
    (hY : Ys.length = ms.length) {fs Vs : List (NDArray ℝ)} (hf : fs.length = X.shape.length)
    (h : FactorsTendTo atTop (fun j => (G j 0).1) fs X.shape R)
    (hV : FactorsTendTo atTop (fun j => (G j 0).2) Vs (colCounts Ys) R) : CoupledOptimal X Ys ms R fs Vs := by
  have hp := (hS 0).rows
  have hall : ∀ m ≤ X.shape.length, FactorsTendTo atTop (fun j => (G j m).1) fs X.shape R := by
    intro m hm k hk i hi r hr
    by_cases hkm : k < m
    · have := (h k hk i hi r hr).comp (tendsto_add_atTop_nat 1)
      refine this.congr fun j => ?_
      show _ = (modeMat (G j m).1 k).get [i, r]
      rw [(hS j).after (n := X.shape.length - m) (by omega) hkm, ← (hS j).last, hnext j]
      rfl
    · refine (h k hk i hi r hr).congr fun j => ?_
      show _ = (modeMat (G j m).1 k).get [i, r]
      rw [(hS j).before hm (not_lt.1 hkm)]
  have hallV : ∀ m ≤ X.shape.length, FactorsTendTo atTop (fun j => (G j m).2) Vs (colCounts Ys) R := by
    intro m hm k hk i hi r hr
    refine (hV k hk i hi r hr).congr fun j => ?_
    show _ = (modeMat (G j m).2 k).get [i, r]
    rw [(hS j).right hm]
  refine ⟨fun m hm Z hZ => ?_, fun i hi W _ => ?_⟩
  · have h1 := tendsto_coupledLoss hp hY (hall (m + 1) hm) (fun j => (hS j).len _ hm) hf (hallV (m + 1) hm)
    have h2 := tendsto_coupledLoss hp hY ((hall m hm.le).set (fun j => (hS j).len _ hm.le) hf m Z)
      (fun j => by rw [List.length_set]; exact (hS j).len _ hm.le) (by rw [List.length_set]; exact hf) (hallV m hm.le)
    refine le_of_tendsto_of_tendsto' h1 h2 fun j => ?_
    obtain ⟨F, -, opt⟩ := (hS j).step m hm
    exact opt Z hZ
  · have hlast : FactorsTendTo atTop (fun j => (G j (X.shape.length + 1)).2) Vs (colCounts Ys) R := by
      intro k hk a ha r hr
      refine ((hV k hk a ha r hr).comp (tendsto_add_atTop_nat 1)).congr fun j => ?_
      show _ = (modeMat (G j (X.shape.length + 1)).2 k).get [a, r]
      rw [hnext j]; rfl
    rw [coupledLoss, coupledLoss, add_le_add_iff_left]
    refine Finset.sum_le_sum fun k hk => ?_
    simp only [Finset.mem_filter, Finset.mem_range] at hk
    rw [coupledErrAt, coupledErrAt, getD_set]
    split
    · rename_i hik
      have h1 := tendsto_matErr ((hall _ le_rfl).left hp hk.1) (hlast.right (hY.symm ▸ hk.1)) (Y := Ys.getD k noArr)
      have h2 := tendsto_matErr (V := W) (Vs := fun _ => W) ((hall _ le_rfl).left hp hk.1)
        (fun _ _ _ _ => tendsto_const_nhds) (Y := Ys.getD k noArr)
      exact le_of_tendsto_of_tendsto' h1 h2 fun j => (hS j).best k hk.1 hk.2 W
    · exact le_rfl

/-- The updates of consecutive sweeps move the model less and less. -/
theorem tendsto_update {G : ℕ → ℕ → List (NDArray ℝ) × List (NDArray ℝ)}
    (hS : ∀ j, CoupledSweep X Ys ms R (G j)) (hnext : ∀ j, G j (X.shape.length + 1) = G (j + 1) 0) {m : ℕ}
    (hm : m < X.shape.length + 1) :
    Tendsto (fun j => coupledDist X Ys ms R (G j m).1 (G j m).2 (G j (m + 1)).1 (G j (m + 1)).2) atTop (𝓝 0) := by
  set e : ℕ → ℝ := fun j => coupledLoss X Ys ms R (G j 0).1 (G j 0).2 with he
  have hle : ∀ j, coupledDist X Ys ms R (G j m).1 (G j m).2 (G j (m + 1)).1 (G j (m + 1)).2 ≤ e j - e (j + 1) := by
    intro j
    have h1 : e j - e (j + 1) = ∑ k ∈ Finset.range (X.shape.length + 1),
        coupledDist X Ys ms R (G j k).1 (G j k).2 (G j (k + 1)).1 (G j (k + 1)).2 := by
      rw [Finset.sum_congr rfl fun k hk => (hS j).dist (Finset.mem_range.1 hk),
        Finset.sum_range_sub' (fun k => coupledLoss X Ys ms R (G j k).1 (G j k).2), hnext j]
    rw [h1]
    exact Finset.single_le_sum (f := fun k => coupledDist X Ys ms R (G j k).1 (G j k).2 (G j (k + 1)).1 (G j (k + 1)).2)
      (fun k _ => coupledDist_nonneg _ _ _ _) (Finset.mem_range.2 hm)
  have hanti : Antitone e := antitone_nat_of_succ_le fun j => by
    linarith [hle j, coupledDist_nonneg (X := X) (Ys := Ys) (ms := ms) (R := R) (G j m).1 (G j m).2 (G j (m + 1)).1 (G j (m + 1)).2]
  have hbdd : BddBelow (Set.range e) := ⟨0, by rintro _ ⟨j, rfl⟩; exact coupledLoss_nonneg _ _⟩
  have hlim := tendsto_atTop_ciInf hanti hbdd
  have h2 := hlim.sub (hlim.comp (tendsto_add_atTop_nat 1))
  rw [sub_self] at h2
  exact squeeze_zero (fun j => coupledDist_nonneg _ _ _ _) hle h2

/-- Consecutive sweeps move the model less and less. -/
theorem tendsto_coupledDist {G : ℕ → ℕ → List (NDArray ℝ) × List (NDArray ℝ)}
    (hS : ∀ j, CoupledSweep X Ys ms R (G j)) (hnext : ∀ j, G j (X.shape.length + 1) = G (j + 1) 0) :
    Tendsto (fun j => coupledDist X Ys ms R (G j 0).1 (G j 0).2 (G (j + 1) 0).1 (G (j + 1) 0).2) atTop (𝓝 0) := by
  have h1 : Tendsto (fun j => ((X.shape.length + 1 : ℕ) : ℝ) * ∑ m ∈ Finset.range (X.shape.length + 1),
      coupledDist X Ys ms R (G j m).1 (G j m).2 (G j (m + 1)).1 (G j (m + 1)).2) atTop
      (𝓝 (((X.shape.length + 1 : ℕ) : ℝ) * ∑ m ∈ Finset.range (X.shape.length + 1), 0)) :=
    (tendsto_finsetSum _ fun m hm => tendsto_update hS hnext (Finset.mem_range.1 hm)).const_mul _
  rw [Finset.sum_const_zero, mul_zero] at h1
  refine squeeze_zero (fun j => coupledDist_nonneg _ _ _ _) (fun j => ?_) h1
  have h2 := (hS j).dist_le
  rw [hnext j] at h2
  refine h2.trans (le_of_eq ?_)
  rw [Finset.sum_congr rfl fun m hm => (hS j).dist (Finset.mem_range.1 hm),
    Finset.sum_range_sub' (fun k => coupledLoss X Ys ms R (G j k).1 (G j k).2), hnext j]

/-- Accumulation points of consecutive sweeps at which the rank-one terms of the tensor are independent are optimal for each mode
and for each right factor. -/
theorem coupledOptimal_of_cluster {G : ℕ → ℕ → List (NDArray ℝ) × List (NDArray ℝ)}
    (hS : ∀ j, CoupledSweep X Ys ms R (G j)) (hnext : ∀ j, G j (X.shape.length + 1) = G (j + 1) 0)
    (hY : Ys.length = ms.length) {fs Vs : List (NDArray ℝ)} (hf : fs.length = X.shape.length) {φ : ℕ → ℕ} (hφ : StrictMono φ)
    (h : FactorsTendTo atTop (fun j => (G (φ j) 0).1) fs X.shape R)
    (hV : FactorsTendTo atTop (fun j => (G (φ j) 0).2) Vs (colCounts Ys) R)
    (hI : Independent X.shape fs R) : CoupledOptimal X Ys ms R fs Vs := by
  have hp := (hS 0).rows
  have hdist : ∀ m < X.shape.length + 1, Tendsto (fun j => coupledDist X Ys ms R (G (φ j) m).1 (G (φ j) m).2
      (G (φ j) (m + 1)).1 (G (φ j) (m + 1)).2) atTop (𝓝 0) :=
    fun m hm => (tendsto_update hS hnext hm).comp hφ.tendsto_atTop
  have hall : ∀ m ≤ X.shape.length, FactorsTendTo atTop (fun j => (G (φ j) m).1) fs X.shape R := by
    intro m
    induction m with
    | zero => exact fun _ => h
    | succ m ih =>
      intro hm
      have hm' : m < X.shape.length := hm
      have h1 := ih hm'.le
      have hex : ∀ j, ∃ F, (G (φ j) (m + 1)).1 = (G (φ j) m).1.set m F := fun j => by
        obtain ⟨F, e, -⟩ := (hS (φ j)).step m hm'
        exact ⟨F, by rw [e]⟩
      choose F hF using hex
      have hd : Tendsto (fun j => modelDist X.shape (G (φ j) m).1 (G (φ j) (m + 1)).1 R) atTop (𝓝 0) := by
        refine squeeze_zero (fun j => sumIdx_nonneg fun _ _ => sq_nonneg _) (fun j => ?_) (hdist m (by omega))
        refine le_add_of_nonneg_right (Finset.sum_nonneg fun _ _ => ?_)
        unfold matDist
        exact Finset.sum_nonneg fun _ _ => Finset.sum_nonneg fun _ _ => sq_nonneg _
      have hfun : (fun j => (G (φ j) (m + 1)).1) = fun j => (G (φ j) m).1.set m (F j) := funext hF
      rw [hfun]
      refine factor_recovered h1 (fun j => (hS (φ j)).len _ hm'.le) hf hm' hI fun idx hidx => ?_
      have h2 := tendsto_of_sumIdx_sq hd idx hidx
      have h3 := tendsto_cpEntry h1 (fun j => (hS (φ j)).len _ hm'.le) hf (fun _ => 1) hidx
      have h4 := h3.sub h2
      rw [sub_zero] at h4
      refine h4.congr fun j => ?_
      rw [← hF j]; simp
  have hallV : ∀ m ≤ X.shape.length, FactorsTendTo atTop (fun j => (G (φ j) m).2) Vs (colCounts Ys) R := by
    intro m hm k hk i hi r hr
    refine (hV k hk i hi r hr).congr fun j => ?_
    show _ = (modeMat (G (φ j) m).2 k).get [i, r]
    rw [(hS (φ j)).right hm]
  refine ⟨fun m hm Z hZ => ?_, fun i hi W _ => ?_⟩
  · have h1 := tendsto_coupledLoss hp hY (hall (m + 1) hm) (fun j => (hS (φ j)).len _ hm) hf (hallV (m + 1) hm)
    have h2 := tendsto_coupledLoss hp hY ((hall m hm.le).set (fun j => (hS (φ j)).len _ hm.le) hf m Z)
      (fun j => by rw [List.length_set]; exact (hS (φ j)).len _ hm.le) (by rw [List.length_set]; exact hf) (hallV m hm.le)
    refine le_of_tendsto_of_tendsto' h1 h2 fun j => ?_
    obtain ⟨F, -, opt⟩ := (hS (φ j)).step m hm
    exact opt Z hZ
  · have h1 := tendsto_coupledLoss hp hY (hall _ le_rfl) (fun j => (hS (φ j)).len _ le_rfl) hf (hallV _ le_rfl)
    have h2 := h1.sub (hdist X.shape.length (by omega))
    rw [sub_zero] at h2
    have h3 := tendsto_coupledLoss hp hY (hall _ le_rfl) (fun j => (hS (φ j)).len _ le_rfl) hf
      (Ws := fun _ => Vs.set i W) (Vs := Vs.set i W) fun _ _ _ _ _ _ => tendsto_const_nhds
    refine le_of_tendsto_of_tendsto' h2 h3 fun j => ?_
    rw [(hS (φ j)).dist (by omega), sub_sub_cancel, (hS (φ j)).last, coupledLoss, coupledLoss, add_le_add_iff_left]
    refine Finset.sum_le_sum fun k hk => ?_
    simp only [Finset.mem_filter, Finset.mem_range] at hk
    exact (hS (φ j)).best k hk.1 hk.2 _

/-! ## Stationary points -/

theorem hasDerivAt_matErr {Y U V D D' : NDArray ℝ} :
    HasDerivAt (fun t => matErr Y (lineMat (Y.shape.getD 0 0) R U D t) (lineMat (Y.shape.getD 1 0) R V D' t) R)
      (matSlope Y U V D V R + matSlope Y U V U D' R) 0 := by
  have h1 : ∀ i < Y.shape.getD 0 0, ∀ j < Y.shape.getD 1 0, HasDerivAt
      (fun t => (Y.get [i, j] - ∑ r ∈ Finset.range R, (lineMat (Y.shape.getD 0 0) R U D t).get [i, r] *
        (lineMat (Y.shape.getD 1 0) R V D' t).get [j, r]) ^ 2)
      (-2 * ((Y.get [i, j] - ∑ r ∈ Finset.range R, U.get [i, r] * V.get [j, r]) *
        (∑ r ∈ Finset.range R, D.get [i, r] * V.get [j, r] + ∑ r ∈ Finset.range R, U.get [i, r] * D'.get [j, r]))) 0 := by
    intro i hi j hj
    have h2 : ∀ t : ℝ, ∑ r ∈ Finset.range R, (lineMat (Y.shape.getD 0 0) R U D t).get [i, r] *
        (lineMat (Y.shape.getD 1 0) R V D' t).get [j, r] = ∑ r ∈ Finset.range R, U.get [i, r] * V.get [j, r] +
          t * (∑ r ∈ Finset.range R, D.get [i, r] * V.get [j, r] + ∑ r ∈ Finset.range R, U.get [i, r] * D'.get [j, r]) +
          t ^ 2 * ∑ r ∈ Finset.range R, D.get [i, r] * D'.get [j, r] := by
      intro t
      rw [← Finset.sum_add_distrib, Finset.mul_sum, Finset.mul_sum, ← Finset.sum_add_distrib, ← Finset.sum_add_distrib]
      refine Finset.sum_congr rfl fun r hr => ?_
      rw [lineMat, lineMat, get_ofMat hi (Finset.mem_range.1 hr), get_ofMat hj (Finset.mem_range.1 hr)]
      ring
    simp only [h2]
    generalize ∑ r ∈ Finset.range R, U.get [i, r] * V.get [j, r] = a
    generalize (∑ r ∈ Finset.range R, D.get [i, r] * V.get [j, r] + ∑ r ∈ Finset.range R, U.get [i, r] * D'.get [j, r]) = b
    generalize ∑ r ∈ Finset.range R, D.get [i, r] * D'.get [j, r] = c
    have h3 : HasDerivAt (fun t : ℝ => a + t * b + t ^ 2 * c) b 0 := by
      have := (((hasDerivAt_id (0 : ℝ)).mul_const b).const_add a).add (((hasDerivAt_id (0 : ℝ)).pow 2).mul_const c)
      refine this.congr_deriv ?_
      simp
    refine ((h3.const_sub (Y.get [i, j])).pow 2).congr_deriv ?_
    push_cast
    ring
  refine (HasDerivAt.fun_sum fun i hi => HasDerivAt.fun_sum fun j hj =>
    h1 i (Finset.mem_range.1 hi) j (Finset.mem_range.1 hj)).congr_deriv ?_
  rw [matSlope, matSlope, ← mul_add, ← Finset.sum_add_distrib, Finset.mul_sum]
  refine Finset.sum_congr rfl fun i _ => ?_
  rw [← Finset.sum_add_distrib, Finset.mul_sum]
  exact Finset.sum_congr rfl fun j _ => by ring

/-- A coupled model that is optimal for each block is stationary for all blocks together. -/
theorem CoupledOptimal.stationary {fs Vs : List (NDArray ℝ)} (h : CoupledOptimal X Ys ms R fs Vs)
    (hf : fs.length = X.shape.length) (hp : RowsFit X Ys ms) (hY : Ys.length = ms.length) (hV : Vs.length = ms.length) :
    CoupledStationary X Ys ms R fs Vs := by
  intro D D'
  have h1 := hasDerivAt_sqErr (X := X) (R := R) hf D
  have h2 : HasDerivAt (fun t => firstErr (movedAlong X.shape R fs D t) Ys (movedAlong (colCounts Ys) R Vs D' t) ms R)
      (∑ i ∈ firstOnes ms, (matSlope (Ys.getD i noArr) (fs.getD (ms.getD i 0) noArr) (Vs.getD i noArr) (D (ms.getD i 0))
        (Vs.getD i noArr) R + matSlope (Ys.getD i noArr) (fs.getD (ms.getD i 0) noArr) (Vs.getD i noArr)
          (fs.getD (ms.getD i 0) noArr) (D' i) R)) 0 := by
    refine HasDerivAt.fun_sum fun i hi => ?_
    have hi : i < ms.length := by simp [firstOnes] at hi; exact hi.1
    obtain ⟨hm, hrows⟩ := hp i hi
    have e1 : ∀ t, (movedAlong X.shape R fs D t).getD (ms.getD i 0) noArr =
        lineMat ((Ys.getD i noArr).shape.getD 0 0) R (fs.getD (ms.getD i 0) noArr) (D (ms.getD i 0)) t := by
      intro t
      rw [hrows]
      exact modeMat_movedAlong hm fs D t
    have e2 : ∀ t, (movedAlong (colCounts Ys) R Vs D' t).getD i noArr =
        lineMat ((Ys.getD i noArr).shape.getD 1 0) R (Vs.getD i noArr) (D' i) t := by
      intro t
      rw [← colCounts_getD]
      exact modeMat_movedAlong (by simpa [colCounts, hY] using hi) Vs D' t
    simp only [coupledErrAt, e1, e2]
    exact hasDerivAt_matErr
  refine (h1.add h2).congr_deriv ?_
  have hmode : ∀ m < X.shape.length, tensorSlope X R fs (fs.set m (D m)) +
      ∑ i ∈ (firstOnes ms).filter (fun i => ms.getD i 0 = m),
        matSlope (Ys.getD i noArr) (fs.getD m noArr) (Vs.getD i noArr) (D m) (Vs.getD i noArr) R = 0 := by
    intro m hm
    have hm' : m < fs.length := hf.symm ▸ hm
    have hset : fs.set m fs[m] = fs := List.set_getElem_self _
    have := modeSlope_zero hf hm hp (Vs := Vs) (F := fs[m]) (fun Z hZ => by rw [hset]; exact h.1 m hm Z hZ) (D m)
    rwa [modeSlope, hset, ← getD_of_lt hm' noArr] at this
  have hright : ∀ i ∈ firstOnes ms, matSlope (Ys.getD i noArr) (fs.getD (ms.getD i 0) noArr) (Vs.getD i noArr)
      (fs.getD (ms.getD i 0) noArr) (D' i) R = 0 := by
    intro i hi
    have hi' : i ∈ (Finset.range ms.length).filter (IsFirst ms) := hi
    have hil : i < ms.length := by simp at hi'; exact hi'.1
    refine linear_zero (c := matSq (Ys.getD i noArr) (fs.getD (ms.getD i 0) noArr) (D' i) R) fun t => ?_
    have := h.2 i hil (lineMat ((Ys.getD i noArr).shape.getD 1 0) R (Vs.getD i noArr) (D' i) t) rfl
    rw [coupledLoss, coupledLoss, add_le_add_iff_left, firstErr, firstErr, ← Finset.add_sum_erase _ _ hi',
      ← Finset.add_sum_erase _ _ hi'] at this
    have hrest : ∑ k ∈ ((Finset.range ms.length).filter (IsFirst ms)).erase i, coupledErrAt fs Ys
        (Vs.set i (lineMat ((Ys.getD i noArr).shape.getD 1 0) R (Vs.getD i noArr) (D' i) t)) ms R k =
        ∑ k ∈ ((Finset.range ms.length).filter (IsFirst ms)).erase i, coupledErrAt fs Ys Vs ms R k := by
      refine Finset.sum_congr rfl fun k hk => ?_
      have : k ≠ i := Finset.ne_of_mem_erase hk
      rw [coupledErrAt, coupledErrAt, getD_set, if_neg (fun h => this h.1.symm)]
    rw [hrest, add_le_add_iff_right, coupledErrAt, coupledErrAt, getD_set, if_pos ⟨rfl, hV.symm ▸ hil⟩, matErr_lineV rfl] at this
    linarith
  rw [Finset.sum_add_distrib, Finset.sum_eq_zero hright, add_zero]
  have hpart : ∑ i ∈ firstOnes ms, matSlope (Ys.getD i noArr) (fs.getD (ms.getD i 0) noArr) (Vs.getD i noArr)
      (D (ms.getD i 0)) (Vs.getD i noArr) R = ∑ m ∈ Finset.range X.shape.length,
        ∑ i ∈ (firstOnes ms).filter (fun i => ms.getD i 0 = m),
          matSlope (Ys.getD i noArr) (fs.getD m noArr) (Vs.getD i noArr) (D m) (Vs.getD i noArr) R := by
    rw [← Finset.sum_fiberwise_of_maps_to (s := firstOnes ms) (t := Finset.range X.shape.length) (g := fun i => ms.getD i 0)
      (fun i hi => Finset.mem_range.2 (hp i (by simp [firstOnes] at hi; exact hi.1)).1)]
    refine Finset.sum_congr rfl fun m _ => Finset.sum_congr rfl fun i hi => ?_
    rw [(Finset.mem_filter.1 hi).2]
  rw [hpart, ← Finset.sum_add_distrib]
  exact Finset.sum_eq_zero fun m hm => hmode m (Finset.mem_range.1 hm)

end Limits

end
end TK
