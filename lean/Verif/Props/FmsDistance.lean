import Verif.Props.Fms
import Mathlib.Algebra.Order.Chebyshev

/-!
# C105: what the factor match score says about the components

Source: metrics.py:8-9 and 17-78 (model: `Model/Metrics.lean`), decompositions.py `KruskalTensor.factor_match_score`.
-/

namespace TK
open NDArray

noncomputable section

/-- Spec: sum of the squared differences between component `r` of the factor matrices `a` and `e` times component `s` of `b`, over all
entries of the tensor. -/
def compDist (e : ℝ) (a b : List (NDArray ℝ)) (sizes : List ℕ) (r s : ℕ) : ℝ :=
  sumIdx sizes fun idx => (rankOne a idx r - e * rankOne b idx s) ^ 2

/-- Inner product of two components. -/
def compDot (a b : List (NDArray ℝ)) (sizes : List ℕ) (r s : ℕ) : ℝ :=
  sumIdx sizes fun idx => rankOne a idx r * rankOne b idx s

theorem compDot_cons (F G : NDArray ℝ) (a b : List (NDArray ℝ)) (m : ℕ) (ms : List ℕ) (r s : ℕ) :
    compDot (F :: a) (G :: b) (m :: ms) r s = colDot F G m r s * compDot a b ms r s := by
  rw [compDot, sumIdx_cons, colDot, Finset.sum_mul]
  refine Finset.sum_congr rfl fun i _ => ?_
  rw [compDot, mul_sumIdx]
  exact sumIdx_congr fun idx _ => by simp only [rankOne]; ring

theorem compSize_sq {R : ℕ} (r : ℕ) {fs : List (NDArray ℝ)} {sizes : List ℕ} (h : Factors fs sizes R) :
    compSize fs sizes r ^ 2 = sumIdx sizes fun idx => rankOne fs idx r ^ 2 := by
  induction h with
  | nil => simp [compSize, modeProd, rankOne]
  | @cons F m fs ms h1 h2 ih =>
    rw [sumIdx_cons]
    have : ∀ i ∈ Finset.range m, (sumIdx ms fun is => rankOne (F :: fs) (i :: is) r ^ 2) =
        F.get [i, r] ^ 2 * sumIdx ms fun is => rankOne fs is r ^ 2 := by
      intro i _
      rw [mul_sumIdx]
      exact sumIdx_congr fun idx _ => by simp only [rankOne]; ring
    rw [Finset.sum_congr rfl this, ← Finset.sum_mul, ← ih]
    simp only [compSize, modeProd]
    rw [mul_pow, colLen, Real.sq_sqrt (Finset.sum_nonneg fun _ _ => sq_nonneg _)]

/-- The congruences are at most the cosines. -/
theorem size_mul_congruence {eps : ℝ} (he : 0 < eps) (r s : ℕ) : ∀ {a b : List (NDArray ℝ)} {sizes : List ℕ} {R R' : ℕ},
    Factors a sizes R → Factors b sizes R' →
    compSize a sizes r * compSize b sizes s * congruenceProd eps r s a b sizes ≤ |compDot a b sizes r s| := by
  intro a b sizes R R' ha
  induction ha generalizing b with
  | nil => intro hb; cases hb; simp [compSize, modeProd, congruenceProd, compDot, rankOne]
  | @cons F m a ms h1 h2 ih =>
    intro hb
    cases hb with
    | @cons G _ b _ g1 g2 =>
    have ih := ih g2
    rw [compDot_cons, abs_mul]
    have hF : 0 ≤ colLen F m r := Real.sqrt_nonneg _
    have hG : 0 ≤ colLen G m s := Real.sqrt_nonneg _
    have hc : colLen F m r * colLen G m s * congruence eps F G m r s ≤ |colDot F G m r s| := by
      rw [congruence, ← mul_div_assoc, div_le_iff₀ (by positivity), mul_comm]
      exact mul_le_mul_of_nonneg_left (mul_le_mul (by linarith) (by linarith) hG (by positivity)) (abs_nonneg _)
    have h0 : 0 ≤ compSize a ms r * compSize b ms s * congruenceProd eps r s a b ms :=
      mul_nonneg (mul_nonneg (compSize_nonneg r a ms) (compSize_nonneg s b ms)) (congruenceProd_unit he r s a b ms).1
    have := mul_le_mul hc ih h0 (abs_nonneg _)
    refine le_of_eq_of_le ?_ this
    simp only [compSize, modeProd, congruenceProd]
    ring

/-- The match of two components bounds their inner product from below. -/
theorem max_sq_mul_compMatch {eps : ℝ} (he : 0 < eps) {a b : List (NDArray ℝ)} {sizes : List ℕ} {R R' : ℕ}
    (ha : Factors a sizes R) (hb : Factors b sizes R') (r s : ℕ) :
    max (compSize a sizes r) (compSize b sizes s) ^ 2 * compMatch true eps a b sizes r s ≤ |compDot a b sizes r s| := by
  have h := size_mul_congruence he r s ha hb
  set w := compSize a sizes r with hw
  set v := compSize b sizes s with hv
  have hw0 : 0 ≤ w := compSize_nonneg r a sizes
  have hv0 : 0 ≤ v := compSize_nonneg s b sizes
  have hm : max w v ^ 2 * sizeMatch w v = w * v := by
    rw [sizeMatch]
    rcases eq_or_lt_of_le (le_max_of_le_left hw0 : 0 ≤ max w v) with h0 | h0
    · have h1 := le_max_left w v
      have h2 := le_max_right w v
      have e1 : w = 0 := by linarith
      have e2 : v = 0 := by linarith
      rw [← h0, e1, e2]; simp
    · have : max w v ^ 2 * (1 - |w - v| / max w v) = max w v * (max w v - |w - v|) := by
        field_simp
      rw [this]
      rcases le_total w v with h1 | h1
      · rw [max_eq_right h1, abs_of_nonpos (by linarith)]; ring
      · rw [max_eq_left h1, abs_of_nonneg (by linarith)]; ring
  rw [compMatch, if_pos rfl, ← mul_assoc, hm]
  exact h

theorem compDist_eq (e : ℝ) {a b : List (NDArray ℝ)} {sizes : List ℕ} {R R' : ℕ} (ha : Factors a sizes R)
    (hb : Factors b sizes R') (r s : ℕ) :
    compDist e a b sizes r s = compSize a sizes r ^ 2 - 2 * e * compDot a b sizes r s + e ^ 2 * compSize b sizes s ^ 2 := by
  rw [compSize_sq r ha, compSize_sq s hb, compDot, compDist, mul_sumIdx, mul_sumIdx, ← sumIdx_sub, ← sumIdx_add]
  exact sumIdx_congr fun idx _ => by ring

/-- The sign that makes two components most similar. -/
theorem exists_sign (x : ℝ) : ∃ e : ℝ, (e = 1 ∨ e = -1) ∧ e * x = |x| := by
  rcases le_total 0 x with h | h
  · exact ⟨1, Or.inl rfl, by rw [one_mul, abs_of_nonneg h]⟩
  · exact ⟨-1, Or.inr rfl, by rw [neg_one_mul, abs_of_nonpos h]⟩

theorem compDist_le {eps : ℝ} (he : 0 < eps) {a b : List (NDArray ℝ)} {sizes : List ℕ} {R R' : ℕ} (ha : Factors a sizes R)
    (hb : Factors b sizes R') (r s : ℕ) : ∃ e : ℝ, (e = 1 ∨ e = -1) ∧
    compDist e a b sizes r s ≤ 2 * max (compSize a sizes r) (compSize b sizes s) ^ 2 * (1 - compMatch true eps a b sizes r s) := by
  obtain ⟨e, h1, h2⟩ := exists_sign (compDot a b sizes r s)
  refine ⟨e, h1, ?_⟩
  have he2 : e ^ 2 = 1 := by rcases h1 with rfl | rfl <;> norm_num
  have h3 := max_sq_mul_compMatch he ha hb r s
  have h4 : compSize a sizes r ^ 2 ≤ max (compSize a sizes r) (compSize b sizes s) ^ 2 :=
    pow_le_pow_left₀ (compSize_nonneg r a sizes) (le_max_left _ _) 2
  have h5 : compSize b sizes s ^ 2 ≤ max (compSize a sizes r) (compSize b sizes s) ^ 2 :=
    pow_le_pow_left₀ (compSize_nonneg s b sizes) (le_max_right _ _) 2
  rw [compDist_eq e ha hb, he2, mul_assoc 2 e, h2]
  nlinarith

/-- No component scores lower than the minimum, and none is further below 1 than the mean times the number of components. -/
theorem score_le_match {useMin penalty : Bool} {eps : ℝ} (he : 0 < eps) {a b : List (NDArray ℝ)} {sizes : List ℕ} {R : ℕ}
    (hR : 0 < R) {π : List ℕ} {r : ℕ} (hr : r < R) :
    1 - compMatch penalty eps a b sizes r (π.getD r 0) ≤
      (if useMin then 1 else (R : ℝ)) * (1 - assignScore useMin penalty eps a b sizes R π) := by
  have hunit : ∀ r s, compMatch penalty eps a b sizes r s ≤ 1 := fun r s => (compMatch_unit he penalty a b sizes r s).2
  cases useMin with
  | true =>
    simp only [if_true, one_mul, assignScore, reduceMin]
    have : (⨅ r : Fin R, compMatch penalty eps a b sizes r (π.getD r 0)) ≤ compMatch penalty eps a b sizes r (π.getD r 0) :=
      ciInf_le (f := fun r : Fin R => compMatch penalty eps a b sizes r (π.getD r 0)) (Set.finite_range _).bddBelow ⟨r, hr⟩
    linarith
  | false =>
    simp only [Bool.false_eq_true, if_false, assignScore, reduceMean]
    have hRp : (0 : ℝ) < R := by exact_mod_cast hR
    have e : (R : ℝ) * (1 - (∑ r ∈ Finset.range R, compMatch penalty eps a b sizes r (π.getD r 0)) / R) =
        ∑ r ∈ Finset.range R, (1 - compMatch penalty eps a b sizes r (π.getD r 0)) := by
      rw [Finset.sum_sub_distrib, mul_sub, mul_div_cancel₀ _ hRp.ne']
      simp
    rw [e]
    exact Finset.single_le_sum (f := fun r => 1 - compMatch penalty eps a b sizes r (π.getD r 0))
      (fun i _ => by have := hunit i (π.getD i 0); linarith) (Finset.mem_range.2 hr)

/-- **C105.** If `factor_match_score` with the weight penalty returns the score `v` and the permutation `π`, then up to its sign every
component differs from its match by at most `2 (1 - v)` times the square of the larger one of the two sizes (`R` times that if the
score is the mean). In particular a score close to 1 means that the components are close to each other. -/
theorem C105_components {eps : ℝ} (he : 0 < eps) {a b : List (NDArray ℝ)} {sizes : List ℕ} {R R' : ℕ} (hR : 0 < R) (hRR : R ≤ R')
    (ha : Factors a sizes R) (hb : Factors b sizes R') (hne : sizes ≠ []) (useMin : Bool) (hc : Comparable true a b sizes R R')
    {v : ℝ} {π : List ℕ} (hv : factorMatchScore a b true (redName useMin) eps = .ok (v, some π)) {r : ℕ} (hr : r < R) :
    ∃ e : ℝ, (e = 1 ∨ e = -1) ∧ compDist e a b sizes r (π.getD r 0) ≤
      2 * max (compSize a sizes r) (compSize b sizes (π.getD r 0)) ^ 2 * ((if useMin then 1 else (R : ℝ)) * (1 - v)) := by
  obtain ⟨v', π', e1, -, -, hB⟩ := C26_factor_match_score he hR hRR ha hb hne useMin true hc
  rw [hv] at e1
  obtain ⟨rfl, rfl⟩ : v = v' ∧ π = π' := by
    have := Except.ok.inj e1
    exact ⟨congrArg Prod.fst this, Option.some.inj (congrArg Prod.snd this)⟩
  obtain ⟨e, h1, h2⟩ := compDist_le he ha hb r (π.getD r 0)
  refine ⟨e, h1, h2.trans (mul_le_mul_of_nonneg_left ?_ (by positivity))⟩
  rw [hB.attained]
  exact score_le_match he hR hr

/-- **C105** for the tensors: with the signs chosen for each component, the tensors themselves are close. -/
theorem C105_tensors {eps : ℝ} (he : 0 < eps) {a b : List (NDArray ℝ)} {sizes : List ℕ} {R R' : ℕ} (hR : 0 < R) (hRR : R ≤ R')
    (ha : Factors a sizes R) (hb : Factors b sizes R') (hne : sizes ≠ []) (useMin : Bool) (hc : Comparable true a b sizes R R')
    {v : ℝ} {π : List ℕ} (hv : factorMatchScore a b true (redName useMin) eps = .ok (v, some π)) :
    ∃ e : ℕ → ℝ, (∀ r, e r = 1 ∨ e r = -1) ∧
      (sumIdx sizes fun idx => (cpEntry (fun _ => 1) a R idx - ∑ r ∈ Finset.range R, e r * rankOne b idx (π.getD r 0)) ^ 2) ≤
        R * ∑ r ∈ Finset.range R, 2 * max (compSize a sizes r) (compSize b sizes (π.getD r 0)) ^ 2 *
          ((if useMin then 1 else (R : ℝ)) * (1 - v)) := by
  have h := fun r => C105_components he hR hRR ha hb hne useMin hc hv (r := r)
  have h' : ∀ r, ∃ e : ℝ, (e = 1 ∨ e = -1) ∧ (r < R → compDist e a b sizes r (π.getD r 0) ≤
      2 * max (compSize a sizes r) (compSize b sizes (π.getD r 0)) ^ 2 * ((if useMin then 1 else (R : ℝ)) * (1 - v))) := by
    intro r
    by_cases hr : r < R
    · obtain ⟨e, h1, h2⟩ := h r hr
      exact ⟨e, h1, fun _ => h2⟩
    · exact ⟨1, Or.inl rfl, fun h => absurd h hr⟩
  choose e h1 h2 using h'
  refine ⟨e, h1, ?_⟩
  have hle : (sumIdx sizes fun idx => (cpEntry (fun _ => 1) a R idx -
      ∑ r ∈ Finset.range R, e r * rankOne b idx (π.getD r 0)) ^ 2) ≤
      sumIdx sizes fun idx => R * ∑ r ∈ Finset.range R, (rankOne a idx r - e r * rankOne b idx (π.getD r 0)) ^ 2 := by
    rw [← sub_nonneg, ← sumIdx_sub]
    refine sumIdx_nonneg fun idx _ => ?_
    rw [cpEntry, ← Finset.sum_sub_distrib, sub_nonneg]
    have := sq_sum_le_card_mul_sum_sq (s := Finset.range R)
      (f := fun r => 1 * rankOne a idx r - e r * rankOne b idx (π.getD r 0))
    simpa using this
  refine hle.trans ?_
  rw [← mul_sumIdx, sumIdx_sum]
  exact mul_le_mul_of_nonneg_left (Finset.sum_le_sum fun r hr => h2 r (Finset.mem_range.1 hr)) (Nat.cast_nonneg _)

/-- **C105** for `KruskalTensor.factor_match_score`, which compares the factor matrices: for tensors of weight one this bounds the
distance of the tensors (other weights are ignored, C76). -/
theorem C105_kruskal {eps : ℝ} (he : 0 < eps) {t d : KruskalTensor} {sizes : List ℕ} {R : ℕ} (hR : 0 < R)
    (ht : t.WF sizes R) (hd : d.WF sizes R) (hne : sizes ≠ []) (useMin : Bool)
    (hc : Comparable true t.factorMatrices d.factorMatrices sizes R R) {v : ℝ} {π : List ℕ}
    (hv : t.factorMatchScore d true (redName useMin) eps = .ok (v, some π)) {r : ℕ} (hr : r < R) :
    ∃ e : ℝ, (e = 1 ∨ e = -1) ∧ compDist e t.factorMatrices d.factorMatrices sizes r (π.getD r 0) ≤
      2 * max (compSize t.factorMatrices sizes r) (compSize d.factorMatrices sizes (π.getD r 0)) ^ 2 *
        ((if useMin then 1 else (R : ℝ)) * (1 - v)) := by
  rw [KruskalTensor.factorMatchScore, if_neg (by rw [ht.rank, hd.rank]; simp)] at hv
  exact C105_components he hR le_rfl ht.factors hd.factors hne useMin hc hv hr

/-- **C105** without the weight penalty: the same for the components scaled to unit size. -/
theorem C105_directions {eps : ℝ} (he : 0 < eps) {a b : List (NDArray ℝ)} {sizes : List ℕ} {R R' : ℕ} (hR : 0 < R) (hRR : R ≤ R')
    (ha : Factors a sizes R) (hb : Factors b sizes R') (hne : sizes ≠ []) (useMin : Bool)
    {v : ℝ} {π : List ℕ} (hv : factorMatchScore a b false (redName useMin) eps = .ok (v, some π)) {r : ℕ} (hr : r < R)
    (hwa : compSize a sizes r ≠ 0) (hwb : compSize b sizes (π.getD r 0) ≠ 0) :
    ∃ e : ℝ, (e = 1 ∨ e = -1) ∧ (sumIdx sizes fun idx => (rankOne a idx r / compSize a sizes r -
        e * (rankOne b idx (π.getD r 0) / compSize b sizes (π.getD r 0))) ^ 2) ≤
      2 * ((if useMin then 1 else (R : ℝ)) * (1 - v)) := by
  obtain ⟨v', π', e1, -, -, hB⟩ := C26_factor_match_score he hR hRR ha hb hne useMin false (by intro h; cases h)
  rw [hv] at e1
  obtain ⟨rfl, rfl⟩ : v = v' ∧ π = π' := by
    have := Except.ok.inj e1
    exact ⟨congrArg Prod.fst this, Option.some.inj (congrArg Prod.snd this)⟩
  have h2 := score_le_match (useMin := useMin) (penalty := false) (a := a) (b := b) (sizes := sizes) (π := π) he hR hr
  rw [← hB.attained] at h2
  set s := π.getD r 0 with hs
  obtain ⟨e, h3, h4⟩ := exists_sign (compDot a b sizes r s)
  refine ⟨e, h3, le_trans ?_ (mul_le_mul_of_nonneg_left h2 (by norm_num : (0 : ℝ) ≤ 2))⟩
  have he2 : e ^ 2 = 1 := by rcases h3 with rfl | rfl <;> norm_num
  have h5 := size_mul_congruence he r s ha hb
  have hw : 0 < compSize a sizes r := lt_of_le_of_ne (compSize_nonneg r a sizes) (Ne.symm hwa)
  have hw' : 0 < compSize b sizes s := lt_of_le_of_ne (compSize_nonneg s b sizes) (Ne.symm hwb)
  have h6 : (sumIdx sizes fun idx => (rankOne a idx r / compSize a sizes r -
      e * (rankOne b idx s / compSize b sizes s)) ^ 2) =
      2 - 2 * (|compDot a b sizes r s| / (compSize a sizes r * compSize b sizes s)) := by
    have e1 := compSize_sq r ha
    have e2 := compSize_sq s hb
    have : (sumIdx sizes fun idx => (rankOne a idx r / compSize a sizes r - e * (rankOne b idx s / compSize b sizes s)) ^ 2) =
        1 / compSize a sizes r ^ 2 * (sumIdx sizes fun idx => rankOne a idx r ^ 2) -
          2 * e / (compSize a sizes r * compSize b sizes s) * compDot a b sizes r s +
          e ^ 2 / compSize b sizes s ^ 2 * sumIdx sizes fun idx => rankOne b idx s ^ 2 := by
      rw [compDot, mul_sumIdx, mul_sumIdx, mul_sumIdx, ← sumIdx_sub, ← sumIdx_add]
      refine sumIdx_congr fun idx _ => ?_
      field_simp
      ring
    rw [this, ← e1, ← e2, he2, ← h4]
    field_simp
    ring
  rw [h6, compMatch]
  simp only [Bool.false_eq_true, if_false, one_mul]
  have h7 : congruenceProd eps r s a b sizes ≤ |compDot a b sizes r s| / (compSize a sizes r * compSize b sizes s) := by
    rw [le_div_iff₀ (by positivity), mul_comm]; exact h5
  linarith

/-- The sign cannot be recovered: a tensor and its negative have the score of the tensor with itself. -/
theorem C105_sign_needed : ∃ t d : KruskalTensor, t.WF [1, 1] 1 ∧ d.WF [1, 1] 1 ∧
    t.factorMatchScore d = t.factorMatchScore t ∧ rankOne t.factorMatrices [0, 0] 0 = - rankOne d.factorMatrices [0, 0] 0 ∧
    rankOne t.factorMatrices [0, 0] 0 ≠ 0 := by
  refine ⟨tiny 1 1, tiny (-1) 1, tiny_wf _ _, tiny_wf _ _, ?_, ?_, ?_⟩
  · rw [KruskalTensor.factorMatchScore, if_neg (by simp [tiny]), KruskalTensor.factorMatchScore, if_neg (by simp)]
    refine C27_signs (eps := 1e-15) (by norm_num) one_pos (tiny_wf 1 1).factors (tiny_wf 1 1).factors (by simp) true true
      (.cons ⟨rfl, fun s hs => ⟨-1, Or.inr rfl, fun i hi => ?_⟩⟩ (.cons ⟨rfl, fun s hs => ⟨1, Or.inl rfl, fun i hi => ?_⟩⟩ .nil))
    · have hi : i < 1 := hi
      rw [get_ofMat hi hs, get_ofMat hi hs]; norm_num
    · rw [one_mul]
  · simp only [tiny, rankOne, get_ofMat one_pos one_pos]; norm_num
  · simp only [tiny, rankOne, get_ofMat one_pos one_pos]; norm_num

/-- A concrete case: the score of the rank one tensors 2 and 1 is at most one half, and the bound `2 * 2^2 * (1 - v) ≥ 4` is met by
their squared distance 1. -/
example : ∃ v π, (tiny 2 1).factorMatchScore (tiny 1 1) true (redName true) 1e-15 = .ok (v, some π) ∧
    Comparable true (tiny 2 1).factorMatrices (tiny 1 1).factorMatrices [1, 1] 1 1 ∧
    compDist 1 (tiny 2 1).factorMatrices (tiny 1 1).factorMatrices [1, 1] 0 0 = 1 :=
  ⟨_, _, tiny_score (by norm_num) (by norm_num) _ _,
    comparable_of_nonzero fun r hr => by
      obtain rfl : r = 0 := by omega
      rw [tiny_size (by norm_num)]; norm_num, by
    simp only [compDist, sumIdx_cons, sumIdx_nil, Finset.sum_range_one, tiny, rankOne, get_ofMat one_pos one_pos]; norm_num⟩

end
end TK
