import Verif.Model.RoundedKruskal
import Verif.Lemmas.RelRounding
import Verif.Props.RoundingFms
import Verif.Props.RoundingDouble
import Verif.Props.Kruskal

/-!
# C140: normalize_components in floating point
-/

namespace TK
open NDArray

section
variable {u v eps : ℝ} {rnd : ℝ → ℝ}

/-- One rounding, as a relative error in both directions. -/
theorem Rounds.near_abs (hr : Rounds rnd u) (hu : u ≤ 1 / 2) (x : ℝ) : Near (u / (1 - u)) 1 |x| |rnd x| := by
  have h0 := hr.nonneg
  have h1 : 0 < 1 - u := by linarith
  have h2 : u ≤ u / (1 - u) := by rw [le_div_iff₀ h1]; nlinarith
  have h3 := hr.err x
  have h4 := abs_sub_abs_le_abs_sub (rnd x) x
  have h5 := abs_sub_abs_le_abs_sub x (rnd x)
  rw [abs_sub_comm] at h5
  have h6 : u * |x| ≤ u / (1 - u) * |x| := mul_le_mul_of_nonneg_right h2 (abs_nonneg x)
  refine ⟨abs_nonneg _, abs_nonneg _, ?_, by rw [pow_one]; linarith⟩
  have e : 1 + u / (1 - u) = 1 / (1 - u) := by field_simp; ring
  rw [pow_one, e, div_mul_eq_mul_div, one_mul, le_div_iff₀ h1]
  linarith

/-- Lengths of vectors whose entries are close. -/
theorem near_length (hv : 0 ≤ v) {n m : ℕ} {f g : ℕ → ℝ} (h : ∀ i < m, Near v n |f i| |g i|) :
    Near v n (Real.sqrt (∑ i ∈ Finset.range m, f i ^ 2)) (Real.sqrt (∑ i ∈ Finset.range m, g i ^ 2)) := by
  have h0 : 0 ≤ (1 + v) ^ n := by linarith [one_le_pow_u hv n]
  have key : ∀ {f g : ℕ → ℝ}, (∀ i < m, |f i| ≤ (1 + v) ^ n * |g i|) →
      Real.sqrt (∑ i ∈ Finset.range m, f i ^ 2) ≤ (1 + v) ^ n * Real.sqrt (∑ i ∈ Finset.range m, g i ^ 2) := by
    intro f g hfg
    refine Real.sqrt_le_iff.2 ⟨mul_nonneg h0 (Real.sqrt_nonneg _), ?_⟩
    rw [mul_pow, Real.sq_sqrt (Finset.sum_nonneg fun i _ => sq_nonneg _), Finset.mul_sum]
    refine Finset.sum_le_sum fun i hi => ?_
    rw [← mul_pow]
    refine sq_le_sq.2 ?_
    rw [abs_mul, abs_of_nonneg h0]
    exact hfg i (Finset.mem_range.1 hi)
  exact ⟨Real.sqrt_nonneg _, Real.sqrt_nonneg _, key fun i hi => (h i hi).lower, key fun i hi => (h i hi).upper⟩

theorem FlNormalizeStep.factor {upd : Bool} {F w G w' : NDArray ℝ} (h : FlNormalizeStep rnd upd eps F w G w') :
    ∃ norms, FlNormalizeFactor rnd eps F G (newaxis0 norms) ∧ FlColNorms rnd F norms ∧
      (if upd then zipB (flMul rnd) w norms else .ok w) = .ok w' := by
  obtain ⟨k, h1, h2, h3⟩ := h
  exact ⟨k, ⟨k, h1, rfl, h2⟩, h1, h3⟩

/-- The entries of a normalised column, as relative errors. -/
theorem flNormalizeStep_near (hr : Rounds rnd u) (hu : u ≤ 1 / 2) (he : 0 < eps) {upd : Bool} {F w G w' : NDArray ℝ} {m R i r : ℕ}
    (h : FlNormalizeStep rnd upd eps F w G w') (hF : F.shape = [m, R]) (hi : i < m) (hr' : r < R) :
    Near (u / (1 - u)) (m + 3) |F.get [i, r] / (colLen F m r + eps)| |G.get [i, r]| := by
  obtain ⟨k, hk, e, -⟩ := h
  have hc := hr.covers hu
  have hv := hc.nonneg
  have hks : k.shape = [R] := by simpa [hF] using hk.1
  have hs : (newaxis0 k).shape = [1, R] := by rw [shape_newaxis0, hks]
  have hn : Near (u / (1 - u)) (m + 1) (colLen F m r) (k.get [r]) := flColNorms_near hc hk hF hr'
  rw [zipB_mat_row _ (by simpa using hs) hF] at e
  have e := Except.ok.inj e
  subst e
  rw [get_ofMat hi hr', get_map _ _ (by rw [hs]; simp [hr']), get_newaxis0]
  have h1 : Near (u / (1 - u)) (m + 2) (colLen F m r + eps) (rnd (k.get [r] + eps)) :=
    (hn.add (Near.refl hv _ he.le)).round hc
  have hp := add_pos_of_nonneg_of_pos (colLen_nonneg F m r) he
  have h2 := (Near.refl hv 0 (abs_nonneg (F.get [i, r]))).mul hv (h1.inv hv hp)
  have h3 : Near (u / (1 - u)) (m + 2) |F.get [i, r] / (colLen F m r + eps)| |F.get [i, r] / rnd (k.get [r] + eps)| := by
    rw [abs_div, abs_div, abs_of_pos hp, abs_of_nonneg h1.right, div_eq_mul_inv, div_eq_mul_inv]
    exact h2.mono hv (by omega)
  exact h3.trans hv (hr.near_abs hu _)

/-- The factor matrices have the shapes they had, the weights theirs. -/
theorem flNormalizeLoop_shapes (hc : Covers rnd v) (he : 0 < eps) {upd : Bool} {fs gs : List (NDArray ℝ)} {w w' : NDArray ℝ}
    {sizes : List ℕ} {R : ℕ} (h : FlNormalizeLoop rnd upd eps fs w gs w') (hf : Factors fs sizes R) (hw : w.shape = [R]) :
    Factors gs sizes R ∧ w'.shape = [R] := by
  induction hf generalizing gs w w' with
  | nil => cases h; exact ⟨.nil, hw⟩
  | cons h1 h2 ih =>
    cases h with
    | cons s1 s2 =>
      obtain ⟨k, k1, k2, k3⟩ := s1.factor
      have g1 := (flNormalizeFactor_spec hc he k1 h1).1
      have hks : k.shape = [_] := k2.1
      rw [h1] at hks
      have hw' : _ := k3
      have hs : ∀ {x : NDArray ℝ}, (if upd then zipB (flMul rnd) w k else .ok w) = .ok x → x.shape = [R] := by
        intro x hx
        cases upd with
        | false => rw [← Except.ok.inj hx]; exact hw
        | true =>
          rw [if_pos rfl, zipB_vec_vec _ hw hks] at hx
          rw [← Except.ok.inj hx]; rfl
      obtain ⟨i1, i2⟩ := ih s2 (hs k3)
      exact ⟨.cons g1 i1, i2⟩

/-- The weights after the loop. -/
theorem flNormalizeLoop_weights (hc : Covers rnd v) {fs gs : List (NDArray ℝ)} {w w' : NDArray ℝ}
    {sizes : List ℕ} {R r : ℕ} (h : FlNormalizeLoop rnd true eps fs w gs w') (hf : Factors fs sizes R) (hw : w.shape = [R])
    (hr : r < R) {k : ℕ} {x : ℝ} (hx : Approx v k x (w.get [r]) |x|) :
    Approx v (k + (sizes.sum + 2 * sizes.length)) (x * compSize fs sizes r) (w'.get [r]) |x * compSize fs sizes r| := by
  have hv := hc.nonneg
  induction hf generalizing gs w w' k x with
  | nil => cases h; simpa [compSize, modeProd] using hx
  | cons h1 h2 ih =>
    cases h with
    | cons s1 s2 =>
      rename_i F m fs ms G w₁ gs
      obtain ⟨n, k1, k2, k3⟩ := s1
      have hn : n.shape = [R] := by simpa [h1] using k1.1
      rw [if_pos rfl, zipB_vec_vec _ hw hn] at k3
      have k3 := Except.ok.inj k3
      subst k3
      have h3 := (hx.mul hv ((flColNorms_near hc k1 h1 hr).approx hv)).round hc.rounds
      have e1 : |x| * colLen F m r = |x * colLen F m r| := by rw [abs_mul, abs_of_nonneg (colLen_nonneg F m r)]
      rw [e1] at h3
      have h4 := ih s2 rfl (k := k + (m + 1) + 1) (x := x * colLen F m r) (by
        rw [get_ofFn (by simpa using hr)]; exact h3)
      rw [compSize, modeProd, ← mul_assoc]
      refine h4.mono hv ?_
      simp only [List.sum_cons, List.length_cons]; omega

/-- An entry of a normalised component. -/
theorem flNormalizeLoop_rankOne (hc : Covers rnd v) (he : 0 < eps) {upd : Bool} {fs gs : List (NDArray ℝ)} {w w' : NDArray ℝ}
    {sizes idx : List ℕ} {R r : ℕ} (h : FlNormalizeLoop rnd upd eps fs w gs w') (hf : Factors fs sizes R)
    (hidx : Valid sizes idx) (hr : r < R) :
    Approx v (sizes.sum + 3 * sizes.length) (rankOne fs idx r * modeProd (fun F m => 1 / (colLen F m r + eps)) fs sizes)
      (rankOne gs idx r) |rankOne fs idx r * modeProd (fun F m => 1 / (colLen F m r + eps)) fs sizes| := by
  have hv := hc.nonneg
  induction hf generalizing gs w w' idx with
  | nil =>
    cases h
    have := Approx.refl 0 hv (1 : ℝ)
    simpa [rankOne, modeProd] using this
  | cons h1 h2 ih =>
    cases h with
    | cons s1 s2 =>
      rename_i F m fs ms G w₁ gs
      cases idx with
      | nil => exact absurd hidx (by simp [Valid])
      | cons i is =>
        obtain ⟨hi, hidx⟩ := hidx
        obtain ⟨n, k1, -, -⟩ := s1.factor
        have h3 := ((flNormalizeFactor_spec hc he k1 h1).2.2.2 i hi r hr).mul hv (ih s2 hidx)
        rw [← abs_mul] at h3
        have e : rankOne (F :: fs) (i :: is) r * modeProd (fun F m => 1 / (colLen F m r + eps)) (F :: fs) (m :: ms)
            = F.get [i, r] / (colLen F m r + eps) * (rankOne fs is r * modeProd (fun F m => 1 / (colLen F m r + eps)) fs ms) := by
          rw [rankOne, modeProd]; ring
        rw [e, rankOne]
        refine h3.mono hv ?_
        simp only [List.sum_cons, List.length_cons]; omega

/-- **C140.** `normalize_components` in floating point: the lengths of the new columns are `n / (n + eps)`, with `n` the length
of the old column, up to as many roundings as the matrix has rows plus three. In particular a column of zeros stays one. -/
theorem C140_columns (hr : Rounds rnd u) (hu : u ≤ 1 / 2) (he : 0 < eps) {upd : Bool} {t t' : KruskalTensor} {sizes : List ℕ}
    {R : ℕ} (ht : t.WF sizes R) (h : FlNormalizeComponents rnd upd eps t t') :
    t'.WF sizes R ∧ ∀ k (hk : k < sizes.length), ∃ F F', t.factorMatrices[k]? = some F ∧ t'.factorMatrices[k]? = some F' ∧
      ∀ r < R, colLen F' sizes[k] r
          ≤ (1 + u / (1 - u)) ^ (sizes[k] + 3) * (colLen F sizes[k] r / (colLen F sizes[k] r + eps)) ∧
        colLen F sizes[k] r / (colLen F sizes[k] r + eps) ≤ (1 + u / (1 - u)) ^ (sizes[k] + 3) * colLen F' sizes[k] r := by
  have hc := hr.covers hu
  obtain ⟨h1, h2⟩ := h
  obtain ⟨g1, g2⟩ := flNormalizeLoop_shapes hc he h2 ht.factors ht.weights
  refine ⟨⟨by rw [h1, ht.rank], g1, g2⟩, ?_⟩
  have key : ∀ {fs gs : List (NDArray ℝ)} {w w' : NDArray ℝ} {sizes : List ℕ}, FlNormalizeLoop rnd upd eps fs w gs w' →
      Factors fs sizes R → ∀ k (hk : k < sizes.length), ∃ F F', fs[k]? = some F ∧ gs[k]? = some F' ∧
        ∀ r < R, Near (u / (1 - u)) (sizes[k] + 3) (colLen F sizes[k] r / (colLen F sizes[k] r + eps)) (colLen F' sizes[k] r) := by
    intro fs gs w w' sizes hl hf
    induction hf generalizing gs w w' with
    | nil => intro k hk; simp at hk
    | cons f1 f2 ih =>
      cases hl with
      | cons s1 s2 =>
        rename_i F m fs ms G w₁ gs
        rintro (_ | k) hk
        · refine ⟨F, G, rfl, rfl, fun r hr' => ?_⟩
          have h3 := near_length hc.nonneg fun i hi => flNormalizeStep_near hr hu he s1 f1 hi hr'
          have hp := add_pos_of_nonneg_of_pos (colLen_nonneg F m r) he
          have e : Real.sqrt (∑ i ∈ Finset.range m, (F.get [i, r] / (colLen F m r + eps)) ^ 2)
              = colLen F m r / (colLen F m r + eps) := by
            simp only [div_pow]
            rw [← Finset.sum_div, Real.sqrt_div' _ (sq_nonneg _), Real.sqrt_sq hp.le]; rfl
          rw [e] at h3
          exact h3
        · obtain ⟨A, B, a1, a2, a3⟩ := ih s2 k (by simpa using hk)
          exact ⟨A, B, by simpa using a1, by simpa using a2, by simpa using a3⟩
  intro k hk
  obtain ⟨F, F', a1, a2, a3⟩ := key h2 ht.factors k hk
  exact ⟨F, F', a1, a2, fun r hr' => ⟨(a3 r hr').upper, (a3 r hr').lower⟩⟩

/-- **C140.** The new weights are the old ones times the lengths of the columns, up to as many roundings as there are rows in
all factor matrices together plus two for every mode; with `update_weights=False` they are the old ones. -/
theorem C140_weights (hr : Rounds rnd u) (hu : u ≤ 1 / 2) {t t' : KruskalTensor} {sizes : List ℕ}
    {R : ℕ} (ht : t.WF sizes R) :
    (FlNormalizeComponents rnd true eps t t' → ∀ r < R, |t'.weights.get [r] - t.weights.get [r] * compSize t.factorMatrices sizes r|
      ≤ ((1 + u / (1 - u)) ^ (sizes.sum + 2 * sizes.length) - 1) * |t.weights.get [r] * compSize t.factorMatrices sizes r|) ∧
    (FlNormalizeComponents rnd false eps t t' → t'.weights = t.weights) := by
  have hc := hr.covers hu
  refine ⟨fun h r hr' => ?_, fun h => ?_⟩
  · have := (flNormalizeLoop_weights hc h.2 ht.factors ht.weights hr' (Approx.refl 0 hc.nonneg _)).err
    rwa [Nat.zero_add] at this
  · have key : ∀ {fs gs : List (NDArray ℝ)} {w w' : NDArray ℝ}, FlNormalizeLoop rnd false eps fs w gs w' → w' = w := by
      intro fs gs w w' hl
      induction hl with
      | nil w => rfl
      | cons s1 _ ih =>
        obtain ⟨n, -, -, e⟩ := s1
        rw [ih]; exact (Except.ok.inj e).symm
    exact key h.2

/-- **C140.** The tensor that is represented changes, component by component, by the factor `∏ n / (n + eps)` of exact arithmetic
(C16) up to rounding: two roundings for every row of a factor matrix and five for every mode. -/
theorem C140_tensor (hr : Rounds rnd u) (hu : u ≤ 1 / 2) (he : 0 < eps) {t t' : KruskalTensor} {sizes : List ℕ}
    {R : ℕ} (ht : t.WF sizes R) (h : FlNormalizeComponents rnd true eps t t') {idx : List ℕ} (hidx : Valid sizes idx) :
    |cpEntry (fun r => t'.weights.get [r]) t'.factorMatrices R idx - cpEntry (fun r => t.weights.get [r]) t.factorMatrices R idx|
      ≤ ∑ r ∈ Finset.range R, ((1 + u / (1 - u)) ^ (2 * sizes.sum + 5 * sizes.length) -
          modeProd (fun F m => colLen F m r / (colLen F m r + eps)) t.factorMatrices sizes) *
        |t.weights.get [r] * rankOne t.factorMatrices idx r| := by
  have hc := hr.covers hu
  have hv := hc.nonneg
  rw [cpEntry, cpEntry, ← Finset.sum_sub_distrib]
  refine (Finset.abs_sum_le_sum_abs _ _).trans (Finset.sum_le_sum fun r hr' => ?_)
  have hr' := Finset.mem_range.1 hr'
  have h1 := flNormalizeLoop_weights hc h.2 ht.factors ht.weights hr' (Approx.refl 0 hv _)
  have h2 := h1.mul hv (flNormalizeLoop_rankOne hc he h.2 ht.factors hidx hr')
  obtain ⟨c0, c1, -⟩ := C16_relative_change t.factorMatrices sizes r he
  set κ := modeProd (fun F m => colLen F m r / (colLen F m r + eps)) t.factorMatrices sizes with hκ
  set T := t.weights.get [r] * rankOne t.factorMatrices idx r with hT
  have e : t.weights.get [r] * compSize t.factorMatrices sizes r *
      (rankOne t.factorMatrices idx r * modeProd (fun F m => 1 / (colLen F m r + eps)) t.factorMatrices sizes) = κ * T := by
    have : κ = compSize t.factorMatrices sizes r *
          modeProd (fun F m => 1 / (colLen F m r + eps)) t.factorMatrices sizes := by
      rw [hκ, compSize, modeProd_mul]
      exact modeProd_congr (fun F m => by ring) _ _
    rw [this, hT]; ring
  rw [← abs_mul, e, abs_mul, abs_of_nonneg c0] at h2
  have h3 := (h2.mono hv (n := 2 * sizes.sum + 5 * sizes.length) (by omega)).err
  have p := one_le_pow_u hv (2 * sizes.sum + 5 * sizes.length)
  have hT0 := abs_nonneg T
  have h4 : |κ * T - T| = (1 - κ) * |T| := by
    rw [show κ * T - T = -((1 - κ) * T) by ring, abs_neg, abs_mul, abs_of_nonneg (by linarith)]
  have h5 := abs_sub_le (t'.weights.get [r] * rankOne t'.factorMatrices idx r) (κ * T) T
  have h6 : ((1 + u / (1 - u)) ^ (2 * sizes.sum + 5 * sizes.length) - 1) * (κ * |T|)
      ≤ ((1 + u / (1 - u)) ^ (2 * sizes.sum + 5 * sizes.length) - 1) * |T| :=
    mul_le_mul_of_nonneg_left (by nlinarith) (by linarith)
  rw [h4] at h5
  nlinarith

/-- **C140.** The computation returns, for every rounding and all factor matrices. -/
theorem C140_returns (rnd : ℝ → ℝ) (upd : Bool) (eps : ℝ) {t : KruskalTensor} {sizes : List ℕ} {R : ℕ} (ht : t.WF sizes R) :
    ∃ t', FlNormalizeComponents rnd upd eps t t' := by
  have key : ∀ {fs : List (NDArray ℝ)} {sizes : List ℕ} {w : NDArray ℝ}, Factors fs sizes R → w.shape = [R] →
      ∃ gs w', FlNormalizeLoop rnd upd eps fs w gs w' := by
    intro fs sizes w hf
    induction hf generalizing w with
    | nil => intro _; exact ⟨[], w, .nil w⟩
    | cons h1 h2 ih =>
      intro hw
      obtain ⟨G, n, ⟨k, k1, k2, k3⟩, -, -⟩ := flNormalizeFactor_exists rnd eps h1
      subst k2
      have hk : k.shape = [R] := by simpa [h1] using k1.1
      obtain ⟨w₁, e, s⟩ : ∃ w₁, (if upd then zipB (flMul rnd) w k else .ok w) = .ok w₁ ∧ w₁.shape = [R] := by
        cases upd with
        | false => exact ⟨w, rfl, hw⟩
        | true => exact ⟨_, zipB_vec_vec _ hw hk, rfl⟩
      obtain ⟨gs, w', hl⟩ := ih s
      exact ⟨G :: gs, w', .cons ⟨k, k1, k3, e⟩ hl⟩
  obtain ⟨gs, w', hl⟩ := key ht.factors ht.weights
  exact ⟨⟨t.rank, gs, w'⟩, rfl, hl⟩

/-! ### Double precision -/

theorem double_pow_le {n : ℕ} (hn : n ≤ 2 ^ 50) : (1 + (1 / 2 ^ 53 : ℝ) / (1 - 1 / 2 ^ 53)) ^ n - 1 ≤ n / 2 ^ 52 := by
  have e : (1 / 2 ^ 53 : ℝ) / (1 - 1 / 2 ^ 53) = 1 / (2 ^ 53 - 1) := by norm_num
  have hn2 : (n : ℝ) ≤ 2 ^ 50 := by exact_mod_cast hn
  have hn0 : (0 : ℝ) ≤ n := Nat.cast_nonneg n
  have hx : (n : ℝ) * (1 / (2 ^ 53 - 1)) ≤ 1 / 4 := by
    rw [mul_one_div, div_le_iff₀ (by norm_num)]
    linarith
  rw [e]
  refine (pow_sub_one_le (by norm_num) (by norm_num) (by linarith)).trans ?_
  rw [div_le_div_iff₀ (by linarith) (by norm_num)]
  have h3 : (n : ℝ) * (3 / 4) ≤ n * (1 - n * (1 / (2 ^ 53 - 1))) := mul_le_mul_of_nonneg_left (by linarith) hn0
  refine le_trans ?_ h3
  rw [mul_assoc]
  exact mul_le_mul_of_nonneg_left (by norm_num) hn0

/-- **C140.** In double precision: an entry of the tensor changes by at most `N / 2^52 + ∑ eps / (n + eps)` times the size of
the terms behind it, where `N` counts the roundings. -/
theorem C140_double (he : 0 < eps) {t t' : KruskalTensor} {sizes : List ℕ} {R : ℕ} (ht : t.WF sizes R)
    (h : FlNormalizeComponents (roundBits 53) true eps t t') {N : ℕ} (hN : N = 2 * sizes.sum + 5 * sizes.length)
    (hN1 : N ≤ 2 ^ 50) {idx : List ℕ} (hidx : Valid sizes idx) :
    |cpEntry (fun r => t'.weights.get [r]) t'.factorMatrices R idx - cpEntry (fun r => t.weights.get [r]) t.factorMatrices R idx|
      ≤ ∑ r ∈ Finset.range R, (N / 2 ^ 52 + modeSum (fun F m => eps / (colLen F m r + eps)) t.factorMatrices sizes) *
        |t.weights.get [r] * rankOne t.factorMatrices idx r| := by
  have hr := roundBits_rounds (p := 53) (by norm_num)
  refine (C140_tensor hr (by norm_num) he ht h hidx).trans (Finset.sum_le_sum fun r _ => ?_)
  refine mul_le_mul_of_nonneg_right ?_ (abs_nonneg _)
  have h1 := double_pow_le hN1
  rw [← hN]
  have h2 := (C16_relative_change t.factorMatrices sizes r he).2.2
  linarith

/-- **C140.** In double precision: the new columns have length one up to `(m + 3) / 2^52 + eps / (n + eps)`, with `m` the number
of rows and `n` the length of the old column. -/
theorem C140_unit_double (he : 0 < eps) {upd : Bool} {t t' : KruskalTensor} {sizes : List ℕ} {R : ℕ} (ht : t.WF sizes R)
    (h : FlNormalizeComponents (roundBits 53) upd eps t t') {k : ℕ} (hk : k < sizes.length) (hm : sizes[k] + 3 ≤ 2 ^ 50) :
    ∃ F F', t.factorMatrices[k]? = some F ∧ t'.factorMatrices[k]? = some F' ∧ ∀ r < R,
      |colLen F' sizes[k] r - 1| ≤ ((sizes[k] + 3 : ℕ) : ℝ) / 2 ^ 52 + eps / (colLen F sizes[k] r + eps) := by
  have hr := roundBits_rounds (p := 53) (by norm_num)
  obtain ⟨-, h1⟩ := C140_columns hr (by norm_num) he ht h
  obtain ⟨F, F', a1, a2, a3⟩ := h1 k hk
  refine ⟨F, F', a1, a2, fun r hr' => ?_⟩
  obtain ⟨b1, b2⟩ := a3 r hr'
  have hp := add_pos_of_nonneg_of_pos (colLen_nonneg F sizes[k] r) he
  have h2 := double_pow_le hm
  have c0 := colLen_nonneg F sizes[k] r
  have e : colLen F sizes[k] r / (colLen F sizes[k] r + eps) = 1 - eps / (colLen F sizes[k] r + eps) := by
    field_simp; ring
  have q0 : 0 ≤ eps / (colLen F sizes[k] r + eps) := by positivity
  have q1 : 0 ≤ colLen F sizes[k] r / (colLen F sizes[k] r + eps) := by positivity
  have hc := hr.covers (by norm_num)
  have h3 := (Near.approx hc.nonneg ⟨q1, colLen_nonneg _ _ _, b2, b1⟩).err
  have h4 : ((1 + (1 / 2 ^ 53 : ℝ) / (1 - 1 / 2 ^ 53)) ^ (sizes[k] + 3) - 1) * (colLen F sizes[k] r / (colLen F sizes[k] r + eps))
      ≤ (1 + (1 / 2 ^ 53 : ℝ) / (1 - 1 / 2 ^ 53)) ^ (sizes[k] + 3) - 1 :=
    mul_le_of_le_one_right (by linarith [one_le_pow_u hc.nonneg (sizes[k] + 3)]) (by linarith)
  rw [e] at h3 h4
  have h5 := abs_le.1 (h3.trans (h4.trans h2))
  exact abs_le.2 ⟨by linarith [h5.1], by linarith [h5.2]⟩

/-! ### An example

One component with the columns `(3, 4)` and `(2)` and the weight 1. -/

/-- The tensor of the example. -/
def normExample : KruskalTensor :=
  ⟨1, [ofMat 2 1 fun i _ => if i = 0 then 3 else 4, ofMat 1 1 fun _ _ => 2], full [1] 1⟩

theorem normExample_wf : normExample.WF [2, 1] 1 := ⟨rfl, .cons rfl (.cons rfl .nil), rfl⟩

example : ∃ t', FlNormalizeComponents (roundBits 53) true 1e-15 normExample t' ∧ t'.WF [2, 1] 1 ∧
    (∀ i < 2, |t'.weights.get [0] * (rankOne t'.factorMatrices [i, 0] 0) - (if i = 0 then 6 else 8)| ≤ 1 / 10 ^ 13) := by
  obtain ⟨t', h⟩ := C140_returns (roundBits 53) true 1e-15 normExample_wf
  refine ⟨t', h, (C140_columns (roundBits_rounds (p := 53) (by norm_num)) (by norm_num) (by norm_num) normExample_wf h).1,
    fun i hi => ?_⟩
  have hb := C140_double (by norm_num) normExample_wf h rfl (by norm_num) (idx := [i, 0]) ⟨hi, by norm_num, trivial⟩
  have l1 : colLen (ofMat 2 1 fun i _ => if i = 0 then (3 : ℝ) else 4) 2 0 = 5 := by
    rw [colLen, Finset.sum_range_succ, Finset.sum_range_one, get_ofMat (by norm_num) (by norm_num),
      get_ofMat (by norm_num) (by norm_num)]
    norm_num
    rw [show (25 : ℝ) = 5 ^ 2 by norm_num, Real.sqrt_sq (by norm_num)]
  have l2 : colLen (ofMat 1 1 fun _ _ => (2 : ℝ)) 1 0 = 2 := by
    rw [colLen, Finset.sum_range_one, get_ofMat (by norm_num) (by norm_num), Real.sqrt_sq (by norm_num)]
  have e : rankOne normExample.factorMatrices [i, 0] 0 = if i = 0 then 6 else 8 := by
    rw [normExample, rankOne, rankOne, rankOne, get_ofMat hi (by norm_num), get_ofMat (by norm_num) (by norm_num)]
    · split_ifs <;> norm_num
    · simp
  have w : normExample.weights.get [0] = 1 := by rw [normExample, get_full (by simp)]
  have hi2 : |(if i = 0 then (6 : ℝ) else 8)| ≤ 8 := by split_ifs <;> norm_num
  rw [cpEntry, cpEntry, Finset.sum_range_one, Finset.sum_range_one, Finset.sum_range_one, e, w, one_mul] at hb
  refine hb.trans ((mul_le_mul_of_nonneg_left hi2 ?_).trans ?_)
  · rw [normExample, modeSum, modeSum, modeSum, l1, l2]
    · norm_num
    · simp
  · rw [normExample, modeSum, modeSum, modeSum, l1, l2]
    · norm_num
    · simp

end
end TK
