import Verif.Lemmas.Rounding

/-!
# Rounding to a number of binary digits
-/

namespace TK

theorem nearestEven_err (x : ℝ) : |(nearestEven x : ℝ) - x| ≤ 1 / 2 := by
  have h1 := Int.floor_le x
  have h2 := Int.lt_floor_add_one x
  unfold nearestEven
  split
  · rw [abs_le]; constructor <;> linarith
  · split
    · push_cast; rw [abs_le]; constructor <;> linarith
    · split
      · rw [abs_le]; constructor <;> linarith
      · push_cast; rw [abs_le]; constructor <;> linarith

theorem nearestEven_eq {x : ℝ} {z : ℤ} (h : |x - z| < 1 / 2) : nearestEven x = z := by
  have h1 := nearestEven_err x
  have h2 : |((nearestEven x : ℤ) : ℝ) - z| < 1 := by
    calc |((nearestEven x : ℤ) : ℝ) - z| ≤ |((nearestEven x : ℤ) : ℝ) - x| + |x - z| := abs_sub_le _ _ _
      _ < 1 := by linarith
  have h3 : |nearestEven x - z| < 1 := by exact_mod_cast h2
  have := Int.abs_lt_one_iff.1 h3
  omega

theorem log_eq {x : ℝ} {k : ℤ} (h1 : (2 : ℝ) ^ k ≤ |x|) (h2 : |x| < (2 : ℝ) ^ (k + 1)) : Int.log 2 |x| = k := by
  have hx : 0 < |x| := lt_of_lt_of_le (by positivity) h1
  apply le_antisymm
  · have := (Int.lt_zpow_iff_log_lt (b := 2) (by norm_num) hx (x := k + 1)).1 (by simpa using h2)
    omega
  · exact (Int.zpow_le_iff_le_log (b := 2) (by norm_num) hx).1 (by simpa using h1)

/-- The value of the rounding, if the number is not half way between two candidates. -/
theorem roundBits_eq {p : ℕ} {x : ℝ} {k z : ℤ} (h1 : (2 : ℝ) ^ k ≤ |x|) (h2 : |x| < (2 : ℝ) ^ (k + 1))
    (hz : |x / (2 : ℝ) ^ (k - (p - 1 : ℤ)) - z| < 1 / 2) : roundBits p x = z * (2 : ℝ) ^ (k - (p - 1 : ℤ)) := by
  have hx : x ≠ 0 := by
    rintro rfl
    rw [abs_zero] at h1
    have : (0 : ℝ) < 2 ^ k := by positivity
    linarith
  rw [roundBits, if_neg hx, log_eq h1 h2, nearestEven_eq hz]

/-- Numbers with at most `p` digits are not changed. -/
theorem roundBits_exact {p : ℕ} {x : ℝ} {z e : ℤ} (hx : x = z * (2 : ℝ) ^ e) (hz : |z| < 2 ^ p) : roundBits p x = x := by
  rcases eq_or_ne x 0 with h0 | h0
  · rw [roundBits, if_pos h0, h0]
  · have hpos : 0 < |x| := abs_pos.2 h0
    have hzr : |(z : ℝ)| < 2 ^ p := by exact_mod_cast hz
    have hlt : |x| < (2 : ℝ) ^ (p + e : ℤ) := by
      rw [hx, abs_mul, abs_of_pos (a := (2 : ℝ) ^ e) (by positivity), zpow_add₀ (by norm_num), zpow_natCast]
      exact mul_lt_mul_of_pos_right hzr (by positivity)
    have hlog : Int.log 2 |x| < p + e := (Int.lt_zpow_iff_log_lt (b := 2) (by norm_num) hpos).1 (by simpa using hlt)
    rw [roundBits, if_neg h0]
    set k := Int.log 2 |x| - (p - 1 : ℤ) with hk
    obtain ⟨n, hn⟩ : ∃ n : ℕ, e = k + n := ⟨(e - k).toNat, by omega⟩
    have hd : x / (2 : ℝ) ^ k = ((z * 2 ^ n : ℤ) : ℝ) := by
      rw [hx, hn, zpow_add₀ (by norm_num), zpow_natCast]
      push_cast
      field_simp
    rw [hd, nearestEven_eq (z := z * 2 ^ n) (by simp), ← hd]
    field_simp

theorem roundBits_rounds {p : ℕ} (hp : 1 ≤ p) : Rounds (roundBits p) (1 / 2 ^ p) := by
  refine ⟨by positivity, ?_, fun x => ?_⟩
  · rw [div_le_one (by positivity)]; exact one_le_pow₀ (by norm_num)
  · rcases eq_or_ne x 0 with rfl | h0
    · simp [roundBits]
    · have hpos : 0 < |x| := abs_pos.2 h0
      rw [roundBits, if_neg h0]
      set k := Int.log 2 |x| - (p - 1 : ℤ) with hk
      have hl : (2 : ℝ) ^ Int.log 2 |x| ≤ |x| := by simpa using Int.zpow_log_le_self (b := 2) (by norm_num) hpos
      have h2 : (0 : ℝ) < 2 ^ k := by positivity
      have e : (nearestEven (x / 2 ^ k) : ℝ) * 2 ^ k - x = ((nearestEven (x / 2 ^ k) : ℝ) - x / 2 ^ k) * 2 ^ k := by
        field_simp
      rw [e, abs_mul, abs_of_pos h2]
      have hk2 : (2 : ℝ) ^ k = 2 ^ Int.log 2 |x| * (2 / 2 ^ p) := by
        rw [hk, zpow_sub₀ (by norm_num), zpow_sub₀ (by norm_num), zpow_natCast, zpow_one]
        field_simp
      calc |(nearestEven (x / 2 ^ k) : ℝ) - x / 2 ^ k| * 2 ^ k ≤ 1 / 2 * 2 ^ k :=
            mul_le_mul_of_nonneg_right (nearestEven_err _) h2.le
        _ = 1 / 2 ^ p * 2 ^ Int.log 2 |x| := by rw [hk2]; ring
        _ ≤ 1 / 2 ^ p * |x| := mul_le_mul_of_nonneg_left hl (by positivity)

theorem roundBits_le_one {p : ℕ} (hp : 1 ≤ p) {x : ℝ} (hx : x ≤ 1) : roundBits p x ≤ 1 := by
  have hr := roundBits_rounds hp
  rcases le_or_gt x 0 with h0 | h0
  · have h1 := (abs_le.1 (hr.err x)).2
    rw [abs_of_nonpos h0] at h1
    have h2 := mul_le_mul_of_nonneg_right hr.le_one (neg_nonneg.2 h0)
    linarith
  · rcases hx.eq_or_lt with rfl | hx
    · exact (roundBits_exact (p := p) (x := 1) (z := 1) (e := 0) (by simp) (by
        rw [abs_one]; exact one_lt_pow₀ (by norm_num) (by omega))).le
    · have hpos : 0 < |x| := abs_pos.2 h0.ne'
      rw [roundBits, if_neg h0.ne']
      have hlt : |x| < (2 : ℝ) ^ (Int.log 2 |x| + 1) := by
        simpa using Int.lt_zpow_succ_log_self (b := 2) (by norm_num) |x|
      have hk : Int.log 2 |x| < 0 := by
        have := (Int.lt_zpow_iff_log_lt (b := 2) (by norm_num) hpos (x := 0)).1 (by rw [abs_of_pos h0]; simpa using hx)
        exact this
      generalize Int.log 2 |x| = k at *
      have hc : (0 : ℝ) < 2 ^ (k - (p - 1 : ℤ)) := by positivity
      have hy : x / (2 : ℝ) ^ (k - (p - 1 : ℤ)) < 2 ^ p := by
        rw [div_lt_iff₀ hc, ← zpow_natCast, ← zpow_add₀ (by norm_num)]
        rw [abs_of_pos h0] at hlt
        rwa [show ((p : ℤ) + (k - (p - 1 : ℤ))) = k + 1 by ring]
      have hz : nearestEven (x / (2 : ℝ) ^ (k - (p - 1 : ℤ))) ≤ 2 ^ p := by
        have h1 := (abs_le.1 (nearestEven_err (x / (2 : ℝ) ^ (k - (p - 1 : ℤ))))).2
        have h2 : ((nearestEven (x / (2 : ℝ) ^ (k - (p - 1 : ℤ))) : ℤ) : ℝ) < ((2 ^ p + 1 : ℤ) : ℝ) := by
          push_cast; linarith
        have := Int.cast_lt.1 h2
        omega
      have hz' : ((nearestEven (x / (2 : ℝ) ^ (k - (p - 1 : ℤ))) : ℤ) : ℝ) ≤ 2 ^ p := by exact_mod_cast hz
      refine (mul_le_mul_of_nonneg_right hz' hc.le).trans ?_
      rw [← zpow_natCast, ← zpow_add₀ (by norm_num), show ((p : ℤ) + (k - (p - 1 : ℤ))) = k + 1 by ring]
      exact zpow_le_one_of_nonpos₀ (by norm_num) (by omega)

/-- Sums of integers are exact as long as the integers have at most `p` digits. -/
theorem FlDot.int {p : ℕ} {f g : ℕ → ℝ} {s : Finset ℕ} {v : ℝ} (h : FlDot (roundBits p) f g s v) (z : ℕ → ℤ)
    (hz : ∀ i ∈ s, f i * g i = z i) (hs : ∑ i ∈ s, |z i| < 2 ^ p) : v = ((∑ i ∈ s, z i : ℤ) : ℝ) := by
  have ex : ∀ y : ℤ, |y| < 2 ^ p → roundBits p (y : ℝ) = y := fun y hy => roundBits_exact (e := 0) (by simp) hy
  induction h with
  | empty => simp
  | single i =>
    rw [hz i (by simp), Finset.sum_singleton]
    exact ex _ (by simpa using hs)
  | @add s t a b _ _ hd _ _ ih1 ih2 =>
    rw [Finset.sum_union hd] at hs
    have p1 : 0 ≤ ∑ i ∈ s, |z i| := Finset.sum_nonneg fun _ _ => abs_nonneg _
    have p2 : 0 ≤ ∑ i ∈ t, |z i| := Finset.sum_nonneg fun _ _ => abs_nonneg _
    have e1 := ih1 (fun i hi => hz i (Finset.mem_union_left _ hi)) (by omega)
    have e2 := ih2 (fun i hi => hz i (Finset.mem_union_right _ hi)) (by omega)
    rw [e1, e2, Finset.sum_union hd, ← Int.cast_add]
    refine ex _ (lt_of_le_of_lt ((abs_add_le _ _).trans (add_le_add (Finset.abs_sum_le_sum_abs _ _)
      (Finset.abs_sum_le_sum_abs _ _))) hs)
  | @fma s i a _ hi _ ih =>
    rw [Finset.sum_insert hi] at hs
    have e1 := ih (fun j hj => hz j (Finset.mem_insert_of_mem hj)) (by have := abs_nonneg (z i); omega)
    rw [e1, hz i (Finset.mem_insert_self _ _), Finset.sum_insert hi, ← Int.cast_add, add_comm (z i)]
    refine ex _ (lt_of_le_of_lt ((abs_add_le _ _).trans (add_le_add (Finset.abs_sum_le_sum_abs _ _) le_rfl)) ?_)
    omega

theorem FlSum.int {p : ℕ} {f : ℕ → ℝ} {s : Finset ℕ} {v : ℝ} (h : FlSum (roundBits p) f s v) (z : ℕ → ℤ)
    (hz : ∀ i ∈ s, f i = z i) (hs : ∑ i ∈ s, |z i| < 2 ^ p) : v = ((∑ i ∈ s, z i : ℤ) : ℝ) := by
  have ex : ∀ y : ℤ, |y| < 2 ^ p → roundBits p (y : ℝ) = y := fun y hy => roundBits_exact (e := 0) (by simp) hy
  induction h with
  | empty => simp
  | single i => rw [hz i (by simp), Finset.sum_singleton]
  | @add s t a b _ _ hd _ _ ih1 ih2 =>
    rw [Finset.sum_union hd] at hs
    have p1 : 0 ≤ ∑ i ∈ s, |z i| := Finset.sum_nonneg fun _ _ => abs_nonneg _
    have p2 : 0 ≤ ∑ i ∈ t, |z i| := Finset.sum_nonneg fun _ _ => abs_nonneg _
    have e1 := ih1 (fun i hi => hz i (Finset.mem_union_left _ hi)) (by omega)
    have e2 := ih2 (fun i hi => hz i (Finset.mem_union_right _ hi)) (by omega)
    rw [e1, e2, Finset.sum_union hd, ← Int.cast_add]
    refine ex _ (lt_of_le_of_lt ((abs_add_le _ _).trans (add_le_add (Finset.abs_sum_le_sum_abs _ _)
      (Finset.abs_sum_le_sum_abs _ _))) hs)

end TK
