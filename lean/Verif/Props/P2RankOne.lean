import Verif.Props.P2Bound
import Verif.Props.RankOne

/-!
# PARAFAC2 data with one component (C147)

If every slice is an outer product with the same first vector, `X_k = a x_kᵀ`, one iteration of `Parafac2_ALS` with rank one
reproduces the data, from almost any start.
-/

namespace TK
open NDArray Matrix

noncomputable section

variable {s : P2State} {I : ℕ} {Js : List ℕ}

/-- A unit vector whose inner product with `x` is the length of `x` in absolute value is `x` up to a factor. -/
theorem unit_parallel {J : ℕ} {x p : ℕ → ℝ} (hp : ∑ j ∈ Finset.range J, p j * p j = 1)
    (h : (∑ j ∈ Finset.range J, x j * p j) ^ 2 = ∑ j ∈ Finset.range J, x j * x j) {j : ℕ} (hj : j < J) :
    x j = (∑ j ∈ Finset.range J, x j * p j) * p j := by
  set g := ∑ j ∈ Finset.range J, x j * p j with hg
  have e : ∑ j ∈ Finset.range J, (x j - g * p j) ^ 2 = 0 := by
    have : ∀ γ : ℝ, ∑ j ∈ Finset.range J, (x j - γ * p j) ^ 2 = (∑ j ∈ Finset.range J, x j * x j)
        - 2 * γ * (∑ j ∈ Finset.range J, x j * p j) + γ ^ 2 * ∑ j ∈ Finset.range J, p j * p j := by
      intro γ
      rw [Finset.mul_sum, Finset.mul_sum, ← Finset.sum_sub_distrib, ← Finset.sum_add_distrib]
      exact Finset.sum_congr rfl fun j _ => by ring
    rw [this g, hp, ← h, ← hg]; ring
  have := (Finset.sum_eq_zero_iff_of_nonneg fun j _ => sq_nonneg _).1 e j (Finset.mem_range.2 hj)
  have := pow_eq_zero_iff two_ne_zero |>.1 this
  linarith

/-- The error of a slice of a rank-one model with a unit projection vector. -/
theorem rank_one_slice_err (n J : ℕ) (a A x p : ℕ → ℝ) (t : ℝ) (hp : ∑ j ∈ Finset.range J, p j * p j = 1) :
    ∑ i ∈ Finset.range n, ∑ j ∈ Finset.range J, (a i * x j - A i * t * p j) ^ 2 =
      (∑ i ∈ Finset.range n, a i * a i) * (∑ j ∈ Finset.range J, x j * x j)
        + t ^ 2 * (∑ i ∈ Finset.range n, A i * A i)
        - 2 * (t * (∑ i ∈ Finset.range n, a i * A i) * ∑ j ∈ Finset.range J, x j * p j) := by
  have e : ∀ i, ∑ j ∈ Finset.range J, (a i * x j - A i * t * p j) ^ 2 = a i * a i * (∑ j ∈ Finset.range J, x j * x j)
      + t ^ 2 * (A i * A i) - 2 * (t * (a i * A i) * ∑ j ∈ Finset.range J, x j * p j) := by
    intro i
    have : t ^ 2 * (A i * A i) = t ^ 2 * (A i * A i) * ∑ j ∈ Finset.range J, p j * p j := by rw [hp, mul_one]
    rw [this, Finset.mul_sum, Finset.mul_sum, Finset.mul_sum, Finset.mul_sum, ← Finset.sum_add_distrib, ← Finset.sum_sub_distrib]
    exact Finset.sum_congr rfl fun j _ => by ring
  rw [Finset.sum_congr rfl fun i _ => e i, Finset.sum_sub_distrib, Finset.sum_add_distrib, ← Finset.sum_mul, ← Finset.mul_sum,
    ← Finset.mul_sum, ← Finset.sum_mul, ← Finset.mul_sum]

theorem rank_one_loss {X P fs : List (NDArray ℝ)} {a : ℕ → ℝ} {x : ℕ → ℕ → ℝ}
    (hX : ∀ k < Js.length, ∀ i < I, ∀ j < Js.getD k 0, (nth X k).get [i, j] = a i * x k j) (hP : OrthoAll P Js 1) :
    p2Loss X P fs I Js 1 = ∑ k ∈ Finset.range Js.length,
      ((∑ i ∈ Finset.range I, a i * a i) * (∑ j ∈ Finset.range (Js.getD k 0), x k j * x k j)
        + ((modeMat fs 2).get [k, 0] * (modeMat fs 1).get [0, 0]) ^ 2
          * (∑ i ∈ Finset.range I, (modeMat fs 0).get [i, 0] * (modeMat fs 0).get [i, 0])
        - 2 * ((modeMat fs 2).get [k, 0] * (modeMat fs 1).get [0, 0] * (∑ i ∈ Finset.range I, a i * (modeMat fs 0).get [i, 0])
          * ∑ j ∈ Finset.range (Js.getD k 0), x k j * (nth P k).get [j, 0])) := by
  unfold p2Loss p2Err
  refine Finset.sum_congr rfl fun k hk => ?_
  have hk := Finset.mem_range.1 hk
  have hp : ∑ j ∈ Finset.range (Js.getD k 0), (nth P k).get [j, 0] * (nth P k).get [j, 0] = 1 := by
    have := hP k hk 0 Nat.one_pos 0 Nat.one_pos
    simpa using this
  rw [← rank_one_slice_err I (Js.getD k 0) a (fun i => (modeMat fs 0).get [i, 0]) (x k) (fun j => (nth P k).get [j, 0]) _ hp]
  refine Finset.sum_congr rfl fun i hi => Finset.sum_congr rfl fun j hj => ?_
  rw [hX k hk i (Finset.mem_range.1 hi) j (Finset.mem_range.1 hj)]
  unfold p2Entry
  simp only [Finset.sum_range_one]
  ring

/-- A step on data with one component reproduces the data. -/
theorem P2Step.rank_one {X : List (NDArray ℝ)} {n : ℕ} {fs P' fs' : List (NDArray ℝ)} (h : P2Step X I Js 1 n fs P' fs')
    (hn : 0 < n) {a : ℕ → ℝ} {x : ℕ → ℕ → ℝ} (hK : 0 < Js.length)
    (hX : ∀ k < Js.length, ∀ i < I, ∀ j < Js.getD k 0, (nth X k).get [i, j] = a i * x k j)
    (hx : ∀ k < Js.length, ∃ j < Js.getD k 0, x k j ≠ 0) (hA : ∑ i ∈ Finset.range I, a i * (modeMat fs 0).get [i, 0] ≠ 0)
    (hD : (modeMat fs 1).get [0, 0] ≠ 0) (hC : ∀ k < Js.length, (modeMat fs 2).get [k, 0] ≠ 0) :
    p2Loss X P' fs' I Js 1 = 0 := by
  set α := ∑ i ∈ Finset.range I, a i * (modeMat fs 0).get [i, 0] with hα
  set d := (modeMat fs 1).get [0, 0] with hd
  set c : ℕ → ℝ := fun k => (modeMat fs 2).get [k, 0] with hc
  set nx : ℕ → ℝ := fun k => ∑ j ∈ Finset.range (Js.getD k 0), x k j * x k j with hnx
  set g : ℕ → ℝ := fun k => ∑ j ∈ Finset.range (Js.getD k 0), x k j * (nth P' k).get [j, 0] with hg
  have hnx0 : ∀ k < Js.length, 0 < nx k := by
    intro k hk
    obtain ⟨j, hj, hne⟩ := hx k hk
    exact Finset.sum_pos' (fun _ _ => mul_self_nonneg _) ⟨j, Finset.mem_range.2 hj, mul_self_pos.2 hne⟩
  have hunit : ∀ k < Js.length, ∑ j ∈ Finset.range (Js.getD k 0), (nth P' k).get [j, 0] * (nth P' k).get [j, 0] = 1 := by
    intro k hk
    have := h.orth k hk 0 Nat.one_pos 0 Nat.one_pos
    simpa using this
  have hcs : ∀ k < Js.length, g k ^ 2 ≤ nx k := by
    intro k hk
    have := Finset.sum_mul_sq_le_sq_mul_sq (Finset.range (Js.getD k 0)) (x k) (fun j => (nth P' k).get [j, 0])
    simp only [pow_two] at this
    rw [hunit k hk, mul_one] at this
    rw [pow_two]
    exact this
  -- the competitor
  set t : ℕ → ℝ := fun k => c k * d * α with ht
  have ht0 : ∀ k < Js.length, t k ≠ 0 := fun k hk => mul_ne_zero (mul_ne_zero (hC k hk) hD) hA
  set σ : ℕ → ℝ := fun k => (if 0 ≤ t k then 1 else -1) / Real.sqrt (nx k) with hσ
  set Q : List (NDArray ℝ) := (List.range Js.length).map fun k => ofMat (Js.getD k 0) 1 fun j _ => σ k * x k j with hQ
  have hQk : ∀ k < Js.length, nth Q k = ofMat (Js.getD k 0) 1 fun j _ => σ k * x k j := by
    intro k hk
    simp [hQ, nth, List.getD_eq_getElem?_getD, hk]
  have hσ2 : ∀ k < Js.length, σ k * σ k * nx k = 1 := by
    intro k hk
    have h1 := Real.mul_self_sqrt (hnx0 k hk).le
    have h2 : Real.sqrt (nx k) ≠ 0 := (Real.sqrt_pos.2 (hnx0 k hk)).ne'
    have h3 : ((if 0 ≤ t k then 1 else -1 : ℝ)) * (if 0 ≤ t k then 1 else -1) = 1 := by split <;> norm_num
    rw [hσ]
    simp only
    rw [div_mul_div_comm, h3, h1, one_div, inv_mul_cancel₀ (hnx0 k hk).ne']
  have hQo : OrthoAll Q Js 1 := by
    intro k hk i hi j hj
    obtain rfl : i = 0 := by omega
    obtain rfl : j = 0 := by omega
    rw [hQk k hk, if_pos rfl, ← hσ2 k hk, hnx, Finset.mul_sum]
    refine Finset.sum_congr rfl fun l hl => ?_
    rw [get_ofMat (Finset.mem_range.1 hl) Nat.one_pos]
    ring
  have hopt := h.proj Q hQo
  rw [rank_one_loss hX h.orth, rank_one_loss hX hQo, ← sub_nonneg, ← Finset.sum_sub_distrib] at hopt
  have hQx : ∀ k < Js.length, t k * ∑ j ∈ Finset.range (Js.getD k 0), x k j * (nth Q k).get [j, 0] = |t k| * Real.sqrt (nx k) := by
    intro k hk
    have e : ∑ j ∈ Finset.range (Js.getD k 0), x k j * (nth Q k).get [j, 0] = σ k * nx k := by
      rw [hnx, Finset.mul_sum]
      refine Finset.sum_congr rfl fun l hl => ?_
      rw [hQk k hk, get_ofMat (Finset.mem_range.1 hl) Nat.one_pos]
      ring
    have h2 : Real.sqrt (nx k) ≠ 0 := (Real.sqrt_pos.2 (hnx0 k hk)).ne'
    have e2 : nx k / Real.sqrt (nx k) = Real.sqrt (nx k) := Real.div_sqrt
    have e3 : t k * (if 0 ≤ t k then 1 else -1 : ℝ) = |t k| := by
      split
      · rename_i h0; rw [mul_one, abs_of_nonneg h0]
      · rename_i h0; rw [abs_of_neg (not_le.1 h0)]; ring
    rw [e, hσ]
    simp only
    rw [← e3]
    conv_rhs => rw [← e2]
    ring
  have hle : ∀ k < Js.length, t k * g k ≤ |t k| * Real.sqrt (nx k) := by
    intro k hk
    refine (le_abs_self _).trans ?_
    rw [abs_mul]
    refine mul_le_mul_of_nonneg_left ?_ (abs_nonneg _)
    exact Real.abs_le_sqrt (hcs k hk)
  have hsum : ∑ k ∈ Finset.range Js.length, (|t k| * Real.sqrt (nx k) - t k * g k) ≤ 0 := by
    have e : ∀ k ∈ Finset.range Js.length, |t k| * Real.sqrt (nx k) - t k * g k =
        t k * ∑ j ∈ Finset.range (Js.getD k 0), x k j * (nth Q k).get [j, 0] - t k * g k := by
      intro k hk
      rw [hQx k (Finset.mem_range.1 hk)]
    rw [Finset.sum_congr rfl e]
    have e2 := hopt
    rw [← neg_nonneg, ← Finset.sum_neg_distrib]
    refine le_of_mul_le_mul_left (a := 2) ?_ two_pos
    rw [mul_zero, Finset.mul_sum]
    refine e2.trans (le_of_eq (Finset.sum_congr rfl fun k _ => ?_))
    simp only [ht, hg, hc]
    ring
  have heq : ∀ k < Js.length, t k * g k = |t k| * Real.sqrt (nx k) := by
    intro k hk
    have h0 := (Finset.sum_eq_zero_iff_of_nonneg (fun k hk => sub_nonneg.2 (hle k (Finset.mem_range.1 hk)))).1
      (le_antisymm hsum (Finset.sum_nonneg fun k hk => sub_nonneg.2 (hle k (Finset.mem_range.1 hk)))) k (Finset.mem_range.2 hk)
    linarith
  have hpos : ∀ k < Js.length, 0 < t k * g k := by
    intro k hk
    rw [heq k hk]
    exact mul_pos (abs_pos.2 (ht0 k hk)) (Real.sqrt_pos.2 (hnx0 k hk))
  have hg2 : ∀ k < Js.length, g k ^ 2 = nx k := by
    intro k hk
    have h1 : (t k * g k) ^ 2 = (|t k| * Real.sqrt (nx k)) ^ 2 := by rw [heq k hk]
    rw [mul_pow (t k), mul_pow |t k|, sq_abs, Real.sq_sqrt (hnx0 k hk).le] at h1
    exact mul_left_cancel₀ (pow_ne_zero 2 (ht0 k hk)) h1
  -- the component of the projected data
  set av : List (NDArray ℝ) := [ofMat I 1 fun i _ => a i, ofMat 1 1 fun _ _ => 1, ofMat Js.length 1 fun k _ => g k] with hav
  have m0 : ∀ i < I, (modeMat av 0).get [i, 0] = a i := fun i hi => by
    show (ofMat I 1 fun i _ => a i).get [i, 0] = a i
    exact get_ofMat hi Nat.one_pos
  have m1 : (modeMat av 1).get [0, 0] = 1 := by
    show (ofMat 1 1 fun _ _ => (1 : ℝ)).get [0, 0] = 1
    exact get_ofMat Nat.one_pos Nat.one_pos
  have m2 : ∀ k < Js.length, (modeMat av 2).get [k, 0] = g k := fun k hk => by
    show (ofMat Js.length 1 fun k _ => g k).get [k, 0] = g k
    exact get_ofMat hk Nat.one_pos
  have hproj : ∀ idx, Valid (p2Projected X P' I Js 1).shape idx → (p2Projected X P' I Js 1).get idx = rankOne av idx 0 := by
    intro idx hidx
    have hidx : Valid [I, 1, Js.length] idx := hidx
    match idx, hidx with
    | [i, q, k], hv =>
      obtain ⟨hi, hq, hk⟩ : i < I ∧ q < 1 ∧ k < Js.length := by simpa using hv
      obtain rfl : q = 0 := by omega
      rw [p2Projected, get_ofFn (by simp [hi, hk])]
      simp only [hav, rankOne]
      rw [get_ofMat hi Nat.one_pos, get_ofMat Nat.one_pos Nat.one_pos, get_ofMat hk Nat.one_pos]
      simp only [List.getD_cons_zero, List.getD_cons_succ, hg]
      rw [mul_one, one_mul, Finset.mul_sum]
      refine Finset.sum_congr rfl fun j hj => ?_
      rw [hX k hk i hi j (Finset.mem_range.1 hj)]
      ring
  have hself : ∀ k < 3, modeDot [I, 1, Js.length] av av k ≠ 0 := by
    intro k hk
    interval_cases k
    · intro h0
      refine hA (Finset.sum_eq_zero fun i hi => ?_)
      have := (Finset.sum_eq_zero_iff_of_nonneg fun i _ => mul_self_nonneg _).1 h0 i hi
      have := mul_self_eq_zero.1 this
      have e : (modeMat av 0).get [i, 0] = a i := m0 i (Finset.mem_range.1 hi)
      rw [e] at this
      rw [this, zero_mul]
    · show ∑ i ∈ Finset.range 1, (ofMat 1 1 fun _ _ => (1 : ℝ)).get [i, 0] * (ofMat 1 1 fun _ _ => (1 : ℝ)).get [i, 0] ≠ 0
      simp [get_ofMat]
    · refine (Finset.sum_pos' (fun _ _ => mul_self_nonneg _) ⟨0, Finset.mem_range.2 hK, mul_self_pos.2 ?_⟩).ne'
      have e : (modeMat av 2).get [0, 0] = g 0 := m2 0 hK
      rw [e]
      intro h0
      have := hpos 0 hK
      rw [h0, mul_zero] at this
      exact lt_irrefl _ this
  have hdot : ∀ k < 3, k ≠ 0 → modeDot [I, 1, Js.length] av fs k ≠ 0 := by
    intro k hk hk0
    interval_cases k
    · exact absurd rfl hk0
    · show ∑ i ∈ Finset.range 1, (ofMat 1 1 fun _ _ => (1 : ℝ)).get [i, 0] * (modeMat fs 1).get [i, 0] ≠ 0
      simpa [get_ofMat] using hD
    · have hp : 0 < ∑ k ∈ Finset.range Js.length, t k * g k :=
        Finset.sum_pos (fun k hk => hpos k (Finset.mem_range.1 hk)) ⟨0, Finset.mem_range.2 hK⟩
      have e : ∑ k ∈ Finset.range Js.length, t k * g k = d * α * modeDot [I, 1, Js.length] av fs 2 := by
        rw [modeDot, Finset.mul_sum]
        refine Finset.sum_congr rfl fun k hk => ?_
        have e : (modeMat av 2).get [k, 0] = g k := m2 k (Finset.mem_range.1 hk)
        rw [e, ht]
        simp only [hc]
        ring
      intro h0
      rw [e, h0, mul_zero] at hp
      exact lt_irrefl _ hp
  -- what is left of the data after the projection
  have hrest : p2Rest X P' I Js 1 = 0 := by
    have h1 := p2Loss_projected (X := X) (I := I) (fs := av) h.orth rfl
    have h2 : sqErr (p2Projected X P' I Js 1) (fun _ => 1) av 1 = 0 := by
      rw [sqErr_eq_zero_iff]
      intro idx hidx
      rw [hproj idx hidx, cpEntry_one]
    have h3 : p2Loss X P' av I Js 1 = 0 := by
      unfold p2Loss p2Err
      refine Finset.sum_eq_zero fun k hk => Finset.sum_eq_zero fun i hi => Finset.sum_eq_zero fun j hj => ?_
      have hk := Finset.mem_range.1 hk
      have hi := Finset.mem_range.1 hi
      have hj := Finset.mem_range.1 hj
      have e0 := m0 i hi
      have e2 := m2 k hk
      rw [hX k hk i hi j hj]
      unfold p2Entry
      simp only [Finset.sum_range_one]
      rw [e0, m1, e2, unit_parallel (hunit k hk) (hg2 k hk) hj]
      simp only [hg]
      ring
    rw [h2, h3] at h1
    linarith
  obtain ⟨G, g0, gn, hG⟩ := h.inner
  -- the first sweep, and the others
  have hall : ∀ m ≤ n, 0 < m → Multiples [I, 1, Js.length] av (G m 0) (fun _ => True) ∧
      sqErr (p2Projected X P' I Js 1) (fun _ => 1) (G m 0) 1 = 0 := by
    intro m
    induction m with
    | zero => intro _ h0; omega
    | succ m ih =>
      intro hm _
      obtain ⟨hs, e⟩ := hG m hm
      rw [← e]
      refine sweep_rank_one (X := p2Projected X P' I Js 1) (a := av) rfl (by show 0 < 3; omega) hproj hself hs ?_
      by_cases h0 : m = 0
      · subst h0
        rw [g0]
        exact hdot
      · exact fun k hk _ => (ih (by omega) (by omega)).1.dot hk trivial (hself k hk)
  have hlen : fs'.length = 3 := by
    obtain ⟨m, rfl⟩ : ∃ m, n = m + 1 := ⟨n - 1, by omega⟩
    rw [← gn, ← (hG m (Nat.lt_succ_self m)).2]
    exact (hG m (Nat.lt_succ_self m)).1.len 3 (le_refl 3)
  rw [p2Loss_projected h.orth hlen, hrest, add_zero, ← gn]
  exact (hall n le_rfl hn).2

/-- The singular value of a slice is not treated as zero. -/
theorem rank_one_keepsAll {E : Ext} (hE : E.SVDOk) {a : ℕ → ℝ} {x : ℕ → ℕ → ℝ} {k : ℕ}
    (hX : ∀ i < I, ∀ j < Js.getD k 0, (nth s.X k).get [i, j] = a i * x k j) (hx : ∃ j < Js.getD k 0, x k j ≠ 0)
    (hA : ∑ i ∈ Finset.range I, a i * s.A.get [i, 0] ≠ 0) (hD : s.D.get [0, 0] ≠ 0) (hC : s.C.get [k, 0] ≠ 0)
    (hJ : (Js.getD k 0 : ℝ) * 1e-16 < 1) : s.KeepsAll E I Js 1 k := by
  obtain ⟨j, hj, hne⟩ := hx
  have hc : (s.cross I Js 1 k).get [j, 0] = x k j * (s.C.get [k, 0] * s.D.get [0, 0]) * ∑ i ∈ Finset.range I, a i * s.A.get [i, 0] := by
    rw [P2State.cross, get_ofMat hj Nat.one_pos, Finset.mul_sum]
    refine Finset.sum_congr rfl fun i hi => ?_
    rw [hX i (Finset.mem_range.1 hi) j hj, p2Score, get_ofMat (Finset.mem_range.1 hi) Nat.one_pos, Finset.sum_range_one]
    ring
  have hne' : (s.cross I Js 1 k).get [j, 0] ≠ 0 := by
    rw [hc]
    exact mul_ne_zero (mul_ne_zero hne (mul_ne_zero hC hD)) hA
  have hf := (fullSlice_one hE (X := s.cross I Js 1 k) (I := Js.getD k 0) (J := 1) (shape_ofMat _ _ _) (by norm_num) hj Nat.one_pos
    hne').2 0 Nat.one_pos
  intro i hi
  obtain rfl : i = 0 := by omega
  have hn : 0 ≤ (E.svd (s.cross I Js 1 k)).2.1.get [0] :=
    (hE (s.cross I Js 1 k) (Js.getD k 0) 1 (shape_ofMat _ _ _)).svd.nonneg ⟨0, hi⟩
  have hp : 0 < (E.svd (s.cross I Js 1 k)).2.1.get [0] := by
    refine lt_of_le_of_ne hn fun h0 => ?_
    rw [← h0] at hf
    norm_num at hf
  nlinarith

/-- The iterations from a start as in C147. -/
theorem p2_orbit_rank_one {E : Ext} (hE : E.SVDOk) (hN : E.NNLSOk) {o : P2Opts} (hridge : o.ridgePenalties = none)
    {c : CPObj} (h : s.Working o I Js c) (hnd : s.dec.P.Nodup) (hsh : s.Shares c) (hfree : P2State.Free c)
    (hcp : 0 < o.cpUpdates) (hrank : o.rank = 1) {a : ℕ → ℝ} {x : ℕ → ℕ → ℝ}
    (hX : ∀ k < Js.length, ∀ i < I, ∀ j < Js.getD k 0, (nth s.X k).get [i, j] = a i * x k j)
    (hx : ∀ k < Js.length, ∃ j < Js.getD k 0, x k j ≠ 0) (hJ : ∀ k < Js.length, (Js.getD k 0 : ℝ) * 1e-16 < 1)
    (hA : ∑ i ∈ Finset.range I, a i * s.A.get [i, 0] ≠ 0) (hD : s.D.get [0, 0] ≠ 0)
    (hC : ∀ k < Js.length, s.C.get [k, 0] ≠ 0) (n : ℕ) :
    (P2.orbit E o s (n + 1)).Orthonormal Js 1 ∧ (P2.orbit E o s (n + 1)).err I Js 1 = 0 := by
  have hk1 : ∀ k < Js.length, s.KeepsAll E I Js o.rank k := fun k hk => by
    rw [hrank]
    exact rank_one_keepsAll hE (hX k hk) (hx k hk) hA hD (hC k hk) (hJ k hk)
  have hJ1 : ∀ J ∈ Js, o.rank ≤ J := by
    intro J hJ
    obtain ⟨k, hk, rfl⟩ := List.getElem_of_mem hJ
    obtain ⟨j, hj, -⟩ := hx k hk
    rw [getD_eq_getElem' _ hk] at hj
    omega
  have hK : 0 < Js.length := h.sized.posK
  have hstep := p2_iteration_step hE hN hridge h hnd hsh hfree hJ1 hk1 (p2_orbit_step hE hN h 0)
  obtain ⟨c', g1, g2, g3, g4, g5, g6, -⟩ := p2_orbit_working hE hN h 1
  rw [hrank] at hstep
  have h0 := hstep.rank_one hcp hK hX hx hA hD hC
  have hfull : ∀ k < Js.length, FullSlice E (nth (P2.orbit E o s 1).X k) I (Js.getD k 0) o.rank := by
    intro k hk
    rw [g6, hrank]
    obtain ⟨j, hj, hne⟩ := hx k hk
    obtain ⟨i, hi, hne'⟩ := Finset.exists_ne_zero_of_sum_ne_zero hA
    have hi := Finset.mem_range.1 hi
    refine fullSlice_one hE (shape_nth h.sized.X hk) (hJ k hk) hi hj ?_
    rw [hX k hk i hi j hj]
    exact mul_ne_zero (left_ne_zero_of_mul hne') hne
  have hz := p2_orbit_exact hE hN hridge g1 (by rw [g5]; exact hnd) (by unfold P2State.Shares; rw [g2, g5]; exact hsh)
    (hfree.of_eq g3 g4) (by rw [hrank]; exact hstep.orth) (by rw [hrank, P2State.err, g6]; exact h0) hfull n
  have hshift : ∀ n, P2.orbit E o (P2.orbit E o s 1) n = P2.orbit E o s (n + 1) := by
    intro n
    induction n with
    | zero => rfl
    | succ n ih => rw [P2.orbit, ih, P2.orbit.eq_2 E o s (n + 1)]
  rw [hshift, hrank] at hz
  exact hz

/-- **C147.** If the slices of the data are `X_k = a x_kᵀ` with no `x_k` zero, a rank-one fit without constraints and penalties
reproduces the data after one iteration and at every later one, from any start whose `A` is not orthogonal to `a` and whose `D`
and `C` have no zeros. -/
theorem C147_rank_one {E : Ext} (hE : E.SVDOk) (hN : E.NNLSOk) (hQ : E.QROk) {c : P2.Config} {D : P2Data}
    {arg : InitArg P2Obj} {h0 : Heap} (hi : P2.StartsFrom E c D arg h0 s) (h : s.Sized I Js c.opts.rank) (hs : s.Separate)
    (hal : s.Allocated) (hcp : 0 < c.opts.cpUpdates) (hrank : c.opts.rank = 1)
    (hnn : c.opts.nonNeg = none) (hon : c.opts.orth = none) (hridge : c.opts.ridgePenalties = none)
    (hlog : c.Measurable I Js) (hfreq : freqOption c.freq ≠ 0)
    {budget : Int} {mi : Option Int} {loggers : List Logger} {file : Option H5File}
    (hS : Storing (P2.method E c) (P2.newObject h0 budget loggers file) [])
    {a : ℕ → ℝ} {x : ℕ → ℕ → ℝ}
    (hX : ∀ k < Js.length, ∀ i < I, ∀ j < Js.getD k 0, (nth s.X k).get [i, j] = a i * x k j)
    (hx : ∀ k < Js.length, ∃ j < Js.getD k 0, x k j ≠ 0) (hJ : ∀ J ∈ Js, (J : ℝ) * 1e-16 < 1)
    (hA : ∑ i ∈ Finset.range I, a i * s.A.get [i, 0] ≠ 0) (hD : s.D.get [0, 0] ≠ 0)
    (hC : ∀ k < Js.length, s.C.get [k, 0] ≠ 0) :
    ∃ w', ∃ n : ℕ, P2.fit E c D mi arg (P2.newObject h0 budget loggers file) = .ok () w' ∧ w'.it = n ∧
      (0 < mi.getD budget → 0 < n) ∧ (0 < n → P2.sse w'.st = .ok 0 ∧ w'.st.Orthonormal Js 1 ∧ ∀ k < Js.length, ∀ i < I, ∀ j < Js.getD k 0,
        (nth s.X k).get [i, j] = p2Entry w'.st.A w'.st.D w'.st.C (nth w'.st.P k) 1 k i j) := by
  have hAd := p2_free_admissible h hnn hon hridge
  obtain ⟨l, sp, w', m, el, ep, -, hfit, -, hit, hst, -, hstop, -, hsse, hX', -⟩ := C80_fit_completes hE hN hQ hi h hs.distinct
    hal hAd hlog hfreq (mi := mi) hS
  obtain ⟨-, ci, hw, hd, hh, hXs, hsh, hfree⟩ := p2_fit_start hQ h hs hal hnn hon hridge ep
  have eA : sp.A = s.A := by unfold P2State.A; rw [hd, hh]
  have eD : sp.D = s.D := by unfold P2State.D; rw [hd, hh]
  have eC : sp.C = s.C := by unfold P2State.C; rw [hd, hh]
  refine ⟨w', m, hfit, hit, fun hb => ?_, fun hm => ?_⟩
  · by_contra h0
    obtain rfl : m = 0 := by omega
    have h1 := hstop hb
    rw [hst] at h1
    have e : sp.relChange = .pinf := by
      obtain ⟨h', ci', ep', -⟩ := P2State.prepareCp_ok (E := E) hQ (o := c.opts) (h.withLoss .pinf l) (hs.distinct.loss .pinf l) hAd
        (fun _ => hal)
      rw [ep] at ep'
      rw [Except.ok.inj ep']
      rfl
    rw [P2.orbit, P2.shouldStop, e] at h1
    exact absurd (Except.ok.inj h1) (by simp [FV.absLt])
  obtain ⟨n, rfl⟩ : ∃ n, m = n + 1 := ⟨m - 1, by omega⟩
  have hz := p2_orbit_rank_one hE hN hridge hw (by rw [hd]; exact hs.nodup) hsh hfree hcp hrank (a := a) (x := x)
    (by rw [hXs]; exact hX) hx (fun k hk => by rw [getD_eq_getElem' _ hk]; exact hJ _ (List.getElem_mem hk))
    (by rw [eA]; exact hA) (by rw [eD]; exact hD) (by rw [eC]; exact hC) n
  rw [← hst] at hz
  refine ⟨by rw [hsse, hrank, hz.2], hz.1, fun k hk i hi' j hj => ?_⟩
  have h1 := hz.2
  rw [P2State.err, hX'] at h1
  have h2 := (Finset.sum_eq_zero_iff_of_nonneg fun k _ => Finset.sum_nonneg fun i _ => Finset.sum_nonneg fun j _ => sq_nonneg _).1 h1 k
    (Finset.mem_range.2 hk)
  have h3 := (Finset.sum_eq_zero_iff_of_nonneg fun i _ => Finset.sum_nonneg fun j _ => sq_nonneg _).1 h2 i (Finset.mem_range.2 hi')
  have h4 := (Finset.sum_eq_zero_iff_of_nonneg fun j _ => sq_nonneg _).1 h3 j (Finset.mem_range.2 hj)
  have h5 := pow_eq_zero_iff two_ne_zero |>.1 h4
  linarith

/-- Slices `(1, 2)ᵀ (2)` and `(1, 2)ᵀ (3, -1)`, and a start that has nothing to do with them (its projection matrices are not even
orthonormal): any positive number of iterations reproduces the data. -/
example {E : Ext} (hE : E.SVDOk) (hN : E.NNLSOk) (hQ : E.QROk) {c : P2.Config} (hi : c.init.toLower = "precomputed")
    {g : List ℕ → ℝ} {n : ℕ} (ho : c.opts = p2Plain 1 (n + 1) g) (hlog : c.logs = []) (hfreq : c.freq = none) (budget : Int)
    (mi : Option Int) (hb : 0 < mi.getD budget) :
    ∃ h0 d w', P2.fit E c (.list [ofMat 2 1 fun i _ => (if i = 0 then 1 else 2) * 2,
      ofMat 2 2 fun i j => (if i = 0 then 1 else 2) * if j = 0 then 3 else -1]) mi (.tensor d)
      (P2.newObject h0 budget [] none) = .ok () w' ∧ P2.sse w'.st = .ok 0 := by
  have hr : c.opts.rank = 1 := by rw [ho]; rfl
  set X : List (NDArray ℝ) := [ofMat 2 1 fun i _ => (if i = 0 then 1 else 2) * 2,
      ofMat 2 2 fun i j => (if i = 0 then 1 else 2) * if j = 0 then 3 else -1] with hXd
  set h0 : Heap := ⟨fun a => if a = 0 then ofMat 2 1 fun i _ => if i = 0 then 1 else 0 else if a = 1 then ofMat 1 1 fun _ _ => 1
    else if a = 2 then ofMat 2 1 fun _ _ => 1 else if a = 3 then ofMat 1 1 fun _ _ => 1
    else ofMat 2 1 fun _ _ => 1, 5⟩ with hh0
  set d : P2Obj := ⟨1, 0, 1, 2, [3, 4], true, true, [(2, 1), (2, 2)], 6⟩ with hd
  obtain ⟨s, h1, h2, h3, h4, h5⟩ := p2_startsFrom_precomputed (E := E) (c := c) hi (I := 2) (Js := [1, 2]) (Xs := X) (by norm_num)
    (.cons rfl (.cons rfl .nil)) (by simp) (by omega) (by simp) (h0 := h0) (d := d) (by rw [hr]; rfl) (by rw [hr]; rfl)
    (by rw [hr]; rfl) (by rw [hr]; exact .cons rfl (.cons rfl .nil))
  have hsep : s.Separate := by rw [P2State.Separate, h3]; simp [hd]
  have hal : s.Allocated := by rw [P2State.Allocated, h3, h4]; simp [hd, hh0]
  have sA : s.A = ofMat 2 1 fun i _ => if i = 0 then 1 else 0 := by rw [P2State.A, h3, h4]; rfl
  have sD : s.D = ofMat 1 1 fun _ _ => 1 := by rw [P2State.D, h3, h4]; rfl
  have sC : s.C = ofMat 2 1 fun _ _ => 1 := by rw [P2State.C, h3, h4]; rfl
  obtain ⟨w', n', e1, e2, e3, e4⟩ := C147_rank_one hE hN hQ h1 h2 hsep hal (by rw [ho]; exact Nat.succ_pos n) hr
    (by rw [ho]; rfl) (by rw [ho]; rfl) (by rw [ho]; rfl) (by intro p hp; rw [hlog] at hp; cases hp) (by rw [hfreq]; decide)
    (budget := budget) (mi := mi) (loggers := []) (file := none) (p2_storing_none hfreq _ _)
    (a := fun i => if i = 0 then 1 else 2) (x := fun k j => if k = 0 then 2 else if j = 0 then 3 else -1) (by
      rw [h5]
      intro k hk i hi j hj
      have hk : k < 2 := hk
      interval_cases k
      · have hj : j < 1 := hj
        simp [hXd, nth, get_ofMat hi hj]
      · have hj : j < 2 := hj
        simp [hXd, nth, get_ofMat hi hj])
    (by
      intro k hk
      have hk : k < 2 := hk
      interval_cases k
      · exact ⟨0, Nat.one_pos, by norm_num⟩
      · exact ⟨0, Nat.two_pos, by norm_num⟩)
    (by intro J hJ; simp at hJ; rcases hJ with rfl | rfl <;> norm_num)
    (by rw [sA]; simp [Finset.sum_range_succ, get_ofMat])
    (by rw [sD]; simp [get_ofMat])
    (by rw [sC]; intro k hk; have hk : k < 2 := hk; rw [get_ofMat hk Nat.one_pos]; norm_num)
  exact ⟨h0, d, w', e1, (e4 (e3 hb)).1⟩

end
end TK
