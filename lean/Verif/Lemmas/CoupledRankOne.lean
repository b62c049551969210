import Verif.Spec.CoupledRankOne
import Verif.Props.CoupledStationary

/-!
# Sweeps of a coupled model for data with one component
-/

namespace TK
open NDArray

noncomputable section

variable {X : NDArray ℝ} {Ys : List (NDArray ℝ)} {ms : List ℕ} {a ys : List (NDArray ℝ)}

/-- The matrices that are the first ones of mode `m`. -/
def onesOf (ms : List ℕ) (m : ℕ) : Finset ℕ := (firstOnes ms).filter fun i => ms.getD i 0 = m

theorem mem_onesOf {ms : List ℕ} {m i : ℕ} : i ∈ onesOf ms m ↔ (i < ms.length ∧ IsFirst ms i) ∧ ms.getD i 0 = m := by
  simp [onesOf, firstOnes]

/-- The inner product of the first columns of two right factors of matrix `i`. -/
def rightDot (Ys us vs : List (NDArray ℝ)) (i : ℕ) : ℝ :=
  ∑ q ∈ Finset.range ((Ys.getD i noArr).shape.getD 1 0), (us.getD i noArr).get [q, 0] * (vs.getD i noArr).get [q, 0]

theorem rightDot_self_nonneg (Ys vs : List (NDArray ℝ)) (i : ℕ) : 0 ≤ rightDot Ys vs vs i :=
  Finset.sum_nonneg fun _ _ => mul_self_nonneg _

theorem modeDot_self_nonneg (sizes : List ℕ) (fs : List (NDArray ℝ)) (m : ℕ) : 0 ≤ modeDot sizes fs fs m :=
  Finset.sum_nonneg fun _ _ => mul_self_nonneg _

theorem modeDot_congr {sizes : List ℕ} {fs gs hs : List (NDArray ℝ)} {m : ℕ} (h : modeMat gs m = modeMat hs m) :
    modeDot sizes fs gs m = modeDot sizes fs hs m := by
  rw [modeDot, modeDot, h]

theorem modeDot_self_congr {sizes : List ℕ} {gs hs : List (NDArray ℝ)} {m : ℕ} (h : modeMat gs m = modeMat hs m) :
    modeDot sizes gs gs m = modeDot sizes hs hs m := by
  rw [modeDot, modeDot, h]

/-- A column is not zero if its inner product with some column is not zero. -/
theorem modeDot_self_of_dot {sizes : List ℕ} {fs gs : List (NDArray ℝ)} {m : ℕ} (h : modeDot sizes fs gs m ≠ 0) :
    modeDot sizes gs gs m ≠ 0 := by
  intro h0
  refine h (Finset.sum_eq_zero fun i hi => ?_)
  rw [modeDot] at h0
  have := (Finset.sum_eq_zero_iff_of_nonneg fun i _ => mul_self_nonneg _).1 h0 i hi
  rw [mul_self_eq_zero.1 this, mul_zero]

/-- The equation of the update of a mode. -/
theorem coupled_rank_one_step (hD : OneComponent X Ys ms a ys) {fs Vs : List (NDArray ℝ)} (hl : fs.length = X.shape.length)
    {m : ℕ} (hm : m < X.shape.length) (hp : RowsFit X Ys ms) {F : NDArray ℝ}
    (hopt : ∀ Z : NDArray ℝ, Z.shape = [X.shape.getD m 0, 1] →
      coupledLoss X Ys ms 1 (fs.set m F) Vs ≤ coupledLoss X Ys ms 1 (fs.set m Z) Vs) :
    ∀ i < X.shape.getD m 0, F.get [i, 0] * ((∏ k ∈ (Finset.range X.shape.length).erase m, modeDot X.shape fs fs k) +
        ∑ n ∈ onesOf ms m, rightDot Ys Vs Vs n) =
      ((∏ k ∈ (Finset.range X.shape.length).erase m, modeDot X.shape a fs k) + ∑ n ∈ onesOf ms m, rightDot Ys ys Vs n) *
        (modeMat a m).get [i, 0] := by
  intro i hi
  set d := X.shape.length with hd
  set D := ∏ k ∈ (Finset.range d).erase m, modeDot X.shape a fs k with hDD
  set G := ∏ k ∈ (Finset.range d).erase m, modeDot X.shape fs fs k with hG
  have h0 := modeSlope_zero (Vs := Vs) hl hm hp hopt (ofMat (X.shape.getD m 0) 1 fun j _ => if j = i then 1 else 0)
  have key : ∀ (gs : List (NDArray ℝ)) (u : ℕ → ℝ), (sumIdx X.shape fun idx =>
      ((∏ k ∈ (Finset.range d).erase m, (modeMat gs k).get [idx.getD k 0, 0]) * u (idx.getD m 0)) *
        ((∏ k ∈ (Finset.range d).erase m, (modeMat fs k).get [idx.getD k 0, 0]) * if idx.getD m 0 = i then 1 else 0)) =
      (∏ k ∈ (Finset.range d).erase m, modeDot X.shape gs fs k) * u i := by
    intro gs u
    have h1 := sumIdx_prod X.shape fun k j => if k = m then u j * (if j = i then 1 else 0) else
      (modeMat gs k).get [j, 0] * (modeMat fs k).get [j, 0]
    rw [← Finset.prod_erase_mul _ _ (Finset.mem_range.2 hm)] at h1
    simp only [if_true] at h1
    rw [Finset.sum_eq_single i (fun j _ hj => by rw [if_neg hj, mul_zero])
      (fun h => absurd (Finset.mem_range.2 hi) h), if_pos rfl, mul_one] at h1
    have h2 : (∏ k ∈ (Finset.range X.shape.length).erase m, ∑ j ∈ Finset.range (X.shape.getD k 0),
        if k = m then u j * (if j = i then 1 else 0) else (modeMat gs k).get [j, 0] * (modeMat fs k).get [j, 0]) =
        ∏ k ∈ (Finset.range d).erase m, modeDot X.shape gs fs k :=
      Finset.prod_congr rfl fun k hk => Finset.sum_congr rfl fun j _ => if_neg (Finset.ne_of_mem_erase hk)
    rw [h2] at h1
    rw [← h1]
    refine sumIdx_congr fun idx _ => ?_
    rw [← Finset.prod_erase_mul _ _ (Finset.mem_range.2 hm), if_pos rfl,
      Finset.prod_congr rfl fun k hk => if_neg (Finset.ne_of_mem_erase hk), Finset.prod_mul_distrib]
    ring
  have e1 := key a fun j => (modeMat a m).get [j, 0]
  have e2 := key fs fun j => F.get [j, 0]
  have h3 : tensorSlope X 1 (fs.set m F) (fs.set m (ofMat (X.shape.getD m 0) 1 fun j _ => if j = i then 1 else 0)) =
      -2 * (D * (modeMat a m).get [i, 0] - G * F.get [i, 0]) := by
    rw [tensorSlope]
    congr 1
    rw [hDD, hG, ← e1, ← e2, ← sumIdx_sub]
    refine sumIdx_congr fun idx hidx => ?_
    have hil := hidx.length_eq
    rw [cpEntry_one, cpEntry_one, hD.tensor idx hidx, rankOne_set_eq (by omega) (by omega), rankOne_set_eq (by omega) (by omega),
      rankOne_eq_prod 0 (by rw [hil, hD.len]),
      get_ofMat (hidx.getD_lt hm) Nat.one_pos, hD.len, hl, ← Finset.prod_erase_mul _ _ (Finset.mem_range.2 hm)]
    ring
  have h4 : ∀ n ∈ onesOf ms m, matSlope (Ys.getD n noArr) F (Vs.getD n noArr)
        (ofMat (X.shape.getD m 0) 1 fun j _ => if j = i then 1 else 0) (Vs.getD n noArr) 1 =
      -2 * (rightDot Ys ys Vs n * (modeMat a m).get [i, 0] - rightDot Ys Vs Vs n * F.get [i, 0]) := by
    intro n hn
    obtain ⟨⟨hn1, hn2⟩, hn3⟩ := mem_onesOf.1 hn
    have hrows : (Ys.getD n noArr).shape.getD 0 0 = X.shape.getD m 0 := by rw [(hp n hn1).2, hn3]
    rw [matSlope]
    congr 1
    rw [hrows, Finset.sum_eq_single i, rightDot, rightDot, Finset.sum_mul, Finset.sum_mul, ← Finset.sum_sub_distrib]
    · refine Finset.sum_congr rfl fun q hq => ?_
      rw [Finset.sum_range_one, Finset.sum_range_one, get_ofMat hi Nat.one_pos, if_pos rfl,
        hD.mats n hn1 hn2 i (by rw [hrows]; exact hi) q (Finset.mem_range.1 hq), hn3]
      ring
    · intro j hj hji
      refine Finset.sum_eq_zero fun q _ => ?_
      rw [Finset.sum_range_one, Finset.sum_range_one, get_ofMat (Finset.mem_range.1 hj) Nat.one_pos, if_neg hji]
      ring
    · exact fun h => absurd (Finset.mem_range.2 hi) h
  rw [modeSlope, h3, show (firstOnes ms).filter (fun i => ms.getD i 0 = m) = onesOf ms m from rfl, Finset.sum_congr rfl h4,
    ← Finset.mul_sum, Finset.sum_sub_distrib, ← Finset.sum_mul, ← Finset.sum_mul] at h0
  linarith

/-- The column of a mode is that of the component times `c`. -/
def IsMultiple (sizes : List ℕ) (a fs : List (NDArray ℝ)) (k : ℕ) (c : ℝ) : Prop :=
  ∀ i < sizes.getD k 0, (modeMat fs k).get [i, 0] = c * (modeMat a k).get [i, 0]

theorem IsMultiple.dot {sizes : List ℕ} {fs : List (NDArray ℝ)} {k : ℕ} {c : ℝ} (h : IsMultiple sizes a fs k c) :
    modeDot sizes a fs k = c * modeDot sizes a a k := by
  rw [modeDot, modeDot, Finset.mul_sum]
  exact Finset.sum_congr rfl fun i hi => by rw [h i (Finset.mem_range.1 hi)]; ring

theorem IsMultiple.self {sizes : List ℕ} {fs : List (NDArray ℝ)} {k : ℕ} {c : ℝ} (h : IsMultiple sizes a fs k c) :
    modeDot sizes fs fs k = c ^ 2 * modeDot sizes a a k := by
  rw [modeDot, modeDot, Finset.mul_sum]
  exact Finset.sum_congr rfl fun i hi => by rw [h i (Finset.mem_range.1 hi)]; ring

section Sweeps

variable {g : ℕ → List (NDArray ℝ) × List (NDArray ℝ)}

/-- After a sweep without zero columns, all columns are multiples of those of the component. -/
theorem coupled_multiples (hD : OneComponent X Ys ms a ys) (h : CoupledSweep X Ys ms 1 g)
    (h0 : ∀ k < X.shape.length, k ≠ 0 → modeDot X.shape (g 0).1 (g 0).1 k ≠ 0)
    (h1 : ∀ k < X.shape.length, modeDot X.shape (g X.shape.length).1 (g X.shape.length).1 k ≠ 0) :
    ∀ k < X.shape.length, ∃ c, c ≠ 0 ∧ ∀ m ≤ X.shape.length, k < m → IsMultiple X.shape a (g m).1 k c := by
  intro m hm
  obtain ⟨F, e, opt⟩ := h.step m hm
  rw [e] at opt
  have hl := h.len m hm.le
  have hG : 0 < ∏ k ∈ (Finset.range X.shape.length).erase m, modeDot X.shape (g m).1 (g m).1 k := by
    refine Finset.prod_pos fun k hk => ?_
    have hkd := Finset.mem_range.1 (Finset.mem_of_mem_erase hk)
    refine lt_of_le_of_ne (modeDot_self_nonneg _ _ _) (Ne.symm ?_)
    rcases Nat.lt_or_ge k m with hlt | hge
    · rw [modeDot_self_congr (h.after (n := X.shape.length - m) (by omega) hlt)]
      exact h1 k hkd
    · rw [modeDot_self_congr (h.before hm.le hge)]
      exact h0 k hkd (by have := Finset.ne_of_mem_erase hk; omega)
  have hS : 0 ≤ ∑ n ∈ onesOf ms m, rightDot Ys (g m).2 (g m).2 n := Finset.sum_nonneg fun n _ => rightDot_self_nonneg _ _ n
  have hst := coupled_rank_one_step hD hl hm h.rows opt
  set G := ∏ k ∈ (Finset.range X.shape.length).erase m, modeDot X.shape (g m).1 (g m).1 k
  set S := ∑ n ∈ onesOf ms m, rightDot Ys (g m).2 (g m).2 n
  set D := ∏ k ∈ (Finset.range X.shape.length).erase m, modeDot X.shape a (g m).1 k
  set T := ∑ n ∈ onesOf ms m, rightDot Ys ys (g m).2 n
  have hGS : G + S ≠ 0 := by linarith
  have hmul : ∀ n ≤ X.shape.length, m < n → IsMultiple X.shape a (g n).1 m ((D + T) / (G + S)) := by
    intro n hn hmn i hi
    rw [h.after (n := X.shape.length - n) (by omega) hmn, ← h.after (n := X.shape.length - (m + 1)) (m := m + 1) (by omega) (by omega), e,
      modeMat_set_self (by rw [hl]; exact hm), div_mul_eq_mul_div, eq_div_iff hGS]
    exact hst i hi
  refine ⟨(D + T) / (G + S), fun hc => h1 m hm ?_, hmul⟩
  rw [(hmul _ le_rfl hm).self, hc]
  ring

/-- The right factors that fit the matrices, once the columns are multiples of those of the component. -/
theorem coupled_right (hD : OneComponent X Ys ms a ys) (h : CoupledSweep X Ys ms 1 g)
    (hself : ∀ k < X.shape.length, modeDot X.shape a a k ≠ 0) {i : ℕ} (hi : i < ms.length) (hf : IsFirst ms i) {c : ℝ} (hc : c ≠ 0)
    (hm : IsMultiple X.shape a (g X.shape.length).1 (ms.getD i 0) c) :
    coupledErrAt (g (X.shape.length + 1)).1 Ys (g (X.shape.length + 1)).2 ms 1 i = 0 ∧
      ∀ q < (Ys.getD i noArr).shape.getD 1 0, ((g (X.shape.length + 1)).2.getD i noArr).get [q, 0] =
        (ys.getD i noArr).get [q, 0] / c := by
  obtain ⟨hmd, hrows⟩ := h.rows i hi
  set m := ms.getD i 0 with hm'
  have herr : matErr (Ys.getD i noArr) ((g X.shape.length).1.getD m noArr) ((g (X.shape.length + 1)).2.getD i noArr) 1 = 0 := by
    refine le_antisymm ((h.best i hi hf (ofMat ((Ys.getD i noArr).shape.getD 1 0) 1 fun q _ =>
      (ys.getD i noArr).get [q, 0] / c)).trans (le_of_eq ?_))
      (Finset.sum_nonneg fun _ _ => Finset.sum_nonneg fun _ _ => sq_nonneg _)
    refine Finset.sum_eq_zero fun p hp => Finset.sum_eq_zero fun q hq => ?_
    rw [Finset.sum_range_one, get_ofMat (Finset.mem_range.1 hq) Nat.one_pos,
      hD.mats i hi hf p (Finset.mem_range.1 hp) q (Finset.mem_range.1 hq)]
    have := hm p (by rw [← hrows]; exact Finset.mem_range.1 hp)
    rw [modeMat] at this
    rw [show (g X.shape.length).1.getD (ms.getD i 0) noArr = (g X.shape.length).1.getD m (full [] 0) from rfl, this, ← hm']
    field_simp
    ring
  have herr' : coupledErrAt (g (X.shape.length + 1)).1 Ys (g (X.shape.length + 1)).2 ms 1 i = 0 := by
    rw [coupledErrAt, h.last]
    exact herr
  refine ⟨herr', fun q hq => ?_⟩
  obtain ⟨p, hp, hp0⟩ : ∃ p < X.shape.getD m 0, (modeMat a m).get [p, 0] ≠ 0 := by
    by_contra hcon
    push Not at hcon
    exact hself m hmd (Finset.sum_eq_zero fun p hp => by rw [hcon p (Finset.mem_range.1 hp), mul_zero])
  rw [matErr, Finset.sum_eq_zero_iff_of_nonneg fun _ _ => Finset.sum_nonneg fun _ _ => sq_nonneg _] at herr
  have h2 := herr p (Finset.mem_range.2 (by rw [hrows]; exact hp))
  rw [Finset.sum_eq_zero_iff_of_nonneg fun _ _ => sq_nonneg _] at h2
  have h3 := h2 q (Finset.mem_range.2 hq)
  rw [Finset.sum_range_one, hD.mats i hi hf p (by rw [hrows]; exact hp) q hq] at h3
  have h4 := hm p hp
  rw [modeMat] at h4
  rw [show (g X.shape.length).1.getD m noArr = (g X.shape.length).1.getD m (full [] 0) from rfl, h4, ← hm'] at h3
  have h5 := pow_eq_zero_iff two_ne_zero |>.1 h3
  have h6 : (modeMat a m).get [p, 0] * ((ys.getD i noArr).get [q, 0] - c * ((g (X.shape.length + 1)).2.getD i noArr).get [q, 0]) = 0 := by
    linarith
  rcases mul_eq_zero.1 h6 with h7 | h7
  · exact absurd h7 hp0
  · rw [eq_div_iff hc]
    linarith

/-- The update of a mode without a coupled matrix makes the tensor exact. -/
theorem coupled_tensor_exact (hD : OneComponent X Ys ms a ys) (h : CoupledSweep X Ys ms 1 g) {u : ℕ} (hu : u < X.shape.length)
    (hfree : ∀ i < ms.length, ms.getD i 0 ≠ u) {c : ℕ → ℝ} (hc : ∀ k < X.shape.length, k ≠ u → c k ≠ 0)
    (hm : ∀ k < X.shape.length, k ≠ u → IsMultiple X.shape a (g u).1 k (c k)) :
    sqErr X (fun _ => 1) (g (u + 1)).1 1 = 0 := by
  obtain ⟨F, e, opt⟩ := h.step u hu
  have hl := h.len u hu.le
  have hfirst : ∀ Z : NDArray ℝ, firstErr ((g u).1.set u Z) Ys (g u).2 ms 1 = firstErr (g u).1 Ys (g u).2 ms 1 := by
    intro Z
    refine Finset.sum_congr rfl fun i hi => ?_
    have hi : i < ms.length := by simp at hi; exact hi.1
    rw [coupledErrAt, coupledErrAt, getD_set, if_neg fun hh => hfree i hi hh.1.symm]
  have h1 := opt (ofMat (X.shape.getD u 0) 1 fun i _ => (modeMat a u).get [i, 0] / ∏ k ∈ (Finset.range X.shape.length).erase u, c k)
    (shape_ofMat _ _ _)
  rw [e, coupledLoss, coupledLoss, hfirst, hfirst] at h1
  have h2 := le_of_add_le_add_right h1
  rw [e]
  refine le_antisymm (h2.trans (le_of_eq ?_)) (sumIdx_nonneg fun _ _ => sq_nonneg _)
  rw [sqErr_eq_zero_iff]
  intro idx hidx
  have hil := hidx.length_eq
  rw [hD.tensor idx hidx, cpEntry_one, rankOne_set_eq (by omega) (by omega), rankOne_eq_prod 0 (by rw [hil, hD.len]), hD.len, hl,
    ← Finset.prod_erase_mul _ _ (Finset.mem_range.2 hu), get_ofMat (hidx.getD_lt hu) Nat.one_pos]
  have hprod : ∏ k ∈ (Finset.range X.shape.length).erase u, c k ≠ 0 := Finset.prod_ne_zero_iff.2 fun k hk =>
    hc k (Finset.mem_range.1 (Finset.mem_of_mem_erase hk)) (Finset.ne_of_mem_erase hk)
  rw [Finset.prod_congr rfl fun k hk => hm k (Finset.mem_range.1 (Finset.mem_of_mem_erase hk)) (Finset.ne_of_mem_erase hk) _
    (hidx.getD_lt (Finset.mem_range.1 (Finset.mem_of_mem_erase hk))), Finset.prod_mul_distrib]
  field_simp

/-- If the tensor is exact before the update of a mode, and so are the matrices of that mode, the tensor stays exact. -/
theorem coupled_stays_exact (h : CoupledSweep X Ys ms 1 g) {m : ℕ} (hm : m < X.shape.length)
    (h0 : sqErr X (fun _ => 1) (g m).1 1 = 0)
    (hY : ∀ i < ms.length, IsFirst ms i → ms.getD i 0 = m → coupledErrAt (g m).1 Ys (g m).2 ms 1 i = 0) :
    sqErr X (fun _ => 1) (g (m + 1)).1 1 = 0 := by
  obtain ⟨F, e, opt⟩ := h.step m hm
  have hl := h.len m hm.le
  have hm' : m < (g m).1.length := by rw [hl]; exact hm
  obtain ⟨b, hb⟩ := coupledLoss_line (Vs := (g m).2) (R := 1) hl hm h.rows (g m).1[m] (g m).1[m]
  have h1 := opt _ (shape_ofMat (X.shape.getD m 0) 1 fun i r => (g m).1[m].get [i, r] + 0 * (g m).1[m].get [i, r])
  have h2 := hb 0
  rw [lineMat] at h2
  rw [h2, List.set_getElem_self, coupledLoss, coupledLoss, h0] at h1
  have h3 : firstErr (g m).1 Ys (g m).2 ms 1 ≤ firstErr (g (m + 1)).1 Ys (g (m + 1)).2 ms 1 := by
    refine Finset.sum_le_sum fun i hi => ?_
    simp only [Finset.mem_filter, Finset.mem_range] at hi
    by_cases him : ms.getD i 0 = m
    · rw [hY i hi.1 hi.2 him]
      unfold coupledErrAt matErr
      exact Finset.sum_nonneg fun _ _ => Finset.sum_nonneg fun _ _ => sq_nonneg _
    · rw [e, coupledErrAt, coupledErrAt, getD_set, if_neg fun hh => him hh.1.symm]
  refine le_antisymm ?_ (sumIdx_nonneg fun _ _ => sq_nonneg _)
  linarith

/-- A sweep that starts with multiples of the component and exact matrices ends with an exact model. -/
theorem coupled_exact (hD : OneComponent X Ys ms a ys) (hself : ∀ k < X.shape.length, modeDot X.shape a a k ≠ 0)
    (h : CoupledSweep X Ys ms 1 g) {u : ℕ} (hu : u < X.shape.length) (hfree : ∀ i < ms.length, ms.getD i 0 ≠ u)
    (h1 : ∀ k < X.shape.length, ∃ c, c ≠ 0 ∧ ∀ m ≤ X.shape.length, k < m → IsMultiple X.shape a (g m).1 k c)
    (h0 : u + 1 = X.shape.length ∨ (∀ k < X.shape.length, ∃ c, c ≠ 0 ∧ IsMultiple X.shape a (g 0).1 k c) ∧
      ∀ i < ms.length, IsFirst ms i → coupledErrAt (g 0).1 Ys (g 0).2 ms 1 i = 0) :
    coupledLoss X Ys ms 1 (g (X.shape.length + 1)).1 (g (X.shape.length + 1)).2 = 0 := by
  have hX : sqErr X (fun _ => 1) (g X.shape.length).1 1 = 0 := by
    have hu1 : sqErr X (fun _ => 1) (g (u + 1)).1 1 = 0 := by
      have : ∀ k < X.shape.length, k ≠ u → ∃ c, c ≠ 0 ∧ IsMultiple X.shape a (g u).1 k c := by
        intro k hk hku
        rcases Nat.lt_or_ge k u with hlt | hge
        · obtain ⟨c, hc, e⟩ := h1 k hk
          exact ⟨c, hc, e u hu.le hlt⟩
        · rcases h0 with h0 | h0
          · omega
          · obtain ⟨c, hc, e⟩ := h0.1 k hk
            refine ⟨c, hc, fun i hi => ?_⟩
            rw [h.before hu.le hge]
            exact e i hi
      choose! c hc0 hc using this
      exact coupled_tensor_exact hD h hu hfree hc0 hc
    rcases h0 with h0 | ⟨-, hY⟩
    · rw [← h0]; exact hu1
    · have : ∀ m, u + 1 ≤ m → m ≤ X.shape.length → sqErr X (fun _ => 1) (g m).1 1 = 0 := by
        intro m hum
        induction m, hum using Nat.le_induction with
        | base => exact fun _ => hu1
        | succ m hum ih =>
          intro hm
          refine coupled_stays_exact h hm (ih (by omega)) fun i hi hf him => ?_
          rw [← hY i hi hf, coupledErrAt, coupledErrAt, h.right (m := m) (by omega)]
          have := h.before (m := m) (k := ms.getD i 0) (by omega) (by omega)
          rw [modeMat, modeMat] at this
          rw [show (g m).1.getD (ms.getD i 0) noArr = (g m).1.getD (ms.getD i 0) (full [] 0) from rfl, this]
          rfl
      exact this _ (by omega) le_rfl
  rw [coupledLoss, h.last, hX, zero_add]
  refine Finset.sum_eq_zero fun i hi => ?_
  simp only [Finset.mem_filter, Finset.mem_range] at hi
  obtain ⟨c, hc, e⟩ := h1 _ (h.rows i hi.1).1
  rw [← h.last]
  exact (coupled_right hD h hself hi.1 hi.2 hc (e _ le_rfl (h.rows i hi.1).1)).1

/-- A sweep from a start with positive inner products leads to positive multiples of the component. -/
theorem coupled_positive (hD : OneComponent X Ys ms a ys) (hself : ∀ k < X.shape.length, modeDot X.shape a a k ≠ 0)
    (h : CoupledSweep X Ys ms 1 g) (h0 : ∀ k < X.shape.length, k ≠ 0 → 0 < modeDot X.shape a (g 0).1 k)
    (hV : ∀ i < ms.length, IsFirst ms i → 0 ≤ rightDot Ys ys (g 0).2 i) :
    ∀ k < X.shape.length, ∃ c, 0 < c ∧ ∀ m ≤ X.shape.length, k < m → IsMultiple X.shape a (g m).1 k c := by
  have hpos : ∀ k < X.shape.length, 0 < modeDot X.shape a a k := fun k hk =>
    lt_of_le_of_ne (modeDot_self_nonneg _ _ _) (hself k hk).symm
  intro m
  induction m using Nat.strong_induction_on with
  | _ m ih =>
    intro hm
    obtain ⟨F, e, opt⟩ := h.step m hm
    rw [e] at opt
    have hl := h.len m hm.le
    have hdot : ∀ k < X.shape.length, k ≠ m → 0 < modeDot X.shape a (g m).1 k := by
      intro k hkd hkm
      rcases Nat.lt_or_ge k m with hlt | hge
      · obtain ⟨c, hc, e⟩ := ih k hlt hkd
        rw [(e m hm.le hlt).dot]
        exact mul_pos hc (hpos k hkd)
      · rw [modeDot_congr (h.before hm.le hge)]
        exact h0 k hkd (by omega)
    have hGp : 0 < ∏ k ∈ (Finset.range X.shape.length).erase m, modeDot X.shape (g m).1 (g m).1 k :=
      Finset.prod_pos fun k hk => lt_of_le_of_ne (modeDot_self_nonneg _ _ _) (modeDot_self_of_dot
        (hdot k (Finset.mem_range.1 (Finset.mem_of_mem_erase hk)) (Finset.ne_of_mem_erase hk)).ne').symm
    have hDp : 0 < ∏ k ∈ (Finset.range X.shape.length).erase m, modeDot X.shape a (g m).1 k :=
      Finset.prod_pos fun k hk => hdot k (Finset.mem_range.1 (Finset.mem_of_mem_erase hk)) (Finset.ne_of_mem_erase hk)
    have hS : 0 ≤ ∑ n ∈ onesOf ms m, rightDot Ys (g m).2 (g m).2 n := Finset.sum_nonneg fun n _ => rightDot_self_nonneg _ _ n
    have hT : 0 ≤ ∑ n ∈ onesOf ms m, rightDot Ys ys (g m).2 n := Finset.sum_nonneg fun n hn => by
      rw [h.right hm.le]
      exact hV n (mem_onesOf.1 hn).1.1 (mem_onesOf.1 hn).1.2
    have hst := coupled_rank_one_step hD hl hm h.rows opt
    refine ⟨_, div_pos (_root_.add_pos_of_pos_of_nonneg hDp hT) (_root_.add_pos_of_pos_of_nonneg hGp hS), fun n hn hmn i hi => ?_⟩
    rw [h.after (n := X.shape.length - n) (by omega) hmn, ← h.after (n := X.shape.length - (m + 1)) (m := m + 1) (by omega) (by omega), e,
      modeMat_set_self (by rw [hl]; exact hm), div_mul_eq_mul_div, eq_div_iff (_root_.add_pos_of_pos_of_nonneg hGp hS).ne']
    exact hst i hi

end Sweeps

end
end TK
