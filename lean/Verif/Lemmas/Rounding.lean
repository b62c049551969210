import Verif.Model.Rounded
import Verif.Spec.Rounding
import Verif.Lemmas.CP

/-!
# Propagation of rounding errors
-/

namespace TK
open NDArray

/-- `y` is computed from `x` with `n` roundings, `S` bounds the terms behind `x`. -/
structure Approx (u : ℝ) (n : ℕ) (x y S : ℝ) : Prop where
  size : |x| ≤ S
  err : |y - x| ≤ ((1 + u) ^ n - 1) * S

section
variable {u : ℝ} {rnd : ℝ → ℝ}

theorem one_le_pow_u (hu : 0 ≤ u) (n : ℕ) : 1 ≤ (1 + u) ^ n := one_le_pow₀ (by linarith)

theorem pow_u_mono (hu : 0 ≤ u) {m n : ℕ} (h : m ≤ n) : (1 + u) ^ m ≤ (1 + u) ^ n :=
  pow_le_pow_right₀ (by linarith) h

namespace Approx

theorem nonneg {n : ℕ} {x y S : ℝ} (h : Approx u n x y S) : 0 ≤ S := (abs_nonneg x).trans h.size

theorem refl (n : ℕ) (hu : 0 ≤ u) (x : ℝ) : Approx u n x x |x| :=
  ⟨le_rfl, by simpa using mul_nonneg (by linarith [one_le_pow_u hu n]) (abs_nonneg x)⟩

theorem zero (n : ℕ) : Approx u n 0 0 0 := ⟨by simp, by simp⟩

theorem mono (hu : 0 ≤ u) {m n : ℕ} {x y S : ℝ} (h : Approx u m x y S) (hmn : m ≤ n) : Approx u n x y S :=
  ⟨h.size, h.err.trans (mul_le_mul_of_nonneg_right (by linarith [pow_u_mono hu hmn]) h.nonneg)⟩

theorem size_mono (hu : 0 ≤ u) {n : ℕ} {x y S S' : ℝ} (h : Approx u n x y S) (hS : S ≤ S') : Approx u n x y S' :=
  ⟨h.size.trans hS, h.err.trans (mul_le_mul_of_nonneg_left hS (by linarith [one_le_pow_u hu n]))⟩

theorem abs_le {n : ℕ} {x y S : ℝ} (h : Approx u n x y S) : |y| ≤ (1 + u) ^ n * S := by
  have h1 : |y| ≤ |x| + |y - x| := by
    have := abs_add_le x (y - x)
    rwa [add_sub_cancel] at this
  calc |y| ≤ |x| + |y - x| := h1
    _ ≤ S + ((1 + u) ^ n - 1) * S := add_le_add h.size h.err
    _ = _ := by ring

/-- `m` further roundings. -/
theorem trans (hu : 0 ≤ u) {n m : ℕ} {x y z S : ℝ} (h : Approx u n x y S) (hz : |z - y| ≤ ((1 + u) ^ m - 1) * |y|) :
    Approx u (n + m) x z S := by
  refine ⟨h.size, ?_⟩
  have h1 : |z - x| ≤ |z - y| + |y - x| := abs_sub_le z y x
  have h2 : ((1 + u) ^ m - 1) * |y| ≤ ((1 + u) ^ m - 1) * ((1 + u) ^ n * S) :=
    mul_le_mul_of_nonneg_left h.abs_le (by linarith [one_le_pow_u hu m])
  calc |z - x| ≤ |z - y| + |y - x| := h1
    _ ≤ ((1 + u) ^ m - 1) * ((1 + u) ^ n * S) + ((1 + u) ^ n - 1) * S := add_le_add (hz.trans h2) h.err
    _ = _ := by rw [pow_add]; ring

theorem round (hr : Rounds rnd u) {n : ℕ} {x y S : ℝ} (h : Approx u n x y S) : Approx u (n + 1) x (rnd y) S :=
  h.trans hr.nonneg (by simpa using hr.err y)

theorem add {n : ℕ} {x y S x' y' S' : ℝ} (h : Approx u n x y S) (h' : Approx u n x' y' S') :
    Approx u n (x + x') (y + y') (S + S') := by
  refine ⟨(abs_add_le _ _).trans (add_le_add h.size h'.size), ?_⟩
  calc |y + y' - (x + x')| = |(y - x) + (y' - x')| := by ring_nf
    _ ≤ |y - x| + |y' - x'| := abs_add_le _ _
    _ ≤ _ := add_le_add h.err h'.err
    _ = _ := by ring

theorem neg {n : ℕ} {x y S : ℝ} (h : Approx u n x y S) : Approx u n (-x) (-y) S :=
  ⟨by rw [abs_neg]; exact h.size, by rw [← neg_add', abs_neg]; simpa [sub_eq_add_neg] using h.err⟩

theorem sub {n : ℕ} {x y S x' y' S' : ℝ} (h : Approx u n x y S) (h' : Approx u n x' y' S') :
    Approx u n (x - x') (y - y') (S + S') := by
  rw [sub_eq_add_neg, sub_eq_add_neg]; exact h.add h'.neg

theorem mul (hu : 0 ≤ u) {n m : ℕ} {x y S x' y' S' : ℝ} (h : Approx u n x y S) (h' : Approx u m x' y' S') :
    Approx u (n + m) (x * x') (y * y') (S * S') := by
  refine ⟨by rw [abs_mul]; exact mul_le_mul h.size h'.size (abs_nonneg _) h.nonneg, ?_⟩
  have e : y * y' - x * x' = y * (y' - x') + (y - x) * x' := by ring
  rw [e]
  calc |y * (y' - x') + (y - x) * x'| ≤ |y * (y' - x')| + |(y - x) * x'| := abs_add_le _ _
    _ = |y| * |y' - x'| + |y - x| * |x'| := by rw [abs_mul, abs_mul]
    _ ≤ ((1 + u) ^ n * S) * (((1 + u) ^ m - 1) * S') + (((1 + u) ^ n - 1) * S) * S' := by
        refine add_le_add (mul_le_mul h.abs_le h'.err (abs_nonneg _) ?_) (mul_le_mul h.err h'.size (abs_nonneg _) ?_)
        · exact mul_nonneg (by linarith [one_le_pow_u hu n]) h.nonneg
        · exact mul_nonneg (by linarith [one_le_pow_u hu n]) h.nonneg
    _ = _ := by rw [pow_add]; ring

theorem const_mul {n : ℕ} {x y S c : ℝ} (hc : 0 ≤ c) (h : Approx u n x y S) : Approx u n (c * x) (c * y) (c * S) := by
  refine ⟨by rw [abs_mul, abs_of_nonneg hc]; exact mul_le_mul_of_nonneg_left h.size hc, ?_⟩
  rw [← mul_sub, abs_mul, abs_of_nonneg hc]
  calc c * |y - x| ≤ c * (((1 + u) ^ n - 1) * S) := mul_le_mul_of_nonneg_left h.err hc
    _ = _ := by ring

/-- The square of the rounded square root. -/
theorem sqrt_sq (hr : Rounds rnd u) {n : ℕ} {x q S : ℝ} (h : Approx u n x q S) (hq : 0 ≤ q) :
    Approx u (n + 3) x (rnd (rnd (Real.sqrt q) * rnd (Real.sqrt q))) S := by
  have h1 := (refl 0 hr.nonneg (Real.sqrt q)).round hr
  have h2 := ((h1.mul hr.nonneg h1).round hr).err
  rw [← abs_mul, Real.mul_self_sqrt hq] at h2
  exact h.trans hr.nonneg h2

end Approx

theorem FlSum.approx (hr : Rounds rnd u) {f e S : ℕ → ℝ} {n : ℕ} {s : Finset ℕ} {v : ℝ} (h : FlSum rnd f s v)
    (ha : ∀ i ∈ s, Approx u n (e i) (f i) (S i)) : Approx u (n + s.card) (∑ i ∈ s, e i) v (∑ i ∈ s, S i) := by
  have hu := hr.nonneg
  induction h with
  | empty => exact Approx.zero _
  | single i => simpa using (ha i (by simp)).mono hu (Nat.le_succ n)
  | @add s t a b hs ht hd _ _ ih1 ih2 =>
    have h1 := ih1 fun i hi => ha i (Finset.mem_union_left _ hi)
    have h2 := ih2 fun i hi => ha i (Finset.mem_union_right _ hi)
    rw [Finset.sum_union hd, Finset.sum_union hd, Finset.card_union_of_disjoint hd]
    have c1 := hs.card_pos
    have c2 := ht.card_pos
    refine (((h1.mono hu (n := n + s.card + t.card - 1) (by omega)).add (h2.mono hu (by omega))).round hr).mono hu ?_
    omega

theorem FlDot.approx (hr : Rounds rnd u) {f g e S : ℕ → ℝ} {n : ℕ} {s : Finset ℕ} {v : ℝ} (h : FlDot rnd f g s v)
    (ha : ∀ i ∈ s, Approx u n (e i) (f i * g i) (S i)) : Approx u (n + s.card) (∑ i ∈ s, e i) v (∑ i ∈ s, S i) := by
  have hu := hr.nonneg
  induction h with
  | empty => exact Approx.zero _
  | single i => simpa using (ha i (by simp)).round hr
  | @add s t a b hs ht hd _ _ ih1 ih2 =>
    have h1 := ih1 fun i hi => ha i (Finset.mem_union_left _ hi)
    have h2 := ih2 fun i hi => ha i (Finset.mem_union_right _ hi)
    rw [Finset.sum_union hd, Finset.sum_union hd, Finset.card_union_of_disjoint hd]
    have c1 := hs.card_pos
    have c2 := ht.card_pos
    refine (((h1.mono hu (n := n + s.card + t.card - 1) (by omega)).add (h2.mono hu (by omega))).round hr).mono hu ?_
    omega
  | @fma s i a hs hi _ ih =>
    have h1 := ih fun j hj => ha j (Finset.mem_insert_of_mem hj)
    have h2 := ha i (Finset.mem_insert_self _ _)
    rw [Finset.sum_insert hi, Finset.sum_insert hi, Finset.card_insert_of_notMem hi, add_comm (e i), add_comm (S i)]
    exact (h1.add (h2.mono hu (by omega))).round hr

theorem Rounds.round_nonneg (hr : Rounds rnd u) {x : ℝ} (hx : 0 ≤ x) : 0 ≤ rnd x := by
  have h1 := hr.err x
  rw [abs_of_nonneg hx] at h1
  have h2 := (abs_le.1 h1).1
  nlinarith [hr.le_one, hr.nonneg]

theorem FlDot.nonneg (hr : Rounds rnd u) {f : ℕ → ℝ} {s : Finset ℕ} {v : ℝ} (h : FlDot rnd f f s v) : 0 ≤ v := by
  induction h with
  | empty => exact le_rfl
  | single i => exact hr.round_nonneg (mul_self_nonneg _)
  | add _ _ _ _ _ ih1 ih2 => exact hr.round_nonneg (add_nonneg ih1 ih2)
  | fma _ _ _ ih => exact hr.round_nonneg (add_nonneg ih (mul_self_nonneg _))

/-- There is an order of summation. -/
theorem FlDot.exists (rnd : ℝ → ℝ) (f g : ℕ → ℝ) (s : Finset ℕ) : ∃ v, FlDot rnd f g s v := by
  induction s using Finset.induction_on with
  | empty => exact ⟨_, .empty⟩
  | insert i s hi ih =>
    obtain ⟨v, h⟩ := ih
    rcases s.eq_empty_or_nonempty with rfl | hs
    · exact ⟨_, .single i⟩
    · exact ⟨_, .fma hs hi h⟩

theorem FlSum.exists (rnd : ℝ → ℝ) (f : ℕ → ℝ) (s : Finset ℕ) : ∃ v, FlSum rnd f s v := by
  induction s using Finset.induction_on with
  | empty => exact ⟨_, .empty⟩
  | insert i s hi ih =>
    obtain ⟨v, h⟩ := ih
    rcases s.eq_empty_or_nonempty with rfl | hs
    · exact ⟨_, .single i⟩
    · exact ⟨_, .add (Finset.singleton_nonempty i) hs (by simpa using hi) (.single i) h⟩

/-! ### The functions of the package -/

theorem khatriRao_skip_gen {α : Type} [Zero α] [Mul α] {fs : List (NDArray α)} {n : Int} {k : ℕ}
    (hn : normIdx n fs.length = some k) : khatriRao fs (some n) = khatriRao (fs.eraseIdx k) none := by
  simp [khatriRao, skipFactor, pyPop_ok hn, Except.map, bind_ok]

/-- base.py:73-87 `khatri_rao_binary` with the multiplication that rounds. -/
noncomputable def flKr (rnd : ℝ → ℝ) (A B : NDArray ℝ) : Py (NDArray ℝ) := khatriRaoBinary (α := Fl rnd) A B

theorem flKr_eq {A B : NDArray ℝ} {I J K : ℕ} (hA : A.shape = [I, K]) (hB : B.shape = [J, K]) :
    flKr rnd A B = .ok (ofMat (I * J) K fun p k => flMul rnd (A.get [p / J, k]) (B.get [p % J, k])) :=
  khatriRaoBinary_eq (α := Fl rnd) hA hB

theorem flKhatriRao_fold (hr : Rounds rnd u) {fs : List (NDArray ℝ)} {s : List ℕ} {R : ℕ} (h : Factors fs s R) :
    ∀ {P : NDArray ℝ} {pre : List (NDArray ℝ)} {t : List ℕ} {n : ℕ}, Factors pre t R → P.shape = [t.prod, R] →
    (∀ idx, Valid t idx → ∀ r < R, Approx u n (rankOne pre idx r) (P.get [ravel t idx, r]) |rankOne pre idx r|) →
    ∃ Q : NDArray ℝ, fs.foldlM (m := Py) (init := P) (fun p g => flKr rnd p g) = .ok Q ∧
      Q.shape = [(t ++ s).prod, R] ∧ ∀ idx, Valid (t ++ s) idx → ∀ r < R,
        Approx u (n + fs.length) (rankOne (pre ++ fs) idx r) (Q.get [ravel (t ++ s) idx, r])
          |rankOne (pre ++ fs) idx r| := by
  unfold Factors at h
  induction h with
  | nil =>
    intro P pre t n hpre hP ha
    exact ⟨P, rfl, by simpa using hP, by simpa using ha⟩
  | cons h1 h2 ih =>
    rename_i F m fs s
    intro P pre t n hpre hP ha
    rw [List.foldlM_cons, flKr_eq hP h1, bind_ok]
    set P' : NDArray ℝ := ofMat (t.prod * m) R fun p k => flMul rnd (P.get [p / m, k]) (F.get [p % m, k]) with hP'
    have hprod : (t ++ [m]).prod = t.prod * m := by simp
    obtain ⟨Q, eQ, hQ, hQa⟩ := ih (P := P') (n := n + 1) (hpre.append (.cons h1 .nil)) (by rw [hprod]; rfl) (by
      intro idx hidx r hr'
      obtain ⟨a, j, rfl, hav, hj⟩ : ∃ a j, idx = a ++ [j] ∧ Valid t a ∧ j < m := by
        have hl := hidx.length_eq
        rw [List.length_append, List.length_singleton] at hl
        have hsp : idx = idx.take t.length ++ idx.drop t.length := (List.take_append_drop _ _).symm
        obtain ⟨j, hj⟩ : ∃ j, idx.drop t.length = [j] := List.length_eq_one_iff.1 (by rw [List.length_drop]; omega)
        rw [hj] at hsp
        have hv : ∀ {t a : List ℕ}, a.length = t.length → Valid (t ++ [m]) (a ++ [j]) → Valid t a ∧ j < m := by
          intro t
          induction t with
          | nil => intro a ha hv; simp at ha; subst ha; simpa using hv
          | cons x t iht =>
            intro a ha hv
            cases a with
            | nil => simp at ha
            | cons y a =>
              obtain ⟨h1, h2⟩ := iht (by simpa using ha) hv.2
              exact ⟨⟨hv.1, h1⟩, h2⟩
        refine ⟨_, j, hsp, ?_⟩
        rw [hsp] at hidx
        exact hv (by rw [List.length_take]; omega) hidx
      have hrav : ravel (t ++ [m]) (a ++ [j]) = ravel t a * m + j := by
        rw [ravel_append hav]; simp [ravel]
      have hlt : ravel t a * m + j < t.prod * m := by
        have := ravel_lt hav
        calc ravel t a * m + j < (ravel t a + 1) * m := by rw [Nat.add_mul]; omega
          _ ≤ _ := Nat.mul_le_mul_right _ this
      rw [hrav, hP', get_ofMat hlt hr', rankOne_append hpre hav.length_eq]
      have hd : (ravel t a * m + j) / m = ravel t a := by
        rw [Nat.mul_comm, Nat.mul_add_div (by omega), Nat.div_eq_of_lt hj, Nat.add_zero]
      have hm : (ravel t a * m + j) % m = j := by
        rw [Nat.mul_comm, Nat.mul_add_mod, Nat.mod_eq_of_lt hj]
      rw [hd, hm, flMul]
      have hone : rankOne [F] [j] r = F.get [j, r] := by simp [rankOne]
      rw [hone, abs_mul]
      exact (((ha a hav r hr').mul hr.nonneg (Approx.refl 0 hr.nonneg (F.get [j, r]))).round hr))
    refine ⟨Q, eQ, by simpa using hQ, ?_⟩
    simp only [List.append_assoc, List.singleton_append] at hQa
    intro idx hidx r hr'
    have := hQa idx hidx r hr'
    rwa [show n + 1 + fs.length = n + (F :: fs).length by simp; omega] at this

theorem flKhatriRao_approx (hr : Rounds rnd u) {fs : List (NDArray ℝ)} {s : List ℕ} {R : ℕ} (h : Factors fs s R)
    (hne : fs ≠ []) : ∃ Q, flKhatriRao rnd fs none = .ok Q ∧ Q.shape = [s.prod, R] ∧
      ∀ idx, Valid s idx → ∀ r < R,
        Approx u (fs.length - 1) (rankOne fs idx r) (Q.get [ravel s idx, r]) |rankOne fs idx r| := by
  cases h with
  | nil => exact absurd rfl hne
  | cons h1 h2 =>
    rename_i f n fs s
    obtain ⟨Q, e, hQ, ha⟩ := flKhatriRao_fold hr h2 (P := f) (pre := [f]) (t := [n]) (n := 0) (.cons h1 .nil)
      (by simpa using h1) (by
        intro idx hidx r hr'
        obtain ⟨i, is, rfl, hi, his⟩ := valid_cons_iff.1 hidx
        simp at his; subst his
        have : rankOne [f] [i] r = f.get [i, r] := by simp [rankOne]
        rw [this]
        simpa [ravel] using Approx.refl 0 hr.nonneg (f.get [i, r]))
    refine ⟨Q, e, hQ, fun idx hidx r hr' => ?_⟩
    simpa using ha idx hidx r hr'

theorem flKhatriRao_skip (hr : Rounds rnd u) {fs : List (NDArray ℝ)} {s : List ℕ} {R k : ℕ} (h : Factors fs s R)
    (hk : k < fs.length) (h2 : 2 ≤ fs.length) : ∃ Q, flKhatriRao rnd fs (some (k : Int)) = .ok Q ∧
      Q.shape = [(s.eraseIdx k).prod, R] ∧ ∀ idx, Valid (s.eraseIdx k) idx → ∀ r < R,
        Approx u (fs.length - 2) (rankOne (fs.eraseIdx k) idx r) (Q.get [ravel (s.eraseIdx k) idx, r])
          |rankOne (fs.eraseIdx k) idx r| := by
  have hl : (fs.eraseIdx k).length = fs.length - 1 := List.length_eraseIdx_of_lt hk
  obtain ⟨Q, e, hQ, ha⟩ := flKhatriRao_approx hr (h.eraseIdx k) (by
    intro h0; rw [h0] at hl; simp at hl; omega)
  refine ⟨Q, ?_, hQ, ?_⟩
  · rw [← e]
    exact khatriRao_skip_gen (α := Fl rnd) (normIdx_natCast hk)
  · rw [hl] at ha; exact ha

end
end TK
