import Verif.Lemmas.Rounding
import Verif.Lemmas.Metrics
import Verif.Model.RoundedMetrics
import Mathlib.Algebra.Order.Ring.Pow

/-!
# Relative rounding errors, and the factor match score
-/

namespace TK
open NDArray

/-- `y` and `x` are non-negative and within a factor `(1 + v) ^ n` of each other. -/
structure Near (v : ℝ) (n : ℕ) (x y : ℝ) : Prop where
  left : 0 ≤ x
  right : 0 ≤ y
  lower : x ≤ (1 + v) ^ n * y
  upper : y ≤ (1 + v) ^ n * x

section
variable {u v : ℝ} {rnd : ℝ → ℝ}

/-- The relative error `v` covers one rounding in both directions. -/
structure Covers (rnd : ℝ → ℝ) (v : ℝ) : Prop where
  rounds : Rounds rnd v
  lower : ∀ x, 0 ≤ x → x ≤ (1 + v) * rnd x

theorem Rounds.covers (hr : Rounds rnd u) (hu : u ≤ 1 / 2) : Covers rnd (u / (1 - u)) := by
  have h0 := hr.nonneg
  have h1 : 0 < 1 - u := by linarith
  have h2 : u ≤ u / (1 - u) := by rw [le_div_iff₀ h1]; nlinarith
  refine ⟨⟨h0.trans h2, by rw [div_le_one h1]; linarith, fun x => (hr.err x).trans ?_⟩, fun x hx => ?_⟩
  · exact mul_le_mul_of_nonneg_right h2 (abs_nonneg x)
  · have h3 := (abs_le.1 (hr.err x)).1
    rw [abs_of_nonneg hx] at h3
    have e : 1 + u / (1 - u) = 1 / (1 - u) := by field_simp; ring
    rw [e, div_mul_eq_mul_div, one_mul, le_div_iff₀ h1]
    linarith

namespace Covers

theorem nonneg (h : Covers rnd v) : 0 ≤ v := h.rounds.nonneg

theorem near (h : Covers rnd v) {x : ℝ} (hx : 0 ≤ x) : Near v 1 x (rnd x) := by
  refine ⟨hx, h.rounds.round_nonneg hx, by simpa using h.lower x hx, ?_⟩
  have := (abs_le.1 (h.rounds.err x)).2
  rw [abs_of_nonneg hx] at this
  simp only [pow_one]; linarith

end Covers

namespace Near

theorem refl (hv : 0 ≤ v) (n : ℕ) {x : ℝ} (hx : 0 ≤ x) : Near v n x x := by
  have := one_le_pow_u hv n
  exact ⟨hx, hx, by nlinarith, by nlinarith⟩

theorem mono (hv : 0 ≤ v) {m n : ℕ} {x y : ℝ} (h : Near v m x y) (hmn : m ≤ n) : Near v n x y :=
  ⟨h.left, h.right, h.lower.trans (mul_le_mul_of_nonneg_right (pow_u_mono hv hmn) h.right),
    h.upper.trans (mul_le_mul_of_nonneg_right (pow_u_mono hv hmn) h.left)⟩

theorem trans (hv : 0 ≤ v) {m n : ℕ} {x y z : ℝ} (h : Near v n x y) (h' : Near v m y z) : Near v (n + m) x z := by
  have h1 := one_le_pow_u hv n
  have h2 := one_le_pow_u hv m
  refine ⟨h.left, h'.right, ?_, ?_⟩
  · calc x ≤ (1 + v) ^ n * y := h.lower
      _ ≤ (1 + v) ^ n * ((1 + v) ^ m * z) := mul_le_mul_of_nonneg_left h'.lower (by linarith)
      _ = _ := by rw [pow_add]; ring
  · calc z ≤ (1 + v) ^ m * y := h'.upper
      _ ≤ (1 + v) ^ m * ((1 + v) ^ n * x) := mul_le_mul_of_nonneg_left h.upper (by linarith)
      _ = _ := by rw [pow_add]; ring

theorem round (hc : Covers rnd v) {n : ℕ} {x y : ℝ} (h : Near v n x y) : Near v (n + 1) x (rnd y) :=
  h.trans hc.nonneg (hc.near h.right)

theorem add {n : ℕ} {x y x' y' : ℝ} (h : Near v n x y) (h' : Near v n x' y') : Near v n (x + x') (y + y') :=
  ⟨add_nonneg h.left h'.left, add_nonneg h.right h'.right, by linarith [h.lower, h'.lower], by linarith [h.upper, h'.upper]⟩

theorem mul (hv : 0 ≤ v) {n m : ℕ} {x y x' y' : ℝ} (h : Near v n x y) (h' : Near v m x' y') :
    Near v (n + m) (x * x') (y * y') := by
  have h1 := one_le_pow_u hv n
  have h2 := one_le_pow_u hv m
  refine ⟨mul_nonneg h.left h'.left, mul_nonneg h.right h'.right, ?_, ?_⟩
  · calc x * x' ≤ ((1 + v) ^ n * y) * ((1 + v) ^ m * y') :=
          mul_le_mul h.lower h'.lower h'.left (mul_nonneg (by linarith) h.right)
      _ = _ := by rw [pow_add]; ring
  · calc y * y' ≤ ((1 + v) ^ n * x) * ((1 + v) ^ m * x') :=
          mul_le_mul h.upper h'.upper h'.right (mul_nonneg (by linarith) h.left)
      _ = _ := by rw [pow_add]; ring

theorem pos_iff (hv : 0 ≤ v) {n : ℕ} {x y : ℝ} (h : Near v n x y) : 0 < y ↔ 0 < x := by
  have h1 := one_le_pow_u hv n
  constructor
  · intro hy
    rcases h.left.lt_or_eq with h2 | h2
    · exact h2
    · have := h.upper; rw [← h2, mul_zero] at this; linarith
  · intro hx
    rcases h.right.lt_or_eq with h2 | h2
    · exact h2
    · have := h.lower; rw [← h2, mul_zero] at this; linarith

theorem inv (hv : 0 ≤ v) {n : ℕ} {x y : ℝ} (h : Near v n x y) (hx : 0 < x) : Near v n x⁻¹ y⁻¹ := by
  have hy := (h.pos_iff hv).2 hx
  have h1 := one_le_pow_u hv n
  refine ⟨by positivity, by positivity, ?_, ?_⟩
  · rw [← div_eq_mul_inv, le_div_iff₀ hy, inv_mul_le_iff₀ hx, mul_comm]; exact h.upper
  · rw [← div_eq_mul_inv, le_div_iff₀ hx, inv_mul_le_iff₀ hy, mul_comm]; exact h.lower

theorem sqrt (hv : 0 ≤ v) {n : ℕ} {x y : ℝ} (h : Near v n x y) : Near v n (Real.sqrt x) (Real.sqrt y) := by
  have h1 := one_le_pow_u hv n
  have key : ∀ {a b : ℝ}, 0 ≤ b → a ≤ (1 + v) ^ n * b → Real.sqrt a ≤ (1 + v) ^ n * Real.sqrt b := by
    intro a b hb hab
    refine Real.sqrt_le_iff.2 ⟨mul_nonneg (by linarith) (Real.sqrt_nonneg _), hab.trans ?_⟩
    rw [mul_pow, Real.sq_sqrt hb]
    exact mul_le_mul_of_nonneg_right (by nlinarith) hb
  exact ⟨Real.sqrt_nonneg _, Real.sqrt_nonneg _, key h.right h.lower, key h.left h.upper⟩

theorem max (hv : 0 ≤ v) {n : ℕ} {x y x' y' : ℝ} (h : Near v n x y) (h' : Near v n x' y') :
    Near v n (max x x') (max y y') := by
  have h1 := one_le_pow_u hv n
  refine ⟨h.left.trans (le_max_left _ _), h.right.trans (le_max_left _ _), max_le ?_ ?_, max_le ?_ ?_⟩
  · exact h.lower.trans (mul_le_mul_of_nonneg_left (le_max_left _ _) (by linarith))
  · exact h'.lower.trans (mul_le_mul_of_nonneg_left (le_max_right _ _) (by linarith))
  · exact h.upper.trans (mul_le_mul_of_nonneg_left (le_max_left _ _) (by linarith))
  · exact h'.upper.trans (mul_le_mul_of_nonneg_left (le_max_right _ _) (by linarith))

theorem min (hv : 0 ≤ v) {n : ℕ} {x y x' y' : ℝ} (h : Near v n x y) (h' : Near v n x' y') :
    Near v n (min x x') (min y y') := by
  have h1 : 0 ≤ (1 + v) ^ n := by linarith [one_le_pow_u hv n]
  refine ⟨le_min h.left h'.left, le_min h.right h'.right, ?_, ?_⟩
  · rw [mul_min_of_nonneg _ _ h1]; exact min_le_min h.lower h'.lower
  · rw [mul_min_of_nonneg _ _ h1]; exact min_le_min h.upper h'.upper

/-- From relative errors to absolute ones. -/
theorem approx (hv : 0 ≤ v) {n : ℕ} {x y : ℝ} (h : Near v n x y) : Approx v n x y x := by
  refine ⟨by rw [abs_of_nonneg h.left], abs_le.2 ⟨?_, by linarith [h.upper]⟩⟩
  have h1 := one_le_pow_u hv n
  have h2 : x - y ≤ ((1 + v) ^ n - 1) * y := by linarith [h.lower]
  rcases le_total y x with h3 | h3
  · have := mul_le_mul_of_nonneg_left h3 (sub_nonneg.2 h1)
    linarith
  · have := mul_nonneg (sub_nonneg.2 h1) h.left
    linarith

end Near

theorem FlDot.near (hc : Covers rnd v) {f : ℕ → ℝ} {s : Finset ℕ} {q : ℝ} (h : FlDot rnd f f s q) :
    Near v s.card (∑ i ∈ s, f i * f i) q := by
  have hv := hc.nonneg
  induction h with
  | empty => exact Near.refl hv 0 le_rfl
  | single i => simpa using hc.near (mul_self_nonneg (f i))
  | @add s t a b hs ht hd _ _ ih1 ih2 =>
    rw [Finset.sum_union hd, Finset.card_union_of_disjoint hd]
    have c1 := hs.card_pos
    have c2 := ht.card_pos
    refine (((ih1.mono hv (n := s.card + t.card - 1) (by omega)).add (ih2.mono hv (by omega))).round hc).mono hv ?_
    omega
  | @fma s i a hs hi _ ih =>
    rw [Finset.sum_insert hi, Finset.card_insert_of_notMem hi, add_comm (f i * f i)]
    exact (ih.add (Near.refl hv _ (mul_self_nonneg _))).round hc

theorem FlDot.congr {f g f' g' : ℕ → ℝ} {s : Finset ℕ} {q : ℝ} (h : FlDot rnd f g s q) (hf : ∀ i ∈ s, f i = f' i)
    (hg : ∀ i ∈ s, g i = g' i) : FlDot rnd f' g' s q := by
  induction h with
  | empty => exact .empty
  | single i => rw [hf i (by simp), hg i (by simp)]; exact .single i
  | add hs ht hd _ _ ih1 ih2 =>
    exact .add hs ht hd (ih1 (fun i hi => hf i (Finset.mem_union_left _ hi)) fun i hi => hg i (Finset.mem_union_left _ hi))
      (ih2 (fun i hi => hf i (Finset.mem_union_right _ hi)) fun i hi => hg i (Finset.mem_union_right _ hi))
  | fma hs hi _ ih =>
    rw [hf _ (Finset.mem_insert_self _ _), hg _ (Finset.mem_insert_self _ _)]
    exact .fma hs hi (ih (fun j hj => hf j (Finset.mem_insert_of_mem hj)) fun j hj => hg j (Finset.mem_insert_of_mem hj))

theorem Approx.abs {n : ℕ} {x y S : ℝ} (h : Approx u n x y S) : Approx u n |x| |y| S :=
  ⟨by rw [abs_abs]; exact h.size, (abs_abs_sub_abs_le_abs_sub y x).trans h.err⟩

end

/-! ### The functions of the package -/

section
variable {v : ℝ} {rnd : ℝ → ℝ} {eps : ℝ}

theorem flColNorms_near (hc : Covers rnd v) {F n : NDArray ℝ} {m R r : ℕ} (h : FlColNorms rnd F n) (hF : F.shape = [m, R])
    (hr : r < R) : Near v (m + 1) (colLen F m r) (n.get [r]) := by
  obtain ⟨q, hq, e⟩ := h.2 r (by simpa [hF] using hr)
  rw [e]
  have := (hq.near hc).sqrt hc.nonneg
  simp only [hF, List.getD_cons_zero, Finset.card_range] at this
  have e2 : colLen F m r = Real.sqrt (∑ i ∈ Finset.range m, F.get [i, r] * F.get [i, r]) := by
    rw [colLen]; exact congrArg Real.sqrt (Finset.sum_congr rfl fun i _ => sq _)
  rw [e2]
  exact this.round hc

/-- The norms and the normalised factor. -/
theorem flNormalizeFactor_spec (hc : Covers rnd v) (he : 0 < eps) {F G n : NDArray ℝ} {m R : ℕ}
    (h : FlNormalizeFactor rnd eps F G n) (hF : F.shape = [m, R]) : G.shape = [m, R] ∧ n.shape = [1, R] ∧
      (∀ r < R, Near v (m + 1) (colLen F m r) (n.get [0, r])) ∧ ∀ i < m, ∀ r < R,
        Approx v (m + 3) (F.get [i, r] / (colLen F m r + eps)) (G.get [i, r]) |F.get [i, r] / (colLen F m r + eps)| := by
  obtain ⟨k, hk, rfl, e⟩ := h
  have hv := hc.nonneg
  have hks : k.shape = [R] := by simpa [hF] using hk.1
  have hs : (newaxis0 k).shape = [1, R] := by rw [shape_newaxis0, hks]
  have hn : ∀ r < R, Near v (m + 1) (colLen F m r) ((newaxis0 k).get [0, r]) := fun r hr => by
    rw [get_newaxis0]; exact flColNorms_near hc hk hF hr
  rw [zipB_mat_row _ (by simpa using hs) hF] at e
  have e := Except.ok.inj e
  subst e
  refine ⟨rfl, hs, hn, fun i hi r hr => ?_⟩
  rw [get_ofMat hi hr, get_map _ _ (by rw [hs]; simp [hr])]
  have h1 : Near v (m + 2) (colLen F m r + eps) (rnd ((newaxis0 k).get [0, r] + eps)) :=
    ((hn r hr).add (Near.refl hv _ he.le)).round hc
  have h2 := (h1.inv hv (add_pos_of_nonneg_of_pos (colLen_nonneg _ _ _) he)).approx hv
  have h3 := (Approx.refl 0 hv (F.get [i, r])).mul hv h2
  have h4 := h3.round hc.rounds
  rw [flDiv, flAdd, div_eq_mul_inv, div_eq_mul_inv, abs_mul, abs_of_nonneg (a := (_ + eps)⁻¹)
    (inv_nonneg.2 (add_nonneg (colLen_nonneg _ _ _) he.le))]
  exact h4.mono hv (by omega)

/-- The inner product of two normalised columns. -/
theorem flDot_columns (hc : Covers rnd v) (he : 0 < eps) {F G F' G' n n' : NDArray ℝ} {m R r : ℕ} {d : ℝ}
    (h : FlNormalizeFactor rnd eps F F' n) (h' : FlNormalizeFactor rnd eps G G' n') (hF : F.shape = [m, R])
    (hG : G.shape = [m, R]) (hr : r < R)
    (hd : FlDot rnd (fun i => F'.get [i, r]) (fun i => G'.get [i, r]) (Finset.range m) d) :
    Approx v (3 * m + 6) (congruence eps F G m r r) |d| 1 := by
  have hv := hc.nonneg
  obtain ⟨-, -, -, h1⟩ := flNormalizeFactor_spec hc he h hF
  obtain ⟨-, -, -, h2⟩ := flNormalizeFactor_spec hc he h' hG
  have h3 := hd.approx hc.rounds (n := m + 3 + (m + 3)) fun i hi =>
    (h1 i (Finset.mem_range.1 hi) r hr).mul hv (h2 i (Finset.mem_range.1 hi) r hr)
  have hp : 0 < (colLen F m r + eps) * (colLen G m r + eps) :=
    mul_pos (add_pos_of_nonneg_of_pos (colLen_nonneg _ _ _) he) (add_pos_of_nonneg_of_pos (colLen_nonneg _ _ _) he)
  have e1 : ∑ i ∈ Finset.range m, F.get [i, r] / (colLen F m r + eps) * (G.get [i, r] / (colLen G m r + eps))
      = colDot F G m r r / ((colLen F m r + eps) * (colLen G m r + eps)) := by
    rw [colDot, Finset.sum_div]
    exact Finset.sum_congr rfl fun i _ => div_mul_div_comm _ _ _ _
  have e2 : ∑ i ∈ Finset.range m, |F.get [i, r] / (colLen F m r + eps)| * |G.get [i, r] / (colLen G m r + eps)| ≤ 1 := by
    have e3 : ∑ i ∈ Finset.range m, |F.get [i, r] / (colLen F m r + eps)| * |G.get [i, r] / (colLen G m r + eps)|
        = (∑ i ∈ Finset.range m, |F.get [i, r]| * |G.get [i, r]|) / ((colLen F m r + eps) * (colLen G m r + eps)) := by
      rw [Finset.sum_div]
      refine Finset.sum_congr rfl fun i _ => ?_
      rw [abs_div, abs_div, div_mul_div_comm, abs_of_nonneg (add_nonneg (colLen_nonneg F m r) he.le),
        abs_of_nonneg (add_nonneg (colLen_nonneg G m r) he.le)]
    rw [e3, div_le_one hp]
    have h4 : ∑ i ∈ Finset.range m, |F.get [i, r]| * |G.get [i, r]| ≤ colLen F m r * colLen G m r := by
      have := Real.sum_mul_le_sqrt_mul_sqrt (Finset.range m) (fun i => |F.get [i, r]|) (fun i => |G.get [i, r]|)
      simp only [sq_abs] at this; exact this
    have := colLen_nonneg F m r
    have := colLen_nonneg G m r
    nlinarith
  rw [e1] at h3
  have h5 := (h3.size_mono hv e2).abs
  rw [abs_div, abs_of_pos hp, Finset.card_range] at h5
  exact h5.mono hv (by omega)

/-- The loop over the modes. -/
theorem flMatchModes_spec (hc : Covers rnd v) (he : 0 < eps) {R r : ℕ} (hr : r < R) :
    ∀ {a b : List (NDArray ℝ)} {sizes : List ℕ} {a' b' na nb : List (NDArray ℝ)} {k : ℕ} {x s : ℝ} {y : Option ℝ},
    Factors a sizes R → Factors b sizes R → FlNormalizeFactors rnd eps a a' na → FlNormalizeFactors rnd eps b b' nb →
    Approx v k x s 1 → FlMatchModes rnd true r (a'.zip b') (some s) y →
    ∃ t, y = some t ∧ Approx v (k + (3 * sizes.sum + 7 * sizes.length)) (x * congruenceProd eps r r a b sizes) t 1 := by
  intro a b sizes a' b' na nb k x s y ha
  have hv := hc.nonneg
  induction ha generalizing b a' b' na nb k x s y with
  | nil =>
    intro hb h1 h2 hx h
    cases hb; cases h1; cases h2
    cases h
    exact ⟨s, rfl, by simpa [congruenceProd] using hx⟩
  | cons g1 g2 ih =>
    intro hb h1 h2 hx h
    cases hb with
    | cons f1 f2 =>
      cases h1 with
      | cons n1 n2 =>
        cases h2 with
        | cons p1 p2 =>
          rename_i F m fs ms G gs F' n Fs ns G' p Gs ps
          cases h with
          | cons c1 c2 hsh hd hrest =>
            rename_i f g d
            have s1 := (flNormalizeFactor_spec hc he n1 g1).1
            have s2 := (flNormalizeFactor_spec hc he p1 f1).1
            rw [columnVec_ok s1 hr] at c1
            rw [columnVec_ok s2 hr] at c2
            have c1 := Except.ok.inj c1
            have c2 := Except.ok.inj c2
            subst c1 c2
            have hd' : FlDot rnd (fun i => F'.get [i, r]) (fun i => G'.get [i, r]) (Finset.range m) d := by
              refine hd.congr (fun i hi => ?_) (fun i hi => ?_)
              · rw [get_ofFn (by simpa using hi)]; rfl
              · rw [get_ofFn (by simpa using hi)]; rfl
            have h3 := flDot_columns hc he n1 p1 g1 f1 hr hd'
            have h4 := (hx.mul hv h3).round hc.rounds
            rw [one_mul] at h4
            obtain ⟨t, rfl, ht⟩ := ih f2 n2 p2 h4 hrest
            refine ⟨t, rfl, ?_⟩
            rw [congruenceProd, ← mul_assoc]
            refine ht.mono hv ?_
            simp only [List.sum_cons, List.length_cons]; omega

/-! ### The weights -/

theorem flProd_near (hv : 0 ≤ v) (hc : Covers rnd v) : ∀ {l : List (ℝ × ℝ × ℕ)} {k : ℕ} {x y : ℝ}, Near v k x y →
    (∀ p ∈ l, Near v p.2.2 p.1 p.2.1) →
    Near v (k + (l.map fun p => p.2.2 + 1).sum) (x * (l.map fun p => p.1).prod) ((l.map fun p => p.2.1).foldl (flMul rnd) y)
  | [], k, x, y, h, _ => by simpa using h
  | p :: l, k, x, y, h, hl => by
    have h1 := (h.mul hv (hl p (by simp))).round hc
    have h2 := flProd_near hv hc (l := l) h1 fun q hq => hl q (List.mem_cons_of_mem _ hq)
    simp only [List.map_cons, List.prod_cons, List.sum_cons, List.foldl_cons]
    rw [← mul_assoc]
    exact h2.mono hv (by omega)

theorem flNormalizeFactors_norms (hc : Covers rnd v) (he : 0 < eps) {fs gs ns : List (NDArray ℝ)} {sizes : List ℕ} {R r : ℕ}
    (h : FlNormalizeFactors rnd eps fs gs ns) (hf : Factors fs sizes R) (hr : r < R) :
    (∀ n ∈ ns, n.shape = [1, R]) ∧ ∃ l : List (ℝ × ℝ × ℕ), (l.map fun p => p.2.1) = ns.map (fun n => n.get [0, r]) ∧
      (l.map fun p => p.1).prod = compSize fs sizes r ∧ (l.map fun p => p.2.2 + 1).sum = sizes.sum + 2 * sizes.length ∧
      ∀ p ∈ l, Near v p.2.2 p.1 p.2.1 := by
  induction hf generalizing gs ns with
  | nil => cases h; exact ⟨by simp, [], rfl, rfl, rfl, by simp⟩
  | cons h1 h2 ih =>
    cases h with
    | cons n1 n2 =>
      rename_i F m fs ms G n gs ns
      obtain ⟨i1, l, i2, i3, i4, i5⟩ := ih n2
      obtain ⟨-, k1, k2, -⟩ := flNormalizeFactor_spec hc he n1 h1
      refine ⟨?_, (colLen F m r, n.get [0, r], m + 1) :: l, by simp [i2], ?_, ?_, ?_⟩
      · intro q hq
        rcases List.mem_cons.1 hq with rfl | hq
        · exact k1
        · exact i1 q hq
      · rw [List.map_cons, List.prod_cons, i3]; rfl
      · rw [List.map_cons, List.sum_cons, i4, List.sum_cons, List.length_cons]; simp only []; omega
      · intro q hq
        rcases List.mem_cons.1 hq with rfl | hq
        · exact k2 r hr
        · exact i5 q hq

/-- The products of the norms. -/
theorem flProdRows_near (hc : Covers rnd v) (he : 0 < eps) {fs gs ns : List (NDArray ℝ)} {sizes : List ℕ} {R r : ℕ}
    {w : NDArray ℝ} (h : FlNormalizeFactors rnd eps fs gs ns) (hf : Factors fs sizes R) (hr : r < R)
    (hw : flProdRows rnd ns = .ok w) :
    w.shape = [R] ∧ Near v (sizes.sum + 2 * sizes.length) (compSize fs sizes r) (w.get [r]) := by
  have hv := hc.nonneg
  obtain ⟨h1, l, h2, h3, h4, h5⟩ := flNormalizeFactors_norms hc he h hf hr
  cases ns with
  | nil => cases hw
  | cons n ns =>
    rw [flProdRows] at hw
    split_ifs at hw
    have hw := Except.ok.inj hw
    have hn := h1 n (by simp)
    subst hw
    refine ⟨by simp [hn], ?_⟩
    rw [get_ofFn (by simp [hn, hr])]
    simp only [List.getD_cons_zero]
    rw [← h2, ← h3, ← h4]
    cases l with
    | nil => simp at h2
    | cons p l =>
      have h6 := flProd_near hv hc (l := l) (h5 p (by simp)) fun q hq => h5 q (List.mem_cons_of_mem _ hq)
      simp only [List.map_cons, flProd, List.prod_cons, List.sum_cons]
      exact h6.mono hv (by omega)

theorem sizeMatch_eq {w x : ℝ} (h : max w x ≠ 0) : sizeMatch w x = min w x * (max w x)⁻¹ := by
  have h1 : |w - x| = max w x - min w x := (max_sub_min_eq_abs' w x).symm
  rw [sizeMatch, h1]
  field_simp
  ring

/-- One minus the computed relative difference. -/
theorem flWeightScore_spec (hc : Covers rnd v) {k : ℕ} {w x w' x' : ℝ} (hw : Near v k w w') (hx : Near v k x x')
    (hne : max w x ≠ 0) : ∃ s, flWeightScore rnd w' x' = some s ∧ Approx v (2 * k + 3) (sizeMatch w x) (rnd (1 - s)) 1 := by
  have hv := hc.nonneg
  have hm := hw.max hv hx
  have hmin := hw.min hv hx
  have hpos : 0 < max w x := lt_of_le_of_ne hm.left (Ne.symm hne)
  have hpos' := (hm.pos_iff hv).2 hpos
  refine ⟨_, by rw [flWeightScore, if_neg hpos'.ne'], ?_⟩
  have hq := (hmin.mul hv (hm.inv hv hpos)).approx hv
  rw [← sizeMatch_eq hne] at hq
  have hsm : sizeMatch w x ≤ 1 := (sizeMatch_unit hw.left hx.left).2
  have hq := hq.size_mono hv hsm
  have hq' : min w' x' * (max w' x')⁻¹ = 1 - |w' - x'| / max w' x' := by
    rw [← sizeMatch_eq hpos'.ne', sizeMatch]
  rw [hq'] at hq
  -- the two roundings of the relative difference
  have h1 : Approx v 2 (|w' - x'| / max w' x') (rnd (|rnd (w' - x')| / max w' x')) 1 := by
    have h2 := (((Approx.refl 0 hv (w' - x')).round hc.rounds).abs.mul hv
      (Approx.refl 0 hv ((max w' x')⁻¹))).round hc.rounds
    rw [abs_of_pos (inv_pos.2 hpos'), ← div_eq_mul_inv, ← div_eq_mul_inv] at h2
    refine h2.size_mono hv ?_
    have := (sizeMatch_unit hw.right hx.right).1
    rw [sizeMatch] at this
    linarith
  refine (Approx.round hc.rounds (n := k + k + 2) ⟨hq.size, ?_⟩).mono hv (by omega)
  have h2 := hq.err
  have h3 := h1.err
  have e1 : (1 - rnd (|rnd (w' - x')| / max w' x')) - sizeMatch w x
      = (1 - |w' - x'| / max w' x' - sizeMatch w x) - (rnd (|rnd (w' - x')| / max w' x') - |w' - x'| / max w' x') := by ring
  rw [e1]
  refine (abs_sub _ _).trans ((add_le_add h2 h3).trans ?_)
  have p1 := one_le_pow_u hv (k + k)
  have p2 := one_le_pow_u hv 2
  rw [pow_add _ (k + k) 2]
  nlinarith

end
end TK
