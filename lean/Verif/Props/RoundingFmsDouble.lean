import Verif.Props.RoundingFms

/-!
# C136 in double precision: a decomposition compared with itself can score more than one
-/

namespace TK
open NDArray

noncomputable section

/-- Rounding of double precision. -/
local notation "dbl" => roundBits 53

/-- A matrix with one column, all entries `16`. -/
def sixteens (m : ℕ) : NDArray ℝ := full [m, 1] 16

theorem zpow_neg_nat (n : ℕ) : (2 : ℝ) ^ (-(n : ℤ)) = 1 / 2 ^ n := by rw [zpow_neg, zpow_natCast, one_div]

theorem eps_bounds : 0 < dbl 1e-15 ∧ dbl 1e-15 < 1.1e-15 := by
  have h := (roundBits_rounds (p := 53) (by norm_num)).err 1e-15
  rw [abs_of_pos (a := (1e-15 : ℝ)) (by norm_num)] at h
  obtain ⟨h1, h2⟩ := abs_le.1 h
  constructor
  · have : (0 : ℝ) < 1e-15 - 1 / 2 ^ 53 * 1e-15 := by norm_num
    linarith
  · have : (1e-15 : ℝ) + 1 / 2 ^ 53 * 1e-15 < 1.1e-15 := by norm_num
    linarith

/-- The norm of the column of length three. -/
theorem dbl_sqrt768 : dbl (Real.sqrt 768) = 7800463371553962 / 2 ^ 48 := by
  have e0 : Real.sqrt 768 = 16 * Real.sqrt 3 := by
    rw [show (768 : ℝ) = 16 ^ 2 * 3 by norm_num, Real.sqrt_mul (by norm_num), Real.sqrt_sq (by norm_num)]
  obtain ⟨h1, h2⟩ := sqrt3_bounds
  have hp : 0 ≤ Real.sqrt 768 := Real.sqrt_nonneg _
  have e : ((4 : ℤ) - (((53 : ℕ) : ℤ) - 1)) = -((48 : ℕ) : ℤ) := by norm_num
  rw [roundBits_eq (k := 4) (z := 7800463371553962)]
  · rw [e, zpow_neg_nat]; norm_num
  · rw [abs_of_nonneg hp, e0]
    refine le_trans ?_ (mul_le_mul_of_nonneg_left h1.le (by norm_num)); norm_num
  · rw [abs_of_nonneg hp, e0]
    refine lt_of_lt_of_le (mul_lt_mul_of_pos_left h2 (by norm_num)) ?_
    norm_num
  · rw [e, zpow_neg_nat, e0, abs_lt]
    rw [div_lt_iff₀ (by positivity)] at h1
    rw [lt_div_iff₀ (by positivity)] at h2
    push_cast
    constructor <;> linarith

/-- The guard is absorbed. -/
theorem dbl_guard_three : dbl (7800463371553962 / 2 ^ 48 + dbl 1e-15) = 7800463371553962 / 2 ^ 48 := by
  obtain ⟨h1, h2⟩ := eps_bounds
  have e : ((4 : ℤ) - (((53 : ℕ) : ℤ) - 1)) = -((48 : ℕ) : ℤ) := by norm_num
  have hp : 0 ≤ (7800463371553962 / 2 ^ 48 + dbl 1e-15 : ℝ) := by positivity
  rw [roundBits_eq (k := 4) (z := 7800463371553962)]
  · rw [e, zpow_neg_nat]; norm_num
  · rw [abs_of_nonneg hp]
    refine le_trans ?_ (le_add_of_nonneg_right h1.le); norm_num
  · rw [abs_of_nonneg hp]
    refine lt_of_lt_of_le (add_lt_add_of_le_of_lt le_rfl h2) ?_
    norm_num
  · rw [e, zpow_neg_nat, abs_lt]
    push_cast
    constructor <;> linarith

theorem dbl_guard_one : dbl (16 + dbl 1e-15) = 16 := by
  obtain ⟨h1, h2⟩ := eps_bounds
  have e : ((4 : ℤ) - (((53 : ℕ) : ℤ) - 1)) = -((48 : ℕ) : ℤ) := by norm_num
  have hp : 0 ≤ (16 + dbl 1e-15 : ℝ) := by positivity
  rw [roundBits_eq (k := 4) (z := 2 ^ 52)]
  · rw [e, zpow_neg_nat]; norm_num
  · rw [abs_of_nonneg hp]
    refine le_trans ?_ (le_add_of_nonneg_right h1.le); norm_num
  · rw [abs_of_nonneg hp]
    refine lt_of_lt_of_le (add_lt_add_of_le_of_lt le_rfl h2) ?_
    norm_num
  · rw [e, zpow_neg_nat, abs_lt]
    push_cast
    constructor <;> linarith

/-- The entries of the normalised column. -/
theorem dbl_quotient : dbl (16 / (7800463371553962 / 2 ^ 48)) = 5200308914369309 / 2 ^ 53 := by
  have e : ((-1 : ℤ) - (((53 : ℕ) : ℤ) - 1)) = -((53 : ℕ) : ℤ) := by norm_num
  rw [roundBits_eq (k := -1) (z := 5200308914369309)]
  · rw [e, zpow_neg_nat]; norm_num
  · rw [abs_of_nonneg (by positivity)]; norm_num
  · rw [abs_of_nonneg (by positivity)]; norm_num
  · rw [e, zpow_neg_nat, abs_lt]
    constructor <;> norm_num

/-- An entry of the normalised column, its rounded square, twice and three times the square. -/
def colEntry : ℝ := 5200308914369309 / 2 ^ 53
@[inherit_doc colEntry] def colSquare : ℝ := 6004799503160663 / 2 ^ 54
@[inherit_doc colEntry] def colTwo : ℝ := 6004799503160663 / 2 ^ 53
@[inherit_doc colEntry] def colThree : ℝ := 1 + 1 / 2 ^ 52

theorem dbl_near (k z : ℤ) (n : ℕ) {x y : ℝ} (hk : k - 52 = -(n : ℤ)) (hy : y = z / 2 ^ n) (h1 : (2 : ℝ) ^ k ≤ x)
    (h2 : x < (2 : ℝ) ^ (k + 1)) (h3 : x * 2 ^ n - z < 1 / 2) (h4 : -(1 / 2) < x * 2 ^ n - z) : dbl x = y := by
  have hp : 0 ≤ x := le_trans (by positivity) h1
  have e : (k - (((53 : ℕ) : ℤ) - 1)) = -(n : ℤ) := by rw [← hk]; norm_num
  rw [roundBits_eq (k := k) (z := z), e, zpow_neg_nat, hy]
  · ring
  · rw [abs_of_nonneg hp]; exact h1
  · rw [abs_of_nonneg hp]; exact h2
  · rw [e, zpow_neg_nat, div_div_eq_mul_div, div_one, abs_lt]; exact ⟨h4, h3⟩

theorem dbl_square : dbl (colEntry * colEntry) = colSquare := by
  refine dbl_near (-2) 6004799503160663 54 (by norm_num) (by norm_num [colSquare]) ?_ ?_ ?_ ?_ <;> norm_num [colEntry]

theorem dbl_two : dbl (colSquare + colSquare) = colTwo ∧ dbl (colSquare + colEntry * colEntry) = colTwo := by
  constructor <;> refine dbl_near (-1) 6004799503160663 53 (by norm_num) (by norm_num [colTwo]) ?_ ?_ ?_ ?_ <;>
    norm_num [colEntry, colSquare]

theorem dbl_three_squares : dbl (colTwo + colSquare) = colThree ∧ dbl (colTwo + colEntry * colEntry) = colThree := by
  constructor <;> refine dbl_near 0 4503599627370497 52 (by norm_num) (by norm_num [colThree]) ?_ ?_ ?_ ?_ <;>
    norm_num [colEntry, colSquare, colTwo]

/-- The square of the normalised column, in every order of summation. -/
theorem column_dot {f g : ℕ → ℝ} {s : Finset ℕ} {q : ℝ} (h : FlDot dbl f g s q) (hf : ∀ i ∈ s, f i = colEntry)
    (hg : ∀ i ∈ s, g i = colEntry) : (s.card = 1 → q = colSquare) ∧ (s.card = 2 → q = colTwo) ∧ (s.card = 3 → q = colThree) := by
  induction h with
  | empty => simp
  | single i => rw [hf i (by simp), hg i (by simp), dbl_square]; simp
  | @add s t a b hs ht hd _ _ ih1 ih2 =>
    obtain ⟨a1, a2, a3⟩ := ih1 (fun i hi => hf i (Finset.mem_union_left _ hi)) fun i hi => hg i (Finset.mem_union_left _ hi)
    obtain ⟨b1, b2, b3⟩ := ih2 (fun i hi => hf i (Finset.mem_union_right _ hi)) fun i hi => hg i (Finset.mem_union_right _ hi)
    have c1 := hs.card_pos
    have c2 := ht.card_pos
    rw [Finset.card_union_of_disjoint hd]
    refine ⟨fun h => by omega, fun h => ?_, fun h => ?_⟩
    · rw [a1 (by omega), b1 (by omega), dbl_two.1]
    · rcases (by omega : s.card = 1 ∧ t.card = 2 ∨ s.card = 2 ∧ t.card = 1) with ⟨h1, h2⟩ | ⟨h1, h2⟩
      · rw [a1 h1, b2 h2, add_comm, dbl_three_squares.1]
      · rw [a2 h1, b1 h2, dbl_three_squares.1]
  | @fma s i a hs hi _ ih =>
    obtain ⟨a1, a2, -⟩ := ih (fun j hj => hf j (Finset.mem_insert_of_mem hj)) fun j hj => hg j (Finset.mem_insert_of_mem hj)
    have c1 := hs.card_pos
    rw [Finset.card_insert_of_notMem hi, hf i (by simp), hg i (by simp)]
    refine ⟨fun h => by omega, fun h => ?_, fun h => ?_⟩
    · rw [a1 (by omega), dbl_two.2]
    · rw [a2 (by omega), dbl_three_squares.2]

/-- Sum of the squares of `m` entries `16`. -/
theorem sixteens_dot {m : ℕ} {q : ℝ} (hm : m ≤ 3)
    (h : FlDot dbl (fun i => (sixteens m).get [i, 0]) (fun i => (sixteens m).get [i, 0]) (Finset.range m) q) : q = 256 * m := by
  have := h.int (fun _ => 256) (fun i hi => by
    have hi := Finset.mem_range.1 hi
    rw [sixteens, get_full (by simp [hi])]; norm_num) (by
      rw [Finset.sum_const, Finset.card_range]
      have : (m : ℤ) ≤ 3 := by exact_mod_cast hm
      simp; omega)
  simpa [mul_comm] using this

theorem sixteens_norm {m : ℕ} (hm : m = 1 ∨ m = 3) {G n : NDArray ℝ}
    (h : FlNormalizeFactor dbl (dbl 1e-15) (sixteens m) G n) : G.shape = [m, 1] ∧ n.shape = [1, 1] ∧
      n.get [0, 0] = (if m = 1 then 16 else 7800463371553962 / 2 ^ 48) ∧
      ∀ i < m, G.get [i, 0] = if m = 1 then 1 else colEntry := by
  obtain ⟨k, hk, rfl, e⟩ := h
  have hF : (sixteens m).shape = [m, 1] := rfl
  have hks : k.shape = [1] := by simpa [hF] using hk.1
  have hs : (newaxis0 k).shape = [1, 1] := by rw [shape_newaxis0, hks]
  have hv : (newaxis0 k).get [0, 0] = (if m = 1 then 16 else 7800463371553962 / 2 ^ 48) := by
    rw [get_newaxis0]
    obtain ⟨q, hq, e⟩ := hk.2 0 (by simp [hF])
    rw [e]
    simp only [hF, List.getD_cons_zero] at hq
    have hq := sixteens_dot (by omega) hq
    rw [hq]
    rcases hm with rfl | rfl
    · rw [if_pos rfl, Nat.cast_one, mul_one, show (256 : ℝ) = 16 ^ 2 by norm_num, Real.sqrt_sq (by norm_num)]
      simpa using dbl_int (z := 16) (by norm_num)
    · rw [if_neg (by norm_num), show (256 : ℝ) * ((3 : ℕ) : ℝ) = 768 by norm_num, dbl_sqrt768]
  rw [zipB_mat_row _ (by simpa using hs) hF] at e
  have e := Except.ok.inj e
  subst e
  refine ⟨rfl, hs, hv, fun i hi => ?_⟩
  rw [get_ofMat hi (by norm_num), get_map _ _ (by rw [hs]; simp), hv, sixteens, get_full (by simp [hi]), flDiv, flAdd]
  rcases hm with rfl | rfl
  · rw [if_pos rfl, if_pos rfl, dbl_guard_one, div_self (by norm_num), dbl_one]
  · rw [if_neg (by norm_num), if_neg (by norm_num), dbl_guard_three, dbl_quotient, colEntry]

/-- The factor matrices: three modes with three, one and one rows, one component. -/
def sixteenFactors : List (NDArray ℝ) := [sixteens 3, sixteens 1, sixteens 1]

theorem sixteenFactors_sized : Factors sixteenFactors [3, 1, 1] 1 := .cons rfl (.cons rfl (.cons rfl .nil))

theorem dbl_score : flMul dbl 1 colThree = colThree ∧ flMul dbl colThree 1 = colThree := by
  have h : dbl colThree = colThree :=
    roundBits_exact (z := 4503599627370497) (e := -((52 : ℕ) : ℤ)) (by rw [zpow_neg_nat]; norm_num [colThree]) (by norm_num)
  rw [flMul, flMul, one_mul, mul_one]
  exact ⟨h, h⟩

theorem sixteens_modes {an bn na nb : List (NDArray ℝ)} {y : Option ℝ}
    (ha : FlNormalizeFactors dbl (dbl 1e-15) sixteenFactors an na) (hb : FlNormalizeFactors dbl (dbl 1e-15) sixteenFactors bn nb)
    (h : FlMatchModes dbl true 0 (an.zip bn) (some 1) y) : y = some colThree := by
  rcases ha with _ | ⟨a1, _ | ⟨a2, _ | ⟨a3, _ | _⟩⟩⟩
  rcases hb with _ | ⟨b1, _ | ⟨b2, _ | ⟨b3, _ | _⟩⟩⟩
  obtain ⟨a1s, -, -, a1v⟩ := sixteens_norm (Or.inr rfl) a1
  obtain ⟨a2s, -, -, a2v⟩ := sixteens_norm (Or.inl rfl) a2
  obtain ⟨a3s, -, -, a3v⟩ := sixteens_norm (Or.inl rfl) a3
  obtain ⟨b1s, -, -, b1v⟩ := sixteens_norm (Or.inr rfl) b1
  obtain ⟨b2s, -, -, b2v⟩ := sixteens_norm (Or.inl rfl) b2
  obtain ⟨b3s, -, -, b3v⟩ := sixteens_norm (Or.inl rfl) b3
  rcases h with _ | ⟨c1, c1', s1, d1, _ | ⟨c2, c2', s2, d2, _ | ⟨c3, c3', s3, d3, h⟩⟩⟩
  have hcol : ∀ {F f : NDArray ℝ} {m : ℕ}, F.shape = [m, 1] → columnVec F 0 = .ok f → f.shape = [m] ∧
      ∀ i < m, f.get [i] = F.get [i, 0] := by
    intro F f m hF e
    rw [columnVec_ok hF (by norm_num)] at e
    have e := Except.ok.inj e
    subst e
    refine ⟨rfl, fun i hi => ?_⟩
    rw [get_ofFn (by simpa using hi)]; rfl
  obtain ⟨u1, v1⟩ := hcol a1s c1
  obtain ⟨u1', v1'⟩ := hcol b1s c1'
  obtain ⟨u2, v2⟩ := hcol a2s c2
  obtain ⟨u2', v2'⟩ := hcol b2s c2'
  obtain ⟨u3, v3⟩ := hcol a3s c3
  obtain ⟨u3', v3'⟩ := hcol b3s c3'
  rw [u1] at d1
  rw [u2] at d2
  rw [u3] at d3
  have e1 := (column_dot d1 (fun i hi => by
    have hi : i < 3 := by simpa using hi
    rw [v1 i hi, a1v i hi, if_neg (by norm_num)]) fun i hi => by
    have hi : i < 3 := by simpa using hi
    rw [v1' i hi, b1v i hi, if_neg (by norm_num)]).2.2 (by simp)
  have e2 := ones_dot (n := 1) d2 (fun i hi => by rw [v2 i hi, a2v i hi, if_pos rfl])
    (fun i hi => by rw [v2' i hi, b2v i hi, if_pos rfl]) (by norm_num)
  have e3 := ones_dot (n := 1) d3 (fun i hi => by rw [v3 i hi, a3v i hi, if_pos rfl])
    (fun i hi => by rw [v3' i hi, b3v i hi, if_pos rfl]) (by norm_num)
  subst e1 e2 e3
  have hp : |colThree| = colThree := abs_of_nonneg (by norm_num [colThree])
  simp only [if_true, Option.map_some, hp, Nat.cast_one, abs_one, dbl_score.1, dbl_score.2] at h
  cases h
  rfl

/-- **C136.** In double precision, a decomposition compared with itself can score more than one: three modes, one component,
all entries `16`; for every order of summation, both reductions, with and without the size penalty. In exact arithmetic the
score is at most one (C26). -/
theorem C136_above_one (useMin penalty : Bool) :
    (∃ s o, FlFactorMatchScore (roundBits 53) sixteenFactors sixteenFactors penalty (redName useMin) (roundBits 53 1e-15) s o) ∧
    ∀ s o, FlFactorMatchScore (roundBits 53) sixteenFactors sixteenFactors penalty (redName useMin) (roundBits 53 1e-15) s o →
      s = 1 + 1 / 2 ^ 52 := by
  refine ⟨C136_returns _ _ (by norm_num) sixteenFactors_sized sixteenFactors_sized (by simp) useMin penalty, ?_⟩
  rintro s o ⟨red, rank, est, e1, e2, e3, sc, hsc, hbest⟩
  rw [parseReduction_name] at e1
  cases e1
  have e2' : (pyGet sixteenFactors 0 >>= cols) = .ok 1 := rfl
  rw [e2'] at e2 e3
  cases e2; cases e3
  have hperm : permutations 1 (List.range 1) = [[0]] := by rfl
  rw [hperm] at hsc hbest
  obtain ⟨pb, scores, p1, p2, p3⟩ := hsc [0] (by simp)
  have hpb : permuteFactors [0] sixteenFactors = .ok sixteenFactors := by
    have h := permuteFactors_eq (π := [0]) (R := 1) sixteenFactors_sized ⟨rfl, by simp, by simp⟩
    rw [h]
    refine congrArg Except.ok ?_
    have hm : ∀ m, permMat [0] (sixteens m) m = sixteens m := fun m => by
      refine ext_mat (m := m) (n := 1) rfl rfl fun i hi j hj => ?_
      obtain rfl : j = 0 := by omega
      rw [permMat, get_ofMat hi (by norm_num)]; rfl
    simp [sixteenFactors, hm]
  rw [hpb] at p1
  cases p1
  have hscore : scores = [some colThree] := by
    obtain ⟨a', b', rank, an, na, bn, nb, wa, wb, f1, f2, f3, h1, h2, w1, w2, hl, hs⟩ := p2
    rw [asColumns_eq sixteenFactors_sized (by simp)] at f1 f2
    cases f1; cases f2
    rw [e2'] at f3
    cases f3
    obtain ⟨x, y, hx, hy, hm⟩ := hs 0 (by norm_num)
    have hxy : x = y ∧ x ≠ 0 := by
      cases penalty with
      | false =>
        have hw : ∀ {w : NDArray ℝ} {z : ℝ}, w = full [1] 1 → itemVec w 0 = .ok z → z = 1 := by
          rintro w z rfl hz
          rw [itemVec, if_pos (by simp), get_full (by simp)] at hz
          exact (Except.ok.inj hz).symm
        rw [hw (Except.ok.inj w1).symm hx, hw (Except.ok.inj w2).symm hy]
        exact ⟨rfl, one_ne_zero⟩
      | true =>
        have key : ∀ {gs ns : List (NDArray ℝ)} {w : NDArray ℝ} {z : ℝ},
            FlNormalizeFactors dbl (dbl 1e-15) sixteenFactors gs ns → flFmsWeights dbl true 1 ns = .ok w →
            itemVec w 0 = .ok z → z = flMul dbl (flMul dbl (7800463371553962 / 2 ^ 48) 16) 16 := by
          intro gs ns w z hg hw hz
          rcases hg with _ | ⟨a1, _ | ⟨a2, _ | ⟨a3, _ | _⟩⟩⟩
          obtain ⟨-, s1, v1, -⟩ := sixteens_norm (Or.inr rfl) a1
          obtain ⟨-, s2, v2, -⟩ := sixteens_norm (Or.inl rfl) a2
          obtain ⟨-, s3, v3, -⟩ := sixteens_norm (Or.inl rfl) a3
          rw [flFmsWeights, if_pos rfl, flProdRows] at hw
          split_ifs at hw
          have hw := Except.ok.inj hw
          subst hw
          rw [itemVec, if_pos (by simp [s1]), get_ofFn (by simp [s1])] at hz
          have hz := Except.ok.inj hz
          rw [← hz]
          simp only [List.map_cons, List.map_nil, List.getD_cons_zero, flProd, List.foldl_cons, List.foldl_nil, v1, v2, v3]
          norm_num
        have k1 := key h1 w1 hx
        have k2 := key h2 w2 hy
        refine ⟨k1.trans k2.symm, ?_⟩
        rw [k1]
        have hcov := (roundBits_rounds (p := 53) (by norm_num)).covers (by norm_num)
        have n1 : ∀ {t : ℝ}, 0 < t → 0 < dbl t := fun ht => ((hcov.near ht.le).pos_iff hcov.nonneg).2 ht
        exact (n1 (mul_pos (n1 (by norm_num)) (by norm_num))).ne'
    obtain ⟨rfl, hx0⟩ := hxy
    have hd0 : dbl 0 = 0 := by simpa using dbl_int (z := 0) (by norm_num)
    have hws : flWeightScore dbl x x = some 0 := by
      rw [flWeightScore, max_self, if_neg hx0, sub_self, hd0, abs_zero, zero_div, hd0]
    rw [hws, Option.map_some, sub_zero, dbl_one] at hm
    have hy := sixteens_modes h1 h2 hm
    obtain ⟨z, rfl⟩ := List.length_eq_one_iff.1 hl
    simpa using hy
  subst hscore
  have hred : sc [0] = some colThree := by
    cases useMin with
    | true =>
      rw [redOf, if_pos rfl, FlReduce] at p3
      exact (Except.ok.inj p3).symm
    | false =>
      rw [redOf, if_neg (by simp), FlReduce] at p3
      rcases p3 with ⟨h1 | h1, -⟩ | ⟨-, w, t, e, ht, e'⟩
      · simp at h1
      · simp at h1
      · obtain rfl : w = [colThree] := by
          have : w.map some = [colThree].map some := e.symm
          exact (List.map_injective_iff.2 (Option.some_injective _)) this
        have ht' : t = colThree := by
          have key : ∀ {f : ℕ → ℝ} {s : Finset ℕ} {q : ℝ}, FlSum dbl f s q → s.card = 1 → (∀ i ∈ s, f i = colThree) →
              q = colThree := by
            intro f s q hq
            cases hq with
            | empty => intro h; simp at h
            | single i => intro _ h; exact h i (by simp)
            | @add s t a b hs ht hd _ _ =>
              intro h
              rw [Finset.card_union_of_disjoint hd] at h
              have := hs.card_pos
              have := ht.card_pos
              omega
          exact key ht (by simp) fun i hi => by
            obtain rfl : i = 0 := by simpa using hi
            rfl
        rw [e', ht']
        have : flDiv dbl colThree ((([colThree] : List ℝ).length : ℕ) : ℝ) = colThree := by
          have := dbl_score.2
          rw [flMul, mul_one] at this
          simp [flDiv, this]
        rw [this]
  rw [bestPerm, bind_ok, hred] at hbest
  simp only [] at hbest
  rw [if_pos (by norm_num [colThree]), bestPerm] at hbest
  have := Except.ok.inj hbest
  cases this
  rfl

/-- The hypotheses of `C136_score`, `C136_exact` and `C136_double` are met by the factors above: 63 roundings. -/
example (useMin : Bool) {s : ℝ} {o : Option (List ℕ)}
    (h : FlFactorMatchScore dbl sixteenFactors sixteenFactors true (redName useMin) (dbl 1e-15) s o) :
    ∃ x ρ, factorMatchScore sixteenFactors sixteenFactors true (redName useMin) (dbl 1e-15) = .ok (x, some ρ) ∧
      |s - x| ≤ 63 / 2 ^ 52 := by
  have hp : ∀ r < 1, compSize sixteenFactors [3, 1, 1] r ≠ 0 := fun r hr => by
    obtain rfl : r = 0 := by omega
    refine (compSize_pos sixteenFactors_sized fun k hk => ?_).ne'
    have hk : k < 3 := hk
    have h16 : ∀ m, 0 < m → (sixteens m).get [0, 0] ≠ 0 := fun m hm => by
      rw [sixteens, get_full (by simp [hm])]; norm_num
    interval_cases k
    · exact ⟨0, by simp, h16 3 (by norm_num)⟩
    · exact ⟨0, by simp, h16 1 (by norm_num)⟩
    · exact ⟨0, by simp, h16 1 (by norm_num)⟩
  have := C136_double (n := 63) eps_bounds.1 (by norm_num) le_rfl sixteenFactors_sized sixteenFactors_sized (by simp)
    (comparable_of_nonzero hp) (by simp) (by norm_num) h
  simpa using this

end
end TK
