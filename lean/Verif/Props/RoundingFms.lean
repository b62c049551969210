import Verif.Lemmas.RelRounding
import Verif.Lemmas.Binary
import Verif.Props.Fms
import Verif.Props.RoundingDouble

/-!
# The factor match score in floating point (C136)
-/

namespace TK
open NDArray

noncomputable section
variable {u v : ℝ} {rnd : ℝ → ℝ} {eps : ℝ}

/-- The scores of the components. -/
theorem flScores_spec (hc : Covers rnd v) (he : 0 < eps) {a b : List (NDArray ℝ)} {sizes : List ℕ} {R : ℕ}
    (ha : Factors a sizes R) (hb : Factors b sizes R) (hne : sizes ≠ []) {penalty : Bool} {scores : List (Option ℝ)}
    (hn : ∀ r < R, ¬ nanMatch penalty a b sizes r r) (h : FlFactorMatchScores rnd a b penalty true eps scores) :
    ∃ t : ℕ → ℝ, scores = (List.range R).map (fun r => some (t r)) ∧
      ∀ r < R, Approx v (5 * sizes.sum + 11 * sizes.length + 3) (compMatch penalty eps a b sizes r r) (t r) 1 := by
  have hv := hc.nonneg
  obtain ⟨a', b', rank, an, na, bn, nb, wa, wb, e1, e2, e3, h1, h2, w1, w2, hl, hs⟩ := h
  rw [asColumns_eq ha hne] at e1
  rw [asColumns_eq hb hne] at e2
  cases e1; cases e2
  obtain ⟨F, f1, f2⟩ := first_cols ha hne
  rw [f1, bind_ok, f2] at e3
  cases e3
  have key : ∀ r, ∃ t : ℝ, r < R → scores.getD r none = some t ∧
      Approx v (5 * sizes.sum + 11 * sizes.length + 3) (compMatch penalty eps a b sizes r r) t 1 := by
    intro r
    by_cases hr : r < R
    swap
    · exact ⟨0, fun h => absurd h hr⟩
    obtain ⟨x, y, hx, hy, hm⟩ := hs r hr
    have hstart : ∃ s, flWeightScore rnd x y = some s ∧ Approx v (2 * (sizes.sum + 2 * sizes.length) + 3)
        (if penalty then sizeMatch (compSize a sizes r) (compSize b sizes r) else 1) (rnd (1 - s)) 1 := by
      cases penalty with
      | true =>
        obtain ⟨s1, n1⟩ := flProdRows_near hc he h1 ha hr (by simpa [flFmsWeights] using w1)
        obtain ⟨s2, n2⟩ := flProdRows_near hc he h2 hb hr (by simpa [flFmsWeights] using w2)
        rw [itemVec, if_pos (by simpa [s1] using hr)] at hx
        rw [itemVec, if_pos (by simpa [s2] using hr)] at hy
        cases hx; cases hy
        have hne : max (compSize a sizes r) (compSize b sizes r) ≠ 0 := fun h0 => hn r hr ⟨rfl, h0⟩
        simpa using flWeightScore_spec hc n1 n2 hne
      | false =>
        have hone : ∀ {w : NDArray ℝ} {z : ℝ}, flFmsWeights rnd false R na = .ok w ∨ flFmsWeights rnd false R nb = .ok w →
            itemVec w r = .ok z → z = 1 := by
          intro w z hw hz
          have : w = full [R] 1 := by
            rcases hw with hw | hw <;> exact (Except.ok.inj hw).symm
          rw [this, itemVec, if_pos (by simpa using hr), get_full (by simp [hr])] at hz
          exact (Except.ok.inj hz).symm
        rw [hone (Or.inl w1) hx, hone (Or.inr w2) hy]
        obtain ⟨s, q1, q2⟩ := flWeightScore_spec hc (Near.refl hv 0 zero_le_one) (Near.refl hv 0 zero_le_one)
          (w := 1) (x := 1) (by simp)
        refine ⟨s, q1, ?_⟩
        have e : sizeMatch 1 1 = 1 := by simp [sizeMatch]
        rw [e] at q2
        simpa using q2.mono hv (by omega)
    obtain ⟨s, q1, q2⟩ := hstart
    rw [q1, Option.map_some] at hm
    obtain ⟨t, k1, k2⟩ := flMatchModes_spec hc he hr ha hb h1 h2 q2 hm
    exact ⟨t, fun _ => ⟨k1, k2.mono hv (by omega)⟩⟩
  choose t ht using key
  refine ⟨t, ?_, fun r hr => (ht r hr).2⟩
  refine List.ext_getElem (by simp [hl]) fun r h1 h2 => ?_
  have hr : r < R := by rw [← hl]; exact h1
  rw [List.getElem_map, List.getElem_range, ← (ht r hr).1, getD_eq_getElem' _ h1]

theorem approx_redVal (hc : Covers rnd v) {R : ℕ} (hR : 0 < R) {n : ℕ} {f t : ℕ → ℝ} (m : Bool) {o : Option ℝ}
    (ht : ∀ r < R, Approx v n (f r) (t r) 1)
    (h : FlReduce rnd (redOf m) ((List.range R).map fun r => some (t r)) o) :
    ∃ s, o = some s ∧ |s - redVal m R f| ≤ (1 + v) ^ (n + R + 1) - 1 := by
  have hv := hc.nonneg
  cases m with
  | true =>
    rw [redOf, if_pos rfl, FlReduce] at h
    have h' := reduceScores_some hR true t
    rw [redOf, if_pos rfl, h] at h'
    have h' := Except.ok.inj h'
    refine ⟨_, h', ?_⟩
    have hmono := pow_u_mono hv (show n ≤ n + R + 1 by omega)
    have : ∀ r < R, |t r - f r| ≤ (1 + v) ^ (n + R + 1) - 1 := fun r hr => by
      have := (ht r hr).err; rw [mul_one] at this; linarith
    have hne : Nonempty (Fin R) := ⟨⟨0, hR⟩⟩
    have k1 : ∀ (p q : ℕ → ℝ), (∀ r < R, q r ≤ p r + ((1 + v) ^ (n + R + 1) - 1)) →
        redVal true R q ≤ redVal true R p + ((1 + v) ^ (n + R + 1) - 1) := by
      intro p q hpq
      simp only [redVal, if_true, reduceMin]
      rw [← sub_le_iff_le_add]
      refine le_ciInf fun r => ?_
      rw [sub_le_iff_le_add]
      exact (ciInf_le (Set.finite_range _).bddBelow r).trans (hpq r r.2)
    have k2 := k1 f t fun r hr => by linarith [(abs_le.1 (this r hr)).2]
    have k3 := k1 t f fun r hr => by linarith [(abs_le.1 (this r hr)).1]
    exact abs_le.2 ⟨by linarith, by linarith⟩
  | false =>
    rw [redOf, if_neg (by simp), FlReduce] at h
    have hlen : ((List.range R).map fun r => some (t r)) ≠ [] := by
      intro h0; have := congrArg List.length h0; simp at this; omega
    rcases h with ⟨h1 | h1, -⟩ | ⟨-, w, s, e, hs, rfl⟩
    · exact absurd h1 hlen
    · simp at h1
    · have hw : w = (List.range R).map t := by
        have : (w.map some) = ((List.range R).map t).map some := by rw [← e]; simp
        exact (List.map_injective_iff.2 (Option.some_injective _)) this
      subst hw
      have hwl : ((List.range R).map t).length = R := by simp
      rw [hwl] at hs ⊢
      refine ⟨_, rfl, ?_⟩
      have h1 := hs.approx hc.rounds (e := f) (S := fun _ => 1) (n := n) fun r hr => by
        have hr := Finset.mem_range.1 hr
        rw [getD_eq_getElem' _ (by simpa using hr)]
        simpa using ht r hr
      have hR' : (0 : ℝ) < R := by exact_mod_cast hR
      have h2 := (h1.const_mul (c := (R : ℝ)⁻¹) (inv_nonneg.2 hR'.le)).round hc.rounds
      have h3 := h2.err
      have e1 : (R : ℝ)⁻¹ * ∑ i ∈ Finset.range R, (1 : ℝ) = 1 := by
        rw [Finset.sum_const, Finset.card_range, nsmul_eq_mul, mul_one, inv_mul_cancel₀ hR'.ne']
      rw [e1, mul_one, Finset.card_range] at h3
      simp only [redVal, Bool.false_eq_true, if_false, reduceMean, flDiv]
      rw [div_eq_inv_mul, div_eq_inv_mul]
      exact h3

/-- **C136.** In floating point, `factor_match_score` finds an assignment of components, and its score differs from the score
of that assignment in exact arithmetic by at most the rounding error `δ`; no assignment scores more than `δ` above it. `δ`
depends on the sizes only, not on the entries. -/
theorem C136_score (hr : Rounds rnd u) (hu : u ≤ 1 / 2) (he : 0 < eps) {a b : List (NDArray ℝ)} {sizes : List ℕ} {R R' : ℕ}
    (hR : 0 < R) (hRR : R ≤ R') (ha : Factors a sizes R) (hb : Factors b sizes R') (hne : sizes ≠ [])
    {useMin penalty : Bool} (hc : Comparable penalty a b sizes R R') {δ : ℝ}
    (hδ : δ = (1 + u / (1 - u)) ^ (5 * sizes.sum + 11 * sizes.length + R + 4) - 1) (hδ1 : δ < 1) {s : ℝ} {o : Option (List ℕ)}
    (h : FlFactorMatchScore rnd a b penalty (redName useMin) eps s o) :
    ∃ π, o = some π ∧ IsAssignment π R R' ∧ |s - assignScore useMin penalty eps a b sizes R π| ≤ δ ∧
      ∀ ρ, IsAssignment ρ R R' → assignScore useMin penalty eps a b sizes R ρ ≤ s + δ := by
  have hcov := hr.covers hu
  obtain ⟨red, rank, est, e1, e2, e3, sc, hsc, hbest⟩ := h
  rw [parseReduction_name] at e1
  cases e1
  obtain ⟨F, f1, f2⟩ := first_cols ha hne
  rw [f1, bind_ok, f2] at e2
  obtain ⟨G, g1, g2⟩ := first_cols hb hne
  rw [g1, bind_ok, g2] at e3
  cases e2; cases e3
  have key : ∀ π, IsAssignment π R R' → ∃ t, sc π = some t ∧
      |t - assignScore useMin penalty eps a b sizes R π| ≤ δ := by
    intro π hπ
    obtain ⟨pb, scores, p1, p2, p3⟩ := hsc π (mem_permutations_range.2 hπ)
    rw [permuteFactors_eq hb hπ] at p1
    cases p1
    have hf := factors_permMat π hb
    rw [hπ.length] at hf
    have hl : ∀ r < R, r < π.length := fun r hr => by rw [hπ.length]; exact hr
    obtain ⟨t, t1, t2⟩ := flScores_spec hcov he ha hf hne (fun r hr hnan => by
      obtain ⟨hp, h0⟩ := hnan
      rw [compSize_permMat (hl r hr)] at h0
      have m1 := le_max_left (compSize a sizes r) (compSize b sizes (π.getD r 0))
      have m2 := le_max_right (compSize a sizes r) (compSize b sizes (π.getD r 0))
      have n1 := compSize_nonneg r a sizes
      have n2 := compSize_nonneg (π.getD r 0) b sizes
      rcases hc hp r hr _ (hπ.getD_lt hr) with h | h
      · exact h (by linarith)
      · exact h (by linarith)) p2
    subst t1
    obtain ⟨y, y1, y2⟩ := approx_redVal hcov hR useMin t2 p3
    refine ⟨y, y1, ?_⟩
    have e : redVal useMin R (fun r => compMatch penalty eps a (List.zipWith (permMat π) b sizes) sizes r r)
        = assignScore useMin penalty eps a b sizes R π := redVal_congr fun r hr => compMatch_permMat (hl r hr)
    rw [e] at y2
    rw [hδ]
    refine y2.trans (le_of_eq ?_)
    rw [show 5 * sizes.sum + 11 * sizes.length + 3 + R + 1 = 5 * sizes.sum + 11 * sizes.length + R + 4 by omega]
  obtain ⟨w, o', e, h1, h2, h3⟩ := bestPerm_spec sc (permutations R (List.range R')) (-1, none)
  rw [hbest] at e
  have e := Except.ok.inj e
  cases e
  have hall : ∀ ρ, IsAssignment ρ R R' → assignScore useMin penalty eps a b sizes R ρ ≤ s + δ := fun ρ hρ => by
    obtain ⟨t, t1, t2⟩ := key ρ hρ
    have := h2 ρ (mem_permutations_range.2 hρ) t t1
    linarith [(abs_le.1 t2).1]
  rcases h3 with h3 | ⟨π, hπ, rfl, hv, -⟩
  · exfalso
    cases h3
    have h0 := (assignScore_unit he useMin penalty a b sizes hR (List.range R)).1
    obtain ⟨t, t1, t2⟩ := key _ (assign_exists hRR)
    have := h2 _ (mem_permutations_range.2 (assign_exists hRR)) t t1
    linarith [(abs_le.1 t2).1]
  · have hπ := mem_permutations_range.1 hπ
    obtain ⟨t, t1, t2⟩ := key π hπ
    rw [hv] at t1
    cases t1
    exact ⟨π, rfl, hπ, t2, hall⟩

/-- **C136.** The score in floating point differs from the one in exact arithmetic by at most `δ`, and the assignment it
returns is, in exact arithmetic, within `2 δ` of the best one. -/
theorem C136_exact (hr : Rounds rnd u) (hu : u ≤ 1 / 2) (he : 0 < eps) {a b : List (NDArray ℝ)} {sizes : List ℕ} {R R' : ℕ}
    (hR : 0 < R) (hRR : R ≤ R') (ha : Factors a sizes R) (hb : Factors b sizes R') (hne : sizes ≠ [])
    {useMin penalty : Bool} (hc : Comparable penalty a b sizes R R') {δ : ℝ}
    (hδ : δ = (1 + u / (1 - u)) ^ (5 * sizes.sum + 11 * sizes.length + R + 4) - 1) (hδ1 : δ < 1) {s : ℝ} {o : Option (List ℕ)}
    (h : FlFactorMatchScore rnd a b penalty (redName useMin) eps s o) :
    ∃ π x ρ, o = some π ∧ factorMatchScore a b penalty (redName useMin) eps = .ok (x, some ρ) ∧ |s - x| ≤ δ ∧
      -δ ≤ s ∧ s ≤ 1 + δ ∧ x - 2 * δ ≤ assignScore useMin penalty eps a b sizes R π := by
  obtain ⟨π, rfl, h1, h2, h3⟩ := C136_score hr hu he hR hRR ha hb hne hc hδ hδ1 h
  obtain ⟨x, ρ, e, x0, x1, hb⟩ := C26_factor_match_score he hR hRR ha hb hne useMin penalty hc
  have k1 := hb.best π h1
  have k2 := h3 ρ hb.assignment
  rw [← hb.attained] at k2
  obtain ⟨k3, k4⟩ := abs_le.1 h2
  have hd : |s - x| ≤ δ := abs_le.2 ⟨by linarith, by linarith⟩
  exact ⟨π, x, ρ, rfl, e, hd, by linarith, by linarith, by linarith⟩

/-! ### The computation has a result -/

theorem flNormalizeFactor_exists (rnd : ℝ → ℝ) (eps : ℝ) {F : NDArray ℝ} {m R : ℕ} (hF : F.shape = [m, R]) :
    ∃ G n, FlNormalizeFactor rnd eps F G n ∧ G.shape = [m, R] ∧ n.shape = [1, R] := by
  choose q hq using fun r => FlDot.exists rnd (fun i => F.get [i, r]) (fun i => F.get [i, r]) (Finset.range m)
  have hk : FlColNorms rnd F (ofFn [R] fun idx => rnd (Real.sqrt (q (idx.getD 0 0)))) := by
    refine ⟨by simp [hF], fun r hr => ⟨q r, ?_, ?_⟩⟩
    · simpa [hF] using hq r
    · rw [get_ofFn (by simpa [hF] using hr)]; rfl
  have hs : (newaxis0 (ofFn [R] fun idx => rnd (Real.sqrt (q (idx.getD 0 0))))).shape = [1, R] := by
    rw [shape_newaxis0]; rfl
  exact ⟨_, _, ⟨_, hk, rfl, zipB_mat_row _ (by simpa using hs) hF⟩, rfl, hs⟩

theorem flNormalizeFactors_exists (rnd : ℝ → ℝ) (eps : ℝ) {fs : List (NDArray ℝ)} {sizes : List ℕ} {R : ℕ}
    (h : Factors fs sizes R) :
    ∃ gs ns, FlNormalizeFactors rnd eps fs gs ns ∧ Factors gs sizes R ∧ ns.length = sizes.length ∧ ∀ n ∈ ns, n.shape = [1, R] := by
  induction h with
  | nil => exact ⟨[], [], .nil, .nil, rfl, by simp⟩
  | cons h1 h2 ih =>
    obtain ⟨gs, ns, k1, k2, k3, k4⟩ := ih
    obtain ⟨G, n, g1, g2, g3⟩ := flNormalizeFactor_exists rnd eps h1
    refine ⟨G :: gs, n :: ns, .cons g1 k1, .cons g2 k2, by simp [k3], fun q hq => ?_⟩
    rcases List.mem_cons.1 hq with rfl | hq
    · exact g3
    · exact k4 q hq

theorem flFmsWeights_exists (rnd : ℝ → ℝ) (penalty : Bool) {ns : List (NDArray ℝ)} {R : ℕ} (hne : ns ≠ [])
    (h : ∀ n ∈ ns, n.shape = [1, R]) : ∃ w, flFmsWeights rnd penalty R ns = .ok w ∧ w.shape = [R] := by
  cases penalty with
  | false => exact ⟨_, rfl, rfl⟩
  | true =>
    cases ns with
    | nil => exact absurd rfl hne
    | cons n ns =>
      have hn := h n (by simp)
      have hall : (ns.all fun m => m.shape = n.shape) = true := by
        rw [List.all_eq_true]; intro m hm
        simpa [hn] using h m (by simp [hm])
      refine ⟨_, by rw [flFmsWeights, if_pos rfl, flProdRows, if_pos hall], by simp [hn]⟩

theorem flMatchModes_exists (rnd : ℝ → ℝ) {R r : ℕ} (hr : r < R) : ∀ {a b : List (NDArray ℝ)} {sizes : List ℕ} (x : Option ℝ),
    Factors a sizes R → Factors b sizes R → ∃ y, FlMatchModes rnd true r (a.zip b) x y := by
  intro a b sizes x ha
  induction ha generalizing b x with
  | nil => intro hb; cases hb; exact ⟨x, .nil x⟩
  | cons h1 h2 ih =>
    intro hb
    cases hb with
    | cons g1 g2 =>
      rename_i F m fs ms G gs
      obtain ⟨d, hd⟩ := FlDot.exists rnd (fun i => (ofFn [m] fun idx => F.get [idx.getD 0 0, r]).get [i])
        (fun i => (ofFn [m] fun idx => G.get [idx.getD 0 0, r]).get [i]) (Finset.range m)
      obtain ⟨y, hy⟩ := ih (x.map fun s => flMul rnd s (if true then |d| else d)) g2
      exact ⟨y, .cons (columnVec_ok h1 hr) (columnVec_ok g1 hr) rfl hd hy⟩

theorem flScores_exists (rnd : ℝ → ℝ) (eps : ℝ) (penalty : Bool) {a b : List (NDArray ℝ)} {sizes : List ℕ} {R : ℕ}
    (ha : Factors a sizes R) (hb : Factors b sizes R) (hne : sizes ≠ []) :
    ∃ l, FlFactorMatchScores rnd a b penalty true eps l ∧ l.length = R := by
  obtain ⟨a', na, p1, p2, p3, p4⟩ := flNormalizeFactors_exists rnd eps ha
  obtain ⟨b', nb, q1, q2, q3, q4⟩ := flNormalizeFactors_exists rnd eps hb
  have hl : ∀ {l : List (NDArray ℝ)}, l.length = sizes.length → l ≠ [] := by
    rintro l h rfl; exact hne (List.length_eq_zero_iff.1 h.symm)
  obtain ⟨wa, wa1, wa2⟩ := flFmsWeights_exists rnd penalty (hl p3) p4
  obtain ⟨wb, wb1, wb2⟩ := flFmsWeights_exists rnd penalty (hl q3) q4
  obtain ⟨F, f1, f2⟩ := first_cols ha hne
  have key : ∀ r, ∃ y, r < R → FlMatchModes rnd true r (a'.zip b')
      ((flWeightScore rnd (wa.get [r]) (wb.get [r])).map fun s => rnd (1 - s)) y := by
    intro r
    by_cases hr : r < R
    · obtain ⟨y, hy⟩ := flMatchModes_exists rnd hr ((flWeightScore rnd (wa.get [r]) (wb.get [r])).map fun s => rnd (1 - s)) p2 q2
      exact ⟨y, fun _ => hy⟩
    · exact ⟨none, fun h => absurd h hr⟩
  choose y hy using key
  refine ⟨(List.range R).map y, ⟨a, b, R, a', na, b', nb, wa, wb, asColumns_eq ha hne, asColumns_eq hb hne, ?_, p1, q1, wa1, wb1,
    by simp, fun r hr => ⟨wa.get [r], wb.get [r], ?_, ?_, ?_⟩⟩, by simp⟩
  · rw [f1, bind_ok, f2]
  · rw [itemVec, if_pos (by simpa [wa2] using hr)]
  · rw [itemVec, if_pos (by simpa [wb2] using hr)]
  · rw [getD_eq_getElem' _ (by simpa using hr), List.getElem_map, List.getElem_range]
    exact hy r hr

theorem flReduce_exists (rnd : ℝ → ℝ) (m : Bool) {l : List (Option ℝ)} (hl : l ≠ []) : ∃ o, FlReduce rnd (redOf m) l o := by
  cases m with
  | true =>
    cases l with
    | nil => exact absurd rfl hl
    | cons x l => exact ⟨_, rfl⟩
  | false =>
    by_cases h : none ∈ l
    · exact ⟨none, Or.inl ⟨Or.inr h, rfl⟩⟩
    · obtain ⟨v, rfl⟩ : ∃ v : List ℝ, l = v.map some := by
        refine ⟨l.map fun x => x.getD 0, ?_⟩
        rw [List.map_map]
        conv_lhs => rw [← List.map_id l]
        refine List.map_congr_left fun x hx => ?_
        cases x with
        | none => exact absurd hx h
        | some y => rfl
      obtain ⟨s, hs⟩ := FlSum.exists rnd (fun i => v.getD i 0) (Finset.range v.length)
      exact ⟨_, Or.inr ⟨hl, v, s, rfl, hs, rfl⟩⟩

/-- **C136.** The computation in floating point returns a score, for every rounding and all factor matrices with matching
numbers of rows. -/
theorem C136_returns (rnd : ℝ → ℝ) (eps : ℝ) {a b : List (NDArray ℝ)} {sizes : List ℕ} {R R' : ℕ} (hR : 0 < R)
    (ha : Factors a sizes R) (hb : Factors b sizes R') (hne : sizes ≠ []) (useMin penalty : Bool) :
    ∃ s o, FlFactorMatchScore rnd a b penalty (redName useMin) eps s o := by
  have key : ∀ π, ∃ x, IsAssignment π R R' → ∃ pb scores, permuteFactors π b = .ok pb ∧
      FlFactorMatchScores rnd a pb penalty true eps scores ∧ FlReduce rnd (redOf useMin) scores x := by
    intro π
    by_cases hπ : IsAssignment π R R'
    · have hf := factors_permMat π hb
      rw [hπ.length] at hf
      obtain ⟨l, l1, l2⟩ := flScores_exists rnd eps penalty ha hf hne
      obtain ⟨o, ho⟩ := flReduce_exists rnd useMin (l := l) (by rintro rfl; simp at l2; omega)
      exact ⟨o, fun _ => ⟨_, l, permuteFactors_eq hb hπ, l1, ho⟩⟩
    · exact ⟨none, fun h => absurd h hπ⟩
  choose sc hsc using key
  obtain ⟨F, f1, f2⟩ := first_cols ha hne
  obtain ⟨G, g1, g2⟩ := first_cols hb hne
  obtain ⟨s, o, e, -⟩ := bestPerm_spec sc (permutations R (List.range R')) (-1, none)
  exact ⟨s, o, redOf useMin, R, R', parseReduction_name _, by rw [f1, bind_ok, f2], by rw [g1, bind_ok, g2], sc,
    fun π hπ => hsc π (mem_permutations_range.1 hπ), e⟩

/-! ### Double precision -/

theorem pow_sub_one_le {x : ℝ} (hx : 0 ≤ x) (hx1 : x ≤ 1) {n : ℕ} (hn : n * x < 1) :
    (1 + x) ^ n - 1 ≤ n * x / (1 - n * x) := by
  have h1 := one_add_mul_le_pow (a := -x) (by linarith) n
  have h2 : (1 + x) ^ n * (1 + -x) ^ n ≤ 1 := by
    rw [← mul_pow]
    exact pow_le_one₀ (by nlinarith) (by nlinarith)
  have hp : 0 < 1 - n * x := by linarith
  have h3 : (1 + x) ^ n * (1 - n * x) ≤ 1 := by
    refine le_trans (mul_le_mul_of_nonneg_left ?_ (by positivity)) h2
    linarith
  rw [le_div_iff₀ hp]
  linarith

/-- **C136.** In double precision the score is within `n / 2^52` of the score in exact arithmetic, where `n` counts the
roundings: five for every row of a factor matrix, eleven for every mode, one for every component and four. -/
theorem C136_double (he : 0 < eps) {a b : List (NDArray ℝ)} {sizes : List ℕ} {R R' : ℕ} (hR : 0 < R) (hRR : R ≤ R')
    (ha : Factors a sizes R) (hb : Factors b sizes R') (hne : sizes ≠ []) {useMin penalty : Bool}
    (hc : Comparable penalty a b sizes R R') {n : ℕ} (hn : n = 5 * sizes.sum + 11 * sizes.length + R + 4) (hn1 : n ≤ 2 ^ 50)
    {s : ℝ} {o : Option (List ℕ)} (h : FlFactorMatchScore (roundBits 53) a b penalty (redName useMin) eps s o) :
    ∃ x ρ, factorMatchScore a b penalty (redName useMin) eps = .ok (x, some ρ) ∧ |s - x| ≤ n / 2 ^ 52 := by
  have hr := roundBits_rounds (p := 53) (by norm_num)
  have e : (1 / 2 ^ 53 : ℝ) / (1 - 1 / 2 ^ 53) = 1 / (2 ^ 53 - 1) := by norm_num
  have hn2 : (n : ℝ) ≤ 2 ^ 50 := by exact_mod_cast hn1
  have hn0 : (0 : ℝ) ≤ n := Nat.cast_nonneg n
  have hx : (n : ℝ) * (1 / (2 ^ 53 - 1)) ≤ 1 / 4 := by
    rw [mul_one_div, div_le_iff₀ (by norm_num)]
    linarith
  have hle : (1 + (1 / 2 ^ 53 : ℝ) / (1 - 1 / 2 ^ 53)) ^ n - 1 ≤ n / 2 ^ 52 := by
    rw [e]
    refine (pow_sub_one_le (by norm_num) (by norm_num) (by linarith)).trans ?_
    rw [div_le_div_iff₀ (by linarith) (by norm_num)]
    have h3 : (n : ℝ) * (3 / 4) ≤ n * (1 - n * (1 / (2 ^ 53 - 1))) := mul_le_mul_of_nonneg_left (by linarith) hn0
    refine le_trans ?_ h3
    rw [mul_assoc]
    exact mul_le_mul_of_nonneg_left (by norm_num) hn0
  have hδ1 : (1 + (1 / 2 ^ 53 : ℝ) / (1 - 1 / 2 ^ 53)) ^ n - 1 < 1 := by
    refine lt_of_le_of_lt hle ?_
    rw [div_lt_one (by norm_num)]
    linarith
  rw [hn] at hδ1
  obtain ⟨π, x, ρ, -, e1, e2, -⟩ := C136_exact hr (by norm_num) he hR hRR ha hb hne hc rfl hδ1 h
  rw [← hn] at e2
  exact ⟨x, ρ, e1, e2.trans hle⟩

end
end TK
