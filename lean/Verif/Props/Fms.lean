import Verif.Lemmas.Metrics
import Mathlib.Data.Fintype.EquivFin
import Mathlib.Tactic.IntervalCases
import Mathlib.Tactic.NormNum

/-!
# Factor match scores (C26 to C31, C76)
-/

namespace TK
open NDArray

noncomputable section

theorem assign_exists {R R' : ℕ} (h : R ≤ R') : IsAssignment (List.range R) R R' :=
  ⟨by simp, List.nodup_range, fun x hx => lt_of_lt_of_le (List.mem_range.1 hx) h⟩

theorem assignScoreO_some {m penalty : Bool} {eps : ℝ} {a b : List (NDArray ℝ)} {sizes : List ℕ} {R R' : ℕ}
    (hc : Comparable penalty a b sizes R R') {π : List ℕ} (hπ : IsAssignment π R R') :
    assignScoreO m penalty eps a b sizes R π = some (assignScore m penalty eps a b sizes R π) := by
  rw [assignScoreO, if_neg]
  rintro ⟨r, hr, hp, h0⟩
  have h1 := compSize_nonneg r a sizes
  have h2 := compSize_nonneg (π.getD r 0) b sizes
  have h3 := le_max_left (compSize a sizes r) (compSize b sizes (π.getD r 0))
  have h4 := le_max_right (compSize a sizes r) (compSize b sizes (π.getD r 0))
  rcases hc hp r hr _ (hπ.getD_lt hr) with h | h
  · exact h (by linarith)
  · exact h (by linarith)

theorem search_best {m penalty : Bool} {eps : ℝ} (he : 0 < eps) {a b : List (NDArray ℝ)} {sizes : List ℕ} {R R' : ℕ}
    (hR : 0 < R) (hRR : R ≤ R') (hc : Comparable penalty a b sizes R R') :
    ∃ v π, bestPerm (fun π => .ok (assignScoreO m penalty eps a b sizes R π)) (permutations R (List.range R')) (-1, none)
        = .ok (v, some π) ∧ 0 ≤ v ∧ v ≤ 1 ∧ IsBest m penalty eps a b sizes R R' v π := by
  obtain ⟨v, o, e, h1, h2, h3⟩ := bestPerm_spec (assignScoreO m penalty eps a b sizes R)
    (permutations R (List.range R')) (-1, none)
  have hid := h2 _ (mem_permutations_range.2 (assign_exists hRR)) _ (assignScoreO_some hc (assign_exists hRR))
  have h0 := (assignScore_unit he m penalty a b sizes hR (List.range R)).1
  rcases h3 with h3 | ⟨π, hπ, rfl, hv, -⟩
  · cases h3; linarith
  · have hπ := mem_permutations_range.1 hπ
    rw [assignScoreO_some hc hπ] at hv
    have hv := (Option.some.inj hv).symm
    refine ⟨v, π, e, by linarith, ?_, hπ, hv, fun ρ hρ => ?_⟩
    · rw [hv]; exact (assignScore_unit he m penalty a b sizes hR π).2
    · exact h2 ρ (mem_permutations_range.2 hρ) _ (assignScoreO_some hc hρ)

/-- **C26.** `factor_match_score` returns a value in `[0, 1]` and an assignment which attains it, and no
assignment of different estimated components to the true components scores higher. -/
theorem C26_factor_match_score {eps : ℝ} (he : 0 < eps) {a b : List (NDArray ℝ)} {sizes : List ℕ} {R R' : ℕ}
    (hR : 0 < R) (hRR : R ≤ R') (ha : Factors a sizes R) (hb : Factors b sizes R') (hne : sizes ≠ [])
    (useMin penalty : Bool) (hc : Comparable penalty a b sizes R R') :
    ∃ v π, factorMatchScore a b penalty (redName useMin) eps = .ok (v, some π) ∧ 0 ≤ v ∧ v ≤ 1 ∧
      IsBest useMin penalty eps a b sizes R R' v π := by
  rw [factorMatchScore_eq he hR ha hb hne]
  exact search_best he hR hRR hc

/-- **C26.** Any other name of a reduction raises `ValueError`. -/
theorem C26_bad_reduction (a b : List (NDArray ℝ)) (penalty : Bool) (s : String) (h1 : s ≠ "min") (h2 : s ≠ "mean")
    (eps : ℝ) : factorMatchScore a b penalty s eps = .error .valueError := by
  rw [factorMatchScore, parseReduction, if_neg h1, if_neg h2, bind_error]

/-- **C26**, in particular when the true factors have no zero column. -/
theorem comparable_of_nonzero {penalty : Bool} {a b : List (NDArray ℝ)} {sizes : List ℕ} {R R' : ℕ}
    (h : ∀ r < R, compSize a sizes r ≠ 0) : Comparable penalty a b sizes R R' :=
  fun _ r hr _ _ => Or.inl (h r hr)

theorem compSize_pos {r : ℕ} : ∀ {fs : List (NDArray ℝ)} {sizes : List ℕ} {R : ℕ}, Factors fs sizes R →
    (∀ k (hk : k < fs.length), ∃ i < sizes.getD k 0, (fs[k]).get [i, r] ≠ 0) → 0 < compSize fs sizes r := by
  intro fs sizes R h
  induction h with
  | nil => intro _; simp [compSize, modeProd]
  | cons h1 h2 ih =>
    rename_i F m fs ms
    intro h
    have ih := ih fun k hk => by
      obtain ⟨i, hi, h0⟩ := h (k + 1) (by simpa using hk)
      exact ⟨i, by simpa using hi, by simpa only [List.getElem_cons_succ] using h0⟩
    obtain ⟨i, hi, h0⟩ := h 0 (by simp)
    simp only [compSize, modeProd] at ih ⊢
    refine mul_pos ?_ ih
    rw [colLen, Real.sqrt_pos]
    refine Finset.sum_pos' (fun _ _ => sq_nonneg _) ⟨i, Finset.mem_range.2 (by simpa using hi), ?_⟩
    have : F.get [i, r] ≠ 0 := by simpa using h0
    positivity

/-- The hypotheses of C26 hold for a concrete pair with two components in the first and three in the second. -/
example : ∃ a b : List (NDArray ℝ), Factors a [2, 2] 2 ∧ Factors b [2, 2] 3 ∧
    Comparable true a b [2, 2] 2 3 ∧ (0 : ℝ) < 1e-15 := by
  refine ⟨[ofMat 2 2 fun i j => i + j + 1, ofMat 2 2 fun i j => i * j + 1],
    [ofMat 2 3 fun i j => i + j, ofMat 2 3 fun i j => i - j],
    .cons rfl (.cons rfl .nil), .cons rfl (.cons rfl .nil), ?_, by norm_num⟩
  refine comparable_of_nonzero fun r hr => (compSize_pos (R := 2) (.cons rfl (.cons rfl .nil)) ?_).ne'
  intro k hk
  simp only [List.length_cons, List.length_nil] at hk
  interval_cases k
  · refine ⟨0, by simp, ?_⟩
    simp only [List.getElem_cons_zero]
    rw [get_ofMat (by norm_num) hr]; positivity
  · refine ⟨0, by simp, ?_⟩
    simp only [List.getElem_cons_succ, List.getElem_cons_zero]
    rw [get_ofMat (by norm_num) hr]; positivity

/-! ### C27: component order and signs -/

/-- Two best values for score functions that dominate each other are equal. -/
theorem IsBest.le {m p m' p' : Bool} {eps eps' : ℝ} {a b a' b' : List (NDArray ℝ)} {sizes sizes' : List ℕ}
    {R R' S S' : ℕ} {v v' : ℝ} {π π' : List ℕ} (h : IsBest m p eps a b sizes R R' v π)
    (h' : IsBest m' p' eps' a' b' sizes' S S' v' π')
    (H : ∀ ρ, IsAssignment ρ R R' → ∃ ρ', IsAssignment ρ' S S' ∧
      assignScore m p eps a b sizes R ρ ≤ assignScore m' p' eps' a' b' sizes' S ρ') : v ≤ v' := by
  obtain ⟨ρ', h1, h2⟩ := H π h.assignment
  rw [h.attained]
  exact h2.trans (h'.best ρ' h1)

theorem assignScore_congr {m p : Bool} {eps : ℝ} {a b a' b' : List (NDArray ℝ)} {sizes : List ℕ} {R : ℕ} {π ρ : List ℕ}
    (h : ∀ r < R, compMatch p eps a b sizes r (π.getD r 0) = compMatch p eps a' b' sizes r (ρ.getD r 0)) :
    assignScore m p eps a b sizes R π = assignScore m p eps a' b' sizes R ρ := redVal_congr h

/-- **C27.** Permuting the components of the estimate does not change the factor match score. -/
theorem C27_permutation {eps : ℝ} (he : 0 < eps) {a b b' : List (NDArray ℝ)} {sizes : List ℕ} {R R' : ℕ}
    (hR : 0 < R) (hRR : R ≤ R') (ha : Factors a sizes R) (hb : Factors b sizes R') (hne : sizes ≠ [])
    (useMin penalty : Bool) (hc : Comparable penalty a b sizes R R') {σ : List ℕ} (hσ : IsAssignment σ R' R')
    (hb' : permuteFactors σ b = .ok b') :
    ∃ v π π', factorMatchScore a b penalty (redName useMin) eps = .ok (v, some π) ∧
      factorMatchScore a b' penalty (redName useMin) eps = .ok (v, some π') := by
  rw [permuteFactors_eq hb hσ] at hb'
  cases hb'
  have hf := factors_permMat σ hb
  rw [hσ.length] at hf
  have hl : ∀ s < R', s < σ.length := fun s hs => by rw [hσ.length]; exact hs
  have hc' : Comparable penalty a (List.zipWith (permMat σ) b sizes) sizes R R' := by
    intro hp r hr s hs
    rw [compSize_permMat (hl s hs)]
    exact hc hp r hr _ (hσ.getD_lt hs)
  obtain ⟨v, π, e, -, -, h1⟩ := C26_factor_match_score he hR hRR ha hb hne useMin penalty hc
  obtain ⟨v', π', e', -, -, h2⟩ := C26_factor_match_score he hR hRR ha hf hne useMin penalty hc'
  have hle : v' ≤ v := by
    refine h2.le h1 fun ρ hρ => ⟨ρ.map fun s => σ.getD s 0, ⟨by simp [hρ.length], ?_, ?_⟩, le_of_eq ?_⟩
    · refine List.Nodup.map_on ?_ hρ.nodup
      intro x hx y hy e
      have hx := hl x (hρ.lt x hx)
      have hy := hl y (hρ.lt y hy)
      rw [getD_eq_getElem' _ hx, getD_eq_getElem' _ hy] at e
      exact (List.Nodup.getElem_inj_iff hσ.nodup).1 e
    · intro x hx
      obtain ⟨s, hs, rfl⟩ := List.mem_map.1 hx
      exact hσ.getD_lt (hρ.lt s hs)
    · refine assignScore_congr fun r hr => ?_
      have hr' : r < ρ.length := by rw [hρ.length]; exact hr
      rw [compMatch_permMat (hl _ (hρ.getD_lt hr))]
      congr 1
      have e1 : (ρ.map fun s => σ.getD s 0).getD r 0 = σ.getD (ρ.getD r 0) 0 := by
        rw [getD_eq_getElem' (l := ρ.map _) _ (by simpa using hr'), getD_eq_getElem' (l := ρ) _ hr', List.getElem_map]
      exact e1.symm
  have hsurj : ∀ x < R', x ∈ σ := by
    intro x hx
    have hp : σ.Perm (List.range R') := by
      refine (List.subperm_of_subset hσ.nodup fun y hy => List.mem_range.2 (hσ.lt y hy)).perm_of_length_le ?_
      simp [hσ.length]
    exact hp.mem_iff.2 (List.mem_range.2 hx)
  have hge : v ≤ v' := by
    refine h1.le h2 fun ρ hρ => ⟨ρ.map fun s => σ.idxOf s, ⟨by simp [hρ.length], ?_, ?_⟩, le_of_eq ?_⟩
    · refine List.Nodup.map_on ?_ hρ.nodup
      intro x hx y hy e
      exact (List.idxOf_inj (hsurj x (hρ.lt x hx))).1 e
    · intro x hx
      obtain ⟨s, hs, rfl⟩ := List.mem_map.1 hx
      have := List.idxOf_lt_length_iff.2 (hsurj s (hρ.lt s hs))
      rwa [hσ.length] at this
    · refine assignScore_congr fun r hr => ?_
      have hr' : r < ρ.length := by rw [hρ.length]; exact hr
      have hx := hsurj _ (hρ.getD_lt hr)
      have e1 : (ρ.map fun s => σ.idxOf s).getD r 0 = σ.idxOf (ρ.getD r 0) := by
        rw [getD_eq_getElem' _ (by simpa using hr'), getD_eq_getElem' _ hr', List.getElem_map]
      have hlt := List.idxOf_lt_length_iff.2 hx
      rw [e1, compMatch_permMat hlt, getD_eq_getElem' _ hlt, List.getElem_idxOf]
  obtain rfl : v = v' := le_antisymm hge hle
  exact ⟨v, π, π', e, e'⟩

/-- `G'` is `G` with some columns multiplied by `-1`. -/
def SignFlip (R : ℕ) (G G' : NDArray ℝ) : Prop :=
  G'.shape = G.shape ∧ ∀ s < R, ∃ c : ℝ, (c = 1 ∨ c = -1) ∧ ∀ i < G.shape.getD 0 0, G'.get [i, s] = c * G.get [i, s]

theorem signFlip_colLen {G G' : NDArray ℝ} {m R s : ℕ} (h : SignFlip R G G') (hG : G.shape = [m, R]) (hs : s < R) :
    colLen G' m s = colLen G m s := by
  obtain ⟨c, hc, e⟩ := h.2 s hs
  rw [colLen_scale (F := G) (c := c) fun i hi => by rw [e i (by simpa [hG] using hi), mul_comm]]
  rcases hc with rfl | rfl <;> simp

theorem signFlip_congruence {eps : ℝ} {F G G' : NDArray ℝ} {m R r s : ℕ} (h : SignFlip R G G') (hG : G.shape = [m, R])
    (hs : s < R) : congruence eps F G' m r s = congruence eps F G m r s := by
  rw [congruence, congruence, signFlip_colLen h hG hs]
  congr 1
  obtain ⟨c, hc, e⟩ := h.2 s hs
  have : colDot F G' m r s = c * colDot F G m r s := by
    rw [colDot, colDot, Finset.mul_sum]
    exact Finset.sum_congr rfl fun i hi => by
      rw [e i (by simpa [hG] using Finset.mem_range.1 hi)]; ring
  rw [this, abs_mul]
  rcases hc with rfl | rfl <;> simp

theorem signFlip_lists {R : ℕ} {b b' : List (NDArray ℝ)} {sizes : List ℕ} (hb : Factors b sizes R)
    (h : List.Forall₂ (SignFlip R) b b') {s : ℕ} (hs : s < R) :
    Factors b' sizes R ∧ compSize b' sizes s = compSize b sizes s ∧
      ∀ eps r a, congruenceProd eps r s a b' sizes = congruenceProd eps r s a b sizes := by
  induction h generalizing sizes with
  | nil => exact ⟨hb, rfl, fun _ _ _ => rfl⟩
  | cons g1 g2 ih =>
    cases hb with
    | cons f1 f2 =>
      rename_i m ms
      obtain ⟨i1, i2, i3⟩ := ih f2
      refine ⟨.cons (g1.1.trans f1) i1, ?_, ?_⟩
      · simp only [compSize, modeProd] at i2 ⊢
        rw [i2, signFlip_colLen g1 f1 hs]
      · intro eps r a
        cases a with
        | nil => simp [congruenceProd]
        | cons F a =>
          simp only [congruenceProd]
          rw [i3, signFlip_congruence g1 f1 hs]

/-- **C27.** Flipping the signs of any columns of any factor matrices of the estimate does not change the result
(neither the score nor the permutation). -/
theorem C27_signs {eps : ℝ} (he : 0 < eps) {a b b' : List (NDArray ℝ)} {sizes : List ℕ} {R R' : ℕ}
    (hR : 0 < R) (ha : Factors a sizes R) (hb : Factors b sizes R') (hne : sizes ≠ [])
    (useMin penalty : Bool) (h : List.Forall₂ (SignFlip R') b b') :
    factorMatchScore a b' penalty (redName useMin) eps = factorMatchScore a b penalty (redName useMin) eps := by
  have hb' : Factors b' sizes R' := by
    unfold Factors at hb ⊢
    clear hne ha
    induction h generalizing sizes with
    | nil => exact hb
    | cons g1 g2 ih => cases hb with | cons f1 f2 => exact .cons (g1.1.trans f1) (ih f2)
  rw [factorMatchScore_eq he hR ha hb hne, factorMatchScore_eq he hR ha hb' hne]
  refine bestPerm_congr fun π hπ => ?_
  have hπ := mem_permutations_range.1 hπ
  refine congrArg Except.ok ?_
  have h1 : ∀ r < R, (nanMatch penalty a b' sizes r (π.getD r 0) ↔ nanMatch penalty a b sizes r (π.getD r 0)) := by
    intro r hr
    rw [nanMatch, nanMatch, (signFlip_lists hb h (hπ.getD_lt hr)).2.1]
  have h2 : (∃ r < R, nanMatch penalty a b' sizes r (π.getD r 0)) ↔ ∃ r < R, nanMatch penalty a b sizes r (π.getD r 0) :=
    ⟨fun ⟨r, hr, k⟩ => ⟨r, hr, (h1 r hr).1 k⟩, fun ⟨r, hr, k⟩ => ⟨r, hr, (h1 r hr).2 k⟩⟩
  have h3 : assignScore useMin penalty eps a b' sizes R π = assignScore useMin penalty eps a b sizes R π := by
    refine assignScore_congr fun r hr => ?_
    obtain ⟨-, i2, i3⟩ := signFlip_lists hb h (hπ.getD_lt hr)
    rw [compMatch, compMatch, i2, i3]
  by_cases hn : ∃ r < R, nanMatch penalty a b sizes r (π.getD r 0)
  · rw [assignScoreO, assignScoreO, if_pos hn, if_pos (h2.2 hn)]
  · rw [assignScoreO, assignScoreO, if_neg hn, if_neg (fun k => hn (h2.1 k)), h3]

/-- A pair that meets the hypotheses on sign flips: the first column changes its sign. -/
example : ∃ G G' : NDArray ℝ, SignFlip 2 G G' ∧ G' ≠ G := by
  refine ⟨ofMat 1 2 fun _ _ => 1, ofMat 1 2 fun _ j => if j = 0 then -1 else 1, ⟨rfl, ?_⟩, ?_⟩
  · intro s hs
    refine ⟨if s = 0 then -1 else 1, by split <;> simp, fun i hi => ?_⟩
    simp only [shape_ofMat, List.getD_cons_zero] at hi
    rw [get_ofMat hi hs, get_ofMat hi hs]; simp
  · intro h
    have := congrArg (fun A => NDArray.get A [0, 0]) h
    rw [get_ofMat (by norm_num) (by norm_num), get_ofMat (by norm_num) (by norm_num)] at this
    norm_num at this

/-! ### C28: symmetry -/

theorem assign_equiv {π : List ℕ} {R : ℕ} (h : IsAssignment π R R) :
    ∃ e : Equiv.Perm (Fin R), ∀ r : Fin R, π.getD r 0 = e r := by
  have hl : ∀ r : Fin R, (r : ℕ) < π.length := fun r => by rw [h.length]; exact r.2
  let f : Fin R → Fin R := fun r => ⟨π.getD r 0, h.getD_lt r.2⟩
  have hf : Function.Injective f := by
    intro r s e
    have e : π.getD r 0 = π.getD s 0 := congrArg Fin.val e
    rw [getD_eq_getElem' _ (hl r), getD_eq_getElem' _ (hl s)] at e
    exact Fin.ext ((List.Nodup.getElem_inj_iff h.nodup).1 e)
  exact ⟨Equiv.ofBijective f (Finite.injective_iff_bijective.1 hf), fun r => rfl⟩

theorem assign_of_equiv {R : ℕ} (e : Equiv.Perm (Fin R)) :
    ∃ π, IsAssignment π R R ∧ ∀ r : Fin R, π.getD r 0 = e r := by
  refine ⟨List.ofFn fun r => (e r : ℕ), ⟨by simp, ?_, ?_⟩, fun r => ?_⟩
  · exact List.nodup_ofFn.2 fun r s h => e.injective (Fin.ext h)
  · intro x hx
    obtain ⟨r, rfl⟩ := List.mem_ofFn.1 hx
    exact (e r).2
  · rw [getD_eq_getElem' _ (by simp)]; simp

theorem redVal_equiv {m : Bool} {R : ℕ} {f g : ℕ → ℝ} (e : Equiv.Perm (Fin R)) (h : ∀ r : Fin R, f r = g (e r)) :
    redVal m R f = redVal m R g := by
  cases m
  · simp only [redVal, Bool.false_eq_true, if_false, reduceMean, Finset.sum_range]
    congr 1
    rw [← Equiv.sum_comp e fun r : Fin R => g r]
    exact Finset.sum_congr rfl fun r _ => h r
  · simp only [redVal, if_true, reduceMin]
    rw [← Equiv.iInf_comp (g := fun r : Fin R => g r) e]
    congr 1; funext r; exact h r

theorem congruence_comm (eps : ℝ) (F G : NDArray ℝ) (m r s : ℕ) : congruence eps F G m r s = congruence eps G F m s r := by
  rw [congruence, congruence, mul_comm (colLen F m r + eps)]
  congr 2
  exact Finset.sum_congr rfl fun i _ => mul_comm _ _

theorem congruenceProd_comm (eps : ℝ) (r s : ℕ) : ∀ (a b : List (NDArray ℝ)) (sizes : List ℕ),
    congruenceProd eps r s a b sizes = congruenceProd eps s r b a sizes
  | [], [], _ => rfl
  | [], _ :: _, _ => by simp [congruenceProd]
  | _ :: _, [], _ => by simp [congruenceProd]
  | _ :: _, _ :: _, [] => by simp [congruenceProd]
  | F :: a, G :: b, m :: ms => by
    simp only [congruenceProd]
    rw [congruenceProd_comm eps r s a b ms, congruence_comm]

theorem compMatch_comm (p : Bool) (eps : ℝ) (a b : List (NDArray ℝ)) (sizes : List ℕ) (r s : ℕ) :
    compMatch p eps a b sizes r s = compMatch p eps b a sizes s r := by
  rw [compMatch, compMatch, congruenceProd_comm, sizeMatch, sizeMatch, max_comm, abs_sub_comm]

theorem best_symm_le {m p : Bool} {eps : ℝ} {a b : List (NDArray ℝ)} {sizes : List ℕ} {R : ℕ} {v v' : ℝ} {π π' : List ℕ}
    (h : IsBest m p eps a b sizes R R v π) (h' : IsBest m p eps b a sizes R R v' π') : v ≤ v' := by
  refine h.le h' fun ρ hρ => ?_
  obtain ⟨e, he⟩ := assign_equiv hρ
  obtain ⟨ρ', hρ', he'⟩ := assign_of_equiv e.symm
  refine ⟨ρ', hρ', le_of_eq (redVal_equiv e fun r => ?_)⟩
  rw [he, he', compMatch_comm, e.symm_apply_apply]

/-- **C28.** The factor match score of two lists with the same number of components is symmetric. -/
theorem C28_symmetric {eps : ℝ} (he : 0 < eps) {a b : List (NDArray ℝ)} {sizes : List ℕ} {R : ℕ}
    (hR : 0 < R) (ha : Factors a sizes R) (hb : Factors b sizes R) (hne : sizes ≠ [])
    (useMin penalty : Bool) (hc : Comparable penalty a b sizes R R) :
    ∃ v π π', factorMatchScore a b penalty (redName useMin) eps = .ok (v, some π) ∧
      factorMatchScore b a penalty (redName useMin) eps = .ok (v, some π') := by
  have hc' : Comparable penalty b a sizes R R := fun hp r hr s hs => (hc hp s hs r hr).symm
  obtain ⟨v, π, e, -, -, h1⟩ := C26_factor_match_score he hR le_rfl ha hb hne useMin penalty hc
  obtain ⟨v', π', e', -, -, h2⟩ := C26_factor_match_score he hR le_rfl hb ha hne useMin penalty hc'
  obtain rfl : v = v' := le_antisymm (best_symm_le h1 h2) (best_symm_le h2 h1)
  exact ⟨v, π, π', e, e'⟩

/-! ### C29: a decomposition compared with itself -/

theorem congruence_self {eps : ℝ} (he : 0 < eps) (F : NDArray ℝ) (m r : ℕ) :
    congruence eps F F m r r = (colLen F m r / (colLen F m r + eps)) ^ 2 := by
  have e : colDot F F m r r = colLen F m r ^ 2 := by
    rw [colLen_sq]; exact Finset.sum_congr rfl fun i _ => (sq _).symm
  rw [congruence, e, abs_of_nonneg (sq_nonneg _), div_pow, sq (colLen F m r + eps)]

theorem congruenceProd_self {eps : ℝ} (he : 0 < eps) (r : ℕ) : ∀ (a : List (NDArray ℝ)) (sizes : List ℕ),
    congruenceProd eps r r a a sizes = modeProd (fun F m => (colLen F m r / (colLen F m r + eps)) ^ 2) a sizes
  | [], _ => by simp [congruenceProd, modeProd]
  | _ :: _, [] => by simp [congruenceProd, modeProd]
  | F :: a, m :: ms => by
    simp only [congruenceProd, modeProd]
    rw [congruenceProd_self he, congruence_self he]

/-- **C29.** The score of a decomposition without zero components with itself is one up to the `eps` guard: under
the identity each component scores `Π_m (n_m / (n_m + eps))²`, so the result is at least the least (or mean) of
these and at most one. -/
theorem C29_self {eps : ℝ} (he : 0 < eps) {a : List (NDArray ℝ)} {sizes : List ℕ} {R : ℕ}
    (hR : 0 < R) (ha : Factors a sizes R) (hne : sizes ≠ []) (useMin penalty : Bool)
    (h0 : penalty = true → ∀ r < R, compSize a sizes r ≠ 0) :
    (∀ r < R, compMatch penalty eps a a sizes r r
      = modeProd (fun F m => (colLen F m r / (colLen F m r + eps)) ^ 2) a sizes) ∧
    ∃ v π, factorMatchScore a a penalty (redName useMin) eps = .ok (v, some π) ∧ v ≤ 1 ∧
      (if useMin then reduceMin else reduceMean) R
        (fun r => modeProd (fun F m => (colLen F m r / (colLen F m r + eps)) ^ 2) a sizes) ≤ v := by
  have key : ∀ r < R, compMatch penalty eps a a sizes r r
      = modeProd (fun F m => (colLen F m r / (colLen F m r + eps)) ^ 2) a sizes := by
    intro r hr
    rw [compMatch, congruenceProd_self he]
    cases penalty
    · simp
    · simp [sizeMatch]
  obtain ⟨v, π, e, -, h1, h2⟩ := C26_factor_match_score he hR le_rfl ha ha hne useMin penalty
    (fun hp r hr _ _ => Or.inl (h0 hp r hr))
  refine ⟨key, v, π, e, h1, ?_⟩
  have h3 := h2.best (List.range R) (assign_exists le_rfl)
  refine le_trans (le_of_eq ?_) h3
  refine redVal_congr (m := useMin) fun r hr => ?_
  rw [getD_eq_getElem' _ (by simpa using hr), List.getElem_range, key r hr]

/-- Each of the factors is at least `1 - 2·eps/(n + eps)`: the score of a decomposition with itself differs from one
by rounding only (`eps = 1e-15`), unless a column is itself of that size. -/
theorem C29_guard {eps n : ℝ} (he : 0 < eps) (hn : 0 < n) :
    1 - 2 * (eps / (n + eps)) ≤ (n / (n + eps)) ^ 2 ∧ (n / (n + eps)) ^ 2 < 1 := by
  have hp : 0 < n + eps := by linarith
  have e : n / (n + eps) = 1 - eps / (n + eps) := by field_simp; ring
  have hq : 0 < eps / (n + eps) := by positivity
  have hq1 : eps / (n + eps) < 1 := by rw [div_lt_one hp]; linarith
  rw [e]
  constructor <;> nlinarith

/-- **C29**, what happens with zero components and the size penalty: comparing zero with zero gives `0/0`, which never
counts as an improvement, so a rank one decomposition with a zero component compared with itself scores `-1` and there
is no permutation. -/
theorem C29_zero_component {eps : ℝ} (he : 0 < eps) {a b : List (NDArray ℝ)} {sizes : List ℕ}
    (ha : Factors a sizes 1) (hb : Factors b sizes 1) (hne : sizes ≠ []) (useMin : Bool)
    (h0 : compSize a sizes 0 = 0) (h1 : compSize b sizes 0 = 0) :
    factorMatchScore a b true (redName useMin) eps = .ok (-1, none) := by
  rw [factorMatchScore_eq he one_pos ha hb hne]
  have e : permutations 1 (List.range 1) = [[0]] := by decide
  rw [e, bestPerm, bind_ok, assignScoreO, if_pos ⟨0, one_pos, rfl, by simp [h0, h1]⟩]
  rfl

example : ∃ a : List (NDArray ℝ), Factors a [2, 3] 1 ∧ compSize a [2, 3] 0 = 0 := by
  refine ⟨[ofMat 2 1 fun _ _ => 0, ofMat 3 1 fun _ _ => 1], .cons rfl (.cons rfl .nil), ?_⟩
  have : colLen (ofMat 2 1 fun _ _ => (0 : ℝ)) 2 0 = 0 := by
    rw [colLen, Finset.sum_eq_zero, Real.sqrt_zero]
    intro i hi
    rw [get_ofMat (Finset.mem_range.1 hi) one_pos]; simp
  simp [compSize, modeProd, this]

/-! ### C30: too few components -/

/-- **C30.** With fewer estimated than true components the result is `(-1, None)`, whatever the factors are. -/
theorem C30_too_few {F G : NDArray ℝ} {a b : List (NDArray ℝ)} {m m' R R' : ℕ} (hF : F.shape = [m, R])
    (hG : G.shape = [m', R']) (h : R' < R) (penalty useMin : Bool) (eps : ℝ) :
    factorMatchScore (F :: a) (G :: b) penalty (redName useMin) eps = .ok (-1, none) := by
  have eF : pyGet (F :: a) 0 = .ok F := rfl
  have eG : pyGet (G :: b) 0 = .ok G := rfl
  rw [factorMatchScore, parseReduction_name, bind_ok, eF, bind_ok, cols_ok hF, bind_ok, eG, bind_ok, cols_ok hG,
    bind_ok, fmsSearch]
  have : permutations R (List.range R') = [] := by
    refine List.eq_nil_iff_forall_not_mem.2 fun p hp => ?_
    obtain ⟨h1, h2, h3⟩ := mem_permutations_range.1 hp
    have := (List.subperm_of_subset h2 fun y hy => List.mem_range.2 (h3 y hy)).length_le
    rw [h1, List.length_range] at this
    omega
  rw [this]; rfl

example : ∃ F G : NDArray ℝ, F.shape = [2, 3] ∧ G.shape = [2, 2] ∧
    factorMatchScore [F] [G] true "min" = .ok (-1, none) :=
  ⟨ofMat 2 3 fun i j => i + j, ofMat 2 2 fun i j => i - j, rfl, rfl,
    C30_too_few (m := 2) (m' := 2) (R := 3) (R' := 2) rfl rfl (by norm_num) true true _⟩

/-! ### C31: mode by mode -/

theorem mapM_exists {β γ : Type} {f : β → Py γ} {P : β → γ → Prop} : ∀ {l : List β},
    (∀ x ∈ l, ∃ y, f x = .ok y ∧ P x y) → ∃ ys, l.mapM f = .ok ys ∧ List.Forall₂ P l ys
  | [], _ => ⟨[], rfl, .nil⟩
  | x :: l, h => by
    obtain ⟨y, e, hp⟩ := h x (by simp)
    obtain ⟨ys, e', hps⟩ := mapM_exists (l := l) fun z hz => h z (by simp [hz])
    exact ⟨y :: ys, by rw [List.mapM_cons, e, bind_ok, e', bind_ok]; rfl, .cons hp hps⟩

/-- **C31.** `separate_mode_factor_match_score` returns for each mode the best score over the assignments for this
mode alone, without size penalty, and an assignment that attains it. -/
theorem C31_separate {eps : ℝ} (he : 0 < eps) {a b : List (NDArray ℝ)} {sizes : List ℕ} {R R' : ℕ}
    (hR : 0 < R) (hRR : R ≤ R') (ha : Factors a sizes R) (hb : Factors b sizes R') (hne : sizes ≠ []) (useMin : Bool) :
    ∃ vs πs, separateModeFms a b (redName useMin) eps = .ok (vs, πs) ∧ vs.length = sizes.length ∧
      πs.length = sizes.length ∧ ∀ (k : ℕ) F G n, a[k]? = some F → b[k]? = some G → sizes[k]? = some n →
        ∃ v π, vs[k]? = some v ∧ πs[k]? = some (some π) ∧ 0 ≤ v ∧ v ≤ 1 ∧
          IsBest useMin false eps [F] [G] [n] R R' v π := by
  obtain ⟨F0, eF, eR⟩ := first_cols ha hne
  obtain ⟨G0, eG, eR'⟩ := first_cols hb hne
  have hla := ha.length_eq
  have hlb := hb.length_eq
  have key : ∀ p ∈ a.zip b, ∃ y, fmsSearch [p.1] [p.2] false (redOf useMin) R R' eps = .ok y ∧
      (fun (p : NDArray ℝ × NDArray ℝ) (y : ℝ × Option (List ℕ)) => ∀ n, p.1.shape = [n, R] → p.2.shape = [n, R'] →
        ∃ v π, y = (v, some π) ∧ 0 ≤ v ∧ v ≤ 1 ∧ IsBest useMin false eps [p.1] [p.2] [n] R R' v π) p y := by
    intro p hp
    obtain ⟨k, hk, rfl⟩ := List.mem_iff_getElem.1 hp
    have hka : k < a.length := by simp at hk; omega
    have hkb : k < b.length := by simp at hk; omega
    have s1 := ha.shape_get hka
    have s2 := hb.shape_get hkb
    simp only [List.getElem_zip]
    have f1 : Factors [a[k]] [sizes.getD k 0] R := .cons s1 .nil
    have f2 : Factors [b[k]] [sizes.getD k 0] R' := .cons s2 .nil
    rw [fmsSearch_eq he hR f1 f2 (by simp)]
    obtain ⟨v, π, e, h1, h2, h3⟩ := search_best (m := useMin) (penalty := false) he (a := [a[k]]) (b := [b[k]])
      (sizes := [sizes.getD k 0]) hR hRR (by intro h; cases h)
    refine ⟨(v, some π), e, fun n hn _ => ⟨v, π, rfl, h1, h2, ?_⟩⟩
    rw [s1] at hn
    obtain rfl : sizes.getD k 0 = n := by simpa using hn
    exact h3
  obtain ⟨ys, e, hys⟩ := mapM_exists key
  have hl := hys.length_eq
  have hly : ys.length = sizes.length := by rw [← hl]; simp [hla, hlb]
  refine ⟨ys.map Prod.fst, ys.map Prod.snd, ?_, by simp [hly], by simp [hly], ?_⟩
  · rw [separateModeFms, parseReduction_name, bind_ok, eF, bind_ok, eR, bind_ok, eG, bind_ok, eR', bind_ok, e]; rfl
  · intro k F G n hF hG hn
    obtain ⟨hka, rfl⟩ := List.getElem?_eq_some_iff.1 hF
    obtain ⟨hkb, rfl⟩ := List.getElem?_eq_some_iff.1 hG
    obtain ⟨hks, rfl⟩ := List.getElem?_eq_some_iff.1 hn
    have hky : k < ys.length := by omega
    have h := (List.forall₂_iff_get.1 hys).2 k (by simp; omega) hky
    have s1 := ha.shape_get hka
    have s2 := hb.shape_get hkb
    rw [getD_eq_getElem' _ hks] at s1 s2
    obtain ⟨v, π, e2, h1, h2, h3⟩ := h sizes[k] (by simpa using s1) (by simpa using s2)
    have e2 : ys[k] = (v, some π) := e2
    refine ⟨v, π, by simp [hky, e2], by simp [hky, e2], h1, h2, ?_⟩
    simpa using h3

theorem congruenceProd_le {eps : ℝ} (he : 0 < eps) (r s : ℕ) : ∀ {a b : List (NDArray ℝ)} {sizes : List ℕ} {k : ℕ}
    {F G : NDArray ℝ} {n : ℕ}, a[k]? = some F → b[k]? = some G → sizes[k]? = some n →
    congruenceProd eps r s a b sizes ≤ congruence eps F G n r s
  | [], _, _, _, _, _, _, h, _, _ => by simp at h
  | _ :: _, [], _, _, _, _, _, _, h, _ => by simp at h
  | _ :: _, _ :: _, [], _, _, _, _, _, _, h => by simp at h
  | F :: a, G :: b, m :: ms, k, F', G', n, hF, hG, hn => by
    obtain ⟨h1, h2⟩ := congruenceProd_unit he r s a b ms
    obtain ⟨h3, h4⟩ := congruence_unit he F G m r s
    simp only [congruenceProd]
    cases k with
    | zero =>
      simp at hF hG hn
      subst hF hG hn
      nlinarith
    | succ k =>
      have := congruenceProd_le he r s (a := a) (b := b) (sizes := ms) (k := k) (by simpa using hF) (by simpa using hG)
        (by simpa using hn)
      nlinarith

/-- **C31.** The joint score (without size penalty) never exceeds the score of a single mode. -/
theorem C31_joint_le {eps : ℝ} (he : 0 < eps) {a b : List (NDArray ℝ)} {sizes : List ℕ} {R R' : ℕ}
    (hR : 0 < R) (hRR : R ≤ R') (ha : Factors a sizes R) (hb : Factors b sizes R') (hne : sizes ≠ []) (useMin : Bool) :
    ∃ v π vs πs, factorMatchScore a b false (redName useMin) eps = .ok (v, some π) ∧
      separateModeFms a b (redName useMin) eps = .ok (vs, πs) ∧ vs.length = sizes.length ∧ ∀ x ∈ vs, v ≤ x := by
  obtain ⟨v, π, e, -, -, h⟩ := C26_factor_match_score he hR hRR ha hb hne useMin false (by intro h; cases h)
  obtain ⟨vs, πs, e', l1, l2, h'⟩ := C31_separate he hR hRR ha hb hne useMin
  refine ⟨v, π, vs, πs, e, e', l1, ?_⟩
  intro x hx
  obtain ⟨k, hk, rfl⟩ := List.mem_iff_getElem.1 hx
  have hla := ha.length_eq
  have hlb := hb.length_eq
  have hka : k < a.length := by omega
  have hkb : k < b.length := by omega
  have hks : k < sizes.length := by omega
  obtain ⟨w, ρ, e1, -, -, -, hbest⟩ := h' k a[k] b[k] sizes[k] (by simp [hka]) (by simp [hkb]) (by simp [hks])
  obtain rfl : vs[k] = w := by simpa [hk] using e1
  refine h.le hbest fun ρ hρ => ⟨ρ, hρ, redVal_mono (m := useMin) hR fun r hr => ?_⟩
  simp only [compMatch, Bool.false_eq_true, if_false, one_mul]
  refine (congruenceProd_le he r _ (k := k) (List.getElem?_eq_getElem hka) (List.getElem?_eq_getElem hkb)
    (List.getElem?_eq_getElem hks)).trans (le_of_eq ?_)
  simp [congruenceProd]

/-- **C31, refuted for the method.** `KruskalTensor.seperate_mode_factor_match_score` raises `AttributeError` for every
pair of tensors and every reduction: the function it calls does not exist under this name. -/
theorem C31_kruskal_fails (t d : KruskalTensor) (reduction : String) (eps : ℝ) :
    t.seperateModeFms d reduction eps = .error .attributeError := by
  rw [KruskalTensor.seperateModeFms, if_neg (by decide)]

/-! ### C76: the weights of a Kruskal tensor -/

/-- `KruskalTensor.factor_match_score` asserts that the ranks agree. -/
theorem C76_rank_mismatch (t d : KruskalTensor) (h : d.rank ≠ t.rank) (penalty : Bool) (s : String) (eps : ℝ) :
    t.factorMatchScore d penalty s eps = .error .assertionError := by
  rw [KruskalTensor.factorMatchScore, if_pos h]

/-- **C76, refuted.** The score ignores `weights`: two Kruskal tensors whose factor matrices agree get the same scores
as if their weights agreed. -/
theorem C76_weights_ignored (t d : KruskalTensor) (w : NDArray ℝ) (penalty : Bool) (s : String) (eps : ℝ) :
    t.factorMatchScore { d with weights := w } penalty s eps = t.factorMatchScore d penalty s eps := rfl

/-- The size of component `r` of a Kruskal tensor, its weight included. -/
def kruskalSize (t : KruskalTensor) (sizes : List ℕ) (r : ℕ) : ℝ := |t.weights.get [r]| * compSize t.factorMatrices sizes r

/-- **C76, what holds.** When all weights are one, the score is the best one over all assignments, and the sizes that
the penalty compares are the true sizes of the components. Missing: other weights (`C76_weights_ignored`,
`C76_fails`). -/
theorem C76_unit_weights_partial {eps : ℝ} (he : 0 < eps) {t d : KruskalTensor} {sizes : List ℕ} {R : ℕ} (hR : 0 < R)
    (ht : t.WF sizes R) (hd : d.WF sizes R) (hne : sizes ≠ []) (htw : ∀ r < R, t.weights.get [r] = 1)
    (hdw : ∀ r < R, d.weights.get [r] = 1) (useMin penalty : Bool)
    (hc : Comparable penalty t.factorMatrices d.factorMatrices sizes R R) :
    (∃ v π, t.factorMatchScore d penalty (redName useMin) eps = .ok (v, some π) ∧ 0 ≤ v ∧ v ≤ 1 ∧
      IsBest useMin penalty eps t.factorMatrices d.factorMatrices sizes R R v π) ∧
    ∀ r < R, compSize t.factorMatrices sizes r = kruskalSize t sizes r ∧
      compSize d.factorMatrices sizes r = kruskalSize d sizes r := by
  refine ⟨?_, fun r hr => ?_⟩
  · rw [KruskalTensor.factorMatchScore, if_neg (by rw [ht.rank, hd.rank]; simp)]
    exact C26_factor_match_score he hR le_rfl ht.factors hd.factors hne useMin penalty hc
  · rw [kruskalSize, kruskalSize, htw r hr, hdw r hr]; simp

/-- The rank one tensor of two `1 × 1` factor matrices. -/
def tiny (x w : ℝ) : KruskalTensor := ⟨1, [ofMat 1 1 fun _ _ => x, ofMat 1 1 fun _ _ => 1], ofFn [1] fun _ => w⟩

theorem tiny_wf (x w : ℝ) : (tiny x w).WF [1, 1] 1 := ⟨rfl, .cons rfl (.cons rfl .nil), rfl⟩

theorem colLen_tiny {x : ℝ} (hx : 0 ≤ x) : colLen (ofMat 1 1 fun _ _ => x) 1 0 = x := by
  rw [colLen, Finset.sum_range_one, get_ofMat one_pos one_pos, Real.sqrt_sq hx]

theorem tiny_size {x : ℝ} (hx : 0 ≤ x) (w : ℝ) : compSize (tiny x w).factorMatrices [1, 1] 0 = x := by
  simp [compSize, tiny, modeProd, colLen_tiny hx, colLen_tiny zero_le_one]

theorem tiny_score {x y : ℝ} (hx : 0 < x) (hy : 0 < y) (w v : ℝ) :
    (tiny x w).factorMatchScore (tiny y v) = .ok (compMatch true 1e-15 (tiny x w).factorMatrices
      (tiny y v).factorMatrices [1, 1] 0 0, some [0]) := by
  have hc : Comparable true (tiny x w).factorMatrices (tiny y v).factorMatrices [1, 1] 1 1 :=
    comparable_of_nonzero fun r hr => by
      obtain rfl : r = 0 := by omega
      rw [tiny_size hx.le]; exact hx.ne'
  obtain ⟨s, π, e, -, -, hb⟩ := C26_factor_match_score (eps := 1e-15) (by norm_num) one_pos le_rfl (tiny_wf x w).factors
    (tiny_wf y v).factors (by simp) true true hc
  have hπ : π = [0] := by
    have h1 := mem_permutations_range.2 hb.assignment
    have h2 : permutations 1 (List.range 1) = [[0]] := by decide
    rw [h2] at h1
    simpa using h1
  subst hπ
  rw [KruskalTensor.factorMatchScore, if_neg (by simp [tiny])]
  refine e.trans ?_
  rw [hb.attained]
  refine congrArg Except.ok (Prod.ext ?_ rfl)
  have ea : ∀ π, assignScore true true 1e-15 (tiny x w).factorMatrices (tiny y v).factorMatrices [1, 1] 1 π
      = redVal true 1 fun r => compMatch true 1e-15 (tiny x w).factorMatrices (tiny y v).factorMatrices [1, 1] r
        (π.getD r 0) := fun _ => rfl
  simp only [ea]
  rw [redVal_congr (g := fun _ => compMatch true 1e-15 (tiny x w).factorMatrices (tiny y v).factorMatrices [1, 1] 0 0),
    redVal_const one_pos]
  intro r hr
  obtain rfl : r = 0 := by omega
  rfl

/-- **C76, refuted.** The factor match score with the size penalty depends on where the size of a component is stored:
`t` and `d` are the same rank one tensor (the factor 2 is in a factor matrix of `t` and in the weights of `d`), but the
score of `t` and `d` is at most one half whereas that of `t` with itself exceeds nine tenths. -/
theorem C76_fails : ∃ t d : KruskalTensor, t.WF [1, 1] 1 ∧ d.WF [1, 1] 1 ∧ t.constructTensor = d.constructTensor ∧
    ∃ x y π π', t.factorMatchScore d = .ok (x, some π) ∧ t.factorMatchScore t = .ok (y, some π') ∧
      x ≤ 1 / 2 ∧ 9 / 10 < y := by
  refine ⟨tiny 2 1, tiny 1 2, tiny_wf _ _, tiny_wf _ _, ?_, _, _, [0], [0], tiny_score (by norm_num) (by norm_num) _ _,
    tiny_score (by norm_num) (by norm_num) _ _, ?_, ?_⟩
  · rw [constructTensor_eq (tiny_wf _ _) (by simp), constructTensor_eq (tiny_wf _ _) (by simp)]
    refine congrArg Except.ok (ofFn_congr fun idx hidx => ?_)
    obtain ⟨i, is, rfl, hi, his⟩ := valid_cons_iff.1 hidx
    obtain ⟨j, js, rfl, hj, hjs⟩ := valid_cons_iff.1 his
    simp only [cpEntry, Finset.sum_range_one, tiny, rankOne]
    rw [get_ofMat hi one_pos, get_ofMat hi one_pos, get_ofMat hj one_pos, get_ofFn (by simp), get_ofFn (by simp)]
    norm_num
  · obtain ⟨h1, h2⟩ := congruenceProd_unit (eps := 1e-15) (by norm_num) 0 0 (tiny 2 1).factorMatrices
      (tiny 1 2).factorMatrices [1, 1]
    rw [compMatch, if_pos rfl, tiny_size (by norm_num), tiny_size (by norm_num), sizeMatch, max_eq_left (by norm_num)]
    have : |(2 : ℝ) - 1| = 1 := by norm_num
    rw [this]
    linarith
  · rw [compMatch, if_pos rfl, congruenceProd_self (by norm_num), sizeMatch]
    simp only [tiny, modeProd, colLen_tiny (x := 2) (by norm_num), colLen_tiny (x := 1) (by norm_num)]
    norm_num

end
end TK
