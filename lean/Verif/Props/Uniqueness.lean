import Verif.Spec.Uniqueness
import Verif.Lemmas.Uniqueness
import Verif.Props.Fms
import Verif.Props.CP
import Verif.Props.Compression
import Verif.Lemmas.Descent
import Verif.Props.Scores

/-!
# C141: exact models are the same
-/

namespace TK
open NDArray

section
variable {eps : ℝ}

theorem getElem?_lt {β : Type} {l : List β} {k : ℕ} {x : β} (h : l[k]? = some x) : ∃ hk : k < l.length, l[k] = x :=
  List.getElem?_eq_some_iff.1 h

/-- Two modes split off. -/
theorem rankOne_two {fs : List (NDArray ℝ)} {idx : List ℕ} {k l i j r : ℕ} {F G : NDArray ℝ} (hkl : k < l)
    (hF : fs[k]? = some F) (hG : fs[l]? = some G) (hidx : idx.length + 2 = fs.length) :
    rankOne fs ((idx.insertIdx k i).insertIdx l j) r
      = F.get [i, r] * G.get [j, r] * rankOne ((fs.eraseIdx l).eraseIdx k) idx r := by
  obtain ⟨hl, rfl⟩ := getElem?_lt hG
  obtain ⟨hk, rfl⟩ := getElem?_lt hF
  have h1 : (fs.eraseIdx l).length + 1 = fs.length := by rw [List.length_eraseIdx_of_lt hl]; omega
  rw [rankOne_insertIdx hl (by rw [List.length_insertIdx_of_le_length (by omega)]; omega),
    rankOne_insertIdx (fs := fs.eraseIdx l) (by omega) (by omega), List.getElem_eraseIdx_of_lt _ hkl]
  ring

theorem valid_two {sizes idx : List ℕ} {k l i j : ℕ} (hkl : k < l) (hl : l < sizes.length)
    (h : Valid ((sizes.eraseIdx l).eraseIdx k) idx) (hi : i < sizes.getD k 0) (hj : j < sizes.getD l 0) :
    Valid sizes ((idx.insertIdx k i).insertIdx l j) := by
  have h1 : (sizes.eraseIdx l).length + 1 = sizes.length := by rw [List.length_eraseIdx_of_lt hl]; omega
  have h2 : ((sizes.eraseIdx l).eraseIdx k).length + 1 = (sizes.eraseIdx l).length := by
    rw [List.length_eraseIdx_of_lt (by omega)]; omega
  have h3 := (h.insertIdx (n := k) (by omega) hi)
  have e1 : ((sizes.eraseIdx l).eraseIdx k).insertIdx k (sizes.getD k 0) = sizes.eraseIdx l := by
    have e2 : (sizes.eraseIdx l).getD k 0 = sizes.getD k 0 := by
      rw [getD_eraseIdx', if_pos hkl]
    rw [← e2]
    exact insertIdx_eraseIdx_getD (by omega)
  rw [e1] at h3
  have h4 := h3.insertIdx (n := l) (by omega) hj
  rwa [insertIdx_eraseIdx_getD hl] at h4

theorem sum_fin_range {n : ℕ} (f : ℕ → ℝ) : ∑ r : Fin n, f r = ∑ r ∈ Finset.range n, f r := Fin.sum_univ_eq_sum_range f n

/-- Independent columns, with `Fin` indices. -/
theorem IndepColumns.fin {F : NDArray ℝ} {m n : ℕ} (h : IndepColumns F m n) (v : Fin n → ℝ)
    (hv : ∀ i : Fin m, ∑ r : Fin n, F.get [i, r] * v r = 0) : v = 0 := by
  funext r
  have key := h (fun j => if hj : j < n then v ⟨j, hj⟩ else 0) (fun i hi => by
    rw [← sum_fin_range, ← hv ⟨i, hi⟩]
    exact Finset.sum_congr rfl fun r _ => by simp) r r.2
  simpa using key

/-- The components of two decompositions of the same tensor. -/
theorem terms_agree {w w' : ℕ → ℝ} {fs fs' : List (NDArray ℝ)} {sizes : List ℕ} {R : ℕ} (hf : Factors fs sizes R)
    (hf' : Factors fs' sizes R) (hw : ∀ r < R, w r ≠ 0) (hI : Identifiable fs sizes R)
    (h : ∀ idx, Valid sizes idx → cpEntry w fs R idx = cpEntry w' fs' R idx) :
    ∃ π, IsAssignment π R R ∧ ∀ r < R, ∀ idx, Valid sizes idx →
      w' (π.getD r 0) * rankOne fs' idx (π.getD r 0) = w r * rankOne fs idx r := by
  obtain ⟨k, l, F, G, hkl, hF, hG, iF, iG, hd⟩ := hI
  have hlen := hf.length_eq
  have hlen' := hf'.length_eq
  obtain ⟨hl, -⟩ := getElem?_lt hG
  obtain ⟨F', hF'⟩ : ∃ F', fs'[k]? = some F' := ⟨fs'[k]'(by omega), List.getElem?_eq_getElem _⟩
  obtain ⟨G', hG'⟩ : ∃ G', fs'[l]? = some G' := ⟨fs'[l]'(by omega), List.getElem?_eq_getElem _⟩
  have hvl : ∀ {idx}, Valid ((sizes.eraseIdx l).eraseIdx k) idx → idx.length + 2 = sizes.length := by
    intro idx hv
    have := hv.length_eq
    rw [List.length_eraseIdx_of_lt (by rw [List.length_eraseIdx_of_lt (by omega)]; omega),
      List.length_eraseIdx_of_lt (by omega)] at this
    omega
  let γ := {idx : List ℕ // Valid ((sizes.eraseIdx l).eraseIdx k) idx}
  obtain ⟨π, hπ⟩ := rank_one_terms_unique (α := Fin (sizes.getD k 0)) (β := Fin (sizes.getD l 0)) (γ := γ) (n := R)
    (a := fun i r => F.get [i, r]) (a' := fun i r => F'.get [i, r])
    (b := fun j r => G.get [j, r]) (b' := fun j r => G'.get [j, r])
    (c := fun idx r => w r * rankOne ((fs.eraseIdx l).eraseIdx k) idx.1 r)
    (c' := fun idx r => w' r * rankOne ((fs'.eraseIdx l).eraseIdx k) idx.1 r) iF.fin iG.fin (fun r => by
      obtain ⟨idx, h1, h2⟩ := hd.nonzero r r.2
      exact ⟨⟨idx, h1⟩, mul_ne_zero (hw r r.2) h2⟩) (fun r s x hx => by
      refine Fin.ext (hd.distinct r r.2 s s.2 (x * w s / w r) fun idx hv => ?_)
      have h1 := hx ⟨idx, hv⟩
      have h2 := hw r r.2
      rw [div_mul_eq_mul_div, eq_div_iff h2]
      linear_combination h1) (fun i j idx => by
      have h1 := h _ (valid_two hkl (by omega) idx.2 i.2 j.2)
      rw [cpEntry, cpEntry, ← sum_fin_range, ← sum_fin_range] at h1
      have h2 := hvl idx.2
      simp only [rankOne_two hkl hF hG (by omega : idx.1.length + 2 = fs.length),
        rankOne_two hkl hF' hG' (by omega : idx.1.length + 2 = fs'.length)] at h1
      refine Eq.trans (Finset.sum_congr rfl fun r _ => ?_) (h1.trans (Finset.sum_congr rfl fun r _ => ?_)) <;> ring)
  refine ⟨(List.finRange R).map fun r => (π.symm r : ℕ), ⟨by simp, ?_, ?_⟩, fun r hr idx hidx => ?_⟩
  · refine (List.nodup_finRange R).map ?_
    intro x y hxy
    exact π.symm.injective (Fin.ext hxy)
  · intro x hx
    obtain ⟨r, -, rfl⟩ := List.mem_map.1 hx
    exact (π.symm r).2
  · have e : ((List.finRange R).map fun r => (π.symm r : ℕ)).getD r 0 = π.symm ⟨r, hr⟩ := by
      rw [getD_eq_getElem' _ (by simpa using hr)]
      simp
    rw [e]
    have hv2 := (hidx.eraseIdx (n := l)).eraseIdx (n := k)
    have hlidx : idx.length = sizes.length := hidx.length_eq
    have h1 := hπ (π.symm ⟨r, hr⟩) ⟨idx.getD k 0, hidx.getD_lt (by omega)⟩ ⟨idx.getD l 0, hidx.getD_lt (by omega)⟩ ⟨_, hv2⟩
    rw [Equiv.apply_symm_apply] at h1
    have hidx2 : ((((idx.eraseIdx l).eraseIdx k).insertIdx k (idx.getD k 0)).insertIdx l (idx.getD l 0)) = idx := by
      have e2 : (idx.eraseIdx l).getD k 0 = idx.getD k 0 := by rw [getD_eraseIdx', if_pos hkl]
      rw [← e2, insertIdx_eraseIdx_getD (by rw [List.length_eraseIdx_of_lt (by omega)]; omega),
        insertIdx_eraseIdx_getD (by omega)]
    have h2 := hvl hv2
    rw [← hidx2, rankOne_two hkl hF hG (by omega), rankOne_two hkl hF' hG' (by omega)]
    linear_combination h1

/-! ### Equal components have proportional columns -/

theorem columns_of_terms {R r s : ℕ} : ∀ {fs fs' : List (NDArray ℝ)} {sizes : List ℕ} {y : ℝ}, Factors fs sizes R →
    Factors fs' sizes R → y ≠ 0 → (∃ idx, Valid sizes idx ∧ rankOne fs idx r ≠ 0) →
    (∀ idx, Valid sizes idx → rankOne fs' idx s = y * rankOne fs idx r) →
    List.Forall₂ (fun p m => ColumnsAgree p.1 p.2 m r s) (fs.zip fs') sizes ∧ compSize fs' sizes s = |y| * compSize fs sizes r := by
  intro fs fs' sizes y hf
  induction hf generalizing fs' y with
  | nil =>
    intro hf' hy _ h
    cases hf'
    have := h [] trivial
    simp only [rankOne, mul_one] at this
    exact ⟨.nil, by simp [compSize, modeProd, ← this]⟩
  | cons h1 h2 ih =>
    intro hf' hy h0 h
    cases hf' with
    | cons g1 g2 =>
      rename_i F m fs ms F' fs'
      obtain ⟨idx, hv, hne⟩ := h0
      cases idx with
      | nil => exact absurd hv (by simp [Valid])
      | cons i₀ is₀ =>
        have hi := hv.1
        have his := hv.2
        rw [rankOne] at hne
        have n1 := left_ne_zero_of_mul hne
        have n2 := right_ne_zero_of_mul hne
        have e0 := h (i₀ :: is₀) hv
        simp only [rankOne] at e0
        have n3 : F'.get [i₀, s] * rankOne fs' is₀ s ≠ 0 := by rw [e0]; exact mul_ne_zero hy hne
        have n4 := left_ne_zero_of_mul n3
        have n5 := right_ne_zero_of_mul n3
        have hx : ∀ i < m, F'.get [i, s] = y * rankOne fs is₀ r / rankOne fs' is₀ s * F.get [i, r] := by
          intro i hi
          have := h (i :: is₀) ⟨hi, his⟩
          simp only [rankOne] at this
          rw [div_mul_eq_mul_div, eq_div_iff n5]
          linear_combination this
        have hy' : y * F.get [i₀, r] / F'.get [i₀, s] ≠ 0 := div_ne_zero (mul_ne_zero hy n1) n4
        obtain ⟨k1, k2⟩ := ih g2 hy' ⟨is₀, his, n2⟩ fun is his' => by
          have := h (i₀ :: is) ⟨hi, his'⟩
          simp only [rankOne] at this
          rw [div_mul_eq_mul_div, eq_div_iff n4]
          linear_combination this
        have hx0 : y * rankOne fs is₀ r / rankOne fs' is₀ s ≠ 0 := div_ne_zero (mul_ne_zero hy n2) n5
        refine ⟨.cons ⟨_, hx0, hx⟩ k1, ?_⟩
        have hc : colLen F' m s = |y * rankOne fs is₀ r / rankOne fs' is₀ s| * colLen F m r := by
          rw [colLen, colLen, ← Real.sqrt_sq_eq_abs, ← Real.sqrt_mul (sq_nonneg _), Finset.mul_sum]
          refine congrArg Real.sqrt (Finset.sum_congr rfl fun i hi => ?_)
          rw [hx i (Finset.mem_range.1 hi)]; ring
        rw [compSize, compSize] at k2
        rw [compSize, compSize, modeProd, modeProd, hc, k2]
        have e3 : y * rankOne fs is₀ r / rankOne fs' is₀ s * (y * F.get [i₀, r] / F'.get [i₀, s]) = y := by
          rw [div_mul_div_comm, div_eq_iff (mul_ne_zero n5 n4)]
          linear_combination -y * e0
        rw [← e3, abs_mul]
        rw [e3]
        ring

theorem congruence_agree (he : 0 < eps) {F G : NDArray ℝ} {m r s : ℕ} (h : ColumnsAgree F G m r s) :
    congruence eps F G m r s = colLen F m r / (colLen F m r + eps) * (colLen G m s / (colLen G m s + eps)) := by
  obtain ⟨x, -, hx⟩ := h
  have hc : colLen G m s = |x| * colLen F m r := by
    rw [colLen, colLen, ← Real.sqrt_sq_eq_abs, ← Real.sqrt_mul (sq_nonneg _), Finset.mul_sum]
    refine congrArg Real.sqrt (Finset.sum_congr rfl fun i hi => ?_)
    rw [hx i (Finset.mem_range.1 hi)]; ring
  have hd : colDot F G m r s = x * colLen F m r ^ 2 := by
    rw [colLen, Real.sq_sqrt (Finset.sum_nonneg fun i _ => sq_nonneg _), colDot, Finset.mul_sum]
    refine Finset.sum_congr rfl fun i hi => ?_
    rw [hx i (Finset.mem_range.1 hi)]; ring
  rw [congruence, hd, abs_mul, abs_of_nonneg (sq_nonneg (colLen F m r)), div_mul_div_comm]
  congr 1
  rw [hc]; ring

theorem congruenceProd_agree (he : 0 < eps) {r s : ℕ} : ∀ {fs fs' : List (NDArray ℝ)} {sizes : List ℕ}, fs.length = fs'.length →
    List.Forall₂ (fun p m => ColumnsAgree p.1 p.2 m r s) (fs.zip fs') sizes →
    congruenceProd eps r s fs fs' sizes = guard eps fs sizes r * guard eps fs' sizes s
  | [], [], [], _, _ => by simp [congruenceProd, guard, modeProd]
  | F :: fs, G :: fs', m :: ms, hl, h => by
    cases h with
    | cons h1 h2 =>
      have ih := congruenceProd_agree he (by simpa using hl) h2
      rw [guard, guard] at ih
      rw [congruenceProd, guard, guard, modeProd, modeProd, ih, congruence_agree he h1]
      ring

/-! ### Components that are not zero -/

theorem IndepColumns.column_ne_zero {F : NDArray ℝ} {m n r : ℕ} (h : IndepColumns F m n) (hr : r < n) :
    ∃ i < m, F.get [i, r] ≠ 0 := by
  by_contra hn
  push Not at hn
  have := h (fun j => if j = r then 1 else 0) (fun i hi => by
    refine Finset.sum_eq_zero fun j _ => ?_
    by_cases hj : j = r
    · subst hj; rw [hn i hi, zero_mul]
    · rw [if_neg hj, mul_zero]) r hr
  simp at this

theorem Identifiable.nonzero {fs : List (NDArray ℝ)} {sizes : List ℕ} {R r : ℕ} (hf : Factors fs sizes R)
    (h : Identifiable fs sizes R) (hr : r < R) : ∃ idx, Valid sizes idx ∧ rankOne fs idx r ≠ 0 := by
  obtain ⟨k, l, F, G, hkl, hF, hG, iF, iG, hd⟩ := h
  obtain ⟨hl, -⟩ := getElem?_lt hG
  have hlen := hf.length_eq
  obtain ⟨i, hi, n1⟩ := iF.column_ne_zero hr
  obtain ⟨j, hj, n2⟩ := iG.column_ne_zero hr
  obtain ⟨idx, hv, n3⟩ := hd.nonzero r hr
  refine ⟨_, valid_two hkl (by omega) hv hi hj, ?_⟩
  have := hv.length_eq
  rw [List.length_eraseIdx_of_lt (by rw [List.length_eraseIdx_of_lt (by omega)]; omega),
    List.length_eraseIdx_of_lt (by omega)] at this
  rw [rankOne_two hkl hF hG (by omega)]
  exact mul_ne_zero (mul_ne_zero n1 n2) n3

theorem compSize_ne_zero {R r : ℕ} : ∀ {fs : List (NDArray ℝ)} {sizes idx : List ℕ}, Factors fs sizes R → Valid sizes idx →
    rankOne fs idx r ≠ 0 → compSize fs sizes r ≠ 0 := by
  intro fs sizes idx hf
  induction hf generalizing idx with
  | nil => intro _ _; simp [compSize, modeProd]
  | cons h1 h2 ih =>
    intro hv hne
    cases idx with
    | nil => exact absurd hv (by simp [Valid])
    | cons i is =>
      rename_i F m fs ms
      rw [rankOne] at hne
      have h3 := ih hv.2 (right_ne_zero_of_mul hne)
      rw [compSize] at h3
      rw [compSize, modeProd]
      refine mul_ne_zero (ne_of_gt ?_) h3
      refine Real.sqrt_pos.2 (Finset.sum_pos' (fun i _ => sq_nonneg _) ⟨i, Finset.mem_range.2 hv.1, ?_⟩)
      have := left_ne_zero_of_mul hne
      positivity

/-! ### The property -/

theorem components_agree {t t' : KruskalTensor} {sizes : List ℕ} {R : ℕ} (ht : t.WF sizes R) (ht' : t'.WF sizes R)
    (hw : ∀ r < R, t.weights.get [r] ≠ 0) (hI : Identifiable t.factorMatrices sizes R)
    (h : ∀ idx, Valid sizes idx → cpEntry (fun r => t.weights.get [r]) t.factorMatrices R idx
      = cpEntry (fun r => t'.weights.get [r]) t'.factorMatrices R idx) :
    ∃ π, IsAssignment π R R ∧ ∀ r < R, (∀ idx, Valid sizes idx →
        t'.weights.get [π.getD r 0] * rankOne t'.factorMatrices idx (π.getD r 0)
          = t.weights.get [r] * rankOne t.factorMatrices idx r) ∧
      List.Forall₂ (fun p m => ColumnsAgree p.1 p.2 m r (π.getD r 0)) (t.factorMatrices.zip t'.factorMatrices) sizes ∧
      |t'.weights.get [π.getD r 0]| * compSize t'.factorMatrices sizes (π.getD r 0)
        = |t.weights.get [r]| * compSize t.factorMatrices sizes r := by
  obtain ⟨π, h1, h3⟩ := terms_agree ht.factors ht'.factors hw hI h
  refine ⟨π, h1, fun r hr => ?_⟩
  obtain ⟨idx, hv, hne⟩ := hI.nonzero ht.factors hr
  have h4 := h3 r hr
  have n1 : t'.weights.get [π.getD r 0] ≠ 0 := by
    intro h0
    have := h4 idx hv
    rw [h0, zero_mul] at this
    exact mul_ne_zero (hw r hr) hne this.symm
  obtain ⟨k1, k2⟩ := columns_of_terms (y := t.weights.get [r] / t'.weights.get [π.getD r 0]) ht.factors ht'.factors
    (div_ne_zero (hw r hr) n1) ⟨idx, hv, hne⟩ fun idx hv => by
      rw [div_mul_eq_mul_div, eq_div_iff n1]
      linear_combination h4 idx hv
  refine ⟨h4, k1, ?_⟩
  rw [k2, abs_div, ← mul_assoc, mul_div_cancel₀ _ (abs_ne_zero.2 n1)]

/-- **C141.** Two decompositions with the same number of components that represent the same tensor have the same components,
up to their order, if the first is identifiable: two of its factor matrices have linearly independent columns and no two
components are proportional in the other modes. The columns then are multiples of each other. -/
theorem C141_components {t t' : KruskalTensor} {sizes : List ℕ} {R : ℕ} (ht : t.WF sizes R) (ht' : t'.WF sizes R)
    (h2 : 2 ≤ sizes.length) (hw : ∀ r < R, t.weights.get [r] ≠ 0) (hI : Identifiable t.factorMatrices sizes R)
    (h : t.constructTensor = t'.constructTensor) :
    ∃ π, IsAssignment π R R ∧ ∀ r < R, (∀ idx, Valid sizes idx →
        t'.weights.get [π.getD r 0] * rankOne t'.factorMatrices idx (π.getD r 0)
          = t.weights.get [r] * rankOne t.factorMatrices idx r) ∧
      List.Forall₂ (fun p m => ColumnsAgree p.1 p.2 m r (π.getD r 0)) (t.factorMatrices.zip t'.factorMatrices) sizes := by
  rw [constructTensor_eq ht h2, constructTensor_eq ht' h2] at h
  have h := Except.ok.inj h
  obtain ⟨π, h1, h3⟩ := components_agree ht ht' hw hI fun idx hv => by
    have := congrArg (fun A => A.get idx) h
    simpa [get_ofFn hv] using this
  exact ⟨π, h1, fun r hr => ⟨(h3 r hr).1, (h3 r hr).2.1⟩⟩

theorem fms_agree (he : 0 < eps) {t t' : KruskalTensor} {sizes : List ℕ} {R : ℕ} (hR : 0 < R) (ht : t.WF sizes R)
    (ht' : t'.WF sizes R) (h2 : 2 ≤ sizes.length) (hw : ∀ r < R, t.weights.get [r] ≠ 0)
    (hI : Identifiable t.factorMatrices sizes R)
    (h : ∀ idx, Valid sizes idx → cpEntry (fun r => t.weights.get [r]) t.factorMatrices R idx
      = cpEntry (fun r => t'.weights.get [r]) t'.factorMatrices R idx) (useMin penalty : Bool)
    (hp : penalty = true → ∀ r < R, t.weights.get [r] = 1 ∧ t'.weights.get [r] = 1) :
    ∃ v ρ π, t.factorMatchScore t' penalty (redName useMin) eps = .ok (v, some ρ) ∧ v ≤ 1 ∧ IsAssignment π R R ∧
      (if useMin then reduceMin else reduceMean) R
        (fun r => guard eps t.factorMatrices sizes r * guard eps t'.factorMatrices sizes (π.getD r 0)) ≤ v := by
  obtain ⟨π, h1, h3⟩ := components_agree ht ht' hw hI h
  have hc : Comparable penalty t.factorMatrices t'.factorMatrices sizes R R := fun _ r hr _ _ => by
    obtain ⟨idx, hv, hne⟩ := hI.nonzero ht.factors hr
    exact Or.inl (compSize_ne_zero ht.factors hv hne)
  obtain ⟨v, ρ, e, -, v1, hb⟩ := C26_factor_match_score he hR le_rfl ht.factors ht'.factors
    (by rintro rfl; simp at h2) useMin penalty hc
  refine ⟨v, ρ, π, ?_, v1, h1, le_trans (le_of_eq ?_) (hb.best π h1)⟩
  · rw [KruskalTensor.factorMatchScore, if_neg (by rw [ht.rank, ht'.rank]; simp), e]
  · refine redVal_congr (m := useMin) fun r hr => ?_
    obtain ⟨-, k1, k2⟩ := h3 r hr
    rw [compMatch, congruenceProd_agree he (by rw [ht.factors.length_eq, ht'.factors.length_eq]) k1]
    cases penalty with
    | false => simp
    | true =>
      rw [(hp rfl r hr).1, (hp rfl _ (h1.getD_lt hr)).2, abs_one, one_mul, one_mul] at k2
      rw [if_pos rfl, k2, sizeMatch, sub_self, abs_zero, zero_div, sub_zero, one_mul]

/-- **C141.** The factor match score of two such decompositions is one up to the guard `eps`: it is at least the least (or the
mean) over the components of the products of `n / (n + eps)` over all columns of the two components. With the weight penalty
this holds for decompositions with unit weights (the score ignores the weights, C76). -/
theorem C141_score (he : 0 < eps) {t t' : KruskalTensor} {sizes : List ℕ} {R : ℕ} (hR : 0 < R) (ht : t.WF sizes R)
    (ht' : t'.WF sizes R) (h2 : 2 ≤ sizes.length) (hw : ∀ r < R, t.weights.get [r] ≠ 0)
    (hI : Identifiable t.factorMatrices sizes R) (h : t.constructTensor = t'.constructTensor) (useMin penalty : Bool)
    (hp : penalty = true → ∀ r < R, t.weights.get [r] = 1 ∧ t'.weights.get [r] = 1) :
    ∃ v ρ π, t.factorMatchScore t' penalty (redName useMin) eps = .ok (v, some ρ) ∧ v ≤ 1 ∧ IsAssignment π R R ∧
      (if useMin then reduceMin else reduceMean) R
        (fun r => guard eps t.factorMatrices sizes r * guard eps t'.factorMatrices sizes (π.getD r 0)) ≤ v := by
  rw [constructTensor_eq ht h2, constructTensor_eq ht' h2] at h
  have h := Except.ok.inj h
  refine fms_agree he hR ht ht' h2 hw hI (fun idx hv => ?_) useMin penalty hp
  have := congrArg (fun A => A.get idx) h
  simpa [get_ofFn hv] using this

/-- **C141.** Two fits of the same tensor that both report the error zero found the same components, if one of them is
identifiable; their factor match score is one up to the guard. -/
theorem C141_fits (he : 0 < eps) {s s' : CPState} {R : ℕ} (hR : 0 < R) (hs : s.Sized R) (hc : s.Cached R) (hs' : s'.Sized R)
    (hc' : s'.Cached R) (hX : s'.X = s.X) (h0 : CP.sse s = .ok 0) (h0' : CP.sse s' = .ok 0)
    (hw : ∀ r < R, s.dec.weights.get [r] ≠ 0) (hI : Identifiable s.dec.factorMatrices s.X.shape R) (useMin penalty : Bool)
    (hp : penalty = true → ∀ r < R, s.dec.weights.get [r] = 1 ∧ s'.dec.weights.get [r] = 1) :
    (∃ π, IsAssignment π R R ∧ ∀ r < R, ∀ idx, Valid s.X.shape idx →
      s'.dec.weights.get [π.getD r 0] * rankOne s'.dec.factorMatrices idx (π.getD r 0)
        = s.dec.weights.get [r] * rankOne s.dec.factorMatrices idx r) ∧
    ∃ v ρ π, s.dec.factorMatchScore s'.dec penalty (redName useMin) eps = .ok (v, some ρ) ∧ v ≤ 1 ∧ IsAssignment π R R ∧
      (if useMin then reduceMin else reduceMean) R
        (fun r => guard eps s.dec.factorMatrices s.X.shape r * guard eps s'.dec.factorMatrices s.X.shape (π.getD r 0)) ≤ v := by
  rw [C35_sse hs hc] at h0
  rw [C35_sse hs' hc'] at h0'
  have z := sumSq_eq_zero_iff.1 (Except.ok.inj h0)
  have z' := sumSq_eq_zero_iff.1 (Except.ok.inj h0')
  have wf' : s'.dec.WF s.X.shape R := by rw [← hX]; exact hs'.wf
  rw [hX] at z'
  have key : ∀ idx, Valid s.X.shape idx → cpEntry (fun r => s.dec.weights.get [r]) s.dec.factorMatrices R idx
      = cpEntry (fun r => s'.dec.weights.get [r]) s'.dec.factorMatrices R idx := fun idx hv => by
    linarith [z idx hv, z' idx hv]
  obtain ⟨π, h1, h3⟩ := components_agree hs.wf wf' hw hI key
  exact ⟨⟨π, h1, fun r hr => (h3 r hr).1⟩, fms_agree he hR hs.wf wf' hs.order hw hI key useMin penalty hp⟩

/-- **C141.** A fit of a tensor that was built from identifiable components, with the same number of components, has recovered
them if it reports the error zero. -/
theorem C141_recovery (he : 0 < eps) {t : KruskalTensor} {s : CPState} {R : ℕ} (hR : 0 < R) (ht : t.WF s.X.shape R)
    (hX : t.constructTensor = .ok s.X) (hs : s.Sized R) (hc : s.Cached R) (h0 : CP.sse s = .ok 0)
    (hw : ∀ r < R, t.weights.get [r] ≠ 0) (hI : Identifiable t.factorMatrices s.X.shape R) (useMin penalty : Bool)
    (hp : penalty = true → ∀ r < R, t.weights.get [r] = 1 ∧ s.dec.weights.get [r] = 1) :
    (∃ π, IsAssignment π R R ∧ ∀ r < R, ∀ idx, Valid s.X.shape idx →
      s.dec.weights.get [π.getD r 0] * rankOne s.dec.factorMatrices idx (π.getD r 0)
        = t.weights.get [r] * rankOne t.factorMatrices idx r) ∧
    ∃ v ρ π, t.factorMatchScore s.dec penalty (redName useMin) eps = .ok (v, some ρ) ∧ v ≤ 1 ∧ IsAssignment π R R ∧
      (if useMin then reduceMin else reduceMean) R
        (fun r => guard eps t.factorMatrices s.X.shape r * guard eps s.dec.factorMatrices s.X.shape (π.getD r 0)) ≤ v := by
  rw [C35_sse hs hc] at h0
  have z := sumSq_eq_zero_iff.1 (Except.ok.inj h0)
  rw [constructTensor_eq ht hs.order] at hX
  have hX := Except.ok.inj hX
  have key : ∀ idx, Valid s.X.shape idx → cpEntry (fun r => t.weights.get [r]) t.factorMatrices R idx
      = cpEntry (fun r => s.dec.weights.get [r]) s.dec.factorMatrices R idx := fun idx hv => by
    have h1 := congrArg (fun A => A.get idx) hX
    simp only [get_ofFn hv] at h1
    linarith [z idx hv]
  obtain ⟨π, h1, h3⟩ := components_agree ht hs.wf hw hI key
  exact ⟨⟨π, h1, fun r hr => (h3 r hr).1⟩, fms_agree he hR ht hs.wf hs.order hw hI key useMin penalty hp⟩

/-! ### Examples -/

/-- The `2 × 2` identity matrix, and a matrix with the columns `(1, 1)` and `(1, -1)` times `x`. -/
def idMat2 : NDArray ℝ := ofMat 2 2 fun i r => if i = r then 1 else 0
@[inherit_doc idMat2]
def hadMat2 (x : ℝ) : NDArray ℝ := ofMat 2 2 fun i r => if i = 1 ∧ r = 1 then -x else x

theorem idMat2_get {i r : ℕ} (hi : i < 2) (hr : r < 2) : idMat2.get [i, r] = if i = r then 1 else 0 := get_ofMat hi hr
theorem hadMat2_get {x : ℝ} {i r : ℕ} (hi : i < 2) (hr : r < 2) : (hadMat2 x).get [i, r] = if i = 1 ∧ r = 1 then -x else x :=
  get_ofMat hi hr

theorem idMat2_indep : IndepColumns idMat2 2 2 := by
  intro v hv j hj
  have := hv j hj
  rw [Finset.sum_range_succ, Finset.sum_range_one, idMat2_get hj (by norm_num), idMat2_get hj (by norm_num)] at this
  interval_cases j <;> simpa using this

/-- Three modes: the columns `(1, 1)` and `(1, -1)` in the third mode. -/
example : Identifiable [idMat2, idMat2, hadMat2 1] [2, 2, 2] 2 := by
  refine ⟨0, 1, idMat2, idMat2, by norm_num, rfl, rfl, idMat2_indep, idMat2_indep, ?_, ?_⟩
  · intro r hr
    refine ⟨[0], ⟨by norm_num, trivial⟩, ?_⟩
    show (hadMat2 1).get [0, r] * 1 ≠ 0
    rw [hadMat2_get (by norm_num) hr]; norm_num
  · intro r hr s hs x h
    have h1 : (hadMat2 1).get [0, r] * 1 = x * ((hadMat2 1).get [0, s] * 1) := h [0] ⟨by norm_num, trivial⟩
    have h2 : (hadMat2 1).get [1, r] * 1 = x * ((hadMat2 1).get [1, s] * 1) := h [1] ⟨by norm_num, trivial⟩
    rw [hadMat2_get (by norm_num) hr, hadMat2_get (by norm_num) hs] at h1 h2
    interval_cases r <;> interval_cases s <;> norm_num at h1 h2 ⊢ <;> subst h1 <;> norm_num at h2

theorem colLen_idMat2 {r : ℕ} (hr : r < 2) : colLen idMat2 2 r = 1 := by
  rw [colLen, Finset.sum_range_succ, Finset.sum_range_one, idMat2_get (by norm_num) hr, idMat2_get (by norm_num) hr]
  interval_cases r <;> simp

theorem colLen_hadMat2 {x : ℝ} (hx : 0 ≤ x) {r : ℕ} (hr : r < 2) : colLen (hadMat2 x) 2 r = Real.sqrt 2 * x := by
  rw [colLen, Finset.sum_range_succ, Finset.sum_range_one, hadMat2_get (by norm_num) hr, hadMat2_get (by norm_num) hr]
  have : ((if 0 = 1 ∧ r = 1 then -x else x) ^ 2 + (if 1 = 1 ∧ r = 1 then -x else x) ^ 2 : ℝ) = 2 * x ^ 2 := by
    interval_cases r <;> norm_num <;> ring
  rw [this, Real.sqrt_mul (by norm_num), Real.sqrt_sq hx]

theorem colDot_id_had {x : ℝ} (hx : 0 ≤ x) {r s : ℕ} (hr : r < 2) (hs : s < 2) : |colDot idMat2 (hadMat2 x) 2 r s| = x := by
  rw [colDot, Finset.sum_range_succ, Finset.sum_range_one, idMat2_get (by norm_num) hr, idMat2_get (by norm_num) hr,
    hadMat2_get (by norm_num) hs, hadMat2_get (by norm_num) hs]
  interval_cases r <;> interval_cases s <;> simp [abs_of_nonneg hx]

/-- The identity matrix as a product of factor matrices, in two ways. -/
def twoModes (F G : NDArray ℝ) : KruskalTensor := ⟨2, [F, G], full [2] 1⟩

/-- **C141**, the hypothesis on the other modes is needed: with two modes the components are not determined by the tensor. Two
decompositions of the identity matrix with linearly independent columns have a factor match score of at most one half. -/
theorem C141_two_modes (he : 0 < eps) : ∃ t t' : KruskalTensor, t.WF [2, 2] 2 ∧ t'.WF [2, 2] 2 ∧
    t.constructTensor = t'.constructTensor ∧ (∀ F ∈ t.factorMatrices, IndepColumns F 2 2) ∧
    ∃ v π, t.factorMatchScore t' false "min" eps = .ok (v, some π) ∧ v ≤ 1 / 2 := by
  have wf : ∀ F G : NDArray ℝ, F.shape = [2, 2] → G.shape = [2, 2] → (twoModes F G).WF [2, 2] 2 := fun F G h1 h2 =>
    ⟨rfl, .cons h1 (.cons h2 .nil), rfl⟩
  have w1 := wf idMat2 idMat2 rfl rfl
  have w2 := wf (hadMat2 1) (hadMat2 (1 / 2)) rfl rfl
  refine ⟨_, _, w1, w2, ?_, ?_, ?_⟩
  · rw [constructTensor_eq w1 (by simp), constructTensor_eq w2 (by simp)]
    refine congrArg Except.ok (ofFn_congr fun idx hidx => ?_)
    obtain ⟨i, is, rfl, hi, his⟩ := valid_cons_iff.1 hidx
    obtain ⟨j, js, rfl, hj, hjs⟩ := valid_cons_iff.1 his
    simp only [cpEntry, twoModes, Finset.sum_range_succ, Finset.sum_range_zero, rankOne]
    rw [idMat2_get hi (by norm_num), idMat2_get hi (by norm_num), idMat2_get hj (by norm_num), idMat2_get hj (by norm_num),
      hadMat2_get hi (by norm_num), hadMat2_get hi (by norm_num), hadMat2_get hj (by norm_num), hadMat2_get hj (by norm_num),
      get_full (by simp), get_full (by simp)]
    interval_cases i <;> interval_cases j <;> norm_num
  · intro F hF
    have : F = idMat2 := by simpa [twoModes] using hF
    rw [this]; exact idMat2_indep
  · obtain ⟨v, π, e, -, -, hb⟩ := C26_factor_match_score he (by norm_num) le_rfl w1.factors w2.factors (by simp) true false
      (fun h => absurd h (by simp))
    refine ⟨v, π, ?_, ?_⟩
    · rw [KruskalTensor.factorMatchScore, if_neg (by simp [twoModes])]
      exact e
    · rw [hb.attained, assignScore, if_pos rfl, reduceMin]
      have hs : π.getD 0 0 < 2 := hb.assignment.getD_lt (by norm_num)
      refine (ciInf_le (Set.finite_range _).bddBelow (⟨0, by norm_num⟩ : Fin 2)).trans ?_
      show compMatch false eps [idMat2, idMat2] [hadMat2 1, hadMat2 (1 / 2)] [2, 2] 0 (π.getD 0 0) ≤ 1 / 2
      rw [compMatch, congruenceProd, congruenceProd, congruenceProd, congruence, congruence, colDot_id_had (by norm_num) (by norm_num) hs,
        colDot_id_had (by norm_num) (by norm_num) hs, colLen_idMat2 (by norm_num), colLen_hadMat2 (by norm_num) hs,
        colLen_hadMat2 (by norm_num) hs]
      · have h2 : Real.sqrt 2 * Real.sqrt 2 = 2 := Real.mul_self_sqrt (by norm_num)
        have h3 := Real.sqrt_nonneg 2
        simp only [Bool.false_eq_true, if_false, one_mul, mul_one]
        rw [div_mul_div_comm, div_le_iff₀ (by positivity), one_mul]
        have h4 : (1 : ℝ) ≤ (Real.sqrt 2 + eps) * (Real.sqrt 2 * (1 / 2) + eps) := by nlinarith [mul_nonneg h3 he.le]
        have h5 : (1 : ℝ) ≤ (1 + eps) * (1 + eps) := by nlinarith
        have h6 := mul_le_mul h5 h4 (by norm_num) (by positivity)
        linarith
      · simp

end
end TK
