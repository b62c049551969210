import Verif.Props.Fms
import Verif.Props.CoreConsistency

/-!
# Factor match scores of lists that do not fit together (C120), and of vectors (C121)
-/

namespace TK
open NDArray

noncomputable section

/-! ### C120: different sizes, different numbers of modes -/

theorem dotVec_sizes {u v : NDArray ℝ} (h : u.shape ≠ v.shape) : dotVec u v = .error .valueError := by
  rw [dotVec, if_neg h]

/-- The loop over the modes stops at the first mode with different sizes. -/
theorem matchModes_sizes {eps : ℝ} {R r : ℕ} (hr : r < R) {a : List (NDArray ℝ)} {sizes : List ℕ}
    (ha : Factors a sizes R) : ∀ {b : List (NDArray ℝ)} {sizes' : List ℕ} (x : Option ℝ) {n : ℕ}, Factors b sizes' R →
    n < sizes.length → n < sizes'.length → sizes.getD n 0 ≠ sizes'.getD n 0 →
    matchModes true r ((List.zipWith (fun F m => normMat F m R eps) a sizes).zip
      (List.zipWith (fun F m => normMat F m R eps) b sizes')) x = .error .valueError := by
  induction ha with
  | nil => intro b sizes' x n _ h; simp at h
  | cons h1 h2 ih =>
    rename_i F m a ms
    intro b sizes' x n hb hn hn' hd
    cases hb with
    | nil => simp at hn'
    | cons g1 g2 =>
      rename_i G m' b ms'
      simp only [List.zipWith_cons_cons, List.zip_cons_cons, matchModes]
      rw [columnVec_ok (m := m) (R := R) rfl hr, bind_ok, columnVec_ok (m := m') (R := R) rfl hr, bind_ok]
      by_cases hm : m = m'
      · subst hm
        rw [dotVec_columns, bind_ok]
        cases n with
        | zero => simp at hd
        | succ n => exact ih _ g2 (by simpa using hn) (by simpa using hn') (by simpa using hd)
      · rw [dotVec_sizes (by simpa using hm), bind_error]

/-- The weights of the components exist, whatever the matrices are. -/
theorem fmsWeights_ok (penalty : Bool) {fs : List (NDArray ℝ)} {sizes : List ℕ} {R : ℕ} (h : Factors fs sizes R)
    (hne : sizes ≠ []) : ∃ w, fmsWeights penalty R (fs.map fun F => newaxis0 (colNorms F)) = .ok w ∧ w.shape = [R] := by
  cases penalty
  · exact ⟨full [R] 1, rfl, rfl⟩
  · obtain ⟨w, e, s, -⟩ := prodRows_eq h hne
    exact ⟨w, e, s⟩

theorem itemVec_ok {w : NDArray ℝ} {R r : ℕ} (h : w.shape = [R]) (hr : r < R) : itemVec w r = .ok (w.get [r]) := by
  rw [itemVec, if_pos (by simpa [h] using hr)]

theorem factorMatchScores_sizes {eps : ℝ} {a b : List (NDArray ℝ)} {sizes sizes' : List ℕ} {R n : ℕ} (hR : 0 < R)
    (ha : Factors a sizes R) (hb : Factors b sizes' R) (hn : n < sizes.length) (hn' : n < sizes'.length)
    (hd : sizes.getD n 0 ≠ sizes'.getD n 0) (penalty : Bool) :
    factorMatchScores a b penalty true eps = .error .valueError := by
  have hne : sizes ≠ [] := List.ne_nil_of_length_pos (by omega)
  have hne' : sizes' ≠ [] := List.ne_nil_of_length_pos (by omega)
  obtain ⟨F, eF, eR⟩ := first_cols ha hne
  obtain ⟨wa, ewa, swa⟩ := fmsWeights_ok penalty ha hne
  obtain ⟨wb, ewb, swb⟩ := fmsWeights_ok penalty hb hne'
  rw [factorMatchScores, asColumns_eq ha hne, bind_ok, asColumns_eq hb hne', bind_ok, eF, bind_ok, eR, bind_ok,
    normalizeFactors_eq ha, bind_ok, normalizeFactors_eq hb]
  simp only [bind_ok]
  rw [ewa, bind_ok, ewb, bind_ok]
  obtain ⟨k, rfl⟩ : ∃ k, R = k + 1 := ⟨R - 1, by omega⟩
  rw [List.range_succ_eq_map, List.mapM_cons, itemVec_ok swa hR, bind_ok, itemVec_ok swb hR, bind_ok,
    matchModes_sizes hR ha _ hb hn hn' hd, bind_error]

theorem permutations_cons {R R' : ℕ} (h : R ≤ R') : ∃ p ps, permutations R (List.range R') = p :: ps := by
  cases e : permutations R (List.range R') with
  | nil => exact absurd (mem_permutations_range.2 (assign_exists h)) (by rw [e]; simp)
  | cons p ps => exact ⟨p, ps, rfl⟩

/-- **C120.** If the decompositions have different sizes in a mode which both have, `factor_match_score` raises
`ValueError`: lists that cannot be compared get no score. -/
theorem C120_sizes_partial {eps : ℝ} {a b : List (NDArray ℝ)} {sizes sizes' : List ℕ} {R R' n : ℕ} (hR : 0 < R)
    (hRR : R ≤ R') (ha : Factors a sizes R) (hb : Factors b sizes' R') (hn : n < sizes.length) (hn' : n < sizes'.length)
    (hd : sizes.getD n 0 ≠ sizes'.getD n 0) (penalty useMin : Bool) :
    factorMatchScore a b penalty (redName useMin) eps = .error .valueError := by
  have hne : sizes ≠ [] := List.ne_nil_of_length_pos (by omega)
  have hne' : sizes' ≠ [] := List.ne_nil_of_length_pos (by omega)
  obtain ⟨F, eF, eR⟩ := first_cols ha hne
  obtain ⟨G, eG, eR'⟩ := first_cols hb hne'
  obtain ⟨p, ps, ep⟩ := permutations_cons hRR
  have hp : IsAssignment p R R' := mem_permutations_range.1 (by rw [ep]; simp)
  have hf := factors_permMat p hb
  rw [hp.length] at hf
  rw [factorMatchScore, parseReduction_name, bind_ok, eF, bind_ok, eR, bind_ok, eG, bind_ok, eR', bind_ok, fmsSearch, ep,
    bestPerm, permuteFactors_eq hb hp, bind_ok, factorMatchScores_sizes hR ha hf hn hn' hd, bind_error, bind_error]

/-- **C120** for Kruskal tensors of the same rank. -/
theorem C120_kruskal_partial {eps : ℝ} {t d : KruskalTensor} {sizes sizes' : List ℕ} {R n : ℕ} (hR : 0 < R)
    (ht : t.WF sizes R) (hd : d.WF sizes' R) (hn : n < sizes.length) (hn' : n < sizes'.length)
    (hs : sizes.getD n 0 ≠ sizes'.getD n 0) (penalty useMin : Bool) :
    t.factorMatchScore d penalty (redName useMin) eps = .error .valueError := by
  rw [KruskalTensor.factorMatchScore, if_neg (by rw [ht.rank, hd.rank]; simp)]
  exact C120_sizes_partial hR le_rfl ht.factors hd.factors hn hn' hs penalty useMin

example : ∃ t d : KruskalTensor, t.WF [2, 4] 3 ∧ d.WF [2, 5] 3 ∧
    t.factorMatchScore d = .error .valueError := by
  have ht : (⟨3, [ofMat 2 3 fun i j => i + j, ofMat 4 3 fun i j => i - j], full [3] 1⟩ : KruskalTensor).WF [2, 4] 3 :=
    ⟨rfl, .cons rfl (.cons rfl .nil), rfl⟩
  have hd : (⟨3, [ofMat 2 3 fun i j => i + j, ofMat 5 3 fun i j => i - j], full [3] 1⟩ : KruskalTensor).WF [2, 5] 3 :=
    ⟨rfl, .cons rfl (.cons rfl .nil), rfl⟩
  exact ⟨_, _, ht, hd, C120_kruskal_partial (n := 1) (by norm_num) ht hd (by simp) (by simp) (by simp) true true⟩

/-- Without the weight penalty the scores of two lists depend on the common modes only. -/
theorem factorMatchScores_extra {eps : ℝ} {a b e f : List (NDArray ℝ)} {sizes es fs : List ℕ} {R : ℕ} (hne : sizes ≠ [])
    (ha : Factors a sizes R) (hb : Factors b sizes R) (he : Factors e es R) (hf : Factors f fs R) (h0 : e = [] ∨ f = []) :
    factorMatchScores (a ++ e) (b ++ f) false true eps = factorMatchScores a b false true eps := by
  have hae : Factors (a ++ e) (sizes ++ es) R := List.rel_append ha he
  have hbf : Factors (b ++ f) (sizes ++ fs) R := List.rel_append hb hf
  obtain ⟨F, eF, eR⟩ := first_cols ha hne
  obtain ⟨F', eF', eR'⟩ := first_cols hae (by simp [hne])
  rw [factorMatchScores, factorMatchScores, asColumns_eq ha hne, asColumns_eq hae (by simp [hne]), bind_ok, bind_ok,
    asColumns_eq hb hne, asColumns_eq hbf (by simp [hne]), bind_ok, bind_ok, eF, eF', bind_ok, bind_ok, eR, eR', bind_ok,
    bind_ok, normalizeFactors_eq ha, normalizeFactors_eq hae, bind_ok, bind_ok, normalizeFactors_eq hb,
    normalizeFactors_eq hbf]
  simp only [bind_ok, fmsWeights, Bool.false_eq_true, if_false]
  have hla := ha.length_eq
  have hlb := hb.length_eq
  have hz : (List.zipWith (fun F m => normMat F m R eps) (a ++ e) (sizes ++ es)).zip
      (List.zipWith (fun F m => normMat F m R eps) (b ++ f) (sizes ++ fs))
      = (List.zipWith (fun F m => normMat F m R eps) a sizes).zip (List.zipWith (fun F m => normMat F m R eps) b sizes) := by
    rw [List.zipWith_append (by omega), List.zipWith_append (by omega), List.zip_append (by simp [hla, hlb])]
    rcases h0 with rfl | rfl <;> simp
  rw [hz]

/-- **C120 is false for numbers of modes.** Without the weight penalty, additional modes of either list are ignored:
decompositions of tensors of different orders get the score of the modes they share. -/
theorem C120_extra_modes {eps : ℝ} {a b e f : List (NDArray ℝ)} {sizes es fs : List ℕ} {R R' : ℕ} (hne : sizes ≠ [])
    (ha : Factors a sizes R) (hb : Factors b sizes R') (he : Factors e es R) (hf : Factors f fs R') (h0 : e = [] ∨ f = [])
    (useMin : Bool) :
    factorMatchScore (a ++ e) (b ++ f) false (redName useMin) eps
      = factorMatchScore a b false (redName useMin) eps := by
  have hae : Factors (a ++ e) (sizes ++ es) R := List.rel_append ha he
  have hbf : Factors (b ++ f) (sizes ++ fs) R' := List.rel_append hb hf
  obtain ⟨F, eF, eR⟩ := first_cols ha hne
  obtain ⟨F', eF', eR'⟩ := first_cols hae (by simp [hne])
  obtain ⟨G, eG, eS⟩ := first_cols hb hne
  obtain ⟨G', eG', eS'⟩ := first_cols hbf (by simp [hne])
  rw [factorMatchScore, factorMatchScore, parseReduction_name, bind_ok, bind_ok, eF, eF', bind_ok, bind_ok, eR, eR',
    bind_ok, bind_ok, eG, eG', bind_ok, bind_ok, eS, eS', bind_ok, bind_ok, fmsSearch, fmsSearch]
  refine bestPerm_congr fun π hπ => ?_
  have hπ := mem_permutations_range.1 hπ
  have h1 := factors_permMat π hb
  have h2 := factors_permMat π hf
  rw [hπ.length] at h1 h2
  rw [permuteFactors_eq hb hπ, permuteFactors_eq hbf hπ, bind_ok, bind_ok, List.zipWith_append hb.length_eq,
    factorMatchScores_extra hne ha h1 he h2]
  rcases h0 with h | h
  · exact .inl h
  · right; rw [h]; rfl

/-- **C120 is false.** A decomposition of a matrix and one of a tensor of order three get a score close to one (one up to
the guard against division by zero) although the tensors cannot be compared. -/
theorem C120_fails {eps : ℝ} (he : 0 < eps) : ∃ a b : List (NDArray ℝ), Factors a [1, 1] 1 ∧ Factors b [1, 1, 2] 1 ∧
    ∃ v π, factorMatchScore a b false "min" eps = .ok (v, some π) ∧ v = (1 / (1 + eps)) ^ 4 := by
  have h2 : Factors [ofMat 1 1 fun _ _ => (1 : ℝ), ofMat 1 1 fun _ _ => (1 : ℝ)] [1, 1] 1 := .cons rfl (.cons rfl .nil)
  refine ⟨[ofMat 1 1 fun _ _ => 1, ofMat 1 1 fun _ _ => 1],
    [ofMat 1 1 fun _ _ => 1, ofMat 1 1 fun _ _ => 1] ++ [ofMat 2 1 fun _ _ => 7], h2, List.rel_append h2 (.cons rfl .nil), ?_⟩
  have e := C120_extra_modes (eps := eps) (e := []) (es := []) (f := [ofMat 2 1 fun _ _ => (7 : ℝ)]) (fs := [2]) (by simp)
    h2 h2 .nil (.cons rfl .nil) (.inl rfl) true
  rw [List.append_nil] at e
  obtain ⟨v, π, e1, -, -, hb⟩ := C26_factor_match_score he one_pos le_rfl h2 h2 (by simp) true false
    (fun h => by simp at h)
  refine ⟨v, π, e.trans e1, ?_⟩
  rw [hb.attained]
  have hc : colLen (ofMat 1 1 fun _ _ => (1 : ℝ)) 1 0 = 1 := colLen_tiny zero_le_one
  have hd : colDot (ofMat 1 1 fun _ _ => (1 : ℝ)) (ofMat 1 1 fun _ _ => (1 : ℝ)) 1 0 0 = 1 := by
    simp [colDot, get_ofMat one_pos one_pos]
  have hπ0 : π.getD 0 0 = 0 := by have := hb.assignment.getD_lt one_pos; omega
  rw [assignScore, if_pos rfl, reduceMin, ciInf_unique]
  simp only [Fin.default_eq_zero, Fin.val_zero, hπ0, compMatch, Bool.false_eq_true, if_false, congruenceProd, congruence, hc, hd]
  simp
  field_simp

/-! ### C121: vectors -/

/-- Spec: the matrix whose only column is the vector `v`. -/
def asColumn (v : NDArray ℝ) : NDArray ℝ := ofMat (v.shape.getD 0 0) 1 fun i _ => v.get [i]

theorem reshape_column {v : NDArray ℝ} {n : ℕ} (h : v.shape = [n]) : v.reshapeCols 1 = .ok (asColumn v) := by
  rw [reshapeCols_one]
  congr 1
  refine ext_mat (m := n) (n := 1) (by simp [h]) (by simp [asColumn, h]) fun i hi j hj => ?_
  obtain rfl : j = 0 := by omega
  rw [get_ofFlat (by simp [h, hi]), asColumn, get_ofMat (by simpa [h] using hi) one_pos, NDArray.get, h]
  simp [ravel]

theorem asColumns_vectors {vs : List (NDArray ℝ)} (hne : vs ≠ []) (h : ∀ v ∈ vs, ∃ n, v.shape = [n]) :
    asColumns vs = .ok (vs.map asColumn) ∧ asColumns (vs.map asColumn) = .ok (vs.map asColumn) := by
  have hm : ∀ {l : List (NDArray ℝ)}, (∀ v ∈ l, ∃ n, v.shape = [n]) →
      (l.mapM fun F => F.reshapeCols 1) = .ok (l.map asColumn) := fun h =>
    mapM_ok fun v hv => by obtain ⟨n, e⟩ := h v hv; exact reshape_column e
  cases vs with
  | nil => exact absurd rfl hne
  | cons v vs =>
    obtain ⟨n, e⟩ := h v (by simp)
    have e0 : pyGet (v :: vs) 0 = .ok v := rfl
    have e1 : pyGet ((v :: vs).map asColumn) 0 = .ok (asColumn v) := rfl
    constructor
    · rw [asColumns, e0, bind_ok, if_pos (by simp [e]), hm h]
    · rw [asColumns, e1, bind_ok, if_neg (by simp [asColumn])]; rfl

/-- **C121.** `_factor_match_score` takes a list of vectors, on either side, as the decomposition with one component whose
factor matrices are these columns. -/
theorem C121_vectors_partial {a b : List (NDArray ℝ)} (ha : a ≠ []) (hb : b ≠ []) (penalty nonneg : Bool) (eps : ℝ) :
    ((∀ v ∈ a, ∃ n, v.shape = [n]) →
      factorMatchScores a b penalty nonneg eps = factorMatchScores (a.map asColumn) b penalty nonneg eps) ∧
    ((∀ v ∈ b, ∃ n, v.shape = [n]) →
      factorMatchScores a b penalty nonneg eps = factorMatchScores a (b.map asColumn) penalty nonneg eps) := by
  constructor
  · intro h
    obtain ⟨e1, e2⟩ := asColumns_vectors ha h
    rw [factorMatchScores, factorMatchScores, e1, e2]
  · intro h
    obtain ⟨e1, e2⟩ := asColumns_vectors hb h
    rw [factorMatchScores, factorMatchScores, e1, e2]

/-- **C121**, the value: two lists of vectors of the same lengths get one score, the one of their only components. -/
theorem C121_value_partial {eps : ℝ} (he : 0 < eps) {a b : List (NDArray ℝ)} {sizes : List ℕ} (hne : sizes ≠ [])
    (ha : List.Forall₂ (fun v n => v.shape = [n]) a sizes) (hb : List.Forall₂ (fun v n => v.shape = [n]) b sizes) :
    factorMatchScores a b false true eps
      = .ok [some (congruenceProd eps 0 0 (a.map asColumn) (b.map asColumn) sizes)] := by
  have key : ∀ {l : List (NDArray ℝ)} {s : List ℕ}, List.Forall₂ (fun v n => v.shape = [n]) l s →
      Factors (l.map asColumn) s 1 ∧ ∀ v ∈ l, ∃ n, v.shape = [n] := by
    intro l s h
    induction h with
    | nil => exact ⟨.nil, by simp⟩
    | cons h1 h2 ih =>
      refine ⟨.cons (by simp [asColumn, h1]) ih.1, fun v hv => ?_⟩
      rcases List.mem_cons.1 hv with rfl | hv
      · exact ⟨_, h1⟩
      · exact ih.2 v hv
  have na : a ≠ [] := fun h => hne (by cases h; cases ha; rfl)
  have nb : b ≠ [] := fun h => hne (by cases h; cases hb; rfl)
  rw [(C121_vectors_partial na nb false true eps).1 (key ha).2,
    (C121_vectors_partial (by simpa using na) nb false true eps).2 (key hb).2,
    factorMatchScores_eq he (key ha).1 (key hb).1 hne]
  simp [compMatchO, nanMatch, compMatch]

example : ∃ a b : List (NDArray ℝ), List.Forall₂ (fun v n => v.shape = [n]) a [2, 3] ∧
    List.Forall₂ (fun v n => v.shape = [n]) b [2, 3] :=
  ⟨[full [2] 1, full [3] 2], [full [2] 1, full [3] 3], .cons rfl (.cons rfl .nil), .cons rfl (.cons rfl .nil)⟩

/-- **C121 is false of `factor_match_score`.** It looks for the number of columns before the vectors are made columns, so
it raises `IndexError` whenever the first true factor is a vector. -/
theorem C121_fails {v : NDArray ℝ} {n : ℕ} (h : v.shape = [n]) (a b : List (NDArray ℝ)) (penalty useMin : Bool) (eps : ℝ) :
    factorMatchScore (v :: a) b penalty (redName useMin) eps = .error .indexError := by
  have e0 : pyGet (v :: a) 0 = .ok v := rfl
  have e1 : cols v = .error .indexError := by rw [cols, h]; rfl
  rw [factorMatchScore, parseReduction_name, bind_ok, e0, bind_ok, e1, bind_error]

/-- **C121 is false of `factor_match_score`**: the same for the estimated factors. -/
theorem C121_estimate_fails {v : NDArray ℝ} {n : ℕ} (h : v.shape = [n]) {a : List (NDArray ℝ)} {sizes : List ℕ} {R : ℕ}
    (ha : Factors a sizes R) (hne : sizes ≠ []) (b : List (NDArray ℝ)) (penalty useMin : Bool) (eps : ℝ) :
    factorMatchScore a (v :: b) penalty (redName useMin) eps = .error .indexError := by
  obtain ⟨F, eF, eR⟩ := first_cols ha hne
  have e0 : pyGet (v :: b) 0 = .ok v := rfl
  have e1 : cols v = .error .indexError := by rw [cols, h]; rfl
  rw [factorMatchScore, parseReduction_name, bind_ok, eF, bind_ok, eR, bind_ok, e0, bind_ok, e1, bind_error]

example : ∃ v : NDArray ℝ, v.shape = [3] ∧ factorMatchScore [v] [v] = .error .indexError :=
  ⟨full [3] 1, rfl, C121_fails rfl _ _ true true _⟩

end
end TK
