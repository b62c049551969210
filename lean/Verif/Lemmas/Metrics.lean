import Verif.Model.Metrics
import Verif.Spec.Fms
import Verif.Lemmas.Normalize
import Verif.Lemmas.Evolving
import Mathlib.Algebra.Order.BigOperators.Ring.Finset

/-! # Lemmas about the factor match score -/

namespace TK
open NDArray

noncomputable section

/-! ### Permutations -/

theorem mem_permutations : ∀ {r : ℕ} {pool p : List ℕ}, pool.Nodup →
    (p ∈ permutations r pool ↔ p.length = r ∧ p.Nodup ∧ ∀ x ∈ p, x ∈ pool)
  | 0, pool, p, _ => by
    simp only [permutations, List.mem_singleton]
    constructor
    · rintro rfl; simp
    · rintro ⟨h, -, -⟩; exact List.length_eq_zero_iff.1 h
  | r + 1, pool, p, hn => by
    simp only [permutations, List.mem_flatMap, List.mem_map]
    constructor
    · rintro ⟨x, hx, q, hq, rfl⟩
      obtain ⟨h1, h2, h3⟩ := (mem_permutations (hn.erase x)).1 hq
      refine ⟨by simp [h1], List.nodup_cons.2 ⟨fun hxq => ?_, h2⟩, ?_⟩
      · exact (hn.mem_erase_iff.1 (h3 x hxq)).1 rfl
      · intro y hy
        rcases List.mem_cons.1 hy with rfl | hy
        · exact hx
        · exact List.mem_of_mem_erase (h3 y hy)
    · rintro ⟨h1, h2, h3⟩
      cases p with
      | nil => simp at h1
      | cons x q =>
        obtain ⟨hxq, hq⟩ := List.nodup_cons.1 h2
        refine ⟨x, h3 x (by simp), q, (mem_permutations (hn.erase x)).2 ⟨by simpa using h1, hq, fun y hy => ?_⟩, rfl⟩
        exact hn.mem_erase_iff.2 ⟨fun h => hxq (h ▸ hy), h3 y (by simp [hy])⟩

theorem mem_permutations_range {R R' : ℕ} {p : List ℕ} :
    p ∈ permutations R (List.range R') ↔ IsAssignment p R R' := by
  rw [mem_permutations List.nodup_range]
  constructor
  · rintro ⟨a, b, c⟩; exact ⟨a, b, fun x hx => List.mem_range.1 (c x hx)⟩
  · rintro ⟨a, b, c⟩; exact ⟨a, b, fun x hx => List.mem_range.2 (c x hx)⟩

theorem IsAssignment.getD_lt {π : List ℕ} {R R' r : ℕ} (h : IsAssignment π R R') (hr : r < R) : π.getD r 0 < R' := by
  have : r < π.length := by rw [h.length]; exact hr
  rw [getD_eq_getElem' _ this]
  exact h.lt _ (List.getElem_mem _)

/-! ### The search -/

theorem bestPerm_congr {f g : List ℕ → Py (Option ℝ)} : ∀ {ps : List (List ℕ)} {b : ℝ × Option (List ℕ)},
    (∀ p ∈ ps, f p = g p) → bestPerm f ps b = bestPerm g ps b
  | [], _, _ => rfl
  | p :: ps, b, h => by
    rw [bestPerm, bestPerm, h p (by simp)]
    cases g p with
    | error e => rfl
    | ok o =>
      rw [bind_ok, bind_ok]
      cases o with
      | none => exact bestPerm_congr fun q hq => h q (by simp [hq])
      | some x =>
        simp only []
        rw [bestPerm_congr (f := f) (g := g) fun q hq => h q (by simp [hq]),
          bestPerm_congr (f := f) (g := g) fun q hq => h q (by simp [hq])]

/-- What the search returns. -/
theorem bestPerm_spec (F : List ℕ → Option ℝ) : ∀ (ps : List (List ℕ)) (b : ℝ × Option (List ℕ)),
    ∃ v o, bestPerm (fun p => .ok (F p)) ps b = .ok (v, o) ∧ b.1 ≤ v ∧ (∀ p ∈ ps, ∀ x, F p = some x → x ≤ v) ∧
      ((v, o) = b ∨ ∃ p ∈ ps, o = some p ∧ F p = some v ∧ b.1 < v)
  | [], b => ⟨b.1, b.2, rfl, le_refl _, by simp, Or.inl rfl⟩
  | p :: ps, b => by
    rw [bestPerm, bind_ok]
    cases hp : F p with
    | none =>
      obtain ⟨v, o, e, h1, h2, h3⟩ := bestPerm_spec F ps b
      refine ⟨v, o, e, h1, ?_, ?_⟩
      · intro q hq x hx
        rcases List.mem_cons.1 hq with rfl | hq
        · rw [hp] at hx; cases hx
        · exact h2 q hq x hx
      · rcases h3 with h3 | ⟨q, hq, h3⟩
        · exact Or.inl h3
        · exact Or.inr ⟨q, by simp [hq], h3⟩
    | some y =>
      simp only []
      by_cases hy : y > b.1
      · rw [if_pos hy]
        obtain ⟨v, o, e, h1, h2, h3⟩ := bestPerm_spec F ps (y, some p)
        simp only [] at h1
        refine ⟨v, o, e, by linarith, ?_, ?_⟩
        · intro q hq x hx
          rcases List.mem_cons.1 hq with rfl | hq
          · rw [hp] at hx; cases hx; exact h1
          · exact h2 q hq x hx
        · rcases h3 with h3 | ⟨q, hq, h4, h5, h6⟩
          · cases h3
            exact Or.inr ⟨p, by simp, rfl, hp, hy⟩
          · exact Or.inr ⟨q, by simp [hq], h4, h5, by simp only [] at h6; linarith⟩
      · rw [if_neg hy]
        obtain ⟨v, o, e, h1, h2, h3⟩ := bestPerm_spec F ps b
        refine ⟨v, o, e, h1, ?_, ?_⟩
        · intro q hq x hx
          rcases List.mem_cons.1 hq with rfl | hq
          · rw [hp] at hx; cases hx; linarith
          · exact h2 q hq x hx
        · rcases h3 with h3 | ⟨q, hq, h3⟩
          · exact Or.inl h3
          · exact Or.inr ⟨q, by simp [hq], h3⟩

/-! ### Reductions -/

theorem minList_le : ∀ {l : List ℝ} {x : ℝ}, x ∈ l → minList l ≤ x
  | [y], x, h => by simp at h; simp [minList, h]
  | y :: z :: l, x, h => by
    rw [minList]
    · rcases List.mem_cons.1 h with rfl | h
      · exact min_le_left _ _
      · exact (min_le_right _ _).trans (minList_le h)
    · simp

theorem minList_mem : ∀ {l : List ℝ}, l ≠ [] → minList l ∈ l
  | [y], _ => by simp [minList]
  | y :: z :: l, _ => by
    have e : minList (y :: z :: l) = min y (minList (z :: l)) := by rw [minList]; simp
    rw [e]
    rcases min_choice y (minList (z :: l)) with h | h
    · rw [h]; simp
    · rw [h]; exact List.mem_cons_of_mem _ (minList_mem (by simp))

theorem reduceMin_eq {R : ℕ} (hR : 0 < R) (f : ℕ → ℝ) : minList ((List.range R).map f) = reduceMin R f := by
  have hne : (List.range R).map f ≠ [] := by
    intro h; have := congrArg List.length h; simp at this; omega
  have : Nonempty (Fin R) := ⟨⟨0, hR⟩⟩
  apply le_antisymm
  · refine le_ciInf fun r => minList_le ?_
    exact List.mem_map.2 ⟨r, List.mem_range.2 r.2, rfl⟩
  · obtain ⟨r, hr, e⟩ := List.mem_map.1 (minList_mem hne)
    rw [← e]
    exact ciInf_le (Set.finite_range _).bddBelow (⟨r, List.mem_range.1 hr⟩ : Fin R)

theorem reduceMean_eq {R : ℕ} (f : ℕ → ℝ) :
    ((List.range R).map f).sum / (((List.range R).map f).length : ℝ) = reduceMean R f := by
  rw [reduceMean, List.length_map, List.length_range]
  congr 1

/-- The parsed reduction. -/
def redOf (useMin : Bool) : Reduction := if useMin then .min else .mean

theorem parseReduction_name (m : Bool) : parseReduction (redName m) = .ok (redOf m) := by
  cases m
  · simp [redName, redOf, parseReduction]
  · simp [redName, redOf, parseReduction]

theorem mapM_id_some {l : List ℝ} : (l.map some).mapM id = some l := by
  induction l with
  | nil => rfl
  | cons x l ih => simp [List.mapM_cons, ih]

theorem mapM_id_none {l : List (Option ℝ)} (h : none ∈ l) : l.mapM id = none := by
  induction l with
  | nil => simp at h
  | cons x l ih =>
    rw [List.mapM_cons]
    cases x with
    | none => rfl
    | some y =>
      have : none ∈ l := by simpa using h
      simp [ih this]

/-- The reduction of the scores of `R` components. -/
def redVal (m : Bool) (R : ℕ) (f : ℕ → ℝ) : ℝ := (if m then reduceMin else reduceMean) R f

theorem reduceScores_some {R : ℕ} (hR : 0 < R) (m : Bool) (f : ℕ → ℝ) :
    reduceScores (redOf m) ((List.range R).map fun r => some (f r)) = .ok (some (redVal m R f)) := by
  have e : ((List.range R).map fun r => some (f r)) = ((List.range R).map f).map some := by simp
  obtain ⟨n, rfl⟩ : ∃ n, R = n + 1 := ⟨R - 1, by omega⟩
  have hne : ∃ x xs, ((List.range (n + 1)).map f).map some = x :: xs := by
    rw [List.range_succ_eq_map]; exact ⟨_, _, rfl⟩
  rw [e]
  obtain ⟨x, xs, hx⟩ := hne
  cases m
  · rw [hx, redOf, if_neg (by simp), reduceScores, ← hx, mapM_id_some]
    · rw [Option.map_some, reduceMean_eq]; rfl
    · simp
  · rw [hx, redOf, if_pos rfl, reduceScores, ← hx, mapM_id_some]
    · rw [Option.map_some, reduceMin_eq hR]; rfl
    · simp

theorem reduceScores_none {l : List (Option ℝ)} (m : Bool) (h : none ∈ l) :
    reduceScores (redOf m) l = .ok none := by
  obtain ⟨x, xs, rfl⟩ : ∃ x xs, l = x :: xs := by
    cases l with
    | nil => simp at h
    | cons x xs => exact ⟨x, xs, rfl⟩
  cases m
  · rw [redOf, if_neg (by simp), reduceScores, mapM_id_none h]
    · rfl
    · simp
  · rw [redOf, if_pos rfl, reduceScores, mapM_id_none h]
    · rfl
    · simp

/-! ### Scores of one pairing -/

theorem normalizeFactors_eq {eps : ℝ} {fs : List (NDArray ℝ)} {sizes : List ℕ} {R : ℕ} (h : Factors fs sizes R) :
    normalizeFactors fs eps = .ok (List.zipWith (fun F m => normMat F m R eps) fs sizes,
      fs.map fun F => newaxis0 (colNorms F)) := by
  have e : fs.mapM (fun f => normalizeFactor f eps)
      = .ok ((List.zipWith (fun F m => normMat F m R eps) fs sizes).zip (fs.map fun F => newaxis0 (colNorms F))) := by
    induction h with
    | nil => rfl
    | cons h1 h2 ih => rw [List.mapM_cons, normalizeFactor_eq h1, bind_ok, ih]; rfl
  rw [normalizeFactors, e, bind_ok]
  have hl := h.length_eq
  rw [List.map_fst_zip (by simp [hl]), List.map_snd_zip (by simp [hl])]
  rfl

theorem prodRows_eq {fs : List (NDArray ℝ)} {sizes : List ℕ} {R : ℕ} (h : Factors fs sizes R) (hne : sizes ≠ []) :
    ∃ w, prodRows (fs.map fun F => newaxis0 (colNorms F)) = .ok w ∧ w.shape = [R] ∧
      ∀ r < R, w.get [r] = compSize fs sizes r := by
  have key : ∀ {fs : List (NDArray ℝ)} {sizes : List ℕ}, Factors fs sizes R → ∀ r < R,
      ((fs.map fun F => newaxis0 (colNorms F)).map fun v => v.get [0, r]).prod = compSize fs sizes r := by
    intro fs sizes h r hr
    induction h with
    | nil => rfl
    | cons h1 h2 ih =>
      simp only [List.map_cons, List.prod_cons, compSize, modeProd] at ih ⊢
      rw [ih, get_newaxis0, colNorms_get h1 hr]
  have hall : ∀ {fs : List (NDArray ℝ)} {sizes : List ℕ}, Factors fs sizes R →
      (fs.map fun F => newaxis0 (colNorms F)).all (fun m => m.shape = [1, R]) = true := by
    intro fs sizes h
    induction h with
    | nil => rfl
    | cons h1 h2 ih => simp only [List.map_cons, List.all_cons, ih, shape_newaxis0, shape_colNorms h1]; simp
  cases h with
  | nil => exact absurd rfl hne
  | cons h1 h2 =>
    rename_i F m fs ms
    have hs : (newaxis0 (colNorms F)).shape = [1, R] := by rw [shape_newaxis0, shape_colNorms h1]
    refine ⟨ofFn [R] fun idx => (((F :: fs).map fun F => newaxis0 (colNorms F)).map fun v => v.get [0, idx.getD 0 0]).prod,
      ?_, rfl, fun r hr => ?_⟩
    · rw [List.map_cons, prodRows, hs, if_pos (hall h2)]; rfl
    · rw [get_ofFn (by simp [hr])]
      exact key (.cons h1 h2) r hr

theorem columnVec_ok {F : NDArray ℝ} {m R r : ℕ} (h : F.shape = [m, R]) (hr : r < R) :
    columnVec F r = .ok (ofFn [m] fun idx => F.get [idx.getD 0 0, r]) := by
  rw [columnVec, dims2_ok h, bind_ok]
  simp only []
  rw [if_pos hr]; rfl

theorem dotVec_columns (F G : NDArray ℝ) (m r s : ℕ) :
    dotVec (ofFn [m] fun idx => F.get [idx.getD 0 0, r]) (ofFn [m] fun idx => G.get [idx.getD 0 0, s])
      = .ok (colDot F G m r s) := by
  rw [dotVec, if_pos (by simp)]
  refine congrArg Except.ok ?_
  refine Finset.sum_congr rfl fun i hi => ?_
  have hi : i < m := Finset.mem_range.1 hi
  rw [get_ofFn (by simp [hi]), get_ofFn (by simp [hi])]
  rfl

theorem colDot_normMat {F G : NDArray ℝ} {m R r : ℕ} {eps : ℝ} (hr : r < R) :
    colDot (normMat F m R eps) (normMat G m R eps) m r r
      = colDot F G m r r / ((colLen F m r + eps) * (colLen G m r + eps)) := by
  rw [colDot, colDot, Finset.sum_div]
  refine Finset.sum_congr rfl fun i hi => ?_
  have hi := Finset.mem_range.1 hi
  rw [normMat, normMat, get_ofMat hi hr, get_ofMat hi hr, div_mul_div_comm]

theorem abs_colDot_normMat {F G : NDArray ℝ} {m R r : ℕ} {eps : ℝ} (he : 0 < eps) (hr : r < R) :
    |colDot (normMat F m R eps) (normMat G m R eps) m r r| = congruence eps F G m r r := by
  have h1 := colLen_nonneg F m r
  have h2 := colLen_nonneg G m r
  rw [colDot_normMat hr, abs_div, congruence, abs_of_nonneg (a := (_ + _) * _) (by positivity)]

theorem matchModes_eq {eps : ℝ} (he : 0 < eps) {R r : ℕ} (hr : r < R) :
    ∀ {a b : List (NDArray ℝ)} {sizes : List ℕ} (x : Option ℝ), Factors a sizes R → Factors b sizes R →
    matchModes true r ((List.zipWith (fun F m => normMat F m R eps) a sizes).zip
      (List.zipWith (fun F m => normMat F m R eps) b sizes)) x
      = .ok (x.map (· * congruenceProd eps r r a b sizes)) := by
  intro a b sizes x ha
  induction ha generalizing b x with
  | nil => intro hb; cases hb; simp [matchModes, congruenceProd]
  | cons h1 h2 ih =>
    intro hb
    cases hb with
    | cons g1 g2 =>
      rename_i F m a ms G b
      simp only [List.zipWith_cons_cons, List.zip_cons_cons, matchModes]
      rw [columnVec_ok (m := m) (R := R) rfl hr, bind_ok, columnVec_ok (m := m) (R := R) rfl hr, bind_ok,
        dotVec_columns, bind_ok, ih _ g2]
      simp only [if_true, abs_colDot_normMat he hr, congruenceProd]
      cases x with
      | none => rfl
      | some x => simp [mul_assoc]

/-- The `nan` case of the score of a component. -/
def nanMatch (penalty : Bool) (a b : List (NDArray ℝ)) (sizes : List ℕ) (r s : ℕ) : Prop :=
  penalty = true ∧ max (compSize a sizes r) (compSize b sizes s) = 0

open Classical in
/-- The score of one pair of components, with `nan`. -/
def compMatchO (penalty : Bool) (eps : ℝ) (a b : List (NDArray ℝ)) (sizes : List ℕ) (r s : ℕ) : Option ℝ :=
  if nanMatch penalty a b sizes r s then none else some (compMatch penalty eps a b sizes r s)

theorem asColumns_eq {fs : List (NDArray ℝ)} {sizes : List ℕ} {R : ℕ} (h : Factors fs sizes R) (hne : sizes ≠ []) :
    asColumns fs = .ok fs := by
  cases h with
  | nil => exact absurd rfl hne
  | cons h1 h2 =>
    rename_i F m fs ms
    have e : pyGet (F :: fs) 0 = .ok F := rfl
    rw [asColumns, e, bind_ok, if_neg (by simp [h1])]; rfl

theorem first_cols {fs : List (NDArray ℝ)} {sizes : List ℕ} {R : ℕ} (h : Factors fs sizes R) (hne : sizes ≠ []) :
    ∃ F, pyGet fs 0 = .ok F ∧ cols F = .ok R := by
  cases h with
  | nil => exact absurd rfl hne
  | cons h1 h2 => exact ⟨_, rfl, cols_ok h1⟩

theorem factorMatchScores_eq {eps : ℝ} (he : 0 < eps) {a b : List (NDArray ℝ)} {sizes : List ℕ} {R : ℕ}
    (ha : Factors a sizes R) (hb : Factors b sizes R) (hne : sizes ≠ []) (penalty : Bool) :
    factorMatchScores a b penalty true eps
      = .ok ((List.range R).map fun r => compMatchO penalty eps a b sizes r r) := by
  obtain ⟨F, eF, eR⟩ := first_cols ha hne
  obtain ⟨wa, ewa, swa, hwa⟩ := prodRows_eq ha hne
  obtain ⟨wb, ewb, swb, hwb⟩ := prodRows_eq hb hne
  rw [factorMatchScores, asColumns_eq ha hne, bind_ok, asColumns_eq hb hne, bind_ok, eF, bind_ok, eR, bind_ok,
    normalizeFactors_eq ha, bind_ok, normalizeFactors_eq hb]
  simp only [bind_ok, fmsWeights]
  cases penalty
  · simp only [Bool.false_eq_true, if_false, bind_ok]
    refine mapM_ok fun r hr => ?_
    have hr := List.mem_range.1 hr
    have hi : itemVec (full [R] (1 : ℝ)) r = .ok 1 := by
      rw [itemVec, if_pos (by simpa using hr), get_full (by simp [hr])]
    rw [hi, bind_ok, bind_ok, matchModes_eq he hr _ ha hb]
    simp [weightScore, compMatchO, nanMatch, compMatch]
  · simp only [if_true]
    rw [ewa, bind_ok, ewb, bind_ok]
    refine mapM_ok fun r hr => ?_
    have hr := List.mem_range.1 hr
    have hia : itemVec wa r = .ok (compSize a sizes r) := by
      rw [itemVec, if_pos (by simpa [swa] using hr), hwa r hr]
    have hib : itemVec wb r = .ok (compSize b sizes r) := by
      rw [itemVec, if_pos (by simpa [swb] using hr), hwb r hr]
    rw [hia, bind_ok, hib, bind_ok, matchModes_eq he hr _ ha hb]
    rw [weightScore, compMatchO]
    by_cases hz : max (compSize a sizes r) (compSize b sizes r) = 0
    · rw [if_pos hz, if_pos ⟨rfl, hz⟩]; rfl
    · rw [if_neg hz, if_neg (fun h => hz h.2)]
      simp [compMatch, sizeMatch]

/-! ### Permuted factors -/

/-- The matrix with permuted columns. -/
def permMat (π : List ℕ) (F : NDArray ℝ) (m : ℕ) : NDArray ℝ := ofMat m π.length fun i j => F.get [i, π.getD j 0]

theorem permuteFactors_eq {fs : List (NDArray ℝ)} {sizes : List ℕ} {R R' : ℕ} {π : List ℕ}
    (h : Factors fs sizes R') (hπ : IsAssignment π R R') :
    permuteFactors π fs = .ok (List.zipWith (permMat π) fs sizes) := by
  have hall : π.all (· < R') = true := by
    rw [List.all_eq_true]; intro x hx; exact decide_eq_true (hπ.lt x hx)
  rw [permuteFactors]
  induction h with
  | nil => rfl
  | cons h1 h2 ih =>
    rw [List.mapM_cons, ih, permuteColumns, dims2_ok h1, bind_ok]
    simp only []
    rw [if_pos hall]; rfl

theorem factors_permMat {fs : List (NDArray ℝ)} {sizes : List ℕ} {R' : ℕ} (π : List ℕ) (h : Factors fs sizes R') :
    Factors (List.zipWith (permMat π) fs sizes) sizes π.length := by
  induction h with
  | nil => exact .nil
  | cons h1 h2 ih => exact .cons rfl ih

theorem colLen_permMat {F : NDArray ℝ} {m r : ℕ} {π : List ℕ} (hr : r < π.length) :
    colLen (permMat π F m) m r = colLen F m (π.getD r 0) := by
  unfold colLen
  congr 1
  exact Finset.sum_congr rfl fun i hi => by rw [permMat, get_ofMat (Finset.mem_range.1 hi) hr]

theorem compSize_permMat {r : ℕ} {π : List ℕ} (hr : r < π.length) : ∀ (fs : List (NDArray ℝ)) (sizes : List ℕ),
    compSize (List.zipWith (permMat π) fs sizes) sizes r = compSize fs sizes (π.getD r 0)
  | [], _ => by simp [compSize, modeProd]
  | _ :: _, [] => by simp [compSize, modeProd]
  | F :: fs, m :: ms => by
    have := compSize_permMat hr fs ms
    simp only [compSize, List.zipWith_cons_cons, modeProd] at this ⊢
    rw [this, colLen_permMat hr]

theorem congruence_permMat {eps : ℝ} {F G : NDArray ℝ} {m q r : ℕ} {π : List ℕ} (hr : r < π.length) :
    congruence eps F (permMat π G m) m q r = congruence eps F G m q (π.getD r 0) := by
  rw [congruence, congruence, colLen_permMat hr]
  congr 2
  exact Finset.sum_congr rfl fun i hi => by rw [permMat, get_ofMat (Finset.mem_range.1 hi) hr]

theorem congruenceProd_permMat {eps : ℝ} {q r : ℕ} {π : List ℕ} (hr : r < π.length) :
    ∀ (a b : List (NDArray ℝ)) (sizes : List ℕ),
    congruenceProd eps q r a (List.zipWith (permMat π) b sizes) sizes = congruenceProd eps q (π.getD r 0) a b sizes
  | [], _, _ => by simp [congruenceProd]
  | _ :: _, [], _ => by simp [congruenceProd]
  | _ :: _, _ :: _, [] => by simp [congruenceProd]
  | F :: a, G :: b, m :: ms => by
    simp only [List.zipWith_cons_cons, congruenceProd]
    rw [congruenceProd_permMat hr, congruence_permMat hr]

theorem compMatch_permMat {penalty : Bool} {eps : ℝ} {a b : List (NDArray ℝ)} {sizes : List ℕ} {q r : ℕ} {π : List ℕ}
    (hr : r < π.length) :
    compMatch penalty eps a (List.zipWith (permMat π) b sizes) sizes q r
      = compMatch penalty eps a b sizes q (π.getD r 0) := by
  rw [compMatch, compMatch, compSize_permMat hr, congruenceProd_permMat hr]

theorem compMatchO_permMat {penalty : Bool} {eps : ℝ} {a b : List (NDArray ℝ)} {sizes : List ℕ} {q r : ℕ} {π : List ℕ}
    (hr : r < π.length) :
    compMatchO penalty eps a (List.zipWith (permMat π) b sizes) sizes q r
      = compMatchO penalty eps a b sizes q (π.getD r 0) := by
  have h : nanMatch penalty a (List.zipWith (permMat π) b sizes) sizes q r
      ↔ nanMatch penalty a b sizes q (π.getD r 0) := by
    simp only [nanMatch, compSize_permMat hr]
  by_cases hn : nanMatch penalty a b sizes q (π.getD r 0)
  · rw [compMatchO, compMatchO, if_pos hn, if_pos (h.2 hn)]
  · rw [compMatchO, compMatchO, if_neg hn, if_neg (fun k => hn (h.1 k)), compMatch_permMat hr]

open Classical in
/-- The score of an assignment, with `nan`. -/
def assignScoreO (useMin penalty : Bool) (eps : ℝ) (a b : List (NDArray ℝ)) (sizes : List ℕ) (R : ℕ) (π : List ℕ) :
    Option ℝ :=
  if ∃ r < R, nanMatch penalty a b sizes r (π.getD r 0) then none
  else some (assignScore useMin penalty eps a b sizes R π)

theorem redVal_congr {m : Bool} {R : ℕ} {f g : ℕ → ℝ} (h : ∀ r < R, f r = g r) : redVal m R f = redVal m R g := by
  cases m
  · simp only [redVal, Bool.false_eq_true, if_false, reduceMean]
    rw [Finset.sum_congr rfl fun r hr => h r (Finset.mem_range.1 hr)]
  · simp only [redVal, if_true, reduceMin]
    congr 1; funext r; exact h r r.2

/-- Closed form of the search. -/
theorem fmsSearch_eq {eps : ℝ} (he : 0 < eps) {a b : List (NDArray ℝ)} {sizes : List ℕ} {R R' : ℕ} (hR : 0 < R)
    (ha : Factors a sizes R) (hb : Factors b sizes R') (hne : sizes ≠ []) (penalty m : Bool) :
    fmsSearch a b penalty (redOf m) R R' eps
      = bestPerm (fun π => .ok (assignScoreO m penalty eps a b sizes R π)) (permutations R (List.range R')) (-1, none) := by
  rw [fmsSearch]
  refine bestPerm_congr fun π hπ => ?_
  have hπ := mem_permutations_range.1 hπ
  have hf := factors_permMat π hb
  rw [hπ.length] at hf
  rw [permuteFactors_eq hb hπ, bind_ok, factorMatchScores_eq he ha hf hne penalty, bind_ok]
  have hl : ∀ r < R, r < π.length := fun r hr => by rw [hπ.length]; exact hr
  have e : (List.range R).map (fun r => compMatchO penalty eps a (List.zipWith (permMat π) b sizes) sizes r r)
      = (List.range R).map fun r => compMatchO penalty eps a b sizes r (π.getD r 0) :=
    List.map_congr_left fun r hr => compMatchO_permMat (hl r (List.mem_range.1 hr))
  rw [e, assignScoreO]
  by_cases hn : ∃ r < R, nanMatch penalty a b sizes r (π.getD r 0)
  · rw [if_pos hn]
    obtain ⟨r, hr, hn⟩ := hn
    refine reduceScores_none m (List.mem_map.2 ⟨r, List.mem_range.2 hr, ?_⟩)
    rw [compMatchO, if_pos hn]
  · rw [if_neg hn]
    have e2 : (List.range R).map (fun r => compMatchO penalty eps a b sizes r (π.getD r 0))
        = (List.range R).map fun r => some (compMatch penalty eps a b sizes r (π.getD r 0)) :=
      List.map_congr_left fun r hr => by
        rw [compMatchO, if_neg fun h => hn ⟨r, List.mem_range.1 hr, h⟩]
    rw [e2, reduceScores_some hR]; rfl

theorem factorMatchScore_eq {eps : ℝ} (he : 0 < eps) {a b : List (NDArray ℝ)} {sizes : List ℕ} {R R' : ℕ} (hR : 0 < R)
    (ha : Factors a sizes R) (hb : Factors b sizes R') (hne : sizes ≠ []) (penalty m : Bool) :
    factorMatchScore a b penalty (redName m) eps
      = bestPerm (fun π => .ok (assignScoreO m penalty eps a b sizes R π)) (permutations R (List.range R')) (-1, none) := by
  obtain ⟨F, eF, eR⟩ := first_cols ha hne
  obtain ⟨G, eG, eR'⟩ := first_cols hb hne
  rw [factorMatchScore, parseReduction_name, bind_ok, eF, bind_ok, eR, bind_ok, eG, bind_ok, eR', bind_ok,
    fmsSearch_eq he hR ha hb hne]

/-! ### Bounds -/

theorem abs_colDot_le (F G : NDArray ℝ) (m r s : ℕ) : |colDot F G m r s| ≤ colLen F m r * colLen G m s := by
  rw [← Real.sqrt_sq_eq_abs, colLen, colLen, ← Real.sqrt_mul (Finset.sum_nonneg fun _ _ => sq_nonneg _)]
  exact Real.sqrt_le_sqrt (Finset.sum_mul_sq_le_sq_mul_sq _ _ _)

theorem congruence_unit {eps : ℝ} (he : 0 < eps) (F G : NDArray ℝ) (m r s : ℕ) :
    0 ≤ congruence eps F G m r s ∧ congruence eps F G m r s ≤ 1 := by
  have h1 := colLen_nonneg F m r
  have h2 := colLen_nonneg G m s
  have h3 := abs_colDot_le F G m r s
  refine ⟨by unfold congruence; positivity, ?_⟩
  rw [congruence, div_le_one (by positivity)]
  nlinarith

theorem congruenceProd_unit {eps : ℝ} (he : 0 < eps) (r s : ℕ) : ∀ (a b : List (NDArray ℝ)) (sizes : List ℕ),
    0 ≤ congruenceProd eps r s a b sizes ∧ congruenceProd eps r s a b sizes ≤ 1
  | [], _, _ => by simp [congruenceProd]
  | _ :: _, [], _ => by simp [congruenceProd]
  | _ :: _, _ :: _, [] => by simp [congruenceProd]
  | F :: a, G :: b, m :: ms => by
    obtain ⟨h1, h2⟩ := congruenceProd_unit he r s a b ms
    obtain ⟨h3, h4⟩ := congruence_unit he F G m r s
    simp only [congruenceProd]
    exact ⟨mul_nonneg h3 h1, mul_le_one₀ h4 h1 h2⟩

theorem compSize_nonneg (r : ℕ) : ∀ (fs : List (NDArray ℝ)) (sizes : List ℕ), 0 ≤ compSize fs sizes r
  | [], _ => by simp [compSize, modeProd]
  | _ :: _, [] => by simp [compSize, modeProd]
  | F :: fs, m :: ms => by
    have := compSize_nonneg r fs ms
    simp only [compSize, modeProd] at this ⊢
    exact mul_nonneg (colLen_nonneg _ _ _) this

theorem sizeMatch_unit {w v : ℝ} (hw : 0 ≤ w) (hv : 0 ≤ v) : 0 ≤ sizeMatch w v ∧ sizeMatch w v ≤ 1 := by
  have hm : 0 ≤ max w v := hw.trans (le_max_left _ _)
  have h1 : |w - v| ≤ max w v := by
    rw [abs_le]
    constructor
    · have := le_max_right w v; linarith
    · have := le_max_left w v; linarith
  have h2 : |w - v| / max w v ≤ 1 := div_le_one_of_le₀ h1 hm
  have h3 : 0 ≤ |w - v| / max w v := by positivity
  unfold sizeMatch
  constructor <;> linarith

theorem compMatch_unit {eps : ℝ} (he : 0 < eps) (penalty : Bool) (a b : List (NDArray ℝ)) (sizes : List ℕ) (r s : ℕ) :
    0 ≤ compMatch penalty eps a b sizes r s ∧ compMatch penalty eps a b sizes r s ≤ 1 := by
  obtain ⟨h1, h2⟩ := congruenceProd_unit he r s a b sizes
  obtain ⟨h3, h4⟩ := sizeMatch_unit (compSize_nonneg r a sizes) (compSize_nonneg s b sizes)
  unfold compMatch
  cases penalty
  · simpa using ⟨h1, h2⟩
  · simp only [if_true]
    exact ⟨mul_nonneg h3 h1, mul_le_one₀ h4 h1 h2⟩

theorem redVal_mono {m : Bool} {R : ℕ} (hR : 0 < R) {f g : ℕ → ℝ} (h : ∀ r < R, f r ≤ g r) :
    redVal m R f ≤ redVal m R g := by
  have : Nonempty (Fin R) := ⟨⟨0, hR⟩⟩
  cases m
  · simp only [redVal, Bool.false_eq_true, if_false, reduceMean]
    exact div_le_div_of_nonneg_right (Finset.sum_le_sum fun r hr => h r (Finset.mem_range.1 hr)) (by positivity)
  · simp only [redVal, if_true, reduceMin]
    exact ciInf_mono (Set.finite_range _).bddBelow fun r => h r r.2

theorem redVal_const {m : Bool} {R : ℕ} (hR : 0 < R) (c : ℝ) : redVal m R (fun _ => c) = c := by
  have : Nonempty (Fin R) := ⟨⟨0, hR⟩⟩
  have : (R : ℝ) ≠ 0 := by positivity
  cases m
  · simp only [redVal, Bool.false_eq_true, if_false, reduceMean, Finset.sum_const, Finset.card_range, nsmul_eq_mul]
    field_simp
  · simp [redVal, reduceMin]

theorem assignScore_unit {eps : ℝ} (he : 0 < eps) (m penalty : Bool) (a b : List (NDArray ℝ)) (sizes : List ℕ) {R : ℕ}
    (hR : 0 < R) (π : List ℕ) :
    0 ≤ assignScore m penalty eps a b sizes R π ∧ assignScore m penalty eps a b sizes R π ≤ 1 := by
  constructor
  · rw [← redVal_const (m := m) hR 0]
    exact redVal_mono hR fun r _ => (compMatch_unit he penalty a b sizes _ _).1
  · rw [← redVal_const (m := m) hR 1]
    exact redVal_mono hR fun r _ => (compMatch_unit he penalty a b sizes _ _).2

end
end TK
