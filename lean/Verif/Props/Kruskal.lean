import Verif.Lemmas.Normalize
import Verif.Props.Base

/-!
# Properties C15 - C18 and the Kruskal part of C68
-/

namespace TK
open NDArray

noncomputable section

/-! ### C15 -/

/-- `R` columns in every factor matrix, and (if given) `R` weights. -/
def KruskalArgs (fs : List (NDArray ℝ)) (w : Option (NDArray ℝ)) (R : ℕ) : Prop :=
  (∀ f ∈ fs, f.shape.getD 1 0 = R) ∧ ∀ v, w = some v → v.shape = [R]

theorem checkCols_ok {R : ℕ} : ∀ {fs : List (NDArray ℝ)}, (∀ f ∈ fs, ∃ m n, f.shape = [m, n]) →
    (∀ f ∈ fs, f.shape.getD 1 0 = R) → KruskalTensor.checkCols R fs = .ok ()
  | [], _, _ => rfl
  | f :: fs, hm, h => by
    obtain ⟨m, n, hf⟩ := hm f (by simp)
    have hn := h f (by simp)
    rw [hf] at hn
    simp at hn
    rw [KruskalTensor.checkCols, cols_ok hf, bind_ok, if_neg (by simp [hn])]
    exact checkCols_ok (fun g hg => hm g (by simp [hg])) (fun g hg => h g (by simp [hg]))

theorem checkCols_error {R : ℕ} : ∀ {fs : List (NDArray ℝ)}, (∀ f ∈ fs, ∃ m n, f.shape = [m, n]) →
    ¬ (∀ f ∈ fs, f.shape.getD 1 0 = R) → KruskalTensor.checkCols R fs = .error .valueError
  | [], _, h => absurd (by simp) h
  | f :: fs, hm, h => by
    obtain ⟨m, n, hf⟩ := hm f (by simp)
    rw [KruskalTensor.checkCols, cols_ok hf, bind_ok]
    by_cases hn : n = R
    · rw [if_neg (by simp [hn])]
      refine checkCols_error (fun g hg => hm g (by simp [hg])) fun h' => h ?_
      intro g hg
      rcases List.mem_cons.1 hg with rfl | hg
      · simp [hf, hn]
      · exact h' g hg
    · rw [if_pos hn]

/-- C15: the constructor accepts exactly the consistent arguments, keeps the matrices, and fills in unit
weights. -/
theorem C15_init_ok {fs : List (NDArray ℝ)} {w : Option (NDArray ℝ)} {R : ℕ} (hne : fs ≠ [])
    (hm : ∀ f ∈ fs, ∃ m n, f.shape = [m, n]) (h : KruskalArgs fs w R) :
    ∃ t, KruskalTensor.init fs w = .ok t ∧ t.rank = R ∧ t.factorMatrices = fs ∧ t.weights.shape = [R] ∧
      (∀ v, w = some v → t.weights = v) ∧ (w = none → ∀ r < R, t.weights.get [r] = 1) := by
  obtain ⟨f, fs', rfl⟩ := List.exists_cons_of_ne_nil hne
  obtain ⟨m, n, hf⟩ := hm f (by simp)
  obtain rfl : n = R := by have := h.1 f (by simp); simpa [hf] using this
  have hp : pyGet (f :: fs') 0 = .ok f := rfl
  rw [KruskalTensor.init, hp, bind_ok, cols_ok hf, bind_ok, checkCols_ok hm h.1, bind_ok]
  cases w with
  | none =>
    exact ⟨_, rfl, rfl, rfl, rfl, by simp, fun _ r hr => get_full (by simp [hr])⟩
  | some v =>
    have hv := h.2 v rfl
    simp only [hv]
    refine ⟨⟨n, f :: fs', v⟩, ?_, rfl, rfl, hv, by simp, by simp⟩
    simp [pure, Except.pure]

/-- C15: every other argument is rejected with `ValueError`. -/
theorem C15_init_error {fs : List (NDArray ℝ)} {w : Option (NDArray ℝ)} (hne : fs ≠ [])
    (hm : ∀ f ∈ fs, ∃ m n, f.shape = [m, n]) (hw : ∀ v, w = some v → ∃ n, v.shape = [n])
    (h : ∀ R, ¬ KruskalArgs fs w R) : KruskalTensor.init fs w = .error .valueError := by
  obtain ⟨f, fs', rfl⟩ := List.exists_cons_of_ne_nil hne
  obtain ⟨m, n, hf⟩ := hm f (by simp)
  have hp : pyGet (f :: fs') 0 = .ok f := rfl
  rw [KruskalTensor.init, hp, bind_ok, cols_ok hf, bind_ok]
  by_cases hc : ∀ g ∈ f :: fs', g.shape.getD 1 0 = n
  · rw [checkCols_ok hm hc, bind_ok]
    cases w with
    | none => exact absurd ⟨hc, by simp⟩ (h n)
    | some v =>
      obtain ⟨k, hv⟩ := hw v rfl
      have : k ≠ n := fun e => h n ⟨hc, fun v' h' => by cases h'; rw [hv, e]⟩
      simp [hv, this]
  · rw [checkCols_error hm hc]; rfl

/-- Non-vacuity: consistent and inconsistent arguments exist. -/
example : KruskalArgs [full [2, 3] 1, full [4, 3] 1] (some (full [3] 1)) 3 := by
  constructor <;> simp

example : ∀ R, ¬ KruskalArgs [full [2, 3] (1 : ℝ), full [4, 2] 1] none R := by
  rintro R ⟨h, _⟩
  have h1 := h (full [2, 3] 1) (by simp)
  have h2 := h (full [4, 2] 1) (by simp)
  simp at h1 h2; omega

/-! ### C17 -/

/-- C17: `normalize_factor` returns the true column norms, never divides by zero, can be undone, and its
columns have length `n / (n + eps)`. -/
theorem C17_normalize_factor {F : NDArray ℝ} {m R : ℕ} {eps : ℝ} (h : F.shape = [m, R]) (he : 0 < eps) :
    ∃ G norms, normalizeFactor F eps = .ok (G, norms) ∧ G.shape = [m, R] ∧ norms.shape = [1, R] ∧
      ∀ r < R, norms.get [0, r] = colLen F m r ∧ norms.get [0, r] + eps ≠ 0 ∧
        colLen G m r = colLen F m r / (colLen F m r + eps) ∧
        ∀ i < m, G.get [i, r] * (norms.get [0, r] + eps) = F.get [i, r] := by
  refine ⟨_, _, normalizeFactor_eq h, rfl, by simp [shape_colNorms h], ?_⟩
  intro r hr
  have h0 := colLen_nonneg F m r
  rw [get_newaxis0, colNorms_get h hr]
  refine ⟨rfl, by positivity, colLen_normMat he hr, fun i hi => ?_⟩
  rw [normMat, get_ofMat hi hr]
  field_simp

/-- C17: `normalize_factors` does the same to every matrix of the list, in order. -/
theorem C17_normalize_factors {fs : List (NDArray ℝ)} {sizes : List ℕ} {R : ℕ} {eps : ℝ}
    (h : Factors fs sizes R) :
    ∃ gs ns, normalizeFactors fs eps = .ok (gs, ns) ∧ gs.length = fs.length ∧ ns.length = fs.length ∧
      ∀ k, (hk : k < fs.length) → ∃ G N, gs[k]? = some G ∧ ns[k]? = some N ∧
        normalizeFactor fs[k] eps = .ok (G, N) := by
  have hm : ∀ F ∈ fs, normalizeFactor F eps
      = .ok (normMat F (F.shape.getD 0 0) R eps, newaxis0 (colNorms F)) := by
    intro F hF
    obtain ⟨n, _, hn⟩ : ∃ n ∈ sizes, F.shape = [n, R] := by
      obtain ⟨k, hk, rfl⟩ := List.mem_iff_getElem.1 hF
      have hk' : k < sizes.length := by rw [← h.length_eq]; exact hk
      exact ⟨sizes[k], List.getElem_mem _, List.forall₂_iff_get.1 h |>.2 k hk hk'⟩
    rw [normalizeFactor_eq hn, hn]; rfl
  refine ⟨_, _, by rw [normalizeFactors, mapM_ok hm]; rfl, by simp, by simp, ?_⟩
  intro k hk
  refine ⟨_, _, by simp [hk]; rfl, by simp [hk]; rfl, ?_⟩
  exact hm _ (List.getElem_mem _)

/-! ### C16 -/

/-- C16: `normalize_components()` multiplies component `r` of the tensor by exactly
`∏ n / (n + eps)` (old column lengths `n`) and leaves columns of length `n / (n + eps)`. -/
theorem C16_normalize_components {t : KruskalTensor} {sizes : List ℕ} {R : ℕ} (h : t.WF sizes R)
    (h2 : 2 ≤ sizes.length) {eps : ℝ} (he : 0 < eps) :
    ∃ t' X', t.normalizeComponents true eps = .ok t' ∧ t'.WF sizes R ∧ t'.constructTensor = .ok X' ∧
      X'.shape = sizes ∧
      (∀ idx, Valid sizes idx → X'.get idx = ∑ r ∈ Finset.range R,
        modeProd (fun F m => colLen F m r / (colLen F m r + eps)) t.factorMatrices sizes *
          (t.weights.get [r] * rankOne t.factorMatrices idx r)) ∧
      (∀ k (hk : k < sizes.length), ∃ F F', t.factorMatrices[k]? = some F ∧ t'.factorMatrices[k]? = some F' ∧
        ∀ r < R, colLen F' sizes[k] r = colLen F sizes[k] r / (colLen F sizes[k] r + eps)) := by
  obtain ⟨t', e, wf, hf, hw⟩ := normalizeComponents_ok h true eps
  refine ⟨t', _, e, wf, constructTensor_eq wf h2, rfl, ?_, ?_⟩
  · intro idx hidx
    rw [get_ofFn hidx, cpEntry]
    apply Finset.sum_congr rfl
    intro r hr
    have hr := Finset.mem_range.1 hr
    rw [hw r hr, hf, rankOne_normMat hr h.factors hidx, if_pos rfl]
    have : modeProd (fun F m => colLen F m r / (colLen F m r + eps)) t.factorMatrices sizes
        = modeProd (fun F m => colLen F m r) t.factorMatrices sizes *
          modeProd (fun F m => 1 / (colLen F m r + eps)) t.factorMatrices sizes := by
      rw [modeProd_mul]
      exact modeProd_congr (fun F m => by ring) _ _
    rw [this]; ring
  · intro k hk
    have hk' : k < t.factorMatrices.length := by rw [h.factors.length_eq]; exact hk
    refine ⟨_, normMat t.factorMatrices[k] sizes[k] R eps, List.getElem?_eq_getElem hk', ?_, ?_⟩
    · rw [hf, List.getElem?_eq_getElem (by simp [hk, hk']), List.getElem_zipWith]
    · intro r hr
      exact colLen_normMat he hr

/-- C16: the factor by which a component changes lies in `[0, 1]` and differs from 1 by at most
`∑ eps / (n + eps)`; zero columns stay zero. -/
theorem C16_relative_change (fs : List (NDArray ℝ)) (sizes : List ℕ) (r : ℕ) {eps : ℝ} (he : 0 < eps) :
    0 ≤ modeProd (fun F m => colLen F m r / (colLen F m r + eps)) fs sizes ∧
    modeProd (fun F m => colLen F m r / (colLen F m r + eps)) fs sizes ≤ 1 ∧
    1 - modeProd (fun F m => colLen F m r / (colLen F m r + eps)) fs sizes
      ≤ modeSum (fun F m => eps / (colLen F m r + eps)) fs sizes := by
  have h := modeProd_unit (g := fun F m => colLen F m r / (colLen F m r + eps))
    (fun F m => by have := colLen_nonneg F m r; positivity)
    (fun F m => by
      have := colLen_nonneg F m r
      rw [div_le_one (by positivity)]; linarith) fs sizes
  have e : (fun (F : NDArray ℝ) m => 1 - colLen F m r / (colLen F m r + eps))
      = fun F m => eps / (colLen F m r + eps) := by
    funext F m
    have := colLen_nonneg F m r
    have : colLen F m r + eps ≠ 0 := by positivity
    field_simp; ring
  rw [e] at h
  exact h

/-- C16: with `update_weights=False` the weights are left alone. -/
theorem C16_keep_weights {t : KruskalTensor} {sizes : List ℕ} {R : ℕ} (h : t.WF sizes R) (eps : ℝ) :
    ∃ t', t.normalizeComponents false eps = .ok t' ∧ t'.WF sizes R ∧
      ∀ r < R, t'.weights.get [r] = t.weights.get [r] := by
  obtain ⟨t', e, wf, _, hw⟩ := normalizeComponents_ok h false eps
  exact ⟨t', e, wf, fun r hr => by rw [hw r hr]; simp⟩

/-! ### C18 -/

theorem takeColumn_ok {F : NDArray ℝ} {m R : ℕ} {c : Int} {k : ℕ} (h : F.shape = [m, R]) (hc : IsMode c R k) :
    KruskalTensor.takeColumn F c = .ok (ofMat m 1 fun i _ => F.get [i, k]) := by
  rw [KruskalTensor.takeColumn, dims2_ok h, bind_ok]
  simp only [hc.norm, KruskalTensor.columnAsMat, h]
  rfl

theorem factors_column {R k : ℕ} : ∀ {fs : List (NDArray ℝ)} {sizes : List ℕ}, Factors fs sizes R →
    Factors (List.zipWith (fun F m => ofMat m 1 fun i _ => F.get [i, k]) fs sizes) sizes 1 := by
  intro fs
  induction fs with
  | nil => intro sizes h; cases h; exact .nil
  | cons F fs ih =>
    intro sizes h
    cases h with
    | cons h1 h => exact .cons rfl (ih h)

theorem mapM_takeColumn {R k : ℕ} {c : Int} (hc : IsMode c R k) : ∀ {fs : List (NDArray ℝ)} {sizes : List ℕ},
    Factors fs sizes R → (fs.mapM fun F => KruskalTensor.takeColumn F c)
      = .ok (List.zipWith (fun F m => ofMat m 1 fun i _ => F.get [i, k]) fs sizes) := by
  intro fs
  induction fs with
  | nil => intro sizes h; cases h; rfl
  | cons F fs ih =>
    intro sizes h
    cases h with
    | cons h1 h =>
      rw [List.mapM_cons, takeColumn_ok h1 hc, bind_ok, ih h, bind_ok]; rfl

theorem rankOne_column {R k : ℕ} : ∀ {fs : List (NDArray ℝ)} {sizes idx : List ℕ}, Factors fs sizes R →
    Valid sizes idx →
    rankOne (List.zipWith (fun F m => ofMat m 1 fun i _ => F.get [i, k]) fs sizes) idx 0 = rankOne fs idx k := by
  intro fs
  induction fs with
  | nil => intro sizes idx h hidx; cases h; simp at hidx; subst hidx; rfl
  | cons F fs ih =>
    intro sizes idx h hidx
    cases h with
    | cons h1 h =>
    obtain ⟨i, is, rfl, hi, his⟩ := valid_cons_iff.1 hidx
    simp only [List.zipWith_cons_cons, rankOne]
    rw [ih h his, get_ofMat hi (by omega)]

/-- C18: a single component (also counted from the end) is a rank one tensor carrying its weight. -/
theorem C18_single_component {t : KruskalTensor} {sizes : List ℕ} {R k : ℕ} {c : Int} (h : t.WF sizes R)
    (h2 : 2 ≤ sizes.length) (hc : IsMode c R k) :
    ∃ tc Xc, t.getSingleComponent c = .ok tc ∧ tc.WF sizes 1 ∧ tc.weights.get [0] = t.weights.get [k] ∧
      tc.constructTensor = .ok Xc ∧ Xc.shape = sizes ∧
      ∀ idx, Valid sizes idx → Xc.get idx = t.weights.get [k] * rankOne t.factorMatrices idx k := by
  have hf := factors_column (k := k) h.factors
  have hne : List.zipWith (fun F m => ofMat m 1 fun i _ => F.get [i, k]) t.factorMatrices sizes ≠ [] := by
    intro hn
    have := congrArg List.length hn
    simp only [List.length_zipWith, List.length_nil] at this
    have := h.factors.length_eq
    omega
  have hsh : ∀ f ∈ List.zipWith (fun F m => ofMat m 1 fun i _ => F.get [i, k]) t.factorMatrices sizes,
      ∃ m, f.shape = [m, 1] := by
    intro f hfm
    obtain ⟨j, hj, rfl⟩ := List.mem_iff_getElem.1 hfm
    rw [List.getElem_zipWith]
    exact ⟨_, rfl⟩
  obtain ⟨tc, e, hr, hfs, hws, hw, _⟩ := C15_init_ok (R := 1) hne
    (w := some (ofFn [1] fun _ => t.weights.get [k]))
    (fun f hf => let ⟨m, hm⟩ := hsh f hf; ⟨m, 1, hm⟩)
    ⟨fun f hf => by obtain ⟨m, hm⟩ := hsh f hf; simp [hm], by simp⟩
  have hwf : tc.WF sizes 1 := ⟨hr, hfs ▸ hf, hws⟩
  have hw0 : tc.weights.get [0] = t.weights.get [k] := by
    rw [hw _ rfl, get_ofFn (by simp)]
  refine ⟨tc, _, ?_, hwf, hw0, constructTensor_eq hwf h2, rfl, ?_⟩
  · rw [KruskalTensor.getSingleComponent, mapM_takeColumn hc h.factors, bind_ok]
    have : KruskalTensor.takeWeight t.weights c = .ok (t.weights.get [k]) := by
      rw [KruskalTensor.takeWeight, h.weights]
      simp only [List.getD_cons_zero, hc.norm]; rfl
    rw [this, bind_ok, e]
  · intro idx hidx
    rw [get_ofFn hidx, cpEntry, Finset.sum_range_one, hw0, hfs, rankOne_column h.factors hidx]

/-- C18: the single components add up to the tensor. -/
theorem C18_components_sum {t : KruskalTensor} {sizes : List ℕ} {R : ℕ} (h : t.WF sizes R)
    (h2 : 2 ≤ sizes.length) :
    ∃ X, t.constructTensor = .ok X ∧ ∃ Xs : ℕ → NDArray ℝ,
      (∀ c < R, (t.getSingleComponent c >>= fun tc => tc.constructTensor) = .ok (Xs c)) ∧
      ∀ idx, Valid sizes idx → X.get idx = ∑ c ∈ Finset.range R, (Xs c).get idx := by
  refine ⟨_, constructTensor_eq h h2, ?_⟩
  have hx : ∀ c, ∃ Xc, c < R → (t.getSingleComponent c >>= fun tc => tc.constructTensor) = .ok Xc ∧
      ∀ idx, Valid sizes idx → Xc.get idx = t.weights.get [c] * rankOne t.factorMatrices idx c := by
    intro c
    by_cases hc : c < R
    · obtain ⟨tc, Xc, e, _, _, e2, _, hg⟩ := C18_single_component h h2 (c := c) (k := c) ⟨hc, Or.inl rfl⟩
      exact ⟨Xc, fun _ => ⟨by rw [e, bind_ok, e2], hg⟩⟩
    · exact ⟨full [] 0, fun h => absurd h hc⟩
  choose Xs hXs using hx
  refine ⟨Xs, fun c hc => (hXs c hc).1, fun idx hidx => ?_⟩
  rw [get_ofFn hidx, cpEntry]
  exact Finset.sum_congr rfl fun c hc => ((hXs c (Finset.mem_range.1 hc)).2 idx hidx).symm

/-- C18: a component that does not exist is an `IndexError`. -/
theorem C18_bad_component {t : KruskalTensor} {sizes : List ℕ} {R : ℕ} {c : Int} (h : t.WF sizes R)
    (hne : sizes ≠ []) (hc : ∀ k, ¬ IsMode c R k) : t.getSingleComponent c = .error .indexError := by
  obtain ⟨_, hf, _⟩ := h
  rw [KruskalTensor.getSingleComponent]
  generalize t.factorMatrices = fs at hf
  cases hf with
  | nil => exact absurd rfl hne
  | cons h1 _ =>
    rw [List.mapM_cons, KruskalTensor.takeColumn, dims2_ok h1, bind_ok]
    simp only [norm_none_of_not_isMode hc]
    rfl

/-- Non-vacuity: the Kruskal tensor `exKT` of `Props/Base.lean` is well formed with two components. -/
example : exKT.WF [3, 2, 4] 2 ∧ 2 ≤ ([3, 2, 4] : List ℕ).length ∧ IsMode (-1) 2 1 := ⟨exKT_wf, by decide, ⟨by decide, Or.inr rfl⟩⟩

/-! ### C68 (Kruskal part) -/

/-- C68: `KruskalTensor.random_init` has unit weights, the requested sizes, and columns of length
`n / (n + eps)` in the direction of the drawn columns, whatever numbers were drawn. -/
theorem C68_kruskal_random_init (draw : KruskalTensor.RandomMethod → ℕ → ℕ → ℕ → ℝ) {sizes : List ℕ}
    (hne : sizes ≠ []) (R : ℕ) {eps : ℝ} (he : 0 < eps) {meth : String}
    {μ : KruskalTensor.RandomMethod} (hm : meth = "normal" ∧ μ = .normal ∨ meth = "uniform" ∧ μ = .uniform) :
    ∃ t, KruskalTensor.randomInit draw sizes R meth eps = .ok t ∧ t.WF sizes R ∧
      (∀ r < R, t.weights.get [r] = 1) ∧
      ∀ k (hk : k < sizes.length), ∃ F G, t.factorMatrices[k]? = some F ∧ G.shape = [sizes[k], R] ∧
        (∀ i < sizes[k], ∀ r < R, G.get [i, r] = draw μ k i r) ∧
        (∀ i < sizes[k], ∀ r < R, F.get [i, r] = G.get [i, r] / (colLen G sizes[k] r + eps)) ∧
        ∀ r < R, colLen F sizes[k] r = colLen G sizes[k] r / (colLen G sizes[k] r + eps) := by
  have hμ : KruskalTensor.parseRandomMethod meth = .ok μ := by
    rcases hm with ⟨rfl, rfl⟩ | ⟨rfl, rfl⟩
    · rfl
    · simp [KruskalTensor.parseRandomMethod]
  set fs := (List.range sizes.length).map fun m => ofMat (sizes.getD m 0) R (draw μ m) with hfs
  have hlen : fs.length = sizes.length := by simp [hfs]
  have hget : ∀ k (hk : k < sizes.length), fs[k]? = some (ofMat sizes[k] R (draw μ k)) := by
    intro k hk
    simp [hfs, hk]
  have hF : Factors fs sizes R := by
    refine List.forall₂_iff_get.2 ⟨hlen, fun k h1 h2 => ?_⟩
    have := hget k h2
    rw [List.getElem?_eq_getElem h1] at this
    have := Option.some.inj this
    rw [List.get_eq_getElem, this]; rfl
  have hfne : fs ≠ [] := by
    intro h; rw [h] at hlen; exact hne (List.length_eq_zero_iff.1 hlen.symm)
  have hsh : ∀ f ∈ fs, ∃ m, f.shape = [m, R] := by
    intro f hf
    obtain ⟨m, _, rfl⟩ := List.mem_map.1 hf
    exact ⟨_, rfl⟩
  obtain ⟨t0, e0, hr, hf0, hw0, _, hone⟩ := C15_init_ok (w := none) (R := R) hfne
    (fun f hf => let ⟨m, hm⟩ := hsh f hf; ⟨m, R, hm⟩)
    ⟨fun f hf => by obtain ⟨m, hm⟩ := hsh f hf; simp [hm], by simp⟩
  have wf0 : t0.WF sizes R := ⟨hr, hf0 ▸ hF, hw0⟩
  obtain ⟨t, e, wf, hf, hw⟩ := normalizeComponents_ok wf0 false eps
  refine ⟨t, ?_, wf, fun r hr => by rw [hw r hr, hone rfl r hr]; simp, ?_⟩
  · rw [KruskalTensor.randomInit, hμ, bind_ok]
    simp only [← hfs]
    rw [e0, bind_ok, e]
  · intro k hk
    refine ⟨normMat (ofMat sizes[k] R (draw μ k)) sizes[k] R eps, ofMat sizes[k] R (draw μ k), ?_, rfl,
      fun i hi r hr => get_ofMat hi hr, fun i hi r hr => get_ofMat hi hr, fun r hr => colLen_normMat he hr⟩
    rw [hf, hf0]
    have := hget k hk
    rw [List.getElem?_zipWith, this, List.getElem?_eq_getElem hk]

/-- C68: an unknown distribution is rejected. -/
theorem C68_kruskal_bad_method (draw : KruskalTensor.RandomMethod → ℕ → ℕ → ℕ → ℝ) (sizes : List ℕ) (R : ℕ)
    (eps : ℝ) {meth : String} (h1 : meth ≠ "normal") (h2 : meth ≠ "uniform") :
    KruskalTensor.randomInit draw sizes R meth eps = .error .valueError := by
  simp [KruskalTensor.randomInit, KruskalTensor.parseRandomMethod, h1, h2, bind, Except.bind]

end
end TK
