import Verif.Lemmas.Kruskal
import Verif.Spec.Norms

/-! # Lemmas about normalisation -/

namespace TK
open NDArray

noncomputable section

theorem colNorm_eq {F : NDArray ℝ} {m R : ℕ} (h : F.shape = [m, R]) (r : ℕ) : colNorm F r = colLen F m r := by
  simp [colNorm, colLen, h]

theorem colLen_nonneg (F : NDArray ℝ) (m r : ℕ) : 0 ≤ colLen F m r := Real.sqrt_nonneg _

theorem colLen_sq (F : NDArray ℝ) (m r : ℕ) : colLen F m r ^ 2 = ∑ i ∈ Finset.range m, F.get [i, r] ^ 2 :=
  Real.sq_sqrt (Finset.sum_nonneg fun _ _ => sq_nonneg _)

theorem colNorms_get {F : NDArray ℝ} {m R r : ℕ} (h : F.shape = [m, R]) (hr : r < R) :
    (colNorms F).get [r] = colLen F m r := by
  rw [colNorms, get_ofFn (by simp [h, hr])]
  simp [colNorm_eq h]

theorem shape_colNorms {F : NDArray ℝ} {m R : ℕ} (h : F.shape = [m, R]) : (colNorms F).shape = [R] := by
  simp [colNorms, h]

theorem colLen_congr {F G : NDArray ℝ} {m r : ℕ} (h : ∀ i < m, F.get [i, r] = G.get [i, r]) :
    colLen F m r = colLen G m r := by
  unfold colLen
  congr 1
  exact Finset.sum_congr rfl fun i hi => by rw [h i (Finset.mem_range.1 hi)]

/-- Length of a scaled column. -/
theorem colLen_scale {F G : NDArray ℝ} {m r : ℕ} {c : ℝ} (h : ∀ i < m, G.get [i, r] = F.get [i, r] * c) :
    colLen G m r = colLen F m r * |c| := by
  have : ∑ i ∈ Finset.range m, G.get [i, r] ^ 2 = (∑ i ∈ Finset.range m, F.get [i, r] ^ 2) * c ^ 2 := by
    rw [Finset.sum_mul]
    exact Finset.sum_congr rfl fun i hi => by rw [h i (Finset.mem_range.1 hi), mul_pow]
  unfold colLen
  rw [this, Real.sqrt_mul (Finset.sum_nonneg fun _ _ => sq_nonneg _), Real.sqrt_sq_eq_abs]

/-- The normalised matrix. -/
def normMat (F : NDArray ℝ) (m R : ℕ) (eps : ℝ) : NDArray ℝ :=
  ofMat m R fun i r => F.get [i, r] / (colLen F m r + eps)

theorem colLen_normMat {F : NDArray ℝ} {m R r : ℕ} {eps : ℝ} (he : 0 < eps) (hr : r < R) :
    colLen (normMat F m R eps) m r = colLen F m r / (colLen F m r + eps) := by
  have h0 := colLen_nonneg F m r
  rw [colLen_scale (F := F) (c := 1 / (colLen F m r + eps)) fun i hi => by
    rw [normMat, get_ofMat hi hr]; ring]
  rw [abs_of_nonneg (by positivity)]; ring

theorem norm_div {F : NDArray ℝ} {m R : ℕ} {eps : ℝ} (h : F.shape = [m, R]) :
    zipB (· / ·) F ((newaxis0 (colNorms F)).map (· + eps)) = .ok (normMat F m R eps) := by
  have hs : ((newaxis0 (colNorms F)).map (· + eps)).shape = [1, R] := by
    simp [shape_colNorms h]
  rw [zipB_mat_row _ hs h]
  refine congrArg Except.ok (ofMat_congr fun i hi r hr => ?_)
  rw [get_map _ _ (by rw [shape_newaxis0, shape_colNorms h]; simp [hr]), get_newaxis0, colNorms_get h hr]

theorem normalizeFactor_eq {F : NDArray ℝ} {m R : ℕ} {eps : ℝ} (h : F.shape = [m, R]) :
    normalizeFactor F eps = .ok (normMat F m R eps, newaxis0 (colNorms F)) := by
  rw [normalizeFactor, norm_div h]; rfl

theorem zipB_vec_vec {w v : NDArray ℝ} {R : ℕ} (op : ℝ → ℝ → ℝ) (hw : w.shape = [R]) (hv : v.shape = [R]) :
    zipB op w v = .ok (ofFn [R] fun idx => op (w.get idx) (v.get idx)) := by
  rw [zipB_same op (hw.trans hv.symm), hw]
  refine congrArg Except.ok (ofFn_congr fun idx h => ?_)
  rw [bidx_self h]

theorem normalizeStep_eq {F w : NDArray ℝ} {m R : ℕ} {eps : ℝ} (h : F.shape = [m, R]) (hw : w.shape = [R])
    (u : Bool) :
    KruskalTensor.normalizeStep u eps F w = .ok (normMat F m R eps,
      if u then ofFn [R] fun idx => w.get idx * (colNorms F).get idx else w) := by
  rw [KruskalTensor.normalizeStep, norm_div h, bind_ok]
  cases u
  · rfl
  · simp only [if_true]
    rw [zipB_vec_vec _ hw (shape_colNorms h)]; rfl

theorem normalizeLoop_eq {eps : ℝ} {R : ℕ} (u : Bool) : ∀ {fs : List (NDArray ℝ)} {sizes : List ℕ}
    {w : NDArray ℝ}, Factors fs sizes R → w.shape = [R] →
    ∃ w', KruskalTensor.normalizeLoop u eps fs w = .ok (List.zipWith (fun F m => normMat F m R eps) fs sizes, w') ∧
      w'.shape = [R] ∧ ∀ r < R, w'.get [r] = w.get [r] *
        (if u then modeProd (fun F m => colLen F m r) fs sizes else 1) := by
  intro fs
  induction fs with
  | nil =>
    intro sizes w h hw
    cases h
    exact ⟨w, rfl, hw, fun r _ => by simp [modeProd]⟩
  | cons F fs ih =>
    intro sizes w h hw
    cases h with
    | cons h1 h =>
    rename_i m ms
    set v := (if u then ofFn [R] fun idx => w.get idx * (colNorms F).get idx else w) with hv
    have hvs : v.shape = [R] := by rw [hv]; cases u <;> simp [hw]
    obtain ⟨w', e, s, hw'⟩ := ih h hvs
    refine ⟨w', ?_, s, ?_⟩
    · rw [KruskalTensor.normalizeLoop, normalizeStep_eq h1 hw, bind_ok]
      simp only [← hv]
      rw [e]
      rfl
    · intro r hr
      rw [hw' r hr, hv]
      cases u
      · simp
      · simp only [if_true, modeProd]
        rw [get_ofFn (by simp [hr]), colNorms_get h1 hr]; ring

theorem factors_normMat {eps : ℝ} {R : ℕ} : ∀ {fs : List (NDArray ℝ)} {sizes : List ℕ}, Factors fs sizes R →
    Factors (List.zipWith (fun F m => normMat F m R eps) fs sizes) sizes R := by
  intro fs
  induction fs with
  | nil => intro sizes h; cases h; exact .nil
  | cons F fs ih =>
    intro sizes h
    cases h with
    | cons h1 h => exact .cons rfl (ih h)

theorem rankOne_normMat {eps : ℝ} {R r : ℕ} (hr : r < R) : ∀ {fs : List (NDArray ℝ)} {sizes idx : List ℕ},
    Factors fs sizes R → Valid sizes idx →
    rankOne (List.zipWith (fun F m => normMat F m R eps) fs sizes) idx r
      = rankOne fs idx r * modeProd (fun F m => 1 / (colLen F m r + eps)) fs sizes := by
  intro fs
  induction fs with
  | nil => intro sizes idx h hidx; cases h; simp at hidx; subst hidx; simp [rankOne, modeProd]
  | cons F fs ih =>
    intro sizes idx h hidx
    cases h with
    | cons h1 h =>
    obtain ⟨i, is, rfl, hi, his⟩ := valid_cons_iff.1 hidx
    simp only [List.zipWith_cons_cons, rankOne, modeProd]
    rw [ih h his, normMat, get_ofMat hi hr]; ring

theorem modeProd_mul (g h : NDArray ℝ → ℕ → ℝ) : ∀ (fs : List (NDArray ℝ)) (s : List ℕ),
    modeProd g fs s * modeProd h fs s = modeProd (fun F m => g F m * h F m) fs s
  | [], _ => by simp [modeProd]
  | _ :: _, [] => by simp [modeProd]
  | f :: fs, m :: ms => by simp only [modeProd]; rw [← modeProd_mul]; ring

theorem modeProd_congr {g h : NDArray ℝ → ℕ → ℝ} (e : ∀ F m, g F m = h F m) (fs : List (NDArray ℝ)) (s : List ℕ) :
    modeProd g fs s = modeProd h fs s := by
  have : g = h := by funext F m; exact e F m
  rw [this]

/-- A product of numbers in `[0, 1]` is in `[0, 1]` and differs from one by at most the sum of the
differences. -/
theorem modeProd_unit {g : NDArray ℝ → ℕ → ℝ} (h0 : ∀ F m, 0 ≤ g F m) (h1 : ∀ F m, g F m ≤ 1) :
    ∀ (fs : List (NDArray ℝ)) (s : List ℕ), 0 ≤ modeProd g fs s ∧ modeProd g fs s ≤ 1 ∧
      1 - modeProd g fs s ≤ modeSum (fun F m => 1 - g F m) fs s
  | [], _ => by simp [modeProd, modeSum]
  | _ :: _, [] => by simp [modeProd, modeSum]
  | f :: fs, m :: ms => by
    obtain ⟨a, b, c⟩ := modeProd_unit h0 h1 fs ms
    have := h0 f m; have := h1 f m
    simp only [modeProd, modeSum]
    refine ⟨by positivity, by nlinarith, by nlinarith⟩

/-- Closed form of `normalize_components`. -/
theorem normalizeComponents_ok {t : KruskalTensor} {sizes : List ℕ} {R : ℕ} (h : t.WF sizes R) (u : Bool)
    (eps : ℝ) : ∃ t', t.normalizeComponents u eps = .ok t' ∧ t'.WF sizes R ∧
      t'.factorMatrices = List.zipWith (fun F m => normMat F m R eps) t.factorMatrices sizes ∧
      ∀ r < R, t'.weights.get [r] = t.weights.get [r] *
        (if u then modeProd (fun F m => colLen F m r) t.factorMatrices sizes else 1) := by
  obtain ⟨w', e, s, hw⟩ := normalizeLoop_eq (eps := eps) u h.factors h.weights
  refine ⟨⟨t.rank, _, w'⟩, ?_, ⟨h.rank, factors_normMat h.factors, s⟩, rfl, hw⟩
  rw [KruskalTensor.normalizeComponents, e]; rfl

end
end TK
