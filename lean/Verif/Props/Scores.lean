import Verif.Model.Scores
import Verif.Spec.Scores
import Verif.Lemmas.Metrics
import Verif.Props.CP
import Verif.Props.Fms

/-!
# Degeneracy, leverage, explained variance and completion scores (C64 to C67, C71)
-/

namespace TK
open NDArray

noncomputable section

/-! ### C65: degeneracy -/

theorem colLen_ne_zero {F : NDArray ℝ} {m r : ℕ} (h : ∃ i < m, F.get [i, r] ≠ 0) : colLen F m r ≠ 0 := by
  obtain ⟨i, hi, h0⟩ := h
  rw [colLen, Ne, Real.sqrt_eq_zero (Finset.sum_nonneg fun _ _ => sq_nonneg _),
    Finset.sum_eq_zero_iff_of_nonneg fun _ _ => sq_nonneg _]
  intro h
  exact h0 (by simpa using h i (Finset.mem_range.2 hi))

theorem cosine_comm (F : NDArray ℝ) (m r s : ℕ) : cosine F m r s = cosine F m s r := by
  rw [cosine, cosine, mul_comm (colLen F m r)]
  congr 1
  exact Finset.sum_congr rfl fun _ _ => mul_comm _ _

theorem colDot_self' (F : NDArray ℝ) (m r : ℕ) : colDot F F m r r = colLen F m r * colLen F m r := by
  rw [colLen, Real.mul_self_sqrt (Finset.sum_nonneg fun _ _ => sq_nonneg _)]
  exact Finset.sum_congr rfl fun _ _ => by ring

theorem cosine_self {F : NDArray ℝ} {m r : ℕ} (h : colLen F m r ≠ 0) : cosine F m r r = 1 := by
  rw [cosine, colDot_self', div_self (mul_ne_zero h h)]

theorem abs_cosine_le (F : NDArray ℝ) (m r s : ℕ) : |cosine F m r s| ≤ 1 := by
  rw [cosine, abs_div, abs_of_nonneg (mul_nonneg (colLen_nonneg F m r) (colLen_nonneg F m s))]
  exact div_le_one_of_le₀ (abs_colDot_le F F m r s) (mul_nonneg (colLen_nonneg F m r) (colLen_nonneg F m s))

theorem tucker_entry {F : NDArray ℝ} {m R r s : ℕ} (h : F.shape = [m, R]) :
    (∑ i ∈ Finset.range m, F.get [i, r] / colNorm F r * (F.get [i, s] / colNorm F s)) = cosine F m r s := by
  rw [cosine, colNorm_eq h, colNorm_eq h, colDot, Finset.sum_div]
  exact Finset.sum_congr rfl fun _ _ => div_mul_div_comm _ _ _ _

/-- One pass of the loop, for a matrix with the right number of columns. -/
theorem degeneracy_step {F : NDArray ℝ} {m R : ℕ} (h : F.shape = [m, R]) {Fs : List (NDArray ℝ)}
    (f : ℕ → ℕ → Option ℝ) :
    degeneracyLoop (F :: Fs) (ofMat R R f) = degeneracyLoop Fs (ofMat R R fun r s => mulNan (f r s)
      (if 0 < m ∧ (colLen F m r = 0 ∨ colLen F m s = 0) then none else some (cosine F m r s))) := by
  have e : tuckerCongruence F F = .ok (ofMat R R fun r s =>
      if 0 < m ∧ (colLen F m r = 0 ∨ colLen F m s = 0) then none else some (cosine F m r s)) := by
    rw [tuckerCongruence, dims2, h]
    simp only [bind_ok, ne_eq, not_true, if_false, tucker_entry h]
    simp only [colNorm_eq h]
    rfl
  rw [degeneracyLoop, e, bind_ok, zipB_mat_mat mulNan (shape_ofMat R R _) (shape_ofMat R R _), bind_ok,
    if_pos (by rfl)]
  congr 1
  refine ofMat_congr fun r hr s hs => ?_
  rw [get_ofMat hr hs, get_ofMat hr hs]

theorem degeneracyLoop_eq {R : ℕ} : ∀ {fs : List (NDArray ℝ)} {sizes : List ℕ} (_ : Factors fs sizes R)
    (_ : NoZeroColumn fs sizes R) (f : ℕ → ℕ → ℝ), degeneracyLoop fs (ofMat R R fun r s => some (f r s))
      = .ok (ofMat R R fun r s => some (f r s * cosineProd fs sizes r s))
  | [], [], _, _, f => by simp [degeneracyLoop, cosineProd, modeProd]
  | [], _ :: _, h, _, _ => by cases h
  | _ :: _, [], h, _, _ => by cases h
  | F :: fs, m :: ms, h, h0, f => by
    cases h with
    | cons h1 h2 =>
      cases h0 with
      | cons z1 z2 =>
        rw [degeneracy_step h1]
        have : (ofMat R R fun r s => mulNan (some (f r s)) (if 0 < m ∧ (colLen F m r = 0 ∨ colLen F m s = 0) then none
            else some (cosine F m r s))) = ofMat R R fun r s => some (f r s * cosine F m r s) := by
          refine ofMat_congr fun r hr s hs => ?_
          rw [if_neg]
          · rfl
          · rintro ⟨-, h | h⟩
            · exact colLen_ne_zero (z1 r hr) h
            · exact colLen_ne_zero (z1 s hs) h
        rw [this, degeneracyLoop_eq h2 z2]
        refine congrArg Except.ok (ofMat_congr fun r _ s _ => ?_)
        rw [cosineProd, cosineProd, modeProd, mul_assoc]

theorem cosineProd_comm (r s : ℕ) : ∀ (fs : List (NDArray ℝ)) (sizes : List ℕ),
    cosineProd fs sizes r s = cosineProd fs sizes s r
  | F :: fs, m :: ms => by
    have := cosineProd_comm r s fs ms
    simp only [cosineProd, modeProd] at this ⊢
    rw [this, cosine_comm]
  | [], _ => rfl
  | _ :: _, [] => rfl

theorem abs_cosineProd_le (r s : ℕ) : ∀ (fs : List (NDArray ℝ)) (sizes : List ℕ), |cosineProd fs sizes r s| ≤ 1
  | F :: fs, m :: ms => by
    have := abs_cosineProd_le r s fs ms
    simp only [cosineProd, modeProd] at this ⊢
    rw [abs_mul]
    exact mul_le_one₀ (abs_cosine_le F m r s) (abs_nonneg _) this
  | [], _ => by simp [cosineProd, modeProd]
  | _ :: _, [] => by simp [cosineProd, modeProd]

theorem cosineProd_self {r R : ℕ} (hr : r < R) : ∀ {fs : List (NDArray ℝ)} {sizes : List ℕ}
    (_ : NoZeroColumn fs sizes R), cosineProd fs sizes r r = 1
  | F :: fs, m :: ms, h => by
    cases h with
    | cons z1 z2 =>
      have := cosineProd_self hr z2
      simp only [cosineProd, modeProd] at this ⊢
      rw [this, cosine_self (colLen_ne_zero (z1 r hr)), one_mul]
  | [], _, _ => by simp [cosineProd, modeProd]
  | _ :: _, [], _ => by simp [cosineProd, modeProd]

/-- What C65 says about a matrix of scores. -/
structure DegeneracyOk (D : NDArray (Option ℝ)) (fs : List (NDArray ℝ)) (sizes : List ℕ) (R : ℕ) : Prop where
  shape : D.shape = [R, R]
  entry : ∀ r < R, ∀ s < R, D.get [r, s] = some (cosineProd fs sizes r s)
  symmetric : ∀ r < R, ∀ s < R, D.get [r, s] = D.get [s, r]
  diagonal : ∀ r < R, D.get [r, r] = some 1
  bounded : ∀ r < R, ∀ s < R, ∀ x, D.get [r, s] = some x → -1 ≤ x ∧ x ≤ 1

theorem degeneracy_ok {fs : List (NDArray ℝ)} {sizes : List ℕ} {R : ℕ} (h : Factors fs sizes R)
    (h0 : NoZeroColumn fs sizes R) :
    ∃ D, degeneracyLoop fs (full [R, R] (some 1)) = .ok D ∧ DegeneracyOk D fs sizes R := by
  have e : (full [R, R] (some 1) : NDArray (Option ℝ)) = ofMat R R fun _ _ => some ((fun _ _ => 1 : ℕ → ℕ → ℝ) 0 0) := rfl
  rw [e, degeneracyLoop_eq h h0 fun _ _ => 1]
  refine ⟨_, rfl, rfl, fun r hr s hs => ?_, fun r hr s hs => ?_, fun r hr => ?_, fun r hr s hs x hx => ?_⟩
  · rw [get_ofMat hr hs, one_mul]
  · rw [get_ofMat hr hs, get_ofMat hs hr, cosineProd_comm]
  · rw [get_ofMat hr hr, cosineProd_self hr h0, one_mul]
  · rw [get_ofMat hr hs, one_mul] at hx
    obtain rfl := Option.some.inj hx
    exact abs_le.1 (abs_cosineProd_le r s fs sizes)

/-- **C65** for Kruskal tensors: the scores are the products of the cosines over the modes; the matrix is symmetric with
ones on the diagonal and entries between -1 and 1. -/
theorem C65_kruskal {t : KruskalTensor} {sizes : List ℕ} {R : ℕ} (h : t.WF sizes R)
    (h0 : NoZeroColumn t.factorMatrices sizes R) :
    ∃ D, t.degeneracy = .ok D ∧ DegeneracyOk D t.factorMatrices sizes R := by
  rw [KruskalTensor.degeneracy, h.rank]
  exact degeneracy_ok h.factors h0

/-- Stacking matrices with the same number of columns. -/
theorem vcatAll_ok {R : ℕ} : ∀ {Bs : List (NDArray ℝ)} {Js : List ℕ}, Factors Bs Js R → Bs ≠ [] →
    ∃ U, vcatAll Bs = .ok U ∧ U.shape = [Js.sum, R] ∧ ∀ (f : ℝ → ℝ → ℝ) (r s : ℕ), r < R → s < R →
      ∑ i ∈ Finset.range Js.sum, f (U.get [i, r]) (U.get [i, s])
        = modeSum (fun B J => ∑ i ∈ Finset.range J, f (B.get [i, r]) (B.get [i, s])) Bs Js := by
  have key : ∀ {Bs : List (NDArray ℝ)} {Js : List ℕ}, Factors Bs Js R → ∀ {U : NDArray ℝ} {J : ℕ}, U.shape = [J, R] →
      ∃ V, Bs.foldlM (init := U) vcat = .ok V ∧ V.shape = [J + Js.sum, R] ∧ ∀ (f : ℝ → ℝ → ℝ) (r s : ℕ), r < R →
        s < R → ∑ i ∈ Finset.range (J + Js.sum), f (V.get [i, r]) (V.get [i, s])
          = ∑ i ∈ Finset.range J, f (U.get [i, r]) (U.get [i, s])
            + modeSum (fun B J => ∑ i ∈ Finset.range J, f (B.get [i, r]) (B.get [i, s])) Bs Js := by
    intro Bs Js h
    induction h with
    | nil => intro U J hU; exact ⟨U, rfl, by simpa using hU, fun f r s _ _ => by simp [modeSum]⟩
    | @cons B J' Bs Js h1 h2 ih =>
      intro U J hU
      rw [List.foldlM_cons, vcat_ok hU h1, bind_ok]
      obtain ⟨V, e, hV, hs⟩ := ih (U := ofMat (J + J') R fun i j => if i < J then U.get [i, j] else B.get [i - J, j]) rfl
      refine ⟨V, e, by rw [hV, List.sum_cons, add_assoc], fun f r s hr hs' => ?_⟩
      rw [List.sum_cons, ← add_assoc, hs f r s hr hs', modeSum, ← add_assoc]
      congr 1
      rw [Finset.sum_range_add]
      congr 1
      · refine Finset.sum_congr rfl fun i hi => ?_
        have hi := Finset.mem_range.1 hi
        rw [get_ofMat (by omega) hr, get_ofMat (by omega) hs', if_pos hi, if_pos hi]
      · refine Finset.sum_congr rfl fun i hi => ?_
        have hi := Finset.mem_range.1 hi
        rw [get_ofMat (by omega) hr, get_ofMat (by omega) hs', if_neg (by omega), if_neg (by omega)]
        simp
  intro Bs Js h hne
  cases h with
  | nil => exact absurd rfl hne
  | @cons B J Bs Js h1 h2 =>
    obtain ⟨V, e, hV, hs⟩ := key h2 h1
    exact ⟨V, e, by rw [hV, List.sum_cons], fun f r s hr hs' => by rw [List.sum_cons, hs f r s hr hs', modeSum]⟩

/-- The angles in mode 1 of an evolving tensor are between the columns of all evolving factor matrices together. -/
def stackedCosine (Bs : List (NDArray ℝ)) (Js : List ℕ) (r s : ℕ) : ℝ :=
  modeSum (fun B J => ∑ i ∈ Finset.range J, B.get [i, r] * B.get [i, s]) Bs Js
    / (√(modeSum (fun B J => ∑ i ∈ Finset.range J, B.get [i, r] ^ 2) Bs Js)
      * √(modeSum (fun B J => ∑ i ∈ Finset.range J, B.get [i, s] ^ 2) Bs Js))

theorem modeSum_zero_iff {g : NDArray ℝ → ℕ → ℝ} (hg : ∀ F m, 0 ≤ g F m) : ∀ (Bs : List (NDArray ℝ)) (Js : List ℕ),
    0 ≤ modeSum g Bs Js ∧ ∀ B J, (B, J) ∈ Bs.zip Js → g B J ≤ modeSum g Bs Js
  | [], _ => by simp [modeSum]
  | _ :: _, [] => by simp [modeSum]
  | B :: Bs, J :: Js => by
    obtain ⟨h1, h2⟩ := modeSum_zero_iff hg Bs Js
    refine ⟨add_nonneg (hg _ _) h1, fun B' J' hm => ?_⟩
    rw [List.zip_cons_cons, List.mem_cons] at hm
    rcases hm with h | h
    · obtain ⟨rfl, rfl⟩ := Prod.mk.inj h
      simp only [modeSum]; linarith
    · have := h2 B' J' h
      have := hg B J
      simp only [modeSum]; linarith

/-- **C65** for evolving tensors whose evolving factor matrices are `B_k` with `Js[k]` rows. No column of `A` or `C` is
zero, and for each component at least one `B_k` has a non-zero column. -/
theorem C65_evolving {t : EvolvingTensor} {I K R : ℕ} {Js : List ℕ} (hr : t.rank = R) (hA : t.A.shape = [I, R])
    (hB : Factors t.B Js R) (hne : t.B ≠ []) (hC : t.C.shape = [K, R]) (zA : ∀ r < R, ∃ i < I, t.A.get [i, r] ≠ 0)
    (zC : ∀ r < R, ∃ i < K, t.C.get [i, r] ≠ 0)
    (zB : ∀ r < R, ∃ B J, (B, J) ∈ t.B.zip Js ∧ ∃ i < J, B.get [i, r] ≠ 0) :
    ∃ D, t.degeneracy = .ok D ∧ D.shape = [R, R] ∧ (∀ r < R, ∀ s < R, D.get [r, s]
        = some (cosine t.A I r s * (stackedCosine t.B Js r s * cosine t.C K r s))) ∧
      (∀ r < R, ∀ s < R, D.get [r, s] = D.get [s, r]) ∧ (∀ r < R, D.get [r, r] = some 1) ∧
      ∀ r < R, ∀ s < R, ∀ x, D.get [r, s] = some x → -1 ≤ x ∧ x ≤ 1 := by
  obtain ⟨U, e, hU, hs⟩ := vcatAll_ok hB hne
  have zU : ∀ r < R, ∃ i < Js.sum, U.get [i, r] ≠ 0 := by
    intro r hr
    by_contra hcon
    push Not at hcon
    have h1 := hs (fun x _ => x ^ 2) r r hr hr
    rw [Finset.sum_eq_zero fun i hi => by rw [hcon i (Finset.mem_range.1 hi)]; simp] at h1
    obtain ⟨B, J, hm, i, hi, hx⟩ := zB r hr
    have h2 := (modeSum_zero_iff (g := fun B J => ∑ i ∈ Finset.range J, B.get [i, r] ^ 2)
      (fun _ _ => Finset.sum_nonneg fun _ _ => sq_nonneg _) t.B Js).2 B J hm
    rw [← h1] at h2
    have h3 := Finset.single_le_sum (f := fun i => B.get [i, r] ^ 2) (fun _ _ => sq_nonneg _) (Finset.mem_range.2 hi)
    have : 0 < B.get [i, r] ^ 2 := by positivity
    linarith
  obtain ⟨D, eD, ok⟩ := degeneracy_ok (fs := [t.A, U, t.C]) (sizes := [I, Js.sum, K]) (R := R)
    (.cons hA (.cons hU (.cons hC .nil))) (.cons zA (.cons zU (.cons zC .nil)))
  refine ⟨D, ?_, ok.shape, fun r hr s hs' => ?_, ok.symmetric, ok.diagonal, ok.bounded⟩
  · rw [EvolvingTensor.degeneracy, EvolvingTensor.BUnfolded, e, bind_ok, hr, eD]
  · rw [ok.entry r hr s hs']
    simp only [cosineProd, modeProd, mul_one]
    have : cosine U Js.sum r s = stackedCosine t.B Js r s := by
      rw [cosine, stackedCosine, colDot, colLen, colLen, hs (fun x y => x * y) r s hr hs',
        hs (fun x _ => x ^ 2) r r hr hr, hs (fun x _ => x ^ 2) s s hs' hs']
    rw [this]

/-- A zero column makes its row and column of the scores `nan`. -/
theorem degeneracyLoop_nan {R : ℕ} : ∀ {fs : List (NDArray ℝ)} {sizes : List ℕ} (_ : Factors fs sizes R)
    (f : ℕ → ℕ → Option ℝ), ∃ D, degeneracyLoop fs (ofMat R R f) = .ok D ∧ D.shape = [R, R] ∧
      ∀ r < R, ∀ s < R, (f r s = none ∨ ∃ F m, (F, m) ∈ fs.zip sizes ∧ 0 < m ∧ (colLen F m r = 0 ∨ colLen F m s = 0)) →
        D.get [r, s] = none
  | [], [], _, f => ⟨_, rfl, rfl, fun r hr s hs h => by
      rw [get_ofMat hr hs]
      rcases h with h | ⟨F, m, h, -⟩
      · exact h
      · simp at h⟩
  | [], _ :: _, h, _ => by cases h
  | _ :: _, [], h, _ => by cases h
  | F :: fs, m :: ms, h, f => by
    cases h with
    | cons h1 h2 =>
      rw [degeneracy_step h1]
      obtain ⟨D, e, hD, hn⟩ := degeneracyLoop_nan h2 fun r s => mulNan (f r s)
        (if 0 < m ∧ (colLen F m r = 0 ∨ colLen F m s = 0) then none else some (cosine F m r s))
      refine ⟨D, e, hD, fun r hr s hs h => hn r hr s hs ?_⟩
      rcases h with h | ⟨G, k, hG, hk, hz⟩
      · left; rw [h]; rfl
      · rw [List.zip_cons_cons, List.mem_cons] at hG
        rcases hG with h | h
        · obtain ⟨rfl, rfl⟩ := Prod.mk.inj h
          left
          rw [if_pos ⟨hk, hz⟩]
          cases f r s <;> rfl
        · exact .inr ⟨G, k, h, hk, hz⟩

/-- **C65**, the excluded case: if column `r` of one of the factor matrices is zero, every score of component `r` is
`nan`. -/
theorem C65_zero_column {t : KruskalTensor} {sizes : List ℕ} {R r : ℕ} (h : t.WF sizes R) (hr : r < R) {F : NDArray ℝ}
    {m : ℕ} (hm : 0 < m) (hF : (F, m) ∈ t.factorMatrices.zip sizes) (hz : ∀ i < m, F.get [i, r] = 0) :
    ∃ D, t.degeneracy = .ok D ∧ ∀ s < R, D.get [r, s] = none ∧ D.get [s, r] = none := by
  rw [KruskalTensor.degeneracy, h.rank]
  have z : colLen F m r = 0 := by
    rw [colLen, Finset.sum_eq_zero fun i hi => by rw [hz i (Finset.mem_range.1 hi)]; simp, Real.sqrt_zero]
  obtain ⟨D, e, -, hn⟩ := degeneracyLoop_nan h.factors fun _ _ => some 1
  exact ⟨D, e, fun s hs => ⟨hn r hr s hs (.inr ⟨F, m, hF, hm, .inl z⟩), hn s hs r hr (.inr ⟨F, m, hF, hm, .inr z⟩)⟩⟩

/-- Two components that point in opposite directions in one mode: score -1. -/
example : ∃ t : KruskalTensor, t.WF [1, 1] 2 ∧ NoZeroColumn t.factorMatrices [1, 1] 2 ∧
    cosineProd t.factorMatrices [1, 1] 0 1 = -1 := by
  refine ⟨⟨2, [ofMat 1 2 fun _ j => if j = 0 then 2 else -3, ofMat 1 2 fun _ _ => 1], full [2] 1⟩,
    ⟨rfl, .cons rfl (.cons rfl .nil), rfl⟩, .cons (fun r hr => ⟨0, one_pos, ?_⟩) (.cons (fun r hr => ⟨0, one_pos, ?_⟩) .nil),
    ?_⟩
  · rw [get_ofMat one_pos hr]; split <;> norm_num
  · rw [get_ofMat one_pos hr]; norm_num
  · have h1 : √(2 ^ 2 : ℝ) = 2 := Real.sqrt_sq (by norm_num)
    have h2 : √((-3) ^ 2 : ℝ) = 3 := by rw [Real.sqrt_sq_eq_abs]; norm_num
    simp only [cosineProd, modeProd, cosine, colDot, colLen, Finset.sum_range_one]
    rw [get_ofMat one_pos (by norm_num), get_ofMat one_pos (by norm_num), get_ofMat one_pos (by norm_num),
      get_ofMat one_pos (by norm_num)]
    simp only [if_true, one_ne_zero, if_false, h1, h2]
    norm_num

/-! ### C64: leverage -/

theorem indep_mulVec {F : NDArray ℝ} {m n : ℕ} (h : IndepColumns F m n) (v : Fin n → ℝ)
    (hv : (mat F m n).mulVec v = 0) : v = 0 := by
  have := h (fun j => if hj : j < n then v ⟨j, hj⟩ else 0) fun i hi => by
    have e := congrFun hv ⟨i, hi⟩
    simp only [Matrix.mulVec, dotProduct, mat, Pi.zero_apply] at e
    rw [Finset.sum_range]
    simpa using e
  funext j
  simpa using this j j.2

theorem gram_det_ne_zero {m n : ℕ} {M : Matrix (Fin m) (Fin n) ℝ} (h : ∀ v, M.mulVec v = 0 → v = 0) :
    (M.transpose * M).det ≠ 0 := by
  intro hd
  obtain ⟨v, hv, h0⟩ := Matrix.exists_mulVec_eq_zero_iff.2 hd
  refine hv (h v ?_)
  have : dotProduct (M.mulVec v) (M.mulVec v) = 0 := by
    rw [← Matrix.mulVec_mulVec] at h0
    rw [Matrix.dotProduct_mulVec, ← Matrix.mulVec_transpose, h0, zero_dotProduct]
  exact dotProduct_self_eq_zero.1 this

/-- **C64.** For a matrix with linearly independent columns, `leverage` returns one number per row, all of them between 0
and 1, and their sum is the number of columns. -/
theorem C64_leverage {F : NDArray ℝ} {m n : ℕ} (h : F.shape = [m, n]) (hi : IndepColumns F m n) :
    ∃ L, leverage F = .ok L ∧ L.shape = [m] ∧ (∀ i < m, 0 ≤ L.get [i] ∧ L.get [i] ≤ 1) ∧
      ∑ i ∈ Finset.range m, L.get [i] = n := by
  obtain ⟨G, eG, hG, mG⟩ := matmul_mat (shape_T h) h
  rw [mat_T h] at mG
  have hdet : (mat G n n).det ≠ 0 := by rw [mG]; exact gram_det_ne_zero (indep_mulVec hi)
  have eI : npInv G = .ok (ofMatrix (mat G n n)⁻¹) := by
    rw [npInv, dims2, hG]
    simp only [bind_ok, ne_eq, not_true, if_false, hdet]
    rfl
  have hI : (ofMatrix (mat G n n)⁻¹).shape = [n, n] := rfl
  obtain ⟨L, eL, hL, mL⟩ := matmul_mat h (shape_T hI)
  obtain ⟨H, eH, hH, mH⟩ := matmul_mat hL (shape_T h)
  rw [mL, mat_T hI, mat_ofMatrix, mat_T h] at mH
  set M := mat F m n with hM
  set g := mat G n n with hg
  have gT : g.transpose = g := by rw [mG]; simp
  have giT : (g⁻¹).transpose = g⁻¹ := by rw [Matrix.transpose_nonsing_inv, gT]
  rw [giT] at mH
  have hu : IsUnit g.det := isUnit_iff_ne_zero.2 hdet
  have sym : (mat H m m).transpose = mat H m m := by
    rw [mH]; simp only [Matrix.transpose_mul, Matrix.transpose_transpose, giT, Matrix.mul_assoc]
  have idem : mat H m m * mat H m m = mat H m m := by
    rw [mH]
    calc M * g⁻¹ * M.transpose * (M * g⁻¹ * M.transpose)
        = M * (g⁻¹ * (M.transpose * M)) * g⁻¹ * M.transpose := by simp only [Matrix.mul_assoc]
      _ = M * g⁻¹ * M.transpose := by rw [← mG, Matrix.nonsing_inv_mul _ hu, Matrix.mul_one]
  have diag : ∀ i : Fin m, (npDiagonal H).get [(i : ℕ)] = mat H m m i i := fun i => by
    rw [npDiagonal, hH, get_ofFn (by simp)]; rfl
  refine ⟨npDiagonal H, ?_, by simp [npDiagonal, hH], fun i hi => ?_, ?_⟩
  · rw [leverage, eG, bind_ok, eI, bind_ok, eL, bind_ok, eH, bind_ok]; rfl
  · have e := diag ⟨i, hi⟩
    have hs : mat H m m ⟨i, hi⟩ ⟨i, hi⟩ = ∑ j, mat H m m ⟨i, hi⟩ j ^ 2 := by
      conv_lhs => rw [← idem, Matrix.mul_apply]
      refine Finset.sum_congr rfl fun j _ => ?_
      rw [sq]; congr 1
      exact congrFun (congrFun sym ⟨i, hi⟩) j
    have h1 := Finset.single_le_sum (f := fun j => mat H m m ⟨i, hi⟩ j ^ 2) (fun _ _ => sq_nonneg _)
      (Finset.mem_univ (⟨i, hi⟩ : Fin m))
    have h2 : 0 ≤ ∑ j, mat H m m ⟨i, hi⟩ j ^ 2 := Finset.sum_nonneg fun _ _ => sq_nonneg _
    rw [← hs] at h1 h2
    simp only at e
    rw [e]
    exact ⟨h2, by nlinarith⟩
  · rw [Finset.sum_range, Finset.sum_congr rfl fun i _ => diag i]
    have : ∑ i, mat H m m i i = (mat H m m).trace := rfl
    rw [this, mH, Matrix.mul_assoc, Matrix.trace_mul_comm, Matrix.mul_assoc, ← mG, Matrix.nonsing_inv_mul _ hu]
    simp

/-- **C64**, the excluded case: linearly dependent columns raise `LinAlgError`. -/
theorem C64_dependent {F : NDArray ℝ} {m n : ℕ} (h : F.shape = [m, n]) (hi : ¬ IndepColumns F m n) :
    leverage F = .error .linAlgError := by
  obtain ⟨G, eG, hG, mG⟩ := matmul_mat (shape_T h) h
  rw [mat_T h] at mG
  have hdet : (mat G n n).det = 0 := by
    rw [IndepColumns] at hi
    push Not at hi
    obtain ⟨v, hv, j, hj, hne⟩ := hi
    refine Matrix.exists_mulVec_eq_zero_iff.1 ⟨fun j => v j, fun h0 => hne (congrFun h0 ⟨j, hj⟩), ?_⟩
    have : (mat F m n).mulVec (fun j => v j) = 0 := by
      funext i
      have := hv i i.2
      rw [Finset.sum_range] at this
      simpa [Matrix.mulVec, dotProduct, mat] using this
    rw [mG, ← Matrix.mulVec_mulVec, this, Matrix.mulVec_zero]
  rw [leverage, eG, bind_ok, npInv, dims2, hG]
  simp only [bind_ok, ne_eq, not_true, if_false, hdet, if_true, bind_error]

example : ∃ F : NDArray ℝ, F.shape = [3, 2] ∧ IndepColumns F 3 2 := by
  refine ⟨ofMat 3 2 fun i j => if i = j then 1 else 2, rfl, fun v h j hj => ?_⟩
  have h0 := h 0 (by norm_num)
  have h1 := h 1 (by norm_num)
  rw [Finset.sum_range_succ, Finset.sum_range_one, get_ofMat (by norm_num) (by norm_num),
    get_ofMat (by norm_num) (by norm_num)] at h0 h1
  norm_num at h0 h1
  interval_cases j <;> linarith

/-! ### C66: explained variance and completion scores -/

theorem sumSq_eq_zero_iff {s : List ℕ} {f : List ℕ → ℝ} : sumIdx s (fun idx => f idx ^ 2) = 0 ↔ ∀ idx, Valid s idx → f idx = 0 := by
  induction s generalizing f with
  | nil => simp [sumIdx]
  | cons n s ih =>
    rw [sumIdx, Finset.sum_eq_zero_iff_of_nonneg fun _ _ => sumIdx_nonneg fun _ _ => sq_nonneg _]
    constructor
    · intro h idx hidx
      obtain ⟨i, is, rfl, hi, his⟩ := valid_cons_iff.1 hidx
      exact (ih (f := fun is => f (i :: is))).1 (h i (Finset.mem_range.2 hi)) is his
    · intro h i hi
      exact (ih (f := fun is => f (i :: is))).2 fun is his => h _ (valid_cons_iff.2 ⟨i, is, rfl, Finset.mem_range.1 hi, his⟩)

theorem sumSqDiff_eq_zero_iff {X Y : NDArray ℝ} (h : X.shape = Y.shape) : sumSqDiff X Y = 0 ↔ X = Y := by
  rw [sumSqDiff, sumSq_eq_zero_iff]
  constructor
  · intro h0
    exact ext_get h fun idx hidx => sub_eq_zero.1 (h0 idx hidx)
  · rintro rfl idx _
    exact sub_self _

theorem oneSub_div {a b : ℝ} (ha : 0 ≤ a) (hb : 0 < b) :
    (FV.div a b).oneSub = .fin (1 - a / b) ∧ 1 - a / b ≤ 1 ∧ (1 - a / b = 1 ↔ a = 0) := by
  refine ⟨by rw [FV.div, if_pos hb.ne']; rfl, by have := div_nonneg ha hb.le; linarith, ?_⟩
  rw [sub_eq_self, div_eq_zero_iff]
  simp [hb.ne']

/-- **C66.** `percent_explained` is `1 - SSE/SSX`, at most 1, and equal to 1 exactly when the two tensors are equal. -/
theorem C66_percent_explained {X Y : NDArray ℝ} (h : X.shape = Y.shape) (h0 : ∃ idx, Valid X.shape idx ∧ X.get idx ≠ 0) :
    ∃ v, percentExplained X Y = .ok (.fin v) ∧ v = 1 - sumSqDiff X Y / sumSq X ∧ v ≤ 1 ∧ (v = 1 ↔ X = Y) := by
  obtain ⟨D, e, hD, hDg⟩ := zipB_sub_shape (· - ·) h
  have hX : 0 < sumSq X := by
    refine lt_of_le_of_ne (sumIdx_nonneg fun _ _ => sq_nonneg _) fun hz => ?_
    obtain ⟨idx, hi, hne⟩ := h0
    exact hne (sumSq_eq_zero_iff.1 hz.symm idx hi)
  have hN : frobNorm D ^ 2 = sumSqDiff X Y := by
    rw [frobNorm_sq, hD]
    exact sumIdx_congr fun idx hidx => by rw [hDg idx hidx]
  obtain ⟨e1, e2, e3⟩ := oneSub_div (a := sumSqDiff X Y) (sumIdx_nonneg fun _ _ => sq_nonneg _) hX
  refine ⟨_, ?_, rfl, e2, e3.trans (sumSqDiff_eq_zero_iff h)⟩
  rw [percentExplained, e, bind_ok, hN, frobNorm_sq]
  exact congrArg Except.ok e1

/-- **C66**, the excluded case: for `X = 0` the result is `nan` when the reconstruction is exact and `-inf` otherwise. -/
theorem C66_zero_tensor {X Y : NDArray ℝ} (h : X.shape = Y.shape) (h0 : ∀ idx, Valid X.shape idx → X.get idx = 0) :
    (X = Y → percentExplained X Y = .ok .nan) ∧ (X ≠ Y → percentExplained X Y = .ok .ninf) := by
  obtain ⟨D, e, hD, hDg⟩ := zipB_sub_shape (· - ·) h
  have hX : frobNorm X ^ 2 = 0 := by rw [frobNorm_sq]; exact sumSq_eq_zero_iff.2 h0
  have hN : frobNorm D ^ 2 = sumSqDiff X Y := by
    rw [frobNorm_sq, hD]
    exact sumIdx_congr fun idx hidx => by rw [hDg idx hidx]
  have hpos : 0 ≤ sumSqDiff X Y := sumIdx_nonneg fun _ _ => sq_nonneg _
  have hp : percentExplained X Y = .ok (FV.div (sumSqDiff X Y) 0).oneSub := by
    rw [percentExplained, e, bind_ok, hN, hX]; rfl
  constructor
  · intro hxy
    rw [hp, (sumSqDiff_eq_zero_iff h).2 hxy]
    simp [FV.div, FV.oneSub]
  · intro hxy
    have : 0 < sumSqDiff X Y := lt_of_le_of_ne hpos fun h1 => hxy ((sumSqDiff_eq_zero_iff h).1 h1.symm)
    rw [hp]
    simp [FV.div, FV.oneSub, this]

/-- **C66.** `explained_variance` of a `CP_ALS` object whose cached quantities are consistent (which they are at every
moment of the first fit, C35) is at most 1, and equal to 1 exactly when the decomposition reproduces the data. -/
theorem C66_explained_variance {s : CPState} {R : ℕ} (h : s.Sized R) (hc : s.Cached R)
    (h0 : ∃ idx, Valid s.X.shape idx ∧ s.X.get idx ≠ 0) :
    ∃ v, CP.explainedVariance s = .ok (.fin v) ∧ v = 1 - s.trueSSE R / sumSq s.X ∧ v ≤ 1 ∧
      (v = 1 ↔ s.dec.constructTensor = .ok s.X) := by
  have hX : 0 < sumSq s.X := by
    refine lt_of_le_of_ne (sumIdx_nonneg fun _ _ => sq_nonneg _) fun hz => ?_
    obtain ⟨idx, hi, hne⟩ := h0
    exact hne (sumSq_eq_zero_iff.1 hz.symm idx hi)
  have hn : s.XNorm ^ 2 = sumSq s.X := by rw [hc.norm, Real.sq_sqrt (sumIdx_nonneg fun _ _ => sq_nonneg _)]; rfl
  obtain ⟨e1, e2, e3⟩ := oneSub_div (a := s.trueSSE R) (sumIdx_nonneg fun _ _ => sq_nonneg _) hX
  refine ⟨_, ?_, rfl, e2, e3.trans ?_⟩
  · rw [CP.explainedVariance, C35_sse h hc, bind_ok, hn]
    exact congrArg Except.ok e1
  · rw [constructTensor_eq h.wf h.order, CPState.trueSSE, sqErr, sumSq_eq_zero_iff]
    constructor
    · intro hz
      refine congrArg Except.ok ?_
      rw [eq_ofFn s.X]
      exact ofFn_congr fun idx hidx => (sub_eq_zero.1 (hz idx hidx)).symm
    · intro hz idx hidx
      have hz := Except.ok.inj hz
      have : s.X.get idx = cpEntry (fun r => s.dec.weights.get [r]) s.dec.factorMatrices R idx := by
        conv_lhs => rw [← hz]
        exact get_ofFn hidx
      rw [this, sub_self]

/-- **C66.** `tensor_completion_score` does not depend on the entries where `W = 1`. -/
theorem C66_completion_mask {X X' Y Y' W : NDArray ℝ} (hX : X.shape = W.shape) (hX' : X'.shape = W.shape)
    (hY : Y.shape = W.shape) (hY' : Y'.shape = W.shape)
    (h : ∀ idx, Valid W.shape idx → W.get idx ≠ 1 → X.get idx = X'.get idx ∧ Y.get idx = Y'.get idx) :
    tensorCompletionScore X Y W = tensorCompletionScore X' Y' W := by
  obtain ⟨D, e, hD, hDg⟩ := zipB_sub_shape (A := X) (B := Y) (· - ·) (hX.trans hY.symm)
  obtain ⟨D', e', hD', hDg'⟩ := zipB_sub_shape (A := X') (B := Y') (· - ·) (hX'.trans hY'.symm)
  have hM : (W.map (1 - ·)).shape = W.shape := rfl
  obtain ⟨N, f1, hN, hNg⟩ := zipB_sub_shape (A := W.map (1 - ·)) (B := D) (· * ·) (hM.trans (hD.trans hX).symm)
  obtain ⟨N', f2, hN', hNg'⟩ := zipB_sub_shape (A := W.map (1 - ·)) (B := D') (· * ·) (hM.trans (hD'.trans hX').symm)
  obtain ⟨P, g1, hP, hPg⟩ := zipB_sub_shape (A := W.map (1 - ·)) (B := X) (· * ·) (hM.trans hX.symm)
  obtain ⟨P', g2, hP', hPg'⟩ := zipB_sub_shape (A := W.map (1 - ·)) (B := X') (· * ·) (hM.trans hX'.symm)
  have hNN : N = N' := by
    refine ext_get (hN.trans hN'.symm) fun idx hidx => ?_
    have hidx : Valid W.shape idx := hN ▸ hidx
    rw [hNg idx hidx, hNg' idx hidx, hDg idx (hX ▸ hidx), hDg' idx (hX' ▸ hidx), get_map _ _ hidx]
    by_cases hw : W.get idx = 1
    · simp [hw]
    · rw [(h idx hidx hw).1, (h idx hidx hw).2]
  have hPP : P = P' := by
    refine ext_get (hP.trans hP'.symm) fun idx hidx => ?_
    have hidx : Valid W.shape idx := hP ▸ hidx
    rw [hPg idx hidx, hPg' idx hidx, get_map _ _ hidx]
    by_cases hw : W.get idx = 1
    · simp [hw]
    · rw [(h idx hidx hw).1]
  simp only [tensorCompletionScore, e, e', bind_ok, f1, f2, g1, g2, hNN, hPP]

/-- **C66.** For a mask of zeros and ones, `tensor_completion_score` is the relative error over the missing entries. -/
theorem C66_completion_value {X Y W : NDArray ℝ} (hX : X.shape = W.shape) (hY : Y.shape = W.shape)
    (hW : ∀ idx, Valid W.shape idx → W.get idx = 0 ∨ W.get idx = 1)
    (h0 : sumSqMissing W X.get ≠ 0) :
    tensorCompletionScore X Y W
      = .ok (.fin (√(sumSqMissing W fun idx => X.get idx - Y.get idx) / √(sumSqMissing W X.get))) := by
  obtain ⟨D, e, hD, hDg⟩ := zipB_sub_shape (A := X) (B := Y) (· - ·) (hX.trans hY.symm)
  have hM : (W.map (1 - ·)).shape = W.shape := rfl
  obtain ⟨N, f1, hN, hNg⟩ := zipB_sub_shape (A := W.map (1 - ·)) (B := D) (· * ·) (hM.trans (hD.trans hX).symm)
  obtain ⟨P, g1, hP, hPg⟩ := zipB_sub_shape (A := W.map (1 - ·)) (B := X) (· * ·) (hM.trans hX.symm)
  have hn : frobNorm N = √(sumSqMissing W fun idx => X.get idx - Y.get idx) := by
    rw [frobNorm, sum_data, hN]
    congr 1
    refine sumIdx_congr fun idx hidx => ?_
    have hidx : Valid W.shape idx := hidx
    rw [hNg idx hidx, hDg idx (hX ▸ hidx), get_map _ _ hidx]
    rcases hW idx hidx with h | h <;> simp [h]
  have hp : frobNorm P = √(sumSqMissing W X.get) := by
    rw [frobNorm, sum_data, hP]
    congr 1
    refine sumIdx_congr fun idx hidx => ?_
    have hidx : Valid W.shape idx := hidx
    rw [hPg idx hidx, get_map _ _ hidx]
    rcases hW idx hidx with h | h <;> simp [h]
  simp only [tensorCompletionScore, e, bind_ok, f1, g1, hn, hp]
  rw [FV.div, if_pos]
  · rfl
  · rw [Real.sqrt_ne_zero']
    refine lt_of_le_of_ne (sumIdx_nonneg fun idx _ => ?_) h0.symm
    split
    · positivity
    · exact le_rfl

example : ∃ X Y W : NDArray ℝ, X.shape = W.shape ∧ Y.shape = W.shape ∧
    (∀ idx, Valid W.shape idx → W.get idx = 0 ∨ W.get idx = 1) ∧ X ≠ Y ∧ (∃ idx, Valid X.shape idx ∧ X.get idx ≠ 0) ∧
    sumSqMissing W X.get ≠ 0 := by
  have v0 : Valid [2] [0] := by simp
  have v1 : Valid [2] [1] := by simp
  refine ⟨ofFn [2] fun _ => 3, ofFn [2] fun _ => 1, ofFn [2] fun idx => idx.getD 0 0, rfl, rfl, fun idx hidx => ?_,
    fun h => ?_, ⟨[0], v0, ?_⟩, ?_⟩
  · obtain ⟨i, is, rfl, hi, his⟩ := valid_cons_iff.1 hidx
    simp at his; subst his
    rw [get_ofFn (s := [2]) hidx]
    interval_cases i <;> simp
  · have := congrArg (fun A => A.get [0]) h
    simp only [get_ofFn v0] at this
    norm_num at this
  · rw [get_ofFn v0]; norm_num
  · have : sumSqMissing (ofFn [2] fun idx => ((idx.getD 0 0 : ℕ) : ℝ)) (ofFn [2] fun _ => (3 : ℝ)).get = 9 := by
      simp only [sumSqMissing, shape_ofFn, sumIdx, Finset.sum_range_succ, Finset.sum_range_zero, get_ofFn v0, get_ofFn v1]
      norm_num
    rw [this]; norm_num

/-! ### C67: mean squared error -/

/-- **C67** for `CP_ALS`: the mean squared error is the sum of squared errors over the number of entries. (For
`Parafac2_ALS` and `CMTF_ALS` see `C67_parafac2_fails` and `C67_cmtf_fails`.) -/
theorem C67_cp_partial {s : CPState} {R : ℕ} (h : s.Sized R) (hc : s.Cached R) (h0 : s.X.shape.prod ≠ 0) :
    CP.mse s = .ok (.fin (s.trueSSE R / s.X.shape.prod)) := by
  rw [CP.mse, C35_sse h hc, bind_ok, FV.div, if_pos (by exact_mod_cast h0)]
  rfl

/-- **C67** for `CP_ALS`: the root mean squared error `v` is the non-negative number with `v² · entries = SSE`. -/
theorem C67_cp_rmse {s : CPState} {R : ℕ} (h : s.Sized R) (hc : s.Cached R) (h0 : s.X.shape.prod ≠ 0) :
    ∃ v, CP.rmse s = .ok (.fin v) ∧ 0 ≤ v ∧ v ^ 2 * s.X.shape.prod = s.trueSSE R := by
  have h1 : 0 ≤ s.trueSSE R := sumIdx_nonneg fun _ _ => sq_nonneg _
  have h2 : (0 : ℝ) < s.X.shape.prod := by exact_mod_cast Nat.pos_of_ne_zero h0
  have h3 : 0 ≤ s.trueSSE R / s.X.shape.prod := by positivity
  refine ⟨Real.sqrt (s.trueSSE R / s.X.shape.prod), ?_, Real.sqrt_nonneg _, ?_⟩
  · rw [CP.rmse, C67_cp_partial h hc h0, bind_ok, FV.sqrt, if_pos h3]; rfl
  · rw [Real.sq_sqrt h3, div_mul_cancel₀ _ h2.ne']

/-! ### C71: factor match score of PARAFAC2 factors -/

/-- **C71, what holds.** `factor_match_score_parafac2` is the best score over all assignments for the modes 0 and 2.
Missing: mode 1 (`C71_evolving_ignored`, `C71_fails`). -/
theorem C71_two_modes_partial {eps : ℝ} (he : 0 < eps) {aA aC bA bC : NDArray ℝ} (aB bB : List (NDArray ℝ)) {I K R R' : ℕ}
    (hR : 0 < R) (hRR : R ≤ R') (h1 : aA.shape = [I, R]) (h2 : aC.shape = [K, R]) (h3 : bA.shape = [I, R'])
    (h4 : bC.shape = [K, R']) (useMin penalty : Bool) (hc : Comparable penalty [aA, aC] [bA, bC] [I, K] R R') :
    ∃ v π, factorMatchScoreParafac2 aA aB aC bA bB bC penalty (redName useMin) eps = .ok (v, some π) ∧ 0 ≤ v ∧ v ≤ 1 ∧
      IsBest useMin penalty eps [aA, aC] [bA, bC] [I, K] R R' v π :=
  C26_factor_match_score he hR hRR (.cons h1 (.cons h2 .nil)) (.cons h3 (.cons h4 .nil)) (by simp) useMin penalty hc

/-- **C71, refuted.** The evolving factor matrices of both arguments are ignored. -/
theorem C71_evolving_ignored (aA aC bA bC : NDArray ℝ) (aB aB' bB bB' : List (NDArray ℝ)) (penalty : Bool) (s : String)
    (eps : ℝ) : factorMatchScoreParafac2 aA aB aC bA bB bC penalty s eps
      = factorMatchScoreParafac2 aA aB' aC bA bB' bC penalty s eps := rfl

/-- **C71, refuted**, a concrete case: the evolving factor matrices of truth and estimate are orthogonal to each other,
but the score exceeds nine tenths. -/
theorem C71_fails : ∃ (A B B' C : NDArray ℝ) (v : ℝ) (π : List ℕ), B.shape = [2, 1] ∧ B'.shape = [2, 1] ∧
    colDot B B' 2 0 0 = 0 ∧ colLen B 2 0 = 1 ∧ colLen B' 2 0 = 1 ∧
    factorMatchScoreParafac2 A [B] C A [B'] C = .ok (v, some π) ∧ 9 / 10 < v := by
  refine ⟨(ofMat 1 1 fun _ _ => 1), (ofMat 2 1 fun i _ => if i = 0 then 1 else 0), (ofMat 2 1 fun i _ => if i = 1 then 1 else 0),
    (ofMat 1 1 fun _ _ => 1), _, [0], rfl, rfl, ?_, ?_, ?_, tiny_score (x := 1) (y := 1) (by norm_num) (by norm_num) 1 1, ?_⟩
  · rw [colDot, Finset.sum_range_succ, Finset.sum_range_one]
    rw [get_ofMat (by norm_num) (by norm_num), get_ofMat (by norm_num) (by norm_num),
      get_ofMat (by norm_num) (by norm_num), get_ofMat (by norm_num) (by norm_num)]
    norm_num
  · rw [colLen, Finset.sum_range_succ, Finset.sum_range_one, get_ofMat (by norm_num) (by norm_num),
      get_ofMat (by norm_num) (by norm_num)]
    norm_num
  · rw [colLen, Finset.sum_range_succ, Finset.sum_range_one, get_ofMat (by norm_num) (by norm_num),
      get_ofMat (by norm_num) (by norm_num)]
    norm_num
  · rw [compMatch, if_pos rfl, congruenceProd_self (by norm_num), sizeMatch]
    simp only [tiny, modeProd, colLen_tiny (x := 1) (by norm_num)]
    norm_num

theorem unitColumns_ok {F : NDArray ℝ} {m R : ℕ} (h : F.shape = [m, R]) : ∃ U, unitColumns F = .ok U :=
  ⟨_, zipB_mat_vec _ (shape_colNorms h) h⟩

theorem unitColumns_all {R : ℕ} {Fs : List (NDArray ℝ)} {ms : List ℕ} (h : Factors Fs ms R) :
    ∃ Us, Fs.mapM unitColumns = .ok Us := by
  induction h with
  | nil => exact ⟨[], rfl⟩
  | cons h1 h2 ih =>
    obtain ⟨U, e⟩ := unitColumns_ok h1
    obtain ⟨Us, es⟩ := ih
    exact ⟨U :: Us, by rw [List.mapM_cons, e, bind_ok, es, bind_ok]; rfl⟩

/-- **C71, refuted.** `_factor_match_score_parafac2` with its default arguments raises `NotImplementedError`. -/
theorem C71_default_raises {aA aC bA bC : NDArray ℝ} {aB bB : List (NDArray ℝ)} {I I' K K' R R' : ℕ} {Js Js' : List ℕ}
    (h1 : aA.shape = [I, R]) (h2 : Factors aB Js R) (h3 : aC.shape = [K, R]) (h4 : bA.shape = [I', R'])
    (h5 : Factors bB Js' R') (h6 : bC.shape = [K', R']) :
    factorMatchScoresParafac2 aA aB aC bA bB bC = .error .notImplementedError := by
  obtain ⟨_, e1⟩ := unitColumns_ok h1
  obtain ⟨_, e2⟩ := unitColumns_all h2
  obtain ⟨_, e3⟩ := unitColumns_ok h3
  obtain ⟨_, e4⟩ := unitColumns_ok h4
  obtain ⟨_, e5⟩ := unitColumns_all h5
  obtain ⟨_, e6⟩ := unitColumns_ok h6
  rw [factorMatchScoresParafac2, cols_ok h1, bind_ok, e1, bind_ok, e2, bind_ok, e3, bind_ok, e4, bind_ok, e5, bind_ok, e6,
    bind_ok, if_pos rfl]

theorem unitColumns_get {F : NDArray ℝ} {m R : ℕ} (h : F.shape = [m, R]) : ∃ U, unitColumns F = .ok U ∧ U.shape = [m, R] ∧
    ∀ r < R, colDot U F m r r = colLen F m r := by
  refine ⟨_, zipB_mat_vec _ (shape_colNorms h) h, shape_ofMat _ _ _, fun r hr => ?_⟩
  have e : ∀ i ∈ Finset.range m, (ofMat m R fun i j => F.get [i, j] / (colNorms F).get [j]).get [i, r] * F.get [i, r]
      = F.get [i, r] ^ 2 / colLen F m r := by
    intro i hi
    rw [get_ofMat (Finset.mem_range.1 hi) hr, colNorms_get h hr]
    ring
  rw [colDot, Finset.sum_congr rfl e, ← Finset.sum_div]
  unfold colLen
  exact Real.div_sqrt

theorem congruenceLoop_unit {R r : ℕ} (hr : r < R) (nonneg : Bool) : ∀ {Fs : List (NDArray ℝ)} {ms : List ℕ} (_ : Factors Fs ms R),
    ∃ Us, Fs.mapM unitColumns = .ok Us ∧ Us.length = Fs.length ∧
      ∀ x, congruenceLoop nonneg r (Us.zip Fs) x = .ok (x * modeProd (fun F m => colLen F m r) Fs ms)
  | _, _, .nil => ⟨[], rfl, rfl, fun x => by simp [congruenceLoop, modeProd]⟩
  | F :: Fs, m :: ms, .cons h1 h2 => by
    obtain ⟨U, e1, s1, g1⟩ := unitColumns_get h1
    obtain ⟨Us, e2, l2, g2⟩ := congruenceLoop_unit hr nonneg h2
    refine ⟨U :: Us, by rw [List.mapM_cons, e1, bind_ok, e2, bind_ok]; rfl, by simp [l2], fun x => ?_⟩
    rw [List.zip_cons_cons, congruenceLoop, columnVec_ok s1 hr, bind_ok, columnVec_ok h1 hr, bind_ok, dotVec_columns, bind_ok,
      g1 r hr, g2]
    have h0 : 0 ≤ colLen F m r := Real.sqrt_nonneg _
    have : (if nonneg = true then |colLen F m r| else colLen F m r) = colLen F m r := by
      split
      · exact abs_of_nonneg h0
      · rfl
    rw [this, modeProd, mul_assoc]

/-- **C71, refuted.** What `_factor_match_score_parafac2` computes without the weight penalty: the score of component `r` is
the product of the lengths of the *estimated* columns, `‖A_r‖ ‖C_r‖ (Π_k ‖B_k,r‖)^(1/K)`. It is not a similarity at all. -/
theorem C71_score_is_length {aA aC bA bC : NDArray ℝ} {aB bB : List (NDArray ℝ)} {I I' K K' R R' : ℕ} {Js Js' : List ℕ}
    (h1 : aA.shape = [I, R]) (h2 : Factors aB Js R) (h3 : aC.shape = [K, R]) (h4 : bA.shape = [I', R'])
    (h5 : Factors bB Js' R') (h6 : bC.shape = [K', R']) (hR : R ≤ R') (hB : Js' ≠ []) (nonneg : Bool) :
    factorMatchScoresParafac2 aA aB aC bA bB bC false nonneg = .ok ((List.range R).map fun r =>
      colLen bA I' r * colLen bC K' r * modeProd (fun F m => colLen F m r) bB Js' ^ ((1 : ℝ) / Js'.length)) := by
  obtain ⟨_, e1⟩ := unitColumns_ok h1
  obtain ⟨_, e2⟩ := unitColumns_all h2
  obtain ⟨_, e3⟩ := unitColumns_ok h3
  obtain ⟨tA, e4⟩ := unitColumns_ok h4
  obtain ⟨tB, e5⟩ := unitColumns_all h5
  obtain ⟨tC, e6⟩ := unitColumns_ok h6
  rw [factorMatchScoresParafac2, cols_ok h1, bind_ok, e1, bind_ok, e2, bind_ok, e3, bind_ok, e4, bind_ok, e5, bind_ok, e6,
    bind_ok, if_neg (by simp)]
  apply mapM_ok
  intro r hr
  have hr : r < R' := lt_of_lt_of_le (List.mem_range.1 hr) hR
  obtain ⟨Us, f1, -, f3⟩ := congruenceLoop_unit (Fs := [bA, bC]) (ms := [I', K']) hr nonneg (.cons h4 (.cons h6 .nil))
  obtain ⟨Vs, k1, k2, k3⟩ := congruenceLoop_unit hr nonneg h5
  rw [e5] at k1
  injection k1 with k1
  subst k1
  have hU : Us = [tA, tC] := by
    rw [List.mapM_cons, e4, bind_ok, List.mapM_cons, e6, bind_ok, List.mapM_nil] at f1
    have f1 : (Except.ok [tA, tC] : Py _) = .ok Us := f1
    injection f1 with f1
    exact f1.symm
  subst hU
  have f4 := f3 1
  rw [List.zip_cons_cons, List.zip_cons_cons, List.zip_nil_left] at f4
  have hl : tB.length = Js'.length := by rw [k2, h5.length_eq]
  rw [f4, bind_ok, k3, bind_ok, if_neg (by rw [hl]; simpa using hB), hl]
  simp only [modeProd, one_mul, mul_one]
  rfl

/-- The hypotheses of `C71_score_is_length` hold, and the estimate compared with itself gets the score 8 rather than 1. -/
example : factorMatchScoresParafac2 (ofMat 1 1 fun _ _ => 2) [ofMat 1 1 fun _ _ => 2] (ofMat 1 1 fun _ _ => 2)
    (ofMat 1 1 fun _ _ => 2) [ofMat 1 1 fun _ _ => 2] (ofMat 1 1 fun _ _ => 2) false true = .ok [8] := by
  have hl : colLen (ofMat 1 1 fun _ _ => 2) 1 0 = 2 := by
    rw [colLen, Finset.sum_range_one, get_ofMat (by norm_num) (by norm_num), Real.sqrt_sq (by norm_num)]
  have := C71_score_is_length (aA := ofMat 1 1 fun _ _ => 2) (aB := [ofMat 1 1 fun _ _ => 2]) (aC := ofMat 1 1 fun _ _ => 2)
    (bA := ofMat 1 1 fun _ _ => 2) (bB := [ofMat 1 1 fun _ _ => 2]) (bC := ofMat 1 1 fun _ _ => 2) (R := 1) (R' := 1)
    (Js := [1]) (Js' := [1]) rfl (.cons rfl .nil) rfl rfl (.cons rfl .nil) rfl le_rfl (by simp) true
  rw [this]
  simp [List.range_succ, modeProd, hl]
  norm_num

/-- **C71, refuted.** Without the weight penalty the result of `_factor_match_score_parafac2` does not depend on the true
factors (only on their rank). -/
theorem C71_truth_ignored {aA aC aA' aC' : NDArray ℝ} {aB aB' : List (NDArray ℝ)} {I I' K K' R : ℕ} {Js Js' : List ℕ}
    (h1 : aA.shape = [I, R]) (h2 : Factors aB Js R) (h3 : aC.shape = [K, R]) (h4 : aA'.shape = [I', R])
    (h5 : Factors aB' Js' R) (h6 : aC'.shape = [K', R]) (bA bC : NDArray ℝ) (bB : List (NDArray ℝ)) (nonneg : Bool) :
    factorMatchScoresParafac2 aA aB aC bA bB bC false nonneg = factorMatchScoresParafac2 aA' aB' aC' bA bB bC false nonneg := by
  obtain ⟨_, e1⟩ := unitColumns_ok h1
  obtain ⟨_, e2⟩ := unitColumns_all h2
  obtain ⟨_, e3⟩ := unitColumns_ok h3
  obtain ⟨_, e4⟩ := unitColumns_ok h4
  obtain ⟨_, e5⟩ := unitColumns_all h5
  obtain ⟨_, e6⟩ := unitColumns_ok h6
  rw [factorMatchScoresParafac2, factorMatchScoresParafac2, cols_ok h1, bind_ok, e1, bind_ok, e2, bind_ok, e3, bind_ok,
    cols_ok h4, bind_ok, e4, bind_ok, e5, bind_ok, e6, bind_ok]

end
end TK
