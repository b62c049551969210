import Verif.Props.CoreConsistency
import Verif.Model.CoreP2
import Verif.Lemmas.Parafac2Inner

/-!
# Core consistency of a PARAFAC2 model (C84)
-/

namespace TK
open NDArray

noncomputable section

/-! ### specification -/

/-- Squared error, on the slices themselves, of the model in which slice `k` is `(Σ_pqr G_pqr a_p (b_q)ᵀ c_kr) P_kᵀ`. -/
def p2CoreErr (X P : List (NDArray ℝ)) (I : ℕ) (Js : List ℕ) (R : ℕ) (a b c : ℕ → ℕ → ℝ) (G : ℕ → ℕ → ℕ → ℝ) : ℝ :=
  ∑ k ∈ Finset.range Js.length, ∑ i ∈ Finset.range I, ∑ j ∈ Finset.range (Js.getD k 0),
    ((nth X k).get [i, j] - ∑ s ∈ Finset.range R, (nth P k).get [j, s] *
      ∑ p ∈ Finset.range R, ∑ q ∈ Finset.range R, ∑ r ∈ Finset.range R, a i p * b s q * c k r * G p q r) ^ 2

/-- `G` is the core which fits the slices best, and the only one. -/
structure IsBestP2Core (X P : List (NDArray ℝ)) (I : ℕ) (Js : List ℕ) (R : ℕ) (a b c : ℕ → ℕ → ℝ)
    (G : ℕ → ℕ → ℕ → ℝ) : Prop where
  best : ∀ H, p2CoreErr X P I Js R a b c G ≤ p2CoreErr X P I Js R a b c H
  unique : ∀ H, p2CoreErr X P I Js R a b c H ≤ p2CoreErr X P I Js R a b c G →
    ∀ p < R, ∀ q < R, ∀ r < R, H p q r = G p q r

/-! ### projection -/

theorem row_projection {P : NDArray ℝ} {J R : ℕ} (hP : OrthoCols P J R) (x z : ℕ → ℝ) :
    ∑ j ∈ Finset.range J, (x j - ∑ s ∈ Finset.range R, P.get [j, s] * z s) ^ 2
      = (∑ j ∈ Finset.range J, x j ^ 2 - ∑ s ∈ Finset.range R, (∑ j ∈ Finset.range J, x j * P.get [j, s]) ^ 2)
        + ∑ s ∈ Finset.range R, (∑ j ∈ Finset.range J, x j * P.get [j, s] - z s) ^ 2 := by
  have e1 : ∑ j ∈ Finset.range J, x j * ∑ s ∈ Finset.range R, P.get [j, s] * z s
      = ∑ s ∈ Finset.range R, (∑ j ∈ Finset.range J, x j * P.get [j, s]) * z s := by
    simp only [Finset.mul_sum, Finset.sum_mul]
    rw [Finset.sum_comm]
    exact Finset.sum_congr rfl fun s _ => Finset.sum_congr rfl fun j _ => by ring
  have e2 : ∑ j ∈ Finset.range J, (∑ s ∈ Finset.range R, P.get [j, s] * z s) ^ 2 = ∑ s ∈ Finset.range R, z s ^ 2 := by
    have : ∀ j, (∑ s ∈ Finset.range R, P.get [j, s] * z s) ^ 2
        = ∑ s ∈ Finset.range R, ∑ t ∈ Finset.range R, P.get [j, s] * P.get [j, t] * (z s * z t) := by
      intro j
      rw [sq, Finset.sum_mul_sum]
      exact Finset.sum_congr rfl fun s _ => Finset.sum_congr rfl fun t _ => by ring
    simp only [this]
    rw [Finset.sum_comm]
    refine Finset.sum_congr rfl fun s hs => ?_
    rw [Finset.sum_comm]
    have hs' := Finset.mem_range.1 hs
    have : ∀ t ∈ Finset.range R, ∑ j ∈ Finset.range J, P.get [j, s] * P.get [j, t] * (z s * z t)
        = if s = t then z s * z t else 0 := by
      intro t ht
      rw [← Finset.sum_mul, hP s hs' t (Finset.mem_range.1 ht)]
      split <;> simp
    rw [Finset.sum_congr rfl this, Finset.sum_ite_eq, if_pos hs]
    ring
  have e3 : ∑ j ∈ Finset.range J, (x j - ∑ s ∈ Finset.range R, P.get [j, s] * z s) ^ 2
      = ∑ j ∈ Finset.range J, x j ^ 2 - 2 * ∑ j ∈ Finset.range J, x j * ∑ s ∈ Finset.range R, P.get [j, s] * z s
        + ∑ j ∈ Finset.range J, (∑ s ∈ Finset.range R, P.get [j, s] * z s) ^ 2 := by
    rw [Finset.mul_sum, ← Finset.sum_sub_distrib, ← Finset.sum_add_distrib]
    exact Finset.sum_congr rfl fun j _ => by ring
  have e4 : ∑ s ∈ Finset.range R, (∑ j ∈ Finset.range J, x j * P.get [j, s] - z s) ^ 2
      = ∑ s ∈ Finset.range R, (∑ j ∈ Finset.range J, x j * P.get [j, s]) ^ 2
        - 2 * ∑ s ∈ Finset.range R, (∑ j ∈ Finset.range J, x j * P.get [j, s]) * z s + ∑ s ∈ Finset.range R, z s ^ 2 := by
    rw [Finset.mul_sum, ← Finset.sum_sub_distrib, ← Finset.sum_add_distrib]
    exact Finset.sum_congr rfl fun j _ => by ring
  rw [e3, e4, e1, e2]
  ring

/-- What the slices lose by the projection; it does not depend on the core. -/
def p2Lost (X P : List (NDArray ℝ)) (I : ℕ) (Js : List ℕ) (R : ℕ) : ℝ :=
  ∑ k ∈ Finset.range Js.length, ∑ i ∈ Finset.range I, (∑ j ∈ Finset.range (Js.getD k 0), (nth X k).get [i, j] ^ 2 -
    ∑ s ∈ Finset.range R, (∑ j ∈ Finset.range (Js.getD k 0), (nth X k).get [i, j] * (nth P k).get [j, s]) ^ 2)

theorem p2CoreErr_eq {X P : List (NDArray ℝ)} {I R : ℕ} {Js : List ℕ}
    (hP : ∀ k < Js.length, OrthoCols (nth P k) (Js.getD k 0) R) (a b c : ℕ → ℕ → ℝ) (G : ℕ → ℕ → ℕ → ℝ) :
    p2CoreErr X P I Js R a b c G
      = p2Lost X P I Js R + tuckerErr (p2Projected X P I Js R) I R Js.length R a b c G := by
  have e : tuckerErr (p2Projected X P I Js R) I R Js.length R a b c G
      = ∑ k ∈ Finset.range Js.length, ∑ i ∈ Finset.range I, ∑ s ∈ Finset.range R,
        (∑ j ∈ Finset.range (Js.getD k 0), (nth X k).get [i, j] * (nth P k).get [j, s]
          - ∑ p ∈ Finset.range R, ∑ q ∈ Finset.range R, ∑ r ∈ Finset.range R, a i p * b s q * c k r * G p q r) ^ 2 := by
    rw [tuckerErr, Finset.sum_comm]
    have : ∀ s ∈ Finset.range R, ∀ i ∈ Finset.range I, ∀ k ∈ Finset.range Js.length,
        (p2Projected X P I Js R).get [i, s, k]
          = ∑ j ∈ Finset.range (Js.getD k 0), (nth X k).get [i, j] * (nth P k).get [j, s] := by
      intro s hs i hi k hk
      rw [p2Projected, get_ofFn (by simp [Finset.mem_range.1 hs, Finset.mem_range.1 hi, Finset.mem_range.1 hk])]
      simp
    rw [Finset.sum_congr rfl fun s hs => Finset.sum_congr rfl fun i hi => Finset.sum_congr rfl fun k hk => by
      rw [this s hs i hi k hk]]
    rw [Finset.sum_comm, Finset.sum_congr rfl fun i _ => Finset.sum_comm, Finset.sum_comm]
  rw [e, p2CoreErr, p2Lost, ← Finset.sum_add_distrib]
  refine Finset.sum_congr rfl fun k hk => ?_
  rw [← Finset.sum_add_distrib]
  refine Finset.sum_congr rfl fun i _ => ?_
  exact row_projection (hP k (Finset.mem_range.1 hk)) (fun j => (nth X k).get [i, j])
    (fun s => ∑ p ∈ Finset.range R, ∑ q ∈ Finset.range R, ∑ r ∈ Finset.range R, a i p * b s q * c k r * G p q r)

/-! ### C84 -/

/-- **C84.** With one projection matrix for each row of `C`, the result is the core consistency of the projected data: nothing
of the uninitialised memory remains. -/
theorem C84_projected {E : Ext} {X P : List (NDArray ℝ)} {A F C : NDArray ℝ} {I R : ℕ} {Js : List ℕ}
    (hX : List.Forall₂ (fun Xk J => Xk.shape = [I, J]) X Js) (hP : Factors P Js R) (hA : A.shape = [I, R])
    (hF : F.shape = [R, R]) (hC : C.shape = [Js.length, R]) (garbage : List ℕ → ℝ) (eps : ℝ) :
    coreConsistencyParafac2 E garbage X P A F C eps = coreConsistency E (p2Projected X P I Js R) A F C false eps := by
  obtain ⟨T', e, sT, g⟩ := projectLoop_ok (X := X) (I := I) (K := Js.length) (k := 0) hP
    (T := ofFn [I, R, Js.length] garbage) (fun l hl => by
      rw [Nat.zero_add]; exact ⟨by rw [hX.length_eq]; exact hl, shape_nth hX hl⟩) (by omega) (shape_ofFn _ _)
  have hT : T' = p2Projected X P I Js R := by
    apply ext_get (sT.trans (shape_ofFn _ _).symm)
    intro idx hidx
    rw [sT] at hidx
    obtain ⟨i, is, rfl, hi, his⟩ := valid_cons_iff.1 hidx
    obtain ⟨q, js, rfl, hq, hjs⟩ := valid_cons_iff.1 his
    obtain ⟨k, ks, rfl, hk, hks⟩ := valid_cons_iff.1 hjs
    obtain rfl : ks = [] := by simpa using hks
    rw [g i hi q hq k hk, if_pos (by omega)]
    rw [get_ofFn (by simp [hi, hq, hk])]
    simp
  rw [coreConsistencyParafac2, cols_ok hF, bind_ok, rows_ok hA, bind_ok, rows_ok hC, bind_ok, e, bind_ok, hT]

/-- **C84.** For orthonormal projection matrices and factor matrices with independent columns, the result is
`100 (1 - ‖G - T‖² / R)`, where `G` is the core that fits the *slices* best among all cores in the model
`X_k ≈ (Σ G_pqr a_p b_qᵀ c_kr) P_kᵀ`; it is at most 100 and equals 100 exactly if `G` is superdiagonal with ones. -/
theorem C84_value {E : Ext} (hE : E.QROk) {eps : ℝ} (he : 0 < eps) {X P : List (NDArray ℝ)} {A F C : NDArray ℝ}
    {I R : ℕ} {Js : List ℕ} (hX : List.Forall₂ (fun Xk J => Xk.shape = [I, J]) X Js) (hP : Factors P Js R)
    (hA : A.shape = [I, R]) (hF : F.shape = [R, R]) (hC : C.shape = [Js.length, R])
    (ho : ∀ k < Js.length, OrthoCols (nth P k) (Js.getD k 0) R)
    (iA : IndepColumns A I R) (iF : IndepColumns F R R) (iC : IndepColumns C Js.length R) (hR : 0 < R)
    (garbage : List ℕ → ℝ) :
    ∃ G v, IsBestP2Core X P I Js R (balanced eps (compSize [A, F, C] [I, R, Js.length]) A I)
        (balanced eps (compSize [A, F, C] [I, R, Js.length]) F R)
        (balanced eps (compSize [A, F, C] [I, R, Js.length]) C Js.length) G ∧
      coreConsistencyParafac2 E garbage X P A F C eps = .ok (.fin v) ∧ v = 100 * (1 - offDiagonal R G / R) ∧ v ≤ 100 ∧
      (v = 100 ↔ ∀ p < R, ∀ q < R, ∀ r < R, G p q r = if p = q ∧ q = r then 1 else 0) := by
  obtain ⟨G, v, hG, e, h1, h2, h3⟩ := C63_value hE he (X := p2Projected X P I Js R) (shape_ofFn _ _) hA hF hC iA iF iC hR
  refine ⟨G, v, ⟨fun H => ?_, fun H hH => ?_⟩, (C84_projected hX hP hA hF hC garbage eps).trans e, h1, h2, h3⟩
  · rw [p2CoreErr_eq ho, p2CoreErr_eq ho]
    linarith [hG.best H]
  · rw [p2CoreErr_eq ho, p2CoreErr_eq ho] at hH
    exact hG.unique H (by linarith)

/-- **C84.** If the slices follow the PARAFAC2 model exactly, the result is 100 up to the guard of the normalisation
(component `r` contributes `(1/ρ_r - 1)²`, see `C63_guard` for its size). -/
theorem C84_exact {E : Ext} (hE : E.QROk) {eps : ℝ} (he : 0 < eps) {X P : List (NDArray ℝ)} {A F C : NDArray ℝ}
    {I R : ℕ} {Js : List ℕ} (hX : List.Forall₂ (fun Xk J => Xk.shape = [I, J]) X Js) (hP : Factors P Js R)
    (hA : A.shape = [I, R]) (hF : F.shape = [R, R]) (hC : C.shape = [Js.length, R])
    (ho : ∀ k < Js.length, OrthoCols (nth P k) (Js.getD k 0) R)
    (iA : IndepColumns A I R) (iF : IndepColumns F R R) (iC : IndepColumns C Js.length R) (hR : 0 < R)
    (hXm : ∀ k < Js.length, ∀ i < I, ∀ j < Js.getD k 0, (nth X k).get [i, j] = p2Entry A F C (nth P k) R k i j)
    (garbage : List ℕ → ℝ) :
    coreConsistencyParafac2 E garbage X P A F C eps = .ok (.fin (100 * (1 -
      (∑ r ∈ Finset.range R, (1 / guard eps [A, F, C] [I, R, Js.length] r - 1) ^ 2) / R))) := by
  rw [C84_projected hX hP hA hF hC]
  refine C63_exact hE he (shape_ofFn _ _) hA hF hC iA iF iC hR fun i hi s hs k hk => ?_
  rw [p2Projected, get_ofFn (by simp [hi, hs, hk])]
  show ∑ j ∈ Finset.range (Js.getD k 0), (nth X k).get [i, j] * (nth P k).get [j, s] = _
  rw [Finset.sum_congr rfl fun j hj => by rw [hXm k hk i hi j (Finset.mem_range.1 hj)]]
  simp only [p2Entry, cpEntry, rankOne]
  simp only [Finset.sum_mul, Finset.mul_sum]
  rw [Finset.sum_comm]
  refine Finset.sum_congr rfl fun r hr => ?_
  rw [Finset.sum_comm]
  have : ∀ q ∈ Finset.range R, ∑ j ∈ Finset.range (Js.getD k 0),
      A.get [i, r] * C.get [k, r] * ((nth P k).get [j, q] * F.get [q, r]) * (nth P k).get [j, s]
      = if q = s then A.get [i, r] * C.get [k, r] * F.get [q, r] else 0 := by
    intro q hq
    have := ho k hk q (Finset.mem_range.1 hq) s hs
    calc _ = A.get [i, r] * C.get [k, r] * F.get [q, r] *
          ∑ j ∈ Finset.range (Js.getD k 0), (nth P k).get [j, q] * (nth P k).get [j, s] := by
            rw [Finset.mul_sum]; exact Finset.sum_congr rfl fun j _ => by ring
      _ = _ := by rw [this]; split <;> simp
  rw [Finset.sum_congr rfl this, Finset.sum_ite_eq', if_pos (Finset.mem_range.2 hs)]
  ring

/-! ### concrete cases -/

/-- Column vector `1`. -/
def one11 : NDArray ℝ := ofMat 1 1 fun _ _ => 1

theorem indep_one11 : IndepColumns one11 1 1 := by
  intro v h j hj
  obtain rfl : j = 0 := by omega
  have := h 0 one_pos
  rw [Finset.sum_range_one] at this
  rw [one11, get_ofMat one_pos one_pos, one_mul] at this
  exact this

/-- The hypotheses of `C84_exact` hold for slices of different sizes: `X_0 = (3, 0)`, `X_1 = (0, 0, 6)`. -/
example {E : Ext} (hE : E.QROk) (garbage : List ℕ → ℝ) :
    let A := ofMat 1 1 fun _ _ => 3
    let C := ofMat 2 1 fun k _ => (k + 1 : ℝ)
    let P := [ofMat 2 1 fun j _ => if j = 0 then (1 : ℝ) else 0, ofMat 3 1 fun j _ => if j = 2 then (1 : ℝ) else 0]
    let X := [ofMat 1 2 fun _ j => if j = 0 then (3 : ℝ) else 0, ofMat 1 3 fun _ j => if j = 2 then (6 : ℝ) else 0]
    ∃ v, coreConsistencyParafac2 E garbage X P A one11 C = .ok (.fin v) := by
  refine ⟨_, C84_exact hE (by norm_num) (I := 1) (R := 1) (Js := [2, 3]) (.cons rfl (.cons rfl .nil))
    (.cons rfl (.cons rfl .nil)) rfl rfl rfl ?_ ?_ indep_one11 ?_ one_pos ?_ garbage⟩
  · intro k hk i hi j hj
    obtain rfl : i = 0 := by omega
    obtain rfl : j = 0 := by omega
    have : k = 0 ∨ k = 1 := by simp at hk; omega
    rcases this with rfl | rfl
    · simp [Finset.sum_range_succ, get_ofMat, nth]
    · simp [Finset.sum_range_succ, get_ofMat, nth]
  · intro v h j hj
    obtain rfl : j = 0 := by omega
    have := h 0 one_pos
    rw [Finset.sum_range_one, get_ofMat one_pos one_pos] at this
    linarith
  · intro v h j hj
    obtain rfl : j = 0 := by omega
    have := h 0 (by simp)
    rw [Finset.sum_range_one, get_ofMat (by norm_num) one_pos] at this
    simpa using this
  · intro k hk i hi j hj
    obtain rfl : i = 0 := by omega
    have : k = 0 ∨ k = 1 := by simp at hk; omega
    rcases this with rfl | rfl
    · have hj : j < 2 := hj
      simp only [p2Entry, Finset.sum_range_one, nth, List.getD_cons_zero, one11]
      rw [get_ofMat one_pos hj, get_ofMat one_pos one_pos, get_ofMat (by norm_num) one_pos, get_ofMat hj one_pos,
        get_ofMat one_pos one_pos]
      split <;> norm_num
    · have hj : j < 3 := hj
      simp only [p2Entry, Finset.sum_range_one, nth, List.getD_cons_zero, List.getD_cons_succ, one11]
      rw [get_ofMat one_pos hj, get_ofMat one_pos one_pos, get_ofMat (by norm_num) one_pos, get_ofMat hj one_pos,
        get_ofMat one_pos one_pos]
      split <;> norm_num

/-- **C84.** Projection matrices that are missing are not noticed: with fewer projection matrices than rows of `C` the result is
whatever the uninitialised memory makes of it (here 0 or almost 100). -/
theorem C84_missing_matrices {E : Ext} (hE : E.QROk) : ∃ (g g' : List ℕ → ℝ) (v : ℝ), 99 < v ∧
    coreConsistencyParafac2 E g [] [] one11 one11 one11 = .ok (.fin 0) ∧
    coreConsistencyParafac2 E g' [] [] one11 one11 one11 = .ok (.fin v) := by
  have he : (0 : ℝ) < 1e-15 := by norm_num
  have hl : ∀ r < 1, (1 : ℝ) ≤ colLen one11 1 r := by
    intro r hr
    obtain rfl : r = 0 := by omega
    rw [colLen, Finset.sum_range_one, one11, get_ofMat one_pos one_pos]
    norm_num
  refine ⟨fun _ => 0, fun _ => 1, _, ?_, ?_, C63_exact hE he (I := 1) (J := 1) (K := 1) (F := 1) (shape_ofFn _ _) rfl rfl rfl
    indep_one11 indep_one11 indep_one11 one_pos ?_⟩
  · obtain ⟨h1, h2⟩ := C63_guard he (δ := 1) (by norm_num) (hl 0 one_pos) (hl 0 one_pos) (hl 0 one_pos)
    rw [Finset.sum_range_one]
    norm_num at h1 h2 ⊢
    nlinarith
  · obtain ⟨G, v, hG, e, hv, -, -⟩ := C63_value hE he (X := ofFn [1, 1, 1] fun _ => (0 : ℝ)) (I := 1) (J := 1) (K := 1) (F := 1)
      (shape_ofFn _ _) rfl rfl rfl indep_one11 indep_one11 indep_one11 one_pos
    refine e.trans ?_
    have h0 := hG.unique (fun _ _ _ => 0) (by
      have : ∀ G, 0 ≤ tuckerErr (ofFn [1, 1, 1] fun _ => (0 : ℝ)) 1 1 1 1
          (balanced 1e-15 (compSize [one11, one11, one11] [1, 1, 1]) one11 1)
          (balanced 1e-15 (compSize [one11, one11, one11] [1, 1, 1]) one11 1)
          (balanced 1e-15 (compSize [one11, one11, one11] [1, 1, 1]) one11 1) G := fun G =>
        Finset.sum_nonneg fun _ _ => Finset.sum_nonneg fun _ _ => Finset.sum_nonneg fun _ _ => sq_nonneg _
      refine le_trans (le_of_eq ?_) (this G)
      simp [tuckerErr, get_ofFn]) 0 one_pos 0 one_pos 0 one_pos
    rw [hv, offDiagonal]
    simp [← h0]
  · intro i hi j hj l hl
    obtain rfl : i = 0 := by omega
    obtain rfl : j = 0 := by omega
    obtain rfl : l = 0 := by omega
    rw [get_ofFn (by simp)]
    simp [cpEntry, rankOne, one11, get_ofMat]

end
end TK
