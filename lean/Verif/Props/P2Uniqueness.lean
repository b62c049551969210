import Verif.Lemmas.P2Unique
import Verif.Lemmas.P2Descent
import Verif.Spec.P2Unique
import Verif.Props.Uniqueness
import Verif.Props.FmsP2

/-!
# Uniqueness of PARAFAC2 models (C148), and their factor match score (C149)
-/

namespace TK
open NDArray Matrix

noncomputable section

variable {I R : ℕ} {Js : List ℕ} {P P' : List (NDArray ℝ)} {A D C A' D' C' : NDArray ℝ}

theorem IndepColumns.mulVec {F : NDArray ℝ} {m n : ℕ} (h : IndepColumns F m n) (v : Fin n → ℝ) (hv : mat F m n *ᵥ v = 0) :
    v = 0 :=
  h.fin v fun i => congrFun hv i

theorem sum_fin_range₄ (f : ℕ → ℕ → ℕ → ℕ → ℝ) : ∑ a : Fin R, ∑ b : Fin R, ∑ c : Fin R, ∑ d : Fin R, f a b c d =
    ∑ a ∈ Finset.range R, ∑ b ∈ Finset.range R, ∑ c ∈ Finset.range R, ∑ d ∈ Finset.range R, f a b c d := by
  rw [← sum_fin_range fun a => ∑ b ∈ Finset.range R, ∑ c ∈ Finset.range R, ∑ d ∈ Finset.range R, f a b c d]
  refine Finset.sum_congr rfl fun a _ => ?_
  rw [← sum_fin_range fun b => ∑ c ∈ Finset.range R, ∑ d ∈ Finset.range R, f a b c d]
  refine Finset.sum_congr rfl fun b _ => ?_
  rw [← sum_fin_range fun c => ∑ d ∈ Finset.range R, f a b c d]
  exact Finset.sum_congr rfl fun c _ => sum_fin_range _

theorem GeneralRows.quarticFree {K : ℕ} (h : GeneralRows C K R) :
    LA.QuarticFree fun (k : Fin K) (r : Fin R) => C.get [(k : ℕ), (r : ℕ)] := by
  intro g hg z
  let g' : ℕ → ℕ → ℕ → ℕ → ℝ := fun a b c d =>
    if h : a < R ∧ b < R ∧ c < R ∧ d < R then g ⟨a, h.1⟩ ⟨b, h.2.1⟩ ⟨c, h.2.2.1⟩ ⟨d, h.2.2.2⟩ else 0
  have e : ∀ a b c d : Fin R, g' a b c d = g a b c d := fun a b c d => dif_pos ⟨a.2, b.2, c.2, d.2⟩
  let z' : ℕ → ℝ := fun a => if h : a < R then z ⟨a, h⟩ else 0
  have ez : ∀ a : Fin R, z' a = z a := fun a => dif_pos a.2
  have := h g' (fun k hk => by
    rw [quartic, ← sum_fin_range₄ fun a b c d => g' a b c d * (C.get [k, a] * C.get [k, b] * C.get [k, c] * C.get [k, d]),
      ← hg ⟨k, hk⟩]
    simp only [e]) z'
  rw [quartic, ← sum_fin_range₄ fun a b c d => g' a b c d * (z' a * z' b * z' c * z' d)] at this
  simpa only [e, ez] using this

theorem mat_mul_apply {F G : NDArray ℝ} {m n p : ℕ} (i : Fin m) (j : Fin p) :
    (mat F m n * mat G n p) i j = ∑ q ∈ Finset.range n, F.get [(i : ℕ), q] * G.get [q, (j : ℕ)] := by
  rw [mul_apply]
  exact sum_fin_range fun q => F.get [(i : ℕ), q] * G.get [q, (j : ℕ)]

theorem p2_matrix_apply {Pk : NDArray ℝ} {J k : ℕ} (i : Fin I) (j : Fin J) :
    (mat A I R * diagonal (fun r : Fin R => C.get [k, (r : ℕ)]) * (mat D R R)ᵀ * (mat Pk J R)ᵀ) i j
      = p2Entry A D C Pk R k i j := by
  rw [Matrix.mul_assoc, ← transpose_mul, mul_apply, p2Entry, ← sum_fin_range fun r => A.get [(i : ℕ), r] * C.get [k, r] *
    ∑ q ∈ Finset.range R, Pk.get [(j : ℕ), q] * D.get [q, r]]
  refine Finset.sum_congr rfl fun r _ => ?_
  rw [mul_diagonal, transpose_apply, mat_mul_apply]
  rfl

/-- The components of two models with the same slices. -/
theorem p2_components_agree (hI : P2Identifiable P A D C I Js R) (hP' : OrthoAll P' Js R)
    (h : ∀ k < Js.length, ∀ i < I, ∀ j < Js.getD k 0,
      p2Entry A D C (nth P k) R k i j = p2Entry A' D' C' (nth P' k) R k i j) :
    ∃ π, IsAssignment π R R ∧ SameP2Components π P A D C P' A' D' C' I Js R ∧
      ∀ r < R, ∃ μ ≠ 0, (∀ i < I, μ * A'.get [i, π.getD r 0] = A.get [i, r]) ∧
        ∀ k < Js.length, ∀ j < Js.getD k 0,
          C'.get [k, π.getD r 0] * (∑ q ∈ Finset.range R, (nth P' k).get [j, q] * D'.get [q, π.getD r 0])
            = μ * (C.get [k, r] * ∑ q ∈ Finset.range R, (nth P k).get [j, q] * D.get [q, r]) := by
  have hq := hI.C.quarticFree
  obtain ⟨σ, μ, h0, h1, h2, h3⟩ := LA.parafac2_unique (κ := Fin Js.length) (m := Fin I) (J := fun k : Fin Js.length => Fin (Js.getD k 0))
    (c := fun k r => C.get [(k : ℕ), (r : ℕ)]) (c' := fun k r => C'.get [(k : ℕ), (r : ℕ)])
    (D := mat D R R) (D' := mat D' R R) (A := mat A I R) (A' := mat A' I R)
    (P := fun k => mat (nth P k) (Js.getD k 0) R) (P' := fun k => mat (nth P' k) (Js.getD k 0) R)
    hq hI.D.mulVec hI.A.mulVec (fun k => orthoCols_iff.1 (hI.P k k.2)) (fun k => orthoCols_iff.1 (hP' k k.2))
    (fun k => by
      ext i j
      rw [p2_matrix_apply, p2_matrix_apply]
      exact h k k.2 i i.2 j j.2)
  have hπ : ∀ r (hr : r < R), ((List.finRange R).map fun r => (σ.symm r : ℕ)).getD r 0 = σ.symm ⟨r, hr⟩ := by
    intro r hr
    rw [getD_eq_getElem' _ (by simpa using hr)]
    simp
  have f1 : ∀ r (hr : r < R), ∀ i < I, μ (σ.symm ⟨r, hr⟩) * A'.get [i, (σ.symm ⟨r, hr⟩ : Fin R)] = A.get [i, r] := by
    intro r hr i hi
    have := h1 ⟨i, hi⟩ (σ.symm ⟨r, hr⟩)
    rw [Equiv.apply_symm_apply] at this
    exact this
  have f2 : ∀ r (hr : r < R), ∀ k < Js.length, ∀ j < Js.getD k 0,
      C'.get [k, (σ.symm ⟨r, hr⟩ : Fin R)] * (∑ q ∈ Finset.range R, (nth P' k).get [j, q] * D'.get [q, (σ.symm ⟨r, hr⟩ : Fin R)])
        = μ (σ.symm ⟨r, hr⟩) * (C.get [k, r] * ∑ q ∈ Finset.range R, (nth P k).get [j, q] * D.get [q, r]) := by
    intro r hr k hk j hj
    have := h2 ⟨k, hk⟩ (σ.symm ⟨r, hr⟩) ⟨j, hj⟩
    rw [Equiv.apply_symm_apply, mat_mul_apply, mat_mul_apply] at this
    exact this
  refine ⟨(List.finRange R).map fun r => (σ.symm r : ℕ), ⟨by simp, ?_, ?_⟩, fun r hr => ?_, fun r hr => ?_⟩
  · refine (List.nodup_finRange R).map ?_
    intro x y hxy
    exact σ.symm.injective (Fin.ext hxy)
  · intro x hx
    obtain ⟨r, -, rfl⟩ := List.mem_map.1 hx
    exact (σ.symm r).2
  · rw [hπ r hr]
    refine ⟨fun k hk i hi j hj => ?_, ⟨(μ (σ.symm ⟨r, hr⟩))⁻¹, inv_ne_zero (h0 _), fun i hi => ?_⟩, ?_⟩
    · rw [p2Term, p2Term]
      linear_combination A'.get [i, (σ.symm ⟨r, hr⟩ : Fin R)] * f2 r hr k hk j hj
        + (C.get [k, r] * ∑ q ∈ Finset.range R, (nth P k).get [j, q] * D.get [q, r]) * f1 r hr i hi
    · rw [← f1 r hr i hi, inv_mul_cancel_left₀ (h0 _)]
    · set u := σ.symm ⟨r, hr⟩ with hu
      have hσ : σ u = ⟨r, hr⟩ := Equiv.apply_symm_apply _ _
      set p := ((mat D R R)ᵀ * mat D R R) ⟨r, hr⟩ ⟨r, hr⟩ with hp
      set p' := ((mat D' R R)ᵀ * mat D' R R) u u with hp'
      have f3 : ∀ k < Js.length, C'.get [k, (u : ℕ)] * C'.get [k, (u : ℕ)] * p' = μ u * μ u * (C.get [k, r] * C.get [k, r] * p) := by
        intro k hk
        have := h3 ⟨k, hk⟩ u
        rw [hσ] at this
        exact this
      have hp0 : 0 < p := by
        have hp1 : p = ∑ q : Fin R, mat D R R q ⟨r, hr⟩ ^ 2 := by
          rw [hp, mul_apply]
          exact Finset.sum_congr rfl fun q _ => by rw [transpose_apply, sq]
        obtain ⟨q, hq1, hq2⟩ := hI.D.column_ne_zero hr
        rw [hp1]
        exact Finset.sum_pos' (fun q _ => sq_nonneg _) ⟨⟨q, hq1⟩, Finset.mem_univ _, by have : mat D R R ⟨q, hq1⟩ ⟨r, hr⟩ ≠ 0 := hq2; positivity⟩
      have hp'0 : 0 < p' := by
        have hp1 : 0 ≤ p' := by
          rw [hp', mul_apply]
          exact Finset.sum_nonneg fun q _ => by rw [transpose_apply]; exact mul_self_nonneg _
        refine lt_of_le_of_ne hp1 fun h => ?_
        obtain ⟨k, hk⟩ := hq.exists_ne ⟨r, hr⟩
        have := f3 k k.2
        rw [← h, mul_zero] at this
        exact mul_ne_zero (mul_ne_zero (h0 u) (h0 u)) (mul_ne_zero (mul_ne_zero hk hk) hp0.ne') this.symm
      refine ⟨|μ u| * Real.sqrt (p / p'), mul_pos (abs_pos.2 (h0 u)) (Real.sqrt_pos.2 (div_pos hp0 hp'0)), fun k hk => ?_⟩
      rw [← Real.sqrt_sq_eq_abs, ← Real.sqrt_sq_eq_abs, ← Real.sqrt_sq_eq_abs, ← Real.sqrt_mul (sq_nonneg _),
        ← Real.sqrt_mul (by positivity)]
      congr 1
      have := f3 k hk
      rw [mul_div_assoc', div_mul_eq_mul_div, eq_div_iff hp'0.ne']
      linear_combination this
  · rw [hπ r hr]
    exact ⟨_, h0 _, f1 r hr, f2 r hr⟩

/-! ### C148 -/

/-- The slices of a PARAFAC2 tensor. -/
theorem Parafac2Tensor.Shaped.slices {t : Parafac2Tensor} (h : t.Shaped I Js R R) : ∃ Y, t.constructSlices = .ok Y ∧
    Y.length = Js.length ∧ (∀ k < Js.length, (nth Y k).shape = [I, Js.getD k 0]) ∧
    ∀ k < Js.length, ∀ i < I, ∀ j < Js.getD k 0, (nth Y k).get [i, j] = p2Entry t.A t.blueprint t.C (nth t.P k) R k i j := by
  obtain ⟨B, e1, hB, hB'⟩ := Bs_ok h.D h.P
  obtain ⟨Y, e2, l2, g2⟩ := evolvingSlicesFrom_ok (k := 0) h.A h.C hB (by omega)
  refine ⟨Y, ?_, l2, fun k hk => ?_, fun k hk i hi j hj => ?_⟩
  · rw [Parafac2Tensor.constructSlices, e1, bind_ok]; exact e2
  · have hk' : k < B.length := by rw [hB.length_eq]; exact hk
    have h1 := g2 k hk hk'
    rw [List.getElem?_eq_getElem (l2 ▸ hk), Nat.zero_add] at h1
    rw [nth_lt (l2 ▸ hk), Option.some.inj h1, shape_ofMat, getD_eq_getElem' _ hk]
  · have hk' : k < B.length := by rw [hB.length_eq]; exact hk
    have hkP : k < t.P.length := by rw [h.P.length_eq]; exact hk
    have h1 := g2 k hk hk'
    rw [List.getElem?_eq_getElem (l2 ▸ hk), Nat.zero_add] at h1
    have hm := (List.forall₂_iff_get.1 hB').2 k hkP hk'
    simp only [List.get_eq_getElem] at hm
    rw [← nth_lt hk', ← nth_lt hkP, matmul_ok (h.P.shape_nth hk) h.D] at hm
    injection hm with hm
    rw [nth_lt (l2 ▸ hk), Option.some.inj h1, get_ofMat hi (by rw [← getD_eq_getElem' _ hk]; exact hj), sliceEntry, p2Entry]
    refine Finset.sum_congr rfl fun r hr => ?_
    rw [← nth_lt hk', ← hm, get_ofMat hj (Finset.mem_range.1 hr)]

/-- **C148.** Two PARAFAC2 tensors with the same number of components and orthonormal projection matrices that have the same
slices have the same components, up to their order, if `A` and the blueprint of the first have linearly independent columns and
its weights of the slices are in general position. -/
theorem C148_components {t t' : Parafac2Tensor} (ht : t.Shaped I Js R R) (ht' : t'.Shaped I Js R R)
    (hI : P2Identifiable t.P t.A t.blueprint t.C I Js R) (hP' : OrthoAll t'.P Js R)
    (h : t.constructSlices = t'.constructSlices) :
    ∃ π, IsAssignment π R R ∧
      SameP2Components π t.P t.A t.blueprint t.C t'.P t'.A t'.blueprint t'.C I Js R := by
  obtain ⟨Y, e, -, -, g⟩ := ht.slices
  obtain ⟨Y', e', -, -, g'⟩ := ht'.slices
  rw [e, e'] at h
  obtain rfl := Except.ok.inj h
  obtain ⟨π, h1, h2, -⟩ := p2_components_agree hI hP' fun k hk i hi j hj => by rw [← g k hk i hi j hj, ← g' k hk i hi j hj]
  exact ⟨π, h1, h2⟩

theorem p2Err_eq_zero {X : List (NDArray ℝ)} (h : p2Err X P A D C I Js R = 0) {k i j : ℕ} (hk : k < Js.length) (hi : i < I)
    (hj : j < Js.getD k 0) : (nth X k).get [i, j] = p2Entry A D C (nth P k) R k i j := by
  have h1 := (Finset.sum_eq_zero_iff_of_nonneg fun k _ => Finset.sum_nonneg fun i _ => Finset.sum_nonneg fun j _ =>
    sq_nonneg _).1 h k (Finset.mem_range.2 hk)
  have h2 := (Finset.sum_eq_zero_iff_of_nonneg fun i _ => Finset.sum_nonneg fun j _ =>
    sq_nonneg _).1 h1 i (Finset.mem_range.2 hi)
  have h3 := (Finset.sum_eq_zero_iff_of_nonneg fun j _ => sq_nonneg _).1 h2 j (Finset.mem_range.2 hj)
  exact sub_eq_zero.1 (pow_eq_zero_iff two_ne_zero |>.1 h3)

/-- **C148.** Two fits of the same slices that both report the error zero found the same components, if one of them is
identifiable. -/
theorem C148_fits {s s' : P2State} (hs : s.Sized I Js R) (hs' : s'.Sized I Js R) (hX : s'.X = s.X)
    (h0 : P2.sse s = .ok 0) (h0' : P2.sse s' = .ok 0) (hI : P2Identifiable s.P s.A s.D s.C I Js R) (hP' : s'.Orthonormal Js R) :
    ∃ π, IsAssignment π R R ∧ SameP2Components π s.P s.A s.D s.C s'.P s'.A s'.D s'.C I Js R := by
  rw [hs.sse] at h0
  rw [hs'.sse] at h0'
  have z : p2Err s.X s.P s.A s.D s.C I Js R = 0 := Except.ok.inj h0
  have z' : p2Err s'.X s'.P s'.A s'.D s'.C I Js R = 0 := Except.ok.inj h0'
  obtain ⟨π, h1, h2, -⟩ := p2_components_agree hI hP' fun k hk i hi j hj => by
    rw [← p2Err_eq_zero z hk hi hj, ← p2Err_eq_zero z' hk hi hj, hX]
  exact ⟨π, h1, h2⟩

/-- **C148.** A fit of slices that were built from an identifiable PARAFAC2 tensor with the same number of components has
recovered its components if it reports the error zero. -/
theorem C148_recovery {t : Parafac2Tensor} {s : P2State} (ht : t.Shaped I Js R R)
    (hI : P2Identifiable t.P t.A t.blueprint t.C I Js R) (hX : t.constructSlices = .ok s.X) (hs : s.Sized I Js R)
    (h0 : P2.sse s = .ok 0) (hP' : s.Orthonormal Js R) :
    ∃ π, IsAssignment π R R ∧
      SameP2Components π t.P t.A t.blueprint t.C s.P s.A s.D s.C I Js R := by
  obtain ⟨Y, e, -, -, g⟩ := ht.slices
  rw [hX] at e
  obtain rfl := Except.ok.inj e
  rw [hs.sse] at h0
  have z : p2Err s.X s.P s.A s.D s.C I Js R = 0 := Except.ok.inj h0
  obtain ⟨π, h1, h2, -⟩ := p2_components_agree hI hP' fun k hk i hi j hj => by
    rw [← p2Err_eq_zero z hk hi hj, g k hk i hi j hj]
  exact ⟨π, h1, h2⟩

/-! ### Examples -/

/-- Five weights of two components. -/
def rows5 : NDArray ℝ := ofMat 5 2 fun k r =>
  if r = 0 then (if k = 1 then 0 else 1) else (if k = 0 then 0 else if k = 3 then -1 else if k = 4 then 2 else 1)

theorem rows5_get {k r : ℕ} (hk : k < 5) (hr : r < 2) : rows5.get [k, r] =
    if r = 0 then (if k = 1 then 0 else 1) else (if k = 0 then 0 else if k = 3 then -1 else if k = 4 then 2 else 1) :=
  get_ofMat hk hr

theorem quartic_two (g : ℕ → ℕ → ℕ → ℕ → ℝ) (z : ℕ → ℝ) : quartic g 2 z =
    g 0 0 0 0 * z 0 ^ 4 + (g 0 0 0 1 + g 0 0 1 0 + g 0 1 0 0 + g 1 0 0 0) * (z 0 ^ 3 * z 1)
      + (g 0 0 1 1 + g 0 1 0 1 + g 0 1 1 0 + g 1 0 0 1 + g 1 0 1 0 + g 1 1 0 0) * (z 0 ^ 2 * z 1 ^ 2)
      + (g 0 1 1 1 + g 1 0 1 1 + g 1 1 0 1 + g 1 1 1 0) * (z 0 * z 1 ^ 3) + g 1 1 1 1 * z 1 ^ 4 := by
  simp only [quartic, Finset.sum_range_succ, Finset.sum_range_zero]
  ring

/-- Five slices are enough for two components. -/
theorem rows5_general : GeneralRows rows5 5 2 := by
  intro g h z
  have h0 := h 0 (by norm_num)
  have h1 := h 1 (by norm_num)
  have h2 := h 2 (by norm_num)
  have h3 := h 3 (by norm_num)
  have h4 := h 4 (by norm_num)
  rw [quartic_two] at h0 h1 h2 h3 h4 ⊢
  rw [rows5_get (by norm_num) (by norm_num), rows5_get (by norm_num) (by norm_num)] at h0 h1 h2 h3 h4
  generalize g 0 0 0 0 = a at *
  generalize g 0 0 0 1 + g 0 0 1 0 + g 0 1 0 0 + g 1 0 0 0 = b at *
  generalize g 0 0 1 1 + g 0 1 0 1 + g 0 1 1 0 + g 1 0 0 1 + g 1 0 1 0 + g 1 1 0 0 = c at *
  generalize g 0 1 1 1 + g 1 0 1 1 + g 1 1 0 1 + g 1 1 1 0 = d at *
  generalize g 1 1 1 1 = e at *
  norm_num at h0 h1 h2 h3 h4
  subst h0 h1
  have hc : c = 0 := by linarith
  have hd : d = 0 := by linarith
  have hb : b = 0 := by linarith
  rw [hb, hc, hd]; ring

/-- Five square slices with two components. -/
example : P2Identifiable (List.replicate 5 idMat2) idMat2 idMat2 rows5 2 (List.replicate 5 2) 2 := by
  refine ⟨idMat2_indep, idMat2_indep, rows5_general, fun k hk => ?_⟩
  have hk : k < 5 := by simpa using hk
  have e : nth (List.replicate 5 idMat2) k = idMat2 := by rw [nth_lt (by simpa using hk), List.getElem_replicate]
  have e2 : (List.replicate 5 2).getD k 0 = 2 := by rw [getD_eq_getElem' _ (by simpa using hk), List.getElem_replicate]
  rw [e, e2]
  intro i hi j hj
  rw [Finset.sum_range_succ, Finset.sum_range_one, idMat2_get (by norm_num) hi, idMat2_get (by norm_num) hj,
    idMat2_get (by norm_num) hi, idMat2_get (by norm_num) hj]
  interval_cases i <;> interval_cases j <;> norm_num

/-- **C148**, the need for enough slices: a single slice has different exact models with orthonormal projection matrices and
linearly independent columns. -/
theorem C148_few_slices : ∃ A D A' D' C P : NDArray ℝ, IndepColumns A 2 2 ∧ IndepColumns D 2 2 ∧ OrthoAll [P] [2] 2 ∧
    (∀ i < 2, ∀ j < 2, p2Entry A D C P 2 0 i j = p2Entry A' D' C P 2 0 i j) ∧
    ¬ ∃ π, IsAssignment π 2 2 ∧ SameP2Components π [P] A D C [P] A' D' C 2 [2] 2 := by
  refine ⟨idMat2, idMat2, hadMat2 1, hadMat2 (1 / 2), full [1, 2] 1, idMat2, idMat2_indep, idMat2_indep, ?_, ?_, ?_⟩
  · intro k hk
    obtain rfl : k = 0 := by simpa using hk
    intro i hi j hj
    show ∑ l ∈ Finset.range 2, idMat2.get [l, i] * idMat2.get [l, j] = _
    rw [Finset.sum_range_succ, Finset.sum_range_one, idMat2_get (by norm_num) hi, idMat2_get (by norm_num) hj,
      idMat2_get (by norm_num) hi, idMat2_get (by norm_num) hj]
    interval_cases i <;> interval_cases j <;> norm_num
  · intro i hi j hj
    have hf : ∀ r < 2, (full [1, 2] (1:ℝ)).get [0, r] = 1 := fun r hr => get_full ⟨by norm_num, hr, trivial⟩
    simp only [p2Entry, Finset.sum_range_succ, Finset.sum_range_zero, hf 0 (by norm_num), hf 1 (by norm_num)]
    simp only [idMat2_get hi (show 0 < 2 by norm_num), idMat2_get hi (show 1 < 2 by norm_num),
      idMat2_get hj (show 0 < 2 by norm_num), idMat2_get hj (show 1 < 2 by norm_num),
      idMat2_get (show 0 < 2 by norm_num) (show 0 < 2 by norm_num), idMat2_get (show 0 < 2 by norm_num) (show 1 < 2 by norm_num),
      idMat2_get (show 1 < 2 by norm_num) (show 0 < 2 by norm_num), idMat2_get (show 1 < 2 by norm_num) (show 1 < 2 by norm_num),
      hadMat2_get hi (show 0 < 2 by norm_num), hadMat2_get hi (show 1 < 2 by norm_num),
      hadMat2_get (show 0 < 2 by norm_num) (show 0 < 2 by norm_num), hadMat2_get (show 0 < 2 by norm_num) (show 1 < 2 by norm_num),
      hadMat2_get (show 1 < 2 by norm_num) (show 0 < 2 by norm_num), hadMat2_get (show 1 < 2 by norm_num) (show 1 < 2 by norm_num)]
    interval_cases i <;> interval_cases j <;> norm_num
  · rintro ⟨π, hπ, h⟩
    obtain ⟨-, ⟨x, hx, h1⟩, -⟩ := h 0 (by norm_num)
    have hl := hπ.getD_lt (show 0 < 2 by norm_num)
    have h2 := h1 1 (by norm_num)
    rw [idMat2_get (by norm_num) (by norm_num), hadMat2_get (by norm_num) hl] at h2
    split at h2 <;> norm_num at h2

end

end TK
