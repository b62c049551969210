import Verif.Props.P2Uniqueness
import Verif.Props.CMTFFails

/-!
# The factor match score of PARAFAC2 models with the same slices (C149)
-/

namespace TK
open NDArray Matrix

noncomputable section

variable {I K J R : ℕ} {eps : ℝ}

theorem colLen_scaled {F G : NDArray ℝ} {m r s : ℕ} {x : ℝ} (h : ∀ i < m, G.get [i, s] = x * F.get [i, r]) :
    colLen G m s = |x| * colLen F m r := by
  rw [colLen, colLen, ← Real.sqrt_sq_eq_abs, ← Real.sqrt_mul (sq_nonneg _), Finset.mul_sum]
  refine congrArg Real.sqrt (Finset.sum_congr rfl fun i hi => ?_)
  rw [h i (Finset.mem_range.1 hi)]; ring

theorem replicate_getD {k : ℕ} (hk : k < K) : (List.replicate K J).getD k 0 = J := by
  rw [getD_eq_getElem' _ (by simpa using hk), List.getElem_replicate]

/-- The evolving columns of a model with orthonormal projection matrices are not zero. -/
theorem projected_column_ne_zero {Pk D : NDArray ℝ} {r : ℕ} (ho : OrthoCols Pk J R) (hD : IndepColumns D R R) (hr : r < R) :
    ∃ j < J, ∑ q ∈ Finset.range R, Pk.get [j, q] * D.get [q, r] ≠ 0 := by
  by_contra hn
  push Not at hn
  obtain ⟨q, hq, hne⟩ := hD.column_ne_zero hr
  have h1 : (mat Pk J R)ᵀ * (mat Pk J R * mat D R R) = mat D R R := by
    rw [← Matrix.mul_assoc, orthoCols_iff.1 ho, Matrix.one_mul]
  have h2 := congrFun (congrFun h1 ⟨q, hq⟩) ⟨r, hr⟩
  rw [mul_apply, Finset.sum_eq_zero] at h2
  · exact hne h2.symm
  · intro j _
    rw [mat_mul_apply, hn j j.2, mul_zero]

/-- **C149**, what holds: if the weights of the slices of the first model are positive and those of the second are not
negative, the score of two models with the same slices is one up to the guard `eps`, with and without the weight penalty: it
is at least the least (or the mean) over the components of the products of `n / (n + eps)` over all columns of the two components.
What is missing are weights of other signs (`C149_fails`). -/
theorem C149_score_partial (he : 0 < eps) {t t' : Parafac2Tensor} (ht : t.Shaped I (List.replicate K J) R R)
    (ht' : t'.Shaped I (List.replicate K J) R R) (hK : 0 < K) (hR : 0 < R)
    (hI : P2Identifiable t.P t.A t.blueprint t.C I (List.replicate K J) R) (hP' : OrthoAll t'.P (List.replicate K J) R)
    (h : t.constructSlices = t'.constructSlices) (hpos : ∀ k < K, ∀ r < R, 0 < t.C.get [k, r])
    (hpos' : ∀ k < K, ∀ r < R, 0 ≤ t'.C.get [k, r]) (useMin penalty : Bool) :
    ∃ v ρ π, t.factorMatchScore t' penalty (redName useMin) eps = .ok (v, some ρ) ∧ v ≤ 1 ∧ IsAssignment π R R ∧
      (if useMin then reduceMin else reduceMean) R (fun r =>
        guard eps [t.A, p2Stacked t.P t.blueprint K J R R, t.C] [I, K * J, K] r
          * guard eps [t'.A, p2Stacked t'.P t'.blueprint K J R R, t'.C] [I, K * J, K] (π.getD r 0)) ≤ v := by
  obtain ⟨Y, e, -, -, g⟩ := ht.slices
  obtain ⟨Y', e', -, -, g'⟩ := ht'.slices
  rw [e, e'] at h
  obtain rfl := Except.ok.inj h
  obtain ⟨π, h1, h2, h3⟩ := p2_components_agree hI hP' fun k hk i hi j hj => by rw [← g k hk i hi j hj, ← g' k hk i hi j hj]
  have hJ : ∀ k < K, (List.replicate K J).getD k 0 = J := fun k hk => replicate_getD hk
  have hstack : ∀ (P : List (NDArray ℝ)) (D : NDArray ℝ), ∀ p < K * J, ∀ c < R, (p2Stacked P D K J R R).get [p, c] =
      ∑ q ∈ Finset.range R, (nth P (p / J)).get [p % J, q] * D.get [q, c] := fun P D p hp c hc => get_ofMat hp hc
  have hrow : ∀ p < K * J, p / J < K ∧ p % J < J := by
    intro p hp
    have hJ0 : 0 < J := by
      rcases Nat.eq_zero_or_pos J with rfl | h
      · simp at hp
      · exact h
    exact ⟨(Nat.div_lt_iff_lt_mul hJ0).2 hp, Nat.mod_lt _ hJ0⟩
  have key : ∀ r < R, ∃ x y z : ℝ, x ≠ 0 ∧ y ≠ 0 ∧ z ≠ 0 ∧ |x| * (|y| * |z|) = 1 ∧
      (∀ i < I, t'.A.get [i, π.getD r 0] = x * t.A.get [i, r]) ∧
      (∀ p < K * J, (p2Stacked t'.P t'.blueprint K J R R).get [p, π.getD r 0]
        = y * (p2Stacked t.P t.blueprint K J R R).get [p, r]) ∧
      ∀ k < K, t'.C.get [k, π.getD r 0] = z * t.C.get [k, r] := by
    intro r hr
    have hπr := h1.getD_lt hr
    obtain ⟨-, -, z, hz, hzC⟩ := h2 r hr
    obtain ⟨μ, hμ, hA, hB⟩ := h3 r hr
    have hC : ∀ k < K, t'.C.get [k, π.getD r 0] = z * t.C.get [k, r] := by
      intro k hk
      have := hzC k (by simpa using hk)
      rwa [abs_of_nonneg (hpos' k hk _ hπr), abs_of_pos (hpos k hk r hr)] at this
    refine ⟨μ⁻¹, μ / z, z, inv_ne_zero hμ, div_ne_zero hμ hz.ne', hz.ne', ?_, fun i hi => ?_, fun p hp => ?_, hC⟩
    · rw [abs_inv, abs_div, div_mul_cancel₀ _ (abs_ne_zero.2 hz.ne'), inv_mul_cancel₀ (abs_ne_zero.2 hμ)]
    · rw [← hA i hi, inv_mul_cancel_left₀ hμ]
    · obtain ⟨hk, hj⟩ := hrow p hp
      rw [hstack _ _ p hp _ hπr, hstack _ _ p hp _ hr]
      have h5 := hB (p / J) (by simpa using hk) (p % J) (by rw [hJ _ hk]; exact hj)
      rw [hC _ hk] at h5
      have h6 := (hpos _ hk r hr).ne'
      rw [div_mul_eq_mul_div, eq_div_iff hz.ne']
      refine mul_left_cancel₀ h6 ?_
      linear_combination h5
  have f1 : Factors [t.A, p2Stacked t.P t.blueprint K J R R, t.C] [I, K * J, K] R := by
    have := ht.C
    rw [List.length_replicate] at this
    exact .cons ht.A (.cons rfl (.cons this .nil))
  have hc : Comparable penalty [t.A, p2Stacked t.P t.blueprint K J R R, t.C]
      [t'.A, p2Stacked t'.P t'.blueprint K J R R, t'.C] [I, K * J, K] R R := fun _ r hr s hs => by
    refine Or.inl (ne_of_gt (compSize_pos f1 fun k hk => ?_))
    have : k = 0 ∨ k = 1 ∨ k = 2 := by simp at hk; omega
    rcases this with rfl | rfl | rfl
    · exact hI.A.column_ne_zero hr
    · have ho := hI.P 0 (by simpa using hK)
      rw [hJ 0 hK] at ho
      obtain ⟨j, hj, hne⟩ := projected_column_ne_zero ho hI.D hr
      have hjK : j < K * J := lt_of_lt_of_le hj (Nat.le_mul_of_pos_left _ hK)
      refine ⟨j, hjK, ?_⟩
      show (p2Stacked t.P t.blueprint K J R R).get [j, r] ≠ 0
      rw [hstack _ _ j hjK _ hr, Nat.div_eq_of_lt hj, Nat.mod_eq_of_lt hj]
      exact hne
    · exact ⟨0, hK, (hpos 0 hK r hr).ne'⟩
  obtain ⟨v, ρ, e, -, v1, hb⟩ := C85_value_partial he ht ht' hK hR useMin penalty hc
  refine ⟨v, ρ, π, e, v1, h1, le_trans (le_of_eq ?_) (hb.best π h1)⟩
  refine redVal_congr (m := useMin) fun r hr => ?_
  obtain ⟨x, y, z, hx, hy, hz, hxyz, kA, kB, kC⟩ := key r hr
  rw [compMatch, congruenceProd_agree he (fs := [t.A, p2Stacked t.P t.blueprint K J R R, t.C])
    (fs' := [t'.A, p2Stacked t'.P t'.blueprint K J R R, t'.C]) rfl (.cons ⟨x, hx, kA⟩ (.cons ⟨y, hy, kB⟩ (.cons ⟨z, hz, kC⟩ .nil)))]
  cases penalty with
  | false => simp
  | true =>
    have k2 : compSize [t'.A, p2Stacked t'.P t'.blueprint K J R R, t'.C] [I, K * J, K] (π.getD r 0)
        = compSize [t.A, p2Stacked t.P t.blueprint K J R R, t.C] [I, K * J, K] r := by
      simp only [compSize, modeProd]
      rw [colLen_scaled kA, colLen_scaled kB, colLen_scaled kC]
      linear_combination colLen t.A I r * colLen (p2Stacked t.P t.blueprint K J R R) (K * J) r * colLen t.C K r * hxyz
    rw [if_pos rfl, k2, sizeMatch, sub_self, abs_zero, zero_div, sub_zero, one_mul]

/-- Five positive weights of two components, in general position. -/
def rowsPos : NDArray ℝ := ofMat 5 2 fun k r => if r = 0 then 1 else (k : ℝ) + 1

theorem rowsPos_get {k r : ℕ} (hk : k < 5) (hr : r < 2) : rowsPos.get [k, r] = if r = 0 then 1 else (k : ℝ) + 1 := get_ofMat hk hr

/-- The hypotheses of `C149_score_partial` on the first model. -/
example : P2Identifiable (List.replicate 5 idMat2) idMat2 idMat2 rowsPos 2 (List.replicate 5 2) 2 ∧
    ∀ k < 5, ∀ r < 2, 0 < rowsPos.get [k, r] := by
  refine ⟨⟨idMat2_indep, idMat2_indep, fun g h z => ?_, fun k hk => ?_⟩, fun k hk r hr => ?_⟩
  · have h0 := h 0 (by norm_num)
    have h1 := h 1 (by norm_num)
    have h2 := h 2 (by norm_num)
    have h3 := h 3 (by norm_num)
    have h4 := h 4 (by norm_num)
    rw [quartic_two] at h0 h1 h2 h3 h4 ⊢
    rw [rowsPos_get (by norm_num) (by norm_num), rowsPos_get (by norm_num) (by norm_num)] at h0 h1 h2 h3 h4
    generalize g 0 0 0 0 = a at *
    generalize g 0 0 0 1 + g 0 0 1 0 + g 0 1 0 0 + g 1 0 0 0 = b at *
    generalize g 0 0 1 1 + g 0 1 0 1 + g 0 1 1 0 + g 1 0 0 1 + g 1 0 1 0 + g 1 1 0 0 = c at *
    generalize g 0 1 1 1 + g 1 0 1 1 + g 1 1 0 1 + g 1 1 1 0 = d at *
    generalize g 1 1 1 1 = e at *
    norm_num at h0 h1 h2 h3 h4
    have he : e = 0 := by linarith
    have hd : d = 0 := by linarith
    have hc : c = 0 := by linarith
    have hb : b = 0 := by linarith
    have ha : a = 0 := by linarith
    rw [ha, hb, hc, hd, he]; ring
  · have hk : k < 5 := by simpa using hk
    have e : nth (List.replicate 5 idMat2) k = idMat2 := by rw [nth_lt (by simpa using hk), List.getElem_replicate]
    rw [e, replicate_getD hk]
    intro i hi j hj
    rw [Finset.sum_range_succ, Finset.sum_range_one, idMat2_get (by norm_num) hi, idMat2_get (by norm_num) hj,
      idMat2_get (by norm_num) hi, idMat2_get (by norm_num) hj]
    interval_cases i <;> interval_cases j <;> norm_num
  · rw [rowsPos_get hk hr]
    split
    · exact one_pos
    · positivity

/-! ### The disagreement -/

theorem full_one_get (x : ℝ) : (full [1, 1] x).get [0, 0] = x := get_full ⟨by norm_num, by norm_num, trivial⟩

theorem p2Entry_one (A D C Pk : NDArray ℝ) (k i j : ℕ) : p2Entry A D C Pk 1 k i j = p2Term A D C Pk 1 k i j 0 := by
  rw [p2Entry, Finset.sum_range_one, p2Term]

theorem p2_indep_one : IndepColumns (full [1, 1] (1:ℝ)) 1 1 := by
  intro v hv j hj
  have := hv 0 (by norm_num)
  rw [Finset.sum_range_one, full_one_get, one_mul] at this
  obtain rfl : j = 0 := by omega
  exact this

theorem p2_ortho_signs {x : ℝ} (hx : x * x = 1) : OrthoAll [full [1, 1] 1, full [1, 1] x] (List.replicate 2 1) 1 := by
  intro k hk i hi j hj
  obtain rfl : i = 0 := by omega
  obtain rfl : j = 0 := by omega
  have : k = 0 ∨ k = 1 := by simp at hk; omega
  rcases this with rfl | rfl
  · show ∑ l ∈ Finset.range 1, (full [1, 1] (1:ℝ)).get [l, 0] * (full [1, 1] (1:ℝ)).get [l, 0] = _
    rw [Finset.sum_range_one, full_one_get]; norm_num
  · show ∑ l ∈ Finset.range 1, (full [1, 1] x).get [l, 0] * (full [1, 1] x).get [l, 0] = _
    rw [Finset.sum_range_one, full_one_get, hx]; norm_num

/-- **C149**, disagreement: two models with the same slices and the same component, whose score is zero. The second differs from the
first in the sign of the second slice's weight and projection matrix. -/
theorem C149_fails (he : 0 < eps) : ∃ t t' : Parafac2Tensor,
    Parafac2Tensor.init (full [1, 1] 1) (full [1, 1] 1) (col2 1 1) [full [1, 1] 1, full [1, 1] 1] = .ok t ∧
    Parafac2Tensor.init (full [1, 1] 1) (full [1, 1] 1) (col2 1 (-1)) [full [1, 1] 1, full [1, 1] (-1)] = .ok t' ∧
    P2Identifiable t.P t.A t.blueprint t.C 1 (List.replicate 2 1) 1 ∧ OrthoAll t'.P (List.replicate 2 1) 1 ∧
    t.constructSlices = t'.constructSlices ∧
    SameP2Components [0] t.P t.A t.blueprint t.C t'.P t'.A t'.blueprint t'.C 1 (List.replicate 2 1) 1 ∧
    ∀ useMin penalty : Bool, ∃ ρ, t.factorMatchScore t' penalty (redName useMin) eps = .ok (0, some ρ) := by
  have hinit : ∀ x : ℝ, ∃ t, Parafac2Tensor.init (full [1, 1] 1) (full [1, 1] 1) (col2 1 x) [full [1, 1] 1, full [1, 1] x] = .ok t :=
    fun x => ⟨_, rfl⟩
  have hsh : ∀ {x : ℝ} {t}, Parafac2Tensor.init (full [1, 1] 1) (full [1, 1] 1) (col2 1 x) [full [1, 1] 1, full [1, 1] x] = .ok t →
      t.Shaped 1 (List.replicate 2 1) 1 1 := fun e =>
    Parafac2Tensor.shaped_init (I := 1) (r := 1) (R := 1) (Js := List.replicate 2 1) rfl rfl rfl (.cons rfl (.cons rfl .nil)) e
  have hf : ∀ {x : ℝ} {t}, Parafac2Tensor.init (full [1, 1] 1) (full [1, 1] 1) (col2 1 x) [full [1, 1] 1, full [1, 1] x] = .ok t →
      t.A = full [1, 1] 1 ∧ t.blueprint = full [1, 1] 1 ∧ t.C = col2 1 x ∧ t.P = [full [1, 1] 1, full [1, 1] x] := by
    intro x t e
    cases e
    exact ⟨rfl, rfl, rfl, rfl⟩
  obtain ⟨t, et⟩ := hinit 1
  obtain ⟨t', et'⟩ := hinit (-1)
  have hs := hsh et
  have hs' := hsh et'
  obtain ⟨a1, a2, a3, a4⟩ := hf et
  obtain ⟨b1, b2, b3, b4⟩ := hf et'
  have hterm : ∀ (x : ℝ), x * x = 1 → ∀ k < 2, p2Term (full [1, 1] 1) (full [1, 1] 1) (col2 1 x)
      (nth [full [1, 1] 1, full [1, 1] x] k) 1 k 0 0 0 = 1 := by
    intro x hx k hk
    interval_cases k
    · show (full [1, 1] (1:ℝ)).get [0, 0] * (col2 1 x).get [0, 0] * ∑ q ∈ Finset.range 1, (full [1, 1] (1:ℝ)).get [0, q] * (full [1, 1] (1:ℝ)).get [q, 0] = 1
      rw [Finset.sum_range_one, full_one_get, col2_zero]; norm_num
    · show (full [1, 1] (1:ℝ)).get [0, 0] * (col2 1 x).get [1, 0] * ∑ q ∈ Finset.range 1, (full [1, 1] x).get [0, q] * (full [1, 1] (1:ℝ)).get [q, 0] = 1
      rw [Finset.sum_range_one, full_one_get, full_one_get, col2_one]; linarith
  refine ⟨t, t', et, et', ?_, ?_, ?_, ?_, fun useMin penalty => ?_⟩
  · rw [a1, a2, a3, a4]
    refine ⟨p2_indep_one, p2_indep_one, fun g hg z => ?_, p2_ortho_signs (by norm_num)⟩
    have := hg 0 (by norm_num)
    simp only [quartic, Finset.sum_range_one, col2_zero] at this ⊢
    norm_num at this
    rw [this, zero_mul]
  · rw [b4]; exact p2_ortho_signs (by norm_num)
  · obtain ⟨Y, e, l, sh, g⟩ := hs.slices
    obtain ⟨Y', e', l', sh', g'⟩ := hs'.slices
    rw [e, e']
    refine congrArg Except.ok (List.ext_getElem (l.trans l'.symm) fun k hk hk' => ?_)
    have hk2 : k < 2 := by rw [l] at hk; simpa using hk
    have hk3 : k < (List.replicate 2 1).length := by simpa using hk2
    have s1 := sh k hk3
    have s2 := sh' k hk3
    rw [replicate_getD hk2] at s1 s2
    rw [← nth_lt hk, ← nth_lt hk']
    refine ext_mat s1 s2 fun i hi j hj => ?_
    have hj' : j < (List.replicate 2 1).getD k 0 := by rw [replicate_getD hk2]; exact hj
    rw [g k hk3 i hi j hj', g' k hk3 i hi j hj', p2Entry_one, p2Entry_one,
      a1, a2, a3, a4, b1, b2, b3, b4]
    obtain rfl : i = 0 := by omega
    obtain rfl : j = 0 := by omega
    exact (hterm 1 (by norm_num) k hk2).trans (hterm (-1) (by norm_num) k hk2).symm
  · rw [a1, a2, a3, a4, b1, b2, b3, b4]
    intro r hr
    obtain rfl : r = 0 := by omega
    refine ⟨fun k hk i hi j hj => ?_, ⟨1, one_ne_zero, fun i hi => (one_mul _).symm⟩, 1, one_pos, fun k hk => ?_⟩
    · have hk : k < 2 := by simpa using hk
      rw [replicate_getD hk] at hj
      obtain rfl : i = 0 := by omega
      obtain rfl : j = 0 := by omega
      exact (hterm (-1) (by norm_num) k hk).trans (hterm 1 (by norm_num) k hk).symm
    · have hk : k < 2 := by simpa using hk
      interval_cases k
      · show |(col2 1 (-1)).get [0, 0]| = 1 * |(col2 1 1).get [0, 0]|
        rw [col2_zero, col2_zero]; norm_num
      · show |(col2 1 (-1)).get [1, 0]| = 1 * |(col2 1 1).get [1, 0]|
        rw [col2_one, col2_one]; norm_num
  · have f1 : Factors [t.A, p2Stacked t.P t.blueprint 2 1 1 1, t.C] [1, 2 * 1, 2] 1 := .cons hs.A (.cons rfl (.cons hs.C .nil))
    obtain ⟨v, π, e, -, -, hb⟩ := C85_value_partial he hs hs' (by norm_num) (by norm_num) useMin penalty (fun _ r hr _ _ => by
      obtain rfl : r = 0 := by omega
      refine Or.inl (ne_of_gt (compSize_pos f1 fun k hk => ?_))
      have : k = 0 ∨ k = 1 ∨ k = 2 := by simp at hk; omega
      rcases this with rfl | rfl | rfl
      · refine ⟨0, by norm_num, ?_⟩
        show t.A.get [0, 0] ≠ 0
        rw [a1, full_one_get]; norm_num
      · refine ⟨0, by norm_num, ?_⟩
        show (p2Stacked t.P t.blueprint 2 1 1 1).get [0, 0] ≠ 0
        rw [p2Stacked, get_ofMat (by norm_num) (by norm_num), a2, a4, Finset.sum_range_one]
        show (full [1, 1] (1:ℝ)).get [0, 0] * (full [1, 1] (1:ℝ)).get [0, 0] ≠ 0
        rw [full_one_get]; norm_num
      · refine ⟨0, by norm_num, ?_⟩
        show t.C.get [0, 0] ≠ 0
        rw [a3, col2_zero]; norm_num)
    refine ⟨π, ?_⟩
    rw [e]
    have hv : v = 0 := by
      have h0 : ∀ r < 1, compMatch penalty eps [t.A, p2Stacked t.P t.blueprint 2 1 1 1, t.C]
          [t'.A, p2Stacked t'.P t'.blueprint 2 1 1 1, t'.C] [1, 2 * 1, 2] r (π.getD r 0) = 0 := by
        intro r hr
        have := hb.assignment.getD_lt hr
        obtain rfl : r = 0 := by omega
        have e0 : π.getD 0 0 = 0 := by omega
        rw [e0, compMatch]
        have : colDot t.C t'.C 2 0 0 = 0 := by
          rw [colDot, Finset.sum_range_succ, Finset.sum_range_one, a3, b3, col2_zero, col2_zero, col2_one, col2_one]; norm_num
        simp [congruenceProd, congruence, this]
      rw [hb.attained]
      cases useMin with
      | false =>
        show reduceMean 1 _ = 0
        rw [reduceMean, Finset.sum_range_one, h0 0 (by norm_num), zero_div]
      | true =>
        rw [assignScore, if_pos rfl, reduceMin]
        have : ∀ r : Fin 1, compMatch penalty eps [t.A, p2Stacked t.P t.blueprint 2 1 1 1, t.C]
          [t'.A, p2Stacked t'.P t'.blueprint 2 1 1 1, t'.C] [1, 2 * 1, 2] r (π.getD r 0) = 0 := fun r => h0 r r.2
        simp only [this]
        exact ciInf_const
    rw [hv]

end

end TK
