import Verif.Props.Fms
import Verif.Model.CoreP2
import Verif.Lemmas.Parafac2

/-!
# Factor match score of PARAFAC2 tensors (C85)
-/

namespace TK
open NDArray

noncomputable section

/-! ### specification -/

/-- The matrices `P_k D` of `J` rows, one below the other. -/
def p2Stacked (P : List (NDArray ℝ)) (D : NDArray ℝ) (K J r R : ℕ) : NDArray ℝ :=
  ofMat (K * J) R fun p c => ∑ q ∈ Finset.range r, (nth P (p / J)).get [p % J, q] * D.get [q, c]

/-! ### stacking -/

theorem stackReshape_ok {B : List (NDArray ℝ)} {K J R : ℕ} (hB : Factors B (List.replicate K J) R) (hK : 0 < K) (hR : 0 < R) :
    stackReshape B R = .ok (ofMat (K * J) R fun p c => (nth B (p / J)).get [p % J, c]) := by
  have hl : B.length = K := by rw [hB.length_eq]; simp
  cases B with
  | nil => simp at hl; omega
  | cons B₀ Bs =>
    have hsh : ∀ k < K, (nth (B₀ :: Bs) k).shape = [J, R] := by
      intro k hk
      have hk' : k < (B₀ :: Bs).length := hl.symm ▸ hk
      rw [nth_lt hk']
      have := List.Forall₂.get hB hk' (by simpa using hk)
      simpa using this
    have h0 : B₀.shape = [J, R] := hsh 0 hK
    have hall : (Bs.all fun Bk => Bk.shape == B₀.shape) = true := by
      rw [List.all_eq_true]
      intro Bk hm
      obtain ⟨k, hk, rfl⟩ := List.getElem_of_mem hm
      have := hsh (k + 1) (by simp at hl; omega)
      rw [nth_succ, nth_lt hk] at this
      simp [this, h0]
    have hp : [(B₀ :: Bs).length, J, R].prod = K * J * R := by rw [hl]; simp [Nat.mul_assoc]
    rw [stackReshape, if_pos hall, h0]
    show reshapeCols _ R = _
    rw [reshapeCols, if_neg hR.ne', shape_ofFn, hp, Nat.mul_mod_left, if_pos rfl, Nat.mul_div_cancel _ hR,
      reshape_ok' (by rw [shape_ofFn, hp]; simp), ofFlat_mat]
    refine congrArg Except.ok (ofMat_congr fun p hp' c hc => ?_)
    have hJ : 0 < J := by
      rcases Nat.eq_zero_or_pos J with rfl | h
      · simp at hp'
      · exact h
    have hv : Valid [(B₀ :: Bs).length, J, R] [p / J, p % J, c] := by
      simp only [hl, valid_cons_iff]
      refine ⟨_, _, rfl, (Nat.div_lt_iff_lt_mul hJ).2 hp', _, _, rfl, Nat.mod_lt _ hJ, _, _, rfl, hc, ?_⟩
      simp
    have hr : p * R + c = ravel [(B₀ :: Bs).length, J, R] [p / J, p % J, c] := by
      simp only [ravel, List.prod_cons, List.prod_nil, mul_one, add_zero]
      conv_lhs => rw [← Nat.div_add_mod p J]
      ring
    rw [hr]
    exact get_ofFn hv

theorem stackReshape_irregular {B : List (NDArray ℝ)} {Js : List ℕ} {R : ℕ} (hB : Factors B Js R)
    (hne : ¬ ∀ j ∈ Js, ∀ j' ∈ Js, j = j') (n : ℕ) : stackReshape B n = .error .valueError := by
  cases hB with
  | nil => rfl
  | cons h1 h2 =>
    rename_i B₀ J Bs Js
    rw [stackReshape, if_neg]
    intro hall
    apply hne
    have : ∀ j ∈ Js, j = J := by
      intro j hj
      obtain ⟨k, hk, rfl⟩ := List.getElem_of_mem hj
      have hk' : k < Bs.length := by rw [h2.length_eq]; exact hk
      have e := List.Forall₂.get h2 hk' hk
      simp only [List.get_eq_getElem] at e
      have := List.all_eq_true.1 hall Bs[k] (List.getElem_mem _)
      rw [beq_iff_eq, e, h1] at this
      simpa using this
    have : ∀ j ∈ J :: Js, j = J := by
      intro j hj
      rcases List.mem_cons.1 hj with rfl | hj
      · rfl
      · exact this j hj
    exact fun j hj j' hj' => (this j hj).trans (this j' hj').symm

/-- The matrix that is compared, for slices of one size. -/
theorem stacked_ok {D : NDArray ℝ} {P : List (NDArray ℝ)} {K J r R : ℕ} (hD : D.shape = [r, R])
    (hP : Factors P (List.replicate K J) r) (hK : 0 < K) (hR : 0 < R) :
    (Parafac2Tensor.Bs D P >>= fun B => stackReshape B R) = .ok (p2Stacked P D K J r R) := by
  obtain ⟨B, e, hB, hB'⟩ := Bs_ok hD hP
  rw [e, bind_ok, stackReshape_ok hB hK hR]
  refine congrArg Except.ok (ofMat_congr fun p hp c hc => ?_)
  have hJ : 0 < J := by
    rcases Nat.eq_zero_or_pos J with rfl | h
    · simp at hp
    · exact h
  have hk : p / J < K := (Nat.div_lt_iff_lt_mul hJ).2 hp
  have hkP : p / J < P.length := by rw [hP.length_eq]; simpa using hk
  have hkB : p / J < B.length := by rw [hB.length_eq]; simpa using hk
  have hs := List.Forall₂.get hP hkP (by simpa using hk)
  have hm := List.Forall₂.get hB' hkP hkB
  simp only [List.get_eq_getElem, List.getElem_replicate] at hs hm
  rw [matmul_ok hs hD] at hm
  rw [nth_lt hkB, nth_lt hkP, ← Except.ok.inj hm, get_ofMat (Nat.mod_lt _ hJ) hc]

/-! ### C85 -/

/-- A PARAFAC2 tensor of the given sizes (as its constructor makes it). -/
structure Parafac2Tensor.Shaped (t : Parafac2Tensor) (I : ℕ) (Js : List ℕ) (r R : ℕ) : Prop where
  rank : t.rank = R
  A : t.A.shape = [I, R]
  D : t.blueprint.shape = [r, R]
  C : t.C.shape = [Js.length, R]
  P : Factors t.P Js r

/-- The constructor gives such a tensor. -/
theorem Parafac2Tensor.shaped_init {A D C : NDArray ℝ} {P : List (NDArray ℝ)} {I r R : ℕ} {Js : List ℕ} {w : Bool}
    {t : Parafac2Tensor} (hA : A.shape = [I, R]) (hD : D.shape = [r, R]) (hC : C.shape = [Js.length, R]) (hP : Factors P Js r)
    (e : Parafac2Tensor.init A D C P w = .ok t) : t.Shaped I Js r R := by
  unfold Parafac2Tensor.init at e
  rw [cols_ok hA, bind_ok] at e
  obtain ⟨B, eB, -, -⟩ := Bs_ok hD hP
  cases h1 : checkAllSameSize P with
  | error x => rw [h1, bind_error] at e; cases e
  | ok s =>
    rw [h1, bind_ok, eB, bind_ok] at e
    cases h2 : sliceShapesOf A B with
    | error x => rw [h2, bind_error] at e; cases e
    | ok l =>
      rw [h2, bind_ok] at e
      cases e
      exact ⟨rfl, hA, hD, hC, hP⟩

/-- For slices of one size the score is the factor match score of the lists `[A, B, C]`, where `B` are the matrices `P_k D` one below
the other. -/
theorem factorMatchScore_p2_eq {t d : Parafac2Tensor} {I K J r r' R : ℕ} (ht : t.Shaped I (List.replicate K J) r R)
    (hd : d.Shaped I (List.replicate K J) r' R) (hK : 0 < K) (hR : 0 < R) (penalty : Bool) (s : String) (eps : ℝ) :
    t.factorMatchScore d penalty s eps
      = factorMatchScore [t.A, p2Stacked t.P t.blueprint K J r R, t.C] [d.A, p2Stacked d.P d.blueprint K J r' R, d.C]
          penalty s eps := by
  have e1 := stacked_ok ht.D ht.P hK hR
  have e2 := stacked_ok hd.D hd.P hK hR
  obtain ⟨B, eB, -, -⟩ := Bs_ok ht.D ht.P
  obtain ⟨B', eB', -, -⟩ := Bs_ok hd.D hd.P
  rw [eB, bind_ok] at e1
  rw [eB', bind_ok] at e2
  rw [Parafac2Tensor.factorMatchScore, if_neg (by rw [ht.rank, hd.rank]; simp), eB, bind_ok, ht.rank, e1, bind_ok, eB', bind_ok,
    e2, bind_ok]

/-- **C85** for slices of one size: the score is the best one over all assignments of the components, where the evolving factor is
compared by the matrices `P_k D` one below the other. What is missing is the case of slices of different sizes
(`C85_irregular_raises`). -/
theorem C85_value_partial {eps : ℝ} (he : 0 < eps) {t d : Parafac2Tensor} {I K J r r' R : ℕ}
    (ht : t.Shaped I (List.replicate K J) r R) (hd : d.Shaped I (List.replicate K J) r' R) (hK : 0 < K) (hR : 0 < R)
    (useMin penalty : Bool)
    (hc : Comparable penalty [t.A, p2Stacked t.P t.blueprint K J r R, t.C] [d.A, p2Stacked d.P d.blueprint K J r' R, d.C]
      [I, K * J, K] R R) :
    ∃ v π, t.factorMatchScore d penalty (redName useMin) eps = .ok (v, some π) ∧ 0 ≤ v ∧ v ≤ 1 ∧
      IsBest useMin penalty eps [t.A, p2Stacked t.P t.blueprint K J r R, t.C] [d.A, p2Stacked d.P d.blueprint K J r' R, d.C]
        [I, K * J, K] R R v π := by
  rw [factorMatchScore_p2_eq ht hd hK hR]
  have h1 := ht.C
  have h2 := hd.C
  rw [List.length_replicate] at h1 h2
  exact C26_factor_match_score he hR le_rfl (.cons ht.A (.cons rfl (.cons h1 .nil))) (.cons hd.A (.cons rfl (.cons h2 .nil)))
    (by simp) useMin penalty hc

/-- **C85.** The score depends on the evolving factor matrices only, not on how they are split into projection matrices and blueprint:
tensors with the same matrices `P_k D` cannot be told apart. -/
theorem C85_representation {t d d' : Parafac2Tensor} {I K J r r' r'' R : ℕ} (ht : t.Shaped I (List.replicate K J) r R)
    (hd : d.Shaped I (List.replicate K J) r' R) (hd' : d'.Shaped I (List.replicate K J) r'' R) (hK : 0 < K) (hR : 0 < R)
    (hA : d'.A = d.A) (hC : d'.C = d.C)
    (hB : ∀ k < K, ∀ j < J, ∀ c < R, ∑ q ∈ Finset.range r'', (nth d'.P k).get [j, q] * d'.blueprint.get [q, c]
      = ∑ q ∈ Finset.range r', (nth d.P k).get [j, q] * d.blueprint.get [q, c])
    (penalty : Bool) (s : String) (eps : ℝ) :
    t.factorMatchScore d' penalty s eps = t.factorMatchScore d penalty s eps := by
  rw [factorMatchScore_p2_eq ht hd hK hR, factorMatchScore_p2_eq ht hd' hK hR, hA, hC]
  have : p2Stacked d'.P d'.blueprint K J r'' R = p2Stacked d.P d.blueprint K J r' R := by
    refine ofMat_congr fun p hp c hc => ?_
    have hJ : 0 < J := by
      rcases Nat.eq_zero_or_pos J with rfl | h
      · simp at hp
      · exact h
    exact hB (p / J) ((Nat.div_lt_iff_lt_mul hJ).2 hp) (p % J) (Nat.mod_lt _ hJ) c hc
  rw [this]

/-- **C85**, disagreement: as soon as two slices have different numbers of columns, the comparison raises `ValueError`, also of a tensor
with itself (the method it overrides, `EvolvingTensor.factor_match_score`, has no such restriction). -/
theorem C85_irregular_raises {t d : Parafac2Tensor} {I I' r r' R : ℕ} {Js Js' : List ℕ} (ht : t.Shaped I Js r R)
    (hd : d.Shaped I' Js' r' R) (hne : ¬ ∀ j ∈ Js, ∀ j' ∈ Js, j = j') (penalty : Bool) (s : String) (eps : ℝ) :
    t.factorMatchScore d penalty s eps = .error .valueError := by
  obtain ⟨B, eB, hB, -⟩ := Bs_ok ht.D ht.P
  rw [Parafac2Tensor.factorMatchScore, if_neg (by rw [ht.rank, hd.rank]; simp), eB, bind_ok,
    stackReshape_irregular hB hne, bind_error]

/-- **C85**, the same if the slices of the other tensor have different sizes. -/
theorem C85_irregular_other_raises {t d : Parafac2Tensor} {I I' K J r r' R : ℕ} {Js' : List ℕ}
    (ht : t.Shaped I (List.replicate K J) r R) (hd : d.Shaped I' Js' r' R) (hK : 0 < K) (hR : 0 < R)
    (hne : ¬ ∀ j ∈ Js', ∀ j' ∈ Js', j = j') (penalty : Bool) (s : String) (eps : ℝ) :
    t.factorMatchScore d penalty s eps = .error .valueError := by
  obtain ⟨B, eB, hB, -⟩ := Bs_ok ht.D ht.P
  obtain ⟨B', eB', hB', -⟩ := Bs_ok hd.D hd.P
  rw [Parafac2Tensor.factorMatchScore, if_neg (by rw [ht.rank, hd.rank]; simp), eB, bind_ok, ht.rank,
    stackReshape_ok hB hK hR, bind_ok, eB', bind_ok, stackReshape_irregular hB' hne, bind_error]

/-- **C85.** Different numbers of components raise `AssertionError`. -/
theorem C85_rank_raises {t d : Parafac2Tensor} (h : d.rank ≠ t.rank) (penalty : Bool) (s : String) (eps : ℝ) :
    t.factorMatchScore d penalty s eps = .error .assertionError := by
  rw [Parafac2Tensor.factorMatchScore, if_pos h]

/-- **C85**, witness: a tensor with slices of 1 and 2 columns; comparing it with itself raises, while comparing the same matrices as an
`EvolvingTensor` gives a score. -/
theorem C85_fails : ∃ (t : Parafac2Tensor) (u : EvolvingTensor) (v : ℝ) (π : List ℕ),
    Parafac2Tensor.init (ofMat 1 1 fun _ _ => 1) (ofMat 1 1 fun _ _ => 1) (ofMat 2 1 fun _ _ => 1)
      [ofMat 1 1 fun _ _ => 1, ofMat 2 1 fun _ _ => 1] = .ok t ∧
    EvolvingTensor.init t.A [ofMat 1 1 fun _ _ => 1, ofMat 2 1 fun _ _ => 1] t.C = .ok u ∧
    t.factorMatchScore t = .error .valueError ∧ u.factorMatchScore u = .ok (v, some π) := by
  obtain ⟨v, π, e, -⟩ := (C29_self (eps := 1e-15) (by norm_num) one_pos (a := [ofMat 1 1 fun _ _ => (1 : ℝ), ofMat 3 1 fun _ _ => 1,
    ofMat 2 1 fun _ _ => 1]) (sizes := [1, 3, 2]) (.cons rfl (.cons rfl (.cons rfl .nil))) (by simp) true true
    (fun _ r hr => ne_of_gt (compSize_pos (.cons rfl (.cons rfl (.cons rfl .nil))) (fun k hk => by
      obtain rfl : r = 0 := by omega
      have : k = 0 ∨ k = 1 ∨ k = 2 := by simp at hk; omega
      rcases this with rfl | rfl | rfl
      · exact ⟨0, by simp, by simp [get_ofMat]⟩
      · exact ⟨0, by simp, by simp [get_ofMat]⟩
      · exact ⟨0, by simp, by simp [get_ofMat]⟩)))).2
  have hinit : ∃ t, Parafac2Tensor.init (ofMat 1 1 fun _ _ => 1) (ofMat 1 1 fun _ _ => 1) (ofMat 2 1 fun _ _ => 1)
      [ofMat 1 1 fun _ _ => 1, ofMat 2 1 fun _ _ => 1] = .ok t := ⟨_, rfl⟩
  obtain ⟨t, et⟩ := hinit
  have hs := Parafac2Tensor.shaped_init (I := 1) (r := 1) (R := 1) (Js := [1, 2]) rfl rfl rfl (.cons rfl (.cons rfl .nil)) et
  have hA : t.A = ofMat 1 1 fun _ _ => 1 := by cases et; rfl
  have hC : t.C = ofMat 2 1 fun _ _ => 1 := by cases et; rfl
  refine ⟨t, _, v, π, et, by rw [hA, hC]; rfl, C85_irregular_raises hs hs (by simp) _ _ _, ?_⟩
  refine Eq.trans ?_ e
  have hv : vcatAll [ofMat 1 1 fun _ _ => (1 : ℝ), ofMat 2 1 fun _ _ => 1] = .ok (ofMat 3 1 fun _ _ => 1) := by
    show (vcat _ _ >>= fun x => pure x) = _
    rw [vcat_ok (m := 1) (m' := 2) (n := 1) rfl rfl, bind_ok]
    refine congrArg Except.ok (ofMat_congr fun i hi j hj => ?_)
    split
    · rw [get_ofMat (by omega) hj]
    · rw [get_ofMat (by omega) hj]
  rw [EvolvingTensor.factorMatchScore]
  show (vcatAll [ofMat 1 1 fun _ _ => (1 : ℝ), ofMat 2 1 fun _ _ => 1] >>= fun _ => _) = _
  rw [hv, bind_ok]
  show (vcatAll [ofMat 1 1 fun _ _ => (1 : ℝ), ofMat 2 1 fun _ _ => 1] >>= fun _ => _) = _
  rw [hv, bind_ok]
  rfl

/-! ### the method that is overridden -/

/-- `U` consists of the matrices `B_k` one below the other. -/
structure IsStack (U : NDArray ℝ) (B : List (NDArray ℝ)) (Js : List ℕ) (R : ℕ) : Prop where
  shape : U.shape = [Js.sum, R]
  entry : ∀ k < Js.length, ∀ j < Js.getD k 0, ∀ c < R, U.get [(Js.take k).sum + j, c] = (nth B k).get [j, c]

theorem vcatAll_stack {B : List (NDArray ℝ)} {Js : List ℕ} {R : ℕ} (hB : Factors B Js R) (hne : B ≠ []) :
    ∃ U, vcatAll B = .ok U ∧ IsStack U B Js R := by
  have key : ∀ {Bs : List (NDArray ℝ)} {Js : List ℕ}, Factors Bs Js R → ∀ {U : NDArray ℝ} {J : ℕ}, U.shape = [J, R] →
      ∃ V, Bs.foldlM (init := U) vcat = .ok V ∧ V.shape = [J + Js.sum, R] ∧
        (∀ j < J, ∀ c < R, V.get [j, c] = U.get [j, c]) ∧
        ∀ k < Js.length, ∀ j < Js.getD k 0, ∀ c < R, V.get [J + (Js.take k).sum + j, c] = (nth Bs k).get [j, c] := by
    intro Bs Js h
    induction h with
    | nil => intro U J hU; exact ⟨U, rfl, by simpa using hU, fun _ _ _ _ => rfl, fun k hk => by simp at hk⟩
    | cons h1 h2 ih =>
      rename_i B J' Bs Js
      intro U J hU
      have hv := vcat_ok hU h1
      obtain ⟨V, e, sV, g1, g2⟩ := ih (U := ofMat (J + J') R _) (J := J + J') rfl
      refine ⟨V, by rw [List.foldlM_cons, hv, bind_ok]; exact e, by rw [sV, List.sum_cons, Nat.add_assoc], ?_, ?_⟩
      · intro j hj c hc
        rw [g1 j (by omega) c hc, get_ofMat (by omega) hc, if_pos hj]
      · intro k hk j hj c hc
        cases k with
        | zero =>
          have hj : j < J' := hj
          rw [List.take_zero, List.sum_nil, Nat.add_zero, g1 _ (by omega) c hc, get_ofMat (by omega) hc, if_neg (by omega),
            Nat.add_sub_cancel_left, nth_zero]
        | succ k =>
          have := g2 k (by simpa using hk) j hj c hc
          rw [List.take_succ_cons, List.sum_cons, ← Nat.add_assoc, this, nth_succ]
  cases hB with
  | nil => exact absurd rfl hne
  | cons h1 h2 =>
    rename_i B J Bs Js
    obtain ⟨V, e, sV, g1, g2⟩ := key h2 h1
    refine ⟨V, e, by simpa using sV, fun k hk j hj c hc => ?_⟩
    cases k with
    | zero => simpa [nth_zero] using g1 j hj c hc
    | succ k => simpa [nth_succ] using g2 k (by simpa using hk) j hj c hc

/-- **C85** for evolving tensors, slices of any sizes: the score is the best one over all assignments of the components, where the
evolving factor is compared by the matrices `B_k` one below the other. -/
theorem C85_evolving {eps : ℝ} (he : 0 < eps) {t d : EvolvingTensor} {I K R R' : ℕ} {Js : List ℕ} (hA : t.A.shape = [I, R])
    (hB : Factors t.B Js R) (hC : t.C.shape = [K, R]) (hA' : d.A.shape = [I, R']) (hB' : Factors d.B Js R')
    (hC' : d.C.shape = [K, R']) (hJ : Js ≠ []) (hR : 0 < R) (hRR : R ≤ R') (useMin penalty : Bool)
    (hz : ∀ r < R, (∃ i < I, t.A.get [i, r] ≠ 0) ∧ (∃ k < Js.length, ∃ j < Js.getD k 0, (nth t.B k).get [j, r] ≠ 0) ∧
      ∃ k < K, t.C.get [k, r] ≠ 0) :
    ∃ U U' v π, IsStack U t.B Js R ∧ IsStack U' d.B Js R' ∧
      t.factorMatchScore d penalty (redName useMin) eps = .ok (v, some π) ∧ 0 ≤ v ∧ v ≤ 1 ∧
      IsBest useMin penalty eps [t.A, U, t.C] [d.A, U', d.C] [I, Js.sum, K] R R' v π := by
  have hl : ∀ {B : List (NDArray ℝ)} {n}, Factors B Js n → B ≠ [] := by
    rintro B n h rfl
    cases h
    exact hJ rfl
  obtain ⟨U, e, hU⟩ := vcatAll_stack hB (hl hB)
  obtain ⟨U', e', hU'⟩ := vcatAll_stack hB' (hl hB')
  have hf : Factors [t.A, U, t.C] [I, Js.sum, K] R := .cons hA (.cons hU.shape (.cons hC .nil))
  obtain ⟨v, π, ev, h0, h1, hb⟩ := C26_factor_match_score he hR hRR hf (.cons hA' (.cons hU'.shape (.cons hC' .nil))) (by simp)
    useMin penalty (comparable_of_nonzero (fun r hr => ne_of_gt (compSize_pos hf (fun k hk => by
      obtain ⟨zA, ⟨k', hk', j, hj, zB⟩, zC⟩ := hz r hr
      have : k = 0 ∨ k = 1 ∨ k = 2 := by simp at hk; omega
      rcases this with rfl | rfl | rfl
      · exact zA
      · refine ⟨(Js.take k').sum + j, ?_, by simpa [hU.entry k' hk' j hj r hr] using zB⟩
        show _ < Js.sum
        have e1 : (Js.take k').sum + (Js.drop k').sum = Js.sum := by rw [← List.sum_append, List.take_append_drop]
        have e2 : Js.drop k' = Js[k'] :: Js.drop (k' + 1) := List.drop_eq_getElem_cons hk'
        rw [e2, List.sum_cons] at e1
        rw [getD_eq_getElem' _ hk'] at hj
        omega
      · exact zC))))
  refine ⟨U, U', v, π, hU, hU', ?_, h0, h1, hb⟩
  rw [EvolvingTensor.factorMatchScore, EvolvingTensor.BUnfolded, e, bind_ok, EvolvingTensor.BUnfolded, e', bind_ok, ev]

/-- The hypotheses of `C85_value_partial` hold for tensors made by the constructor. -/
example : ∃ t d : Parafac2Tensor, t.Shaped 1 (List.replicate 2 2) 1 1 ∧ d.Shaped 1 (List.replicate 2 2) 1 1 ∧
    Comparable true [t.A, p2Stacked t.P t.blueprint 2 2 1 1, t.C] [d.A, p2Stacked d.P d.blueprint 2 2 1 1, d.C] [1, 4, 2] 1 1 := by
  have hinit : ∀ x : ℝ, ∃ t, Parafac2Tensor.init (ofMat 1 1 fun _ _ => 1) (ofMat 1 1 fun _ _ => 1) (ofMat 2 1 fun _ _ => x)
      [ofMat 2 1 fun _ _ => 1, ofMat 2 1 fun _ _ => 1] = .ok t := fun x => ⟨_, rfl⟩
  obtain ⟨t, et⟩ := hinit 1
  obtain ⟨d, ed⟩ := hinit 2
  have hs := Parafac2Tensor.shaped_init (I := 1) (r := 1) (R := 1) (Js := [2, 2]) rfl rfl rfl (.cons rfl (.cons rfl .nil)) et
  have hs' := Parafac2Tensor.shaped_init (I := 1) (r := 1) (R := 1) (Js := [2, 2]) rfl rfl rfl (.cons rfl (.cons rfl .nil)) ed
  refine ⟨t, d, hs, hs', comparable_of_nonzero fun r hr => ne_of_gt (compSize_pos (.cons hs.A (.cons rfl (.cons hs.C .nil))) ?_)⟩
  obtain rfl : r = 0 := by omega
  cases et
  intro k hk
  have : k = 0 ∨ k = 1 ∨ k = 2 := by simp at hk; omega
  rcases this with rfl | rfl | rfl
  · exact ⟨0, by simp, by simp [get_ofMat]⟩
  · exact ⟨0, by simp, by simp [p2Stacked, get_ofMat, nth]⟩
  · exact ⟨0, by simp, by simp [get_ofMat]⟩

end
end TK
