import Verif.Lemmas.Evolving
import Verif.Props.Kruskal

/-!
# Properties C22 - C25 (evolving and PARAFAC2 tensors) and the PARAFAC2 part of C68
-/

namespace TK
open NDArray Matrix

noncomputable section

/-! ### C22 -/

/-- C22: `construct_slices`. -/
theorem C22_slices {A C : NDArray ℝ} {B : List (NDArray ℝ)} {Js : List ℕ} {I K R : ℕ} {w : Bool}
    (hA : A.shape = [I, R]) (hB : Factors B Js R) (hC : C.shape = [K, R]) (hK : Js.length = K) (hne : Js ≠ []) :
    ∃ t Ss, EvolvingTensor.init A B C w = .ok t ∧ t.constructSlices = .ok Ss ∧ Ss.length = K ∧
      ∀ k (hk : k < Js.length) (hk' : k < B.length), ∃ S, Ss[k]? = some S ∧ S.shape = [I, Js[k]] ∧
        ∀ i < I, ∀ j < Js[k], S.get [i, j] = ∑ r ∈ Finset.range R, A.get [i, r] * C.get [k, r] * B[k].get [j, r] := by
  obtain ⟨Ss, e, hl, hs⟩ := evolvingSlicesFrom_ok hA hC (k := 0) hB (by omega)
  refine ⟨_, Ss, evolving_init_ok hA hB hne w, e, hl.trans hK, fun k hk hk' => ?_⟩
  have := hs k hk hk'
  rw [Nat.zero_add] at this
  exact ⟨_, this, rfl, fun i hi j hj => get_ofMat hi hj⟩

/-- C22: `construct_slice(k)` is the `k`-th of them. -/
theorem C22_slice {A C : NDArray ℝ} {B : List (NDArray ℝ)} {Js : List ℕ} {I K R : ℕ} {w : Bool}
    (hA : A.shape = [I, R]) (hB : Factors B Js R) (hC : C.shape = [K, R]) (hK : Js.length = K) (hne : Js ≠ []) :
    ∃ t Ss, EvolvingTensor.init A B C w = .ok t ∧ t.constructSlices = .ok Ss ∧
      ∀ k < K, ∃ S, t.constructSlice k = .ok S ∧ Ss[k]? = some S := by
  obtain ⟨Ss, e, hl, hs⟩ := evolvingSlicesFrom_ok hA hC (k := 0) hB (by omega)
  refine ⟨_, Ss, evolving_init_ok hA hB hne w, e, fun k hk => ?_⟩
  have hk' : k < B.length := by rw [hB.length_eq]; omega
  have h1 := hs k (by omega) hk'
  rw [Nat.zero_add] at h1
  refine ⟨_, ?_, h1⟩
  rw [EvolvingTensor.constructSlice]
  have : pyGet B (k : ℤ) = .ok B[k] := pyGet_ok (normIdx_natCast hk') |>.trans (by simp [hk'])
  simp only
  rw [this, bind_ok]
  have hsh := hB.shape_get hk'
  rw [getD_eq_getElem' _ (by omega)] at hsh
  exact evolvingSlice_ok hA hsh hC hk

/-- C22: `construct_tensor` when the sizes agree or the warning is disabled. -/
theorem C22_construct_tensor {A C : NDArray ℝ} {B : List (NDArray ℝ)} {Js : List ℕ} {I K R : ℕ} {w : Bool}
    (hA : A.shape = [I, R]) (hB : Factors B Js R) (hC : C.shape = [K, R]) (hK : Js.length = K) (hne : Js ≠ [])
    (hw : w = false ∨ ∀ j ∈ Js, ∀ j' ∈ Js, j = j') :
    ∃ t X Jm, EvolvingTensor.init A B C w = .ok t ∧ t.constructTensor = .ok X ∧
      (Jm ∈ Js ∧ ∀ j ∈ Js, j ≤ Jm) ∧ X.shape = [I, Jm, K] ∧
      ∀ k (hk : k < Js.length) (hk' : k < B.length), ∀ i < I, ∀ j < Jm, X.get [i, j, k] =
        if j < Js[k] then ∑ r ∈ Finset.range R, A.get [i, r] * C.get [k, r] * B[k].get [j, r] else 0 := by
  have hJ : ∀ j ∈ Js, j ≤ Js.foldr max 0 := fun j => le_foldr_max
  obtain ⟨T', e, hs, h1, -⟩ := constructLoop_ok (J := Js.foldr max 0) hA hC (k := 0) hB (by omega) hJ
    (shape_full [I, Js.foldr max 0, K] 0)
  refine ⟨_, T', Js.foldr max 0, evolving_init_ok hA hB hne w, ?_, ⟨foldr_max_mem hne, hJ⟩, hs, ?_⟩
  · rw [EvolvingTensor.constructTensor, evolvingConstruct]
    have hc : (w && !(Js.all fun j => j == Js.head hne)) = false := by
      rcases hw with rfl | hw
      · rfl
      · have : (Js.all fun j => j == Js.head hne) = true := by
          rw [List.all_eq_true]
          intro j hj
          simpa using hw j hj _ (List.head_mem hne)
        rw [this]; simp
    simp only [hc, Bool.false_eq_true, if_false]
    rw [evolvingShape, mapM_rows hB, bind_ok, rows_ok hA, bind_ok, rows_ok hC, bind_ok]
    exact e
  · intro k hk hk' i hi j hj
    have := h1 k hk hk' i hi j hj
    rw [Nat.zero_add] at this
    rw [this]
    split
    · rfl
    · rw [get_full (by simp [hi, hj]; omega)]

/-- C22: irregular slices and an enabled warning raise `Warning`. -/
theorem C22_warning {A C : NDArray ℝ} {B : List (NDArray ℝ)} {Js : List ℕ} {I R : ℕ}
    (hA : A.shape = [I, R]) (hB : Factors B Js R) {j j' : ℕ} (hj : j ∈ Js) (hj' : j' ∈ Js) (hne : j ≠ j') :
    ∃ t, EvolvingTensor.init A B C true = .ok t ∧ t.constructTensor = .error .warning := by
  have hnil : Js ≠ [] := by rintro rfl; simp at hj
  refine ⟨_, evolving_init_ok hA hB hnil true, ?_⟩
  rw [EvolvingTensor.constructTensor, evolvingConstruct]
  have : (Js.all fun j => j == Js.head hnil) = false := by
    rw [List.all_eq_false]
    by_cases h : j = Js.head hnil
    · exact ⟨j', hj', by simp only [beq_iff_eq]; intro h'; exact hne (h.trans h'.symm)⟩
    · exact ⟨j, hj, by simpa using h⟩
  rw [this]; rfl

/-- An irregular evolving tensor. -/
example : ∃ A C : NDArray ℝ, ∃ B : List (NDArray ℝ), A.shape = [3, 2] ∧ Factors B [2, 5] 2 ∧ C.shape = [2, 2] ∧
    ([2, 5] : List ℕ).length = 2 ∧ ([2, 5] : List ℕ) ≠ [] :=
  ⟨full [3, 2] 1, full [2, 2] 1, [full [2, 2] 1, full [5, 2] 2], rfl, .cons rfl (.cons rfl .nil), rfl, rfl, by simp⟩

/-! ### C23 -/

theorem map_one_mul (B : NDArray ℝ) : (B.map fun x => 1 * x) = B := by
  have : (fun x : ℝ => 1 * x) = id := by funext x; simp
  rw [this]
  obtain ⟨s, d, h⟩ := B
  simp [NDArray.map]

/-- C23 (part): the same tensor is represented when all weights are one. The full property does not require
this and is false (`C23_fails`): the weights are dropped. -/
theorem C23_from_kruskal_partial {t : KruskalTensor} {I J K R : ℕ} (h : t.WF [I, J, K] R) (hK : 0 < K)
    (hw : ∀ r < R, t.weights.get [r] = 1) :
    ∃ e X, EvolvingTensor.fromKruskal t = .ok e ∧ e.constructTensor = .ok X ∧ t.constructTensor = .ok X := by
  have hct := constructTensor_eq h (by simp)
  obtain ⟨tr, fs, tw⟩ := t
  obtain ⟨-, hf, hws⟩ := h
  simp only at hf hws hw hct
  obtain ⟨A, l1, hA, h1, rfl⟩ := List.forall₂_cons_right_iff.1 hf
  obtain ⟨B, l2, hB, h2, rfl⟩ := List.forall₂_cons_right_iff.1 h1
  obtain ⟨C, l3, hC, h3, rfl⟩ := List.forall₂_cons_right_iff.1 h2
  cases h3
  have hBs : Factors (List.replicate K B) (List.replicate K J) R := by
    unfold Factors
    rw [List.forall₂_iff_get]
    exact ⟨by simp, fun i h1 h2 => by simpa using hB⟩
  have hne : List.replicate K J ≠ [] := by simp; omega
  obtain ⟨e, X, Jm, he, hX, ⟨hJm, -⟩, hs, hx⟩ := C22_construct_tensor (w := true) hA hBs hC (by simp) hne
    (Or.inr fun j hj j' hj' => (List.eq_of_mem_replicate hj).trans (List.eq_of_mem_replicate hj').symm)
  obtain rfl := List.eq_of_mem_replicate hJm
  refine ⟨e, X, ?_, hX, ?_⟩
  · rw [EvolvingTensor.fromKruskal]
    simp only [map_one_mul]
    rw [rows_ok hC, bind_ok, he]
  · rw [hct]
    congr 1
    symm
    apply ext_get hs
    rw [hs]
    intro idx hidx
    rw [get_ofFn hidx]
    obtain ⟨i, is, rfl, hi, his⟩ := valid_cons_iff.1 hidx
    obtain ⟨j, js, rfl, hj, hjs⟩ := valid_cons_iff.1 his
    obtain ⟨k, ks, rfl, hk, hks⟩ := valid_cons_iff.1 hjs
    simp at hks; subst hks
    rw [hx k (by simpa using hk) (by simpa using hk) i hi j hj]
    simp only [List.getElem_replicate, hj, if_true, cpEntry]
    apply Finset.sum_congr rfl
    intro r hr
    rw [hw r (Finset.mem_range.1 hr)]
    simp only [rankOne]; ring

/-- C23: a tensor that is not of third order is rejected. -/
theorem C23_bad_order {t : KruskalTensor} (h : t.factorMatrices.length ≠ 3) :
    EvolvingTensor.fromKruskal t = .error .valueError := by
  obtain ⟨tr, fs, tw⟩ := t
  simp only at h
  rw [EvolvingTensor.fromKruskal]
  rcases fs with _ | ⟨a, _ | ⟨b, _ | ⟨c, _ | ⟨d, l⟩⟩⟩⟩ <;> simp at h <;> rfl

/-- C23 fails: for the one-entry tensor with weight 2 the conversion represents 1 instead of 2. -/
theorem C23_fails : ∃ t : KruskalTensor, t.WF [1, 1, 1] 1 ∧ ∃ e X Y, EvolvingTensor.fromKruskal t = .ok e ∧
    e.constructTensor = .ok X ∧ t.constructTensor = .ok Y ∧ X.get [0, 0, 0] = 1 ∧ Y.get [0, 0, 0] = 2 := by
  have hs : Factors [full [1, 1] (1 : ℝ), full [1, 1] 1, full [1, 1] 1] [1, 1, 1] 1 :=
    .cons rfl (.cons rfl (.cons rfl .nil))
  have hone : (full [1, 1] (1 : ℝ)).get [0, 0] = 1 := get_full (by simp)
  have h2 : KruskalTensor.WF ⟨1, [full [1, 1] 1, full [1, 1] 1, full [1, 1] 1], full [1] 2⟩ [1, 1, 1] 1 :=
    ⟨rfl, hs, rfl⟩
  have h1 : KruskalTensor.WF ⟨1, [full [1, 1] 1, full [1, 1] 1, full [1, 1] 1], full [1] 1⟩ [1, 1, 1] 1 :=
    ⟨rfl, hs, rfl⟩
  obtain ⟨e, X, he, hX, hX'⟩ := C23_from_kruskal_partial h1 (by omega)
    (fun r hr => get_full (by simpa using hr))
  refine ⟨_, h2, e, X, _, he, hX, constructTensor_eq h2 (by simp), ?_, ?_⟩
  · rw [constructTensor_eq h1 (by simp)] at hX'
    cases hX'
    rw [get_ofFn (by simp)]
    simp [cpEntry, rankOne, hone, get_full]
  · rw [get_ofFn (by simp)]
    simp [cpEntry, rankOne, hone, get_full]

/-! ### C24 -/

/-- C24: with orthonormal projection matrices the Gram matrices of all evolving factors equal that of the
blueprint, hence each other. -/
theorem C24_parafac2_constraint {b : NDArray ℝ} {P : List (NDArray ℝ)} {Js : List ℕ} {r R : ℕ}
    (hb : b.shape = [r, R]) (hP : Factors P Js r)
    (ho : ∀ k (hk : k < P.length) (hk' : k < Js.length), OrthoCols P[k] Js[k] r) :
    ∃ B, Parafac2Tensor.Bs b P = .ok B ∧ Factors B Js R ∧
      (∀ k (_ : k < P.length), ∃ Bk, projectedFactor b P k = .ok Bk ∧ B[k]? = some Bk) ∧
      ∀ k (_ : k < B.length) (_ : k < Js.length), ∀ s < R, ∀ t < R,
        ∑ j ∈ Finset.range Js[k], B[k].get [j, s] * B[k].get [j, t]
          = ∑ l ∈ Finset.range r, b.get [l, s] * b.get [l, t] := by
  obtain ⟨B, e, hB, hPB⟩ := Bs_ok hb hP
  have hPB' := List.forall₂_iff_get.1 hPB
  have hPJ := List.forall₂_iff_get.1 hP
  refine ⟨B, e, hB, fun k hk => ?_, fun k hk hk' s hs t ht => ?_⟩
  · have hkB : k < B.length := hPB'.1 ▸ hk
    have hm := hPB'.2 k hk hkB
    refine ⟨B[k], ?_, by simp [hkB]⟩
    have : pyGet P (k : ℤ) = .ok P[k] := pyGet_ok (normIdx_natCast hk) |>.trans (by simp [hk])
    rw [projectedFactor, this, bind_ok]
    exact hm
  · have hkP : k < P.length := hPB'.1 ▸ hk
    have hm : matmul P[k] b = .ok B[k] := hPB'.2 k hkP hk
    have hPs : P[k].shape = [Js[k], r] := hPJ.2 k hkP hk'
    rw [matmul_ok hPs hb] at hm
    have hBk : B[k] = _ := (Except.ok.inj hm).symm
    have ho' := ho k hkP hk'
    have hg : ∀ j < Js[k], ∀ c < R, B[k].get [j, c] = ∑ l ∈ Finset.range r, P[k].get [j, l] * b.get [l, c] := by
      intro j hj c hc
      rw [hBk, get_ofMat hj hc]
    have : ∀ j ∈ Finset.range Js[k], B[k].get [j, s] * B[k].get [j, t] =
        ∑ l ∈ Finset.range r, ∑ l' ∈ Finset.range r,
          (P[k].get [j, l] * P[k].get [j, l']) * (b.get [l, s] * b.get [l', t]) := by
      intro j hj
      have hj := Finset.mem_range.1 hj
      rw [hg j hj s hs, hg j hj t ht, Finset.sum_mul_sum]
      exact Finset.sum_congr rfl fun l _ => Finset.sum_congr rfl fun l' _ => by ring
    rw [Finset.sum_congr rfl this, Finset.sum_comm]
    apply Finset.sum_congr rfl
    intro l hl
    rw [Finset.sum_comm, Finset.sum_eq_single l]
    · rw [← Finset.sum_mul, ho' l (Finset.mem_range.1 hl) l (Finset.mem_range.1 hl)]; simp
    · intro l' hl' hne
      rw [← Finset.sum_mul, ho' l (Finset.mem_range.1 hl) l' (Finset.mem_range.1 hl'), if_neg hne.symm, zero_mul]
    · intro h; exact absurd hl h

/-- C24: for every pair of slices. -/
theorem C24_parafac2_pairs {b : NDArray ℝ} {P : List (NDArray ℝ)} {Js : List ℕ} {r R : ℕ}
    (hb : b.shape = [r, R]) (hP : Factors P Js r)
    (ho : ∀ k (hk : k < P.length) (hk' : k < Js.length), OrthoCols P[k] Js[k] r) :
    ∃ B, Parafac2Tensor.Bs b P = .ok B ∧ Factors B Js R ∧
      ∀ k l (_ : k < B.length) (_ : k < Js.length) (_ : l < B.length) (_ : l < Js.length), ∀ s < R, ∀ t < R,
        ∑ j ∈ Finset.range Js[k], B[k].get [j, s] * B[k].get [j, t]
          = ∑ j ∈ Finset.range Js[l], B[l].get [j, s] * B[l].get [j, t] := by
  obtain ⟨B, e, hB, -, h⟩ := C24_parafac2_constraint hb hP ho
  exact ⟨B, e, hB, fun k l h1 h2 h3 h4 s hs t ht => (h k h1 h2 s hs t ht).trans (h l h3 h4 s hs t ht).symm⟩

/-- Two orthonormal projection matrices of different sizes. -/
example : Factors [(ofMat 2 1 fun i _ => if i = 0 then (1:ℝ) else 0), full [1, 1] 1] [2, 1] 1 ∧
    OrthoCols (ofMat 2 1 fun i _ => if i = 0 then (1:ℝ) else 0) 2 1 ∧ OrthoCols (full [1, 1] 1) 1 1 := by
  refine ⟨.cons rfl (.cons rfl .nil), ?_, ?_⟩
  · intro i hi j hj
    obtain rfl : i = 0 := by omega
    obtain rfl : j = 0 := by omega
    simp [Finset.sum_range_succ]
  · intro i hi j hj
    obtain rfl : i = 0 := by omega
    obtain rfl : j = 0 := by omega
    simp [get_full]

/-! ### C25 -/

theorem takeB_ok {t : Parafac2Tensor} {B : List (NDArray ℝ)} {Js : List ℕ} {R c : ℕ} (hs : t.allSameSize = true)
    (hB : Parafac2Tensor.Bs t.blueprint t.P = .ok B) (hBJ : Factors B Js R) (hc : c < R) :
    t.takeB c = .ok (List.zipWith (fun F m => ofMat m 1 fun i _ => F.get [i, c]) B Js) := by
  rw [Parafac2Tensor.takeB, hs]
  simp only [Bool.not_true, Bool.false_eq_true, if_false]
  rw [hB, bind_ok]
  exact mapM_takeColumn (k := c) ⟨hc, Or.inl rfl⟩ hBJ

/-- C25: the slices of the single-component decompositions add up to the slices of a regular PARAFAC2
tensor. -/
theorem C25_components_sum {A b C : NDArray ℝ} {P : List (NDArray ℝ)} {I J K R r : ℕ} {w : Bool}
    (hA : A.shape = [I, R]) (hb : b.shape = [r, R]) (hC : C.shape = [K, R])
    (hP : Factors P (List.replicate K J) r) (hK : 0 < K) :
    ∃ t Ss, Parafac2Tensor.init A b C P w = .ok t ∧ t.constructSlices = .ok Ss ∧ Ss.length = K ∧
      ∃ Sc : ℕ → List (NDArray ℝ),
        (∀ c < R, (t.getSingleComponent c >>= fun tc => tc.constructSlices) = .ok (Sc c) ∧
          Factors (Sc c) (List.replicate K I) J) ∧
        ∀ k (hk : k < Ss.length), Ss[k].shape = [I, J] ∧ ∀ i < I, ∀ j < J,
          Ss[k].get [i, j] = ∑ c ∈ Finset.range R, ((Sc c).getD k (full [] 0)).get [i, j] := by
  obtain ⟨B, eB, hBJ, -⟩ := Bs_ok hb hP
  have hne : List.replicate K J ≠ [] := by simp; omega
  have hBl : B.length = K := by rw [hBJ.length_eq]; simp
  have hsame : ((List.replicate K J).all fun j => j == (List.replicate K J).head hne) = true := by
    rw [List.all_eq_true]
    intro j hj
    rw [List.eq_of_mem_replicate hj]; simp
  set t : Parafac2Tensor := ⟨R, A, b, C, P, w, true, (List.replicate K J).map fun j => (I, j),
    (List.replicate K J).sum⟩ with ht
  have hinit : Parafac2Tensor.init A b C P w = .ok t := by
    rw [Parafac2Tensor.init, cols_ok hA, bind_ok, checkAllSameSize_ok hP hne, bind_ok, eB, bind_ok,
      sliceShapesOf_ok hA hBJ, bind_ok, hsame]
    simp only [List.map_map]
    have : (Prod.snd ∘ fun j : ℕ => (I, j)) = id := rfl
    rw [this, List.map_id]; rfl
  obtain ⟨Ss, eS, hSl, hS⟩ := evolvingSlicesFrom_ok hA hC (k := 0) hBJ (by simp)
  have hx : ∀ c, ∃ S, c < R → (t.getSingleComponent c >>= fun tc => tc.constructSlices) = .ok S ∧
      Factors S (List.replicate K I) J ∧
      ∀ k (hk : k < B.length), S[k]? = some (ofMat I J fun i j => A.get [i, c] * C.get [k, c] * B[k].get [j, c]) := by
    intro c
    by_cases hc : c < R
    · have hcm : IsMode (c : ℤ) R c := ⟨hc, Or.inl rfl⟩
      have hAc := takeColumn_ok hA hcm
      have hCc := takeColumn_ok hC hcm
      have hBc := takeB_ok (t := t) rfl eB hBJ hc
      have hFc := factors_column (k := c) hBJ
      obtain ⟨S, eSc, hSc, hget⟩ := evolvingSlicesFrom_ok (A := ofMat I 1 fun i _ => A.get [i, c])
        (C := ofMat K 1 fun i _ => C.get [i, c]) (I := I) (K := K) (R := 1) rfl rfl (k := 0) hFc (by simp)
      have hgetS : ∀ k (hk : k < B.length), S[k]? = some (ofMat I J fun i j =>
          A.get [i, c] * C.get [k, c] * B[k].get [j, c]) := by
        intro k hk
        have := hget k (by simpa [hBl] using hk) (by simp [hk]; omega)
        rw [this]
        congr 1
        simp only [List.getElem_replicate]
        apply ofMat_congr
        intro i hi j hj
        simp only [sliceEntry, Finset.sum_range_one, Nat.zero_add, List.getElem_zipWith, List.getElem_replicate]
        rw [get_ofMat hi (by omega), get_ofMat (by omega) (by omega), get_ofMat hj (by omega)]
      refine ⟨S, fun _ => ⟨?_, ?_, hgetS⟩⟩
      · rw [Parafac2Tensor.getSingleComponent, hAc, bind_ok, hBc, bind_ok, hCc, bind_ok,
          evolving_init_ok (shape_ofMat _ _ _) hFc hne, bind_ok]
        exact eSc
      · refine List.forall₂_iff_get.2 ⟨by simpa using hSc, fun k h1 h2 => ?_⟩
        have hkB : k < B.length := by simpa [hBl] using h2
        have := hgetS k hkB
        rw [List.getElem?_eq_getElem h1] at this
        rw [List.get_eq_getElem, Option.some.inj this]
        simp
    · exact ⟨[], fun h => absurd h hc⟩
  choose Sc hSc using hx
  refine ⟨t, Ss, hinit, ?_, by simpa using hSl, Sc, fun c hc => ⟨(hSc c hc).1, (hSc c hc).2.1⟩, ?_⟩
  · rw [Parafac2Tensor.constructSlices]
    simp only [ht]
    rw [eB, bind_ok]; exact eS
  · intro k hk
    have hk' : k < K := by rw [hSl] at hk; simpa using hk
    have hkB : k < B.length := by omega
    have := hS k (by simpa using hk') hkB
    rw [List.getElem?_eq_getElem hk] at this
    have := Option.some.inj this
    rw [this]
    simp only [List.getElem_replicate, Nat.zero_add]
    refine ⟨rfl, fun i hi j hj => ?_⟩
    rw [get_ofMat hi hj, sliceEntry]
    apply Finset.sum_congr rfl
    intro c hc
    have := (hSc c (Finset.mem_range.1 hc)).2.2 k hkB
    rw [List.getD_eq_getElem?_getD, this]
    simp only [Option.getD_some]
    rw [get_ofMat hi hj]

/-- A regular PARAFAC2 tensor with three slices. -/
example : Factors (List.replicate 3 (full [4, 2] (1:ℝ))) (List.replicate 3 4) 2 :=
  .cons rfl (.cons rfl (.cons rfl .nil))

/-! ### C68 (PARAFAC2 part) -/

theorem takeCols_full {Q : NDArray ℝ} {m n : ℕ} (h : Q.shape = [m, n]) : Parafac2Tensor.takeCols Q n = Q := by
  rw [Parafac2Tensor.takeCols, h]
  simp only [List.getD_cons_zero, List.getD_cons_succ, min_self]
  exact (eq_ofMat h).symm

/-- C68: the projection matrices drawn by `Parafac2Tensor.random_init` have orthonormal columns when every
slice has at least `rank` rows in its evolving mode; the tensor has the requested sizes. -/
theorem C68_parafac2_random_init {E : Ext} (hE : E.QROk) (drawA drawC : ℕ → ℕ → ℝ) (drawP : ℕ → ℕ → ℕ → ℝ)
    (I K R : ℕ) {J : Parafac2Tensor.SecondSize} {Js : List ℕ}
    (hJ : J = .list Js ∨ ∃ j, J = .int j ∧ Js = List.replicate K j) (hne : Js ≠ []) (hR : ∀ j ∈ Js, R ≤ j) :
    ∃ t, Parafac2Tensor.randomInit E drawA drawC drawP I K J R = .ok t ∧ t.rank = R ∧
      t.A.shape = [I, R] ∧ t.C.shape = [K, R] ∧ t.blueprint.shape = [R, R] ∧ Factors t.P Js R ∧
      (∀ k (_ : k < t.P.length) (_ : k < Js.length), OrthoCols t.P[k] Js[k] R) := by
  set P := (List.range Js.length).map fun k =>
    Parafac2Tensor.takeCols (E.qr (ofMat (Js.getD k 0) R (drawP k))).1 R with hPdef
  have hqr : ∀ k (hk : k < Js.length), IsQR (ofMat (Js.getD k 0) R (drawP k))
      (E.qr (ofMat (Js.getD k 0) R (drawP k))).1 (E.qr (ofMat (Js.getD k 0) R (drawP k))).2 Js[k] R := by
    intro k hk
    exact hE _ _ _ (by rw [shape_ofMat, getD_eq_getElem' _ hk])
  have hget : ∀ k (hk : k < Js.length), P[k]? = some (E.qr (ofMat (Js.getD k 0) R (drawP k))).1 := by
    intro k hk
    have hmin : min Js[k] R = R := min_eq_right (hR _ (List.getElem_mem hk))
    have hsh := (hqr k hk).shapeQ
    rw [hmin] at hsh
    simp only [hPdef, List.getElem?_map, List.getElem?_range hk, Option.map_some]
    rw [takeCols_full hsh]
  have hPl : P.length = Js.length := by simp [hPdef]
  have hgetE : ∀ k (hk : k < P.length), P[k] = (E.qr (ofMat (Js.getD k 0) R (drawP k))).1 := by
    intro k hk
    have := hget k (by omega)
    rw [List.getElem?_eq_getElem hk] at this
    exact Option.some.inj this
  have hP : Factors P Js R := by
    refine List.forall₂_iff_get.2 ⟨hPl, fun k h1 h2 => ?_⟩
    rw [List.get_eq_getElem, hgetE k h1, (hqr k h2).shapeQ, min_eq_right (hR _ (List.getElem_mem h2))]
    rfl
  have ho : ∀ k (_ : k < P.length) (_ : k < Js.length), OrthoCols P[k] Js[k] R := by
    intro k h1 h2 i hi j hj
    have horth := (hqr k h2).orth
    rw [← hgetE k h1] at horth
    rw [min_eq_right (hR _ (List.getElem_mem h2))] at horth
    have := congrFun (congrFun horth ⟨i, hi⟩) ⟨j, hj⟩
    simp only [mul_apply, transpose_apply, mat, one_apply, Fin.mk.injEq] at this
    rw [Finset.sum_range]; exact this
  obtain ⟨B, eB, hBJ, -⟩ := Bs_ok (b := ofMat R R fun i j => if i = j then (1:ℝ) else 0) (shape_ofMat R R _) hP
  have key : ∀ w, ∃ t, Parafac2Tensor.init (ofMat I R drawA) (ofMat R R fun i j => if i = j then 1 else 0)
      ((ofMat K R drawC).map (· + 0.1)) P w = .ok t ∧ t.rank = R ∧
      t.A.shape = [I, R] ∧ t.C.shape = [K, R] ∧ t.blueprint.shape = [R, R] ∧ t.P = P := by
    intro w
    refine ⟨_, by rw [Parafac2Tensor.init, cols_ok (shape_ofMat I R _), bind_ok, checkAllSameSize_ok hP hne, bind_ok, eB,
      bind_ok, sliceShapesOf_ok (shape_ofMat I R _) hBJ, bind_ok]; rfl, rfl, rfl, rfl, rfl, rfl⟩
  rcases hJ with rfl | ⟨j, rfl, rfl⟩
  · obtain ⟨t, e, h1, h2, h3, h4, h5⟩ := key false
    exact ⟨t, e, h1, h2, h3, h4, h5 ▸ hP, h5 ▸ ho⟩
  · obtain ⟨t, e, h1, h2, h3, h4, h5⟩ := key true
    exact ⟨t, e, h1, h2, h3, h4, h5 ▸ hP, h5 ▸ ho⟩

/-- C68: `Parafac2Tensor.random_init` raises for a slice with fewer than `rank` rows in its evolving mode, rather
than returning projection matrices without orthonormal columns. -/
theorem C68_parafac2_random_init_small {E : Ext} (hE : E.QROk) (drawA drawC : ℕ → ℕ → ℝ)
    (drawP : ℕ → ℕ → ℕ → ℝ) (I K R : ℕ) {J : Parafac2Tensor.SecondSize} {Js : List ℕ}
    (hJ : J = .list Js ∨ ∃ j, J = .int j ∧ Js = List.replicate K j) {k : ℕ} (hk : k < Js.length) (hR : Js[k] < R) :
    ∀ t, Parafac2Tensor.randomInit E drawA drawC drawP I K J R ≠ .ok t := by
  set P := (List.range Js.length).map fun k =>
    Parafac2Tensor.takeCols (E.qr (ofMat (Js.getD k 0) R (drawP k))).1 R with hPdef
  have hsh : ∀ h : k < P.length, P[k].shape = [Js[k], Js[k]] := by
    intro h
    have hq := (hE (ofMat (Js.getD k 0) R (drawP k)) Js[k] R (by rw [shape_ofMat, getD_eq_getElem' _ hk])).shapeQ
    simp only [hPdef, List.getElem_map, List.getElem_range, Parafac2Tensor.takeCols, shape_ofMat, hq,
      List.getD_cons_zero, List.getD_cons_succ]
    rw [min_eq_left hR.le, min_eq_right hR.le]
  have key : ∀ w t, Parafac2Tensor.init (ofMat I R drawA) (ofMat R R fun i j => if i = j then 1 else 0)
      ((ofMat K R drawC).map (· + 0.1)) P w ≠ .ok t := by
    intro w t h
    rw [Parafac2Tensor.init, cols_ok (shape_ofMat I R _), bind_ok] at h
    cases h1 : checkAllSameSize P with
    | error e => rw [h1, bind_error] at h; cases h
    | ok s =>
    rw [h1, bind_ok] at h
    cases h2 : Parafac2Tensor.Bs (ofMat R R fun i j => if i = j then (1:ℝ) else 0) P with
    | error e => rw [h2, bind_error] at h; cases h
    | ok B =>
      rw [Parafac2Tensor.Bs, mapM_ok_iff, List.forall₂_iff_get] at h2
      have hkP : k < P.length := by simpa [hPdef] using hk
      have := h2.2 k hkP (by rw [← h2.1]; exact hkP)
      rw [List.get_eq_getElem, matmul, hsh hkP] at this
      simp only [shape_ofMat] at this
      rw [if_neg hR.ne] at this
      cases this
  rcases hJ with rfl | ⟨j, rfl, rfl⟩
  · exact key false
  · exact key true

end
end TK
