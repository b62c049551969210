import Verif.Model.Container
import Verif.Props.Evolving

/-!
# Properties C87 (access to the factor matrices of a decomposition) and C88 (attributes of evolving tensors)
-/

namespace TK
open NDArray

noncomputable section

/-! ### C87: indexing, unpacking and rebuilding -/

/-- Items that agree with a list at the positions `0, 1, ...` and end there. -/
theorem unpack_list {β : Type} {get : Int → Py β} {l : List β} (h : ∀ k : ℕ, ∀ hk : k < l.length, get k = .ok l[k])
    (he : get (l.length : Int) = .error .indexError) : unpack get l.length = .ok l := by
  have : (List.range l.length).mapM (needItem get) = .ok l := by
    rw [mapM_ok_iff, List.forall₂_iff_get]
    refine ⟨by simp, fun i h1 h2 => ?_⟩
    simp only [List.get_eq_getElem, List.getElem_range, needItem, h i h2]
  rw [unpack, this, bind_ok, he]

/-- Asking for another number of items raises `ValueError`. -/
theorem unpack_wrong {β : Type} {get : Int → Py β} {l : List β} (h : ∀ k : ℕ, ∀ hk : k < l.length, get k = .ok l[k])
    (he : get (l.length : Int) = .error .indexError) {n : ℕ} (hn : n ≠ l.length) : unpack get n = .error .valueError := by
  rcases Nat.lt_or_gt_of_ne hn with hlt | hgt
  · have : (List.range n).mapM (needItem get) = .ok (l.take n) := by
      rw [mapM_ok_iff, List.forall₂_iff_get]
      refine ⟨by simp; omega, fun i h1 h2 => ?_⟩
      have hi : i < l.length := by simp at h1; omega
      simp only [List.get_eq_getElem, List.getElem_range, needItem, h i hi, List.getElem_take]
    rw [unpack, this, bind_ok, h n hlt]
  · obtain ⟨m, rfl⟩ : ∃ m, n = l.length + 1 + m := ⟨n - l.length - 1, by omega⟩
    have h1 : (List.range l.length).mapM (needItem get) = .ok l := by
      rw [mapM_ok_iff, List.forall₂_iff_get]
      refine ⟨by simp, fun i h1 h2 => ?_⟩
      simp only [List.get_eq_getElem, List.getElem_range, needItem, h i h2]
    rw [unpack, Nat.add_assoc, List.range_add, List.mapM_append, h1, bind_ok, Nat.add_comm 1 m, List.range_succ_eq_map,
      List.map_cons, List.mapM_cons, Nat.add_zero, needItem, he]
    rfl

/-- **C87**: `t[i]` of a Kruskal tensor is factor matrix `i`; negative numbers count from the end, and everything else
raises `IndexError`. -/
theorem C87_kruskal_index (t : KruskalTensor) (i : Int) :
    (∀ k : ℕ, ∀ hk : k < t.factorMatrices.length, (i = k ∨ i = (k : Int) - t.factorMatrices.length) →
      t.getItem i = .ok t.factorMatrices[k]) ∧
    (¬ (-(t.factorMatrices.length : Int) ≤ i ∧ i < t.factorMatrices.length) → t.getItem i = .error .indexError) :=
  ⟨fun _ hk h => pyGet_ok (normIdx_some_iff.2 ⟨hk, h⟩), fun h => pyGet_error (normIdx_eq_none_iff.2 h)⟩

/-- **C87**: unpacking a Kruskal tensor gives its factor matrices, in order, and nothing else. -/
theorem C87_kruskal_unpack (t : KruskalTensor) (n : ℕ) :
    unpack t.getItem n = if n = t.factorMatrices.length then .ok t.factorMatrices else .error .valueError := by
  have h : ∀ k : ℕ, ∀ hk : k < t.factorMatrices.length, t.getItem k = .ok t.factorMatrices[k] :=
    fun k hk => (C87_kruskal_index t k).1 k hk (.inl rfl)
  have he : t.getItem (t.factorMatrices.length : Int) = .error .indexError :=
    (C87_kruskal_index t _).2 (by omega)
  split
  · next hn => rw [hn]; exact unpack_list h he
  · next hn => exact unpack_wrong h he hn

/-- **C87**: what is unpacked, together with the weights, makes up the same Kruskal tensor. -/
theorem C87_kruskal_rebuild {t : KruskalTensor} {sizes : List ℕ} {R : ℕ} (h : t.WF sizes R) (hs : sizes ≠ []) :
    ∃ fs, unpack t.getItem sizes.length = .ok fs ∧ KruskalTensor.init fs (some t.weights) = .ok t := by
  have hl : t.factorMatrices.length = sizes.length := h.factors.length_eq
  refine ⟨t.factorMatrices, by rw [C87_kruskal_unpack, if_pos hl.symm], ?_⟩
  have hne : t.factorMatrices ≠ [] := by
    intro h0; rw [h0] at hl; exact hs (List.length_eq_zero_iff.1 hl.symm)
  have hm : ∀ f ∈ t.factorMatrices, ∃ m, f.shape = [m, R] := fun f hf => by
    obtain ⟨k, hk, rfl⟩ := List.getElem_of_mem hf
    exact ⟨_, h.factors.shape_get hk⟩
  obtain ⟨t', e, h1, h2, -, h4, -⟩ := C15_init_ok (w := some t.weights) hne (fun f hf => by
    obtain ⟨m, hf⟩ := hm f hf; exact ⟨m, R, hf⟩) (R := R) ⟨fun f hf => by
      obtain ⟨m, hf⟩ := hm f hf; simp [hf], by simp [h.weights]⟩
  rw [e]
  obtain ⟨r, fs, w⟩ := t'
  obtain ⟨r', fs', w'⟩ := t
  have hr := h.rank
  have h4 := h4 _ rfl
  simp only at h1 h2 h4 hr
  rw [h1, h2, h4, hr]

/-- **C87**: the three items of an evolving tensor. -/
theorem C87_evolving_unpack (t : EvolvingTensor) (n : ℕ) :
    unpack t.getItem n = if n = 3 then .ok [.mat t.A, .mats t.B, .mat t.C] else .error .valueError := by
  have h : ∀ k : ℕ, ∀ hk : k < [Item.mat t.A, .mats t.B, .mat t.C].length,
      t.getItem k = .ok [Item.mat t.A, .mats t.B, .mat t.C][k] := by
    intro k hk
    have hk : k < 3 := hk
    rcases k with _ | _ | _ | k
    · rfl
    · rfl
    · rfl
    · omega
  have he : t.getItem (([Item.mat t.A, .mats t.B, .mat t.C].length : ℕ) : Int) = .error .indexError := rfl
  split
  · next hn => rw [hn]; exact unpack_list h he
  · next hn => exact unpack_wrong h he hn

/-- **C87**: unpacking a PARAFAC2 tensor (of matching sizes) gives `A`, the evolving factor matrices `P_k B`, and `C`. -/
theorem C87_parafac2_unpack {t : Parafac2Tensor} {Js : List ℕ} {r R : ℕ} (hb : t.blueprint.shape = [r, R])
    (hP : Factors t.P Js r) (n : ℕ) : ∃ B, List.Forall₂ (fun Pk Bk => matmul Pk t.blueprint = .ok Bk) t.P B ∧
      unpack t.getItem n = if n = 3 then .ok [.mat t.A, .mats B, .mat t.C] else .error .valueError := by
  obtain ⟨B, e, -, hB⟩ := Bs_ok hb hP
  refine ⟨B, hB, ?_⟩
  have h : ∀ k : ℕ, ∀ hk : k < [Item.mat t.A, .mats B, .mat t.C].length,
      t.getItem k = .ok [Item.mat t.A, .mats B, .mat t.C][k] := by
    intro k hk
    have hk : k < 3 := hk
    rcases k with _ | _ | _ | k
    · rfl
    · show (do let B ← Parafac2Tensor.Bs t.blueprint t.P; pure (Item.mats B)) = _
      rw [e]; rfl
    · rfl
    · omega
  have he : t.getItem (([Item.mat t.A, .mats B, .mat t.C].length : ℕ) : Int) = .error .indexError := rfl
  split
  · next hn => rw [hn]; exact unpack_list h he
  · next hn => exact unpack_wrong h he hn

/-- **C87, refuted** for evolving (and PARAFAC2) tensors: no negative number is a valid index, although `t[-1]` of a
Kruskal tensor is its last factor matrix. -/
theorem C87_negative_fails (t : EvolvingTensor) (t2 : Parafac2Tensor) {i : Int} (hi : i < 0) :
    t.getItem i = .error .indexError ∧ t2.getItem i = .error .indexError := by
  have h0 : i ≠ 0 := by omega
  have h1 : i ≠ 1 := by omega
  have h2 : i ≠ 2 := by omega
  simp [EvolvingTensor.getItem, Parafac2Tensor.getItem, h0, h1, h2]

/-- **C87** (rebuilding, part): `from_factor_matrices` applied to the items of an evolving tensor gives a tensor with the
same factor matrices, attributes and slices. Missing: the flag `warning`, which is reset to `True` (the last part). -/
theorem C87_evolving_rebuild_partial {A C : NDArray ℝ} {B : List (NDArray ℝ)} {w : Bool} {t : EvolvingTensor}
    (h : EvolvingTensor.init A B C w = .ok t) :
    ∃ l t', unpack t.getItem 3 = .ok l ∧ EvolvingTensor.fromFactorMatrices l = .ok t' ∧
      t'.A = A ∧ t'.B = B ∧ t'.C = C ∧ t'.rank = t.rank ∧ t'.allSameSize = t.allSameSize ∧
      t'.sliceShapes = t.sliceShapes ∧ t'.constructSlices = t.constructSlices ∧ t'.warning = true := by
  rw [EvolvingTensor.init] at h
  rcases hr : cols A with e | rank
  · rw [hr] at h; cases h
  rcases hs : checkAllSameSize B with e | same
  · rw [hr, bind_ok, hs] at h; cases h
  rcases hp : sliceShapesOf A B with e | shapes
  · rw [hr, bind_ok, hs, bind_ok, hp] at h; cases h
  rw [hr, bind_ok, hs, bind_ok, hp, bind_ok] at h
  cases h
  refine ⟨_, ⟨rank, A, B, C, true, same, shapes, (shapes.map Prod.snd).sum⟩, C87_evolving_unpack _ 3, ?_,
    rfl, rfl, rfl, rfl, rfl, rfl, rfl, rfl⟩
  show EvolvingTensor.init A B C true = _
  rw [EvolvingTensor.init, hr, bind_ok, hs, bind_ok, hp, bind_ok]
  rfl

/-- **C87, refuted** for the class `Parafac2Tensor`: neither of the two class methods that build a tensor from factor
matrices can be called, whatever the factor matrices. -/
theorem C87_parafac2_rebuild_fails (l : List Item) (hl : 3 ≤ l.length) (t : KruskalTensor)
    (ht : t.factorMatrices.length = 3) :
    Parafac2Tensor.fromFactorMatrices l = .error .typeError ∧ Parafac2Tensor.fromKruskal t = .error .typeError := by
  constructor
  · obtain ⟨a, b, c, l, rfl⟩ : ∃ a b c l', l = a :: b :: c :: l' := by
      rcases l with _ | ⟨a, _ | ⟨b, _ | ⟨c, l⟩⟩⟩ <;> simp at hl
      exact ⟨a, b, c, l, rfl⟩
    have h0 : pyGet (a :: b :: c :: l) 0 = .ok a := pyGet_ok (k := 0) (by simp [normIdx])
    have h1 : pyGet (a :: b :: c :: l) 1 = .ok b := pyGet_ok (k := 1) (by simp [normIdx])
    have h2 : pyGet (a :: b :: c :: l) 2 = .ok c := pyGet_ok (k := 2) (by simp [normIdx])
    rw [Parafac2Tensor.fromFactorMatrices, h0, bind_ok, h1, bind_ok, h2, bind_ok]
    rfl
  · rw [Parafac2Tensor.fromKruskal, if_neg (by simp [ht])]
    rfl

/-- A Kruskal tensor with three modes and weights different from one. -/
example : ∃ t : KruskalTensor, t.WF [2, 3, 4] 2 ∧ t.getItem (-1) = .ok (full [4, 2] 3) ∧
    t.getItem 3 = .error .indexError :=
  ⟨⟨2, [full [2, 2] 1, full [3, 2] 2, full [4, 2] 3], full [2] 5⟩, ⟨rfl, .cons rfl (.cons rfl (.cons rfl .nil)), rfl⟩,
    rfl, rfl⟩

/-! ### C88: attributes of evolving and PARAFAC2 tensors -/

/-- **C88**: `shape` is the shape of the constructed tensor (whenever that can be constructed). -/
theorem C88_shape {A C : NDArray ℝ} {B : List (NDArray ℝ)} {Js : List ℕ} {I K R : ℕ} {w : Bool}
    (hA : A.shape = [I, R]) (hB : Factors B Js R) (hC : C.shape = [K, R]) (hK : Js.length = K) (hne : Js ≠ []) :
    ∃ t Jm, EvolvingTensor.init A B C w = .ok t ∧ t.shape = .ok [I, Jm, K] ∧ (Jm ∈ Js ∧ ∀ j ∈ Js, j ≤ Jm) ∧
      (∀ X, t.constructTensor = .ok X → X.shape = [I, Jm, K]) := by
  refine ⟨_, Js.foldr max 0, evolving_init_ok hA hB hne w, ?_, ⟨foldr_max_mem hne, fun j => le_foldr_max⟩, ?_⟩
  · rw [EvolvingTensor.shape, evolvingShape, mapM_rows hB, bind_ok, rows_ok hA, bind_ok, rows_ok hC, bind_ok]; rfl
  · intro X hX
    by_cases hw : w = false ∨ ∀ j ∈ Js, ∀ j' ∈ Js, j = j'
    · obtain ⟨t', X', Jm, e, hX', ⟨h1, h2⟩, hs, -⟩ := C22_construct_tensor hA hB hC hK hne hw
      rw [evolving_init_ok hA hB hne w] at e
      cases e
      rw [hX'] at hX
      cases hX
      rw [hs, le_antisymm (le_foldr_max h1) (h2 _ (foldr_max_mem hne))]
    · push Not at hw
      obtain ⟨hw, j, hj, j', hj', hjj⟩ := hw
      obtain rfl : w = true := by simpa using hw
      obtain ⟨t', e, hX'⟩ := C22_warning (C := C) hA hB hj hj' hjj
      rw [evolving_init_ok hA hB hne true] at e
      cases e
      rw [hX'] at hX
      cases hX

/-- **C88**: `shape` of a Kruskal tensor is the shape of the constructed tensor. -/
theorem C88_kruskal_shape {t : KruskalTensor} {sizes : List ℕ} {R : ℕ} (h : t.WF sizes R) (h2 : 2 ≤ sizes.length) :
    ∃ X, t.constructTensor = .ok X ∧ t.shape = .ok X.shape :=
  ⟨_, constructTensor_eq h h2, mapM_rows h.factors⟩

/-- **C88**: the attributes and the slices of a PARAFAC2 tensor are those of the evolving tensor with the factor matrices
`A`, `P_k B`, `C`; so are the tensor and its shape. -/
theorem C88_parafac2 {A b C : NDArray ℝ} {P : List (NDArray ℝ)} {Js : List ℕ} {I K r R : ℕ} {w : Bool}
    (hA : A.shape = [I, R]) (hb : b.shape = [r, R]) (hP : Factors P Js r) (hC : C.shape = [K, R]) (hne : Js ≠ []) :
    ∃ t B e Jm, Parafac2Tensor.init A b C P w = .ok t ∧ List.Forall₂ (fun Pk Bk => matmul Pk b = .ok Bk) P B ∧
      EvolvingTensor.init A B C w = .ok e ∧ t.rank = e.rank ∧ t.allSameSize = e.allSameSize ∧
      t.sliceShapes = e.sliceShapes ∧ t.numElements = e.numElements ∧ t.constructSlices = e.constructSlices ∧
      t.constructTensor = e.constructTensor ∧ t.shape = e.shape ∧ t.shape = .ok [I, Jm, K] ∧
      (Jm ∈ Js ∧ ∀ j ∈ Js, j ≤ Jm) := by
  obtain ⟨B, eB, hB, hB'⟩ := Bs_ok hb hP
  have hi := evolving_init_ok (C := C) hA hB hne w
  have ht : Parafac2Tensor.init A b C P w = .ok ⟨R, A, b, C, P, w, Js.all fun j => j == Js.head hne,
      Js.map fun j => (I, j), Js.sum⟩ := by
    rw [Parafac2Tensor.init, cols_ok hA, bind_ok, checkAllSameSize_ok hP hne, bind_ok, eB, bind_ok,
      sliceShapesOf_ok hA hB, bind_ok]
    simp only [List.map_map]
    have : (Prod.snd ∘ fun j : ℕ => (I, j)) = id := rfl
    rw [this, List.map_id]; rfl
  refine ⟨_, B, _, Js.foldr max 0, ht, hB', hi, rfl, rfl, rfl, rfl, ?_, ?_, ?_, ?_, foldr_max_mem hne,
    fun j => le_foldr_max⟩
  · rw [Parafac2Tensor.constructSlices, eB, bind_ok]; rfl
  · rw [Parafac2Tensor.constructTensor, EvolvingTensor.constructTensor, evolvingConstruct]
    simp only [eB, bind_ok, evolvingConstruct]
    split <;> rfl
  · rw [Parafac2Tensor.shape, eB, bind_ok]; rfl
  · rw [Parafac2Tensor.shape, eB, bind_ok]
    show evolvingShape A B C = _
    rw [evolvingShape, mapM_rows hB, bind_ok, rows_ok hA, bind_ok, rows_ok hC, bind_ok]; rfl

/-- Slices of two sizes, projections of two sizes. -/
example : ∃ t : Parafac2Tensor, Parafac2Tensor.init (full [2, 1] 1) (full [1, 1] 2) (full [2, 1] 1)
    [full [3, 1] 1, full [1, 1] 1] false = .ok t ∧ t.shape = .ok [2, 3, 2] := ⟨_, rfl, rfl⟩

/-- **C88**: `slice_shapes` are the shapes of the constructed slices, and `all_same_size` says whether they agree. -/
theorem C88_slice_shapes {A C : NDArray ℝ} {B : List (NDArray ℝ)} {Js : List ℕ} {I K R : ℕ} {w : Bool}
    (hA : A.shape = [I, R]) (hB : Factors B Js R) (hC : C.shape = [K, R]) (hK : Js.length = K) (hne : Js ≠ []) :
    ∃ t Ss, EvolvingTensor.init A B C w = .ok t ∧ t.constructSlices = .ok Ss ∧
      t.sliceShapes.map (fun p => [p.1, p.2]) = Ss.map NDArray.shape ∧
      (t.allSameSize = true ↔ ∀ S ∈ Ss, ∀ S' ∈ Ss, S.shape = S'.shape) := by
  obtain ⟨t, Ss, e, e', hl, hS⟩ := C22_slices (w := w) hA hB hC hK hne
  rw [evolving_init_ok hA hB hne w] at e
  cases e
  have hSs : Ss.map NDArray.shape = Js.map fun j => [I, j] := by
    apply List.ext_getElem
    · simp [hl, hK]
    · intro k h1 h2
      simp only [List.length_map] at h1 h2
      obtain ⟨S, hS1, hS2, -⟩ := hS k h2 (by rw [hB.length_eq]; exact h2)
      rw [List.getElem_map, List.getElem_map]
      obtain ⟨_, hS1⟩ := List.getElem?_eq_some_iff.1 hS1
      rw [hS1, hS2]
  refine ⟨_, Ss, evolving_init_ok hA hB hne w, e', by rw [hSs, List.map_map]; rfl, ?_⟩
  have hmem : (∀ S ∈ Ss, ∀ S' ∈ Ss, S.shape = S'.shape) ↔ ∀ s ∈ Ss.map NDArray.shape, ∀ s' ∈ Ss.map NDArray.shape, s = s' := by
    simp
  rw [hmem, hSs, List.all_eq_true]
  simp only [List.mem_map, forall_exists_index, and_imp, forall_apply_eq_imp_iff₂, List.cons.injEq, and_true, true_and,
    beq_iff_eq]
  exact ⟨fun h j hj j' hj' => (h j hj).trans (h j' hj').symm, fun h j hj => h j hj _ (List.head_mem hne)⟩

/-- **C88, what holds** of `num_elements`: it is the number of entries of all slices together if there is one row.
Missing: more than one row (`C88_num_elements_wrong`). -/
theorem C88_num_elements_partial {A C : NDArray ℝ} {B : List (NDArray ℝ)} {Js : List ℕ} {I R : ℕ} {w : Bool}
    (hA : A.shape = [I, R]) (hB : Factors B Js R) (hne : Js ≠ []) :
    ∃ t, EvolvingTensor.init A B C w = .ok t ∧ I * t.numElements = (t.sliceShapes.map fun p => p.1 * p.2).sum := by
  refine ⟨_, evolving_init_ok hA hB hne w, ?_⟩
  simp only [List.map_map]
  have := List.sum_map_mul_left (r := I) (l := Js) (f := id)
  rw [List.map_id] at this
  exact this.symm

/-- **C88, refuted**: `num_elements` is smaller than the number of entries whenever there are at least two rows and one
entry. -/
theorem C88_num_elements_wrong {A C : NDArray ℝ} {B : List (NDArray ℝ)} {Js : List ℕ} {I R : ℕ} {w : Bool}
    (hA : A.shape = [I, R]) (hB : Factors B Js R) (hI : 2 ≤ I) (hJ : Js.sum ≠ 0) :
    ∃ t, EvolvingTensor.init A B C w = .ok t ∧ t.numElements < (t.sliceShapes.map fun p => p.1 * p.2).sum := by
  have hne : Js ≠ [] := by rintro rfl; simp at hJ
  obtain ⟨t, e, h⟩ := C88_num_elements_partial (C := C) (w := w) hA hB hne
  refine ⟨t, e, ?_⟩
  rw [← h]
  rw [evolving_init_ok hA hB hne w] at e
  cases e
  simp only
  nlinarith [Nat.pos_of_ne_zero hJ]

/-- **C88**: what `D` of a PARAFAC2 tensor contains: one diagonal matrix for each *component*, made of a column of `C`. -/
theorem C88_D_value {t : Parafac2Tensor} {K R : ℕ} (hC : t.C.shape = [K, R]) (hr : t.rank = R) (hR : R ≠ 0) :
    ∃ D, t.D = .ok D ∧ D.shape = [R, K, K] ∧
      ∀ r < R, ∀ i < K, ∀ j < K, D.get [r, i, j] = if i = j then t.C.get [i, r] else 0 := by
  refine ⟨ofFn [t.rank, K, K] fun idx =>
    if idx.getD 1 0 = idx.getD 2 0 then t.C.get [idx.getD 1 0, idx.getD 0 0] else 0, ?_, ?_, ?_⟩
  · rw [Parafac2Tensor.D, dims2_ok hC, bind_ok]
    simp only
    rw [if_neg (by omega), if_neg (by omega)]
  · simp [hr]
  · intro r h1 i h2 j h3
    rw [get_ofFn (by simp [hr, h1, h2, h3])]
    simp

/-- **C88, what holds** of `D`: for as many slices as components and a symmetric `C`, slice `k` is `A D[k] B_kᵀ`. Missing:
every other `C` (`C88_D_fails`), and another number of slices, for which `D` has another shape (`C88_D_value`). -/
theorem C88_D_partial {t : Parafac2Tensor} {R : ℕ} (hC : t.C.shape = [R, R]) (hr : t.rank = R) (hR : R ≠ 0)
    (hsym : ∀ i < R, ∀ j < R, t.C.get [i, j] = t.C.get [j, i]) :
    ∃ D, t.D = .ok D ∧ D.shape = [R, R, R] ∧ ∀ (a b : ℕ → ℝ), ∀ k < R,
      ∑ r ∈ Finset.range R, ∑ s ∈ Finset.range R, a r * D.get [k, r, s] * b s
        = ∑ r ∈ Finset.range R, a r * t.C.get [k, r] * b r := by
  obtain ⟨D, e, hs, hD⟩ := C88_D_value hC hr hR
  refine ⟨D, e, hs, fun a b k hk => Finset.sum_congr rfl fun r h1 => ?_⟩
  have h1 := Finset.mem_range.1 h1
  rw [Finset.sum_eq_single r]
  · rw [hD k hk r h1 r h1, if_pos rfl, hsym r h1 k hk]
  · intro s h2 h3
    rw [hD k hk r h1 s (Finset.mem_range.1 h2), if_neg (Ne.symm h3)]; ring
  · intro h; exact absurd (Finset.mem_range.2 h1) h

/-- **C88, refuted**: a PARAFAC2 tensor with two slices and two components whose first slice is not `A D[0] B_0ᵀ`. -/
theorem C88_D_fails : ∃ (t : Parafac2Tensor) (B D : NDArray ℝ) (Ss : List (NDArray ℝ)) (S : NDArray ℝ),
    Parafac2Tensor.init (ofMat 2 2 fun i j => if i = j then 1 else 0) (ofMat 2 2 fun i j => if i = j then 1 else 0)
      (ofMat 2 2 fun i j => 1 + 2 * i + j) (List.replicate 2 (ofMat 2 2 fun i j => if i = j then 1 else 0)) = .ok t ∧
    matmul (ofMat 2 2 fun i j => if i = j then 1 else 0) t.blueprint = .ok B ∧
    t.constructSlices = .ok Ss ∧ Ss[0]? = some S ∧ t.D = .ok D ∧ D.shape = [2, 2, 2] ∧ S.get [1, 1] = 2 ∧
    ∑ r ∈ Finset.range 2, ∑ s ∈ Finset.range 2, t.A.get [1, r] * D.get [0, r, s] * B.get [1, s] = 3 := by
  set I2 : NDArray ℝ := ofMat 2 2 fun i j => if i = j then 1 else 0 with hI2
  set C : NDArray ℝ := ofMat 2 2 fun i j => 1 + 2 * i + j with hC
  have hI : I2.shape = [2, 2] := rfl
  have hCs : C.shape = [2, 2] := rfl
  have hP : Factors (List.replicate 2 I2) (List.replicate 2 2) 2 := .cons rfl (.cons rfl .nil)
  obtain ⟨B, e, hBf, hB⟩ := Bs_ok hI hP
  obtain ⟨B0, l1, hB0, hl1, rfl⟩ := List.forall₂_cons_left_iff.1 hB
  obtain ⟨Ss, e2, hl, hs⟩ := evolvingSlicesFrom_ok hI hCs (k := 0) hBf (by simp)
  have hinit : Parafac2Tensor.init I2 I2 C (List.replicate 2 I2) = .ok
      ⟨2, I2, I2, C, List.replicate 2 I2, true, true, [(2, 2), (2, 2)], 4⟩ := by
    rw [Parafac2Tensor.init, cols_ok hI, bind_ok, checkAllSameSize_ok hP (by simp), bind_ok, e, bind_ok,
      sliceShapesOf_ok hI hBf, bind_ok]
    rfl
  obtain ⟨D, e3, hDs, hD⟩ := C88_D_value (t := ⟨2, I2, I2, C, List.replicate 2 I2, true, true, [(2, 2), (2, 2)], 4⟩) hCs rfl
    (by simp)
  have h0 := hs 0 (by simp) (by simp)
  refine ⟨_, B0, D, Ss, _, hinit, hB0, ?_, h0, e3, hDs, ?_, ?_⟩
  · rw [Parafac2Tensor.constructSlices, e, bind_ok]; exact e2
  all_goals
    rw [matmul_ok hI hI] at hB0
    have hB0 := Except.ok.inj hB0
    subst hB0
  · have hget : ∀ i < 2, ∀ j < 2, I2.get [i, j] = if i = j then 1 else 0 := fun i hi j hj => get_ofMat hi hj
    have hgc : C.get [0, 1] = 2 := by rw [hC, get_ofMat (by simp) (by simp)]; norm_num
    rw [get_ofMat (by simp) (by simp)]
    simp only [sliceEntry, List.getElem_cons_zero, Finset.sum_range_succ, Finset.sum_range_zero, Nat.zero_add]
    rw [get_ofMat (by simp) (by simp), get_ofMat (by simp) (by simp)]
    simp [hget, hgc, Finset.sum_range_succ]
  · simp only [Finset.sum_range_succ, Finset.sum_range_zero]
    rw [hD 0 (by simp) 0 (by simp) 0 (by simp), hD 0 (by simp) 0 (by simp) 1 (by simp), hD 0 (by simp) 1 (by simp) 0 (by simp),
      hD 0 (by simp) 1 (by simp) 1 (by simp)]
    have hget : ∀ i < 2, ∀ j < 2, I2.get [i, j] = if i = j then 1 else 0 := fun i hi j hj => get_ofMat hi hj
    have hgc : C.get [1, 0] = 3 := by rw [hC, get_ofMat (by simp) (by simp)]; norm_num
    rw [get_ofMat (by simp) (by simp), get_ofMat (by simp) (by simp)]
    simp [hget, hgc, Finset.sum_range_succ]

/-- An irregular evolving tensor with two rows, to which the theorems on attributes apply. -/
example : ∃ A C : NDArray ℝ, ∃ B : List (NDArray ℝ), A.shape = [2, 2] ∧ Factors B [2, 5] 2 ∧ C.shape = [2, 2] ∧
    ([2, 5] : List ℕ).sum ≠ 0 :=
  ⟨full [2, 2] 1, full [2, 2] 1, [full [2, 2] 1, full [5, 2] 2], rfl, .cons rfl (.cons rfl .nil), rfl, by simp⟩

end
end TK
