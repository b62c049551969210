import Verif.Lemmas.H5
import Verif.Props.Base

/-!
# Properties C19 - C21: storing and loading decompositions
-/

namespace TK
open NDArray

noncomputable section

/-! ### C19 -/

theorem fmPre_eq : fmPre = ['f','a','c','t','o','r','_','m','a','t','r','i','x'] := rfl
theorem bPre_eq : bPre = ['B','_'] := rfl
theorem pmPre_eq : pmPre = ['p','r','o','j','e','c','t','i','o','n','_','m','a','t','r','i','x','_'] := rfl

/-- What `KruskalTensor.store_in_hdf5_group` leaves in an empty group. -/
theorem kruskal_storeIn_eq (t : KruskalTensor) :
    t.storeIn Group.empty = .ok
      { attrs := [("type".toList, .str kruskalName), ("n_factor_matrices".toList, .int t.factorMatrices.length),
          ("rank".toList, .int t.rank)],
        dsets := numbered fmPre 0 t.factorMatrices ++ [("weights".toList, .arr t.weights)] } := by
  rw [KruskalTensor.storeIn]
  rw [putNumbered_ok (by intro j _; rfl), bind_ok, Group.put_ok]
  · rfl
  · have : ∀ j, "weights".toList ≠ fmPre ++ fmtNat 3 j := by intro j; rw [fmPre_eq]; simp
    simpa [prepareGroup, Group.setAttr, Group.empty] using find_numbered_none fun j _ => this j

/-- C19: storing never fails on a new file, and loading gives back the same factor matrices in the same order
and the same weights, for any number of modes. -/
theorem C19_kruskal_roundtrip (t : KruskalTensor) (sizes : List ℕ) (R : ℕ) (h : t.WF sizes R)
    (hne : sizes ≠ []) :
    ∃ f, storeFile KruskalTensor.storeIn t = .ok f ∧ fromFile KruskalTensor.loadFrom f = .ok t := by
  have hs := kruskal_storeIn_eq t
  refine ⟨_, by rw [storeFile, hs, bind_ok]; rfl, ?_⟩
  rw [fromFile, KruskalTensor.loadFrom]
  have hc : ∀ (a : Dict AttrVal) d, checkGroup kruskalName
      { attrs := ("type".toList, .str kruskalName) :: a, dsets := d } = .ok () := by
    intro a d
    rw [checkGroup, Dict.item_ok (v := .str kruskalName) (by simp [Dict.find_cons]), bind_ok]
    simp [pure, Except.pure]
  rw [hc, bind_ok, Group.intAttr_ok (n := t.factorMatrices.length) (by simp [Dict.find_cons]), bind_ok,
    getNumbered_ok (d := []) (d' := [("weights".toList, .arr t.weights)]) (by simp) (by simp), bind_ok,
    Group.arr_ok (A := t.weights), bind_ok]
  · obtain ⟨hr, hf, hw⟩ := h
    obtain ⟨tr, tf, tw⟩ := t
    simp only at hr hf hw
    have hck : ∀ {fs : List (NDArray ℝ)} {s : List ℕ}, Factors fs s R → KruskalTensor.checkCols R fs = .ok () := by
      intro fs s hfs
      unfold Factors at hfs
      induction hfs with
      | nil => rfl
      | cons h1 h2 ih => rw [KruskalTensor.checkCols, cols_ok h1, bind_ok, if_neg (by simp), ih]
    have hck' := hck hf
    cases hf with
    | nil => exact absurd rfl hne
    | cons h1 h2 =>
      rename_i F n fs s
      have hp : pyGet (F :: fs) 0 = .ok F := rfl
      rw [KruskalTensor.init, hp, bind_ok, cols_ok h1, bind_ok, hck', bind_ok]
      simp [hw, hr, pure, Except.pure]
  · rw [Dict.find_append, find_numbered_none]
    · simp [Dict.find_cons]
    · intro j _; rw [fmPre_eq]; simp

/-- C19: a file written by a `KruskalTensor` is rejected by the loaders of the other classes. -/
theorem C19_kruskal_rejected (t : KruskalTensor) (f : H5File)
    (hf : storeFile KruskalTensor.storeIn t = .ok f) :
    fromFile EvolvingTensor.loadFrom f = .error .warning ∧
    fromFile Parafac2Tensor.loadFrom f = .error .warning := by
  rw [storeFile, kruskal_storeIn_eq, bind_ok] at hf
  cases hf
  constructor
  · rw [fromFile, EvolvingTensor.loadFrom, checkGroup,
      Dict.item_ok (v := .str kruskalName) (by simp [Dict.find_cons]), bind_ok]
    have : kruskalName ≠ evolvingName := by decide
    simp only [this, if_false, bind_error]
  · rw [fromFile, Parafac2Tensor.loadFrom, checkGroup,
      Dict.item_ok (v := .str kruskalName) (by simp [Dict.find_cons]), bind_ok]
    have : kruskalName ≠ parafac2Name := by decide
    simp only [this, if_false, bind_error]

/-- The names of the datasets of different factor matrices are different, also beyond 1000 of them, where the
numbers no longer fit the three digits of the template. -/
theorem C19_names_distinct (i j : ℕ) (h : i ≠ j) : fmPre ++ fmtNat 3 i ≠ fmPre ++ fmtNat 3 j := fun e =>
  h (numbered_name_inj.1 e)

example : fmtNat 3 1000 = ['1','0','0','0'] ∧ fmtNat 3 7 = ['0','0','7'] := by
  constructor <;> simp [fmtNat, decimal, digitChar]

/-- Non-vacuity of C19. -/
example : exKT.WF [3, 2, 4] 2 ∧ ([3, 2, 4] : List ℕ) ≠ [] := ⟨exKT_wf, by simp⟩

/-! ### C20 -/

/-- A PARAFAC2 tensor as the constructor makes it. -/
def Parafac2Tensor.Constructed (t : Parafac2Tensor) : Prop :=
  Parafac2Tensor.init t.A t.blueprint t.C t.P t.warning = .ok t

theorem parafac2_storeIn_eq (t : Parafac2Tensor) :
    t.storeIn Group.empty = .ok
      { attrs := [("type".toList, .str parafac2Name), ("rank".toList, .int t.rank),
          ("all_same_size".toList, .bool t.allSameSize), ("warning".toList, .bool t.warning),
          ("n_projection_matrices".toList, .int t.P.length)],
        dsets := [("A".toList, .arr t.A), ("blueprint_B".toList, .arr t.blueprint), ("C".toList, .arr t.C)]
          ++ numbered pmPre 0 t.P } := by
  rw [Parafac2Tensor.storeIn]
  rw [Group.put_ok (by rfl), bind_ok, Group.put_ok (by rfl), bind_ok, Group.put_ok (by rfl), bind_ok,
    putNumbered_ok]
  · rfl
  · intro j _
    simp only [prepareGroup, Group.setAttr, Group.empty, pmPre_eq, List.nil_append, List.cons_append]
    simp [Dict.find_cons]

/-- C20: loading a stored PARAFAC2 tensor gives the same tensor, for any number of slices. -/
theorem C20_parafac2_roundtrip (t : Parafac2Tensor) (h : t.Constructed) :
    ∃ f, storeFile Parafac2Tensor.storeIn t = .ok f ∧ fromFile Parafac2Tensor.loadFrom f = .ok t := by
  refine ⟨_, by rw [storeFile, parafac2_storeIn_eq, bind_ok]; rfl, ?_⟩
  rw [fromFile, Parafac2Tensor.loadFrom]
  have hc : ∀ (a : Dict AttrVal) d, checkGroup parafac2Name
      { attrs := ("type".toList, .str parafac2Name) :: a, dsets := d } = .ok () := by
    intro a d
    rw [checkGroup, Dict.item_ok (v := .str parafac2Name) (by simp [Dict.find_cons]), bind_ok]
    simp [pure, Except.pure]
  rw [hc, bind_ok, Group.arr_ok (A := t.A) (by simp [Dict.find_cons]), bind_ok,
    Group.arr_ok (A := t.blueprint) (by simp [Dict.find_cons]), bind_ok,
    Group.arr_ok (A := t.C) (by simp [Dict.find_cons]), bind_ok,
    Group.boolAttr_ok (b := t.warning) (by simp [Dict.find_cons]), bind_ok,
    Group.intAttr_ok (n := t.P.length) (by simp [Dict.find_cons]), bind_ok,
    getNumbered_ok (d := [("A".toList, .arr t.A), ("blueprint_B".toList, .arr t.blueprint),
      ("C".toList, .arr t.C)]) (d' := []) (by simp) (by intro j; simp [Dict.find_cons, pmPre_eq]), bind_ok, h]

/-- C20: a stored PARAFAC2 tensor is rejected by the loaders of the other classes. -/
theorem C20_parafac2_rejected (t : Parafac2Tensor) (f : H5File)
    (hf : storeFile Parafac2Tensor.storeIn t = .ok f) :
    fromFile EvolvingTensor.loadFrom f = .error .warning ∧
    fromFile KruskalTensor.loadFrom f = .error .warning := by
  rw [storeFile, parafac2_storeIn_eq, bind_ok] at hf
  cases hf
  constructor
  · rw [fromFile, EvolvingTensor.loadFrom, checkGroup,
      Dict.item_ok (v := .str parafac2Name) (by simp [Dict.find_cons]), bind_ok]
    have : parafac2Name ≠ evolvingName := by decide
    simp only [this, if_false, bind_error]
  · rw [fromFile, KruskalTensor.loadFrom, checkGroup,
      Dict.item_ok (v := .str parafac2Name) (by simp [Dict.find_cons]), bind_ok]
    have : parafac2Name ≠ kruskalName := by decide
    simp only [this, if_false, bind_error]

/-! ### C21 -/

/-- C21 fails: loading never succeeds, whatever the group contains. -/
theorem C21_evolving_load_fails (g : Group) : ∀ t, EvolvingTensor.loadFrom g ≠ .ok t := by
  intro t h
  unfold EvolvingTensor.loadFrom at h
  cases h1 : checkGroup evolvingName g with
  | error e => rw [h1, bind_error] at h; cases h
  | ok u =>
  rw [h1, bind_ok] at h
  cases h2 : g.arr "A".toList with
  | error e => rw [h2, bind_error] at h; cases h
  | ok A =>
  rw [h2, bind_ok] at h
  cases h3 : g.intAttr "num_Bs".toList with
  | error e => rw [h3, bind_error] at h; cases h
  | ok n =>
  rw [h3, bind_ok] at h
  cases h4 : getNumbered bPre n g with
  | error e => rw [h4, bind_error] at h; cases h
  | ok B =>
  rw [h4, bind_ok] at h
  cases h5 : g.arr "C".toList with
  | error e => rw [h5, bind_error] at h; cases h
  | ok C =>
  rw [h5, bind_ok] at h
  cases h6 : g.attrs.item "warning".toList with
  | error e => rw [h6, bind_error] at h; cases h
  | ok w =>
  rw [h6, bind_ok] at h
  cases h7 : g.attrs.item "all_same_size".toList with
  | error e => rw [h7, bind_error] at h; cases h
  | ok s =>
  rw [h7, bind_ok] at h
  cases h

theorem evolving_storeIn_eq (t : EvolvingTensor) :
    t.storeIn Group.empty = .ok
      { attrs := [("type".toList, .str evolvingName), ("rank".toList, .int t.rank),
          ("all_same_size".toList, .bool t.allSameSize), ("warning".toList, .bool t.warning),
          ("num_Bs".toList, .int t.B.length)],
        dsets := [("A".toList, .arr t.A)] ++ numbered bPre 0 t.B ++ [("C".toList, .arr t.C)] } := by
  rw [EvolvingTensor.storeIn]
  rw [Group.put_ok (by rfl), bind_ok, putNumbered_ok, bind_ok, Group.put_ok]
  · rfl
  · have : ∀ j, "C".toList ≠ bPre ++ fmtNat 3 j := by intro j; rw [bPre_eq]; simp
    simp only [prepareGroup, Group.setAttr, Group.empty, List.nil_append, List.cons_append, Dict.find_cons]
    rw [if_neg (by decide)]
    exact find_numbered_none fun j _ => this j
  · intro j _
    simp only [prepareGroup, Group.setAttr, Group.empty, bPre_eq, List.nil_append, List.cons_append]
    simp [Dict.find_cons]

/-- C21 (part): storing always succeeds on a new file and everything needed is in the file — each matrix of
the evolving mode can be read back in order, and so can `A`, `C` and the flag — but `from_file` raises
`TypeError` (the property itself is false). -/
theorem C21_evolving_store_partial (t : EvolvingTensor) :
    ∃ f, storeFile EvolvingTensor.storeIn t = .ok f ∧
      f.root.arr "A".toList = .ok t.A ∧ f.root.arr "C".toList = .ok t.C ∧
      f.root.boolAttr "warning".toList = .ok t.warning ∧
      f.root.intAttr "num_Bs".toList = .ok t.B.length ∧
      getNumbered bPre t.B.length f.root = .ok t.B ∧
      fromFile EvolvingTensor.loadFrom f = .error .typeError := by
  have hA : ∀ a d, Group.arr { attrs := a, dsets := ("A".toList, .arr t.A) :: d } "A".toList = .ok t.A :=
    fun a d => Group.arr_ok (by simp [Dict.find_cons])
  have hn : ∀ j, "C".toList ≠ bPre ++ fmtNat 3 j := by intro j; rw [bPre_eq]; simp
  have hC : ∀ a, Group.arr { attrs := a, dsets := [("A".toList, .arr t.A)] ++ numbered bPre 0 t.B
      ++ [("C".toList, .arr t.C)] } "C".toList = .ok t.C := by
    intro a
    apply Group.arr_ok
    rw [Dict.find_append, Dict.find_append, find_numbered_none fun j _ => hn j]
    simp [Dict.find_cons]
  have hB : ∀ a, getNumbered bPre t.B.length 
      { attrs := a, dsets := [("A".toList, .arr t.A)] ++ numbered bPre 0 t.B ++ [("C".toList, .arr t.C)] }
      = .ok t.B := by
    intro a
    exact getNumbered_ok (d := [("A".toList, .arr t.A)]) (d' := [("C".toList, .arr t.C)]) rfl
      (by intro j; simp [Dict.find_cons, bPre_eq])
  refine ⟨_, by rw [storeFile, evolving_storeIn_eq, bind_ok]; rfl, hA _ _, hC _, ?_, ?_, hB _, ?_⟩
  · exact Group.boolAttr_ok (by simp [Dict.find_cons])
  · exact Group.intAttr_ok (by simp [Dict.find_cons])
  · rw [fromFile, EvolvingTensor.loadFrom, checkGroup,
      Dict.item_ok (v := .str evolvingName) (by simp [Dict.find_cons]), bind_ok]
    simp only [if_true]
    rw [show (pure () : Py Unit) = .ok () from rfl, bind_ok]
    simp only [List.cons_append, List.nil_append] at hA hC hB ⊢
    rw [hA, bind_ok, Group.intAttr_ok (n := t.B.length) (by simp [Dict.find_cons]), bind_ok, hB, bind_ok, hC,
      bind_ok, Dict.item_ok (v := .bool t.warning) (by simp [Dict.find_cons]), bind_ok,
      Dict.item_ok (v := .bool t.allSameSize) (by simp [Dict.find_cons]), bind_ok]

end
end TK
