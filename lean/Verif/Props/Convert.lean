import Verif.Model.Convert
import Verif.Lemmas.Parafac2Init
import Verif.Props.Container

/-!
# Property C127 (`from_kruskaltensor` and its argument `allow_same_class`)
-/

namespace TK
open NDArray

noncomputable section

/-- **C127**: with `allow_same_class=True`, a tensor that already is evolving is returned as it is: an evolving tensor and a
PARAFAC2 tensor by `EvolvingTensor.from_kruskaltensor`, and a PARAFAC2 tensor by `Parafac2Tensor.from_kruskaltensor`. -/
theorem C127_same_class (e : EvolvingTensor) (b : Bool) (p : Parafac2Tensor) :
    fromKruskaltensor .evolvingTensor (.evolving e b) true = .ok (.evolving e b) ∧
    fromKruskaltensor .evolvingTensor (.parafac2 p) true = .ok (.parafac2 p) ∧
    fromKruskaltensor .parafac2Tensor (.parafac2 p) true = .ok (.parafac2 p) := ⟨rfl, rfl, rfl⟩

/-- **C127**: the flag makes no difference for Kruskal tensors; those with weights one are converted to an evolving tensor that
represents the same tensor, and those of another order raise `ValueError`. -/
theorem C127_kruskal {t : KruskalTensor} {I J K R : ℕ} (h : t.WF [I, J, K] R) (hK : 0 < K)
    (hw : ∀ r < R, t.weights.get [r] = 1) (allow : Bool) :
    ∃ e X, fromKruskaltensor .evolvingTensor (.kruskal t) allow = .ok (.evolving e true) ∧
      e.constructTensor = .ok X ∧ t.constructTensor = .ok X := by
  obtain ⟨e, X, he, hX, hX'⟩ := C23_from_kruskal_partial h hK hw
  refine ⟨e, X, ?_, hX, hX'⟩
  have hi : (AnyTensor.kruskal t).isInstance .evolvingTensor = false := rfl
  rw [fromKruskaltensor, hi, Bool.and_false]
  simp only [Bool.false_eq_true, if_false, he]
  rfl

/-- **C127**: a Kruskal tensor of another order raises `ValueError`, for both classes and both values of the flag. -/
theorem C127_bad_order {t : KruskalTensor} (h : t.factorMatrices.length ≠ 3) (cls : EvolvingClass) (allow : Bool) :
    fromKruskaltensor cls (.kruskal t) allow = .error .valueError := by
  have hi : (AnyTensor.kruskal t).isInstance cls = false := rfl
  unfold fromKruskaltensor
  rw [hi, Bool.and_false]
  cases cls with
  | evolvingTensor =>
    simp only [Bool.false_eq_true, if_false, C23_bad_order h]
    rfl
  | parafac2Tensor =>
    simp only [Bool.false_eq_true, if_false, Parafac2Tensor.fromKruskal, if_pos h]
    rfl

/-- **C127** (part): without the flag, evolving tensors given by a list of matrices and PARAFAC2 tensors raise `TypeError`; so do
evolving tensors that are to become PARAFAC2 tensors, with and without the flag. Missing: evolving tensors given by an array, which
are accepted (`C127_array_fails`). -/
theorem C127_rejected_partial (e : EvolvingTensor) (p : Parafac2Tensor) (allow : Bool) :
    fromKruskaltensor .evolvingTensor (.evolving e false) false = .error .typeError ∧
    fromKruskaltensor .evolvingTensor (.parafac2 p) false = .error .typeError ∧
    fromKruskaltensor .parafac2Tensor (.parafac2 p) false = .error .typeError ∧
    fromKruskaltensor .parafac2Tensor (.evolving e false) allow = .error .typeError := by
  refine ⟨rfl, rfl, rfl, ?_⟩
  cases allow <;> rfl

theorem unstack_one {K J R : ℕ} {B : NDArray ℝ} (hB : B.shape = [1, K, J, R]) :
    ∃ M : NDArray ℝ, unstack B = [M] ∧ M.shape = [K, J, R] ∧
      ∀ k < K, ∀ j < J, ∀ r < R, M.get [k, j, r] = B.get [0, k, j, r] := by
  refine ⟨ofFn [K, J, R] fun idx => B.get (0 :: idx), ?_, rfl, fun k hk j hj r hr => ?_⟩
  · simp only [unstack, hB, List.headD_cons, List.tail_cons]
    rfl
  · exact get_ofFn (by simp [hk, hj, hr])

/-- The array of line 341 for an array `B` of shape `(K, J, R)` with one matrix for each of the `K` rows of `C`: it has one more
axis, of length one. -/
theorem repeatArray_ok {C : NDArray ℝ} {Bs : List (NDArray ℝ)} {J R : ℕ} {n : ℕ} (hC : C.shape = [Bs.length, n])
    (hB : ∀ Bk ∈ Bs, Bk.shape = [J, R]) (hne : Bs ≠ []) :
    ∃ B, repeatArray C Bs = .ok B ∧ B.shape = [1, Bs.length, J, R] := by
  have hb : bshape [Bs.length, 1, 1] [1, Bs.length, J, R] = some [1, Bs.length, J, R] := by
    have h1 : bdim 1 R = some R := by unfold bdim; split <;> simp_all
    have h2 : bdim 1 J = some J := by unfold bdim; split <;> simp_all
    have h3 : bdim Bs.length Bs.length = some Bs.length := by simp [bdim]
    simp [bshape, bshapeRev, h1, h2, h3]
  have h1 : (newaxis0 (p2Stack Bs J R)).shape = [1, Bs.length, J, R] := rfl
  refine ⟨ofFn [1, Bs.length, J, R] fun idx => (full [Bs.length, 1, 1] (1 : ℝ)).get (bidx [Bs.length, 1, 1] idx) *
    (newaxis0 (p2Stack Bs J R)).get (bidx [1, Bs.length, J, R] idx), ?_, rfl⟩
  rw [repeatArray, rows_ok hC, bind_ok, stackSlices_ok hB hne, bind_ok, zipB, h1, shape_full, hb]

/-- **C127, refuted** for arrays: without the flag, an evolving tensor whose `B` is an array of shape `(K, J, R)` is not rejected.
The result has one slice of width `K` where the argument has `K` slices of width `J`. -/
theorem C127_array_fails {A C : NDArray ℝ} {Bs : List (NDArray ℝ)} {I J R n : ℕ} (hA : A.shape = [I, R])
    (hC : C.shape = [Bs.length, n]) (hB : ∀ Bk ∈ Bs, Bk.shape = [J, R]) (hne : Bs ≠ []) :
    ∃ t e, EvolvingTensor.init A Bs C = .ok t ∧
      fromKruskaltensor .evolvingTensor (.evolving t true) false = .ok (.evolving e true) ∧
      t.sliceShapes = List.replicate Bs.length (I, J) ∧ e.sliceShapes = [(I, Bs.length)] := by
  have hf : Factors Bs (List.replicate Bs.length J) R := by
    unfold Factors
    rw [List.forall₂_iff_get]
    exact ⟨by simp, fun i h1 h2 => by simpa using hB _ (List.getElem_mem h1)⟩
  have hl : Bs.length ≠ 0 := by simpa using hne
  have ht := evolving_init_ok (C := C) hA hf (by simpa using hne) true
  obtain ⟨B, hr, hs⟩ := repeatArray_ok hC hB hne
  obtain ⟨M, hu, hM, -⟩ := unstack_one hs
  refine ⟨_, ⟨R, A, [M], C, true, true, [(I, Bs.length)], Bs.length⟩, ht, ?_, by simp, rfl⟩
  have hrow : rows M = .ok Bs.length := by rw [rows, hM]; exact pyGet_ok (k := 0) (by simp [normIdx])
  have he : EvolvingTensor.init A [M] C = .ok ⟨R, A, [M], C, true, true, [(I, Bs.length)], Bs.length⟩ := by
    have h0 : pyGet [M] 0 = .ok M := pyGet_ok (k := 0) (by simp [normIdx])
    have h1 : checkAllSameSize [M] = .ok true := by
      rw [checkAllSameSize, h0, bind_ok, hrow, bind_ok, List.mapM_cons, List.mapM_nil, hrow]
      simp [bind_ok, pure, Except.pure]
    have h2 : sliceShapesOf A [M] = .ok [(I, Bs.length)] := by
      rw [sliceShapesOf, List.mapM_cons, List.mapM_nil, rows_ok hA, bind_ok, hrow, bind_ok]
      rfl
    rw [EvolvingTensor.init, cols_ok hA, bind_ok, h1, bind_ok, h2, bind_ok]
    rfl
  simp only [fromKruskaltensor, Bool.false_and, Bool.false_eq_true, if_false, hr, bind_ok, hu, he]
  rfl

/-- An evolving tensor given by an array of two matrices of three rows: its conversion has a single slice of width two. -/
example : ∃ t e, EvolvingTensor.init (full [4, 2] 1) [full [3, 2] 1, full [3, 2] 2] (full [2, 2] 1) = .ok t ∧
    fromKruskaltensor .evolvingTensor (.evolving t true) false = .ok (.evolving e true) ∧
    t.sliceShapes = [(4, 3), (4, 3)] ∧ e.sliceShapes = [(4, 2)] :=
  C127_array_fails (Bs := [full [3, 2] 1, full [3, 2] 2]) (I := 4) (J := 3) (R := 2) (n := 2) rfl rfl
    (by simp) (by simp)

/-- A Kruskal tensor with weights one. -/
example : ∃ t : KruskalTensor, t.WF [2, 3, 4] 2 ∧ ∀ r < 2, t.weights.get [r] = 1 :=
  ⟨⟨2, [full [2, 2] 1, full [3, 2] 2, full [4, 2] 3], full [2] 1⟩, ⟨rfl, .cons rfl (.cons rfl (.cons rfl .nil)), rfl⟩,
    fun r hr => get_full (by simpa using hr)⟩

end
end TK
