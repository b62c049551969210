import Verif.Lemmas.Flatten
import Verif.Lemmas.Kruskal

/-!
# Properties C01 - C05 and C07 - C10: unfold, fold, khatri_rao, kron, MTTKRP, construct_tensor,
flatten / unflatten
-/

namespace TK
open NDArray
variable {α : Type}

/-- "Mode `n` of a `d`-way array is axis `k`": non-negative modes are themselves, negative ones count from
the end. -/
def IsMode (n : Int) (d k : ℕ) : Prop := k < d ∧ (n = k ∨ n = (k : Int) - d)

theorem IsMode.norm {n : Int} {d k : ℕ} (h : IsMode n d k) : normIdx n d = some k :=
  normIdx_some_iff.2 h

theorem norm_none_of_not_isMode {n : Int} {d : ℕ} (h : ∀ k, ¬ IsMode n d k) : normIdx n d = none := by
  cases hn : normIdx n d with
  | none => rfl
  | some k => exact absurd (normIdx_some_iff.1 hn) (h k)

theorem not_isMode_iff {n : Int} {d : ℕ} : (∀ k, ¬ IsMode n d k) ↔ n < -(d : Int) ∨ (d : Int) ≤ n := by
  constructor
  · intro h
    have := norm_none_of_not_isMode h
    rw [normIdx_eq_none_iff] at this; omega
  · rintro h k ⟨h1, h2⟩; omega

/-! ### C01 -/

/-- C01: `unfold` puts entry `idx` at row `idx[k]` and at the column given by the C-order position of the
other indices. -/
theorem C01_unfold_entries [Zero α] (A : NDArray α) (n : Int) (k : ℕ) (hn : IsMode n A.shape.length k)
    (h0 : A.shape.getD k 0 ≠ 0) :
    ∃ M, unfold A n = .ok M ∧ M.shape = [A.shape.getD k 0, (A.shape.eraseIdx k).prod] ∧
      ∀ idx, Valid A.shape idx →
        M.get [idx.getD k 0, cPos (A.shape.eraseIdx k) (idx.eraseIdx k)] = A.get idx := by
  refine ⟨_, unfold_eq A hn.norm h0, rfl, ?_⟩
  intro idx hidx
  have he := hidx.eraseIdx (n := k)
  rw [← ravel_eq_cPos he.length_eq, get_ofMat (hidx.getD_lt hn.1) (ravel_lt he), unravel_ravel he,
    insertIdx_eraseIdx_getD (by rw [hidx.length_eq]; exact hn.1)]

/-- C01: the correspondence between entries of the array and entries of the matrix is one to one and onto,
so no entry is lost or duplicated. -/
theorem C01_unfold_bijective (s : List ℕ) (k : ℕ) (hk : k < s.length) (i j : ℕ) (hi : i < s.getD k 0)
    (hj : j < (s.eraseIdx k).prod) :
    ∃! idx, Valid s idx ∧ idx.getD k 0 = i ∧ cPos (s.eraseIdx k) (idx.eraseIdx k) = j := by
  have hu := unravel_valid hj
  have hle : k ≤ (s.eraseIdx k).length := by rw [List.length_eraseIdx_of_lt hk]; omega
  have hle' : k ≤ (unravel (s.eraseIdx k) j).length := by rw [hu.length_eq]; exact hle
  refine ⟨(unravel (s.eraseIdx k) j).insertIdx k i, ⟨?_, ?_, ?_⟩, ?_⟩
  · have := hu.insertIdx (n := k) (i := i) hle hi
    rwa [insertIdx_eraseIdx_getD hk] at this
  · exact getD_insertIdx hle'
  · rw [eraseIdx_insertIdx', ← ravel_eq_cPos hu.length_eq, ravel_unravel hj]
  · rintro idx ⟨hv, h1, h2⟩
    have he := hv.eraseIdx (n := k)
    rw [← ravel_eq_cPos he.length_eq] at h2
    have : unravel (s.eraseIdx k) j = idx.eraseIdx k := by rw [← h2, unravel_ravel he]
    rw [this, ← h1, insertIdx_eraseIdx_getD (by rw [hv.length_eq]; exact hk)]

/-- C01: a mode outside `[-d, d)` is rejected. -/
theorem C01_unfold_bad_mode [Zero α] (A : NDArray α) (n : Int)
    (h : n < -(A.shape.length : Int) ∨ (A.shape.length : Int) ≤ n) :
    unfold A n = .error .valueError :=
  unfold_error_mode A (norm_none_of_not_isMode (not_isMode_iff.2 h))

/-- C01: an empty mode is rejected (NumPy cannot infer the number of columns). -/
theorem C01_unfold_empty_mode [Zero α] (A : NDArray α) (n : Int) (k : ℕ)
    (hn : IsMode n A.shape.length k) (h0 : A.shape.getD k 0 = 0) :
    unfold A n = .error .valueError :=
  unfold_error_empty A hn.norm h0

/-- A concrete three-way array. -/
def ex234 : NDArray ℤ := ofFlat [2, 3, 4] fun p => (p : ℤ) + 1

/-- Non-vacuity: mode `-2` of a `2 × 3 × 4` array. -/
example : IsMode (-2) ex234.shape.length 1 ∧ ex234.shape.getD 1 0 ≠ 0 :=
  ⟨⟨by decide, Or.inr rfl⟩, by decide⟩

example : (unfold ex234 (-2)).map (fun M => (M.shape, M.data)) = .ok ([3, 8],
    [1, 2, 3, 4, 13, 14, 15, 16, 5, 6, 7, 8, 17, 18, 19, 20, 9, 10, 11, 12, 21, 22, 23, 24]) := by
  decide

/-! ### C02, C03 -/

/-- C02: `fold` undoes `unfold`. -/
theorem C02_fold_unfold [Zero α] (A : NDArray α) (n : Int) (k : ℕ) (hn : IsMode n A.shape.length k)
    (h0 : A.shape.getD k 0 ≠ 0) :
    (do let M ← unfold A n; fold M n A.shape) = .ok A := by
  rw [unfold_eq A hn.norm h0, bind_ok, fold_eq _ hn.norm (by
    simp only [shape_ofMat, List.prod_cons, List.prod_nil, mul_one]; exact prod_eraseIdx hn.1)]
  congr 1
  refine (ofFn_congr ?_).trans (eq_ofFn A).symm
  intro idx hidx
  have he := hidx.eraseIdx (n := k)
  have hr := ravel_lt he
  have e : idx.getD k 0 * (A.shape.eraseIdx k).prod + ravel (A.shape.eraseIdx k) (idx.eraseIdx k)
      = ravel [A.shape.getD k 0, (A.shape.eraseIdx k).prod]
          [idx.getD k 0, ravel (A.shape.eraseIdx k) (idx.eraseIdx k)] := by simp [ravel]
  rw [e]
  refine (get_ofMat (f := fun i p => A.get ((unravel (A.shape.eraseIdx k) p).insertIdx k i))
    (hidx.getD_lt hn.1) hr).trans ?_
  rw [unravel_ravel he, insertIdx_eraseIdx_getD (by rw [hidx.length_eq]; exact hn.1)]

/-- C03: `unfold` undoes `fold`. -/
theorem C03_unfold_fold [Zero α] (M : NDArray α) (s : List ℕ) (n : Int) (k : ℕ)
    (hn : IsMode n s.length k) (h0 : s.getD k 0 ≠ 0)
    (hM : M.shape = [s.getD k 0, (s.eraseIdx k).prod]) :
    (do let X ← fold M n s; unfold X n) = .ok M := by
  have hk := hn.1
  rw [fold_eq _ hn.norm (by rw [hM]; simpa using prod_eraseIdx hk), bind_ok, unfold_eq _ hn.norm h0]
  congr 1
  simp only [shape_ofFn]
  rw [eq_ofMat hM]
  apply ofMat_congr
  intro i hi p hp
  have hu := unravel_valid hp
  have hle : k ≤ (s.eraseIdx k).length := by rw [List.length_eraseIdx_of_lt hk]; omega
  have hle' : k ≤ (unravel (s.eraseIdx k) p).length := by rw [hu.length_eq]; exact hle
  have hv : Valid s ((unravel (s.eraseIdx k) p).insertIdx k i) := by
    have := hu.insertIdx (n := k) (i := i) hle hi
    rwa [insertIdx_eraseIdx_getD hk] at this
  rw [get_ofFn hv, getD_insertIdx hle', eraseIdx_insertIdx', ravel_unravel hp]
  have e : i * (s.eraseIdx k).prod + p = ravel [s.getD k 0, (s.eraseIdx k).prod] [i, p] := by
    simp [ravel]
  rw [e]
  exact get_ofMat (f := fun i j => M.get [i, j]) hi hp

/-- C03: `fold` raises `ValueError` when the sizes do not match. -/
theorem C03_fold_bad_size [Zero α] (M : NDArray α) (s : List ℕ) (n : Int) (k : ℕ)
    (hn : IsMode n s.length k) (hM : M.shape.prod ≠ s.prod) : fold M n s = .error .valueError :=
  fold_error_size M hn.norm hM

/-- Non-vacuity of C03. -/
example : IsMode (-1) [2, 3, 4].length 2 ∧ ([2, 3, 4] : List ℕ).getD 2 0 ≠ 0 ∧
    (ofFlat [4, 6] fun p => (p : ℤ)).shape = [([2, 3, 4] : List ℕ).getD 2 0, ([2, 3, 4].eraseIdx 2).prod] :=
  ⟨⟨by decide, Or.inr rfl⟩, by decide, rfl⟩

/-! ### C04, C05 -/

section
variable [CommSemiring α]

/-- C04: `khatri_rao` of a non-empty list of matrices with `R` columns. -/
theorem C04_khatri_rao (fs : List (NDArray α)) (sizes : List ℕ) (R : ℕ) (h : Factors fs sizes R)
    (hne : fs ≠ []) :
    ∃ K, khatriRao fs none = .ok K ∧ K.shape = [sizes.prod, R] ∧
      ∀ idx r, Valid sizes idx → r < R → K.get [cPos sizes idx, r] = rankOne fs idx r := by
  refine ⟨_, khatriRao_eq h hne, rfl, ?_⟩
  intro idx r hidx hr
  rw [← ravel_eq_cPos hidx.length_eq, get_krMat hidx hr]

/-- C04: `skip = n` leaves out the mode that `n` denotes (also for negative `n`). -/
theorem C04_khatri_rao_skip (fs : List (NDArray α)) (n : Int) (k : ℕ) (hn : IsMode n fs.length k) :
    khatriRao fs (some n) = khatriRao (fs.eraseIdx k) none :=
  khatriRao_skip_eq hn.norm

/-- C04: a `skip` outside the list, and an empty list of factors, raise `IndexError`. -/
theorem C04_khatri_rao_errors (fs : List (NDArray α)) (n : Int) :
    ((∀ k, ¬ IsMode n fs.length k) → khatriRao fs (some n) = .error .indexError) ∧
    khatriRao ([] : List (NDArray α)) none = .error .indexError := by
  refine ⟨fun h => ?_, rfl⟩
  simp [khatriRao, skipFactor, pyPop_error (norm_none_of_not_isMode h), Except.map, bind_error]

/-- C04: the contents of the memory returned by `np.empty` do not influence the result. -/
theorem C04_khatri_rao_memory (mem mem' : ℕ → α) (A B : NDArray α) :
    khatriRaoBinaryMem mem A B = khatriRaoBinaryMem mem' A B :=
  khatriRaoBinaryMem_indep mem mem' A B

/-- Two concrete matrices with two columns. -/
def exA : NDArray ℤ := ofFlat [3, 2] fun p => (p : ℤ) - 2
def exB : NDArray ℤ := ofFlat [2, 2] fun p => 2 * (p : ℤ) + 1
def exC : NDArray ℤ := ofFlat [4, 2] fun p => 5 - (p : ℤ)

/-- Non-vacuity of C04. -/
example : Factors [exA, exB, exC] [3, 2, 4] 2 ∧ [exA, exB, exC] ≠ [] :=
  ⟨.cons rfl (.cons rfl (.cons rfl .nil)), by simp⟩

example : (khatriRao [exA, exB] none).map (fun M => (M.shape, M.data)) = .ok ([6, 2],
    [-2, -3, -10, -7, 0, 3, 0, 7, 2, 9, 10, 21]) := by decide

/-- C05: `kron` of a non-empty list of matrices. -/
theorem C05_kron (fs : List (NDArray α)) (rows cols : List ℕ) (h : Mats fs rows cols) (hne : fs ≠ []) :
    ∃ K, kron fs = .ok K ∧ K.shape = [rows.prod, cols.prod] ∧
      ∀ is js, Valid rows is → Valid cols js →
        K.get [cPos rows is, cPos cols js] = kronEntry fs is js := by
  refine ⟨_, kron_eq h hne, rfl, ?_⟩
  intro is js his hjs
  rw [← ravel_eq_cPos his.length_eq, ← ravel_eq_cPos hjs.length_eq, kronMat,
    get_ofMat (ravel_lt his) (ravel_lt hjs), unravel_ravel his, unravel_ravel hjs]

/-- C05, two vectors: `kron_binary_vectors(u, v)[i * len(v) + j] = u[i] * v[j]`. -/
theorem C05_kron_vectors (u v : NDArray α) (n m : ℕ) (hu : u.shape = [n]) (hv : v.shape = [m]) :
    ∃ K, kronBinaryVectors u v = .ok K ∧ K.shape = [n * m] ∧
      ∀ i j, i < n → j < m → K.get [i * m + j] = u.get [i] * v.get [j] := by
  simp only [kronBinaryVectors, hu, hv]
  rw [reshape_ok' (by simp)]
  refine ⟨_, rfl, rfl, ?_⟩
  intro i j hi hj
  have hlt : i * m + j < n * m := by
    calc i * m + j < (i + 1) * m := by rw [Nat.add_mul]; omega
      _ ≤ n * m := Nat.mul_le_mul_right _ hi
  rw [get_ofFlat (by simpa using hlt)]
  have e : ravel [n * m] [i * m + j] = ravel [n, m] [i, j] := by simp [ravel]
  rw [e]
  exact get_ofMat (f := fun i j => u.get [i] * v.get [j]) hi hj

/-- Non-vacuity of C05. -/
example : Mats [exA, exB, exC] [3, 2, 4] [2, 2, 2] :=
  ⟨.cons rfl (.cons rfl (.cons rfl .nil)), rfl⟩

/-! ### C07 -/

/-- C07: `matrix_khatri_rao_product` is the MTTKRP, for every order `≥ 2` and every mode, except negative
modes other than `-1` of third-order tensors (see `C07_three_way_negative`). -/
theorem C07_mttkrp (X : NDArray α) (fs : List (NDArray α)) (R k : ℕ) (mode : Int)
    (hfs : Factors fs X.shape R) (h2 : 2 ≤ fs.length) (hk : IsMode mode fs.length k)
    (h0 : X.shape.getD k 0 ≠ 0) (h3 : fs.length = 3 → 0 ≤ mode ∨ mode = -1) :
    ∃ M, matrixKhatriRaoProduct X fs mode = .ok (some M) ∧ M.shape = [X.shape.getD k 0, R] ∧
      ∀ i r, i < X.shape.getD k 0 → r < R → M.get [i, r] = mttkrpEntry X fs k i r := by
  refine ⟨_, mttkrp_eq hfs h2 hk.norm h0 h3, rfl, ?_⟩
  intro i r hi hr
  rw [mttkrpMat, get_ofMat hi hr]

/-- C07: for a third-order tensor the modes `-2` and `-3`, which every other function accepts, make the
function return `None`. -/
theorem C07_three_way_negative (X : NDArray α) (fs : List (NDArray α)) (mode : Int)
    (hX : X.shape.length = 3) (hfs : fs.length = 3) (hm : mode = -2 ∨ mode = -3) :
    matrixKhatriRaoProduct X fs mode = .ok none := by
  rw [matrixKhatriRaoProduct, if_neg (by omega), if_pos hfs, mttkrp3, if_neg (by omega),
    if_neg (by omega), if_neg (by omega)]
  rfl

/-- C07: a wrong number of factors raises `AssertionError`. -/
theorem C07_wrong_number (X : NDArray α) (fs : List (NDArray α)) (mode : Int)
    (h : X.shape.length ≠ fs.length) : matrixKhatriRaoProduct X fs mode = .error .assertionError := by
  rw [matrixKhatriRaoProduct, if_pos h]

/-- C07: the fast path for the last mode of a third-order tensor and the general path (unfold times
Khatri-Rao) agree. -/
theorem C07_fast_path_agrees (X : NDArray α) (fs : List (NDArray α)) (R k : ℕ) (mode : Int)
    (hfs : Factors fs X.shape R) (h3 : fs.length = 3) (hk : IsMode mode fs.length k)
    (h0 : X.shape.getD k 0 ≠ 0) (hm : 0 ≤ mode ∨ mode = -1) :
    matrixKhatriRaoProduct X fs mode = (do
      let M ← unfold X mode
      let krp ← khatriRao fs (some mode)
      some <$> matmul M krp) := by
  have hkX : normIdx mode X.shape.length = some k := by rw [← hfs.length_eq]; exact hk.norm
  rw [mttkrp_eq hfs (by omega) hk.norm h0 (fun _ => hm), unfold_eq X hkX h0, bind_ok,
    khatriRao_skip hfs hk.norm (by omega), bind_ok, unfold_matmul_krMat rfl]
  rfl

/-- A concrete tensor matching `exA, exB, exC`. -/
def exX : NDArray ℤ := ofFlat [3, 2, 4] fun p => (p : ℤ) * p - 7

/-- Non-vacuity of C07: middle mode of a third-order tensor. -/
example : Factors [exA, exB, exC] exX.shape 2 ∧ 2 ≤ [exA, exB, exC].length ∧
    IsMode 1 [exA, exB, exC].length 1 ∧ exX.shape.getD 1 0 ≠ 0 :=
  ⟨.cons rfl (.cons rfl (.cons rfl .nil)), by decide, ⟨by decide, Or.inl rfl⟩, by decide⟩

end

/-! ### C08, C09 -/

/-- C08: entries of `construct_tensor()`. -/
theorem C08_construct_tensor (t : KruskalTensor) (sizes : List ℕ) (R : ℕ) (h : t.WF sizes R)
    (h2 : 2 ≤ sizes.length) :
    ∃ X, t.constructTensor = .ok X ∧ X.shape = sizes ∧ ∀ idx, Valid sizes idx →
      X.get idx = ∑ r ∈ Finset.range R, t.weights.get [r] * rankOne t.factorMatrices idx r := by
  refine ⟨_, constructTensor_eq h h2, rfl, ?_⟩
  intro idx hidx
  rw [get_ofFn hidx]; rfl

/-- C08: a Kruskal tensor with a single mode cannot be constructed (`khatri_rao()` of nothing). -/
theorem C08_single_mode (t : KruskalTensor) (n R : ℕ) (h : t.WF [n] R) :
    t.constructTensor = .error .indexError := by
  obtain ⟨_, hfs, hw⟩ := h
  rw [KruskalTensor.constructTensor, mapM_rows hfs, bind_ok]
  generalize t.factorMatrices = fs at hfs
  cases hfs with
  | cons h1 h2 =>
    cases h2
    rename_i F
    have hp : pyGet [F] 0 = .ok F := rfl
    rw [hp, bind_ok, zipB_row_mat _ (by simp [hw]) h1, bind_ok]
    rfl

/-- C09: `unfold(construct_tensor(), n) = U_n diag(w) khatri_rao(factors, skip=n)^T`. -/
theorem C09_unfold_construct (t : KruskalTensor) (sizes : List ℕ) (R : ℕ) (h : t.WF sizes R)
    (h2 : 2 ≤ sizes.length) (n : Int) (k : ℕ) (hn : IsMode n sizes.length k) (h0 : sizes.getD k 0 ≠ 0) :
    ∃ X M K, t.constructTensor = .ok X ∧ unfold X n = .ok M ∧
      khatriRao t.factorMatrices (some n) = .ok K ∧
      ∃ hk : k < t.factorMatrices.length, ∀ i j, i < sizes.getD k 0 → j < (sizes.eraseIdx k).prod →
        M.get [i, j] = ∑ r ∈ Finset.range R,
          (t.factorMatrices[k]).get [i, r] * t.weights.get [r] * K.get [j, r] := by
  have hlen := h.factors.length_eq
  have hk : k < t.factorMatrices.length := by rw [hlen]; exact hn.1
  refine ⟨_, _, _, constructTensor_eq h h2, unfold_eq _ hn.norm h0,
    khatriRao_skip h.factors (k := k) (by rw [hlen]; exact hn.norm) (by omega), hk, ?_⟩
  intro i j hi hj
  simp only [shape_ofFn]
  have hu := unravel_valid hj
  have hle : k ≤ (sizes.eraseIdx k).length := by rw [List.length_eraseIdx_of_lt hn.1]; omega
  have hle' : k ≤ (unravel (sizes.eraseIdx k) j).length := by rw [hu.length_eq]; exact hle
  have hv : Valid sizes ((unravel (sizes.eraseIdx k) j).insertIdx k i) := by
    have := hu.insertIdx (n := k) (i := i) hle hi
    rwa [insertIdx_eraseIdx_getD hn.1] at this
  rw [get_ofMat hi hj, get_ofFn hv, cpEntry]
  apply Finset.sum_congr rfl
  intro r hr
  have hr := Finset.mem_range.1 hr
  rw [rankOne_eraseIdx hk (by rw [hv.length_eq, hlen]), getD_insertIdx hle', eraseIdx_insertIdx',
    krMat, get_ofMat hj hr]
  ring

/-- Non-vacuity of C08 and C09. -/
noncomputable def exKT : KruskalTensor :=
  ⟨2, [ofMat 3 2 fun i r => (i : ℝ) + r, ofMat 2 2 fun i r => (i : ℝ) - r, ofMat 4 2 fun _ r => (r : ℝ) + 1],
    ofFn [2] fun _ => 3⟩

theorem exKT_wf : exKT.WF [3, 2, 4] 2 :=
  ⟨rfl, .cons rfl (.cons rfl (.cons rfl .nil)), rfl⟩

example : exKT.WF [3, 2, 4] 2 ∧ 2 ≤ ([3, 2, 4] : List ℕ).length ∧ IsMode (-1) ([3, 2, 4] : List ℕ).length 2 ∧
    ([3, 2, 4] : List ℕ).getD 2 0 ≠ 0 := ⟨exKT_wf, by decide, ⟨by decide, Or.inr rfl⟩, by decide⟩

/-! ### C10 -/

/-- C10: `flatten_factors` of a list of arrays, at least one, with at least one axis each, concatenates the C-order entries,
whatever `np.empty` returned. -/
theorem C10_flatten [Zero α] (mem : ℕ → α) (fs : List (NDArray α)) (hn : fs ≠ []) (hs : ∀ f ∈ fs, f.shape ≠ []) :
    ∃ v, flattenFactors mem fs = .ok v ∧ v.data = (fs.map fun f => f.data).flatten ∧
      v.shape = [(fs.map fun f => f.data.length).sum] := by
  refine ⟨_, flattenFactors_eq mem fs hn hs, rfl, ?_⟩
  have : (fs.map fun f => f.data.length) = fs.map fun f => f.shape.prod := by simp [NDArray.wf]
  rw [this, ← length_concatData]

/-- C10: an empty list cannot be flattened. -/
theorem C10_flatten_empty [Zero α] (mem : ℕ → α) : flattenFactors mem ([] : List (NDArray α)) = .error .typeError := by
  rw [flattenFactors, if_pos (Or.inl rfl)]

/-- C10: `unflatten_factors(flatten_factors(F), rank, sizes)` equals `F`. -/
theorem C10_unflatten_flatten [Zero α] (mem : ℕ → α) (fs : List (NDArray α)) (sizes : List ℕ) (R : ℕ)
    (h : Factors fs sizes R) (hn : fs ≠ []) :
    ∃ v, flattenFactors mem fs = .ok v ∧ unflattenFactors v R sizes = .ok fs := by
  refine ⟨_, flattenFactors_eq mem fs hn h.shape_ne_nil, ?_⟩
  rw [unflattenFactors]
  apply unflattenLoop_of_concat 0 h
  · simp
  · intro p hp; simp [NDArray.flat]

/-- C10: `flatten_factors(unflatten_factors(v, rank, sizes))` equals `v` for a vector of the right length;
in particular unflattening succeeds. -/
theorem C10_flatten_unflatten [Zero α] (mem : ℕ → α) (v : NDArray α) (sizes : List ℕ) (R : ℕ)
    (hv : v.shape = [(sizes.map (· * R)).sum]) (hn : sizes ≠ []) :
    ∃ fs, unflattenFactors v R sizes = .ok fs ∧ Factors fs sizes R ∧ flattenFactors mem fs = .ok v := by
  have hp : v.shape.prod = (sizes.map (· * R)).sum := by simp [hv]
  obtain ⟨fs, hfs⟩ := unflattenLoop_isOk (R := R) (v := v) (sizes := sizes) 0 (by omega)
  obtain ⟨h1, h2, h3⟩ := concat_of_unflattenLoop 0 (by omega) hfs
  refine ⟨fs, hfs, h1, ?_⟩
  have hf : fs ≠ [] := by
    rintro rfl
    exact hn (by simpa using (List.Forall₂.length_eq h1).symm)
  rw [flattenFactors_eq mem fs hf h1.shape_ne_nil]
  refine congrArg Except.ok (ext_flat (by simp [hv, h2]) ?_)
  intro p hp
  have hp' : p < (concatData fs).length := by simpa using hp
  have := h3 p hp'
  rw [Nat.zero_add] at this
  rw [this]; rfl

/-- C10: a vector that is too short is rejected. -/
theorem C10_unflatten_short [Zero α] (v : NDArray α) (s R : ℕ) (hv : v.shape = [s * R])
    (sizes : List ℕ) (s' : ℕ) (hs : s < s') (hR : 0 < R) :
    unflattenFactors v R (s' :: sizes) = .error .valueError := by
  have hlt : s * R < s' * R := Nat.mul_lt_mul_of_pos_right hs hR
  rw [unflattenFactors, unflattenLoop]
  have : (slice1 v 0 (0 + s' * R)).shape.prod ≠ [s', R].prod := by
    simp [slice1, hv, hlt.le]; omega
  simp only [reshape, dif_neg this, bind_error]

/-- Non-vacuity of C10. -/
example : Factors [exA, exB, exC] [3, 2, 4] 2 ∧ [exA, exB, exC] ≠ [] ∧
    (ofFlat [18] fun p => (p : ℤ)).shape = [(([3, 2, 4] : List ℕ).map (· * 2)).sum] :=
  ⟨.cons rfl (.cons rfl (.cons rfl .nil)), by simp, rfl⟩

end TK
