import Verif.Props.Relations

/-!
# C132: fits of compressed data

Source: cp.py:336-402, base.py:7-60.

If the slices of the data along a mode are `X ×_m U` for a matrix `U` with orthonormal columns (compressed data `X`, a rotated
basis, zero slices appended), then the fit of the large tensor is the fit of the small one, expanded.
-/

namespace TK
open NDArray Matrix

noncomputable section

/-- `X'` is the product of `X` with the `n' × n` matrix `U` in mode `m`, where `n` is the size of this mode of `X`. -/
structure Expanded (U : NDArray ℝ) (n' m : ℕ) (X X' : NDArray ℝ) : Prop where
  shape : X'.shape = X.shape.set m n'
  entry : ∀ idx, Valid (X.shape.eraseIdx m) idx → ∀ i < n',
    X'.get (idx.insertIdx m i) = ∑ j ∈ Finset.range (X.shape.getD m 0), U.get [i, j] * X.get (idx.insertIdx m j)

/-- `F' = U F`, for `U` of size `n' × n` and matrices with `R` columns. -/
def RowsExpanded (U : NDArray ℝ) (n' n R : ℕ) (F F' : NDArray ℝ) : Prop :=
  ∀ i < n', ∀ r < R, F'.get [i, r] = ∑ j ∈ Finset.range n, U.get [i, j] * F.get [j, r]

/-- The matrices of the other modes are equal, those of mode `m` are related by `U`. -/
structure FactorsExpanded (U : NDArray ℝ) (n' n m R : ℕ) (fs fs' : List (NDArray ℝ)) : Prop where
  rest : ∀ k, k ≠ m → fs'[k]? = fs[k]?
  factor : ∀ F F', fs[m]? = some F → fs'[m]? = some F' → RowsExpanded U n' n R F F'

theorem OrthoCols.inner {U : NDArray ℝ} {n' n : ℕ} (h : OrthoCols U n' n) (x y : ℕ → ℝ) :
    ∑ i ∈ Finset.range n', (∑ j ∈ Finset.range n, U.get [i, j] * x j) * (∑ j ∈ Finset.range n, U.get [i, j] * y j)
      = ∑ j ∈ Finset.range n, x j * y j := by
  have e : ∀ i ∈ Finset.range n', (∑ j ∈ Finset.range n, U.get [i, j] * x j) * (∑ j ∈ Finset.range n, U.get [i, j] * y j)
      = ∑ j ∈ Finset.range n, ∑ k ∈ Finset.range n, x j * y k * (U.get [i, j] * U.get [i, k]) := fun i _ => by
    rw [Finset.sum_mul_sum]
    exact Finset.sum_congr rfl fun j _ => Finset.sum_congr rfl fun k _ => by ring
  rw [Finset.sum_congr rfl e, Finset.sum_comm]
  refine Finset.sum_congr rfl fun j hj => ?_
  rw [Finset.sum_comm]
  have e2 : ∀ k ∈ Finset.range n, ∑ i ∈ Finset.range n', x j * y k * (U.get [i, j] * U.get [i, k])
      = if j = k then x j * y k else 0 := fun k hk => by
    rw [← Finset.mul_sum, h j (Finset.mem_range.1 hj) k (Finset.mem_range.1 hk)]
    split <;> simp
  rw [Finset.sum_congr rfl e2, Finset.sum_ite_eq, if_pos hj]

theorem OrthoCols.pos {U : NDArray ℝ} {n' n : ℕ} (h : OrthoCols U n' n) (hn : n ≠ 0) : n' ≠ 0 := by
  rintro rfl
  have := h 0 (Nat.pos_of_ne_zero hn) 0 (Nat.pos_of_ne_zero hn)
  simp at this

theorem rankOne_insertIdx {fs : List (NDArray ℝ)} {idx : List ℕ} {k i r : ℕ} (hk : k < fs.length)
    (hidx : idx.length + 1 = fs.length) :
    rankOne fs (idx.insertIdx k i) r = (fs[k]).get [i, r] * rankOne (fs.eraseIdx k) idx r := by
  rw [rankOne_eraseIdx hk (by rw [List.length_insertIdx_of_le_length (by omega)]; omega), getD_insertIdx (by omega),
    eraseIdx_insertIdx']

namespace Expanded

variable {U X X' : NDArray ℝ} {n' m : ℕ}

theorem length (h : Expanded U n' m X X') : X'.shape.length = X.shape.length := by rw [h.shape]; simp

theorem getD (h : Expanded U n' m X X') (hm : m < X.shape.length) : X'.shape.getD m 0 = n' := by
  rw [h.shape]; simp [List.getD, hm]

theorem getD_ne (h : Expanded U n' m X X') {k : ℕ} (hk : k ≠ m) : X'.shape.getD k 0 = X.shape.getD k 0 := by
  rw [h.shape]; simp [List.getD, List.getElem?_set, Ne.symm hk]

theorem erase (h : Expanded U n' m X X') : X'.shape.eraseIdx m = X.shape.eraseIdx m := by
  rw [h.shape, eraseIdx_set_self]

/-- The inner products with rank one arrays. -/
theorem inner (h : Expanded U n' m X X') (hm : m < X.shape.length) (hU : OrthoCols U n' (X.shape.getD m 0)) {R : ℕ}
    {fs fs' : List (NDArray ℝ)} (hl : fs.length = X.shape.length) (hl' : fs'.length = X.shape.length)
    (hf : FactorsExpanded U n' (X.shape.getD m 0) m R fs fs') {r : ℕ} (hr : r < R) :
    sumIdx X'.shape (fun idx => X'.get idx * rankOne fs' idx r) = sumIdx X.shape fun idx => X.get idx * rankOne fs idx r := by
  have her : fs'.eraseIdx m = fs.eraseIdx m := by
    refine List.ext_getElem? fun k => ?_
    rw [List.getElem?_eraseIdx, List.getElem?_eraseIdx]
    split <;> exact hf.rest _ (by omega)
  have hF := hf.factor fs[m] fs'[m] (by simp) (by simp)
  rw [sumIdx_split (by rw [h.length]; exact hm), sumIdx_split hm, h.erase, h.getD hm]
  simp only [← sumIdx_sum]
  refine sumIdx_congr fun idx hv => ?_
  have hi : idx.length + 1 = X.shape.length := by rw [hv.length_eq, List.length_eraseIdx_of_lt hm]; omega
  have hr' : ∀ (gs : List (NDArray ℝ)) (hg : gs.length = X.shape.length) (i : ℕ), rankOne gs (idx.insertIdx m i) r =
      (gs[m]).get [i, r] * rankOne (gs.eraseIdx m) idx r := fun gs hg i => rankOne_insertIdx (by omega) (by omega)
  have e1 : ∀ i ∈ Finset.range n', X'.get (idx.insertIdx m i) * rankOne fs' (idx.insertIdx m i) r
      = (∑ j ∈ Finset.range (X.shape.getD m 0), U.get [i, j] * X.get (idx.insertIdx m j)) *
        (∑ j ∈ Finset.range (X.shape.getD m 0), U.get [i, j] * (fs[m]).get [j, r]) * rankOne (fs.eraseIdx m) idx r :=
    fun i hi => by
      rw [hr' fs' hl', her, h.entry idx hv i (Finset.mem_range.1 hi), hF i (Finset.mem_range.1 hi) r hr, mul_assoc]
  rw [Finset.sum_congr rfl e1, ← Finset.sum_mul, hU.inner, Finset.sum_mul]
  exact Finset.sum_congr rfl fun j _ => by rw [hr' fs hl, mul_assoc]

/-- The right hand side of the update of mode `m`. -/
theorem mttkrp (h : Expanded U n' m X X') {fs fs' : List (NDArray ℝ)} (he : fs'.eraseIdx m = fs.eraseIdx m) {i : ℕ}
    (hi : i < n') (r : ℕ) :
    mttkrpEntry X' fs' m i r = ∑ j ∈ Finset.range (X.shape.getD m 0), U.get [i, j] * mttkrpEntry X fs m j r := by
  simp only [mttkrpEntry, mul_sumIdx]
  rw [← sumIdx_sum, h.erase, he]
  refine sumIdx_congr fun idx hv => ?_
  rw [h.entry idx hv i hi, Finset.sum_mul]
  exact Finset.sum_congr rfl fun j _ => by ring

end Expanded

/-- The matrix whose row `i` is one and whose other rows are zero. -/
def rowOf (n R i : ℕ) : NDArray ℝ := ofMat n R fun a _ => if a = i then 1 else 0

theorem mttkrp_inner {X : NDArray ℝ} {fs : List (NDArray ℝ)} {k i r R : ℕ} (hl : fs.length = X.shape.length)
    (hk : k < X.shape.length) (hi : i < X.shape.getD k 0) (hr : r < R) :
    mttkrpEntry X fs k i r =
      sumIdx X.shape fun idx => X.get idx * rankOne (fs.set k (rowOf (X.shape.getD k 0) R i)) idx r := by
  rw [sumIdx_split hk, Finset.sum_eq_single i]
  · refine sumIdx_congr fun idx hv => ?_
    have hil : idx.length + 1 = X.shape.length := by rw [hv.length_eq, List.length_eraseIdx_of_lt hk]; omega
    rw [rankOne_insertIdx (by simp; omega) (by simp; omega), eraseIdx_set_self]
    simp only [List.getElem_set_self, rowOf]
    rw [get_ofMat hi hr, if_pos rfl, one_mul]
  · intro a ha hne
    refine (sumIdx_congr fun idx hv => ?_).trans (sumIdx_zero _)
    have hil : idx.length + 1 = X.shape.length := by rw [hv.length_eq, List.length_eraseIdx_of_lt hk]; omega
    rw [rankOne_insertIdx (by simp; omega) (by simp; omega), eraseIdx_set_self]
    simp only [List.getElem_set_self, rowOf]
    rw [get_ofMat (Finset.mem_range.1 ha) hr, if_neg hne, zero_mul, mul_zero]
  · intro h
    exact absurd (Finset.mem_range.2 hi) h

namespace FactorsExpanded

variable {U : NDArray ℝ} {n' n m R : ℕ} {fs fs' : List (NDArray ℝ)}

theorem erase (h : FactorsExpanded U n' n m R fs fs') : fs'.eraseIdx m = fs.eraseIdx m := by
  refine List.ext_getElem? fun k => ?_
  rw [List.getElem?_eraseIdx, List.getElem?_eraseIdx]
  split <;> exact h.rest _ (by omega)

theorem set_ne (h : FactorsExpanded U n' n m R fs fs') (hl : fs'.length = fs.length) {k : ℕ} (hk : k ≠ m) (G : NDArray ℝ) :
    FactorsExpanded U n' n m R (fs.set k G) (fs'.set k G) := by
  refine ⟨fun j hj => ?_, fun F F' hF hF' => ?_⟩
  · rw [List.getElem?_set, List.getElem?_set, hl, h.rest j hj]
  · rw [List.getElem?_set, if_neg hk] at hF hF'
    exact h.factor F F' hF hF'

theorem set_self (h : FactorsExpanded U n' n m R fs fs') {G G' : NDArray ℝ} (hG : RowsExpanded U n' n R G G') :
    FactorsExpanded U n' n m R (fs.set m G) (fs'.set m G') := by
  refine ⟨fun j hj => ?_, fun F F' hF hF' => ?_⟩
  · rw [List.getElem?_set, List.getElem?_set, if_neg (Ne.symm hj), if_neg (Ne.symm hj), h.rest j hj]
  · rw [List.getElem?_set, if_pos rfl] at hF hF'
    split at hF
    · split at hF'
      · obtain rfl := Option.some.inj hF
        obtain rfl := Option.some.inj hF'
        exact hG
      · cases hF'
    · cases hF

/-- The products of the Gram matrices of the other modes. -/
theorem gram (h : FactorsExpanded U n' n m R fs fs') (hU : OrthoCols U n' n) {sizes : List ℕ} (hf : Factors fs sizes R)
    (hf' : Factors fs' (sizes.set m n') R) (hn : sizes.getD m 0 = n) (k : ℕ) {a b : ℕ} (ha : a < R) (hb : b < R) :
    gramProd (fs'.eraseIdx k) a b = gramProd (fs.eraseIdx k) a b := by
  unfold gramProd
  congr 1
  refine List.ext_getElem? fun j => ?_
  rw [List.getElem?_map, List.getElem?_map, List.getElem?_eraseIdx, List.getElem?_eraseIdx]
  have key : ∀ j : ℕ, fs'[j]?.map (fun F => gramEntry F a b) = fs[j]?.map fun F => gramEntry F a b := by
    intro j
    by_cases hj : j = m
    · subst hj
      have hlen : fs'.length = fs.length := by rw [hf.length_eq, hf'.length_eq]; simp
      by_cases hlt : j < fs.length
      · have s1 := hf.shape_get hlt
        have s2 := hf'.shape_get (hlen ▸ hlt)
        have hjs : j < sizes.length := by rw [← hf.length_eq]; exact hlt
        have hj' : (sizes.set j n').getD j 0 = n' := by simp [List.getD, hjs]
        rw [hj'] at s2
        rw [hn] at s1
        rw [List.getElem?_eq_getElem hlt, List.getElem?_eq_getElem (hlen ▸ hlt)]
        simp only [Option.map_some, Option.some.injEq, gramEntry, s1, s2, List.getD_cons_zero]
        have hF := h.factor fs[j] (fs'[j]'(hlen ▸ hlt)) (by simp) (by simp)
        rw [← hU.inner]
        exact Finset.sum_congr rfl fun i hi => by
          rw [hF i (Finset.mem_range.1 hi) a ha, hF i (Finset.mem_range.1 hi) b hb]
      · rw [List.getElem?_eq_none (by omega), List.getElem?_eq_none (by omega)]
    · rw [h.rest j hj]
  split <;> exact key _

end FactorsExpanded

/-! ### Solvers -/

theorem rowsExpanded_iff {U F F' : NDArray ℝ} {n' n R : ℕ} :
    RowsExpanded U n' n R F F' ↔ mat F' n' R = mat U n' n * mat F n R := by
  constructor
  · intro h
    ext i r
    rw [Matrix.mul_apply]
    have := h i i.2 r r.2
    rw [Finset.sum_range] at this
    exact this
  · intro h i hi r hr
    have := congrFun (congrFun h ⟨i, hi⟩) ⟨r, hr⟩
    rw [Matrix.mul_apply] at this
    rw [Finset.sum_range]
    exact this

theorem rightsolve_expanded {E : Ext} (hE : E.SVDOk) {A B B' F F' U : NDArray ℝ} {r q n n' : ℕ} (hA : A.shape = [r, q])
    (hB : B.shape = [n, q]) (hB' : B'.shape = [n', q]) (h : RowsExpanded U n' n q B B') (e : rightsolve E A B = .ok F)
    (e' : rightsolve E A B' = .ok F') : RowsExpanded U n' n r F F' := by
  obtain ⟨G, e1, -, m1⟩ := rightsolve_mat hE hA hB
  obtain rfl : G = F := Except.ok.inj (e1.symm.trans e)
  obtain ⟨G', e2, -, m2⟩ := rightsolve_mat hE hA hB'
  obtain rfl : G' = F' := Except.ok.inj (e2.symm.trans e')
  rw [rowsExpanded_iff] at h ⊢
  rw [m1, m2, h, Matrix.mul_assoc]

/-- **C132**, the solvers of a mode without constraints. -/
theorem C132_solver {E : Ext} (hE : E.SVDOk) {ridge : Option ℝ} {A B B' F F' U : NDArray ℝ} {r q n n' : ℕ}
    (hA : A.shape = [r, q]) (hB : B.shape = [n, q]) (hB' : B'.shape = [n', q]) (h : RowsExpanded U n' n q B B')
    (e : withRidge ridge (baseSolve E false false) A B = .ok F)
    (e' : withRidge ridge (baseSolve E false false) A B' = .ok F') : RowsExpanded U n' n r F F' := by
  have hbase : ∀ A B, baseSolve E false false A B = rightsolve E A B := fun A B => by simp [baseSolve]
  cases ridge with
  | none =>
    simp only [withRidge, hbase] at e e'
    exact rightsolve_expanded hE hA hB hB' h e e'
  | some l =>
    simp only [withRidge] at e e'
    rw [ridge_reduce hA hB, hbase] at e
    rw [ridge_reduce hA hB', hbase] at e'
    refine rightsolve_expanded hE (shape_ofMat _ _ _) (shape_ofMat _ _ _) (shape_ofMat _ _ _) (fun i hi j hj => ?_) e e'
    rw [get_ofMat hi hj]
    by_cases hjq : j < q
    · rw [if_pos hjq, h i hi j hjq]
      exact Finset.sum_congr rfl fun k hk => by rw [get_ofMat (Finset.mem_range.1 hk) hj, if_pos hjq]
    · rw [if_neg hjq, get_full (by simp [Valid, hi]; omega)]
      refine (Finset.sum_eq_zero fun k hk => ?_).symm
      rw [get_ofMat (Finset.mem_range.1 hk) hj, if_neg hjq, get_full (by simp [Valid, Finset.mem_range.1 hk]; omega), mul_zero]

/-! ### Updates -/

/-- `s'` is `s` with the data and the decomposition expanded in mode `m`. -/
structure CPState.Expanded (U : NDArray ℝ) (n' m R : ℕ) (s s' : CPState) : Prop where
  tensor : TK.Expanded U n' m s.X s'.X
  factors : FactorsExpanded U n' (s.X.shape.getD m 0) m R s.dec.factorMatrices s'.dec.factorMatrices
  nonNeg : s'.nonNeg = s.nonNeg
  orth : s'.orth = s.orth

variable {U : NDArray ℝ} {n' m : ℕ}

theorem CPState.ModeConfig.congr {o : CPOpts} {s s' : CPState} {k : ℕ} {nn on : Bool} {ridge : Option ℝ}
    (h : s.ModeConfig o k nn on ridge) (h1 : s'.nonNeg = s.nonNeg) (h2 : s'.orth = s.orth) :
    s'.ModeConfig o k nn on ridge := ⟨by rw [h1]; exact h.nonNeg, by rw [h2]; exact h.orth, h.ridge⟩

theorem C132_update {E : Ext} (hE : E.SVDOk) (hN : E.NNLSOk) {o : CPOpts} (hr : 0 < o.rank) {s s' : CPState} (hs : s.Sized o.rank)
    (hs' : s'.Sized o.rank) (hm : m < s.X.shape.length) (hU : OrthoCols U n' (s.X.shape.getD m 0))
    (h : s.Expanded U n' m o.rank s') {k : ℕ} (hk : k < s.X.shape.length) {nn on : Bool} {ridge : Option ℝ}
    (hc : s.ModeConfig o k nn on ridge) (hb : ¬ (nn = true ∧ on = true)) (hfree : k = m → nn = false ∧ on = false) :
    ∃ F F', F.shape = [s.X.shape.getD k 0, o.rank] ∧ F'.shape = [s'.X.shape.getD k 0, o.rank] ∧
      CP.updateFactor E o k s = .ok (s.updated k o.rank F) ∧ CP.updateFactor E o k s' = .ok (s'.updated k o.rank F') ∧
      (s.updated k o.rank F).Expanded U n' m o.rank (s'.updated k o.rank F') := by
  have hk' : k < s'.X.shape.length := by rw [h.tensor.length]; exact hk
  have hc' := hc.congr h.nonNeg h.orth
  obtain ⟨F, e1, hF, e2⟩ := updateFactor_total hE hN hs hr hk hc hb
  obtain ⟨F', e1', hF', e2'⟩ := updateFactor_total hE hN hs' hr hk' hc' hb
  refine ⟨F, F', hF, hF', e2, e2', h.tensor, ?_, h.nonNeg, h.orth⟩
  have hl := hs.wf.factors.length_eq
  have hl' := hs'.wf.factors.length_eq
  rw [h.tensor.length] at hl'
  have hG : (ofMat o.rank o.rank fun a b => gramProd (s'.dec.factorMatrices.eraseIdx k) a b) =
      ofMat o.rank o.rank fun a b => gramProd (s.dec.factorMatrices.eraseIdx k) a b :=
    ofMat_congr fun a ha b hb => h.factors.gram hU hs.wf.factors (h.tensor.shape ▸ hs'.wf.factors) rfl k ha hb
  rw [hG] at e1'
  by_cases hkm : k = m
  · subst hkm
    obtain ⟨rfl, rfl⟩ := hfree rfl
    refine h.factors.set_self (C132_solver hE (shape_ofMat _ _ _) (shape_ofMat _ _ _) (B' := mttkrpMat s'.X _ k o.rank)
      (by rw [mttkrpMat, shape_ofMat, h.tensor.getD hk]) (fun i hi r hr => ?_) e1 e1')
    rw [mttkrpMat, get_ofMat (by rw [h.tensor.getD hk]; exact hi) hr, h.tensor.mttkrp h.factors.erase hi]
    exact Finset.sum_congr rfl fun j hj => by rw [get_ofMat (Finset.mem_range.1 hj) hr]
  · have hM : mttkrpMat s'.X s'.dec.factorMatrices k o.rank = mttkrpMat s.X s.dec.factorMatrices k o.rank := by
      rw [mttkrpMat, mttkrpMat, h.tensor.getD_ne hkm]
      refine ofMat_congr fun i hi r hr => ?_
      rw [mttkrp_inner (R := o.rank) hl hk hi hr,
        mttkrp_inner (R := o.rank) (by rw [hl', h.tensor.length]) hk' (by rw [h.tensor.getD_ne hkm]; exact hi) hr,
        h.tensor.getD_ne hkm]
      exact h.tensor.inner hm hU (by simpa using hl) (by simpa using hl') (h.factors.set_ne (by omega) hkm _) hr
    rw [hM, e1] at e1'
    obtain rfl := Except.ok.inj e1'
    exact h.factors.set_ne (by omega) hkm F

/-- No constraint in mode `m`. -/
def CPState.FreeMode (s : CPState) (m : ℕ) : Prop :=
  (∃ l, s.nonNeg = some l ∧ l[m]? = some false) ∧ ∃ l, s.orth = some l ∧ l[m]? = some false

theorem CPState.FreeMode.config {s : CPState} (h : s.FreeMode m) {o : CPOpts} {nn on : Bool} {ridge : Option ℝ}
    (hc : s.ModeConfig o m nn on ridge) : nn = false ∧ on = false := by
  obtain ⟨⟨l, a, b⟩, ⟨l', a', b'⟩⟩ := h
  obtain ⟨⟨k, c, d⟩, ⟨k', c', d'⟩, -⟩ := hc
  rw [a] at c
  rw [a'] at c'
  obtain rfl := Option.some.inj c
  obtain rfl := Option.some.inj c'
  rw [b] at d
  rw [b'] at d'
  exact ⟨(Option.some.inj d).symm, (Option.some.inj d').symm⟩

theorem updates_expanded {E : Ext} (hE : E.SVDOk) (hN : E.NNLSOk) {o : CPOpts} (hr : 0 < o.rank) : ∀ (modes : List ℕ)
    {s s' : CPState}, s.Sized o.rank → s'.Sized o.rank → m < s.X.shape.length → OrthoCols U n' (s.X.shape.getD m 0) →
    s.FreeMode m → (∀ k < s.X.shape.length, ∃ nn on ridge, s.ModeConfig o k nn on ridge ∧ ¬ (nn = true ∧ on = true)) →
    s.Expanded U n' m o.rank s' → (∀ k ∈ modes, k < s.X.shape.length) →
    ∃ t t', CP.updateModes E o modes s = .ok t ∧ CP.updateModes E o modes s' = .ok t' ∧ t.Expanded U n' m o.rank t' ∧
      t.Sized o.rank ∧ t'.Sized o.rank ∧ t.X = s.X ∧ t.nonNeg = s.nonNeg ∧ t.orth = s.orth
  | [], s, s', hs, hs', _, _, _, _, h, _ => ⟨s, s', rfl, rfl, h, hs, hs', rfl, rfl, rfl⟩
  | k :: ks, s, s', hs, hs', hm, hU, hfm, hcf, h, hmodes => by
    obtain ⟨nn, on, ridge, hc, hb⟩ := hcf k (hmodes k (by simp))
    obtain ⟨F, F', hF, hF', e, e', h1⟩ := C132_update hE hN hr hs hs' hm hU h (hmodes k (by simp)) hc hb
      (fun hk => (hk ▸ hfm).config hc)
    obtain ⟨t, t', f, f', h2, h3, h4, h5, h6, h7⟩ := updates_expanded hE hN hr ks (s := s.updated k o.rank F) (s' := s'.updated k o.rank F')
      (hs.updated hF) (hs'.updated hF') hm hU hfm
      (fun j hj => by
        obtain ⟨nn, on, ridge, hc, hb⟩ := hcf j hj
        exact ⟨nn, on, ridge, ⟨hc.nonNeg, hc.orth, hc.ridge⟩, hb⟩) h1 (fun j hj => hmodes j (by simp [hj]))
    refine ⟨t, t', ?_, ?_, h2, h3, h4, h5, h6, h7⟩
    · rw [CP.updateModes, List.foldlM_cons, e, bind_ok]; exact f
    · rw [CP.updateModes, List.foldlM_cons, e', bind_ok]; exact f'

theorem iterM_expanded {E : Ext} (hE : E.SVDOk) (hN : E.NNLSOk) {o : CPOpts} (hr : 0 < o.rank) : ∀ (n : ℕ)
    {s s' : CPState}, s.Sized o.rank → s'.Sized o.rank → m < s.X.shape.length → OrthoCols U n' (s.X.shape.getD m 0) →
    s.FreeMode m → (∀ k < s.X.shape.length, ∃ nn on ridge, s.ModeConfig o k nn on ridge ∧ ¬ (nn = true ∧ on = true)) →
    s.Expanded U n' m o.rank s' →
    ∃ t t', iterM (CP.updateFactors E o) n s = .ok t ∧ iterM (CP.updateFactors E o) n s' = .ok t' ∧
      t.Expanded U n' m o.rank t' ∧ t.X = s.X
  | 0, s, s', _, _, _, _, _, _, h => ⟨s, s', rfl, rfl, h, rfl⟩
  | n + 1, s, s', hs, hs', hm, hU, hfm, hcf, h => by
    obtain ⟨u, u', f, f', k, k1, k2, k3, k4, k5⟩ := updates_expanded hE hN hr (List.range s.X.shape.length) hs hs' hm hU hfm
      hcf h (fun m hm => by simpa using hm)
    obtain ⟨t, t', g, g', h1, h2⟩ := iterM_expanded hE hN hr n k1 k2 (by rw [k3]; exact hm) (by rw [k3]; exact hU)
      (by unfold CPState.FreeMode; rw [k4, k5]; exact hfm)
      (fun j hj => by
        rw [k3] at hj
        obtain ⟨nn, on, ridge, hc, hb⟩ := hcf j hj
        exact ⟨nn, on, ridge, hc.congr k4 k5, hb⟩) k
    refine ⟨t, t', ?_, ?_, h1, h2.trans k3⟩
    · rw [iterM, CP.updateFactors, f, bind_ok]; exact g
    · rw [iterM, CP.updateFactors, h.tensor.length, f', bind_ok]; exact g'

theorem orbit_expanded {E : Ext} (hE : E.SVDOk) (hN : E.NNLSOk) {o : CPOpts} (hr : 0 < o.rank) {s s' : CPState}
    (g0 : s.Good o) (g0' : s'.Good o) (hm : m < s.X.shape.length) (hU : OrthoCols U n' (s.X.shape.getD m 0))
    (hfm : s.FreeMode m) (h : s.Expanded U n' m o.rank s') (j : ℕ) :
    (CP.orbit E o s j).Expanded U n' m o.rank (CP.orbit E o s' j) := by
  induction j with
  | zero => exact h
  | succ j ih =>
    obtain ⟨g, p⟩ := orbit_good hE hN hr g0 j
    obtain ⟨g', p'⟩ := orbit_good hE hN hr g0' j
    obtain ⟨t, e, q1, -, q3⟩ := iteration_inv (orbit_step hE hN hr g0 j)
    obtain ⟨t', e', q1', -, q3'⟩ := iteration_inv (orbit_step hE hN hr g0' j)
    rw [ih.tensor.length] at q1'
    obtain ⟨u, u', f, f', k, -⟩ := updates_expanded hE hN hr (U := U) (n' := n') (m := m)
      (List.range (CP.orbit E o s j).X.shape.length) g.sized g'.sized (by rw [p.X]; exact hm) (by rw [p.X]; exact hU)
      (by unfold CPState.FreeMode; rw [p.nonNeg, p.orth]; exact hfm) g.config ih (fun m hm => by simpa using hm)
    rw [q1] at f
    rw [q1'] at f'
    obtain rfl := Except.ok.inj f
    obtain rfl := Except.ok.inj f'
    rw [q3, q3']
    exact ⟨k.tensor, k.factors, k.nonNeg, k.orth⟩

/-! ### The error -/

theorem Expanded.sumSq {X X' : NDArray ℝ} (h : Expanded U n' m X X') (hm : m < X.shape.length)
    (hU : OrthoCols U n' (X.shape.getD m 0)) :
    (sumIdx X'.shape fun idx => X'.get idx ^ 2) = sumIdx X.shape fun idx => X.get idx ^ 2 := by
  rw [sumIdx_split (by rw [h.length]; exact hm), sumIdx_split hm, h.erase, h.getD hm]
  simp only [← sumIdx_sum]
  refine sumIdx_congr fun idx hv => ?_
  simp only [sq]
  rw [← hU.inner]
  exact Finset.sum_congr rfl fun i hi => by rw [h.entry idx hv i (Finset.mem_range.1 hi)]

theorem cpEntry_expanded {n R : ℕ} {fs fs' : List (NDArray ℝ)} (hf : FactorsExpanded U n' n m R fs fs') (w : ℕ → ℝ)
    (hm : m < fs.length) (hm' : fs'.length = fs.length) {idx : List ℕ} (hi : idx.length + 1 = fs.length) {i : ℕ} (hi' : i < n') :
    cpEntry w fs' R (idx.insertIdx m i) = ∑ j ∈ Finset.range n, U.get [i, j] * cpEntry w fs R (idx.insertIdx m j) := by
  have hF := hf.factor fs[m] (fs'[m]'(by omega)) (by simp) (by simp)
  rw [cpEntry_insertIdx w (by omega) (by omega), hf.erase]
  have e2 : ∀ j ∈ Finset.range n, U.get [i, j] * cpEntry w fs R (idx.insertIdx m j) =
      ∑ r ∈ Finset.range R, w r * (U.get [i, j] * (fs[m]).get [j, r] * rankOne (fs.eraseIdx m) idx r) := fun j _ => by
    rw [cpEntry_insertIdx w (by omega) (by omega), Finset.mul_sum]
    exact Finset.sum_congr rfl fun r _ => by ring
  rw [Finset.sum_congr rfl e2, Finset.sum_comm]
  refine Finset.sum_congr rfl fun r hr => ?_
  rw [hF i hi' r (Finset.mem_range.1 hr), ← Finset.mul_sum, ← Finset.sum_mul]

/-- The error of the expanded model for the expanded data is the error of the model. -/
theorem C132_error {X X' : NDArray ℝ} (h : Expanded U n' m X X') (hm : m < X.shape.length)
    (hU : OrthoCols U n' (X.shape.getD m 0)) {R : ℕ} {fs fs' : List (NDArray ℝ)} (hl : fs.length = X.shape.length)
    (hl' : fs'.length = X.shape.length) (hf : FactorsExpanded U n' (X.shape.getD m 0) m R fs fs') (w : ℕ → ℝ) :
    sqErr X' w fs' R = sqErr X w fs R := by
  rw [sqErr, sqErr, sumIdx_split (by rw [h.length]; exact hm), sumIdx_split hm, h.erase, h.getD hm]
  simp only [← sumIdx_sum]
  refine sumIdx_congr fun idx hv => ?_
  have hi : idx.length + 1 = X.shape.length := by rw [hv.length_eq, List.length_eraseIdx_of_lt hm]; omega
  simp only [sq]
  rw [← hU.inner]
  refine Finset.sum_congr rfl fun i hi' => ?_
  have hi' := Finset.mem_range.1 hi'
  have e : X'.get (idx.insertIdx m i) - cpEntry w fs' R (idx.insertIdx m i) = ∑ j ∈ Finset.range (X.shape.getD m 0),
      U.get [i, j] * (X.get (idx.insertIdx m j) - cpEntry w fs R (idx.insertIdx m j)) := by
    simp only [mul_sub, Finset.sum_sub_distrib]
    rw [h.entry idx hv i hi', cpEntry_expanded hf w (by omega) (by omega) (by omega) hi']
  rw [e]

/-! ### Fits -/

theorem orthonormalise_expanded {E : Ext} {n R : ℕ} : ∀ {bs : List Bool} {mode : ℕ} {fs fs' gs gs' : List (NDArray ℝ)},
    FactorsExpanded U n' n m R fs fs' → fs'.length = fs.length → (∀ k, bs[k]? = some true → mode + k ≠ m) →
    CP.orthonormalise E mode bs fs = .ok gs → CP.orthonormalise E mode bs fs' = .ok gs' →
    FactorsExpanded U n' n m R gs gs'
  | [], mode, fs, fs', gs, gs', h, _, _, e, e' => by
    obtain rfl := Except.ok.inj e
    obtain rfl := Except.ok.inj e'
    exact h
  | b :: bs, mode, fs, fs', gs, gs', h, hl, hb, e, e' => by
    rw [CP.orthonormalise, bind_eq_ok] at e e'
    obtain ⟨F, f1, f2⟩ := e
    obtain ⟨F', f1', f2'⟩ := e'
    refine orthonormalise_expanded (bs := bs) (mode := mode + 1) ?_ ?_ (fun k hk => ?_) f2 f2'
    · cases b with
      | false => exact h
      | true =>
        have hne : mode ≠ m := by simpa using hb 0 (by simp)
        by_cases hm : mode < fs.length
        · rw [pyGet_ok (norm_nat hm)] at f1
          rw [pyGet_ok (norm_nat (hl ▸ hm))] at f1'
          obtain rfl := Except.ok.inj f1
          obtain rfl := Except.ok.inj f1'
          have : fs'[mode]'(hl ▸ hm) = fs[mode] := by
            have := h.rest mode hne
            rw [List.getElem?_eq_getElem (hl ▸ hm), List.getElem?_eq_getElem hm] at this
            exact Option.some.inj this
          simp only [if_true]
          rw [this]
          exact h.set_ne hl hne _
        · simp only [if_true]
          rw [List.set_eq_of_length_le (by omega), List.set_eq_of_length_le (by omega)]
          exact h
    · cases b <;> simp [hl]
    · have := hb (k + 1) (by simpa using hk)
      omega

theorem CP.Admissible.expanded {o : CPOpts} {nonNeg orth : Option (List Bool)} {shape : List ℕ}
    (h : CP.Admissible o nonNeg orth shape) (hm : m < shape.length) (hU : OrthoCols U n' (shape.getD m 0))
    (hfree : flagOf orth m = false) : CP.Admissible o nonNeg orth (shape.set m n') := by
  have hn : shape.getD m 0 ≠ 0 := by
    have e : shape.getD m 0 = shape[m] := by simp [List.getD, hm]
    rw [e]
    exact h.nonempty _ (List.getElem_mem hm)
  refine ⟨h.rank, by simpa using h.order, fun n hn' => ?_, by simpa using h.nonNegLen, by simpa using h.orthLen,
    by simpa using h.ridgeLen, fun l hl k hk => ?_, h.notBoth⟩
  · rcases List.mem_or_eq_of_mem_set hn' with h1 | rfl
    · exact h.nonempty _ h1
    · exact hU.pos hn
  · by_cases hkm : k = m
    · subst hkm
      subst hl
      simp [flagOf, hk] at hfree
    · have := h.orthRows l hl k hk
      simpa [List.getD, List.getElem?_set, Ne.symm hkm] using this

/-- **C132**, `CP_ALS`: let the data `X'` be `X` multiplied in mode `m` by a matrix `U` with orthonormal columns, and let the start
of the fit of `X'` be that of the fit of `X`, with its factor matrix `m` multiplied by `U`. Mode `m` has no constraint; it may
have a penalty, and the other modes may have constraints and penalties. Then both fits make the same number of iterations, have
the same errors and the same verdicts of the stopping test, their factor matrices of the other modes are equal, and factor matrix
`m` of the fit of `X'` is `U` times that of the fit of `X`. -/
theorem C132_cp_fit {E : Ext} (hE : E.SVDOk) (hN : E.NNLSOk) (hQ : E.QROk) {c : CP.Config}
    {nonNeg orth : Option (List Bool)} {X X' : NDArray ℝ} (hA : CP.Admissible c.opts nonNeg orth X.shape)
    (hlog : c.Measurable) (hfreq : freqOption c.freq ≠ 0) {arg arg' : InitArg KruskalTensor} {t t' : KruskalTensor}
    (hi : CP.StartsFrom E c nonNeg orth arg X t) (hi' : CP.StartsFrom E c nonNeg orth arg' X' t')
    (ht : t.WF X.shape c.opts.rank) (ht' : t'.WF X'.shape c.opts.rank)
    (hm : m < X.shape.length) (hnn : flagOf nonNeg m = false) (hon : flagOf orth m = false)
    (hU : OrthoCols U n' (X.shape.getD m 0)) (hX : Expanded U n' m X X')
    (hF : FactorsExpanded U n' (X.shape.getD m 0) m c.opts.rank t.factorMatrices t'.factorMatrices)
    {budget : Int} {mi : Option Int} (hb : 0 < mi.getD budget) {loggers : List Logger} {file : Option H5File}
    (hS : Storing (CP.method E c) (CP.newObject nonNeg orth budget loggers file) []) :
    ∃ w w', CP.fit E c X mi arg (CP.newObject nonNeg orth budget loggers file) = .ok () w ∧
      CP.fit E c X' mi arg' (CP.newObject nonNeg orth budget loggers file) = .ok () w' ∧
      FactorsExpanded U n' (X.shape.getD m 0) m c.opts.rank w.st.dec.factorMatrices w'.st.dec.factorMatrices ∧
      w'.it = w.it ∧ CP.sse w'.st = CP.sse w.st ∧ w'.st.relChange = w.st.relChange ∧
      CP.shouldStop c.opts w'.st = CP.shouldStop c.opts w.st := by
  have hA' : CP.Admissible c.opts nonNeg orth X'.shape := by rw [hX.shape]; exact hA.expanded hm hU hon
  obtain ⟨s, w, k, e0, h1, h2, h3, h4, h5, h6, hwf, -⟩ := C74_fit_completes hE hN hQ hA hlog hfreq hi ht hb hS
  obtain ⟨s', w', k', e0', h1', h2', h3', h4', h5', h6', hwf', -⟩ := C74_fit_completes hE hN hQ hA' hlog hfreq hi' ht' hb hS
  obtain ⟨z, ez, hG, hXs, -, hrel, hw, hnn1, hon1, -⟩ := initFit_good (E := E) hQ (old := CP.fresh nonNeg orth) rfl hA ht
  rw [e0] at ez
  obtain rfl : s = z := Except.ok.inj ez
  obtain ⟨z, ez, hG', hXs', -, hrel', hw', hnn1', hon1', -⟩ :=
    initFit_good (E := E) hQ (old := CP.fresh nonNeg orth) rfl hA' ht'
  rw [e0'] at ez
  obtain rfl : s' = z := Except.ok.inj ez
  have hr := hA.rank
  have hlt : t'.factorMatrices.length = t.factorMatrices.length := by
    rw [ht.factors.length_eq, ht'.factors.length_eq, hX.length]
  have hflag : ∀ {f : Option (List Bool)}, (∀ l, f = some l → l.length = X.shape.length) → flagOf f m = false →
      (f.getD (List.replicate X.shape.length false))[m]? = some false := by
    intro f hl hf
    cases f with
    | none => simp [List.getElem?_replicate, hm]
    | some l =>
      have := hl l rfl
      simp only [Option.getD_some]
      rw [List.getElem?_eq_getElem (by omega)]
      simpa [flagOf, List.getElem?_eq_getElem (show m < l.length by omega)] using hf
  have hfm : s.FreeMode m := ⟨⟨_, hnn1, hflag hA.nonNegLen hnn⟩, ⟨_, hon1, hflag hA.orthLen hon⟩⟩
  have hM : s.Expanded U n' m c.opts.rank s' := by
    refine ⟨by rw [hXs, hXs']; exact hX, ?_, by rw [hnn1, hnn1', hX.length], by rw [hon1, hon1', hX.length]⟩
    have f := initFit_factors e0
    have f' := initFit_factors e0'
    rw [hlt] at f'
    rw [hXs]
    refine orthonormalise_expanded hF hlt (fun j hj hjm => ?_) f f'
    obtain rfl : j = m := by omega
    have := hflag hA.orthLen hon
    rw [ht.factors.length_eq] at hj
    change (orth.getD _)[j]? = _ at hj
    rw [hj] at this
    cases this
  have hms : m < s.X.shape.length := by rw [hXs]; exact hm
  have hUs : OrthoCols U n' (s.X.shape.getD m 0) := by rw [hXs]; exact hU
  have horb := orbit_expanded hE hN hr hG hG' hms hUs hfm hM
  have hW : ∀ j, ∀ r < c.opts.rank, (CP.orbit E c.opts s j).dec.weights.get [r] = 1 := fun j => by
    rw [(orbit_good hE hN hr hG j).2.weights]; exact hw
  have hW' : ∀ j, ∀ r < c.opts.rank, (CP.orbit E c.opts s' j).dec.weights.get [r] = 1 := fun j => by
    rw [(orbit_good hE hN hr hG' j).2.weights]; exact hw'
  have hsse : ∀ j, (CP.orbit E c.opts s' j).trueSSE c.opts.rank = (CP.orbit E c.opts s j).trueSSE c.opts.rank := fun j => by
    obtain ⟨g, p⟩ := orbit_good hE hN hr hG j
    obtain ⟨g', p'⟩ := orbit_good hE hN hr hG' j
    rw [CPState.trueSSE, CPState.trueSSE, sqErr_congr_weights (w' := fun _ => 1) (hW' j),
      sqErr_congr_weights (w' := fun _ => 1) (hW j)]
    exact C132_error (horb j).tensor (by rw [p.X]; exact hms) (by rw [p.X]; exact hUs) g.sized.wf.factors.length_eq
      (by rw [g'.sized.wf.factors.length_eq, (horb j).tensor.length]) (horb j).factors _
  have hnorm : s'.XNorm ^ 2 = s.XNorm ^ 2 := by
    rw [hG.cached.norm, hG'.cached.norm, hM.tensor.sumSq hms hUs]
  have hrc : ∀ j, (CP.orbit E c.opts s' j).relChange = (CP.orbit E c.opts s j).relChange := by
    intro j
    cases j with
    | zero => show s'.relChange = s.relChange; rw [hrel, hrel']
    | succ j => rw [orbit_relChange hE hN hr hG j, orbit_relChange hE hN hr hG' j, hsse, hsse]
  have hstop : ∀ j, CP.shouldStop c.opts (CP.orbit E c.opts s' j) = CP.shouldStop c.opts (CP.orbit E c.opts s j) := by
    intro j
    obtain ⟨g, p⟩ := orbit_good hE hN hr hG j
    obtain ⟨g', p'⟩ := orbit_good hE hN hr hG' j
    rw [CP.shouldStop, CP.shouldStop, C35_sse g.sized g.cached, C35_sse g'.sized g'.cached, bind_ok, bind_ok, hrc,
      hsse, p.XNorm, p'.XNorm, hnorm]
  have hst : w.st = CP.orbit E c.opts s k := by
    rw [orbit_iterate hE hN hr k hG] at h4; exact (Except.ok.inj h4).symm
  have hst' : w'.st = CP.orbit E c.opts s' k' := by
    rw [orbit_iterate hE hN hr k' hG'] at h4'; exact (Except.ok.inj h4').symm
  have hgo : ∀ j < k, CP.shouldStop c.opts (CP.orbit E c.opts s j) = .ok false := by
    intro j hj
    obtain ⟨x, r1, r2⟩ := h5 j hj
    rw [orbit_iterate hE hN hr j hG] at r1
    rw [Except.ok.inj r1]; exact r2
  have hgo' : ∀ j < k', CP.shouldStop c.opts (CP.orbit E c.opts s' j) = .ok false := by
    intro j hj
    obtain ⟨x, r1, r2⟩ := h5' j hj
    rw [orbit_iterate hE hN hr j hG'] at r1
    rw [Except.ok.inj r1]; exact r2
  obtain rfl : k' = k := by
    rcases lt_trichotomy k' k with hlt | heq | hlt
    · have := h6' (by omega)
      rw [hst', hstop, hgo k' hlt] at this
      cases this
    · exact heq
    · have := h6 (by omega)
      rw [hst, ← hstop, hgo' k hlt] at this
      cases this
  obtain ⟨g, p⟩ := orbit_good hE hN hr hG k'
  obtain ⟨g', p'⟩ := orbit_good hE hN hr hG' k'
  refine ⟨w, w', h1, h1', ?_, by rw [h3, h3'], ?_, by rw [hst, hst', hrc], by rw [hst, hst', hstop]⟩
  · have := (horb k').factors
    rw [p.X, hXs, ← hst, ← hst'] at this
    exact this
  · rw [hst, hst', C35_sse g'.sized g'.cached, C35_sse g.sized g.cached, hsse]

/-- **C132**, the tensor of the expanded model is the expanded tensor of the model. -/
theorem C132_model {t t' : KruskalTensor} {sizes : List ℕ} {R : ℕ} (ht : t.WF sizes R) (ht' : t'.WF (sizes.set m n') R)
    (h2 : 2 ≤ sizes.length) (hm : m < sizes.length) (hw : ∀ r < R, t'.weights.get [r] = t.weights.get [r])
    (hf : FactorsExpanded U n' (sizes.getD m 0) m R t.factorMatrices t'.factorMatrices) :
    ∃ T T', t.constructTensor = .ok T ∧ t'.constructTensor = .ok T' ∧ Expanded U n' m T T' := by
  refine ⟨_, _, constructTensor_eq ht h2, constructTensor_eq ht' (by simpa using h2), rfl, fun idx hv i hi => ?_⟩
  have hv : Valid (sizes.eraseIdx m) idx := hv
  have hl := hv.length_eq
  rw [List.length_eraseIdx_of_lt hm] at hl
  have n1 := ht.factors.length_eq
  have n2 := ht'.factors.length_eq
  simp only [List.length_set] at n2
  have hins : ∀ {a b : ℕ}, b < a → Valid (sizes.set m a) (idx.insertIdx m b) := fun {a b} hb => by
    have := hv.insertIdx (n := m) (i := b) (m := a) (by rw [List.length_eraseIdx_of_lt hm]; omega) hb
    have e : (sizes.eraseIdx m).insertIdx m a = sizes.set m a := by
      have := insertIdx_eraseIdx_getD (l := sizes.set m a) (k := m) (by simpa using hm)
      rwa [eraseIdx_set_self, show (sizes.set m a).getD m 0 = a by simp [List.getD, hm]] at this
    rwa [e] at this
  rw [get_ofFn (hins hi), cpEntry_congr_weights hw, cpEntry_expanded hf _ (by omega) (by omega) (by omega) hi]
  refine Finset.sum_congr rfl fun j hj => ?_
  have hj : j < sizes.getD m 0 := Finset.mem_range.1 hj
  have := hins (a := sizes.getD m 0) hj
  rw [show sizes.set m (sizes.getD m 0) = sizes by
    rw [show sizes.getD m 0 = sizes[m] by simp [List.getD, hm]]; simp] at this
  rw [get_ofFn this]

/-- The first `n` columns of the identity matrix with `n'` rows. -/
def padding (n' n : ℕ) : NDArray ℝ := ofMat n' n fun i j => if i = j then 1 else 0

theorem sum_padding {n' n i : ℕ} (hi : i < n') (f : ℕ → ℝ) :
    ∑ j ∈ Finset.range n, (padding n' n).get [i, j] * f j = if i < n then f i else 0 := by
  have e : ∀ j ∈ Finset.range n, (padding n' n).get [i, j] * f j = if i = j then f j else 0 := fun j hj => by
    rw [padding, get_ofMat hi (Finset.mem_range.1 hj), ite_mul, one_mul, zero_mul]
  rw [Finset.sum_congr rfl e, Finset.sum_ite_eq]
  simp

theorem orthoCols_padding {n' n : ℕ} (h : n ≤ n') : OrthoCols (padding n' n) n' n := by
  intro i hi j hj
  have e : ∀ l ∈ Finset.range n', (padding n' n).get [l, i] * (padding n' n).get [l, j] =
      if l = i then (if i = j then 1 else 0) else 0 := fun l hl => by
    rw [padding, get_ofMat (Finset.mem_range.1 hl) hi, get_ofMat (Finset.mem_range.1 hl) hj]
    by_cases h1 : l = i
    · subst h1; simp
    · simp [h1]
  rw [Finset.sum_congr rfl e, Finset.sum_ite_eq', if_pos (Finset.mem_range.2 (by omega))]

/-- **C132**, slices without signal: appending slices of zeros to a mode without constraints, and rows of zeros to the start of
this mode, leaves the fit alone: the new rows stay zero, all other entries of the factor matrices, the errors, the number of
iterations and the verdict of the stopping test are the same. -/
theorem C132_zero_slices {E : Ext} (hE : E.SVDOk) (hN : E.NNLSOk) (hQ : E.QROk) {c : CP.Config}
    {nonNeg orth : Option (List Bool)} {X X' : NDArray ℝ} (hA : CP.Admissible c.opts nonNeg orth X.shape)
    (hlog : c.Measurable) (hfreq : freqOption c.freq ≠ 0) {arg arg' : InitArg KruskalTensor} {t t' : KruskalTensor}
    (hi : CP.StartsFrom E c nonNeg orth arg X t) (hi' : CP.StartsFrom E c nonNeg orth arg' X' t')
    (ht : t.WF X.shape c.opts.rank) (ht' : t'.WF X'.shape c.opts.rank)
    (hm : m < X.shape.length) (hnn : flagOf nonNeg m = false) (hon : flagOf orth m = false)
    (hn : X.shape.getD m 0 ≤ n') (hshape : X'.shape = X.shape.set m n')
    (hX : ∀ idx, Valid (X.shape.eraseIdx m) idx → ∀ i < n', X'.get (idx.insertIdx m i) =
      if i < X.shape.getD m 0 then X.get (idx.insertIdx m i) else 0)
    (hrest : ∀ k, k ≠ m → t'.factorMatrices[k]? = t.factorMatrices[k]?)
    (hstart : ∀ F F', t.factorMatrices[m]? = some F → t'.factorMatrices[m]? = some F' → ∀ i < n', ∀ r < c.opts.rank,
      F'.get [i, r] = if i < X.shape.getD m 0 then F.get [i, r] else 0)
    {budget : Int} {mi : Option Int} (hb : 0 < mi.getD budget) {loggers : List Logger} {file : Option H5File}
    (hS : Storing (CP.method E c) (CP.newObject nonNeg orth budget loggers file) []) :
    ∃ w w', CP.fit E c X mi arg (CP.newObject nonNeg orth budget loggers file) = .ok () w ∧
      CP.fit E c X' mi arg' (CP.newObject nonNeg orth budget loggers file) = .ok () w' ∧
      (∀ k, k ≠ m → w'.st.dec.factorMatrices[k]? = w.st.dec.factorMatrices[k]?) ∧
      (∀ F F', w.st.dec.factorMatrices[m]? = some F → w'.st.dec.factorMatrices[m]? = some F' → ∀ i < n', ∀ r < c.opts.rank,
        F'.get [i, r] = if i < X.shape.getD m 0 then F.get [i, r] else 0) ∧
      w'.it = w.it ∧ CP.sse w'.st = CP.sse w.st ∧ w'.st.relChange = w.st.relChange ∧
      CP.shouldStop c.opts w'.st = CP.shouldStop c.opts w.st := by
  obtain ⟨w, w', h1, h2, h3, h4⟩ := C132_cp_fit hE hN hQ hA hlog hfreq hi hi' ht ht' hm hnn hon (orthoCols_padding hn)
    ⟨hshape, fun idx hv i hi => by rw [sum_padding hi fun j => X.get (idx.insertIdx m j)]; exact hX idx hv i hi⟩
    ⟨hrest, fun F F' hF hF' i hi r hr => by rw [sum_padding hi fun j => F.get [j, r]]; exact hstart F F' hF hF' i hi r hr⟩ hb hS
  exact ⟨w, w', h1, h2, h3.rest, fun F F' hF hF' i hi r hr => by
    rw [← sum_padding hi fun j => F.get [j, r]]; exact h3.factor F F' hF hF' i hi r hr, h4⟩

/-- A column of length one. -/
def unitCol : NDArray ℝ := ofMat 2 1 fun i _ => if i = 0 then 3 / 5 else 4 / 5

theorem orthoCols_unitCol : OrthoCols unitCol 2 1 := by
  intro i hi j hj
  obtain rfl : i = 0 := by omega
  obtain rfl : j = 0 := by omega
  rw [Finset.sum_range_succ, Finset.sum_range_one, unitCol, get_ofMat (by omega) (by omega), get_ofMat (by omega) (by omega)]
  norm_num

/-- The hypotheses of `C132_cp_fit` for the rows `(3, 6)` and `(4, 8)`, which are those of `(5, 10)`, with an orthonormal second
factor matrix and ridge penalties. -/
example {E : Ext} (hE : E.SVDOk) (hN : E.NNLSOk) (hQ : E.QROk) (budget : Int) (hb : 0 < budget) :
    ∃ w w', CP.fit E ⟨⟨1, 1 / 2, 1 / 10, some [1, 2]⟩, "precomputed", none, true, [], fun _ _ _ _ => 0, id, fun _ => none⟩
        (ofMat 1 2 fun _ j => if j = 0 then 5 else 10) (some budget)
        (.tensor ⟨1, [ofMat 1 1 fun _ _ => 1, ofMat 2 1 fun _ _ => 1], full [1] 1⟩)
        (CP.newObject none (some [false, true]) budget [] none) = .ok () w ∧
      CP.fit E ⟨⟨1, 1 / 2, 1 / 10, some [1, 2]⟩, "precomputed", none, true, [], fun _ _ _ _ => 0, id, fun _ => none⟩
        (ofMat 2 2 fun i j => if i = 0 then (if j = 0 then 3 else 6) else if j = 0 then 4 else 8) (some budget)
        (.tensor ⟨1, [unitCol, ofMat 2 1 fun _ _ => 1], full [1] 1⟩)
        (CP.newObject none (some [false, true]) budget [] none) = .ok () w' ∧
      CP.sse w'.st = CP.sse w.st ∧ w'.it = w.it := by
  have ht : KruskalTensor.WF ⟨1, [ofMat 1 1 fun _ _ => 1, ofMat 2 1 fun _ _ => 1], full [1] 1⟩ [1, 2] 1 :=
    ⟨rfl, by simp [Factors], rfl⟩
  have ht' : KruskalTensor.WF ⟨1, [unitCol, ofMat 2 1 fun _ _ => 1], full [1] 1⟩ [2, 2] 1 :=
    ⟨rfl, by simp [Factors, unitCol], rfl⟩
  have hpre : "precomputed".toLower = "precomputed" := by
    rw [String.toLower, ← String.toList_inj, String.toList_map]; decide
  have hA : CP.Admissible ⟨1, 1 / 2, 1 / 10, some [1, 2]⟩ none (some [false, true]) [1, 2] := by
    refine ⟨by decide, by simp, by simp, by simp, by simp, by simp, ?_, by simp⟩
    intro l hl k hk
    obtain rfl := Option.some.inj hl
    match k, hk with
    | 1, _ => exact (by decide : 1 ≤ 2)
  obtain ⟨w, w', h1, h2, -, h4, h5, -⟩ := C132_cp_fit hE hN hQ
    (c := ⟨⟨1, 1 / 2, 1 / 10, some [1, 2]⟩, "precomputed", none, true, [], fun _ _ _ _ => 0, id, fun _ => none⟩)
    (X := ofMat 1 2 fun _ j => if j = 0 then 5 else 10)
    (X' := ofMat 2 2 fun i j => if i = 0 then (if j = 0 then 3 else 6) else if j = 0 then 4 else 8)
    (U := unitCol) (n' := 2) (m := 0) hA (fun p hp => by simp at hp) (show freqOption none ≠ 0 by decide)
    (startsFrom_precomputed hpre ht) (startsFrom_precomputed hpre ht') ht ht' (by simp) rfl rfl orthoCols_unitCol
    ⟨rfl, fun idx hv i hi => by
      have hv : Valid [2] idx := hv
      match idx, hv with
      | [j], hv =>
        have hj : j < 2 := hv.1
        show (ofMat 2 2 _).get [i, j] = ∑ k ∈ Finset.range 1, unitCol.get [i, k] * (ofMat 1 2 _).get [k, j]
        rw [Finset.sum_range_one, get_ofMat hi hj, get_ofMat (by omega) hj, unitCol, get_ofMat hi (by omega)]
        split <;> split <;> norm_num⟩
    ⟨fun k hk => by
      match k, hk with
      | 1, _ => rfl
      | k + 2, _ => rfl,
     fun F F' hF hF' i hi r hr => by
      obtain rfl := Option.some.inj hF
      obtain rfl := Option.some.inj hF'
      have hr : r < 1 := hr
      obtain rfl : r = 0 := by omega
      show unitCol.get [i, 0] = ∑ k ∈ Finset.range 1, unitCol.get [i, k] * (ofMat 1 1 _).get [k, 0]
      rw [Finset.sum_range_one, get_ofMat (by omega) (by omega), mul_one]⟩
    (mi := some budget) (budget := budget) (loggers := []) (file := none) hb
    ⟨fun h => absurd h (show ¬ (0 : Int) < -1 by decide), fun h => absurd h (show ¬ (0 : Int) < -1 by decide),
      fun h => absurd h (show ¬ (0 : Int) < -1 by decide)⟩
  exact ⟨w, w', h1, h2, h5, h4⟩

end
end TK
