import Verif.Props.Rotation
import Verif.Props.Symmetry

/-!
# Solvers and updates when rows are moved

Source: base.py:7-60, cp.py:354-402.
-/

namespace TK
open NDArray Matrix

noncomputable section

/-- The rows of `B` moved by `σ`. -/
def MatMoved (σ : Equiv.Perm ℕ) (n q : ℕ) (B B' : NDArray ℝ) : Prop :=
  ∀ i < n, ∀ j < q, B'.get [σ i, j] = B.get [i, j]

/-- A permutation of the first `n` numbers as one of `Fin n`. -/
def finPerm (σ : Equiv.Perm ℕ) {n : ℕ} (h : ∀ i, σ i < n ↔ i < n) : Equiv.Perm (Fin n) where
  toFun i := ⟨σ i, (h i).2 i.2⟩
  invFun i := ⟨σ.symm i, by have := h (σ.symm i); rw [Equiv.apply_symm_apply] at this; exact this.1 i.2⟩
  left_inv i := by ext; simp
  right_inv i := by ext; simp

theorem MatMoved.symm {σ : Equiv.Perm ℕ} {n q : ℕ} (h : ∀ i, σ i < n ↔ i < n) {B B' : NDArray ℝ}
    (hB : MatMoved σ n q B B') {i j : ℕ} (hi : i < n) (hj : j < q) : B'.get [i, j] = B.get [σ.symm i, j] := by
  have h1 : σ.symm i < n := by
    have := h (σ.symm i)
    rw [Equiv.apply_symm_apply] at this
    exact this.1 hi
  have := hB _ h1 j hj
  rwa [Equiv.apply_symm_apply] at this

/-- `rightsolve` works on one row of the right hand side at a time. -/
theorem rightsolve_moved {E : Ext} (hE : E.SVDOk) {A B B' : NDArray ℝ} {r q n : ℕ} (hA : A.shape = [r, q])
    (hB : B.shape = [n, q]) (hB' : B'.shape = [n, q]) {σ : Equiv.Perm ℕ} (hσ : ∀ i, σ i < n ↔ i < n)
    (h : MatMoved σ n q B B') :
    ∃ F F', rightsolve E A B = .ok F ∧ rightsolve E A B' = .ok F' ∧ F.shape = [n, r] ∧ F'.shape = [n, r] ∧
      MatMoved σ n r F F' := by
  obtain ⟨F, e, hF, m⟩ := rightsolve_mat hE hA hB
  obtain ⟨F', e', hF', m'⟩ := rightsolve_mat hE hA hB'
  refine ⟨F, F', e, e', hF, hF', fun i hi j hj => ?_⟩
  have h1 := congrFun (congrFun m ⟨i, hi⟩) ⟨j, hj⟩
  have h2 := congrFun (congrFun m' ⟨σ i, (hσ i).2 hi⟩) ⟨j, hj⟩
  rw [mul_apply] at h1 h2
  refine (show F'.get [σ i, j] = _ from h2).trans (Eq.trans ?_ (show F.get [i, j] = _ from h1).symm)
  refine Finset.sum_congr rfl fun k _ => ?_
  rw [show mat B' n q ⟨σ i, (hσ i).2 hi⟩ k = mat B n q ⟨i, hi⟩ k from h i hi k k.2]

/-- So does `non_negative_rightsolve`. -/
theorem nonNegativeRightsolve_moved {E : Ext} {A B B' : NDArray ℝ} {r q n : ℕ} (hA : A.shape = [r, q])
    (hB : B.shape = [n, q]) (hB' : B'.shape = [n, q]) {σ : Equiv.Perm ℕ} (hσ : ∀ i, σ i < n ↔ i < n)
    (h : MatMoved σ n q B B') :
    ∃ F F', nonNegativeRightsolve E A B = .ok F ∧ nonNegativeRightsolve E A B' = .ok F' ∧ F.shape = [n, r] ∧
      F'.shape = [n, r] ∧ MatMoved σ n r F F' := by
  refine ⟨ofMat n r fun i j => (E.nnls A.T (rowVec B i)).get [j], ofMat n r fun i j => (E.nnls A.T (rowVec B' i)).get [j],
    ?_, ?_, rfl, rfl, fun i hi j hj => ?_⟩
  · simp [nonNegativeRightsolve, hB, dims2_ok hB, dims2_ok hA, bind_ok, pure, Except.pure]
  · simp [nonNegativeRightsolve, hB', dims2_ok hB', dims2_ok hA, bind_ok, pure, Except.pure]
  · rw [get_ofMat ((hσ i).2 hi) hj, get_ofMat hi hj]
    have : rowVec B' (σ i) = rowVec B i := by
      rw [rowVec, rowVec, hB, hB']
      refine NDArray.ofFn_congr fun idx hv => ?_
      match idx, hv with
      | [j], hv => exact h i hi j hv.1
    rw [this]

/-- `orthogonal_rightsolve` moves with the rows of the right hand side. -/
theorem orthogonalRightsolve_moved {E : Ext} (hE : E.SVDOk) {A B B' : NDArray ℝ} {r q n : ℕ} (hA : A.shape = [r, q])
    (hB : B.shape = [n, q]) (hB' : B'.shape = [n, q]) (hr : 0 < r) (hn : 0 < n) {σ : Equiv.Perm ℕ}
    (hσ : ∀ i, σ i < n ↔ i < n) (h : MatMoved σ n q B B') :
    ∃ F F', orthogonalRightsolve E A B = .ok F ∧ orthogonalRightsolve E A B' = .ok F' ∧ F.shape = [n, r] ∧
      F'.shape = [n, r] ∧ MatMoved σ n r F F' := by
  set π := finPerm σ hσ with hπ
  set Q : Matrix (Fin n) (Fin n) ℝ := fun i j => if i = π.symm j then 1 else 0 with hQ
  have hQQ : Q * Qᵀ = 1 := by
    ext i j
    rw [mul_apply, Finset.sum_eq_single (π i)]
    · rw [transpose_apply]; simp [hQ, one_apply, eq_comm]
    · intro b _ hb
      rw [hQ]
      simp only [mul_eq_zero]
      left
      rw [if_neg]
      rintro rfl
      exact hb (by simp)
    · simp
  have hmul : ∀ {a : ℕ} (M : Matrix (Fin a) (Fin n) ℝ) (i : Fin a) (j : Fin n), (M * Q) i j = M i (π.symm j) := by
    intro a M i j
    rw [mul_apply, Finset.sum_eq_single (π.symm j)]
    · simp [hQ]
    · intro b _ hb
      simp [hQ, hb]
    · simp
  have e : mat B'.T q n = mat B.T q n * Q := by
    ext i j
    rw [hmul, mat_T hB, mat_T hB']
    exact h.symm hσ j.2 i.2
  obtain ⟨X, X', e1, e2, s1, s2, m⟩ := orthogonalSolve_rotate hE (shape_T hA) (shape_T hB) (shape_T hB') hr hn hQQ e
  refine ⟨X.T, X'.T, by rw [orthogonalRightsolve, e1, bind_ok]; rfl, by rw [orthogonalRightsolve, e2, bind_ok]; rfl,
    shape_T s1, shape_T s2, fun i hi j hj => ?_⟩
  rw [get_T s2 ((hσ i).2 hi) hj, get_T s1 hi hj]
  have := congrFun (congrFun m ⟨j, hj⟩) (π ⟨i, hi⟩)
  rw [hmul, Equiv.symm_apply_apply] at this
  exact this

theorem baseSolve_moved {E : Ext} (hE : E.SVDOk) (nn on : Bool) {A B B' : NDArray ℝ} {r q n : ℕ} (hA : A.shape = [r, q])
    (hB : B.shape = [n, q]) (hB' : B'.shape = [n, q]) (hr : 0 < r) (hn : 0 < n) {σ : Equiv.Perm ℕ}
    (hσ : ∀ i, σ i < n ↔ i < n) (h : MatMoved σ n q B B') :
    ∃ F F', baseSolve E nn on A B = .ok F ∧ baseSolve E nn on A B' = .ok F' ∧ F.shape = [n, r] ∧
      F'.shape = [n, r] ∧ MatMoved σ n r F F' := by
  unfold baseSolve
  split
  · exact orthogonalRightsolve_moved hE hA hB hB' hr hn hσ h
  · split
    · exact nonNegativeRightsolve_moved hA hB hB' hσ h
    · exact rightsolve_moved hE hA hB hB' hσ h

theorem withRidge_moved {E : Ext} (hE : E.SVDOk) (nn on : Bool) (ridge : Option ℝ) {A B B' : NDArray ℝ} {r q n : ℕ}
    (hA : A.shape = [r, q]) (hB : B.shape = [n, q]) (hB' : B'.shape = [n, q]) (hr : 0 < r) (hn : 0 < n) {σ : Equiv.Perm ℕ}
    (hσ : ∀ i, σ i < n ↔ i < n) (h : MatMoved σ n q B B') :
    ∃ F F', withRidge ridge (baseSolve E nn on) A B = .ok F ∧ withRidge ridge (baseSolve E nn on) A B' = .ok F' ∧
      F.shape = [n, r] ∧ F'.shape = [n, r] ∧ MatMoved σ n r F F' := by
  cases ridge with
  | none => exact baseSolve_moved hE nn on hA hB hB' hr hn hσ h
  | some l =>
    simp only [withRidge]
    rw [ridge_reduce hA hB, ridge_reduce hA hB']
    refine baseSolve_moved hE nn on (shape_ofMat _ _ _) (shape_ofMat _ _ _) (shape_ofMat _ _ _) hr hn hσ fun i hi j hj => ?_
    rw [get_ofMat ((hσ i).2 hi) hj, get_ofMat hi hj]
    by_cases hjq : j < q
    · rw [if_pos hjq, if_pos hjq, h i hi j hjq]
    · rw [if_neg hjq, if_neg hjq, get_full (by simp [Valid, (hσ i).2 hi]; omega), get_full (by simp [Valid, hi]; omega)]

/-! ### Updates -/

/-- The rows of mode `k` are moved by `σ k`; nothing else changes. -/
abbrev rowMoves (d : ℕ) (σ : ℕ → Equiv.Perm ℕ) : List ModeChange := changes d σ fun _ _ => 1

theorem rowMoves_change {sizes : List ℕ} {σ : ℕ → Equiv.Perm ℕ} (R : ℕ)
    (hσ : ∀ k < sizes.length, ∀ i, σ k i < sizes.getD k 0 ↔ i < sizes.getD k 0) :
    Change R (Equiv.refl ℕ) sizes (rowMoves sizes.length σ) 1 :=
  change_of rfl hσ (by simp) (fun k hk => ⟨1, one_pos, by simp⟩) (by simp)

theorem coefProd_rowMoves {d : ℕ} {σ : ℕ → Equiv.Perm ℕ} (m r : ℕ) : coefProd ((rowMoves d σ).eraseIdx m) r = 1 := by
  refine List.prod_eq_one fun x hx => ?_
  obtain ⟨s, hs, rfl⟩ := List.mem_map.1 hx
  obtain ⟨k, -, rfl⟩ := List.mem_map.1 (List.mem_of_mem_eraseIdx hs)
  rfl

theorem getElem_rowMoves {d : ℕ} {σ : ℕ → Equiv.Perm ℕ} {m : ℕ} (h : m < (rowMoves d σ).length) :
    (rowMoves d σ)[m] = ⟨σ m, fun _ => 1⟩ := by
  simp [rowMoves, changes]

/-- States with the same constraints whose tensors and factor matrices correspond up to the order of the rows. -/
structure CPState.RowsMoved (R : ℕ) (σ : ℕ → Equiv.Perm ℕ) (s s' : CPState) : Prop where
  moved : s.Moved R (Equiv.refl ℕ) (rowMoves s.X.shape.length σ) 1 s'
  nonNeg : s'.nonNeg = s.nonNeg
  orth : s'.orth = s.orth

/-- One update, whatever the constraints and the penalty of the mode. -/
theorem update_rowsMoved {E : Ext} (hE : E.SVDOk) {o : CPOpts} (hr : 0 < o.rank) {s s' : CPState} (h : s.Sized o.rank)
    (h' : s'.Sized o.rank) {σ : ℕ → Equiv.Perm ℕ}
    (hσ : ∀ k < s.X.shape.length, ∀ i, σ k i < s.X.shape.getD k 0 ↔ i < s.X.shape.getD k 0)
    (hM : s.RowsMoved o.rank σ s') {m : ℕ} (hm : m < s.X.shape.length) {nn on : Bool} {ridge : Option ℝ}
    (hc : s.ModeConfig o m nn on ridge) (hb : ¬ (nn = true ∧ on = true)) :
    ∃ F F', F.shape = [s.X.shape.getD m 0, o.rank] ∧ F'.shape = [s'.X.shape.getD m 0, o.rank] ∧
      CP.updateFactor E o m s = .ok (s.updated m o.rank F) ∧
      CP.updateFactor E o m s' = .ok (s'.updated m o.rank F') ∧
      (s.updated m o.rank F).RowsMoved o.rank σ (s'.updated m o.rank F') := by
  have hT := hM.moved.tensor
  have hX := hT.shape
  have hm' : m < s'.X.shape.length := by rw [hX]; exact hm
  have hc' : s'.ModeConfig o m nn on ridge := by
    refine ⟨?_, ?_, hc.ridge⟩
    · rw [hM.nonNeg]; exact hc.nonNeg
    · rw [hM.orth]; exact hc.orth
  have hC := rowMoves_change o.rank hσ
  have hms : m < (rowMoves s.X.shape.length σ).length := by simpa using hm
  have hMe := hM.moved.factors.eraseIdx m
  have hG : (ofMat o.rank o.rank fun a b => gramProd (s'.dec.factorMatrices.eraseIdx m) a b) =
      ofMat o.rank o.rank fun a b => gramProd (s.dec.factorMatrices.eraseIdx m) a b := by
    refine ext_mat rfl rfl fun a ha b hb => ?_
    rw [get_ofMat ha hb, get_ofMat ha hb]
    have := hMe.gramProd (rows_eraseIdx hC.rows m) ha hb
    rw [coefProd_rowMoves, coefProd_rowMoves] at this
    simpa using this
  have hB : MatMoved (σ m) (s.X.shape.getD m 0) o.rank (mttkrpMat s.X s.dec.factorMatrices m o.rank)
      (mttkrpMat s'.X s'.dec.factorMatrices m o.rank) := by
    intro i hi j hj
    have := mttkrpEntry_moved hC hT hms (by simp) hMe hi hj
    rw [coefProd_rowMoves, getElem_rowMoves hms] at this
    rw [mttkrpMat, mttkrpMat, get_ofMat (by rw [hX]; exact (hσ m hm i).2 hi) hj, get_ofMat hi hj]
    simpa using this
  obtain ⟨F, F', e, e', sF, sF', mF⟩ := withRidge_moved hE nn on ridge (n := s.X.shape.getD m 0)
    (A := ofMat o.rank o.rank fun a b => gramProd (s.dec.factorMatrices.eraseIdx m) a b) (shape_ofMat _ _ _)
    (shape_ofMat _ _ _) (by rw [mttkrpMat, shape_ofMat, hX]) hr (Nat.pos_of_ne_zero (h.dim hm)) (hσ m hm) hB
  rw [← hG] at e'
  rw [← hX] at sF'
  refine ⟨F, F', sF, sF', updateFactor_ok h.wf.factors h.order hm (h.dim hm) (getSolve_ok hc hb) e sF,
    updateFactor_ok h'.wf.factors h'.order hm' (h'.dim hm') (getSolve_ok hc' hb) e' sF', ⟨hT, ?_⟩, hM.nonNeg, hM.orth⟩
  rw [hX] at sF'
  refine FactorsMoved.set_of_eraseIdx hms (by simp) hMe h.wf.factors.length_eq
    (by rw [h'.wf.factors.length_eq, hX]) sF sF' fun i hi r hr' => ?_
  rw [getElem_rowMoves hms]
  simpa using mF i hi r hr'

theorem updates_rowsMoved {E : Ext} (hE : E.SVDOk) {o : CPOpts} (hr : 0 < o.rank) {σ : ℕ → Equiv.Perm ℕ} :
    ∀ (modes : List ℕ) {s s' : CPState}, s.Sized o.rank → s'.Sized o.rank →
    (∀ k < s.X.shape.length, ∀ i, σ k i < s.X.shape.getD k 0 ↔ i < s.X.shape.getD k 0) →
    (∀ m < s.X.shape.length, ∃ nn on ridge, s.ModeConfig o m nn on ridge ∧ ¬ (nn = true ∧ on = true)) →
    s.RowsMoved o.rank σ s' → (∀ m ∈ modes, m < s.X.shape.length) →
    ∃ t t', CP.updateModes E o modes s = .ok t ∧ CP.updateModes E o modes s' = .ok t' ∧ t.RowsMoved o.rank σ t' ∧
      t.Sized o.rank ∧ t'.Sized o.rank ∧ t.X = s.X ∧ t.nonNeg = s.nonNeg ∧ t.orth = s.orth := by
  intro modes
  induction modes with
  | nil => intro s s' h h' _ _ hM _; exact ⟨s, s', rfl, rfl, hM, h, h', rfl, rfl, rfl⟩
  | cons m ms ih =>
    intro s s' h h' hσ hc hM hm
    obtain ⟨nn, on, ridge, c1, c2⟩ := hc m (hm m (by simp))
    obtain ⟨F, F', hF, hF', u, u', hM1⟩ := update_rowsMoved hE hr h h' hσ hM (hm m (by simp)) c1 c2
    rw [CP.updateModes, CP.updateModes, List.foldlM_cons, List.foldlM_cons, u, u', bind_ok, bind_ok]
    exact ih (h.updated hF) (h'.updated hF') hσ
      (fun k hk => by
        obtain ⟨nn, on, ridge, c, d⟩ := hc k hk
        exact ⟨nn, on, ridge, ⟨c.nonNeg, c.orth, c.ridge⟩, d⟩) hM1 (fun k hk => hm k (by simp [hk]))

theorem iterM_rowsMoved {E : Ext} (hE : E.SVDOk) {o : CPOpts} (hr : 0 < o.rank) {σ : ℕ → Equiv.Perm ℕ} :
    ∀ (n : ℕ) {s s' : CPState}, s.Sized o.rank → s'.Sized o.rank →
    (∀ k < s.X.shape.length, ∀ i, σ k i < s.X.shape.getD k 0 ↔ i < s.X.shape.getD k 0) →
    (∀ m < s.X.shape.length, ∃ nn on ridge, s.ModeConfig o m nn on ridge ∧ ¬ (nn = true ∧ on = true)) →
    s.RowsMoved o.rank σ s' →
    ∃ t t', iterM (CP.updateFactors E o) n s = .ok t ∧ iterM (CP.updateFactors E o) n s' = .ok t' ∧ t.X = s.X ∧
      t.RowsMoved o.rank σ t'
  | 0, s, s', _, _, _, _, hM => ⟨s, s', rfl, rfl, rfl, hM⟩
  | n + 1, s, s', h, h', hσ, hc, hM => by
    obtain ⟨t, t', e, e', hM1, h1, h1', hX, hn, ho⟩ := updates_rowsMoved hE hr (List.range s.X.shape.length) h h' hσ hc hM
      (fun m hm => by simpa using hm)
    obtain ⟨u, u', f, f', hX', hM2⟩ := iterM_rowsMoved hE hr n h1 h1' (by rw [hX]; exact hσ)
      (fun m hm => by
        rw [hX] at hm
        obtain ⟨nn, on, ridge, c, d⟩ := hc m hm
        exact ⟨nn, on, ridge, ⟨by rw [hn]; exact c.nonNeg, by rw [ho]; exact c.orth, c.ridge⟩, d⟩) hM1
    refine ⟨u, u', ?_, ?_, by rw [hX', hX], hM2⟩
    · unfold iterM CP.updateFactors
      rw [e, bind_ok]; exact f
    · unfold iterM CP.updateFactors
      rw [hM.moved.tensor.shape, e', bind_ok]; exact f'

/-- The loop at the start of a fit that orthonormalises the constrained modes, when these are not moved. -/
theorem orthonormalise_moved {E : Ext} (hQ : E.QROk) {sizes : List ℕ} {R : ℕ} {σ : ℕ → Equiv.Perm ℕ} :
    ∀ {bs : List Bool} {mode : ℕ} {fs fs' : List (NDArray ℝ)},
    FactorsMoved R (Equiv.refl ℕ) (rowMoves sizes.length σ) sizes fs fs' → mode + bs.length ≤ sizes.length →
    (∀ k, bs[k]? = some true → R ≤ sizes.getD (mode + k) 0) → (∀ k, bs[k]? = some true → σ (mode + k) = Equiv.refl ℕ) →
    ∃ gs gs', CP.orthonormalise E mode bs fs = .ok gs ∧ CP.orthonormalise E mode bs fs' = .ok gs' ∧
      FactorsMoved R (Equiv.refl ℕ) (rowMoves sizes.length σ) sizes gs gs'
  | [], mode, fs, fs', h, _, _, _ => ⟨fs, fs', rfl, rfl, h⟩
  | b :: bs, mode, fs, fs', h, hl, hR, hσ => by
    have hms : mode < sizes.length := by simp at hl; omega
    have hm : mode < fs.length := by rw [h.left.length_eq]; exact hms
    have hm' : mode < fs'.length := by rw [h.right.length_eq]; exact hms
    rw [CP.orthonormalise, CP.orthonormalise, pyGet_ok (norm_nat hm), pyGet_ok (norm_nat hm'), bind_ok, bind_ok]
    have key : FactorsMoved R (Equiv.refl ℕ) (rowMoves sizes.length σ) sizes
        (if b then fs.set mode (E.qr fs[mode]).1 else fs) (if b then fs'.set mode (E.qr fs'[mode]).1 else fs') := by
      cases b with
      | false => simpa using h
      | true =>
        have h0 : σ mode = Equiv.refl ℕ := hσ 0 rfl
        have hle : R ≤ sizes.getD mode 0 := hR 0 rfl
        have s1 := h.left.shape_get hm
        have s2 := h.right.shape_get hm'
        have hF : fs'[mode] = fs[mode] := by
          refine ext_mat s2 s1 fun i hi j hj => ?_
          have := h.get (m := mode) (s := ⟨σ mode, fun _ => 1⟩) (by simp [rowMoves, changes, hms])
            (List.getElem?_eq_getElem hm) (List.getElem?_eq_getElem hm') hi hj
          rw [h0] at this
          simpa using this
        have hq := (hQ _ _ _ s1).shapeQ
        rw [min_eq_right hle] at hq
        simp only [if_true, hF]
        refine FactorsMoved.set_of_eraseIdx (by simpa using hms) (by simp) (h.eraseIdx mode) h.left.length_eq
          h.right.length_eq hq hq fun i hi r hr => ?_
        rw [getElem_rowMoves, h0]
        simp
    exact orthonormalise_moved hQ key (by simp at hl; omega)
      (fun k hk => by have := hR (k + 1) (by simpa using hk); rwa [show mode + (k + 1) = mode + 1 + k by omega] at this)
      (fun k hk => by have := hσ (k + 1) (by simpa using hk); rwa [show mode + (k + 1) = mode + 1 + k by omega] at this)

theorem initFit_factors {E : Ext} {old s : CPState} {X : NDArray ℝ} {t : KruskalTensor} (h : CP.initFit E old X t = .ok s) :
    CP.orthonormalise E 0 (old.orth.getD (List.replicate t.factorMatrices.length false)) t.factorMatrices =
      .ok s.dec.factorMatrices := by
  unfold CP.initFit at h
  simp only [bind_eq_ok, pure_eq_ok] at h
  obtain ⟨fs, h1, e, -, rfl⟩ := h
  exact h1

end
end TK
