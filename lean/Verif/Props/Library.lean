import Verif.LinAlg.Spectral
import Verif.LinAlg.Exists
import Verif.Lemmas.Solvers
import Verif.Model.Parafac2Fit
import Verif.Model.CMTF
import Verif.Model.HeapFit
import Verif.Model.Printing

/-!
# C109: no fit depends on the choice of the singular vectors

Source: base.py:7-13 (`rightsolve`), 30-43 (`orthogonal_rightsolve`, `orthogonal_solve`), and all the code that calls them.

The singular value decomposition of a matrix is not unique: the signs of the singular vectors, the bases that belong to a
repeated singular value, and the vectors that belong to the singular value zero depend on the library (and on the number of
its threads). `rightsolve` and `orthogonal_solve` return the same matrix for every choice, the latter also when it drops
singular values, so no fit depends on it.
-/

namespace TK
open NDArray Matrix

noncomputable section

/-- Two numerical libraries that differ in the singular value decompositions of matrices only. (For arrays that are not
matrices, `np.linalg.svd` is not specified.) -/
structure Ext.SameButSVD (E E' : Ext) : Prop where
  nnls : E'.nnls = E.nnls
  qr : E'.qr = E.qr
  other : ∀ A : NDArray ℝ, A.shape.length ≠ 2 → E'.svd A = E.svd A

/-- The pseudo-inverse does not depend on the decomposition. -/
theorem pinv_unique {m n k : ℕ} {A : Matrix (Fin m) (Fin n) ℝ} {U U' : Matrix (Fin m) (Fin k) ℝ} {s s' : Fin k → ℝ}
    {Vh Vh' : Matrix (Fin k) (Fin n) ℝ} (h : LA.ThinSVD A U s Vh) (h' : LA.ThinSVD A U' s' Vh') :
    LA.pinv U s Vh = LA.pinv U' s' Vh' :=
  h.spectral_unique h' (fun x => if x ≠ 0 then 1 / x else x) (by simp)

theorem shape_two {A : NDArray ℝ} (h : A.shape.length = 2) : ∃ m n, A.shape = [m, n] := by
  rcases hA : A.shape with _ | ⟨a, _ | ⟨b, _ | ⟨c, l⟩⟩⟩ <;> rw [hA] at h <;> simp at h
  exact ⟨a, b, rfl⟩

/-- C109 for `rightsolve`: also for matrices of any rank, and whatever the right hand side is. -/
theorem C109_rightsolve {E E' : Ext} (hE : E.SVDOk) (hE' : E'.SVDOk) (h : E.SameButSVD E') (A B : NDArray ℝ) :
    rightsolve E' A B = rightsolve E A B := by
  by_cases h2 : A.shape.length = 2
  · obtain ⟨m, n, hA⟩ := shape_two h2
    have key : ∀ {F : Ext}, F.SVDOk → ∃ P : NDArray ℝ, P.shape = [n, m] ∧ rightsolve F A B = matmul B P ∧
        mat P n m = LA.pinv (mat (F.svd A).1 m (min m n)) (vec (F.svd A).2.1 (min m n)) (mat (F.svd A).2.2 (min m n) n) := by
      intro F hF
      have h := hF A m n hA
      rcases hs : F.svd A with ⟨U, S, Vh⟩
      rw [hs] at h
      simp only at h ⊢
      have hS : (invNonzero S).shape = [min m n] := h.shapeS
      obtain ⟨VS, e1, s1, m1⟩ := scaleCols_mat (shape_T h.shapeVh) hS
      obtain ⟨P, e2, s2, m2⟩ := matmul_mat s1 (shape_T h.shapeU)
      refine ⟨P, s2, ?_, ?_⟩
      · rw [rightsolve, hs]
        simp only
        rw [e1, bind_ok, e2, bind_ok]
      · rw [m2, m1, mat_T h.shapeVh, mat_T h.shapeU, invNonzero, vec_map h.shapeS]
        rfl
    obtain ⟨P, s1, e1, m1⟩ := key hE
    obtain ⟨P', s2, e2, m2⟩ := key hE'
    have : P' = P := by
      refine mat_inj s2 s1 ?_
      rw [m1, m2]
      exact pinv_unique (hE' A m n hA).svd (hE A m n hA).svd
    rw [e1, e2, this]
  · rw [rightsolve, rightsolve, h.other A h2]

/-- The largest singular value does not depend on the decomposition. -/
theorem first_value_le {m n : ℕ} {A U S Vh U' S' Vh' : NDArray ℝ} (hk : 0 < min m n) (h : IsSVD A U S Vh m n)
    (h' : IsSVD A U' S' Vh' m n) : S.get [0] ≤ S'.get [0] := by
  by_cases h0 : S.get [0] = 0
  · rw [h0]
    exact h'.svd.nonneg ⟨0, hk⟩
  · obtain ⟨j, hj⟩ := h.svd.value_mem h'.svd (i := ⟨0, hk⟩) h0
    have e : S'.get [(j : ℕ)] = S.get [0] := hj
    rw [← e]
    exact h'.sorted (a := ⟨0, hk⟩) (b := j) (Fin.mk_le_of_le_val (Nat.zero_le _))

/-- C109 for `orthogonal_solve`, with the tolerance below which singular values are dropped. -/
theorem C109_orthogonalSolve {E E' : Ext} (hE : E.SVDOk) (hE' : E'.SVDOk) (A B : NDArray ℝ) :
    orthogonalSolve E' A B = orthogonalSolve E A B := by
  rw [orthogonalSolve, orthogonalSolve]
  rcases hC : matmul B.T A with e | C
  · rfl
  rw [bind_ok, bind_ok]
  obtain ⟨m, r, hs⟩ : ∃ m r, C.shape = [m, r] := by
    unfold matmul at hC
    split at hC
    · split at hC
      · obtain rfl := Except.ok.inj hC
        exact ⟨_, _, rfl⟩
      · cases hC
    · cases hC
  have h := hE C m r hs
  have h' := hE' C m r hs
  rcases eU : E.svd C with ⟨U, S, Vh⟩
  rcases eU' : E'.svd C with ⟨U', S', Vh'⟩
  rw [eU] at h
  rw [eU'] at h'
  simp only at h h' ⊢
  by_cases hk : 0 < min m r
  · have key : ∀ {U S Vh : NDArray ℝ}, IsSVD C U S Vh m r → ∃ X : NDArray ℝ, X.shape = [r, m] ∧
        (do let keep ← shouldKeep U S
            let VK ← zipB (· * ·) Vh.T keep
            matmul VK U.T : Py (NDArray ℝ)) = .ok X ∧
        mat X r m = LA.procrustes (mat U m (min m r)) (keepVec U S (min m r)) (mat Vh (min m r) r) := by
      intro U S Vh h
      have e1 := shouldKeep_ok (U := U) h.shapeS hk
      have s1 : (S.map fun s => if s > ((U.shape.foldr max 0 : ℕ) : ℝ) * S.get [0] * 1e-16 then (1:ℝ) else 0).shape
          = [min m r] := h.shapeS
      obtain ⟨VK, e2, s2, m2⟩ := scaleCols_mat (shape_T h.shapeVh) s1
      obtain ⟨X, e3, s3, m3⟩ := matmul_mat s2 (shape_T h.shapeU)
      refine ⟨X, s3, ?_, ?_⟩
      · rw [e1, bind_ok, e2, bind_ok, e3]
      · rw [m3, m2, mat_T h.shapeVh, mat_T h.shapeU, vec_map h.shapeS]
        rfl
    obtain ⟨X, s1, e1, m1⟩ := key h
    obtain ⟨X', s2, e2, m2⟩ := key h'
    rw [e1, e2]
    congr 1
    refine mat_inj s2 s1 ?_
    rw [m1, m2]
    have htol : orthTol U' S' = orthTol U S := by
      rw [orthTol, orthTol, h.shapeU, h'.shapeU, le_antisymm (first_value_le hk h h') (first_value_le hk h' h)]
    have hpos : 0 ≤ orthTol U S := by
      have : 0 ≤ S.get [0] := h.svd.nonneg ⟨0, hk⟩
      rw [orthTol]; positivity
    have := h'.svd.spectral_unique h.svd (fun x => if x > orthTol U S then 1 else 0) (by simp [hpos])
    unfold LA.procrustes keepVec
    rw [htol]
    exact this
  · have hd : ∀ {U S Vh : NDArray ℝ}, IsSVD C U S Vh m r → shouldKeep U S = .error .indexError := by
      intro U S Vh h
      have : S.data = [] := by
        rw [← List.length_eq_zero_iff, S.wf, h.shapeS]; simp; omega
      rw [shouldKeep, this]
    rw [hd h, hd h']
    rfl

theorem C109_orthogonalRightsolve {E E' : Ext} (hE : E.SVDOk) (hE' : E'.SVDOk) (A B : NDArray ℝ) :
    orthogonalRightsolve E' A B = orthogonalRightsolve E A B := by
  rw [orthogonalRightsolve, orthogonalRightsolve, C109_orthogonalSolve hE hE']

section
variable {E E' : Ext} (hE : E.SVDOk) (hE' : E'.SVDOk) (h : E.SameButSVD E')
include hE hE' h

theorem getSolve_library : CP.getSolve E' = CP.getSolve E := by
  have h1 : rightsolve E' = rightsolve E := by funext A B; exact C109_rightsolve hE hE' h A B
  have h2 : orthogonalRightsolve E' = orthogonalRightsolve E := by
    funext A B; exact C109_orthogonalRightsolve hE hE' A B
  have h3 : nonNegativeRightsolve E' = nonNegativeRightsolve E := by
    funext A B; rw [nonNegativeRightsolve, nonNegativeRightsolve, h.nnls]
  funext o s m
  rw [CP.getSolve, CP.getSolve, h1, h2, h3]

theorem updateFactor_library : CP.updateFactor E' = CP.updateFactor E := by
  funext o m s
  rw [CP.updateFactor, CP.updateFactor, getSolve_library hE hE' h]

omit hE hE' in
theorem orthonormalise_library (on : List Bool) : ∀ (mode : ℕ) (fs : List (NDArray ℝ)),
    CP.orthonormalise E' mode on fs = CP.orthonormalise E mode on fs := by
  induction on with
  | nil => intro mode fs; rfl
  | cons b bs ih =>
    intro mode fs
    rw [CP.orthonormalise, CP.orthonormalise, h.qr]
    simp only [ih]

theorem cp_method_library (c : CP.Config) : CP.method E' c = CP.method E c := by
  have h1 : CP.iteration E' = CP.iteration E := by
    funext o s
    rw [CP.iteration, CP.iteration, CP.updateFactors, CP.updateFactors, CP.updateModes, CP.updateModes,
      updateFactor_library hE hE' h]
  have h2 : CP.initFit E' = CP.initFit E := by
    funext old X dec
    simp only [CP.initFit, orthonormalise_library h]
  rw [CP.method, CP.method, h1, h2]

theorem cp_init_library (c : CP.Config) (arg : InitArg KruskalTensor) :
    CP.initComponents E' c arg = CP.initComponents E c arg := by
  unfold CP.initComponents
  rw [cp_method_library hE hE' h]

/-- C109 for `CP_ALS`: with any constraints, penalties, initialisation, loggers and checkpoints, and for every state of the
object, two libraries that differ in the singular vectors give the same outcome: the same exception or the same state
(decomposition, logged values, checkpoint file), and the same printed lines. -/
theorem C109_cp (c : CP.Config) (X : NDArray ℝ) (mi : Option Int) (arg : InitArg KruskalTensor) (w : World CPState) :
    CP.fit E' c X mi arg w = CP.fit E c X mi arg w ∧
      CP.fitTransform E' c X mi arg w = CP.fitTransform E c X mi arg w ∧
      Fit.continueFit (CP.method E' c) mi w = Fit.continueFit (CP.method E c) mi w ∧
      ∀ (p : Printer CPState) (out : List OutLine),
        PFit.fit (CP.method E' c) p (CP.setTarget X) (CP.initComponents E' c arg) mi (w, out) =
          PFit.fit (CP.method E c) p (CP.setTarget X) (CP.initComponents E c arg) mi (w, out) := by
  have h1 : CP.fit E' c X mi arg = CP.fit E c X mi arg := by
    rw [CP.fit, CP.fit, cp_method_library hE hE' h, cp_init_library hE hE' h]
  refine ⟨by rw [h1], by rw [CP.fitTransform, CP.fitTransform, h1], by rw [cp_method_library hE hE' h], fun p out => ?_⟩
  rw [cp_method_library hE hE' h, cp_init_library hE hE' h]

/-- C109 for `CMTF_ALS`. -/
theorem C109_cmtf (c : CMTF.Config) (X : NDArray ℝ) (Ys : List (NDArray ℝ)) (modes : List Int) (mi : Option Int)
    (arg : InitArg KruskalTensor) (w : World CMTFState) :
    CMTF.fit E' c X Ys modes mi arg w = CMTF.fit E c X Ys modes mi arg w ∧
      CMTF.fitTransform E' c X Ys modes mi arg w = CMTF.fitTransform E c X Ys modes mi arg w ∧
      Fit.continueFit (CMTF.method E' c) mi w = Fit.continueFit (CMTF.method E c) mi w ∧
      ∀ (p : Printer CMTFState) (out : List OutLine),
        PFit.fit (CMTF.method E' c) p (CMTF.setTarget X) (CMTF.initComponents E' c arg) mi (w, out) =
          PFit.fit (CMTF.method E c) p (CMTF.setTarget X) (CMTF.initComponents E c arg) mi (w, out) := by
  have h0 : rightsolve E' = rightsolve E := by funext A B; exact C109_rightsolve hE hE' h A B
  have h3 : nonNegativeRightsolve E' = nonNegativeRightsolve E := by
    funext A B; rw [nonNegativeRightsolve, nonNegativeRightsolve, h.nnls]
  have h1 : CMTF.updateFactor E' = CMTF.updateFactor E := by
    funext o m s
    rw [CMTF.updateFactor, CMTF.updateFactor, getSolve_library hE hE' h]
  have h2 : CMTF.updateUncoupled E' = CMTF.updateUncoupled E := by
    funext s q
    rw [CMTF.updateUncoupled, CMTF.updateUncoupled, h0, h3]
  have h4 : CMTF.iteration E' = CMTF.iteration E := by
    funext o s
    rw [CMTF.iteration, CMTF.iteration, CMTF.updateFactors, CMTF.updateFactors]
    unfold CMTF.updateModes
    rw [h1, h2]
  have h5 : CMTF.method E' c = CMTF.method E c := by
    unfold CMTF.method
    rw [h4]
    congr 1
    funext s
    simp only [CMTF.initRest, orthonormalise_library h]
  have h6 : CMTF.initComponents E' c arg = CMTF.initComponents E c arg := by
    rw [CMTF.initComponents, CMTF.initComponents, cp_init_library hE hE' h]
  have h7 : CMTF.fit E' c X Ys modes mi arg = CMTF.fit E c X Ys modes mi arg := by
    rw [CMTF.fit, CMTF.fit, h5, h6]
  refine ⟨by rw [h7], by rw [CMTF.fitTransform, CMTF.fitTransform, h7], by rw [h5], fun p out => ?_⟩
  rw [h5, h6]

/-- C109 for `Parafac2_ALS`: also the projection matrices, for which singular values are dropped, and the start from a CP
model. -/
theorem C109_parafac2 (c : P2.Config) (D : P2Data) (mi : Option Int) (arg : InitArg P2Obj) (w : World P2State) :
    P2.fit E' c D mi arg w = P2.fit E c D mi arg w ∧
      P2.fitTransform E' c D mi arg w = P2.fitTransform E c D mi arg w ∧
      Fit.continueFit (P2.method E' c) mi w = Fit.continueFit (P2.method E c) mi w ∧
      ∀ (p : Printer P2State) (out : List OutLine),
        PFit.fit (P2.method E' c) p (P2.setTarget D) (P2.initComponents E' c arg) mi (w, out) =
          PFit.fit (P2.method E c) p (P2.setTarget D) (P2.initComponents E c arg) mi (w, out) := by
  have h1 : CPObj.updateFactor E' = CPObj.updateFactor E := by
    funext o m p
    rw [CPObj.updateFactor, CPObj.updateFactor, updateFactor_library hE hE' h]
  have h2 : ∀ o n p, CPObj.repeatUpdates E' o n p = CPObj.repeatUpdates E o n p := by
    intro o n
    induction n with
    | zero => intro p; rfl
    | succ n ih =>
      intro p
      rw [CPObj.repeatUpdates, CPObj.repeatUpdates, CPObj.updateFactors, CPObj.updateFactors]
      unfold CPObj.updateModes
      rw [h1]
      simp only [ih]
  have h3 : P2.updateProjections E' = P2.updateProjections E := by
    funext s
    have : P2.updateProjection E' = P2.updateProjection E := by
      funext s k
      simp only [P2.updateProjection, C109_orthogonalSolve hE hE']
    rw [P2.updateProjections, P2.updateProjections, this]
  have h4 : P2.iteration E' = P2.iteration E := by
    funext o s
    simp only [P2.iteration, P2.updateFactors, h2, h3]
  have h5 : P2.prepareCp E' = P2.prepareCp E := by
    funext o s
    simp only [P2.prepareCp, CPObj.initFit, CP.initFit, orthonormalise_library h]
  have h6 : P2.method E' c = P2.method E c := by
    unfold P2.method
    rw [h4, h5]
  have h7 : P2.initRandom E' c = P2.initRandom E c := by
    funext s
    unfold P2.initRandom Parafac2Tensor.randomInit
    rw [h.qr]
  have h8 : P2.initSvd E' c = P2.initSvd E c := by
    funext s
    unfold P2.initSvd
    rw [h3]
  have h9 : P2.initCp E' c = P2.initCp E c := by
    funext s
    unfold P2.initCp
    rw [h.qr]
    simp only [(C109_cp hE hE' h _ _ _ _ _).1]
  have h10 : P2.initComponents E' c arg = P2.initComponents E c arg := by
    unfold P2.initComponents
    rw [h6, h7, h8, h9]
  have h11 : P2.fit E' c D = P2.fit E c D := by
    funext mi arg
    unfold P2.fit
    rw [h6]
    congr 1
    unfold P2.initComponents
    rw [h6, h7, h8, h9]
  refine ⟨by rw [h11], by rw [P2.fitTransform, P2.fitTransform, h11], by rw [h6], fun p out => ?_⟩
  rw [h6, h10]

/-- C109 for `CP_ALS` in a program where arrays and decompositions may be shared: the same memory afterwards. -/
theorem C109_memory (c : CP.Config) (X : NDArray ℝ) (mi : Option Int) (arg : RefArg) (w : World (Mem × CPRef)) :
    CPRef.fit E' c X mi arg w = CPRef.fit E c X mi arg w := by
  have h1 : CPRef.iteration E' = CPRef.iteration E := by
    have : CPRef.updateFactor E' = CPRef.updateFactor E := by
      funext o m p
      rw [CPRef.updateFactor, CPRef.updateFactor, updateFactor_library hE hE' h]
    funext o p
    rw [CPRef.iteration, CPRef.iteration, CPRef.updateFactors, CPRef.updateFactors, this]
  have h2 : ∀ (r : Addr) (on : List Bool) (mode : ℕ) (M : Mem),
      CPRef.orthonormalise E' r mode on M = CPRef.orthonormalise E r mode on M := by
    intro r on
    induction on with
    | nil => intro mode M; rfl
    | cons b bs ih =>
      intro mode M
      rw [CPRef.orthonormalise, CPRef.orthonormalise, h.qr]
      simp only [ih]
  have h3 : CPRef.method E' c = CPRef.method E c := by
    unfold CPRef.method
    rw [h1]
    congr 1
    funext p
    simp only [CPRef.initRest, h2]
  unfold CPRef.fit CPRef.initComponents
  rw [h3]

end

/-! ### A pair of libraries as in the theorems -/

/-- The library that returns the negative singular vectors. -/
def Ext.negated (E : Ext) : Ext where
  svd := fun A => if A.shape.length = 2 then ((E.svd A).1.map (- ·), (E.svd A).2.1, (E.svd A).2.2.map (- ·)) else E.svd A
  nnls := E.nnls
  qr := E.qr

theorem mat_neg {A : NDArray ℝ} {m n : ℕ} (h : A.shape = [m, n]) : mat (A.map (- ·)) m n = -mat A m n := by
  ext i j
  simp only [mat, Matrix.neg_apply]
  rw [get_map]
  simp [h]

theorem Ext.negated_ok {E : Ext} (hE : E.SVDOk) : E.negated.SVDOk := by
  intro A m n hA
  have h := hE A m n hA
  have hl : A.shape.length = 2 := by rw [hA]; rfl
  simp only [Ext.negated, hl, if_true]
  refine ⟨h.shapeU, h.shapeS, h.shapeVh, ⟨?_, ?_, ?_, h.svd.nonneg⟩, h.sorted⟩
  · rw [mat_neg h.shapeU, transpose_neg, Matrix.neg_mul, Matrix.mul_neg, neg_neg, h.svd.left]
  · rw [mat_neg h.shapeVh, transpose_neg, Matrix.neg_mul, Matrix.mul_neg, neg_neg, h.svd.right]
  · rw [mat_neg h.shapeU, mat_neg h.shapeVh, Matrix.neg_mul, Matrix.neg_mul, Matrix.mul_neg, neg_neg]
    exact h.svd.eq

theorem Ext.negated_same (E : Ext) : E.SameButSVD E.negated where
  nnls := rfl
  qr := rfl
  other := fun A h => by simp [Ext.negated, h]

/-- There are two libraries as in the theorems that return different decompositions of a matrix. -/
example : ∃ E E' : Ext, E.SVDOk ∧ E'.SVDOk ∧ E.SameButSVD E' ∧ E'.svd (full [1, 1] 1) ≠ E.svd (full [1, 1] 1) := by
  obtain ⟨E, hE, -, -⟩ := exists_ext
  refine ⟨E, E.negated, hE, E.negated_ok hE, E.negated_same, fun e => ?_⟩
  have h := hE (full [1, 1] 1) 1 1 rfl
  have e1 : (E.negated.svd (full [1, 1] 1)).1 = (E.svd (full [1, 1] 1)).1 := by rw [e]
  have e2 : mat (E.negated.svd (full [1, 1] 1)).1 1 1 = -mat (E.svd (full [1, 1] 1)).1 1 1 := mat_neg h.shapeU
  rw [e1] at e2
  have l := h.svd.left
  have z : mat (E.svd (full [1, 1] 1)).1 1 1 = 0 := by
    ext i j
    have := congrFun (congrFun e2 i) j
    simp only [Matrix.neg_apply] at this
    simp only [Matrix.zero_apply]
    linarith
  have l' : (mat (E.svd (full [1, 1] 1)).1 1 1)ᵀ * mat (E.svd (full [1, 1] 1)).1 1 1 = 1 := l
  rw [z, Matrix.mul_zero] at l'
  have := congrFun (congrFun l' 0) 0
  simp at this

end
end TK
