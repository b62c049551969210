import Verif.Model.CP
import Verif.Spec.CP
import Verif.Lemmas.Solvers
import Verif.Lemmas.Evolving

/-! # Lemmas about the model of `CP_ALS` -/

namespace TK
open NDArray Matrix

noncomputable section

/-! ### norms and sums -/

theorem sum_list_getD {β : Type} [Zero β] (f : β → ℝ) (l : List β) :
    (l.map f).sum = ∑ p ∈ Finset.range l.length, f (l.getD p 0) := by
  induction l with
  | nil => simp
  | cons a l ih => rw [List.length_cons, Finset.sum_range_succ']; simp [ih, add_comm]

theorem sum_data (A : NDArray ℝ) (f : ℝ → ℝ) : (A.data.map f).sum = sumIdx A.shape fun idx => f (A.get idx) := by
  rw [sum_list_getD, A.wf, sum_range_prod]; rfl

theorem frobNorm_sq (A : NDArray ℝ) : frobNorm A ^ 2 = sumIdx A.shape fun idx => A.get idx ^ 2 := by
  rw [frobNorm, sum_data, Real.sq_sqrt]
  exact sumIdx_nonneg fun _ _ => sq_nonneg _

theorem assignAll_same {A B : NDArray ℝ} (h : B.shape = A.shape) : assignAll A B = .ok B := by
  rw [assignAll, h, bshape_self, if_pos rfl]
  congr 1
  apply ext_get (by simp [h])
  intro idx hidx
  have hidx : Valid A.shape idx := by simpa using hidx
  rw [get_ofFn hidx, bidx_self hidx]

theorem assignAll_shape {A B C : NDArray ℝ} (h : assignAll A B = .ok C) : C.shape = A.shape := by
  unfold assignAll at h
  split at h
  · injection h with h; rw [← h]; rfl
  · cases h

/-! ### the Gram matrix (C06) -/

/-- `Σ_i F[i, a] F[i, b]`. -/
def gramEntry (F : NDArray ℝ) (a b : ℕ) : ℝ := ∑ i ∈ Finset.range (F.shape.getD 0 0), F.get [i, a] * F.get [i, b]

/-- Product of the Gram matrices of all factors. -/
def gramProd (fs : List (NDArray ℝ)) (a b : ℕ) : ℝ := (fs.map fun F => gramEntry F a b).prod

theorem sumIdx_rankOne_mul {fs : List (NDArray ℝ)} {sizes : List ℕ} {R : ℕ} (h : Factors fs sizes R) (a b : ℕ) :
    (sumIdx sizes fun idx => rankOne fs idx a * rankOne fs idx b) = gramProd fs a b := by
  unfold Factors at h
  induction h with
  | nil => simp [rankOne, gramProd]
  | @cons F n fs sizes hF h ih =>
    simp only [sumIdx_cons, rankOne]
    have e : ∀ i, (sumIdx sizes fun is => F.get [i, a] * rankOne fs is a * (F.get [i, b] * rankOne fs is b))
        = F.get [i, a] * F.get [i, b] * gramProd fs a b := by
      intro i
      rw [← ih, mul_sumIdx]
      exact sumIdx_congr fun idx _ => by ring
    simp only [e]
    rw [← Finset.sum_mul]
    simp [gramProd, gramEntry, hF]

/-- `KᵀK` for the Khatri-Rao product `K`. -/
theorem krMat_gram {fs : List (NDArray ℝ)} {sizes : List ℕ} {R a b : ℕ} (h : Factors fs sizes R) (ha : a < R)
    (hb : b < R) : ∑ p ∈ Finset.range sizes.prod, (krMat fs sizes R).get [p, a] * (krMat fs sizes R).get [p, b]
      = gramProd fs a b := by
  rw [← sumIdx_rankOne_mul h, sum_range_prod]
  exact sumIdx_congr fun idx hidx => by rw [get_krMat hidx ha, get_krMat hidx hb]

theorem inplaceMul_mat {A B : NDArray ℝ} {m n : ℕ} (hA : A.shape = [m, n]) (hB : B.shape = [m, n]) :
    inplaceMul A B = .ok (ofMat m n fun i j => A.get [i, j] * B.get [i, j]) := by
  rw [inplaceMul, zipB_mat_mat _ hA hB, bind_ok, if_pos (by simp [hA])]; rfl

theorem alsLhsLoop_eq {fs : List (NDArray ℝ)} {sizes : List ℕ} {R : ℕ} (h : Factors fs sizes R) (skip : ℕ) :
    ∀ (i : ℕ) (V : NDArray ℝ), V.shape = [R, R] → CP.alsLhsLoop skip i fs V = .ok (ofMat R R fun a b =>
      V.get [a, b] * gramProd (if i ≤ skip then fs.eraseIdx (skip - i) else fs) a b) := by
  unfold Factors at h
  induction h with
  | nil =>
    intro i V hV
    rw [CP.alsLhsLoop, eq_ofMat hV]
    refine congrArg Except.ok (ofMat_congr fun a ha b hb => ?_)
    simp [gramProd, get_ofMat ha hb]
  | @cons F n fs sizes hF h ih =>
    intro i V hV
    rw [CP.alsLhsLoop]
    by_cases hi : i = skip
    · subst hi
      rw [if_pos rfl, ih (i + 1) V hV]
      simp
    · rw [if_neg hi, matmul_ok (shape_T hF) hF, bind_ok, inplaceMul_mat hV (shape_ofMat _ _ _), bind_ok,
        ih (i + 1) _ (shape_ofMat _ _ _)]
      refine congrArg Except.ok (ofMat_congr fun a ha b hb => ?_)
      rw [get_ofMat ha hb, get_ofMat ha hb, mul_assoc]
      congr 1
      have hg : ∑ l ∈ Finset.range n, F.T.get [a, l] * F.get [l, b] = gramEntry F a b := by
        rw [gramEntry, hF]
        refine Finset.sum_congr (by simp) fun l hl => ?_
        rw [get_T hF ha (by simpa using hl)]
      rw [hg]
      by_cases hle : i ≤ skip
      · have h1 : i + 1 ≤ skip := by omega
        obtain ⟨k, hk⟩ : ∃ k, skip - i = k + 1 := ⟨skip - i - 1, by omega⟩
        rw [if_pos hle, if_pos h1, hk, show skip - (i + 1) = k by omega]
        simp [gramProd]
      · rw [if_neg hle, if_neg (by omega)]
        simp [gramProd]

theorem alsLhs_eq {fs : List (NDArray ℝ)} {sizes : List ℕ} {R : ℕ} (h : Factors fs sizes R) (skip : ℕ) :
    CP.alsLhs R skip fs = .ok (ofMat R R fun a b => gramProd (fs.eraseIdx skip) a b) := by
  rw [CP.alsLhs, alsLhsLoop_eq h skip 0 _ (by simp)]
  refine congrArg Except.ok (ofMat_congr fun a ha b hb => ?_)
  rw [get_full (by simp [ha, hb])]
  simp

/-! ### squared error as a matrix problem -/

/-- The mode-`k` unfolding. -/
def unfoldMat (X : NDArray ℝ) (k : ℕ) : NDArray ℝ :=
  ofMat (X.shape.getD k 0) (X.shape.eraseIdx k).prod fun i p =>
    X.get ((unravel (X.shape.eraseIdx k) p).insertIdx k i)

theorem cpEntry_insertIdx {fs : List (NDArray ℝ)} {idx : List ℕ} {k R i : ℕ} (w : ℕ → ℝ) (hk : k < fs.length)
    (hidx : idx.length + 1 = fs.length) :
    cpEntry w fs R (idx.insertIdx k i)
      = ∑ r ∈ Finset.range R, w r * ((fs[k]).get [i, r] * rankOne (fs.eraseIdx k) idx r) := by
  refine Finset.sum_congr rfl fun r _ => ?_
  have hk' : k ≤ idx.length := by omega
  rw [rankOne_eraseIdx hk (by rw [List.length_insertIdx_of_le_length hk']; omega), getD_insertIdx hk',
    eraseIdx_insertIdx']

theorem sumIdx_split {s : List ℕ} {k : ℕ} (hk : k < s.length) (f : List ℕ → ℝ) :
    sumIdx s f = ∑ i ∈ Finset.range (s.getD k 0), sumIdx (s.eraseIdx k) fun is => f (is.insertIdx k i) := by
  conv_lhs => rw [← insertIdx_eraseIdx_getD hk]
  rw [sumIdx_insertIdx]
  rw [List.length_eraseIdx_of_lt hk]; omega

theorem sqErr_eq {X : NDArray ℝ} {fs : List (NDArray ℝ)} {R k : ℕ} (h : Factors fs X.shape R)
    (hk : k < fs.length) :
    sqErr X (fun _ => 1) fs R
      = resid (fs[k]) (krMat (fs.eraseIdx k) (X.shape.eraseIdx k) R).T (unfoldMat X k)
          (X.shape.getD k 0) R (X.shape.eraseIdx k).prod := by
  have hlen := h.length_eq
  have hk' : k < X.shape.length := by omega
  rw [sqErr, sumIdx_split hk', resid]
  refine Finset.sum_congr rfl fun i hi => ?_
  rw [sum_range_prod]
  refine sumIdx_congr fun idx hidx => ?_
  have hl : idx.length + 1 = fs.length := by
    rw [hidx.length_eq, List.length_eraseIdx_of_lt hk']; omega
  rw [cpEntry_insertIdx _ hk hl, unfoldMat, get_ofMat (by simpa using hi) (ravel_lt hidx), unravel_ravel hidx]
  rw [← neg_sub, neg_sq]
  congr 2
  refine Finset.sum_congr rfl fun r hr => ?_
  have hr : r < R := by simpa using hr
  rw [get_T (A := krMat _ _ _) (shape_ofMat _ _ _) hr (ravel_lt hidx), get_krMat hidx hr, one_mul]

theorem factors_set {fs : List (NDArray ℝ)} {s : List ℕ} {R k : ℕ} {F : NDArray ℝ} (h : Factors fs s R)
    (hF : F.shape = [s.getD k 0, R]) : Factors (fs.set k F) s R := by
  unfold Factors at *
  induction h generalizing k with
  | nil => simp
  | cons h1 h2 ih =>
    cases k with
    | zero => simpa using ⟨by simpa using hF, h2⟩
    | succ k => simpa using ⟨h1, ih (by simpa using hF)⟩

theorem eraseIdx_set_self {β : Type} (l : List β) (k : ℕ) (a : β) : (l.set k a).eraseIdx k = l.eraseIdx k := by
  induction l generalizing k with
  | nil => simp
  | cons b l ih => cases k with
    | zero => simp
    | succ k => simp [ih]

/-! ### least squares through the Gram matrix -/

/-- A solution of `Y (KᵀK) = B K` minimises `‖Y Kᵀ - B‖`. -/
theorem gram_optimal {m q k : ℕ} {Y Z : Matrix (Fin m) (Fin k) ℝ} {K : Matrix (Fin q) (Fin k) ℝ}
    {B : Matrix (Fin m) (Fin q) ℝ} (h : Y * (Kᵀ * K) = B * K) : LA.fsq (Y * Kᵀ - B) ≤ LA.fsq (Z * Kᵀ - B) := by
  apply LA.ls_optimal
  rw [transpose_transpose, Matrix.sub_mul, Matrix.mul_assoc, h, sub_self]

/-- `Y (KᵀK) = B K` has a solution. -/
theorem gram_solvable {E : Ext} (hE : E.SVDOk) {K B : NDArray ℝ} {m q k : ℕ} (hK : K.shape = [q, k])
    (hB : B.shape = [m, q]) :
    ∃ Y : NDArray ℝ, Y.shape = [m, k] ∧
      mat Y m k * ((mat K q k)ᵀ * mat K q k) = mat B m q * mat K q k := by
  obtain ⟨Y, -, s, hY⟩ := rightsolve_mat hE (shape_T hK) hB
  refine ⟨Y, s, ?_⟩
  have hn := LA.pinv_normal (hE K.T k q (shape_T hK)).svd (mat B m q)
  rw [← hY, mat_T hK, transpose_transpose, Matrix.sub_mul, sub_eq_zero, Matrix.mul_assoc] at hn
  exact hn

theorem mat_gram {K V : NDArray ℝ} {q k : ℕ} (hV : ∀ a < k, ∀ b < k,
    V.get [a, b] = ∑ p ∈ Finset.range q, K.get [p, a] * K.get [p, b]) :
    mat V k k = (mat K q k)ᵀ * mat K q k := by
  ext a b
  rw [mul_apply]
  simp only [transpose_apply, mat]
  rw [hV a a.2 b b.2, Finset.sum_range]

/-! ### updates -/

theorem norm_nat {m d : ℕ} (h : m < d) : normIdx (m : Int) d = some m := normIdx_natCast h

theorem alsRhs_eq {s : CPState} {R m : ℕ} (h : Factors s.dec.factorMatrices s.X.shape R)
    (h2 : 2 ≤ s.X.shape.length) (hm : m < s.X.shape.length) (h0 : s.X.shape.getD m 0 ≠ 0) :
    CP.alsRhs s m = .ok (mttkrpMat s.X s.dec.factorMatrices m R) := by
  have hl := h.length_eq
  rw [CP.alsRhs, mttkrp_eq h (by omega) (norm_nat (by omega)) h0 (fun _ => Or.inl (by simp)), bind_ok]
  rfl

/-- The state after the update of mode `m` to `F`. -/
def CPState.updated (s : CPState) (m : ℕ) (R : ℕ) (F : NDArray ℝ) : CPState :=
  { s with
    lastMode := some m
    cache := some (mttkrpMat s.X s.dec.factorMatrices m R)
    dec := { s.dec with factorMatrices := s.dec.factorMatrices.set m F } }

/-- What the update does in terms of the solver. -/
theorem updateFactor_eq {E : Ext} {o : CPOpts} {s : CPState} {m : ℕ} (h : Factors s.dec.factorMatrices s.X.shape o.rank)
    (h2 : 2 ≤ s.X.shape.length) (hm : m < s.X.shape.length) (h0 : s.X.shape.getD m 0 ≠ 0) :
    CP.updateFactor E o m s = (do
      let solve ← CP.getSolve E o s m
      let new ← solve (ofMat o.rank o.rank fun a b => gramProd (s.dec.factorMatrices.eraseIdx m) a b)
        (mttkrpMat s.X s.dec.factorMatrices m o.rank)
      let F' ← assignAll (s.dec.factorMatrices[m]'(by rw [h.length_eq]; exact hm)) new
      pure (s.updated m o.rank F')) := by
  have hl := h.length_eq
  rw [CP.updateFactor, alsLhs_eq h, bind_ok, alsRhs_eq h h2 hm h0, bind_ok,
    pyGet_ok (norm_nat (by omega : m < s.dec.factorMatrices.length))]
  rfl

theorem bind_eq_ok {β γ : Type} {a : Py β} {f : β → Py γ} {c : γ} :
    (a >>= f) = .ok c ↔ ∃ b, a = .ok b ∧ f b = .ok c := by
  cases a with
  | error e => simp [bind_error]
  | ok b => simp [bind_ok]

theorem pure_eq_ok {β : Type} {a b : β} : (pure a : Py β) = .ok b ↔ a = b := by
  simp [pure, Except.pure]

theorem updateFactor_inv {E : Ext} {o : CPOpts} {s s' : CPState} {m : ℕ}
    (h : Factors s.dec.factorMatrices s.X.shape o.rank)
    (h2 : 2 ≤ s.X.shape.length) (hm : m < s.X.shape.length) (h0 : s.X.shape.getD m 0 ≠ 0)
    (hu : CP.updateFactor E o m s = .ok s') :
    ∃ solve new F', CP.getSolve E o s m = .ok solve ∧
      solve (ofMat o.rank o.rank fun a b => gramProd (s.dec.factorMatrices.eraseIdx m) a b)
        (mttkrpMat s.X s.dec.factorMatrices m o.rank) = .ok new ∧
      assignAll (s.dec.factorMatrices[m]'(by rw [h.length_eq]; exact hm)) new = .ok F' ∧
      F'.shape = [s.X.shape.getD m 0, o.rank] ∧ s' = s.updated m o.rank F' := by
  rw [updateFactor_eq h h2 hm h0] at hu
  simp only [bind_eq_ok, pure_eq_ok] at hu
  obtain ⟨solve, h1, new, h2', F', h3, h4⟩ := hu
  refine ⟨solve, new, F', h1, h2', h3, ?_, h4.symm⟩
  rw [assignAll_shape h3, h.shape_get]

theorem updateFactor_ok {E : Ext} {o : CPOpts} {s : CPState} {m : ℕ} (h : Factors s.dec.factorMatrices s.X.shape o.rank)
    (h2 : 2 ≤ s.X.shape.length) (hm : m < s.X.shape.length) (h0 : s.X.shape.getD m 0 ≠ 0)
    {solve : NDArray ℝ → NDArray ℝ → Py (NDArray ℝ)} {new : NDArray ℝ} (h1 : CP.getSolve E o s m = .ok solve)
    (hs : solve (ofMat o.rank o.rank fun a b => gramProd (s.dec.factorMatrices.eraseIdx m) a b)
        (mttkrpMat s.X s.dec.factorMatrices m o.rank) = .ok new)
    (hn : new.shape = [s.X.shape.getD m 0, o.rank]) :
    CP.updateFactor E o m s = .ok (s.updated m o.rank new) := by
  rw [updateFactor_eq h h2 hm h0, h1, bind_ok, hs, bind_ok, assignAll_same, bind_ok]
  · rfl
  · rw [hn, h.shape_get]

/-- The MTTKRP matrix is the unfolding times the Khatri-Rao product. -/
theorem mat_mttkrp (X : NDArray ℝ) (fs : List (NDArray ℝ)) (k R : ℕ) :
    mat (mttkrpMat X fs k R) (X.shape.getD k 0) R
      = mat (unfoldMat X k) (X.shape.getD k 0) (X.shape.eraseIdx k).prod *
        mat (krMat (fs.eraseIdx k) (X.shape.eraseIdx k) R) (X.shape.eraseIdx k).prod R := by
  obtain ⟨C, e, s, hC⟩ := matmul_mat (A := unfoldMat X k) (shape_ofMat _ _ _)
    (B := krMat (fs.eraseIdx k) (X.shape.eraseIdx k) R) (shape_ofMat _ _ _)
  rw [unfold_matmul_krMat (M := unfoldMat X k) rfl] at e
  injection e with e
  rw [← hC, ← e]

end
end TK
