import Verif.Props.RowOrder
import Verif.Props.CMTFFit
import Verif.Props.CPFit

/-!
# C131: relations between samples carry over to their scores

Source: base.py:7-60, cp.py:354-402, base_decomposer.py.
-/

namespace TK
open NDArray Matrix

noncomputable section

/-- The combination `c` of the slices of `X` along mode `m` is zero. -/
def SlicesRelated (X : NDArray ℝ) (m : ℕ) (c : ℕ → ℝ) : Prop :=
  ∀ idx, Valid (X.shape.eraseIdx m) idx → ∑ i ∈ Finset.range (X.shape.getD m 0), c i * X.get (idx.insertIdx m i) = 0

/-- The combination `c` of the rows of the `n × q` matrix `F` is zero. -/
def RowsRelated (F : NDArray ℝ) (n q : ℕ) (c : ℕ → ℝ) : Prop :=
  ∀ r < q, ∑ i ∈ Finset.range n, c i * F.get [i, r] = 0

/-- The combination which says that samples `i` and `j` are equal. -/
def sameAs (i j : ℕ) (k : ℕ) : ℝ := (if k = i then 1 else 0) - if k = j then 1 else 0

theorem sum_sameAs {n i j : ℕ} (hi : i < n) (hj : j < n) (f : ℕ → ℝ) :
    ∑ k ∈ Finset.range n, sameAs i j k * f k = f i - f j := by
  simp only [sameAs, sub_mul, ite_mul, one_mul, zero_mul, Finset.sum_sub_distrib, Finset.sum_ite_eq', Finset.mem_range, hi, hj,
    if_true]

theorem rowsRelated_sameAs {F : NDArray ℝ} {n q i j : ℕ} (hi : i < n) (hj : j < n) :
    RowsRelated F n q (sameAs i j) ↔ ∀ r < q, F.get [i, r] = F.get [j, r] := by
  simp only [RowsRelated, sum_sameAs hi hj, sub_eq_zero]

/-- The relations which a non-negativity constraint respects: two samples are equal. -/
def Respected (nn : Bool) (n : ℕ) (c : ℕ → ℝ) : Prop :=
  nn = false ∨ ∃ i < n, ∃ j < n, c = sameAs i j

theorem swap_lt_iff {n i j : ℕ} (hi : i < n) (hj : j < n) (k : ℕ) : Equiv.swap i j k < n ↔ k < n := by
  rcases eq_or_ne k i with rfl | h1
  · simp [hi, hj]
  · rcases eq_or_ne k j with rfl | h2
    · simp [hi, hj]
    · rw [Equiv.swap_apply_of_ne_of_ne h1 h2]

theorem moved_swap {F : NDArray ℝ} {n q i j : ℕ} (h : ∀ r < q, F.get [i, r] = F.get [j, r]) :
    MatMoved (Equiv.swap i j) n q F F := by
  intro k _ r hr
  rcases eq_or_ne k i with rfl | h1
  · rw [Equiv.swap_apply_left]; exact (h r hr).symm
  · rcases eq_or_ne k j with rfl | h2
    · rw [Equiv.swap_apply_right]; exact h r hr
    · rw [Equiv.swap_apply_of_ne_of_ne h1 h2]

theorem rowsRelated_iff {F : NDArray ℝ} {n q : ℕ} {c : ℕ → ℝ} :
    RowsRelated F n q c ↔ (fun i : Fin n => c i) ᵥ* mat F n q = 0 := by
  constructor
  · intro h
    ext r
    have := h r r.2
    rw [Finset.sum_range] at this
    exact this
  · intro h r hr
    rw [Finset.sum_range]
    exact congrFun h ⟨r, hr⟩

theorem rightsolve_related {E : Ext} (hE : E.SVDOk) {A B F : NDArray ℝ} {r q n : ℕ} (hA : A.shape = [r, q])
    (hB : B.shape = [n, q]) {c : ℕ → ℝ} (h : RowsRelated B n q c) (e : rightsolve E A B = .ok F) : RowsRelated F n r c := by
  obtain ⟨F', e', -, m⟩ := rightsolve_mat hE hA hB
  obtain rfl : F' = F := Except.ok.inj (e'.symm.trans e)
  rw [rowsRelated_iff] at h ⊢
  rw [m, ← vecMul_vecMul, h, zero_vecMul]

/-- A reflection shows that the orthonormal solution keeps every relation. -/
theorem orthogonalSolve_related {E : Ext} (hE : E.SVDOk) {A B X : NDArray ℝ} {n r m : ℕ} (hA : A.shape = [n, r])
    (hB : B.shape = [n, m]) (hr : 0 < r) (hm : 0 < m) {v : Fin m → ℝ} (h : mat B n m *ᵥ v = 0)
    (e : orthogonalSolve E A B = .ok X) : mat X r m *ᵥ v = 0 := by
  by_cases h0 : v = 0
  · rw [h0, mulVec_zero]
  have hvv : v ⬝ᵥ v ≠ 0 := fun e => h0 (dotProduct_self_eq_zero.1 e)
  set Q : Matrix (Fin m) (Fin m) ℝ := 1 - (2 / (v ⬝ᵥ v)) • vecMulVec v v with hQ
  have hT : Qᵀ = Q := by
    rw [hQ, transpose_sub, transpose_one, transpose_smul, transpose_vecMulVec]
  have hQQ : Q * Qᵀ = 1 := by
    rw [hT, hQ]
    have : vecMulVec v v * vecMulVec v v = (v ⬝ᵥ v) • vecMulVec v v := by
      rw [vecMulVec_mul_vecMulVec]; ext i j; simp [vecMulVec_apply]; ring
    rw [Matrix.sub_mul, Matrix.one_mul, Matrix.mul_sub, Matrix.mul_one, Matrix.smul_mul, Matrix.mul_smul, this, smul_smul,
      smul_smul]
    ext i j
    simp only [Matrix.sub_apply, Matrix.smul_apply, vecMulVec_apply, smul_eq_mul]
    field_simp
    ring
  have hQmul : ∀ {a : ℕ} (M : Matrix (Fin a) (Fin m) ℝ), M * Q = M - (2 / (v ⬝ᵥ v)) • vecMulVec (M *ᵥ v) v := by
    intro a M
    rw [hQ, Matrix.mul_sub, Matrix.mul_one, Matrix.mul_smul, mul_vecMulVec]
  obtain ⟨X1, X2, e1, e2, s1, -, hX⟩ := orthogonalSolve_rotate hE hA hB hB hr hm hQQ (by rw [hQmul, h]; simp)
  obtain rfl : X1 = X2 := Except.ok.inj (e1.symm.trans e2)
  obtain rfl : X1 = X := Except.ok.inj (e1.symm.trans e)
  rw [hQmul] at hX
  have h2 : (2 / (v ⬝ᵥ v)) • vecMulVec (mat X1 r m *ᵥ v) v = 0 := sub_eq_self.1 hX.symm
  have h3 := (smul_eq_zero.1 h2).resolve_left (div_ne_zero two_ne_zero hvv)
  ext k
  have h4 := congrArg (fun M => (M *ᵥ v) k) h3
  simp only [vecMulVec_mulVec, zero_mulVec] at h4
  have h5 : (mat X1 r m *ᵥ v) k * (v ⬝ᵥ v) = 0 := by simpa using h4
  exact (mul_eq_zero.1 h5).resolve_right hvv

theorem orthogonalRightsolve_related {E : Ext} (hE : E.SVDOk) {A B F : NDArray ℝ} {r q n : ℕ} (hA : A.shape = [r, q])
    (hB : B.shape = [n, q]) (hr : 0 < r) (hn : 0 < n) {c : ℕ → ℝ} (h : RowsRelated B n q c)
    (e : orthogonalRightsolve E A B = .ok F) : RowsRelated F n r c := by
  rw [rowsRelated_iff] at h ⊢
  rw [orthogonalRightsolve, bind_eq_ok] at e
  obtain ⟨X, e1, e2⟩ := e
  obtain rfl : X.T = F := Except.ok.inj e2
  obtain ⟨-, -, -, -, X', -, -, -, -, e3, s1, -⟩ := orthogonalSolve_mat hE (shape_T hA) (shape_T hB) hr hn
  obtain rfl : X = X' := Except.ok.inj (e1.symm.trans e3)
  rw [mat_T s1, vecMul_transpose]
  refine orthogonalSolve_related hE (shape_T hA) (shape_T hB) hr hn ?_ e1
  rw [mat_T hB, mulVec_transpose, h]

theorem baseSolve_related {E : Ext} (hE : E.SVDOk) {nn on : Bool} {A B F : NDArray ℝ} {r q n : ℕ} (hA : A.shape = [r, q])
    (hB : B.shape = [n, q]) (hr : 0 < r) (hn : 0 < n) {c : ℕ → ℝ} (hc : Respected nn n c) (h : RowsRelated B n q c)
    (e : baseSolve E nn on A B = .ok F) : RowsRelated F n r c := by
  rcases hc with rfl | ⟨i, hi, j, hj, rfl⟩
  · unfold baseSolve at e
    split at e
    · exact orthogonalRightsolve_related hE hA hB hr hn h e
    · exact rightsolve_related hE hA hB h (by simpa using e)
  · rw [rowsRelated_sameAs hi hj] at h ⊢
    obtain ⟨F1, F2, e1, e2, -, -, hm⟩ := baseSolve_moved hE nn on hA hB hB hr hn (swap_lt_iff hi hj) (moved_swap (n := n) h)
    obtain rfl : F1 = F := Except.ok.inj (e1.symm.trans e)
    obtain rfl : F1 = F2 := Except.ok.inj (e1.symm.trans e2)
    intro k hk
    have := hm j hj k hk
    rwa [Equiv.swap_apply_right] at this

/-- **C131**, the solvers: a relation between the rows of the right hand side holds between the rows of the solution. -/
theorem C131_solver {E : Ext} (hE : E.SVDOk) {nn on : Bool} {ridge : Option ℝ} {A B F : NDArray ℝ} {r q n : ℕ}
    (hA : A.shape = [r, q]) (hB : B.shape = [n, q]) (hr : 0 < r) (hn : 0 < n) {c : ℕ → ℝ} (hc : Respected nn n c)
    (h : RowsRelated B n q c) (e : withRidge ridge (baseSolve E nn on) A B = .ok F) : RowsRelated F n r c := by
  cases ridge with
  | none => exact baseSolve_related hE hA hB hr hn hc h e
  | some l =>
    simp only [withRidge] at e
    rw [ridge_reduce hA hB] at e
    refine baseSolve_related hE (shape_ofMat _ _ _) (shape_ofMat _ _ _) hr hn hc (fun j hj => ?_) e
    by_cases hjq : j < q
    · rw [← h j hjq]
      refine Finset.sum_congr rfl fun i hi => ?_
      rw [get_ofMat (Finset.mem_range.1 hi) hj, if_pos hjq]
    · refine Finset.sum_eq_zero fun i hi => ?_
      rw [get_ofMat (Finset.mem_range.1 hi) hj, if_neg hjq, get_full (by simp [Valid, Finset.mem_range.1 hi]; omega), mul_zero]

theorem SlicesRelated.mttkrp {X : NDArray ℝ} {m : ℕ} {c : ℕ → ℝ} (h : SlicesRelated X m c) (fs : List (NDArray ℝ)) (R : ℕ) :
    RowsRelated (mttkrpMat X fs m R) (X.shape.getD m 0) R c := by
  intro r hr
  have e : ∀ i ∈ Finset.range (X.shape.getD m 0), c i * (mttkrpMat X fs m R).get [i, r] =
      sumIdx (X.shape.eraseIdx m) fun idx => c i * X.get (idx.insertIdx m i) * rankOne (fs.eraseIdx m) idx r := by
    intro i hi
    rw [mttkrpMat, get_ofMat (Finset.mem_range.1 hi) hr, mttkrpEntry, mul_sumIdx]
    exact sumIdx_congr fun idx _ => by ring
  rw [Finset.sum_congr rfl e, ← sumIdx_sum]
  refine (sumIdx_congr fun idx hv => ?_).trans (sumIdx_zero _)
  rw [← Finset.sum_mul, h idx hv, zero_mul]

/-- **C131**, one update, whatever the constraint and the penalty of the mode. -/
theorem C131_update {E : Ext} (hE : E.SVDOk) {o : CPOpts} (hr : 0 < o.rank) {s s' : CPState} (h : s.Sized o.rank)
    {m : ℕ} (hm : m < s.X.shape.length) {nn on : Bool} {ridge : Option ℝ} (hc : s.ModeConfig o m nn on ridge)
    (hb : ¬ (nn = true ∧ on = true)) {c : ℕ → ℝ} (hcr : Respected nn (s.X.shape.getD m 0) c)
    (hs : SlicesRelated s.X m c) (hu : CP.updateFactor E o m s = .ok s') :
    ∃ F, s'.dec.factorMatrices[m]? = some F ∧ RowsRelated F (s.X.shape.getD m 0) o.rank c := by
  obtain ⟨solve, new, F', h1, h3, h4, hF, rfl⟩ := updateFactor_inv h.wf.factors h.order hm (h.dim hm) hu
  rw [getSolve_ok hc hb] at h1
  obtain rfl := Except.ok.inj h1
  have hm' : m < s.dec.factorMatrices.length := by rw [h.wf.factors.length_eq]; exact hm
  have hn := Nat.pos_of_ne_zero (h.dim hm)
  have hs' : new.shape = [s.X.shape.getD m 0, o.rank] := by
    obtain ⟨G, -, e, -, sG, -⟩ := withRidge_moved hE nn on ridge (shape_ofMat _ _ _) (shape_ofMat _ _ _) (shape_ofMat _ _ _)
      hr hn (σ := Equiv.refl ℕ) (by simp) (fun i hi j hj => rfl)
    obtain rfl : G = new := Except.ok.inj (e.symm.trans h3)
    exact sG
  rw [assignAll_same (by rw [hs', h.wf.factors.shape_get hm'])] at h4
  obtain rfl : new = F' := by injection h4
  exact ⟨new, by simp [CPState.updated, hm'],
    C131_solver hE (shape_ofMat _ _ _) (shape_ofMat _ _ _) hr hn hcr (hs.mttkrp _ _) h3⟩

/-- The rows of factor matrix `m` of `s` are related by `c`. -/
def CPState.Related (s : CPState) (m R : ℕ) (c : ℕ → ℝ) : Prop :=
  ∃ F, s.dec.factorMatrices[m]? = some F ∧ RowsRelated F (s.X.shape.getD m 0) R c

theorem related_updates {E : Ext} (hE : E.SVDOk) {o : CPOpts} (hr : 0 < o.rank) {modes : List ℕ} {s s' : CPState} {m : ℕ}
    {nn on : Bool} {ridge : Option ℝ} (hb : ¬ (nn = true ∧ on = true)) {c : ℕ → ℝ} (h : s.Sized o.rank)
    (hm : m < s.X.shape.length) (hc : s.ModeConfig o m nn on ridge) (hcr : Respected nn (s.X.shape.getD m 0) c)
    (hs : SlicesRelated s.X m c) (hmodes : ∀ k ∈ modes, k < s.X.shape.length)
    (hstart : m ∈ modes ∨ s.Related m o.rank c) (hu : CP.updateModes E o modes s = .ok s') :
    s'.Related m o.rank c ∧ s'.ModeConfig o m nn on ridge ∧ s'.Sized o.rank ∧ s'.X = s.X := by
  induction modes generalizing s with
  | nil =>
    obtain rfl : s = s' := by simpa [CP.updateModes, pure, Except.pure] using hu
    rcases hstart with h1 | h1
    · simp at h1
    · exact ⟨h1, hc, h, rfl⟩
  | cons k ks ih =>
    rw [CP.updateModes, List.foldlM_cons, bind_eq_ok] at hu
    obtain ⟨s1, h1, h2⟩ := hu
    have hk := hmodes k (by simp)
    obtain ⟨_, _, F', -, -, -, hF, e⟩ := updateFactor_inv h.wf.factors h.order hk (h.dim hk) h1
    have hX : s1.X = s.X := by rw [e]; rfl
    have hS1 : s1.Sized o.rank := by rw [e]; exact h.updated hF
    have hc1 : s1.ModeConfig o m nn on ridge := by rw [e]; exact ⟨hc.nonNeg, hc.orth, hc.ridge⟩
    have hst : m ∈ ks ∨ s1.Related m o.rank c := by
      by_cases hkm : k = m
      · subst hkm
        right
        rw [CPState.Related, hX]
        exact C131_update hE hr h hk hc hb hcr hs h1
      · rcases hstart with h3 | ⟨F, hF1, hF2⟩
        · left; simpa [Ne.symm hkm] using h3
        · right
          rw [CPState.Related, hX]
          refine ⟨F, ?_, hF2⟩
          rw [e, ← hF1]
          simp [CPState.updated, List.getElem?_set, hkm]
    obtain ⟨r1, r2, r3, r4⟩ := ih hS1 (by rw [hX]; exact hm) hc1 (by rw [hX]; exact hcr) (by rw [hX]; exact hs)
      (fun j hj => by rw [hX]; exact hmodes j (by simp [hj])) hst h2
    exact ⟨r1, r2, r3, r4.trans hX⟩

/-- **C131**: after one or more iterations. -/
theorem C131_iterate {E : Ext} (hE : E.SVDOk) {o : CPOpts} (hr : 0 < o.rank) {m : ℕ} {nn on : Bool} {ridge : Option ℝ}
    (hb : ¬ (nn = true ∧ on = true)) {c : ℕ → ℝ} : ∀ (n : ℕ) {s s' : CPState}, s.Sized o.rank → m < s.X.shape.length →
      s.ModeConfig o m nn on ridge → Respected nn (s.X.shape.getD m 0) c → SlicesRelated s.X m c →
      (1 ≤ n ∨ s.Related m o.rank c) → CP.iterate E o n s = .ok s' → s'.Related m o.rank c
  | 0, s, s', _, _, _, _, _, hst, hu => by
    obtain rfl : s = s' := by simpa [CP.iterate] using hu
    exact hst.resolve_left (by omega)
  | n + 1, s, s', h, hm, hc, hcr, hs, _, hu => by
    rw [CP.iterate, bind_eq_ok] at hu
    obtain ⟨s1, h1, h2⟩ := hu
    obtain ⟨s2, e, h3, -, rfl⟩ := iteration_inv h1
    obtain ⟨r1, r2, r3, hX⟩ := related_updates hE hr hb h hm hc hcr hs (by simp) (Or.inl (by simpa using hm)) h3
    exact C131_iterate hE hr hb n (s := s2.withSSE e) (r3.withSSE e) (by simp only [CPState.withSSE]; rw [hX]; exact hm)
      ⟨r2.nonNeg, r2.orth, r2.ridge⟩ (by simp only [CPState.withSSE]; rw [hX]; exact hcr)
      (by simp only [CPState.withSSE]; rw [hX]; exact hs) (Or.inr r1) h2

/-- The same without the loss. -/
theorem related_iterM {E : Ext} (hE : E.SVDOk) {o : CPOpts} (hr : 0 < o.rank) {m : ℕ} {nn on : Bool} {ridge : Option ℝ}
    (hb : ¬ (nn = true ∧ on = true)) {c : ℕ → ℝ} : ∀ (n : ℕ) {s s' : CPState}, s.Sized o.rank → m < s.X.shape.length →
      s.ModeConfig o m nn on ridge → Respected nn (s.X.shape.getD m 0) c → SlicesRelated s.X m c →
      (1 ≤ n ∨ s.Related m o.rank c) → iterM (CP.updateFactors E o) n s = .ok s' → s'.Related m o.rank c
  | 0, s, s', _, _, _, _, _, hst, hu => by
    obtain rfl : s = s' := by rw [iterM] at hu; injection hu
    exact hst.resolve_left (by omega)
  | n + 1, s, s', h, hm, hc, hcr, hs, _, hu => by
    rw [iterM, bind_eq_ok] at hu
    obtain ⟨s1, h1, h2⟩ := hu
    rw [CP.updateFactors] at h1
    obtain ⟨r1, r2, r3, hX⟩ := related_updates hE hr hb h hm hc hcr hs (by simp) (Or.inl (by simpa using hm)) h1
    exact related_iterM hE hr hb n r3 (by rw [hX]; exact hm) r2 (by rw [hX]; exact hcr) (by rw [hX]; exact hs) (Or.inr r1) h2

/-! ### Fits -/

theorem flagOf_eq {l : Option (List Bool)} {n m : ℕ} {b : Bool} (h : (l.getD (List.replicate n false))[m]? = some b) :
    flagOf l m = b := by
  cases l with
  | none =>
    have := (List.getElem?_eq_some_iff.1 h).2
    simpa [flagOf] using this
  | some l =>
    simp only [Option.getD_some] at h
    simp [flagOf, h]

/-- **C131**, `CP_ALS`: if the combination `c` of the slices of the data along mode `m` is zero, then after a fit with one or
more iterations the combination `c` of the rows of factor matrix `m` is zero, whatever the start, the constraints and the
penalties; only in a mode with a non-negativity constraint `c` has to say that two slices are equal. -/
theorem C131_cp_fit {E : Ext} (hE : E.SVDOk) (hN : E.NNLSOk) (hQ : E.QROk) {c : CP.Config}
    {nonNeg orth : Option (List Bool)} {X : NDArray ℝ} (hA : CP.Admissible c.opts nonNeg orth X.shape)
    (hlog : c.Measurable) (hfreq : freqOption c.freq ≠ 0) {arg : InitArg KruskalTensor} {t : KruskalTensor}
    (hi : CP.StartsFrom E c nonNeg orth arg X t)
    (ht : t.WF X.shape c.opts.rank) {budget : Int} {mi : Option Int} (hb : 0 < mi.getD budget)
    {loggers : List Logger} {file : Option H5File}
    (hS : Storing (CP.method E c) (CP.newObject nonNeg orth budget loggers file) [])
    {m : ℕ} (hm : m < X.shape.length) {v : ℕ → ℝ} (hv : SlicesRelated X m v)
    (hr : Respected (flagOf nonNeg m) (X.shape.getD m 0) v) :
    ∃ w', CP.fit E c X mi arg (CP.newObject nonNeg orth budget loggers file) = .ok () w' ∧
      (0 < w'.it → ∃ F, w'.st.dec.factorMatrices[m]? = some F ∧ RowsRelated F (X.shape.getD m 0) c.opts.rank v) := by
  obtain ⟨s0, w', k, e0, e1, -, hk, hit, -, -, -, -, hX', -⟩ :=
    C74_fit_completes hE hN hQ hA hlog hfreq hi ht hb hS
  refine ⟨w', e1, fun hpos => ?_⟩
  obtain ⟨s, e, hG, hX, -, -, -, hnn, -⟩ := initFit_good (E := E) hQ (old := CP.fresh nonNeg orth) rfl hA ht
  obtain rfl : s = s0 := Except.ok.inj (e.symm.trans e0)
  obtain ⟨nn, on, ridge, hc, hbo⟩ := hG.config m (by rw [hX]; exact hm)
  obtain ⟨l, hl, hlm⟩ := hc.nonNeg
  rw [hnn] at hl
  obtain rfl := Option.some.inj hl
  have hf : flagOf nonNeg m = nn := flagOf_eq hlm
  rw [hf] at hr
  obtain ⟨F, h1, h2⟩ := C131_iterate hE hA.rank hbo k hG.sized (by rw [hX]; exact hm) hc (by rw [hX]; exact hr)
    (by rw [hX]; exact hv) (Or.inl (by omega)) hit
  rw [hX'] at h2
  exact ⟨F, h1, h2⟩

/-- **C131**, equal samples get equal scores, for every constraint. -/
theorem C131_equal_samples {E : Ext} (hE : E.SVDOk) (hN : E.NNLSOk) (hQ : E.QROk) {c : CP.Config}
    {nonNeg orth : Option (List Bool)} {X : NDArray ℝ} (hA : CP.Admissible c.opts nonNeg orth X.shape)
    (hlog : c.Measurable) (hfreq : freqOption c.freq ≠ 0) {arg : InitArg KruskalTensor} {t : KruskalTensor}
    (hi : CP.StartsFrom E c nonNeg orth arg X t)
    (ht : t.WF X.shape c.opts.rank) {budget : Int} {mi : Option Int} (hb : 0 < mi.getD budget)
    {loggers : List Logger} {file : Option H5File}
    (hS : Storing (CP.method E c) (CP.newObject nonNeg orth budget loggers file) [])
    {m : ℕ} (hm : m < X.shape.length) {i j : ℕ} (hi' : i < X.shape.getD m 0) (hj : j < X.shape.getD m 0)
    (hv : ∀ idx, Valid (X.shape.eraseIdx m) idx → X.get (idx.insertIdx m i) = X.get (idx.insertIdx m j)) :
    ∃ w', CP.fit E c X mi arg (CP.newObject nonNeg orth budget loggers file) = .ok () w' ∧
      (0 < w'.it → ∃ F, w'.st.dec.factorMatrices[m]? = some F ∧ ∀ r < c.opts.rank, F.get [i, r] = F.get [j, r]) := by
  obtain ⟨w', e, h⟩ := C131_cp_fit hE hN hQ hA hlog hfreq hi ht hb hS hm (v := sameAs i j)
    (fun idx hx => by rw [sum_sameAs hi' hj (fun k => X.get (idx.insertIdx m k)), hv idx hx, sub_self])
    (Or.inr ⟨i, hi', j, hj, rfl⟩)
  refine ⟨w', e, fun hpos => ?_⟩
  obtain ⟨F, h1, h2⟩ := h hpos
  exact ⟨F, h1, (rowsRelated_sameAs hi' hj).1 h2⟩

/-- **C131**, a sample without any signal gets the score zero in a mode without a non-negativity constraint. -/
theorem C131_zero_sample {E : Ext} (hE : E.SVDOk) (hN : E.NNLSOk) (hQ : E.QROk) {c : CP.Config}
    {nonNeg orth : Option (List Bool)} {X : NDArray ℝ} (hA : CP.Admissible c.opts nonNeg orth X.shape)
    (hlog : c.Measurable) (hfreq : freqOption c.freq ≠ 0) {arg : InitArg KruskalTensor} {t : KruskalTensor}
    (hi : CP.StartsFrom E c nonNeg orth arg X t)
    (ht : t.WF X.shape c.opts.rank) {budget : Int} {mi : Option Int} (hb : 0 < mi.getD budget)
    {loggers : List Logger} {file : Option H5File}
    (hS : Storing (CP.method E c) (CP.newObject nonNeg orth budget loggers file) [])
    {m : ℕ} (hm : m < X.shape.length) (hnn : flagOf nonNeg m = false) {i : ℕ} (hi' : i < X.shape.getD m 0)
    (hv : ∀ idx, Valid (X.shape.eraseIdx m) idx → X.get (idx.insertIdx m i) = 0) :
    ∃ w', CP.fit E c X mi arg (CP.newObject nonNeg orth budget loggers file) = .ok () w' ∧
      (0 < w'.it → ∃ F, w'.st.dec.factorMatrices[m]? = some F ∧ ∀ r < c.opts.rank, F.get [i, r] = 0) := by
  have hsum : ∀ f : ℕ → ℝ, ∑ k ∈ Finset.range (X.shape.getD m 0), (if k = i then (1 : ℝ) else 0) * f k = f i := by
    intro f
    simp only [ite_mul, one_mul, zero_mul, Finset.sum_ite_eq', Finset.mem_range, hi', if_true]
  obtain ⟨w', e, h⟩ := C131_cp_fit hE hN hQ hA hlog hfreq hi ht hb hS hm (v := fun k => if k = i then 1 else 0)
    (fun idx hx => by rw [hsum fun k => X.get (idx.insertIdx m k)]; exact hv idx hx) (Or.inl hnn)
  refine ⟨w', e, fun hpos => ?_⟩
  obtain ⟨F, h1, h2⟩ := h hpos
  refine ⟨F, h1, fun r hr => ?_⟩
  have := h2 r hr
  rwa [hsum fun k => F.get [k, r]] at this

/-- Rows `(1, 2)`, `(3, 1)` and their sum. -/
def sumRows : NDArray ℝ := ofMat 3 2 fun i j =>
  (if i = 1 then 0 else if j = 0 then 1 else 2) + if i = 0 then 0 else if j = 0 then 3 else 1

theorem sumRows_related : SlicesRelated sumRows 0 fun k => if k = 2 then -1 else 1 := by
  intro idx hv
  have hv : Valid [2] idx := hv
  match idx, hv with
  | [j], hv =>
    have hj : j < 2 := hv.1
    show ∑ i ∈ Finset.range 3, _ * sumRows.get [i, j] = 0
    simp only [Finset.sum_range_succ, Finset.sum_range_zero, sumRows]
    rw [get_ofMat (by omega) hj, get_ofMat (by omega) hj, get_ofMat (by omega) hj]
    interval_cases j <;> norm_num

/-- The third row of the fitted factor matrix is the sum of the other two. -/
example {E : Ext} (hE : E.SVDOk) (hN : E.NNLSOk) (hQ : E.QROk) :
    ∃ w', CP.fit E ⟨⟨2, 1e-8, 1e-8, some [3, 0]⟩, "precomputed", none, false, [], fun _ _ _ _ => 0, id, fun _ => none⟩ sumRows
        (some 10) (.tensor ⟨2, [full [3, 2] 1, full [2, 2] 1], full [2] 1⟩) (CP.newObject none (some [true, false]) 1000 [] none) =
        .ok () w' ∧
      (0 < w'.it → ∃ F, w'.st.dec.factorMatrices[0]? = some F ∧ ∀ r < 2, F.get [2, r] = F.get [0, r] + F.get [1, r]) := by
  have hA : CP.Admissible ⟨2, 1e-8, 1e-8, some [3, 0]⟩ none (some [true, false]) sumRows.shape := by
    refine ⟨by simp, by simp [sumRows], by simp [sumRows], by simp, by simp [sumRows], by simp [sumRows], ?_, by simp⟩
    intro l hl k hk
    obtain rfl := Option.some.inj hl
    match k with
    | 0 => simp [sumRows]
    | 1 => simp at hk
    | k + 2 => simp at hk
  have ht : KruskalTensor.WF ⟨2, [full [3, 2] 1, full [2, 2] 1], full [2] 1⟩ sumRows.shape 2 :=
    ⟨rfl, .cons rfl (.cons rfl .nil), rfl⟩
  obtain ⟨w', e, h⟩ := C131_cp_fit hE hN hQ
    (c := ⟨⟨2, 1e-8, 1e-8, some [3, 0]⟩, "precomputed", none, false, [], fun _ _ _ _ => 0, id, fun _ => none⟩)
    (nonNeg := none) (orth := some [true, false]) hA (by intro p hp; simp at hp) (by decide)
    (startsFrom_precomputed (by
      show "precomputed".toLower = _
      rw [String.toLower, ← String.toList_inj, String.toList_map]; decide) ht) ht (budget := 1000) (mi := some 10) (by simp) (loggers := []) (file := none)
    ⟨fun h => absurd h (show ¬ (0 : Int) < -1 by decide), fun h => absurd h (show ¬ (0 : Int) < -1 by decide),
      fun h => absurd h (show ¬ (0 : Int) < -1 by decide)⟩ (m := 0) (by simp [sumRows]) sumRows_related (Or.inl rfl)
  refine ⟨w', e, fun hpos => ?_⟩
  obtain ⟨F, h1, h2⟩ := h hpos
  refine ⟨F, h1, fun r hr => ?_⟩
  have h3 : ∑ i ∈ Finset.range 3, (if i = 2 then (-1 : ℝ) else 1) * F.get [i, r] = 0 := h2 r hr
  simp only [Finset.sum_range_succ, Finset.sum_range_zero] at h3
  norm_num at h3
  linarith

end

end TK
