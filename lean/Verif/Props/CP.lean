import Verif.Lemmas.CP
import Verif.Props.Solvers

/-!
# Properties of `CP_ALS`: C06, C34-C36, C40

`sqErr X w fs R` is the sum of squared differences between `X` and `Σ_r w_r U_1[:, r] ∘ … ∘ U_d[:, r]`.
-/

namespace TK
open NDArray Matrix

noncomputable section

/-! ### C06 -/

/-- C06: the left-hand side of the ALS problem is `KᵀK` for `K = khatri_rao(factors, skip=mode)`. -/
theorem C06_gram {fs : List (NDArray ℝ)} {sizes : List ℕ} {R k : ℕ} (h : Factors fs sizes R)
    (h2 : 2 ≤ sizes.length) (hk : k < sizes.length) :
    ∃ K V, khatriRao fs (some (k : Int)) = .ok K ∧ CP.alsLhs R k fs = .ok V ∧ matmul K.T K = .ok V := by
  have hl := h.length_eq
  have hE := h.eraseIdx k
  refine ⟨krMat (fs.eraseIdx k) (sizes.eraseIdx k) R, ofMat R R fun a b => gramProd (fs.eraseIdx k) a b,
    khatriRao_skip h (norm_nat (by omega)) (by omega), alsLhs_eq h k, ?_⟩
  rw [matmul_ok (k := (sizes.eraseIdx k).prod) (shape_T (A := krMat _ _ _) (shape_ofMat _ _ _))
    (B := krMat _ _ _) (shape_ofMat _ _ _)]
  refine congrArg Except.ok (ofMat_congr fun a ha b hb => ?_)
  rw [← krMat_gram hE ha hb]
  refine Finset.sum_congr rfl fun p hp => ?_
  rw [get_T (A := krMat _ _ _) (shape_ofMat _ _ _) ha (by simpa using hp)]

example : Factors [full [2, 3] (1 : ℝ), full [4, 3] 2, full [1, 3] 5] [2, 4, 1] 3 ∧ 2 ≤ [2, 4, 1].length ∧
    1 < [2, 4, 1].length := ⟨by simp [Factors], by simp, by simp⟩

/-! ### the invariant of a fit -/

/-- The decomposition fits the data tensor: at least two modes, none of them empty, one factor matrix with
`R` columns per mode. -/
structure CPState.Sized (s : CPState) (R : ℕ) : Prop where
  wf : s.dec.WF s.X.shape R
  order : 2 ≤ s.X.shape.length
  nonempty : ∀ n ∈ s.X.shape, n ≠ 0

/-- The cached quantities describe the current decomposition: `X_norm` is the norm of `X`, and the cached
matrix is the product of the unfolded tensor with the Khatri-Rao product of the *other* factor matrices. -/
structure CPState.Cached (s : CPState) (R : ℕ) : Prop where
  norm : s.XNorm = Real.sqrt (sumIdx s.X.shape fun idx => s.X.get idx ^ 2)
  cache : ∀ m, s.lastMode = some m → m < s.X.shape.length ∧ ∃ c, s.cache = some c ∧
    c.shape = [s.X.shape.getD m 0, R] ∧ ∀ i < s.X.shape.getD m 0, ∀ r < R,
      c.get [i, r] = mttkrpEntry s.X s.dec.factorMatrices m i r

/-- The true sum of squared errors of a state. -/
def CPState.trueSSE (s : CPState) (R : ℕ) : ℝ :=
  sqErr s.X (fun r => s.dec.weights.get [r]) s.dec.factorMatrices R

theorem CPState.Sized.dim {s : CPState} {R m : ℕ} (h : s.Sized R) (hm : m < s.X.shape.length) :
    s.X.shape.getD m 0 ≠ 0 := by
  have e : s.X.shape.getD m 0 = s.X.shape[m] := by simp [List.getD, hm]
  rw [e]
  exact h.nonempty _ (List.getElem_mem hm)

theorem CPState.Sized.updated {s : CPState} {R m : ℕ} {F : NDArray ℝ} (h : s.Sized R)
    (hF : F.shape = [s.X.shape.getD m 0, R]) : (s.updated m R F).Sized R :=
  ⟨⟨h.wf.rank, factors_set h.wf.factors hF, h.wf.weights⟩, h.order, h.nonempty⟩

theorem CPState.Cached.updated {s : CPState} {R m : ℕ} {F : NDArray ℝ} (h : s.Cached R)
    (hm : m < s.X.shape.length) : (s.updated m R F).Cached R := by
  refine ⟨h.norm, fun m' hm' => ?_⟩
  have e : m' = m := by simpa [CPState.updated, eq_comm] using hm'
  subst e
  refine ⟨hm, mttkrpMat s.X s.dec.factorMatrices m' R, rfl, rfl, fun i hi r hr => ?_⟩
  rw [mttkrpMat, get_ofMat (m := s.X.shape.getD m' 0) hi hr]
  simp only [mttkrpEntry, CPState.updated]
  rw [eraseIdx_set_self]

/-! ### C35 -/

theorem sq_expand {X : NDArray ℝ} (g : List ℕ → ℝ) :
    (sumIdx X.shape fun idx => (X.get idx - g idx) ^ 2)
      = (sumIdx X.shape fun idx => X.get idx ^ 2) + (sumIdx X.shape fun idx => g idx ^ 2)
        - 2 * sumIdx X.shape fun idx => X.get idx * g idx := by
  rw [mul_sumIdx, ← sumIdx_add, ← sumIdx_sub]
  exact sumIdx_congr fun idx _ => by ring

theorem zipB_sub_shape {A B : NDArray ℝ} (op : ℝ → ℝ → ℝ) (h : A.shape = B.shape) :
    ∃ D, zipB op A B = .ok D ∧ D.shape = A.shape ∧ ∀ idx, Valid A.shape idx → D.get idx = op (A.get idx) (B.get idx) := by
  refine ⟨_, zipB_same op h, rfl, fun idx hidx => ?_⟩
  rw [get_ofFn hidx, bidx_self hidx]

theorem innerProd_eq {s : CPState} {R m : ℕ} (h : s.Sized R) (hc : s.Cached R) (hl : s.lastMode = some m) :
    CP.innerProd s m = .ok (sumIdx s.X.shape fun idx =>
      s.X.get idx * cpEntry (fun r => s.dec.weights.get [r]) s.dec.factorMatrices R idx) := by
  obtain ⟨hm, c, hcc, hcs, hcg⟩ := hc.cache m hl
  have hf := h.wf.factors
  have hlen := hf.length_eq
  have hm' : m < s.dec.factorMatrices.length := by omega
  rw [CP.innerProd, pyGet_ok (norm_nat hm'), bind_ok, hcc]
  simp only
  rw [zipB_mat_mat _ (hf.shape_get hm') hcs, bind_ok]
  have hcol : (colSums (ofMat (s.X.shape.getD m 0) R fun i j =>
      (s.dec.factorMatrices[m]).get [i, j] * c.get [i, j])).shape = [R] := by simp [colSums]
  obtain ⟨D, e, hD, hDg⟩ := zipB_sub_shape (· * ·) (h.wf.weights.trans hcol.symm)
  rw [e, bind_ok]
  refine congrArg Except.ok ?_
  have e1 := sum_data D id
  rw [List.map_id, hD, h.wf.weights] at e1
  simp only [id, sumIdx_cons, sumIdx_nil] at e1
  rw [e1, sumIdx_split hm]
  have e2 : ∀ r ∈ Finset.range R, D.get [r] = ∑ i ∈ Finset.range (s.X.shape.getD m 0),
      sumIdx (s.X.shape.eraseIdx m) fun is => s.X.get (is.insertIdx m i) *
        (s.dec.weights.get [r] * ((s.dec.factorMatrices[m]).get [i, r]
          * rankOne (s.dec.factorMatrices.eraseIdx m) is r)) := by
    intro r hr
    have hr : r < R := by simpa using hr
    rw [hDg _ (by simp [h.wf.weights, hr]), colSums, get_ofFn (by simp [hr])]
    simp only [shape_ofMat, List.getD_cons_zero]
    rw [Finset.mul_sum]
    refine Finset.sum_congr rfl fun i hi => ?_
    have hi : i < s.X.shape.getD m 0 := by simpa using hi
    rw [get_ofMat hi hr, hcg i hi r hr, mttkrpEntry, mul_sumIdx, mul_sumIdx]
    exact sumIdx_congr fun idx _ => by ring
  rw [Finset.sum_congr rfl e2, Finset.sum_comm]
  refine Finset.sum_congr rfl fun i hi => ?_
  rw [← sumIdx_sum]
  refine sumIdx_congr fun idx hidx => ?_
  have hl : idx.length + 1 = s.dec.factorMatrices.length := by
    rw [hidx.length_eq, List.length_eraseIdx_of_lt hm]; omega
  rw [cpEntry_insertIdx _ hm' hl, Finset.mul_sum]

/-- C35: in every state whose cached quantities are consistent, `SSE` is the true sum of squared errors. -/
theorem C35_sse {s : CPState} {R : ℕ} (h : s.Sized R) (hc : s.Cached R) : CP.sse s = .ok (s.trueSSE R) := by
  rw [CP.sse]
  cases hl : s.lastMode with
  | none =>
    simp only
    rw [constructTensor_eq h.wf h.order, bind_ok]
    obtain ⟨D, e, hD, hDg⟩ := zipB_sub_shape (A := s.X)
      (B := ofFn s.X.shape (cpEntry (fun r => s.dec.weights.get [r]) s.dec.factorMatrices R)) (· - ·) rfl
    rw [e, bind_ok]
    refine congrArg Except.ok ?_
    rw [frobNorm_sq, hD, CPState.trueSSE, sqErr]
    exact sumIdx_congr fun idx hidx => by rw [hDg idx hidx, get_ofFn hidx]
  | some m =>
    simp only
    rw [constructTensor_eq h.wf h.order, bind_ok, innerProd_eq h hc hl, bind_ok]
    refine congrArg Except.ok ?_
    rw [CPState.trueSSE, sqErr, sq_expand, hc.norm, Real.sq_sqrt (sumIdx_nonneg fun _ _ => sq_nonneg _),
      frobNorm_sq]
    congr 2
    exact sumIdx_congr fun idx hidx => by rw [get_ofFn (s := s.X.shape) hidx]

/-- C35: every update that succeeds - with any of the solvers, constraints and penalties - keeps the cached
quantities consistent. -/
theorem C35_update {E : Ext} {o : CPOpts} {s s' : CPState} {m : ℕ} (h : s.Sized o.rank) (hc : s.Cached o.rank)
    (hm : m < s.X.shape.length) (hu : CP.updateFactor E o m s = .ok s') : s'.Sized o.rank ∧ s'.Cached o.rank := by
  obtain ⟨solve, new, F', -, -, -, hF, rfl⟩ := updateFactor_inv h.wf.factors h.order hm (h.dim hm) hu
  exact ⟨h.updated hF, hc.updated hm⟩

theorem C35_updateModes {E : Ext} {o : CPOpts} {modes : List ℕ} {s s' : CPState} (h : s.Sized o.rank)
    (hc : s.Cached o.rank) (hm : ∀ m ∈ modes, m < s.X.shape.length)
    (hu : CP.updateModes E o modes s = .ok s') : s'.Sized o.rank ∧ s'.Cached o.rank ∧ s'.X = s.X := by
  induction modes generalizing s with
  | nil =>
    obtain rfl : s = s' := by simpa [CP.updateModes, pure, Except.pure] using hu
    exact ⟨h, hc, rfl⟩
  | cons m ms ih =>
    rw [CP.updateModes, List.foldlM_cons, bind_eq_ok] at hu
    obtain ⟨s1, h1, h2⟩ := hu
    have hX : s1.X = s.X := by
      obtain ⟨_, _, _, -, -, -, -, rfl⟩ :=
        updateFactor_inv h.wf.factors h.order (hm m (by simp)) (h.dim (hm m (by simp))) h1
      rfl
    obtain ⟨ha, hb⟩ := C35_update h hc (hm m (by simp)) h1
    obtain ⟨r1, r2, r3⟩ := ih ha hb (fun m' hm' => by rw [hX]; exact hm m' (by simp [hm'])) h2
    exact ⟨r1, r2, r3.trans hX⟩

/-- `n` iterations of the fit (without the stopping test). -/
def CP.iterate (E : Ext) (o : CPOpts) : ℕ → CPState → Py CPState
  | 0, s => .ok s
  | n + 1, s => do
    let s ← CP.iteration E o s
    CP.iterate E o n s

/-- The state after `_update_convergence` with the error `e`. -/
def CPState.withSSE (s : CPState) (e : ℝ) : CPState :=
  { s with relChange := FV.div (s.prevSSE - e) s.prevSSE, prevSSE := e }

theorem CPState.Sized.withSSE {s : CPState} {R : ℕ} (h : s.Sized R) (e : ℝ) : (s.withSSE e).Sized R :=
  ⟨h.wf, h.order, h.nonempty⟩

theorem CPState.Cached.withSSE {s : CPState} {R : ℕ} (h : s.Cached R) (e : ℝ) : (s.withSSE e).Cached R :=
  ⟨h.norm, h.cache⟩

theorem iteration_inv {E : Ext} {o : CPOpts} {s s' : CPState} (hu : CP.iteration E o s = .ok s') :
    ∃ s1 e, CP.updateModes E o (List.range s.X.shape.length) s = .ok s1 ∧ CP.sse s1 = .ok e ∧
      s' = s1.withSSE e := by
  rw [CP.iteration, bind_eq_ok] at hu
  obtain ⟨s1, h1, h2⟩ := hu
  rw [CP.updateConvergence, bind_eq_ok] at h2
  obtain ⟨e, h3, h4⟩ := h2
  exact ⟨s1, e, h1, h3, (pure_eq_ok.1 h4).symm⟩

theorem C35_iteration {E : Ext} {o : CPOpts} {s s' : CPState} (h : s.Sized o.rank) (hc : s.Cached o.rank)
    (hu : CP.iteration E o s = .ok s') : s'.Sized o.rank ∧ s'.Cached o.rank ∧ s'.X = s.X ∧
      s'.prevSSE = s'.trueSSE o.rank := by
  obtain ⟨s1, e, h1, h3, rfl⟩ := iteration_inv hu
  obtain ⟨ha, hb, hx⟩ := C35_updateModes h hc (fun m hm => by simpa using hm) h1
  rw [C35_sse ha hb] at h3
  injection h3 with h3
  exact ⟨ha.withSSE e, hb.withSSE e, hx, h3.symm⟩

theorem C35_iterate {E : Ext} {o : CPOpts} {n : ℕ} {s s' : CPState} (h : s.Sized o.rank) (hc : s.Cached o.rank)
    (hu : CP.iterate E o n s = .ok s') : s'.Sized o.rank ∧ s'.Cached o.rank ∧ s'.X = s.X := by
  induction n generalizing s with
  | zero =>
    obtain rfl : s = s' := by simpa [CP.iterate] using hu
    exact ⟨h, hc, rfl⟩
  | succ n ih =>
    rw [CP.iterate, bind_eq_ok] at hu
    obtain ⟨s1, h1, h2⟩ := hu
    obtain ⟨ha, hb, hx, -⟩ := C35_iteration h hc h1
    obtain ⟨r1, r2, r3⟩ := ih ha hb h2
    exact ⟨r1, r2, r3.trans hx⟩

/-! ### the start of a fit -/

theorem shape_resetWeights (t : KruskalTensor) : t.resetWeights.weights.shape = t.weights.shape := rfl

theorem get_resetWeights {t : KruskalTensor} {R r : ℕ} (h : t.weights.shape = [R]) (hr : r < R) :
    t.resetWeights.weights.get [r] = 1 := by
  have hv : Valid t.weights.shape [r] := by simp [h, hr]
  rw [KruskalTensor.resetWeights]
  simp only
  rw [get_map _ _ (by simpa using hv), get_map _ _ hv]; simp

theorem pyGet_of_getElem? {β : Type} {l : List β} {m : ℕ} {a : β} (h : l[m]? = some a) :
    pyGet l (m : Int) = .ok a := by
  obtain ⟨hm, rfl⟩ := List.getElem?_eq_some_iff.1 h
  exact pyGet_ok (norm_nat hm)

theorem orthonormalise_ok {E : Ext} (hQ : E.QROk) {sizes : List ℕ} {R : ℕ} :
    ∀ {bs : List Bool} {mode : ℕ} {fs : List (NDArray ℝ)}, Factors fs sizes R → mode + bs.length ≤ sizes.length →
    (∀ k, bs[k]? = some true → R ≤ sizes.getD (mode + k) 0) →
    ∃ fs', CP.orthonormalise E mode bs fs = .ok fs' ∧ Factors fs' sizes R ∧
      (∀ k, bs[k]? = some true → ∀ F, fs'[mode + k]? = some F → OrthoCols F (sizes.getD (mode + k) 0) R) ∧
      (∀ j, (∀ k, j = mode + k → bs[k]? ≠ some true) → fs'[j]? = fs[j]?)
  | [], mode, fs, hf, _, _ => ⟨fs, rfl, hf, by simp, by simp⟩
  | b :: bs, mode, fs, hf, hl, hR => by
    have hm : mode < fs.length := by rw [hf.length_eq]; simp at hl; omega
    have hs := hf.shape_get hm
    rw [CP.orthonormalise, pyGet_ok (norm_nat hm), bind_ok]
    have hf' : Factors (if b then fs.set mode (E.qr fs[mode]).1 else fs) sizes R := by
      cases b with
      | false => simpa using hf
      | true =>
        have := hR 0 (by simp)
        have hq := (hQ _ _ _ hs).shapeQ
        rw [min_eq_right (by simpa using this)] at hq
        exact factors_set hf hq
    obtain ⟨fs', e, h1, h2, h3⟩ := orthonormalise_ok hQ (bs := bs) (mode := mode + 1) hf' (by simp at hl ⊢; omega)
      (fun k hk => by
        have := hR (k + 1) (by simpa using hk)
        rwa [show mode + 1 + k = mode + (k + 1) by omega])
    refine ⟨fs', e, h1, ?_, ?_⟩
    · intro k hk F hF
      cases k with
      | zero =>
        obtain rfl : b = true := by simpa using hk
        have h3' := h3 mode (fun k hk => by omega)
        simp only [Nat.add_zero] at hF ⊢
        rw [hF] at h3'
        have hF' : F = (E.qr fs[mode]).1 := by simpa [hm] using h3'
        have hR0 := hR 0 (by simp)
        have hq := hQ _ _ _ hs
        simp only [Nat.add_zero] at hR0
        have ho := hq.orth
        have hmin : min (sizes.getD mode 0) R = R := min_eq_right hR0
        rw [hmin] at ho
        rw [hF']
        intro i hi j hj
        have := congrFun (congrFun ho ⟨i, hi⟩) ⟨j, hj⟩
        rw [mul_apply] at this
        simp only [transpose_apply, mat, Matrix.one_apply, Fin.mk.injEq] at this
        rw [Finset.sum_range]
        exact this
      | succ k =>
        have := h2 k (by simpa using hk) F (by rwa [show mode + 1 + k = mode + (k + 1) by omega])
        rwa [show mode + 1 + k = mode + (k + 1) by omega] at this
    · intro j hj
      rw [h3 j (fun k hk => by
        have := hj (k + 1) (by omega)
        simpa using this)]
      cases b with
      | false => simp
      | true =>
        have : j ≠ mode := fun h => hj 0 (by omega) (by simp)
        simp [List.getElem?_set, Ne.symm this]

/-- C35: the first `_init_fit` of a decomposer - for any decomposition of the right size, whether random,
from an SVD or supplied, with any constraints (an orthonormal mode must have at least `R` rows) - gives unit
weights and a consistent state, and records the true error as `prev_SSE`. -/
theorem C35_init {E : Ext} (hQ : E.QROk) {old : CPState} {X : NDArray ℝ} {dec : KruskalTensor} {R : ℕ}
    (hold : old.lastMode = none) (h : dec.WF X.shape R) (h2 : 2 ≤ X.shape.length) (h0 : ∀ n ∈ X.shape, n ≠ 0)
    (hol : ∀ l, old.orth = some l → l.length ≤ X.shape.length ∧
      ∀ k, l[k]? = some true → R ≤ X.shape.getD k 0) :
    ∃ s, CP.initFit E old X dec = .ok s ∧ s.Sized R ∧ s.Cached R ∧ s.X = X ∧ s.lastMode = none ∧
      (∀ r < R, s.dec.weights.get [r] = 1) ∧ s.prevSSE = s.trueSSE R ∧ s.relChange = .pinf ∧
      s.nonNeg = some (old.nonNeg.getD (List.replicate X.shape.length false)) ∧
      s.orth = some (old.orth.getD (List.replicate X.shape.length false)) ∧
      (∀ l, old.orth = some l → ∀ k, l[k]? = some true → ∀ F, s.dec.factorMatrices[k]? = some F →
        OrthoCols F (X.shape.getD k 0) R) ∧
      (old.orth = none → s.dec.factorMatrices = dec.factorMatrices) := by
  have hlen : dec.resetWeights.factorMatrices.length = X.shape.length := h.factors.length_eq
  rw [CP.initFit]
  simp only [hlen]
  have hf : Factors dec.resetWeights.factorMatrices X.shape R := h.factors
  have key : ∃ fs', CP.orthonormalise E 0 (old.orth.getD (List.replicate X.shape.length false))
      dec.resetWeights.factorMatrices = .ok fs' ∧ Factors fs' X.shape R ∧
      (∀ l, old.orth = some l → ∀ k, l[k]? = some true → ∀ F, fs'[k]? = some F →
        OrthoCols F (X.shape.getD k 0) R) ∧ (old.orth = none → fs' = dec.factorMatrices) := by
    cases ho : old.orth with
    | none =>
      obtain ⟨fs', e, h1, -, h3⟩ := orthonormalise_ok hQ (bs := List.replicate X.shape.length false) (mode := 0) hf
        (by simp) (fun k hk => by simp [List.getElem?_replicate] at hk)
      refine ⟨fs', e, h1, by simp, fun _ => ?_⟩
      apply List.ext_getElem?
      intro j
      exact h3 j fun k _ hk => by simp [List.getElem?_replicate] at hk
    | some l =>
      obtain ⟨a, b⟩ := hol l ho
      obtain ⟨fs', e, h1, h2, -⟩ := orthonormalise_ok hQ (bs := l) (mode := 0) hf (by simpa using a)
        (fun k hk => by simpa using b k hk)
      refine ⟨fs', e, h1, fun l' hl' k hk F hF => ?_, by simp⟩
      obtain rfl : l = l' := by simpa using hl'
      simpa using h2 k hk F (by simpa using hF)
  obtain ⟨fs', e, h1, h3, h4⟩ := key
  rw [e, bind_ok]
  set s : CPState := { old with
    X := X
    XNorm := frobNorm X
    dec := { dec.resetWeights with factorMatrices := fs' }
    nonNeg := some (old.nonNeg.getD (List.replicate X.shape.length false))
    orth := some (old.orth.getD (List.replicate X.shape.length false))
    relChange := .pinf } with hs
  have hS : s.Sized R := ⟨⟨h.rank, h1, h.weights⟩, h2, h0⟩
  have hC : s.Cached R := by
    refine ⟨?_, fun m hm => ?_⟩
    · simp only [hs, frobNorm, sum_data]
    · simp [hs, hold] at hm
  rw [C35_sse hS hC, bind_ok]
  refine ⟨_, rfl, ⟨hS.wf, hS.order, hS.nonempty⟩, ⟨hC.norm, fun m hm => ?_⟩, rfl, hold,
    fun r hr => get_resetWeights h.weights hr, rfl, rfl, rfl, rfl, h3, h4⟩
  simp [hs, hold] at hm

/-- C35: at every moment of the first fit - after any number of complete iterations and any further updates
of single modes - the reported `SSE` is the true sum of squared errors. -/
theorem C35_first_fit {E : Ext} (hQ : E.QROk) {o : CPOpts} {old s0 s1 s2 : CPState} {X : NDArray ℝ}
    {dec : KruskalTensor} (hold : old.lastMode = none) (h : dec.WF X.shape o.rank) (h2 : 2 ≤ X.shape.length)
    (h0 : ∀ n ∈ X.shape, n ≠ 0)
    (hol : ∀ l, old.orth = some l → l.length ≤ X.shape.length ∧
      ∀ k, l[k]? = some true → o.rank ≤ X.shape.getD k 0)
    (hi : CP.initFit E old X dec = .ok s0) {n : ℕ} (hn : CP.iterate E o n s0 = .ok s1) {modes : List ℕ}
    (hm : ∀ m ∈ modes, m < X.shape.length) (hu : CP.updateModes E o modes s1 = .ok s2) :
    CP.sse s2 = .ok (s2.trueSSE o.rank) ∧ s2.X = X := by
  obtain ⟨s, e, hS, hC, hX, -⟩ := C35_init hQ hold h h2 h0 hol
  rw [hi] at e
  obtain rfl : s0 = s := by injection e
  obtain ⟨a1, b1, x1⟩ := C35_iterate hS hC hn
  obtain ⟨a2, b2, x2⟩ := C35_updateModes a1 b1 (by rwa [x1, hX]) hu
  exact ⟨C35_sse a2 b2, x2.trans (x1.trans hX)⟩

/-! ### the solver of a mode -/

/-- The solver chosen from the flags of a mode (`nn` non-negative, `on` orthonormal). -/
def baseSolve (E : Ext) (nn on : Bool) : NDArray ℝ → NDArray ℝ → Py (NDArray ℝ) :=
  if on then orthogonalRightsolve E else if nn then nonNegativeRightsolve E else rightsolve E

/-- The solver with the ridge penalty of the mode. -/
def withRidge (ridge : Option ℝ) (solve : NDArray ℝ → NDArray ℝ → Py (NDArray ℝ)) :
    NDArray ℝ → NDArray ℝ → Py (NDArray ℝ) :=
  match ridge with
  | none => solve
  | some l => addRightsolveRidge solve l

/-- The flags and the penalty of mode `m`. -/
structure CPState.ModeConfig (s : CPState) (o : CPOpts) (m : ℕ) (nn on : Bool) (ridge : Option ℝ) : Prop where
  nonNeg : ∃ l, s.nonNeg = some l ∧ l[m]? = some nn
  orth : ∃ l, s.orth = some l ∧ l[m]? = some on
  ridge : (o.ridgePenalties = none ∧ ridge = none) ∨
    ∃ ps l, o.ridgePenalties = some ps ∧ ps[m]? = some l ∧ ridge = some l

theorem getSolve_ok {E : Ext} {o : CPOpts} {s : CPState} {m : ℕ} {nn on : Bool} {ridge : Option ℝ}
    (h : s.ModeConfig o m nn on ridge) (hb : ¬ (nn = true ∧ on = true)) :
    CP.getSolve E o s m = .ok (withRidge ridge (baseSolve E nn on)) := by
  obtain ⟨⟨l1, a1, b1⟩, ⟨l2, a2, b2⟩, h3⟩ := h
  rw [CP.getSolve, a1, a2]
  simp only [CP.flagAt, pyGet_of_getElem? b1, pyGet_of_getElem? b2, bind_ok]
  have e : (if on = true then if nn = true then Except.error PyErr.valueError
      else pure (orthogonalRightsolve E)
    else pure (if nn = true then nonNegativeRightsolve E else rightsolve E) :
      Py (NDArray ℝ → NDArray ℝ → Py (NDArray ℝ))) = .ok (baseSolve E nn on) := by
    unfold baseSolve
    cases nn <;> cases on <;> simp_all [pure, Except.pure]
  rw [e, bind_ok]
  rcases h3 with ⟨h3, rfl⟩ | ⟨ps, l, h3, h4, rfl⟩
  · rw [h3]; rfl
  · rw [h3]; simp only; rw [pyGet_of_getElem? h4, bind_ok]; rfl

theorem getSolve_both {E : Ext} {o : CPOpts} {s : CPState} {m : ℕ} {ridge : Option ℝ}
    (h : s.ModeConfig o m true true ridge) : CP.getSolve E o s m = .error .valueError := by
  obtain ⟨⟨l1, a1, b1⟩, ⟨l2, a2, b2⟩, -⟩ := h
  rw [CP.getSolve, a1, a2]
  simp only [CP.flagAt, pyGet_of_getElem? b1, pyGet_of_getElem? b2, bind_ok]
  rfl

theorem orthogonalRightsolve_total {E : Ext} (hE : E.SVDOk) {A B : NDArray ℝ} {n r m : ℕ}
    (hA : A.shape = [r, n]) (hB : B.shape = [m, n]) (hr : 0 < r) (hm : 0 < m) :
    ∃ X, orthogonalRightsolve E A B = .ok X ∧ X.shape = [m, r] := by
  obtain ⟨C, U, S, Vh, X, -, -, -, -, e, s, -⟩ := orthogonalSolve_mat hE (shape_T hA) (shape_T hB) hr hm
  exact ⟨X.T, by rw [orthogonalRightsolve, e, bind_ok]; rfl, shape_T s⟩

theorem baseSolve_total {E : Ext} (hE : E.SVDOk) (hN : E.NNLSOk) (nn on : Bool) {A B : NDArray ℝ} {n r m : ℕ}
    (hA : A.shape = [r, n]) (hB : B.shape = [m, n]) (hr : 0 < r) (hm : 0 < m) :
    ∃ X, baseSolve E nn on A B = .ok X ∧ X.shape = [m, r] := by
  unfold baseSolve
  split
  · exact orthogonalRightsolve_total hE hA hB hr hm
  · split
    · obtain ⟨X, e, s, -⟩ := nonneg_core hN hA hB
      exact ⟨X, e, s⟩
    · obtain ⟨X, e, s, -⟩ := rightsolve_mat hE hA hB
      exact ⟨X, e, s⟩

theorem withRidge_total {E : Ext} (hE : E.SVDOk) (hN : E.NNLSOk) (nn on : Bool) (ridge : Option ℝ)
    {A B : NDArray ℝ} {n r m : ℕ} (hA : A.shape = [r, n]) (hB : B.shape = [m, n]) (hr : 0 < r) (hm : 0 < m) :
    ∃ X, withRidge ridge (baseSolve E nn on) A B = .ok X ∧ X.shape = [m, r] := by
  cases ridge with
  | none => exact baseSolve_total hE hN nn on hA hB hr hm
  | some l =>
    simp only [withRidge]
    rw [ridge_reduce hA hB]
    exact baseSolve_total hE hN nn on (shape_ofMat _ _ _) (shape_ofMat _ _ _) hr hm

/-- Updates of a mode that is not constrained in both ways always succeed. -/
theorem updateFactor_total {E : Ext} (hE : E.SVDOk) (hN : E.NNLSOk) {o : CPOpts} {s : CPState} {m : ℕ}
    {nn on : Bool} {ridge : Option ℝ} (h : s.Sized o.rank) (hr : 0 < o.rank) (hm : m < s.X.shape.length)
    (hc : s.ModeConfig o m nn on ridge) (hb : ¬ (nn = true ∧ on = true)) :
    ∃ F, withRidge ridge (baseSolve E nn on)
        (ofMat o.rank o.rank fun a b => gramProd (s.dec.factorMatrices.eraseIdx m) a b)
        (mttkrpMat s.X s.dec.factorMatrices m o.rank) = .ok F ∧
      F.shape = [s.X.shape.getD m 0, o.rank] ∧ CP.updateFactor E o m s = .ok (s.updated m o.rank F) := by
  obtain ⟨F, e, hF⟩ := withRidge_total hE hN nn on ridge
    (A := ofMat o.rank o.rank fun a b => gramProd (s.dec.factorMatrices.eraseIdx m) a b)
    (B := mttkrpMat s.X s.dec.factorMatrices m o.rank) (shape_ofMat _ _ _) (shape_ofMat _ _ _) hr
    (Nat.pos_of_ne_zero (h.dim hm))
  exact ⟨F, e, hF, updateFactor_ok h.wf.factors h.order hm (h.dim hm) (getSolve_ok hc hb) e hF⟩

/-! ### C34 -/

/-- No mode has a constraint. -/
structure CPState.Unconstrained (s : CPState) : Prop where
  nonNeg : ∃ l, s.nonNeg = some l ∧ ∀ m < s.X.shape.length, l[m]? = some false
  orth : ∃ l, s.orth = some l ∧ ∀ m < s.X.shape.length, l[m]? = some false

theorem sqErr_congr_weights {X : NDArray ℝ} {w w' : ℕ → ℝ} {fs : List (NDArray ℝ)} {R : ℕ}
    (h : ∀ r < R, w r = w' r) : sqErr X w fs R = sqErr X w' fs R := by
  refine sumIdx_congr fun idx _ => ?_
  have e : cpEntry w fs R idx = cpEntry w' fs R idx :=
    Finset.sum_congr rfl fun r hr => by rw [h r (by simpa using hr)]
  rw [e]

theorem C34_update_core {E : Ext} (hE : E.SVDOk) {o : CPOpts} {s : CPState} {m : ℕ} (h : s.Sized o.rank)
    (hm : m < s.X.shape.length) (hw : ∀ r < o.rank, s.dec.weights.get [r] = 1)
    (hc : s.ModeConfig o m false false none) :
    ∃ F, F.shape = [s.X.shape.getD m 0, o.rank] ∧ CP.updateFactor E o m s = .ok (s.updated m o.rank F) ∧
      ∀ Y : NDArray ℝ, Y.shape = [s.X.shape.getD m 0, o.rank] →
        (s.updated m o.rank F).trueSSE o.rank ≤ (s.updated m o.rank Y).trueSSE o.rank := by
  set R := o.rank
  set n := s.X.shape.getD m 0 with hn
  set q := (s.X.shape.eraseIdx m).prod with hq
  set fs := s.dec.factorMatrices with hfs
  have hf := h.wf.factors
  have hl := hf.length_eq
  set K := krMat (fs.eraseIdx m) (s.X.shape.eraseIdx m) R with hK
  set U := unfoldMat s.X m with hU
  set V := ofMat R R fun a b => gramProd (fs.eraseIdx m) a b with hV
  set M := mttkrpMat s.X fs m R with hM
  have hKs : K.shape = [q, R] := rfl
  have hUs : U.shape = [n, q] := rfl
  have hVK : mat V R R = (mat K q R)ᵀ * mat K q R := by
    apply mat_gram
    intro a ha b hb
    rw [hV, get_ofMat ha hb, ← krMat_gram (hf.eraseIdx m) ha hb]
  have hMK : mat M n R = mat U n q * mat K q R := mat_mttkrp _ _ _ _
  obtain ⟨F, e, hF, hopt, -, hexact⟩ := C11_rightsolve hE (A := V) (B := M) (m := R) (n := R) (p := n) rfl rfl
  obtain ⟨Y0, hY0s, hY0⟩ := gram_solvable hE hKs hUs
  have hY0' : resid Y0 V M n R R = 0 := by
    rw [resid_eq, LA.fsq_eq_zero_iff, hVK, hMK, hY0, sub_self]
  have hFV : mat F n R * ((mat K q R)ᵀ * mat K q R) = mat U n q * mat K q R := by
    have h1 := hexact Y0 hY0'
    obtain ⟨C, e1, -, hC⟩ := matmul_mat hF (B := V) (n := R) rfl
    rw [h1] at e1
    injection e1 with e1
    rw [← hVK, ← hMK, ← hC, e1]
  refine ⟨F, hF, updateFactor_ok hf h.order hm (h.dim hm) (getSolve_ok hc (by simp)) e hF, fun Y hY => ?_⟩
  have hm' : m < fs.length := by rw [hfs]; omega
  have key : ∀ Z : NDArray ℝ, Z.shape = [n, R] → (s.updated m R Z).trueSSE R
      = LA.fsq (mat Z n R * (mat K q R)ᵀ - mat U n q) := by
    intro Z hZ
    rw [CPState.trueSSE, sqErr_congr_weights (w := fun r => (s.updated m R Z).dec.weights.get [r])
      (w' := fun _ => 1) (fun r hr => hw r hr)]
    have hfZ : Factors (s.updated m R Z).dec.factorMatrices (s.updated m R Z).X.shape R := factors_set hf hZ
    rw [sqErr_eq hfZ (k := m) (by simpa [CPState.updated] using hm')]
    simp only [CPState.updated, List.getElem_set_self, eraseIdx_set_self]
    rw [resid_eq, ← hfs, ← hK, mat_T hKs]
  rw [key F hF, key Y hY]
  exact gram_optimal hFV

/-- C34: an unconstrained update always succeeds, only changes the factor of that mode, and the new factor
minimises the sum of squared errors over all possible values of the factor - whatever the state of the other
factors (also when they are rank deficient). -/
theorem C34_update_optimal {E : Ext} (hE : E.SVDOk) {o : CPOpts} {s : CPState} {m : ℕ} (h : s.Sized o.rank)
    (hm : m < s.X.shape.length) (hw : ∀ r < o.rank, s.dec.weights.get [r] = 1)
    (hr : o.ridgePenalties = none) (hc : s.Unconstrained) :
    ∃ s', CP.updateFactor E o m s = .ok s' ∧ s'.X = s.X ∧ s'.dec.weights = s.dec.weights ∧
      (∀ j, j ≠ m → s'.dec.factorMatrices[j]? = s.dec.factorMatrices[j]?) ∧
      ∀ Y : NDArray ℝ, Y.shape = [s.X.shape.getD m 0, o.rank] →
        sqErr s.X (fun r => s.dec.weights.get [r]) s'.dec.factorMatrices o.rank
          ≤ sqErr s.X (fun r => s.dec.weights.get [r]) (s.dec.factorMatrices.set m Y) o.rank := by
  obtain ⟨l1, a1, b1⟩ := hc.nonNeg
  obtain ⟨l2, a2, b2⟩ := hc.orth
  obtain ⟨F, hF, e, hopt⟩ := C34_update_core hE h hm hw ⟨⟨l1, a1, b1 m hm⟩, ⟨l2, a2, b2 m hm⟩, Or.inl ⟨hr, rfl⟩⟩
  refine ⟨_, e, rfl, rfl, fun j hj => ?_, hopt⟩
  simp [CPState.updated, List.getElem?_set, hj.symm]

/-- C34: over any sequence of updates the true error does not increase. -/
theorem C34_updates_monotone {E : Ext} (hE : E.SVDOk) {o : CPOpts} (hr : o.ridgePenalties = none)
    {modes : List ℕ} {s : CPState} (h : s.Sized o.rank) (hw : ∀ r < o.rank, s.dec.weights.get [r] = 1)
    (hc : s.Unconstrained) (hm : ∀ m ∈ modes, m < s.X.shape.length) :
    ∃ s', CP.updateModes E o modes s = .ok s' ∧ s'.trueSSE o.rank ≤ s.trueSSE o.rank ∧ s'.X = s.X ∧
      s'.dec.weights = s.dec.weights ∧ s'.Unconstrained ∧ s'.Sized o.rank := by
  induction modes generalizing s with
  | nil => exact ⟨s, rfl, le_rfl, rfl, rfl, hc, h⟩
  | cons m ms ih =>
    have hm0 := hm m (by simp)
    obtain ⟨l1, a1, b1⟩ := hc.nonNeg
    obtain ⟨l2, a2, b2⟩ := hc.orth
    obtain ⟨F, hF, e, hopt⟩ :=
      C34_update_core hE h hm0 hw ⟨⟨l1, a1, b1 m hm0⟩, ⟨l2, a2, b2 m hm0⟩, Or.inl ⟨hr, rfl⟩⟩
    have hm' : m < s.dec.factorMatrices.length := by rw [h.wf.factors.length_eq]; exact hm0
    have h1 := hopt _ (h.wf.factors.shape_get hm')
    have h2 : (s.updated m o.rank (s.dec.factorMatrices[m])).trueSSE o.rank = s.trueSSE o.rank := by
      simp [CPState.updated, CPState.trueSSE]
    obtain ⟨s', e', q1, q2, q3, q4, q5⟩ := ih (s := s.updated m o.rank F) (h.updated hF) hw ⟨⟨l1, a1, b1⟩, ⟨l2, a2, b2⟩⟩
      (fun k hk => hm k (by simp [hk]))
    refine ⟨s', ?_, q1.trans (h2 ▸ h1), q2, q3, q4, q5⟩
    rw [CP.updateModes, List.foldlM_cons, e, bind_ok]
    exact e'

/-- C34: `n` iterations of an unconstrained fit always succeed, and the reported `SSE` never increases. -/
theorem C34_iterations_monotone {E : Ext} (hE : E.SVDOk) {o : CPOpts} (hr : o.ridgePenalties = none) (n : ℕ)
    {s : CPState} (h : s.Sized o.rank) (hcc : s.Cached o.rank) (hw : ∀ r < o.rank, s.dec.weights.get [r] = 1)
    (hc : s.Unconstrained) :
    ∃ s' e e', CP.iterate E o n s = .ok s' ∧ CP.sse s = .ok e ∧ CP.sse s' = .ok e' ∧ e' ≤ e ∧ 0 ≤ e' ∧
      e' = s'.trueSSE o.rank := by
  induction n generalizing s with
  | zero =>
    refine ⟨s, _, _, rfl, C35_sse h hcc, C35_sse h hcc, le_rfl, ?_, rfl⟩
    exact sumIdx_nonneg fun _ _ => sq_nonneg _
  | succ n ih =>
    obtain ⟨s1, e1, q1, q2, q3, q4, q5⟩ := C34_updates_monotone hE hr (modes := List.range s.X.shape.length) h hw hc
      (by simp)
    obtain ⟨-, hc1, -⟩ := C35_updateModes h hcc (by simp) e1
    set s2 := s1.withSSE (s1.trueSSE o.rank) with hs2
    have hit : CP.iteration E o s = .ok s2 := by
      rw [CP.iteration, CP.updateFactors, e1, bind_ok, CP.updateConvergence, C35_sse q5 hc1, bind_ok]; rfl
    obtain ⟨s', e, e', r1, r2, r3, r4, r5, r6⟩ := ih (s := s2) (q5.withSSE _) (hc1.withSSE _)
      (by intro r hr; simp only [hs2, CPState.withSSE, q3]; exact hw r hr) ⟨q4.nonNeg, q4.orth⟩
    refine ⟨s', _, e', ?_, C35_sse h hcc, r3, ?_, r5, r6⟩
    · rw [CP.iterate, hit, bind_ok]; exact r1
    · have h4 : CP.sse s2 = .ok (s2.trueSSE o.rank) :=
        C35_sse (q5.withSSE _) (hc1.withSSE _)
      rw [h4] at r2
      injection r2 with r2
      rw [← r2] at r4
      exact r4.trans q1

/-- C34: a first fit without constraints and penalties, from any starting point of the right size. -/
theorem C34_first_fit {E : Ext} (hE : E.SVDOk) (hQ : E.QROk) {o : CPOpts} (hr : o.ridgePenalties = none)
    {X : NDArray ℝ} {dec : KruskalTensor} (h : dec.WF X.shape o.rank) (h2 : 2 ≤ X.shape.length)
    (h0 : ∀ n ∈ X.shape, n ≠ 0) :
    ∃ s0, CP.initFit E (CP.fresh none none) X dec = .ok s0 ∧
      sqErr X (fun _ => 1) dec.factorMatrices o.rank = s0.prevSSE ∧
      ∀ n k, ∃ s1 s2 e1 e2, CP.iterate E o n s0 = .ok s1 ∧ CP.iterate E o k s1 = .ok s2 ∧
        CP.sse s1 = .ok e1 ∧ CP.sse s2 = .ok e2 ∧ e2 ≤ e1 ∧ e1 ≤ s0.prevSSE := by
  obtain ⟨s0, e0, hS, hC, hX, -, hw, hp, -, hnn, hon, -, hdec⟩ := C35_init hQ (old := CP.fresh none none) (R := o.rank)
    rfl h h2 h0 (by simp [CP.fresh])
  have hU : ∀ s : CPState, s.nonNeg = s0.nonNeg → s.orth = s0.orth → s.X = X → s.Unconstrained := by
    intro s h1 h2 h3
    refine ⟨⟨_, h1.trans hnn, fun m hm => ?_⟩, ⟨_, h2.trans hon, fun m hm => ?_⟩⟩ <;>
      simpa [CP.fresh, List.getElem?_replicate] using h3 ▸ hm
  refine ⟨s0, e0, ?_, fun n k => ?_⟩
  · rw [hp, CPState.trueSSE, hX, hdec rfl]
    exact sqErr_congr_weights fun r hr => (hw r hr).symm
  · -- preservation of the configuration by iterations
    have step : ∀ (n : ℕ) (s : CPState), s.Sized o.rank → s.Cached o.rank →
        (∀ r < o.rank, s.dec.weights.get [r] = 1) → s.Unconstrained → ∃ s1, CP.iterate E o n s = .ok s1 ∧
        s1.Sized o.rank ∧ s1.Cached o.rank ∧ (∀ r < o.rank, s1.dec.weights.get [r] = 1) ∧ s1.Unconstrained := by
      intro n
      induction n with
      | zero => intro s a b c d; exact ⟨s, rfl, a, b, c, d⟩
      | succ n ih =>
        intro s a b c d
        obtain ⟨s1, e1, q1, q2, q3, q4, q5⟩ := C34_updates_monotone hE hr (modes := List.range s.X.shape.length) a c d
          (by simp)
        obtain ⟨-, hc1, -⟩ := C35_updateModes a b (by simp) e1
        obtain ⟨s3, r1, r2, r3, r4, r5⟩ := ih (s1.withSSE (s1.trueSSE o.rank)) (q5.withSSE _) (hc1.withSSE _)
          (by intro r hr; simp only [CPState.withSSE, q3]; exact c r hr) ⟨q4.nonNeg, q4.orth⟩
        refine ⟨s3, ?_, r2, r3, r4, r5⟩
        rw [CP.iterate, CP.iteration, CP.updateFactors, e1, bind_ok, CP.updateConvergence, C35_sse q5 hc1, bind_ok]
        exact r1
    obtain ⟨s1, e1, a1, b1, c1, d1⟩ := step n s0 hS hC hw (hU s0 rfl rfl hX)
    obtain ⟨s1', u, u', p1, p2, p3, p4, -, -⟩ := C34_iterations_monotone hE hr n hS hC hw (hU s0 rfl rfl hX)
    obtain ⟨s2, v, v', t1, t2, t3, t4, -, -⟩ := C34_iterations_monotone hE hr k a1 b1 c1 d1
    rw [e1] at p1
    obtain rfl : s1 = s1' := by injection p1
    refine ⟨s1, s2, v, v', e1, t1, t2, t3, t4, ?_⟩
    rw [t2] at p3
    injection p3 with p3
    rw [C35_sse hS hC] at p2
    injection p2 with p2
    rw [p3, hp, p2]; exact p4

/-! ### C36 -/

/-- C36 is violated: an object that has performed an update keeps the number of the mode updated last, while
a new fit clears the cached matrix. Whatever the data and the starting point, the stopping test of the first
iteration then fails. (So `fit` with at least one iteration raises.) -/
theorem C36_refit_fails {E : Ext} {o : CPOpts} {old s : CPState} {X : NDArray ℝ} {dec : KruskalTensor} {m : ℕ}
    (hold : old.lastMode = some m) (hi : CP.initFit E old X dec = .ok s) :
    ∃ e, CP.shouldStop o s = .error e := by
  have hs : s.lastMode = some m ∧ s.cache = none := by
    rw [CP.initFit] at hi
    simp only [bind_eq_ok, pure_eq_ok] at hi
    obtain ⟨fs, -, e, -, rfl⟩ := hi
    exact ⟨hold, rfl⟩
  rw [CP.shouldStop, CP.sse, hs.1]
  simp only
  cases h1 : s.dec.constructTensor with
  | error e => exact ⟨e, rfl⟩
  | ok Y =>
    rw [bind_ok, CP.innerProd, hs.2]
    cases h2 : pyGet s.dec.factorMatrices (m : Int) with
    | error e => exact ⟨e, rfl⟩
    | ok F => exact ⟨.typeError, rfl⟩

/-- C36: for a tensor of any admissible size the exception is `TypeError`. -/
theorem C36_refit_type_error {E : Ext} (hQ : E.QROk) {o : CPOpts} {old s : CPState} {X : NDArray ℝ}
    {dec : KruskalTensor} {m R : ℕ} (hold : old.lastMode = some m) (hm : m < X.shape.length)
    (h : dec.WF X.shape R) (h2 : 2 ≤ X.shape.length) (ho : old.orth = some (List.replicate X.shape.length false))
    (hi : CP.initFit E old X dec = .ok s) : CP.shouldStop o s = .error .typeError := by
  rw [CP.initFit] at hi
  simp only [bind_eq_ok, pure_eq_ok] at hi
  obtain ⟨fs, hfs, e, -, rfl⟩ := hi
  have hf : Factors dec.resetWeights.factorMatrices X.shape R := h.factors
  obtain ⟨fs', e', h1, -⟩ := orthonormalise_ok hQ (bs := List.replicate X.shape.length false) (mode := 0) hf
        (by simp) (fun k hk => by simp [List.getElem?_replicate] at hk)
  rw [ho, Option.getD_some, e'] at hfs
  obtain rfl : fs' = fs := by injection hfs
  have hw : KruskalTensor.WF { dec.resetWeights with factorMatrices := fs' } X.shape R := ⟨h.rank, h1, h.weights⟩
  rw [CP.shouldStop, CP.sse]
  simp only [hold]
  rw [constructTensor_eq hw h2, bind_ok, CP.innerProd]
  simp only
  rw [pyGet_ok (norm_nat (by rw [h1.length_eq]; exact hm))]
  rfl

/-- C36, the part that holds: an object that has not performed an update (its fits did zero iterations)
behaves like a new one with the same constraints.
Missing: every object that has performed an update (see `C36_refit_fails`). -/
theorem C36_refit_partial {E : Ext} {old : CPState} {X : NDArray ℝ} {dec : KruskalTensor}
    (hold : old.lastMode = none) :
    CP.initFit E old X dec = CP.initFit E (CP.fresh old.nonNeg old.orth) X dec := by
  have e : ∀ (t : KruskalTensor) (nn on : List Bool), CP.sse { old with
      X := X, XNorm := frobNorm X, dec := t, nonNeg := some nn, orth := some on, relChange := .pinf }
      = CP.sse { CP.fresh old.nonNeg old.orth with
      X := X, XNorm := frobNorm X, dec := t, nonNeg := some nn, orth := some on, relChange := .pinf } := by
    intro t nn on
    simp [CP.sse, hold, CP.fresh]
  rw [CP.initFit, CP.initFit]
  simp only [e]
  simp [CP.fresh, hold]

/-! ### C40 -/

theorem withRidge_nonneg {E : Ext} (hN : E.NNLSOk) {ridge : Option ℝ} {A B X : NDArray ℝ} {n r m : ℕ}
    (hA : A.shape = [r, n]) (hB : B.shape = [m, n])
    (hX : withRidge ridge (baseSolve E true false) A B = .ok X) : X.shape = [m, r] ∧ NonNeg X m r := by
  cases ridge with
  | none =>
    obtain ⟨X', e, s, hn, -⟩ := nonneg_core hN hA hB
    have : baseSolve E true false A B = .ok X := hX
    simp only [baseSolve, Bool.false_eq_true, if_false, if_true] at this
    rw [e] at this
    obtain rfl : X' = X := by injection this
    exact ⟨s, hn⟩
  | some l =>
    have hX : addRightsolveRidge (baseSolve E true false) l A B = .ok X := hX
    rw [ridge_reduce hA hB] at hX
    obtain ⟨X', e, s, hn, -⟩ := nonneg_core hN
      (A := ofMat r (n + r) fun i j => if j < n then A.get [i, j] else (scaledIdentity (Real.sqrt l) r).get [i, j - n])
      (B := ofMat m (n + r) fun i j => if j < n then B.get [i, j] else (full [m, r] (0:ℝ)).get [i, j - n])
      (shape_ofMat _ _ _) (shape_ofMat _ _ _)
    simp only [baseSolve, Bool.false_eq_true, if_false, if_true] at hX
    rw [e] at hX
    obtain rfl : X' = X := by injection hX
    exact ⟨s, hn⟩

/-- C40: after an update of a mode with a non-negativity constraint its factor is non-negative. -/
theorem C40_update_nonneg {E : Ext} (hN : E.NNLSOk) {o : CPOpts} {s s' : CPState} {m : ℕ} {ridge : Option ℝ}
    (h : s.Sized o.rank) (hm : m < s.X.shape.length) (hc : s.ModeConfig o m true false ridge)
    (hu : CP.updateFactor E o m s = .ok s') :
    ∃ F, s'.dec.factorMatrices[m]? = some F ∧ NonNeg F (s.X.shape.getD m 0) o.rank := by
  obtain ⟨solve, new, F', h1, h3, h4, hF, rfl⟩ := updateFactor_inv h.wf.factors h.order hm (h.dim hm) hu
  rw [getSolve_ok hc (by simp)] at h1
  injection h1 with h1
  rw [← h1] at h3
  obtain ⟨hs, hn⟩ := withRidge_nonneg hN (shape_ofMat _ _ _) (shape_ofMat _ _ _) h3
  have hm' : m < s.dec.factorMatrices.length := by rw [h.wf.factors.length_eq]; exact hm
  rw [assignAll_same (by rw [hs, h.wf.factors.shape_get hm'])] at h4
  obtain rfl : new = F' := by injection h4
  exact ⟨new, by simp [CPState.updated, hm'], hn⟩

theorem C40_updates {E : Ext} (hN : E.NNLSOk) {o : CPOpts} {modes : List ℕ} {s s' : CPState} {m : ℕ}
    {ridge : Option ℝ} (h : s.Sized o.rank) (hm : m < s.X.shape.length) (hc : s.ModeConfig o m true false ridge)
    (hmodes : ∀ k ∈ modes, k < s.X.shape.length)
    (hstart : m ∈ modes ∨ ∃ F, s.dec.factorMatrices[m]? = some F ∧ NonNeg F (s.X.shape.getD m 0) o.rank)
    (hu : CP.updateModes E o modes s = .ok s') :
    (∃ F, s'.dec.factorMatrices[m]? = some F ∧ NonNeg F (s.X.shape.getD m 0) o.rank) ∧
      s'.ModeConfig o m true false ridge ∧ s'.Sized o.rank ∧ s'.X = s.X := by
  induction modes generalizing s with
  | nil =>
    obtain rfl : s = s' := by simpa [CP.updateModes, pure, Except.pure] using hu
    rcases hstart with h1 | h1
    · simp at h1
    · exact ⟨h1, hc, h, rfl⟩
  | cons k ks ih =>
    rw [CP.updateModes, List.foldlM_cons, bind_eq_ok] at hu
    obtain ⟨s1, h1, h2⟩ := hu
    have hk := hmodes k (by simp)
    obtain ⟨_, _, F', -, -, -, hF, e⟩ := updateFactor_inv h.wf.factors h.order hk (h.dim hk) h1
    have hX : s1.X = s.X := by rw [e]; rfl
    have hS1 : s1.Sized o.rank := by rw [e]; exact h.updated hF
    have hc1 : s1.ModeConfig o m true false ridge := by rw [e]; exact ⟨hc.nonNeg, hc.orth, hc.ridge⟩
    have hst : m ∈ ks ∨ ∃ F, s1.dec.factorMatrices[m]? = some F ∧ NonNeg F (s1.X.shape.getD m 0) o.rank := by
      by_cases hkm : k = m
      · subst hkm
        right
        rw [hX]
        exact C40_update_nonneg hN h hk hc h1
      · rcases hstart with h3 | ⟨F, hF1, hF2⟩
        · left; simpa [Ne.symm hkm] using h3
        · right
          rw [hX]
          refine ⟨F, ?_, hF2⟩
          rw [e, ← hF1]
          simp [CPState.updated, List.getElem?_set, hkm]
    obtain ⟨r1, r2, r3, r4⟩ := ih hS1 (by rw [hX]; exact hm) hc1 (fun j hj => by rw [hX]; exact hmodes j (by simp [hj])) hst h2
    rw [hX] at r1
    exact ⟨r1, r2, r3, r4.trans hX⟩

/-- C40: after at least one iteration every mode with a non-negativity constraint (with or without a ridge
penalty) has only non-negative entries, whatever the start. -/
theorem C40_nonneg_after_fit {E : Ext} (hN : E.NNLSOk) {o : CPOpts} {s s' : CPState} {m n : ℕ} {ridge : Option ℝ}
    (h : s.Sized o.rank) (hm : m < s.X.shape.length) (hc : s.ModeConfig o m true false ridge)
    (hn : 1 ≤ n) (hu : CP.iterate E o n s = .ok s') :
    ∃ F, s'.dec.factorMatrices[m]? = some F ∧ NonNeg F (s.X.shape.getD m 0) o.rank := by
  have aux : ∀ (n : ℕ) (s : CPState), s.Sized o.rank → m < s.X.shape.length → s.ModeConfig o m true false ridge →
      (1 ≤ n ∨ ∃ F, s.dec.factorMatrices[m]? = some F ∧ NonNeg F (s.X.shape.getD m 0) o.rank) →
      CP.iterate E o n s = .ok s' →
      ∃ F, s'.dec.factorMatrices[m]? = some F ∧ NonNeg F (s.X.shape.getD m 0) o.rank := by
    intro n
    induction n with
    | zero =>
      intro s h hm hc hst hu
      obtain rfl : s = s' := by simpa [CP.iterate] using hu
      rcases hst with h1 | h1
      · omega
      · exact h1
    | succ n ih =>
      intro s h hm hc _ hu
      rw [CP.iterate, bind_eq_ok] at hu
      obtain ⟨s1, h1, h2⟩ := hu
      obtain ⟨s2, e, h3, -, rfl⟩ := iteration_inv h1
      obtain ⟨r1, r2, r3, r4⟩ := C40_updates hN h hm hc (by simp) (Or.inl (by simpa using hm)) h3
      have hX := r4
      rw [← hX]
      exact ih (s2.withSSE e) (r3.withSSE e) (by simp only [CPState.withSSE]; rw [hX]; exact hm)
        ⟨r2.nonNeg, r2.orth, r2.ridge⟩ (Or.inr (by simp only [CPState.withSSE]; rw [hX]; exact r1)) h2
  exact aux n s h hm hc (Or.inl hn) hu

/-- C40: requesting both constraints for a mode makes its update raise `ValueError`. -/
theorem C40_both_update {E : Ext} {o : CPOpts} {s : CPState} {m : ℕ} {ridge : Option ℝ} (h : s.Sized o.rank)
    (hm : m < s.X.shape.length) (hc : s.ModeConfig o m true true ridge) :
    CP.updateFactor E o m s = .error .valueError := by
  rw [updateFactor_eq h.wf.factors h.order hm (h.dim hm), getSolve_both hc]; rfl

/-- C40: the first iteration of a fit raises `ValueError` if some mode has both constraints, and succeeds
otherwise. -/
theorem C40_both_iteration {E : Ext} (hE : E.SVDOk) (hN : E.NNLSOk) {o : CPOpts} {s : CPState}
    (h : s.Sized o.rank) (hcc : s.Cached o.rank) (hr : 0 < o.rank)
    (hcfg : ∀ m < s.X.shape.length, ∃ nn on ridge, s.ModeConfig o m nn on ridge) :
    (CP.iteration E o s = .error .valueError ↔ ∃ m < s.X.shape.length, ∃ ridge, s.ModeConfig o m true true ridge) ∧
    ((¬ ∃ m < s.X.shape.length, ∃ ridge, s.ModeConfig o m true true ridge) → ∃ s', CP.iteration E o s = .ok s') := by
  have key : ∀ (modes : List ℕ) (s : CPState), s.Sized o.rank → s.Cached o.rank →
      (∀ m < s.X.shape.length, ∃ nn on ridge, s.ModeConfig o m nn on ridge) →
      (∀ m ∈ modes, m < s.X.shape.length) →
      ((∃ m ∈ modes, ∃ ridge, s.ModeConfig o m true true ridge) → CP.updateModes E o modes s = .error .valueError) ∧
      ((¬ ∃ m ∈ modes, ∃ ridge, s.ModeConfig o m true true ridge) → ∃ s', CP.updateModes E o modes s = .ok s') := by
    intro modes
    induction modes with
    | nil => intro s _ _ _ _; exact ⟨by simp, fun _ => ⟨s, rfl⟩⟩
    | cons k ks ih =>
      intro s h hcc hcfg hmodes
      have hk := hmodes k (by simp)
      obtain ⟨nn, on, ridge, hc⟩ := hcfg k hk
      by_cases hb : nn = true ∧ on = true
      · obtain ⟨rfl, rfl⟩ := hb
        refine ⟨fun _ => ?_, fun hno => absurd ⟨k, by simp, ridge, hc⟩ hno⟩
        rw [CP.updateModes, List.foldlM_cons, C40_both_update h hk hc]; rfl
      · obtain ⟨F, -, hF, hu⟩ := updateFactor_total hE hN h hr hk hc hb
        have hcc' := hcc.updated (F := F) hk
        have hmc : ∀ m nn on ridge, (s.updated k o.rank F).ModeConfig o m nn on ridge ↔ s.ModeConfig o m nn on ridge :=
          fun m nn on ridge => ⟨fun h => ⟨h.nonNeg, h.orth, h.ridge⟩, fun h => ⟨h.nonNeg, h.orth, h.ridge⟩⟩
        obtain ⟨i1, i2⟩ := ih (s.updated k o.rank F) (h.updated hF) hcc'
          (fun m hm => by simp only [hmc]; exact hcfg m hm) (fun m hm => hmodes m (by simp [hm]))
        have hnk : ¬ ∃ ridge, s.ModeConfig o k true true ridge := by
          rintro ⟨r', hc'⟩
          obtain ⟨l1, a1, b1⟩ := hc.nonNeg
          obtain ⟨l1', a1', b1'⟩ := hc'.nonNeg
          obtain ⟨l2, a2, b2⟩ := hc.orth
          obtain ⟨l2', a2', b2'⟩ := hc'.orth
          rw [a1] at a1'; injection a1' with a1'; subst a1'
          rw [a2] at a2'; injection a2' with a2'; subst a2'
          rw [b1] at b1'; injection b1' with b1'
          rw [b2] at b2'; injection b2' with b2'
          exact hb ⟨b1', b2'⟩
        constructor
        · rintro ⟨m, hm, r', hc'⟩
          rw [CP.updateModes, List.foldlM_cons, hu, bind_ok]
          apply i1
          rcases List.mem_cons.1 hm with rfl | hm
          · exact absurd ⟨r', hc'⟩ hnk
          · exact ⟨m, hm, r', (hmc _ _ _ _).2 hc'⟩
        · intro hno
          obtain ⟨s', e⟩ := i2 (by
            rintro ⟨m, hm, r', hc'⟩
            exact hno ⟨m, by simp [hm], r', (hmc _ _ _ _).1 hc'⟩)
          refine ⟨s', ?_⟩
          rw [CP.updateModes, List.foldlM_cons, hu, bind_ok]
          exact e
  obtain ⟨k1, k2⟩ := key (List.range s.X.shape.length) s h hcc hcfg (by simp)
  have hok : (¬ ∃ m < s.X.shape.length, ∃ ridge, s.ModeConfig o m true true ridge) →
      ∃ s', CP.iteration E o s = .ok s' := by
    intro hno
    obtain ⟨s1, e1⟩ := k2 (by simpa using hno)
    obtain ⟨ha, hb, -⟩ := C35_updateModes h hcc (by simp) e1
    exact ⟨_, by rw [CP.iteration, CP.updateFactors, e1, bind_ok, CP.updateConvergence, C35_sse ha hb, bind_ok]; rfl⟩
  refine ⟨⟨fun he => ?_, fun hex => ?_⟩, hok⟩
  · by_contra hno
    obtain ⟨s', e⟩ := hok hno
    rw [he] at e
    cases e
  · rw [CP.iteration, CP.updateFactors, k1 (by simpa using hex)]; rfl

/-! ### the hypotheses are met -/

/-- A rank-2 state for a `2 × 3` tensor. -/
def exampleState (nn on : List Bool) : CPState where
  X := ofMat 2 3 fun i j => i + 2 * j
  XNorm := frobNorm (ofMat 2 3 fun i j => (i : ℝ) + 2 * j)
  dec := ⟨2, [ofMat 2 2 fun i j => i - j, ofMat 3 2 fun i j => i * j + 1], full [2] 1⟩
  nonNeg := some nn
  orth := some on
  lastMode := none
  cache := none
  relChange := .pinf
  prevSSE := 0

theorem exampleState_sized (nn on : List Bool) : (exampleState nn on).Sized 2 :=
  ⟨⟨rfl, by simp [Factors, exampleState], rfl⟩, by simp [exampleState], by simp [exampleState]⟩

theorem exampleState_cached (nn on : List Bool) : (exampleState nn on).Cached 2 :=
  ⟨by simp only [exampleState, frobNorm, sum_data], by simp [exampleState]⟩

example : (exampleState [false, false] [false, false]).Unconstrained ∧
    (∀ r < 2, (exampleState [false, false] [false, false]).dec.weights.get [r] = 1) := by
  refine ⟨⟨⟨_, rfl, ?_⟩, ⟨_, rfl, ?_⟩⟩, ?_⟩
  · intro m hm
    have : m < 2 := hm
    interval_cases m <;> rfl
  · intro m hm
    have : m < 2 := hm
    interval_cases m <;> rfl
  · intro r hr
    simp [exampleState, hr]

example : (exampleState [false, true] [true, false]).ModeConfig ⟨2, 0, 0, some [1, 1 / 2]⟩ 1 true false (some (1 / 2)) :=
  ⟨⟨_, rfl, rfl⟩, ⟨_, rfl, rfl⟩, Or.inr ⟨_, _, rfl, rfl, rfl⟩⟩

example : (exampleState [false, true] [true, true]).ModeConfig ⟨2, 0, 0, none⟩ 1 true true none :=
  ⟨⟨_, rfl, rfl⟩, ⟨_, rfl, rfl⟩, Or.inl ⟨rfl, rfl⟩⟩

end
end TK
