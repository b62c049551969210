import Verif.Props.ContinueP2

/-!
# C107 for `Parafac2_ALS` with an orthonormality constraint

The inner decomposer keeps the matrix of a constrained mode to itself (C55), so that `continue_fit`, which makes a new inner
decomposer (parafac2.py:391), loses it: it starts again from the matrix of the decomposition, which is still the initial one.
-/

namespace TK
open NDArray Matrix
open EStateM (Result)
open Fit

noncomputable section

/-! ## Solving with one column -/

/-- `rightsolve` with a `1 × 1` matrix is division. -/
theorem rightsolve_one {E : Ext} (hE : E.SVDOk) {A B X : NDArray ℝ} {p : ℕ} (hA : A.shape = [1, 1]) (hB : B.shape = [p, 1])
    (h0 : A.get [0, 0] ≠ 0) (e : rightsolve E A B = .ok X) {i : ℕ} (hi : i < p) : X.get [i, 0] = B.get [i, 0] / A.get [0, 0] := by
  obtain ⟨X', e', -, h1, -, -⟩ := C11_rightsolve hE hA hB
  rw [e] at e'
  obtain rfl := Except.ok.inj e'
  have h2 := h1 (ofMat p 1 fun i _ => B.get [i, 0] / A.get [0, 0])
  have h3 : resid (ofMat p 1 fun i _ => B.get [i, 0] / A.get [0, 0]) A B p 1 1 = 0 := by
    unfold resid
    refine Finset.sum_eq_zero fun i hi => ?_
    simp only [Finset.sum_range_one]
    rw [get_ofMat (Finset.mem_range.1 hi) (by norm_num), div_mul_cancel₀ _ h0, sub_self]
    norm_num
  rw [h3] at h2
  have h4 : ∀ i ∈ Finset.range p, 0 ≤ ∑ j ∈ Finset.range 1, ((∑ l ∈ Finset.range 1, X.get [i, l] * A.get [l, j]) - B.get [i, j]) ^ 2 :=
    fun i _ => Finset.sum_nonneg fun _ _ => sq_nonneg _
  have h5 := (Finset.sum_eq_zero_iff_of_nonneg h4).1 (le_antisymm h2 (Finset.sum_nonneg h4)) i (Finset.mem_range.2 hi)
  simp only [Finset.sum_range_one] at h5
  have h6 : X.get [i, 0] * A.get [0, 0] - B.get [i, 0] = 0 := by
    simpa using h5
  rw [eq_div_iff h0]; linarith

/-- `orthogonal_solve` with one column is the normalisation of a vector. -/
theorem orthogonalSolve_one {E : Ext} (hE : E.SVDOk) {A B : NDArray ℝ} {n m : ℕ} (hA : A.shape = [n, 1]) (hB : B.shape = [n, m])
    (hm : m ≤ 10 ^ 15) {j0 : ℕ} (hj0 : j0 < m) (hc0 : ∑ i ∈ Finset.range n, B.get [i, j0] * A.get [i, 0] ≠ 0) :
    ∃ X, orthogonalSolve E A B = .ok X ∧ X.shape = [1, m] ∧ ∃ N : ℝ, 0 < N ∧
      N ^ 2 = ∑ j ∈ Finset.range m, (∑ i ∈ Finset.range n, B.get [i, j] * A.get [i, 0]) ^ 2 ∧
      ∀ j < m, N * X.get [0, j] = ∑ i ∈ Finset.range n, B.get [i, j] * A.get [i, 0] := by
  obtain ⟨C, U, S, Vh, X, -, -, h1, h2, h3, h4, h5⟩ := orthogonalSolve_mat hE hA hB one_pos (by omega)
  have hU := h2.shapeU
  have h6 := h2.svd
  have hsh : U.shape.foldr max 0 = m := by rw [hU]; simp
  have hk : min m 1 = 1 := by omega
  generalize min m 1 = k at h5 h6 hk
  subst hk
  have hC : ∀ j : Fin m, ∑ i ∈ Finset.range n, B.get [i, (j : ℕ)] * A.get [i, 0]
      = U.get [(j : ℕ), 0] * S.get [0] * Vh.get [0, 0] := by
    intro j
    have := congrFun (congrFun h6.eq j) 0
    rw [h1] at this
    simpa [Matrix.mul_apply, mat, vec, Matrix.diagonal, Finset.sum_range] using this
  have hV : Vh.get [0, 0] ^ 2 = 1 := by
    have := congrFun (congrFun h6.right 0) 0
    simpa [Matrix.mul_apply, mat, sq] using this
  have hU1 : ∑ j : Fin m, U.get [(j : ℕ), 0] ^ 2 = 1 := by
    have := congrFun (congrFun h6.left 0) 0
    simpa [Matrix.mul_apply, mat, sq] using this
  have hS : 0 < S.get [0] := by
    refine lt_of_le_of_ne (h6.nonneg 0) fun h0 => hc0 ?_
    have h0 : 0 = S.get [0] := h0
    have := hC ⟨j0, hj0⟩
    simp only [← h0, mul_zero, zero_mul] at this
    exact this
  have hkeep : keepVec U S 1 0 = 1 := by
    unfold keepVec
    refine if_pos ?_
    show orthTol U S < S.get [0]
    unfold orthTol
    rw [hsh]
    have : (m : ℝ) ≤ 10 ^ 15 := by exact_mod_cast hm
    have h7 : (m : ℝ) * 1e-16 < 1 := by
      calc (m : ℝ) * 1e-16 ≤ 10 ^ 15 * 1e-16 := by gcongr
        _ < 1 := by norm_num
    nlinarith
  have hX : ∀ j : Fin m, X.get [0, (j : ℕ)] = Vh.get [0, 0] * U.get [(j : ℕ), 0] := by
    intro j
    have := congrFun (congrFun h5 0) j
    simpa [LA.procrustes, Matrix.mul_apply, mat, Matrix.diagonal, hkeep] using this
  refine ⟨X, h3, h4, S.get [0], hS, ?_, ?_⟩
  · rw [Finset.sum_range]
    simp only [hC]
    calc S.get [0] ^ 2 = S.get [0] ^ 2 * (∑ j : Fin m, U.get [(j : ℕ), 0] ^ 2) * Vh.get [0, 0] ^ 2 := by rw [hU1, hV]; ring
      _ = ∑ j : Fin m, (U.get [(j : ℕ), 0] * S.get [0] * Vh.get [0, 0]) ^ 2 := by
        rw [Finset.mul_sum, Finset.sum_mul]
        exact Finset.sum_congr rfl fun j _ => by ring
  · intro j hj
    rw [hX ⟨j, hj⟩, hC ⟨j, hj⟩]; ring

/-! ## One sweep of the inner decomposer -/

/-- A sweep of `CP_ALS` with rank 1 on a `1 × 1 × 2` tensor `(x₁, x₂)`, with an orthonormality constraint on the last mode. -/
theorem cp_sweep_112 {E : Ext} (hE : E.SVDOk) (hN : E.NNLSOk) {o : CPOpts} (hr : o.rank = 1) (hridge : o.ridgePenalties = none)
    {t f : CPState} (ht : t.Sized 1) (hsh : t.X.shape = [1, 1, 2]) (hnn : t.nonNeg = some [false, false, false])
    (hon : t.orth = some [false, false, true]) {A D Q : NDArray ℝ} (hf : t.dec.factorMatrices = [A, D, Q]) {d q1 q2 x1 x2 : ℝ}
    (hd : D.get [0, 0] = d) (hq1 : Q.get [0, 0] = q1) (hq2 : Q.get [1, 0] = q2)
    (hx1 : t.X.get [0, 0, 0] = x1) (hx2 : t.X.get [0, 0, 1] = x2) (hd0 : d ≠ 0) (hq : q1 ^ 2 + q2 ^ 2 = 1)
    (hg : x1 * q1 + x2 * q2 ≠ 0) (hx : x1 ≠ 0) (e : CP.updateFactors E o t = .ok f) :
    ∃ A' D' Q', f.dec.factorMatrices = [A', D', Q'] ∧ A'.get [0, 0] = (x1 * q1 + x2 * q2) / d ∧ D'.get [0, 0] = d ∧
      Q'.get [0, 0] ^ 2 + Q'.get [1, 0] ^ 2 = 1 ∧ (x1 * Q'.get [0, 0] + x2 * Q'.get [1, 0]) ^ 2 = x1 ^ 2 + x2 ^ 2 := by
  rw [← hr] at ht
  have hdim : t.X.shape.length = 3 := by rw [hsh]; rfl
  have cfg : ∀ (t' : CPState), t'.nonNeg = t.nonNeg → t'.orth = t.orth → t'.ModeConfig o 0 false false none ∧
      t'.ModeConfig o 1 false false none ∧ t'.ModeConfig o 2 false true none := by
    intro t' h1 h2
    exact ⟨⟨⟨_, h1.trans hnn, rfl⟩, ⟨_, h2.trans hon, rfl⟩, .inl ⟨hridge, rfl⟩⟩,
      ⟨⟨_, h1.trans hnn, rfl⟩, ⟨_, h2.trans hon, rfl⟩, .inl ⟨hridge, rfl⟩⟩,
      ⟨⟨_, h1.trans hnn, rfl⟩, ⟨_, h2.trans hon, rfl⟩, .inl ⟨hridge, rfl⟩⟩⟩
  obtain ⟨F0, e0, s0, u0⟩ := updateFactor_total hE hN ht (by omega) (show 0 < t.X.shape.length by omega) (cfg t rfl rfl).1 (by simp)
  have ht1 := ht.updated s0
  obtain ⟨F1, e1, s1, u1⟩ := updateFactor_total hE hN ht1 (by omega) (show 1 < t.X.shape.length by omega) (cfg (t.updated 0 o.rank F0) rfl rfl).2.1 (by simp)
  have ht2 := ht1.updated s1
  obtain ⟨F2, e2, s2, u2⟩ := updateFactor_total hE hN ht2 (by omega) (show 2 < t.X.shape.length by omega) (cfg ((t.updated 0 o.rank F0).updated 1 o.rank F1) rfl rfl).2.2 (by simp)
  have hfin : f = ((t.updated 0 o.rank F0).updated 1 o.rank F1).updated 2 o.rank F2 := by
    have h3 : CP.updateFactors E o t = .ok (((t.updated 0 o.rank F0).updated 1 o.rank F1).updated 2 o.rank F2) := by
      rw [CP.updateFactors, hdim, CP.updateModes]
      show (CP.updateFactor E o 0 t >>= _) = _
      rw [u0, bind_ok]
      show (CP.updateFactor E o 1 _ >>= _) = _
      rw [u1, bind_ok]
      show (CP.updateFactor E o 2 _ >>= _) = _
      rw [u2, bind_ok]; rfl
    rw [e] at h3
    exact Except.ok.inj h3
  have f1 : (t.updated 0 o.rank F0).dec.factorMatrices = [F0, D, Q] := by
    show t.dec.factorMatrices.set 0 F0 = _
    rw [hf]; rfl
  have f2 : ((t.updated 0 o.rank F0).updated 1 o.rank F1).dec.factorMatrices = [F0, F1, Q] := by
    show (t.updated 0 o.rank F0).dec.factorMatrices.set 1 F1 = _
    rw [f1]; rfl
  have f3 : f.dec.factorMatrices = [F0, F1, F2] := by
    rw [hfin]
    show ((t.updated 0 o.rank F0).updated 1 o.rank F1).dec.factorMatrices.set 2 F2 = _
    rw [f2]; rfl
  have hX1 : (t.updated 0 o.rank F0).X = t.X := rfl
  have hX2 : ((t.updated 0 o.rank F0).updated 1 o.rank F1).X = t.X := rfl
  have hD1 : D.shape = [1, 1] := by
    have := ht.wf.factors; rw [hf, hsh, hr] at this
    cases this with | cons _ h => cases h with | cons h _ => exact h
  have hQ1 : Q.shape = [2, 1] := by
    have := ht.wf.factors; rw [hf, hsh, hr] at this
    cases this with | cons _ h => cases h with | cons _ h => cases h with | cons h _ => exact h
  rw [hsh, hr] at s0
  rw [hX1, hsh, hr] at s1
  rw [hX2, hsh, hr] at s2
  rw [hf, hr] at e0
  rw [f1, hX1, hr] at e1
  rw [f2, hX2, hr] at e2
  have s0 : F0.shape = [1, 1] := s0
  have s1 : F1.shape = [1, 1] := s1
  have s2 : F2.shape = [2, 1] := s2
  simp only [withRidge, baseSolve, Bool.false_eq_true, if_false, if_true] at e0 e1 e2
  have m0 : ∀ A D Q : NDArray ℝ, mttkrpEntry t.X [A, D, Q] 0 0 0 = (x1 * Q.get [0, 0] + x2 * Q.get [1, 0]) * D.get [0, 0] := by
    intro A D Q
    simp [mttkrpEntry, hsh, sumIdx, rankOne, Finset.sum_range_succ, hx1, hx2]
    ring
  have m1 : ∀ A D Q : NDArray ℝ, mttkrpEntry t.X [A, D, Q] 1 0 0 = (x1 * Q.get [0, 0] + x2 * Q.get [1, 0]) * A.get [0, 0] := by
    intro A D Q
    simp [mttkrpEntry, hsh, sumIdx, rankOne, Finset.sum_range_succ, hx1, hx2]
    ring
  have m2 : ∀ A D Q : NDArray ℝ, mttkrpEntry t.X [A, D, Q] 2 0 0 = x1 * (A.get [0, 0] * D.get [0, 0]) ∧
      mttkrpEntry t.X [A, D, Q] 2 1 0 = x2 * (A.get [0, 0] * D.get [0, 0]) := by
    intro A D Q
    constructor <;> simp [mttkrpEntry, hsh, sumIdx, rankOne, hx1, hx2]
  have g11 : ∀ F G : NDArray ℝ, F.shape = [1, 1] → G.shape = [1, 1] → gramProd [F, G] 0 0 = F.get [0, 0] ^ 2 * G.get [0, 0] ^ 2 := by
    intro F G h1 h2
    simp [gramProd, gramEntry, h1, h2, sq]
  have g12 : ∀ F G : NDArray ℝ, F.shape = [1, 1] → G.shape = [2, 1] →
      gramProd [F, G] 0 0 = F.get [0, 0] ^ 2 * (G.get [0, 0] ^ 2 + G.get [1, 0] ^ 2) := by
    intro F G h1 h2
    simp [gramProd, gramEntry, h1, h2, sq, Finset.sum_range_succ]
  have ha : F0.get [0, 0] = (x1 * q1 + x2 * q2) / d := by
    have hA : (ofMat 1 1 fun a b => gramProd ([A, D, Q].eraseIdx 0) a b).get [0, 0] = d ^ 2 := by
      rw [get_ofMat (by norm_num) (by norm_num)]
      show gramProd [D, Q] 0 0 = _
      rw [g12 D Q hD1 hQ1, hd, hq1, hq2, hq, mul_one]
    rw [rightsolve_one hE (p := 1) (shape_ofMat _ _ _) (by rw [mttkrpMat, shape_ofMat, hsh]; rfl)
      (by rw [hA]; exact pow_ne_zero 2 hd0) e0 (by norm_num), hA, mttkrpMat, get_ofMat (by rw [hsh]; norm_num) (by norm_num), m0,
      hd, hq1, hq2]
    field_simp
  have ha0 : F0.get [0, 0] ≠ 0 := by rw [ha]; exact div_ne_zero hg hd0
  have hd' : F1.get [0, 0] = d := by
    have hA : (ofMat 1 1 fun a b => gramProd ([F0, D, Q].eraseIdx 1) a b).get [0, 0] = F0.get [0, 0] ^ 2 := by
      rw [get_ofMat (by norm_num) (by norm_num)]
      show gramProd [F0, Q] 0 0 = _
      rw [g12 F0 Q s0 hQ1, hq1, hq2, hq, mul_one]
    rw [rightsolve_one hE (p := 1) (shape_ofMat _ _ _) (by rw [mttkrpMat, shape_ofMat, hsh]; rfl)
      (by rw [hA]; exact pow_ne_zero 2 ha0) e1 (by norm_num), hA, mttkrpMat, get_ofMat (by rw [hsh]; norm_num) (by norm_num), m1,
      hq1, hq2]
    rw [ha]
    field_simp
  refine ⟨F0, F1, F2, f3, ha, hd', ?_⟩
  -- the constrained mode
  set W := ofMat 1 1 fun a b => gramProd ([F0, F1, Q].eraseIdx 2) a b with hW
  set V := mttkrpMat t.X [F0, F1, Q] 2 1 with hV
  have hWs : W.shape = [1, 1] := shape_ofMat _ _ _
  have hVs : V.shape = [2, 1] := by rw [hV, mttkrpMat, shape_ofMat, hsh]; rfl
  have hWv : W.get [0, 0] = F0.get [0, 0] ^ 2 * d ^ 2 := by
    rw [hW, get_ofMat (by norm_num) (by norm_num)]
    show gramProd [F0, F1] 0 0 = _
    rw [g11 F0 F1 s0 s1, hd']
  have hV0 : V.get [0, 0] = x1 * (F0.get [0, 0] * d) := by
    rw [hV, mttkrpMat, get_ofMat (by rw [hsh]; norm_num) (by norm_num), (m2 _ _ _).1, hd']
  have hV1 : V.get [1, 0] = x2 * (F0.get [0, 0] * d) := by
    rw [hV, mttkrpMat, get_ofMat (by rw [hsh]; norm_num) (by norm_num), (m2 _ _ _).2, hd']
  set κ := F0.get [0, 0] ^ 3 * d ^ 3 with hκ
  have hκ0 : κ ≠ 0 := mul_ne_zero (pow_ne_zero 3 ha0) (pow_ne_zero 3 hd0)
  have c0 : ∑ i ∈ Finset.range 1, V.T.get [i, 0] * W.T.get [i, 0] = x1 * κ := by
    rw [Finset.sum_range_one, get_T hVs (by norm_num) (by norm_num), get_T hWs (by norm_num) (by norm_num), hV0, hWv, hκ]; ring
  have c1 : ∑ i ∈ Finset.range 1, V.T.get [i, 1] * W.T.get [i, 0] = x2 * κ := by
    rw [Finset.sum_range_one, get_T hVs (by norm_num) (by norm_num), get_T hWs (by norm_num) (by norm_num), hV1, hWv, hκ]; ring
  obtain ⟨Y, eY, sY, N, hN0, hN2, hNY⟩ := orthogonalSolve_one hE (shape_T hWs) (shape_T hVs) (by norm_num) (j0 := 0) (by norm_num)
    (by rw [c0]; exact mul_ne_zero hx hκ0)
  rw [orthogonalRightsolve, eY, bind_ok] at e2
  obtain rfl : Y.T = F2 := Except.ok.inj e2
  rw [get_T sY (by norm_num) (by norm_num), get_T sY (by norm_num) (by norm_num)]
  have y0 := hNY 0 (by norm_num)
  have y1 := hNY 1 (by norm_num)
  rw [c0] at y0
  rw [c1] at y1
  rw [Finset.sum_range_succ, Finset.sum_range_one, c0, c1] at hN2
  have hNN : N ^ 2 ≠ 0 := pow_ne_zero 2 hN0.ne'
  constructor
  · refine mul_left_cancel₀ hNN ?_
    calc N ^ 2 * (Y.get [0, 0] ^ 2 + Y.get [0, 1] ^ 2) = (N * Y.get [0, 0]) ^ 2 + (N * Y.get [0, 1]) ^ 2 := by ring
      _ = N ^ 2 * 1 := by rw [y0, y1, hN2]; ring
  · refine mul_left_cancel₀ hNN ?_
    calc N ^ 2 * (x1 * Y.get [0, 0] + x2 * Y.get [0, 1]) ^ 2 = (x1 * (N * Y.get [0, 0]) + x2 * (N * Y.get [0, 1])) ^ 2 := by ring
      _ = N ^ 2 * (x1 ^ 2 + x2 ^ 2) := by rw [y0, y1, hN2]; ring

/-! ## One iteration -/

/-- Rank 1, an orthonormality constraint on the last mode, no tolerance. -/
def o107 (g : List ℕ → ℝ) : P2Opts := ⟨1, 0, 1, none, none, some [false, false, true], g⟩

/-- Slices `(3)` and `(4)`, `C = (1, 1)`, `A` and `D` are `a` and `d`; the inner decomposer works on these two and on a matrix of its own,
`(q₁, q₂)`. -/
structure Orth107 (g : List ℕ → ℝ) (s : P2State) (a d q1 q2 : ℝ) : Prop where
  nodup : s.dec.P.Nodup
  X : s.X = [one1 3, one1 4]
  C0 : s.C.get [0, 0] = 1
  C1 : s.C.get [1, 0] = 1
  A : s.A.get [0, 0] = a
  D : s.D.get [0, 0] = d
  inner : ∃ c x, s.Working (o107 g) 1 [1, 1] c ∧ c.addrs = [s.dec.A, s.dec.blueprint, x] ∧ c.st.nonNeg = some [false, false, false] ∧
    c.st.orth = some [false, false, true] ∧ s.dec.C ∉ c.addrs ∧ (s.heap.mem x).get [0, 0] = q1 ∧ (s.heap.mem x).get [1, 0] = q2

theorem Orth107.step {E : Ext} (hE : E.SVDOk) (hN : E.NNLSOk) {g : List ℕ → ℝ} {s : P2State} {a d q1 q2 : ℝ}
    (h : Orth107 g s a d q1 q2) (ha : a ≠ 0) (hd : d ≠ 0) (hq : q1 ^ 2 + q2 ^ 2 = 1) (hg : 3 * q1 + 4 * q2 ≠ 0) :
    ∃ s' a' q1' q2', P2.iteration E (o107 g) s = .ok s' ∧ Orth107 g s' a' d q1' q2' ∧ s'.dec = s.dec ∧
      a' ^ 2 * d ^ 2 = (3 * q1 + 4 * q2) ^ 2 ∧ q1' ^ 2 + q2' ^ 2 = 1 ∧ (3 * q1' + 4 * q2') ^ 2 = 25 := by
  obtain ⟨c, x, hw, hadr, hnn, hon, hC, hx0, hx1⟩ := h.inner
  obtain ⟨s', c', f, e, hw', ha', hn', ho', hdec, hX', -, -, -, -, hP, ⟨ef, hf⟩, hout, -⟩ := P2State.iteration_ok hE hN hw
  have key : ∀ k < 2, ∀ v : ℝ, 0 < v → (nth s.X k).shape = [1, 1] → (nth s.X k).get [0, 0] = v → s.C.get [k, 0] = 1 →
      |a * d| * (nth s'.P k).get [0, 0] = a * d := by
    intro k hk v hv hsh hval hCk
    obtain ⟨k', hlu, hnew⟩ := hP k hk
    rw [hlu.eq_of_nodup h.nodup hw.sized.lenP hk] at hnew
    obtain ⟨-, Q, eQ, hQ⟩ := hnew
    have hs : (p2Score s.A s.D s.C 1 1 k).get [0, 0] = a * d := by
      rw [p2Score, get_ofMat (by norm_num) (by norm_num), Finset.sum_range_one, hCk, h.A, h.D]; ring
    have hc : ∑ i ∈ Finset.range 1, (nth s.X k).get [i, 0] * (p2Score s.A s.D s.C 1 1 k).get [i, 0] = v * (a * d) := by
      rw [Finset.sum_range_one, hval, hs]
    obtain ⟨Y, eY, sY, N, hN0, hN2, hNY⟩ := orthogonalSolve_one hE (A := p2Score s.A s.D s.C 1 1 k) (shape_ofMat 1 1 _) hsh (by norm_num)
      (j0 := 0) (by norm_num) (by rw [hc]; exact mul_ne_zero hv.ne' (mul_ne_zero ha hd))
    have eQ : orthogonalSolve E (p2Score s.A s.D s.C 1 1 k) (nth s.X k) = .ok Q := eQ
    rw [eY] at eQ
    obtain rfl := Except.ok.inj eQ
    rw [Finset.sum_range_one, hc] at hN2
    have hNv : N = v * |a * d| := by
      have : N ^ 2 = (v * |a * d|) ^ 2 := by rw [hN2, mul_pow v |a * d|, sq_abs]; ring
      exact (pow_left_inj₀ hN0.le (by positivity) (by norm_num)).1 this
    have := hNY 0 (by norm_num)
    rw [hc, hNv, mul_assoc] at this
    rw [hQ, get_T sY (by norm_num) (by norm_num)]
    exact mul_left_cancel₀ hv.ne' this
  have k0 := key 0 (by norm_num) 3 (by norm_num) (by rw [h.X]; rfl) (by rw [h.X]; exact get_one1 _) h.C0
  have k1 := key 1 (by norm_num) 4 (by norm_num) (by rw [h.X]; rfl) (by rw [h.X]; exact get_one1 _) h.C1
  have hab : |a * d| ≠ 0 := abs_ne_zero.2 (mul_ne_zero ha hd)
  set p := (nth s'.P 0).get [0, 0] with hp
  have hp1 : (nth s'.P 1).get [0, 0] = p := mul_left_cancel₀ hab (k1.trans k0.symm)
  have hpp : p ^ 2 = 1 := by
    have : |a * d| ^ 2 * p ^ 2 = |a * d| ^ 2 * 1 := by rw [← mul_pow, k0, sq_abs, mul_one]
    exact mul_left_cancel₀ (pow_ne_zero 2 hab) this
  have hp0 : p ≠ 0 := fun h0 => by rw [h0] at hpp; norm_num at hpp
  have ef : CP.updateFactors E (P2.innerOpts (o107 g)) ((c.setTarget (p2Projected s.X s'.P 1 [1, 1] 1)).read s.heap) = .ok f := by
    change (CP.updateFactors E (P2.innerOpts (o107 g)) _ >>= fun t => Except.ok t) = _ at ef
    obtain ⟨t, e1, e2⟩ := bind_eq_ok.1 ef
    cases e2
    exact e1
  have hsz := hw.ready.sized hw.sized s'.P
  obtain ⟨A', D', Q', hfs, v1, v2, v3, v4⟩ := cp_sweep_112 hE hN (o := P2.innerOpts (o107 g)) rfl rfl hsz (by rfl) hnn hon
    (A := s.heap.mem s.dec.A) (D := s.heap.mem s.dec.blueprint) (Q := s.heap.mem x)
    (by show c.addrs.map s.heap.mem = _; rw [hadr]; rfl) (d := d) (q1 := q1) (q2 := q2) (x1 := 3 * p) (x2 := 4 * p) h.D hx0 hx1
    (by
      show (p2Projected s.X s'.P 1 [1, 1] 1).get [0, 0, 0] = _
      rw [p2Projected, get_ofFn (by simp)]
      show ∑ j ∈ Finset.range 1, (nth s.X 0).get [0, j] * (nth s'.P 0).get [j, 0] = _
      rw [Finset.sum_range_one, h.X]
      show (one1 3).get [0, 0] * _ = _
      rw [get_one1])
    (by
      show (p2Projected s.X s'.P 1 [1, 1] 1).get [0, 0, 1] = _
      rw [p2Projected, get_ofFn (by simp)]
      show ∑ j ∈ Finset.range 1, (nth s.X 1).get [0, j] * (nth s'.P 1).get [j, 0] = _
      rw [Finset.sum_range_one, h.X]
      show (one1 4).get [0, 0] * _ = _
      rw [get_one1, hp1])
    hd hq (by rw [show 3 * p * q1 + 4 * p * q2 = p * (3 * q1 + 4 * q2) by ring]; exact mul_ne_zero hp0 hg)
    (mul_ne_zero (by norm_num) hp0) ef
  rw [ha', hadr, hfs] at hf
  simp only [List.map_cons, List.map_nil, List.cons.injEq, and_true] at hf
  obtain ⟨hfA, hfD, hfQ⟩ := hf
  have hCs : s'.C = s.C := by
    show s'.heap.mem s'.dec.C = _
    rw [hdec]
    exact hout _ hC hw.apart.C
  refine ⟨s', A'.get [0, 0], Q'.get [0, 0], Q'.get [1, 0], e, ⟨by rw [hdec]; exact h.nodup, hX'.trans h.X, by rw [hCs]; exact h.C0, by rw [hCs]; exact h.C1, ?_, ?_,
    ⟨c', x, hw', by rw [ha', hadr, hdec], hn'.trans hnn, ho'.trans hon, by rw [ha', hdec]; exact hC, by rw [hfQ], by rw [hfQ]⟩⟩, hdec, ?_, v3, ?_⟩
  · show (s'.heap.mem s'.dec.A).get _ = _
    rw [hdec, hfA]
  · show (s'.heap.mem s'.dec.blueprint).get _ = _
    rw [hdec, hfD, v2]
  · rw [v1, div_pow, div_mul_cancel₀ _ (pow_ne_zero 2 hd)]
    calc (3 * p * q1 + 4 * p * q2) ^ 2 = p ^ 2 * (3 * q1 + 4 * q2) ^ 2 := by ring
      _ = _ := by rw [hpp, one_mul]
  · have : p ^ 2 * (3 * Q'.get [0, 0] + 4 * Q'.get [1, 0]) ^ 2 = p ^ 2 * 25 := by
      calc _ = (3 * p * Q'.get [0, 0] + 4 * p * Q'.get [1, 0]) ^ 2 := by ring
        _ = _ := by rw [v4]; ring
    exact mul_left_cancel₀ (pow_ne_zero 2 hp0) this

/-! ## The new inner decomposer -/

/-- The inner matrix of the constrained mode is the `Q` of the matrix of the decomposition. -/
theorem p2_prepare_qr {E : Ext} {o : P2Opts} (ho : o.orth = some [false, false, true]) {s s' : P2State}
    (e : P2.prepareCp E o s = .ok s') :
    ∃ c, s'.inner = some c ∧ c.addrs = [s.dec.A, s.dec.blueprint, s.heap.next] ∧ s'.heap.mem s.heap.next = (E.qr s.C).1 := by
  unfold P2.prepareCp CPObj.initFit at e
  simp only [bind_eq_ok, pure_eq_ok] at e
  obtain ⟨X, -, ⟨h', c⟩, ⟨t, et, -, -, f, ef, e1⟩, rfl⟩ := e
  have h1 := cp_initFit_inv ef
  have ht : t.factorMatrices = [s.A, s.D, s.C] := by
    unfold KruskalTensor.init at et
    simp only [bind_eq_ok, pure_eq_ok] at et
    obtain ⟨-, -, -, -, -, -, rfl⟩ := et
    rfl
  have hfo : f.orth = some [false, false, true] := by
    unfold CP.initFit at ef
    simp only [bind_eq_ok, pure_eq_ok] at ef
    obtain ⟨-, -, -, -, rfl⟩ := ef
    show some (o.orth.getD _) = _
    rw [ho]; rfl
  rw [ht, show (CP.fresh (some (P2.nonNegOption o)) o.orth).orth = some [false, false, true] from ho] at h1
  have h2 : f.dec.factorMatrices = [s.A, s.D, (E.qr s.C).1] := (Except.ok.inj h1).symm
  rw [hfo, h2] at e1
  simp only [Option.getD_some, CPObj.rebind, Bool.false_eq_true, if_false, if_true, Heap.alloc, Prod.mk.injEq] at e1
  obtain ⟨rfl, rfl⟩ := e1
  refine ⟨_, rfl, rfl, ?_⟩
  show Function.update s.heap.mem s.heap.next _ s.heap.next = _
  rw [Function.update_self]

theorem o107_admissible (g : List ℕ → ℝ) : P2.Admissible (o107 g) 1 2 where
  rank := by norm_num [P2.innerOpts, o107]
  order := by simp
  nonempty := by simp [o107]
  nonNegLen := by simp [P2.nonNegOption, o107]
  orthLen := by simp [o107]
  ridgeLen := by simp [P2.innerOpts, o107]
  orthRows := by
    intro l hl k hk
    obtain rfl : [false, false, true] = l := by injection hl
    match k with
    | 0 => simp at hk
    | 1 => simp at hk
    | 2 => simp [P2.innerOpts, o107]
    | _ + 3 => simp at hk
  notBoth := by
    intro l l' hl _ k hk
    obtain rfl : [false, false, false] = l := by injection hl
    match k with
    | 0 => simp at hk
    | 1 => simp at hk
    | 2 => simp at hk
    | _ + 3 => simp at hk

/-- A new inner decomposer starts from `C = (1, 1)` again, made orthonormal. -/
theorem Orth107.prepare {E : Ext} (hQ : E.QROk) {g : List ℕ → ℝ} {s : P2State} (h : s.Sized 1 [1, 1] 1) (hs : s.Separate)
    (hal : s.Allocated) (hX : s.X = [one1 3, one1 4]) (h0 : s.C.get [0, 0] = 1) (h1 : s.C.get [1, 0] = 1) :
    ∃ s' q, P2.prepareCp E (o107 g) s = .ok s' ∧ Orth107 g s' (s.A.get [0, 0]) (s.D.get [0, 0]) q q ∧ s'.dec = s.dec ∧
      q ^ 2 + q ^ 2 = 1 ∧ s'.Allocated := by
  obtain ⟨h', c, e, hw, hold, hnext, hnn, hon, -⟩ := P2State.prepareCp_ok (E := E) hQ (o := o107 g) h hs.distinct (o107_admissible g)
    (fun _ => hal)
  obtain ⟨c', hc, hadr, hqr⟩ := p2_prepare_qr rfl e
  obtain rfl : c = c' := by
    injection hc
  have hqr' := hQ s.C 2 1 h.C
  have hR : ∀ i (hi : i < 2), s.C.get [i, 0] = (E.qr s.C).1.get [i, 0] * (E.qr s.C).2.get [0, 0] := by
    intro i hi
    have := congrFun (congrFun hqr'.eq ⟨i, hi⟩) 0
    simpa [Matrix.mul_apply, mat, show min 2 1 = 1 from rfl] using this
  have hO : (E.qr s.C).1.get [0, 0] ^ 2 + (E.qr s.C).1.get [1, 0] ^ 2 = 1 := by
    have := congrFun (congrFun hqr'.orth (0 : Fin 1)) (0 : Fin 1)
    simpa [Matrix.mul_apply, mat, Fin.sum_univ_two, sq] using this
  have hq : (E.qr s.C).1.get [1, 0] = (E.qr s.C).1.get [0, 0] := by
    have r0 := hR 0 (by norm_num)
    have r1 := hR 1 (by norm_num)
    rw [h0] at r0
    rw [h1] at r1
    have hz : (E.qr s.C).2.get [0, 0] ≠ 0 := fun hz => by rw [hz, mul_zero] at r0; norm_num at r0
    exact mul_right_cancel₀ hz (r1.symm.trans r0)
  have hin : ∀ a ∈ s.dec.A :: s.dec.blueprint :: s.dec.C :: s.dec.P, h'.mem a = s.heap.mem a := fun a ha => hold a (hal a ha)
  have hCa : s.dec.C ∉ c.addrs := by
    rw [hadr]
    have := hs
    unfold P2State.Separate at this
    simp only [List.nodup_cons, List.mem_cons, not_or] at this
    have hlt : s.dec.C < s.heap.next := hal _ (by simp)
    simp only [List.mem_cons, List.not_mem_nil, or_false, not_or]
    exact ⟨fun h => this.1.2.1 h.symm, fun h => this.2.1.1 h.symm, ne_of_lt hlt⟩
  refine ⟨_, (E.qr s.C).1.get [0, 0], e, ⟨P2State.Separate.nodup hs, hX, ?_, ?_, ?_, ?_, ⟨c, s.heap.next, hw, hadr, hnn, hon, hCa, ?_, ?_⟩⟩, rfl, ?_, ?_⟩
  · show (h'.mem s.dec.C).get _ = _
    rw [hin _ (by simp)]; exact h0
  · show (h'.mem s.dec.C).get _ = _
    rw [hin _ (by simp)]; exact h1
  · show (h'.mem s.dec.A).get _ = _
    rw [hin _ (by simp)]; rfl
  · show (h'.mem s.dec.blueprint).get _ = _
    rw [hin _ (by simp)]; rfl
  · rw [hqr]
  · rw [hqr, hq]
  · rw [← hO, hq]
  · intro a ha
    exact lt_of_lt_of_le (hal a ha) hnext

theorem cpobj_updateModes_next {E : Ext} {o : CPOpts} : ∀ (ms : List ℕ) {p p' : Heap × CPObj}, CPObj.updateModes E o ms p = .ok p' →
    p'.1.next = p.1.next
  | [], p, p', e => by cases e; rfl
  | m :: ms, p, p', e => by
    simp only [CPObj.updateModes, List.foldlM_cons] at e
    obtain ⟨p1, e1, e2⟩ := bind_eq_ok.1 e
    rw [cpobj_updateModes_next ms e2]
    unfold CPObj.updateFactor at e1
    simp only [bind_eq_ok, pure_eq_ok] at e1
    obtain ⟨-, -, -, -, -, -, rfl⟩ := e1
    rfl

theorem cpobj_repeat_next {E : Ext} {o : CPOpts} : ∀ (n : ℕ) {p p' : Heap × CPObj}, CPObj.repeatUpdates E o n p = .ok p' →
    p'.1.next = p.1.next
  | 0, p, p', e => by cases e; rfl
  | n + 1, p, p', e => by
    rw [CPObj.repeatUpdates, bind_eq_ok] at e
    obtain ⟨p1, e1, e2⟩ := e
    rw [cpobj_repeat_next n e2, cpobj_updateModes_next _ e1]

theorem p2_projections_next {E : Ext} : ∀ (ks : List ℕ) {s s' : P2State}, ks.foldlM (P2.updateProjection E) s = .ok s' →
    s'.heap.next = s.heap.next
  | [], _, _, e => by cases e; rfl
  | k :: ks, s, s', e => by
    rw [List.foldlM_cons, bind_eq_ok] at e
    obtain ⟨s1, e1, e2⟩ := e
    rw [p2_projections_next ks e2]
    unfold P2.updateProjection at e1
    simp only [bind_eq_ok, pure_eq_ok] at e1
    obtain ⟨-, -, -, -, -, -, -, -, -, -, -, -, -, -, rfl⟩ := e1
    rfl

/-- An iteration makes no new arrays that stay. -/
theorem p2_iteration_next {E : Ext} {o : P2Opts} {s s' : P2State} (e : P2.iteration E o s = .ok s') : s'.heap.next = s.heap.next := by
  rw [P2.iteration, bind_eq_ok] at e
  obtain ⟨s2, e1, e2⟩ := e
  rw [P2.updateConvergence, bind_eq_ok] at e2
  obtain ⟨l, -, e3⟩ := e2
  obtain rfl := pure_eq_ok.1 e3
  rw [P2.updateFactors, bind_eq_ok] at e1
  obtain ⟨s3, e3, e4⟩ := e1
  rw [← p2_projections_next _ e3]
  cases hi : s3.inner with
  | none => rw [hi] at e4; cases e4
  | some c =>
    rw [hi] at e4
    simp only [bind_eq_ok, pure_eq_ok] at e4
    obtain ⟨X, -, p, e5, p2, e6, rfl⟩ := e4
    have h1 := cpobj_repeat_next _ e5
    unfold P2.absorbWeights at e6
    simp only [bind_eq_ok, pure_eq_ok] at e6
    obtain ⟨B, -, rfl⟩ := e6
    exact h1

/-! ## The witness -/

/-- `A = D = (1)`, `C = (1, 1)`, `P₁ = P₂ = (1)`. -/
def h107 : Heap := ⟨fun a => if a = 2 then full [2, 1] 1 else one1 1, 5⟩

/-- The decomposition with these arrays. -/
def d107 : P2Obj := ⟨1, 0, 1, 2, [3, 4], false, true, [(1, 1), (1, 1)], 2⟩

/-- **C107, refuted** for `Parafac2_ALS` with an orthonormality constraint on `C`: slices `(3)` and `(4)`, rank 1, tolerance 0, from
`A = D = (1)`, `C = (1, 1)`. All calls return, and all iterations are performed. After `fit(X, max_its=2)`, `A` is `±5`; after
`fit(X, max_its=1)` and `continue_fit(max_its=2)`, it is `±7/√2`. -/
theorem C107_parafac2_orthonormal_fails {E : Ext} (hE : E.SVDOk) (hN : E.NNLSOk) (hQ : E.QROk) {c : P2.Config}
    (hi : c.init.toLower = "precomputed") {g : List ℕ → ℝ} (ho : c.opts = o107 g) (hlog : c.logs = []) (hfreq : c.freq = none)
    (budget : Int) (loggers : List Logger) (file : Option H5File) :
    ∃ w1 w2 w3 : World P2State,
      P2.fit E c (.list [one1 3, one1 4]) (some 1) (.tensor d107) (P2.newObject h107 budget loggers file) = .ok () w1 ∧
      continueFit (P2.method E c) (some 2) w1 = .ok () w2 ∧
      P2.fit E c (.list [one1 3, one1 4]) (some 2) (.tensor d107) (P2.newObject h107 budget loggers file) = .ok () w3 ∧
      w2.it = 2 ∧ w3.it = 2 ∧ ((w2.st.dec.read w2.st.heap).A.get [0, 0]) ^ 2 = 49 / 2 ∧
      ((w3.st.dec.read w3.st.heap).A.get [0, 0]) ^ 2 = 25 := by
  have hr : c.opts.rank = 1 := by rw [ho]; rfl
  obtain ⟨s, hst, hsz, hdec, hheap, hX⟩ := p2_startsFrom_precomputed (E := E) (c := c) hi (I := 1) (Js := [1, 1]) one_pos
    (Xs := [one1 3, one1 4]) (.cons rfl (.cons rfl .nil)) (by norm_num) (by omega) (by simp) (h0 := h107) (d := d107)
    (by rw [hr]; rfl) (by rw [hr]; rfl) (by rw [hr]; rfl) (by rw [hr]; exact .cons rfl (.cons rfl .nil))
  have hs : s.Separate := by rw [P2State.Separate, hdec]; simp [d107]
  have hal : s.Allocated := by rw [P2State.Allocated, hdec, hheap]; simp [d107, h107]
  have hgo : ∀ t, P2.shouldStop c.opts t = .ok false := by
    intro t
    rw [P2.shouldStop, ho]
    cases hrc : t.relChange with
    | fin v => exact congrArg Except.ok (decide_eq_false (not_lt.2 (abs_nonneg v)))
    | pinf => rfl
    | ninf => rfl
    | nan => rfl
  have hmeas : c.Measurable 1 [1, 1] := by intro p hp; rw [hlog] at hp; cases hp
  have hadm : P2.Admissible c.opts 1 [1, 1].length := by rw [ho]; exact o107_admissible g
  have hf0 : freqOption c.freq ≠ 0 := by rw [hfreq]; decide
  obtain ⟨l, sp, w1, k, el, ep, -, f1, k1, k2, k3, k4, k5, -⟩ := C80_fit_completes hE hN hQ hst hsz hs.distinct hal hadm hmeas hf0
    (budget := budget) (mi := some 1) (loggers := loggers) (file := file) (p2_storing_none hfreq _ _)
  obtain ⟨l', sp', w3, k', el', ep', -, f3, m1, m2, m3, m4, m5, -⟩ := C80_fit_completes hE hN hQ hst hsz hs.distinct hal hadm hmeas hf0
    (budget := budget) (mi := some 2) (loggers := loggers) (file := file) (p2_storing_none hfreq _ _)
  obtain rfl : l = l' := Except.ok.inj (el.symm.trans el')
  obtain rfl : sp = sp' := Except.ok.inj (ep.symm.trans ep')
  obtain rfl : k = 1 := by
    by_contra hk
    have := k5 (show (k : Int) < 1 by have : (k : Int) ≤ max 0 1 := k1; omega)
    rw [hgo] at this
    cases this
  obtain rfl : k' = 2 := by
    by_contra hk
    have := m5 (show (k' : Int) < 2 by have : (k' : Int) ≤ max 0 2 := m1; omega)
    rw [hgo] at this
    cases this
  rw [hr] at hsz
  obtain ⟨t0, q, p1, p2, p3, p4, p5⟩ := Orth107.prepare (E := E) hQ (g := g) (s := s.withLoss .pinf l) (hsz.withLoss .pinf l)
    (hs.loss .pinf l) hal hX
    (by show (s.heap.mem s.dec.C).get _ = _; rw [hdec, hheap]; exact get_full (by simp))
    (by show (s.heap.mem s.dec.C).get _ = _; rw [hdec, hheap]; exact get_full (by simp))
  rw [ho, p1] at ep
  obtain rfl := Except.ok.inj ep
  have hA1 : (s.withLoss .pinf l).A.get [0, 0] = 1 := by
    show (s.heap.mem s.dec.A).get _ = _; rw [hdec, hheap]; exact get_one1 _
  have hD1 : (s.withLoss .pinf l).D.get [0, 0] = 1 := by
    show (s.heap.mem s.dec.blueprint).get _ = _; rw [hdec, hheap]; exact get_one1 _
  rw [hA1, hD1] at p2
  have hq0 : 3 * q + 4 * q ≠ 0 := by
    intro h0
    have : q = 0 := by linarith
    rw [this] at p4; norm_num at p4
  obtain ⟨t1, a1, q1, q2, i1, i2, i3, i4, i5, i6⟩ := p2.step hE hN one_ne_zero one_ne_zero p4 hq0
  have ha1 : a1 ≠ 0 := fun h0 => by
    rw [h0] at i4
    have : (3 * q + 4 * q) ^ 2 = 0 := by rw [← i4]; norm_num
    exact hq0 (pow_eq_zero_iff (by norm_num) |>.1 this)
  obtain ⟨t2, a2, q3, q4, j1, j2, j3, j4, -, -⟩ := i2.step hE hN ha1 one_ne_zero i5 (fun h0 => by rw [h0] at i6; norm_num at i6)
  have hw1 : w1.st = t1 := by
    have := (k4 0 (by norm_num)).1
    rw [ho, show P2.orbit E (o107 g) t0 0 = t0 from rfl, i1] at this
    rw [k3, ho]; exact (Except.ok.inj this).symm
  have hw3 : w3.st = t2 := by
    have h1 := (m4 0 (by norm_num)).1
    have h2 := (m4 1 (by norm_num)).1
    rw [ho, show P2.orbit E (o107 g) t0 0 = t0 from rfl, i1] at h1
    rw [ho, show P2.orbit E (o107 g) t0 1 = t1 from (Except.ok.inj h1).symm, j1] at h2
    rw [m3, ho]; exact (Except.ok.inj h2).symm
  -- the second part
  obtain ⟨c1, -, hwk, -⟩ := i2.inner
  obtain ⟨u0, q', n1, n2, n3, n4, n5⟩ := Orth107.prepare (E := E) hQ (g := g) hwk.sized
    (by rw [P2State.Separate, i3, p3]; exact hs)
    (by rw [P2State.Allocated, i3, p2_iteration_next i1]; exact p5) i2.X i2.C0 i2.C1
  rw [i2.A, i2.D] at n2
  have hq'0 : 3 * q' + 4 * q' ≠ 0 := by
    intro h0
    have : q' = 0 := by linarith
    rw [this] at n4; norm_num at n4
  obtain ⟨u1, b1, q5, q6, o1, o2, o3, o4, -, -⟩ := n2.step hE hN ha1 one_ne_zero n4 hq'0
  have hcont : continueFit (P2.method E c) (some 2) w1 = run (P2.method E c) (w1.budget 2) := by
    rw [continueFit, bind_of_ok (setMaxIts_ok _ _)]; rfl
  have hN1 : ((w1.budget 2).maxIts - (w1.budget 2).it).toNat = 1 := by
    show ((2 : Int) - w1.it).toNat = 1
    rw [k2]; norm_num
  obtain ⟨w2, r1, r2, r3, -, -⟩ := C43_schedule (P2.method E c) hf0 (w := w1.budget 2) (L := []) (ss := fun j => if j = 0 then u0 else u1)
    (k := 1) (s' := u1) (by show P2.prepareCp E c.opts w1.st = _; rw [ho, hw1]; exact n1)
    ⟨by
      intro j hj
      obtain rfl : j = 0 := by omega
      show P2.iteration E c.opts u0 = _
      rw [ho]; exact o1,
     fun j _ => hgo _, (by intro j _ p hp; change p ∈ c.logs at hp; rw [hlog] at hp; cases hp), fun _ _ => ⟨_, parafac2_storeIn_eq _⟩⟩
    (by rw [hN1]) (by rw [hN1]; simp) rfl (fun hu => by simp [P2.method] at hu) (p2_storing_none hfreq _ _) (by simp) (by simp)
  refine ⟨w1, w2, w3, f1, hcont.trans r1, f3, ?_, m2, ?_, ?_⟩
  · rw [r3]
    show w1.it + ((1 : ℕ) : Int) = 2
    rw [k2]; norm_num
  · show (w2.st.A.get [0, 0]) ^ 2 = _
    rw [r2, o2.A]
    have h7 : b1 ^ 2 = (7 * q') ^ 2 := by rw [one_pow, mul_one] at o4; rw [o4]; ring
    rw [h7]; nlinarith
  · show (w3.st.A.get [0, 0]) ^ 2 = _
    rw [hw3, j2.A]
    rw [one_pow, mul_one, i6] at j4
    exact j4

/-- Such routines and such a configuration exist. -/
example : ∃ (E : Ext) (c : P2.Config) (w1 w2 : World P2State), c.init.toLower = "precomputed" ∧
    P2.fit E c (.list [one1 3, one1 4]) (some 1) (.tensor d107) (P2.newObject h107 100 [] none) = .ok () w1 ∧
    continueFit (P2.method E c) (some 2) w1 = .ok () w2 ∧ ((w2.st.dec.read w2.st.heap).A.get [0, 0]) ^ 2 = 49 / 2 := by
  obtain ⟨E, hE, hN, hQ⟩ := exists_ext
  have hi : ("precomputed" : String).toLower = "precomputed" := by
    rw [String.toLower, ← String.toList_inj, String.toList_map]; decide
  obtain ⟨w1, w2, w3, h1, h2, -, -, -, h5, -⟩ := C107_parafac2_orthonormal_fails hE hN hQ
    (c := ⟨o107 (fun _ => 0), "precomputed", none, false, [], fun _ _ => 0, fun _ _ => 0, fun _ _ _ => 0, fun _ _ _ _ => 0,
      fun X => (X, X, X), fun _ => none⟩) hi rfl rfl rfl 100 [] none
  exact ⟨E, _, w1, w2, hi, h1, h2, h5⟩

end
end TK
