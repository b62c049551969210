import Verif.Lemmas.Parafac2Inner
import Mathlib.Tactic.IntervalCases

/-!
# PARAFAC2 (C52 to C55)
-/

namespace TK
open NDArray Matrix

noncomputable section

variable {s : P2State} {I R : ℕ} {Js : List ℕ}

/-! ### C52: the update of the projection matrices -/

theorem newP_contr {E : Ext} (hE : E.SVDOk) (h : s.Sized I Js R) {k : ℕ} (hk : k < Js.length) {v : NDArray ℝ}
    (hv : P2State.NewP E s I Js R k v) : LA.Contr (mat v (Js.getD k 0) R)ᵀ := by
  obtain ⟨U, σ, keep, Vh, hsvd, hm, -, hkeep, -⟩ := hv.mat hE h hk
  rw [hm]
  refine LA.contr_procrustes hsvd.left hsvd.right fun i => ?_
  rw [hkeep]; split <;> simp

theorem newP_bound {E : Ext} (hE : E.SVDOk) (h : s.Sized I Js R) {k : ℕ} (hk : k < Js.length) {v : NDArray ℝ}
    (hv : P2State.NewP E s I Js R k v) {Y : Matrix (Fin R) (Fin (Js.getD k 0)) ℝ} (hY : LA.Contr Y) :
    LA.pot (s.Xm I Js k) (s.Mm I R k) (mat v (Js.getD k 0) R)ᵀ
      ≤ LA.pot (s.Xm I Js k) (s.Mm I R k) Y + 2 * s.droppedAt E I Js R k := by
  obtain ⟨U, σ, keep, Vh, hsvd, hm, hσ, hkeep, -⟩ := hv.mat hE h hk
  rw [hm]
  refine (LA.pot_procrustes_le hsvd keep hY).trans (le_of_eq ?_)
  congr 2
  unfold P2State.droppedAt
  simp only []
  rw [Finset.sum_range]
  refine Finset.sum_congr rfl fun i _ => ?_
  rw [hkeep i, hσ i]
  split <;> simp

/-- The singular values of slice `k` are all above the threshold of the code. -/
def P2State.KeepsAll (E : Ext) (s : P2State) (I : ℕ) (Js : List ℕ) (R k : ℕ) : Prop :=
  ∀ i < min (Js.getD k 0) R, Js.getD k 0 * (E.svd (s.cross I Js R k)).2.1.get [0] * 1e-16
    < (E.svd (s.cross I Js R k)).2.1.get [i]

/-- A new projection matrix has orthonormal columns exactly if no singular value is treated as zero. -/
theorem newP_orthonormal_iff {E : Ext} (hE : E.SVDOk) (h : s.Sized I Js R) {k : ℕ} (hk : k < Js.length) {v : NDArray ℝ}
    (hnew : P2State.NewP E s I Js R k v) (hRJ : R ≤ Js.getD k 0) :
    OrthoCols v (Js.getD k 0) R ↔ s.KeepsAll E I Js R k := by
  obtain ⟨X, e, hX, hiff⟩ := C14_orthonormal_iff hE (A := p2Score s.A s.D s.C I R k) (shape_ofMat I R _) (shape_nth h.X hk)
    h.posR hRJ
  obtain ⟨-, Q, e', hv⟩ := hnew
  rw [e] at e'
  injection e' with e'
  subst e'
  rw [hv, orthoCols_iff, mat_T hX, transpose_transpose, ← orthoRows_iff, hiff]
  unfold AllKept P2State.KeepsAll
  have hcr := P2State.cross_eq h hk
  have hsh : (E.svd (s.cross I Js R k)).1.shape = [Js.getD k 0, min (Js.getD k 0) R] :=
    (hE _ _ _ (shape_ofMat _ _ _)).shapeU
  have hmax : max (Js.getD k 0) (max (min (Js.getD k 0) R) 0) = Js.getD k 0 := by omega
  constructor
  · intro hall i hi
    have := hall _ hcr i hi
    unfold orthTol at this
    rw [hsh] at this
    simpa only [List.foldr_cons, List.foldr_nil, hmax] using this
  · intro hall C hC i hi
    rw [hcr] at hC
    injection hC with hC
    subst hC
    unfold orthTol
    rw [hsh]
    simp only [List.foldr_cons, List.foldr_nil, hmax]
    exact hall i hi

/-- **C52, what holds.** The update of the projection matrices leaves the factor matrices alone. Afterwards the SSE is at most
that of *every* family of matrices with orthonormal columns (in particular that of the previous projection matrices, if
orthonormal), up to twice the sum of the singular values that the code treats as zero; and `P_k` has orthonormal columns
exactly if no singular value of slice `k` is treated as zero. Missing: the two claims without that restriction, which are
false (`C52_not_orthonormal`, `C52_sse_increases`). -/
theorem C52_projection_update_partial {E : Ext} (hE : E.SVDOk) (h : s.Sized I Js R) (ha : s.Apart) (hP : s.dec.P.Nodup) :
    ∃ s', P2.updateProjections E s = .ok s' ∧ s'.Sized I Js R ∧ s'.dec = s.dec ∧ s'.X = s.X ∧
      s'.A = s.A ∧ s'.D = s.D ∧ s'.C = s.C ∧
      (∀ Q : List (NDArray ℝ), (∀ k < Js.length, OrthoCols (nth Q k) (Js.getD k 0) R) →
        s'.err I Js R ≤ p2Err s.X Q s.A s.D s.C I Js R + 2 * s.dropped E I Js R) ∧
      (∀ k < Js.length, R ≤ Js.getD k 0 → (OrthoCols (nth s'.P k) (Js.getD k 0) R ↔ s.KeepsAll E I Js R k)) := by
  have hnew' : ∃ new : ℕ → NDArray ℝ, ∀ k < Js.length, P2State.NewP E s I Js R k (new k) := by
    refine ⟨fun k => if hk : k < Js.length then (P2State.exists_new hE h hk).choose else full [] 0, fun k hk => ?_⟩
    simp only [dif_pos hk]
    exact (P2State.exists_new hE h hk).choose_spec
  obtain ⟨new, hnew⟩ := hnew'
  obtain ⟨e1, hs1⟩ := P2State.updateProjections_ok h ha hnew
  have hA := P2State.withP_A h ha new le_rfl
  have hD := P2State.withP_D h ha new le_rfl
  have hC := P2State.withP_C h ha new le_rfl
  have hn1 : ∀ k < Js.length, nth (s.withP new Js.length).P k = new k := fun k hk => P2State.nth_withP h hP new hk hs1
  refine ⟨_, e1, hs1, rfl, rfl, hA, hD, hC, ?_, ?_⟩
  · intro Q hQ
    rw [P2State.err_eq, P2State.p2Err_eq, P2State.dropped, Finset.mul_sum, ← Finset.sum_add_distrib]
    refine Finset.sum_le_sum fun k hk => ?_
    have hk := Finset.mem_range.1 hk
    have hY := orthoCols_iff.1 (hQ k hk)
    have hY' : ((mat (nth Q k) (Js.getD k 0) R)ᵀ) * ((mat (nth Q k) (Js.getD k 0) R)ᵀ)ᵀ = 1 := by
      rw [transpose_transpose]; exact hY
    have b1 := newP_bound hE h hk (hnew k hk) (LA.contr_of_orth hY')
    rw [LA.pot_eq_of_orth hY'] at b1
    have b2 := (newP_contr hE h hk (hnew k hk)).le_pot (s.Xm I Js k) (s.Mm I R k)
    have e3 : (s.withP new Js.length).Mm I R k = s.Mm I R k := by
      unfold P2State.Mm; rw [hA, hD, hC]
    have e4 : (s.withP new Js.length).Ym Js R k = (mat (new k) (Js.getD k 0) R)ᵀ := by
      unfold P2State.Ym; rw [hn1 k hk]
    rw [e3, e4]
    exact b2.trans b1
  · intro k hk hRJ
    rw [hn1 k hk]
    exact newP_orthonormal_iff hE h hk (hnew k hk) hRJ

theorem droppedAt_of_keepsAll {E : Ext} {k : ℕ} (h : s.KeepsAll E I Js R k) : s.droppedAt E I Js R k = 0 := by
  unfold P2State.droppedAt
  refine Finset.sum_eq_zero fun i hi => ?_
  rw [if_neg (not_le.2 (h i (Finset.mem_range.1 hi)))]

theorem dropped_of_keepsAll {E : Ext} (h : ∀ k < Js.length, s.KeepsAll E I Js R k) : s.dropped E I Js R = 0 :=
  Finset.sum_eq_zero fun k hk => droppedAt_of_keepsAll (h k (Finset.mem_range.1 hk))

/-- **C52** when no singular value is treated as zero: the projection matrices become orthonormal, and the SSE is the least
possible one for orthonormal projection matrices; in particular it does not increase. -/
theorem C52_full_rank_partial {E : Ext} (hE : E.SVDOk) (h : s.Sized I Js R) (ha : s.Apart) (hP : s.dec.P.Nodup)
    (hJ : ∀ J ∈ Js, R ≤ J) (hk : ∀ k < Js.length, s.KeepsAll E I Js R k) :
    ∃ s', P2.updateProjections E s = .ok s' ∧ s'.Orthonormal Js R ∧
      (∀ Q : List (NDArray ℝ), (∀ k < Js.length, OrthoCols (nth Q k) (Js.getD k 0) R) →
        s'.err I Js R ≤ p2Err s.X Q s.A s.D s.C I Js R) ∧
      (s.Orthonormal Js R → s'.err I Js R ≤ s.err I Js R) := by
  obtain ⟨s', e, -, -, -, -, -, -, h1, h2⟩ := C52_projection_update_partial hE h ha hP
  have h3 : ∀ Q : List (NDArray ℝ), (∀ k < Js.length, OrthoCols (nth Q k) (Js.getD k 0) R) →
        s'.err I Js R ≤ p2Err s.X Q s.A s.D s.C I Js R := fun Q hQ => by
    have := h1 Q hQ
    rwa [dropped_of_keepsAll hk, mul_zero, add_zero] at this
  refine ⟨s', e, fun k hk' => (h2 k hk' ?_).2 (hk k hk'), h3, fun ho => h3 s.P ho⟩
  rw [getD_eq_getElem' _ hk']; exact hJ _ (List.getElem_mem hk')

/-- The singular values that are treated as zero are tiny compared to the largest one. -/
theorem C52_dropped_le {E : Ext} (hE : E.SVDOk) (s : P2State) (I : ℕ) (Js : List ℕ) (R : ℕ) :
    s.dropped E I Js R ≤ ∑ k ∈ Finset.range Js.length,
      (min (Js.getD k 0) R : ℕ) * (Js.getD k 0 * (E.svd (s.cross I Js R k)).2.1.get [0] * 1e-16) := by
  refine Finset.sum_le_sum fun k _ => ?_
  unfold P2State.droppedAt
  simp only []
  refine (Finset.sum_le_card_nsmul _ _ _ fun i hi => ?_).trans (le_of_eq (by rw [Finset.card_range, nsmul_eq_mul]))
  split
  · assumption
  · have hi := Finset.mem_range.1 hi
    have h0 : 0 < min (Js.getD k 0) R := by omega
    have := (hE _ _ _ (shape_ofMat (Js.getD k 0) R _ : (s.cross I Js R k).shape = _)).svd.nonneg ⟨0, h0⟩
    have this : 0 ≤ (E.svd (s.cross I Js R k)).2.1.get [0] := this
    positivity

/-! #### Where it fails -/

/-- A state with one slice. -/
def p2Single (X A D C P : NDArray ℝ) (I J R : ℕ) (inner : Option CPObj) (l : ℝ) : P2State where
  heap := ⟨fun a => if a = 0 then A else if a = 1 then D else if a = 2 then C else P, 4⟩
  dec := ⟨R, 0, 1, 2, [3], true, true, [(I, J)], J⟩
  X := [X]
  XShape := (I, [J], 1)
  XNorm := frobNorm X
  inner := inner
  relChange := .pinf
  prevLoss := l

theorem p2Single_sized {X A D C P : NDArray ℝ} {I J R : ℕ} (inner : Option CPObj) (l : ℝ) (hI : 0 < I) (hJ : 0 < J) (hR : 0 < R)
    (hX : X.shape = [I, J]) (hA : A.shape = [I, R]) (hD : D.shape = [R, R]) (hC : C.shape = [1, R]) (hP : P.shape = [J, R]) :
    (p2Single X A D C P I J R inner l).Sized I [J] R :=
  ⟨hI, hR, by simpa using hJ, by simp, .cons hX .nil, rfl, hA, hD, hC, .cons hP .nil⟩

theorem p2Single_apart (X A D C P : NDArray ℝ) (I J R : ℕ) (inner : Option CPObj) (l : ℝ) :
    (p2Single X A D C P I J R inner l).Apart := ⟨by simp [p2Single], by simp [p2Single], by simp [p2Single]⟩

/-- **C52, refuted**: if row `k` of `C` is zero, the new projection matrix of slice `k` is not orthonormal. -/
theorem C52_not_orthonormal {E : Ext} (hE : E.SVDOk) (h : s.Sized I Js R) (ha : s.Apart) (hP : s.dec.P.Nodup) {k : ℕ}
    (hk : k < Js.length) (hRJ : R ≤ Js.getD k 0) (hC : ∀ r < R, s.C.get [k, r] = 0) :
    ∃ s', P2.updateProjections E s = .ok s' ∧ ¬ OrthoCols (nth s'.P k) (Js.getD k 0) R := by
  obtain ⟨s', e, -, -, -, -, -, -, -, h2⟩ := C52_projection_update_partial hE h ha hP
  refine ⟨s', e, fun ho => ?_⟩
  have hall := (h2 k hk hRJ).1 ho
  have hM0 : ∀ i < I, ∀ q < R, (p2Score s.A s.D s.C I R k).get [i, q] = 0 := by
    intro i hi q hq
    rw [p2Score, get_ofMat hi hq]
    refine Finset.sum_eq_zero fun r hr => ?_
    rw [hC r (Finset.mem_range.1 hr)]; ring
  obtain ⟨X, e1, -, hno⟩ := C14_zero_fails hE (A := p2Score s.A s.D s.C I R k) (shape_ofMat I R _) hM0 (shape_nth h.X hk)
    h.posR hRJ
  obtain ⟨X', e2, -, hiff⟩ := C14_orthonormal_iff hE (A := p2Score s.A s.D s.C I R k) (shape_ofMat I R _) (shape_nth h.X hk)
    h.posR hRJ
  rw [e1] at e2
  injection e2 with e2
  subst e2
  apply hno
  rw [hiff]
  intro C hC' i hi
  have hcr := P2State.cross_eq h hk
  rw [hcr] at hC'
  injection hC' with hC'
  subst hC'
  have hsh : (E.svd (s.cross I Js R k)).1.shape = [Js.getD k 0, min (Js.getD k 0) R] :=
    (hE _ _ _ (shape_ofMat _ _ _)).shapeU
  have hmax : max (Js.getD k 0) (max (min (Js.getD k 0) R) 0) = Js.getD k 0 := by omega
  unfold orthTol
  rw [hsh]
  simp only [List.foldr_cons, List.foldr_nil, hmax]
  exact hall i hi

/-- The hypotheses of `C52_not_orthonormal` hold for orthonormal `P`, rank one and a zero in `C`. -/
example {E : Ext} (hE : E.SVDOk) : ∃ s : P2State, s.Sized 1 [1] 1 ∧ s.Orthonormal [1] 1 ∧
    ∃ s', P2.updateProjections E s = .ok s' ∧ ¬ s'.Orthonormal [1] 1 := by
  have hs := p2Single_sized (X := ofMat 1 1 fun _ _ => 1) (A := ofMat 1 1 fun _ _ => 1) (D := ofMat 1 1 fun _ _ => 1)
    (C := ofMat 1 1 fun _ _ => 0) (P := ofMat 1 1 fun _ _ => 1) (I := 1) (J := 1) (R := 1) none 0 (by norm_num) (by norm_num)
    (by norm_num) rfl rfl rfl rfl rfl
  refine ⟨_, hs, ?_, ?_⟩
  · intro k hk i hi j hj
    have hk : k = 0 := by simpa using hk
    obtain rfl : i = 0 := by omega
    obtain rfl : j = 0 := by omega
    subst hk
    show ∑ l ∈ Finset.range 1, (ofMat 1 1 fun _ _ => (1 : ℝ)).get [l, 0] * (ofMat 1 1 fun _ _ => (1 : ℝ)).get [l, 0] = _
    rw [Finset.sum_range_one, get_ofMat (by norm_num) (by norm_num)]
    norm_num
  · obtain ⟨s', e, h⟩ := C52_not_orthonormal hE hs (p2Single_apart ..) (by simp [p2Single]) (k := 0) (by simp) le_rfl
      (fun r hr => by
        obtain rfl : r = 0 := by omega
        show (ofMat 1 1 fun _ _ => (0 : ℝ)).get [0, 0] = 0
        rw [get_ofMat (by norm_num) (by norm_num)])
    exact ⟨s', e, fun ho => h (ho 0 (by simp))⟩

/-- If the second singular value is dropped, no score matrix fits the identity better than with error one. -/
theorem LA.one_le_of_dropped {U : Matrix (Fin 2) (Fin 2) ℝ} {Vh : Matrix (Fin 2) (Fin 2) ℝ} {keep : Fin 2 → ℝ}
    (hU : Uᵀ * U = 1) (h1 : keep 1 = 0) (M : Matrix (Fin 2) (Fin 2) ℝ) :
    1 ≤ LA.fsq (M * LA.procrustes U keep Vh - 1) := by
  have hU' : U * Uᵀ = 1 := mul_eq_one_comm.1 hU
  have e : (M * LA.procrustes U keep Vh - 1) * U = M * Vhᵀ * diagonal keep - U := by
    rw [LA.procrustes, Matrix.sub_mul, Matrix.one_mul]
    simp only [Matrix.mul_assoc, hU, Matrix.mul_one]
  rw [← LA.fsq_mul_orth (Y := U) _ hU', e]
  have h2 : ∀ i, (M * Vhᵀ * diagonal keep - U) i 1 = - U i 1 := by
    intro i
    rw [Matrix.sub_apply, Matrix.mul_diagonal, h1]; ring
  have h3 : U 0 1 ^ 2 + U 1 1 ^ 2 = 1 := by
    have := congrFun (congrFun hU 1) 1
    simp [Matrix.mul_apply, Fin.sum_univ_two] at this
    nlinarith
  simp only [LA.fsq, Fin.sum_univ_two, h2]
  nlinarith [sq_nonneg ((M * Vhᵀ * diagonal keep - U) 0 0), sq_nonneg ((M * Vhᵀ * diagonal keep - U) 1 0)]

/-- The singular values of `diag(1, 10⁻¹⁷)`. -/
theorem LA.second_dropped {N U Vh : Matrix (Fin 2) (Fin 2) ℝ} {σ : Fin 2 → ℝ} (h : LA.ThinSVD N U σ Vh) (hσ : Antitone σ)
    (h00 : N 0 0 = 1) (h01 : N 0 1 = 0) (h10 : N 1 0 = 0) (h11 : N 1 1 = 1e-17) : σ 1 ≤ 2 * σ 0 * 1e-16 := by
  have dU : U.det ^ 2 = 1 := by
    have := congrArg Matrix.det h.left
    rwa [det_mul, det_transpose, det_one, ← pow_two] at this
  have dV : Vh.det ^ 2 = 1 := by
    have := congrArg Matrix.det h.right
    rwa [det_mul, det_transpose, det_one, ← pow_two] at this
  have dC : N.det ^ 2 = (σ 0 * σ 1) ^ 2 := by
    rw [h.eq, det_mul, det_mul, det_diagonal, mul_pow, mul_pow, dU, dV]
    simp
  have fC : LA.fsq N = σ 0 ^ 2 + σ 1 ^ 2 := by
    rw [h.eq, LA.fsq_mul_orth _ h.right, ← LA.fsq_transpose, transpose_mul, LA.fsq_mul_orth _ (by simpa using h.left)]
    simp [LA.fsq, Fin.sum_univ_two]
  have e1 : N.det = 1e-17 := by rw [det_fin_two, h00, h01, h10, h11]; ring
  have e2 : LA.fsq N = 1 + (1e-17) ^ 2 := by
    simp only [LA.fsq, Fin.sum_univ_two, h00, h01, h10, h11]; ring
  have n0 : 0 ≤ σ 0 := h.nonneg 0
  have n1 : 0 ≤ σ 1 := h.nonneg 1
  have hle : σ 1 ≤ σ 0 := hσ (by simp)
  have hp : σ 0 * σ 1 = 1e-17 := by
    rw [e1] at dC
    have : (0:ℝ) ≤ 1e-17 := by norm_num
    have := (sq_eq_sq₀ this (mul_nonneg n0 n1)).1 dC
    exact this.symm
  have hs0 : 1 / 2 ≤ σ 0 ^ 2 := by
    rw [e2] at fC
    have : (0:ℝ) ≤ (1e-17) ^ 2 := by positivity
    nlinarith
  have hpos : 0 < σ 0 := by
    rcases n0.eq_or_lt with h | h
    · rw [← h] at hs0; norm_num at hs0
    · exact h
  have : σ 0 * σ 1 ≤ σ 0 * (2 * σ 0 * 1e-16) := by
    rw [hp]
    have : σ 0 * (2 * σ 0 * 1e-16) = 2e-16 * σ 0 ^ 2 := by ring
    rw [this]
    norm_num
    norm_num at hs0
    linarith
  exact le_of_mul_le_mul_left this hpos

/-- The witness for C52 and C53: `X = A = D = P = I`, `C = [1, 10⁻¹⁷]`. -/
def p2Thin (inner : Option CPObj) (l : ℝ) : P2State :=
  p2Single (ofMat 2 2 fun i j => if i = j then 1 else 0) (ofMat 2 2 fun i j => if i = j then 1 else 0)
    (ofMat 2 2 fun i j => if i = j then 1 else 0) (ofMat 1 2 fun _ r => if r = 0 then 1 else 1e-17)
    (ofMat 2 2 fun i j => if i = j then 1 else 0) 2 2 2 inner l

theorem p2Thin_sized (inner : Option CPObj) (l : ℝ) : (p2Thin inner l).Sized 2 [2] 2 :=
  p2Single_sized inner l (by norm_num) (by norm_num) (by norm_num) rfl rfl rfl rfl rfl

theorem p2Thin_orthonormal (inner : Option CPObj) (l : ℝ) : (p2Thin inner l).Orthonormal [2] 2 := by
  intro k hk
  have hk : k = 0 := by simpa using hk
  subst hk
  intro i hi j hj
  show ∑ l ∈ Finset.range 2, (ofMat 2 2 fun i j => if i = j then (1 : ℝ) else 0).get [l, i]
    * (ofMat 2 2 fun i j => if i = j then (1 : ℝ) else 0).get [l, j] = _
  rw [Finset.sum_range_succ, Finset.sum_range_one, get_ofMat (by norm_num) hi, get_ofMat (by norm_num) hj,
    get_ofMat (by norm_num) hi, get_ofMat (by norm_num) hj]
  interval_cases i <;> interval_cases j <;> norm_num

theorem p2Thin_score (inner : Option CPObj) (l : ℝ) : ∀ i < 2, ∀ q < 2,
    (p2Score (p2Thin inner l).A (p2Thin inner l).D (p2Thin inner l).C 2 2 0).get [i, q]
      = if i = q then (if i = 0 then 1 else 1e-17) else 0 := by
  intro i hi q hq
  rw [p2Score, get_ofMat hi hq, Finset.sum_range_succ, Finset.sum_range_one]
  show (ofMat 1 2 fun _ r => if r = 0 then (1:ℝ) else 1e-17).get [0, 0] * (ofMat 2 2 fun i j => if i = j then (1 : ℝ) else 0).get [i, 0]
    * (ofMat 2 2 fun i j => if i = j then (1 : ℝ) else 0).get [q, 0]
    + (ofMat 1 2 fun _ r => if r = 0 then (1:ℝ) else 1e-17).get [0, 1] * (ofMat 2 2 fun i j => if i = j then (1 : ℝ) else 0).get [i, 1]
    * (ofMat 2 2 fun i j => if i = j then (1 : ℝ) else 0).get [q, 1] = _
  have h2 : (0 : ℕ) < 2 := by norm_num
  have h1 : (1 : ℕ) < 2 := by norm_num
  rw [get_ofMat Nat.one_pos h2, get_ofMat Nat.one_pos h1, get_ofMat hi h2, get_ofMat hq h2, get_ofMat hi h1, get_ofMat hq h1]
  interval_cases i <;> interval_cases q <;> norm_num

theorem mat_id2 : mat (ofMat 2 2 fun i j => if i = j then (1 : ℝ) else 0) 2 2 = 1 := by
  ext i j
  show (ofMat 2 2 fun i j => if i = j then (1 : ℝ) else 0).get [(i : ℕ), (j : ℕ)] = _
  rw [get_ofMat i.2 j.2, Matrix.one_apply]
  simp only [Fin.ext_iff]

theorem p2Thin_Xm (inner : Option CPObj) (l : ℝ) : @Eq (Matrix (Fin 2) (Fin 2) ℝ) ((p2Thin inner l).Xm 2 [2] 0) 1 := by
  exact mat_id2

theorem p2Thin_err (inner : Option CPObj) (l : ℝ) : (p2Thin inner l).err 2 [2] 2 < 1 := by
  rw [P2State.err_eq]
  have hY : @Eq (Matrix (Fin 2) (Fin 2) ℝ) ((p2Thin inner l).Ym [2] 2 0) 1 := by
    exact (congrArg Matrix.transpose mat_id2).trans transpose_one
  have e : ∀ (Y X : Matrix (Fin 2) (Fin 2) ℝ), Y = 1 → X = 1 → LA.fsq ((p2Thin inner l).Mm 2 2 0 * Y - X)
      = LA.fsq ((p2Thin inner l).Mm 2 2 0 - (1 : Matrix (Fin 2) (Fin 2) ℝ)) := by
    rintro Y X rfl rfl
    rw [Matrix.mul_one]
  show ∑ k ∈ Finset.range 1, _ < _
  rw [Finset.sum_range_one]
  refine lt_of_eq_of_lt (e _ _ hY (p2Thin_Xm inner l)) ?_
  have hm : ∀ i j : Fin 2, (p2Thin inner l).Mm 2 2 0 i j = if (i : ℕ) = j then (if (i : ℕ) = 0 then 1 else 1e-17) else 0 :=
    fun i j => p2Thin_score inner l i i.2 j j.2
  simp only [LA.fsq, Fin.sum_univ_two, Matrix.sub_apply, hm]
  norm_num

/-- The new projection matrix of the witness is so bad that no factor matrices can repair it. -/
theorem p2Thin_new {E : Ext} (hE : E.SVDOk) (inner : Option CPObj) (l : ℝ) {v : NDArray ℝ}
    (hv : P2State.NewP E (p2Thin inner l) 2 [2] 2 0 v) (M : Matrix (Fin 2) (Fin 2) ℝ) :
    1 ≤ LA.fsq (M * (mat v 2 2)ᵀ - 1) := by
  obtain ⟨U, σ, keep, Vh, hsvd, hm, hσ, hkeep, hanti⟩ := hv.mat hE (p2Thin_sized inner l) (by simp)
  let U' : Matrix (Fin 2) (Fin 2) ℝ := U
  let V' : Matrix (Fin 2) (Fin 2) ℝ := Vh
  let σ' : Fin 2 → ℝ := σ
  let keep' : Fin 2 → ℝ := keep
  have hsvd' : LA.ThinSVD ((1 : Matrix (Fin 2) (Fin 2) ℝ)ᵀ * (p2Thin inner l).Mm 2 2 0) U' σ' V' := by
    have hX := p2Thin_Xm inner l
    have key : ∀ X : Matrix (Fin 2) (Fin 2) ℝ, X = 1 → LA.ThinSVD (Xᵀ * (p2Thin inner l).Mm 2 2 0) U' σ' V' →
        LA.ThinSVD ((1 : Matrix (Fin 2) (Fin 2) ℝ)ᵀ * (p2Thin inner l).Mm 2 2 0) U' σ' V' := by
      rintro X rfl h; exact h
    exact key _ hX hsvd
  rw [transpose_one, Matrix.one_mul] at hsvd'
  have hM : ∀ i j : Fin 2, (p2Thin inner l).Mm 2 2 0 i j = if (i : ℕ) = j then (if (i : ℕ) = 0 then 1 else 1e-17) else 0 :=
    fun i j => p2Thin_score inner l i i.2 j j.2
  have h1 : σ' 1 ≤ 2 * σ' 0 * 1e-16 := LA.second_dropped hsvd' hanti (by rw [hM]; norm_num) (by rw [hM]; norm_num)
    (by rw [hM]; norm_num) (by rw [hM]; norm_num)
  have hk : keep' 1 = 0 := by
    refine (hkeep (1 : Fin 2)).trans (if_pos ?_)
    have h0 : σ' 0 = (E.svd ((p2Thin inner l).cross 2 [2] 2 0)).2.1.get [0] := hσ (0 : Fin 2)
    rw [← h0]
    exact_mod_cast h1
  have hv' : (mat v 2 2)ᵀ = LA.procrustes U' keep' V' := hm
  rw [hv']
  exact LA.one_le_of_dropped hsvd'.left hk M

/-- **C52, refuted**: the update increases the SSE, although the projection matrices are orthonormal before. -/
theorem C52_sse_increases {E : Ext} (hE : E.SVDOk) : ∃ s s' : P2State, s.Sized 2 [2] 2 ∧ s.Apart ∧ s.dec.P.Nodup ∧
    s.Orthonormal [2] 2 ∧ P2.updateProjections E s = .ok s' ∧ s.err 2 [2] 2 < s'.err 2 [2] 2 := by
  have h := p2Thin_sized none 0
  have hnew : ∃ v, P2State.NewP E (p2Thin none 0) 2 [2] 2 0 v := P2State.exists_new hE h (by simp)
  obtain ⟨v, hv⟩ := hnew
  obtain ⟨e1, hs1⟩ := P2State.updateProjections_ok (E := E) h (p2Single_apart ..) (new := fun _ => v) (fun k hk => by
    have hk : k = 0 := by simpa using hk
    subst hk; exact hv)
  refine ⟨_, _, h, p2Single_apart .., by simp [p2Thin, p2Single], p2Thin_orthonormal none 0, e1,
    lt_of_lt_of_le (p2Thin_err none 0) ?_⟩
  rw [P2State.err_eq]
  show 1 ≤ ∑ k ∈ Finset.range 1, _
  rw [Finset.sum_range_one]
  have hX : @Eq (Matrix (Fin 2) (Fin 2) ℝ) ((P2State.withP (p2Thin none 0) (fun _ => v) [2].length).Xm 2 [2] 0) 1 :=
    p2Thin_Xm none 0
  have hY : @Eq (Matrix (Fin 2) (Fin 2) ℝ) ((P2State.withP (p2Thin none 0) (fun _ => v) [2].length).Ym [2] 2 0)
      (mat v 2 2)ᵀ := by
    have := P2State.nth_withP h (by simp [p2Thin, p2Single]) (fun _ => v) (k := 0) (by simp) hs1
    unfold P2State.Ym
    rw [this]; rfl
  have := p2Thin_new hE none 0 hv ((P2State.withP (p2Thin none 0) (fun _ => v) [2].length).Mm 2 2 0)
  rw [← hY, ← hX] at this
  exact this

end
end TK
