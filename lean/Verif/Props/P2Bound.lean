import Verif.LinAlg.Spectral
import Verif.Props.P2Stationary

/-!
# How much worse than its start a PARAFAC2 fit can become (C144)
-/

namespace TK
open NDArray Matrix

noncomputable section

/-- Spec: the sum of squares of all slices of the data. -/
def p2DataSq (X : List (NDArray ℝ)) (I : ℕ) (Js : List ℕ) : ℝ :=
  ∑ k ∈ Finset.range Js.length, ∑ i ∈ Finset.range I, ∑ j ∈ Finset.range (Js.getD k 0), (nth X k).get [i, j] ^ 2

/-! ## Matrices -/

namespace LA

variable {m n k r : Type*} [Fintype m] [Fintype n] [Fintype k] [Fintype r]

theorem fsq_tmul_le (X : Matrix n m ℝ) (M : Matrix n r ℝ) : fsq (Xᵀ * M) ≤ fsq X * fsq M := by
  have e : fsq X * fsq M = ∑ j, ∑ q, (∑ i, X i j ^ 2) * ∑ i, M i q ^ 2 := by
    have h1 : fsq X = ∑ j, ∑ i, X i j ^ 2 := Finset.sum_comm
    have h2 : fsq M = ∑ q, ∑ i, M i q ^ 2 := Finset.sum_comm
    rw [h1, h2, Finset.sum_mul_sum]
  rw [e]
  refine Finset.sum_le_sum fun j _ => Finset.sum_le_sum fun q _ => ?_
  rw [Matrix.mul_apply]
  exact Finset.sum_mul_sq_le_sq_mul_sq _ _ _

theorem ThinSVD.fsq [DecidableEq k] {A : Matrix m n ℝ} {U : Matrix m k ℝ} {s : k → ℝ} {Vh : Matrix k n ℝ} (h : ThinSVD A U s Vh) :
    LA.fsq A = ∑ i, s i ^ 2 := by
  rw [h.eq, fsq_mul_orth _ h.right, ← fsq_transpose, transpose_mul, fsq_mul_orth (Y := Uᵀ) _ (by rw [transpose_transpose]; exact h.left)]
  unfold LA.fsq
  refine Finset.sum_congr rfl fun i _ => ?_
  rw [Finset.sum_eq_single i]
  · simp
  · intro j _ hj
    simp [diagonal_apply_ne _ hj]
  · simp

theorem ThinSVD.sq_le [DecidableEq k] {X : Matrix n m ℝ} {M : Matrix n r ℝ} {U : Matrix m k ℝ} {s : k → ℝ} {Vh : Matrix k r ℝ}
    (h : ThinSVD (Xᵀ * M) U s Vh) (i : k) : s i ^ 2 ≤ LA.fsq X * LA.fsq M := by
  refine le_trans ?_ (fsq_tmul_le X M)
  rw [h.fsq]
  exact Finset.single_le_sum (f := fun i => s i ^ 2) (fun i _ => sq_nonneg _) (Finset.mem_univ i)

theorem Contr.fsq_proj_le {Y : Matrix r m ℝ} (h : Contr Y) (X : Matrix n m ℝ) : LA.fsq (X * Yᵀ) ≤ LA.fsq X := by
  have h1 := h.le_pot X (X * Yᵀ)
  rw [pot_eq_projected, sub_self] at h1
  have h2 := fsq_nonneg (X * Yᵀ * Y - X)
  have h3 : LA.fsq (0 : Matrix n r ℝ) = 0 := by simp [LA.fsq]
  linarith

end LA

/-! ## The model is not larger than the data -/

variable {s : P2State} {I : ℕ} {Js : List ℕ}

theorem p2DataSq_eq (s : P2State) (I : ℕ) (Js : List ℕ) :
    p2DataSq s.X I Js = ∑ k ∈ Finset.range Js.length, LA.fsq (s.Xm I Js k) := by
  refine Finset.sum_congr rfl fun k _ => ?_
  unfold LA.fsq
  rw [Finset.sum_range]
  refine Finset.sum_congr rfl fun i _ => ?_
  rw [Finset.sum_range]
  rfl

theorem p2DataSq_nonneg (X : List (NDArray ℝ)) (I : ℕ) (Js : List ℕ) : 0 ≤ p2DataSq X I Js :=
  Finset.sum_nonneg fun _ _ => Finset.sum_nonneg fun _ _ => Finset.sum_nonneg fun _ _ => sq_nonneg _

/-- The sum of squares of the score matrices. -/
def P2State.modelSq (s : P2State) (I : ℕ) (Js : List ℕ) (R : ℕ) : ℝ :=
  ∑ k ∈ Finset.range Js.length, LA.fsq (s.Mm I R k)

/-- The score matrices with the weights of the slices multiplied by `t`. -/
theorem score_scaled (A D C : NDArray ℝ) (t : ℝ) {I R K k : ℕ} (hk : k < K) :
    mat (p2Score A D (ofMat K R fun k r => t * C.get [k, r]) I R k) I R = t • mat (p2Score A D C I R k) I R := by
  ext i q
  rw [Matrix.smul_apply, p2Score, p2Score, mat_ofMat, mat_ofMat, smul_eq_mul, Finset.mul_sum]
  refine Finset.sum_congr rfl fun r hr => ?_
  rw [get_ofMat hk (Finset.mem_range.1 hr)]
  ring

/-- After an update that minimises the error in `C`, the model is not larger than the projected data. -/
theorem sweep_modelSq {X P : List (NDArray ℝ)} {R : ℕ} {g : ℕ → List (NDArray ℝ)} (h : Sweep (p2Projected X P I Js R) R g)
    {A D C : NDArray ℝ} (e : g 3 = [A, D, C]) :
    ∑ k ∈ Finset.range Js.length, LA.fsq (mat (p2Score A D C I R k) I R)
      ≤ ∑ k ∈ Finset.range Js.length, LA.fsq (mat (nth X k) I (Js.getD k 0) * mat (nth P k) (Js.getD k 0) R) := by
  obtain ⟨F, e1, opt⟩ := h.step 2 (show 2 < 3 by norm_num)
  have hl : (g 2).length = 3 := h.len 2 (show 2 ≤ 3 by norm_num)
  rw [show 2 + 1 = 3 from rfl, e] at e1 opt
  obtain ⟨a, b, c, hg⟩ := List.length_eq_three.1 hl
  rw [hg] at e1 opt
  simp only [List.set_cons_succ, List.set_cons_zero, List.cons.injEq, and_true] at e1
  obtain ⟨rfl, rfl, rfl⟩ := e1
  have q : ∀ t : ℝ, ∑ k ∈ Finset.range Js.length, LA.fsq (mat (nth X k) I (Js.getD k 0) * mat (nth P k) (Js.getD k 0) R
        - mat (p2Score A D C I R k) I R) ≤ ∑ k ∈ Finset.range Js.length, LA.fsq (mat (nth X k) I (Js.getD k 0)
          * mat (nth P k) (Js.getD k 0) R - t • mat (p2Score A D C I R k) I R) := by
    intro t
    have := opt (ofMat Js.length R fun k r => t * C.get [k, r]) (by rw [shape_ofMat]; rfl)
    simp only [List.set_cons_succ, List.set_cons_zero] at this
    rw [projected_err, projected_err] at this
    refine this.trans (le_of_eq (Finset.sum_congr rfl fun k hk => ?_))
    rw [score_scaled _ _ _ _ (Finset.mem_range.1 hk)]
  set T : ℕ → Matrix (Fin I) (Fin R) ℝ := fun k => mat (nth X k) I (Js.getD k 0) * mat (nth P k) (Js.getD k 0) R with hT
  set M : ℕ → Matrix (Fin I) (Fin R) ℝ := fun k => mat (p2Score A D C I R k) I R with hM
  have q' : ∀ t : ℝ, ∑ k ∈ Finset.range Js.length, LA.fsq (T k - t • M k) = ∑ k ∈ Finset.range Js.length, LA.fsq (T k)
      - 2 * t * ∑ k ∈ Finset.range Js.length, LA.fip (T k) (M k) + t ^ 2 * ∑ k ∈ Finset.range Js.length, LA.fsq (M k) := by
    intro t
    rw [Finset.mul_sum, Finset.mul_sum, ← Finset.sum_sub_distrib, ← Finset.sum_add_distrib]
    refine Finset.sum_congr rfl fun k _ => ?_
    rw [LA.fsq_sub]
    have e1 : LA.fip (T k) (t • M k) = t * LA.fip (T k) (M k) := by
      simp only [LA.fip, Matrix.smul_apply, smul_eq_mul, Finset.mul_sum]
      exact Finset.sum_congr rfl fun i _ => Finset.sum_congr rfl fun j _ => by ring
    have e2 : LA.fsq (t • M k) = t ^ 2 * LA.fsq (M k) := by
      simp only [LA.fsq, Matrix.smul_apply, smul_eq_mul, Finset.mul_sum]
      exact Finset.sum_congr rfl fun i _ => Finset.sum_congr rfl fun j _ => by ring
    rw [e1, e2]; ring
  set a := ∑ k ∈ Finset.range Js.length, LA.fsq (T k)
  set b := ∑ k ∈ Finset.range Js.length, LA.fip (T k) (M k)
  set c := ∑ k ∈ Finset.range Js.length, LA.fsq (M k)
  have h1 : ∀ t : ℝ, a - 2 * b + c ≤ a - 2 * t * b + t ^ 2 * c := by
    intro t
    have := (q t).trans (le_of_eq (q' t))
    have h := q' 1
    simp only [one_smul] at h
    simp only [hT, hM] at h
    rw [h] at this
    linarith
  have h0 : 0 ≤ a - 2 * b + c := by
    have h := q' 1
    have : 0 ≤ ∑ k ∈ Finset.range Js.length, LA.fsq (T k - (1 : ℝ) • M k) := Finset.sum_nonneg fun k _ => LA.fsq_nonneg _
    linarith
  have hc : 0 ≤ c := Finset.sum_nonneg fun k _ => LA.fsq_nonneg _
  have hbc : b = c := by
    rcases hc.eq_or_lt with h | h
    · have h2 := h1 2
      have h3 := h1 0
      rw [← h] at h2 h3 ⊢
      linarith
    · have h2 := h1 (b / c)
      have : a - 2 * (b / c) * b + (b / c) ^ 2 * c = a - b ^ 2 / c := by field_simp; ring
      rw [this] at h2
      have h3 : b ^ 2 / c ≤ 2 * b - c := by linarith
      rw [div_le_iff₀ h] at h3
      nlinarith [sq_nonneg (b - c)]
  linarith

/-- The singular values of slice `k` that are treated as zero, in terms of the sizes of the model and the data. -/
theorem droppedAt_le {E : Ext} (hE : E.SVDOk) {R k N : ℕ} (hN : Js.getD k 0 ≤ N) :
    s.droppedAt E I Js R k ≤ R * N * 1e-16 * ((LA.fsq (s.Xm I Js k) + LA.fsq (s.Mm I R k)) / 2) := by
  have hx := LA.fsq_nonneg (s.Xm I Js k)
  have hm := LA.fsq_nonneg (s.Mm I R k)
  have hsh : (s.cross I Js R k).shape = [Js.getD k 0, R] := shape_ofMat _ _ _
  have hsvd := (hE _ _ _ hsh).svd
  have hmat : mat (s.cross I Js R k) (Js.getD k 0) R = (s.Xm I Js k)ᵀ * s.Mm I R k := by
    ext j q
    rw [P2State.cross, mat_ofMat, Matrix.mul_apply, Finset.sum_range]
    rfl
  rw [hmat] at hsvd
  unfold P2State.droppedAt
  simp only []
  rcases Nat.eq_zero_or_pos (min (Js.getD k 0) R) with h0 | h0
  · rw [h0, Finset.sum_range_zero]
    positivity
  have hs0 : (E.svd (s.cross I Js R k)).2.1.get [0] ≤ (LA.fsq (s.Xm I Js k) + LA.fsq (s.Mm I R k)) / 2 := by
    have h1 := hsvd.sq_le ⟨0, h0⟩
    have h2 := hsvd.nonneg ⟨0, h0⟩
    refine le_of_sq_le_sq ?_ (by positivity)
    refine le_trans h1 ?_
    nlinarith [sq_nonneg (LA.fsq (s.Xm I Js k) - LA.fsq (s.Mm I R k))]
  have hs1 : 0 ≤ (E.svd (s.cross I Js R k)).2.1.get [0] := hsvd.nonneg ⟨0, h0⟩
  have hN' : ((Js.getD k 0 : ℕ) : ℝ) ≤ N := by exact_mod_cast hN
  have hstep : ((Js.getD k 0 : ℕ) : ℝ) * (E.svd (s.cross I Js R k)).2.1.get [0] * 1e-16
      ≤ N * ((LA.fsq (s.Xm I Js k) + LA.fsq (s.Mm I R k)) / 2) * 1e-16 :=
    mul_le_mul_of_nonneg_right (mul_le_mul hN' hs0 hs1 (by positivity)) (by norm_num)
  refine (Finset.sum_le_card_nsmul _ _ (N * ((LA.fsq (s.Xm I Js k) + LA.fsq (s.Mm I R k)) / 2) * 1e-16) fun i _ => ?_).trans ?_
  · split
    · next h => exact h.trans hstep
    · positivity
  · rw [Finset.card_range, nsmul_eq_mul]
    have : ((min (Js.getD k 0) R : ℕ) : ℝ) ≤ R := by exact_mod_cast min_le_right _ _
    calc ((min (Js.getD k 0) R : ℕ) : ℝ) * (N * ((LA.fsq (s.Xm I Js k) + LA.fsq (s.Mm I R k)) / 2) * 1e-16)
        ≤ R * (N * ((LA.fsq (s.Xm I Js k) + LA.fsq (s.Mm I R k)) / 2) * 1e-16) :=
          mul_le_mul_of_nonneg_right this (by positivity)
      _ = _ := by ring

theorem dropped_le_sizes {E : Ext} (hE : E.SVDOk) {R N : ℕ} (hN : ∀ J ∈ Js, J ≤ N) :
    s.dropped E I Js R ≤ R * N * 1e-16 * ((p2DataSq s.X I Js + s.modelSq I Js R) / 2) := by
  rw [p2DataSq_eq, P2State.modelSq, ← Finset.sum_add_distrib, Finset.sum_div, Finset.mul_sum]
  refine Finset.sum_le_sum fun k hk => droppedAt_le hE ?_
  rw [getD_eq_getElem' _ (Finset.mem_range.1 hk)]
  exact hN _ (List.getElem_mem _)

/-- After an iteration without constraints and penalties, the model is not larger than the data. -/
theorem iteration_modelSq {E : Ext} (hE : E.SVDOk) (hN : E.NNLSOk) {o : P2Opts} (hridge : o.ridgePenalties = none)
    (hcp : 0 < o.cpUpdates) {c : CPObj} (h : s.Working o I Js c) (hsh : s.Shares c)
    (hfree : P2State.Free c) {s' : P2State} (es : P2.iteration E o s = .ok s') : s'.modelSq I Js o.rank ≤ p2DataSq s.X I Js := by
  obtain ⟨s'', c', f, e, hw, ha, hn, hn', hd, hX, -, -, -, -, -, ⟨ef, hf⟩, -, hcon, -⟩ := P2State.iteration_ok hE hN h
  rw [es] at e
  obtain rfl : s' = s'' := Except.ok.inj e
  have hU : ((c.setTarget (p2Projected s.X s'.P I Js o.rank)).read s.heap).Unconstrained := by
    obtain ⟨l1, a1, b1⟩ := hfree.nonNeg
    obtain ⟨l2, a2, b2⟩ := hfree.orth
    exact ⟨⟨l1, a1, b1⟩, ⟨l2, a2, b2⟩⟩
  obtain ⟨G, g0, gn, hG⟩ := iterM_sweeps hE (o := P2.innerOpts o) hridge o.cpUpdates (h.ready.sized h.sized s'.P)
    h.ready.wone hU ef
  obtain ⟨h1, h2⟩ := hG (o.cpUpdates - 1) (by omega)
  rw [Nat.sub_add_cancel hcp, gn, ← hf, ha, hsh] at h2
  have e3 : G (o.cpUpdates - 1) 3 = [s'.A, s'.D, s'.C] := by
    refine h2.trans ?_
    unfold P2State.A P2State.D P2State.C
    rw [hd]; rfl
  refine (sweep_modelSq h1 e3).trans ?_
  rw [p2DataSq_eq]
  refine Finset.sum_le_sum fun k hk => ?_
  have := (hcon k (Finset.mem_range.1 hk)).fsq_proj_le (s.Xm I Js k)
  rwa [P2State.Ym, transpose_transpose] at this

/-- The model of a state with orthonormal projection matrices. -/
theorem modelSq_le_start {R : ℕ} (ho : s.Orthonormal Js R) :
    s.modelSq I Js R ≤ 2 * p2DataSq s.X I Js + 2 * s.err I Js R := by
  rw [p2DataSq_eq, P2State.err_eq, P2State.modelSq, Finset.mul_sum, Finset.mul_sum, ← Finset.sum_add_distrib]
  refine Finset.sum_le_sum fun k hk => ?_
  have hY := P2State.orthonormal_iff.1 ho k (Finset.mem_range.1 hk)
  rw [← LA.fsq_mul_orth (s.Mm I R k) hY]
  have h1 := LA.fsq_sub (s.Mm I R k * s.Ym Js R k) (s.Xm I Js k)
  have h2 := LA.fsq_nonneg (s.Mm I R k * s.Ym Js R k - (2 : ℝ) • s.Xm I Js k)
  rw [LA.fsq_sub] at h2
  have e1 : LA.fip (s.Mm I R k * s.Ym Js R k) ((2 : ℝ) • s.Xm I Js k) = 2 * LA.fip (s.Mm I R k * s.Ym Js R k) (s.Xm I Js k) := by
    simp only [LA.fip, Matrix.smul_apply, smul_eq_mul, Finset.mul_sum]
    exact Finset.sum_congr rfl fun i _ => Finset.sum_congr rfl fun j _ => by ring
  have e2 : LA.fsq ((2 : ℝ) • s.Xm I Js k) = 4 * LA.fsq (s.Xm I Js k) := by
    simp only [LA.fsq, Matrix.smul_apply, smul_eq_mul, Finset.mul_sum]
    exact Finset.sum_congr rfl fun i _ => Finset.sum_congr rfl fun j _ => by ring
  rw [e1, e2] at h2
  linarith

/-! ## C144 -/

/-- The iterations of a fit: the SSE after `n` iterations against that of the start. -/
theorem p2_orbit_bound {E : Ext} (hE : E.SVDOk) (hN : E.NNLSOk) {o : P2Opts} (hridge : o.ridgePenalties = none)
    (hcp : 0 < o.cpUpdates) {c : CPObj} (h : s.Working o I Js c) (hnd : s.dec.P.Nodup) (hsh : s.Shares c) (hfree : P2State.Free c)
    (ho : s.Orthonormal Js o.rank) {N : ℕ} (hJN : ∀ J ∈ Js, J ≤ N) (n : ℕ) :
    (P2.orbit E o s n).err I Js o.rank ≤ (1 + 2 * (o.rank * N * 1e-16)) * s.err I Js o.rank
      + (2 * n + 1) * (o.rank * N * 1e-16) * p2DataSq s.X I Js := by
  have h1 := (C53_trajectory_partial hE hN hridge h hnd hsh hfree ho n).2
  set δ : ℝ := o.rank * N * 1e-16 with hδ
  have hδ0 : 0 ≤ δ := by positivity
  have hS := p2DataSq_nonneg s.X I Js
  have he : 0 ≤ s.err I Js o.rank := by rw [P2State.err_eq]; exact Finset.sum_nonneg fun _ _ => LA.fsq_nonneg _
  have hd0 : s.dropped E I Js o.rank ≤ δ * (3 / 2 * p2DataSq s.X I Js + s.err I Js o.rank) := by
    refine (dropped_le_sizes hE hJN).trans ?_
    have := modelSq_le_start (I := I) ho
    refine mul_le_mul_of_nonneg_left ?_ hδ0
    linarith
  have hd : ∀ i, (P2.orbit E o s (i + 1)).dropped E I Js o.rank ≤ δ * p2DataSq s.X I Js := by
    intro i
    obtain ⟨c', g1, g2, g3, g4, g5, g6, -⟩ := p2_orbit_working hE hN h i
    have hm := iteration_modelSq hE hN hridge hcp g1 (by unfold P2State.Shares; rw [g2, g5]; exact hsh) (hfree.of_eq g3 g4)
      (p2_orbit_step hE hN h i)
    rw [g6] at hm
    obtain ⟨-, -, -, -, -, -, g6', -⟩ := p2_orbit_working hE hN h (i + 1)
    refine (dropped_le_sizes hE hJN).trans ?_
    rw [g6']
    refine mul_le_mul_of_nonneg_left ?_ hδ0
    linarith
  have hsum : ∑ i ∈ Finset.range n, (P2.orbit E o s i).dropped E I Js o.rank
      ≤ δ * s.err I Js o.rank + (n + 1 / 2) * (δ * p2DataSq s.X I Js) := by
    cases n with
    | zero => simp; positivity
    | succ n =>
      rw [Finset.sum_range_succ', show P2.orbit E o s 0 = s from rfl]
      have := Finset.sum_le_sum fun i (_ : i ∈ Finset.range n) => hd i
      rw [Finset.sum_const, Finset.card_range, nsmul_eq_mul] at this
      push_cast
      nlinarith
  nlinarith

/-! ## Exact starts -/

/-- Spec: a slice with `J` columns has `R` singular values that are not negligible (relative to the first one, their squares are
larger than `J · 10⁻¹⁶`). -/
def FullSlice (E : Ext) (X : NDArray ℝ) (I J R : ℕ) : Prop :=
  R ≤ min I J ∧ ∀ i < R, J * (E.svd X).2.1.get [0] ^ 2 * 1e-16 < (E.svd X).2.1.get [i] ^ 2

namespace LA

theorem ThinSVD.gram {m n k : Type*} [Fintype m] [DecidableEq m] [Fintype n] [DecidableEq n] [Fintype k] [DecidableEq k] {A : Matrix m n ℝ} {U : Matrix m k ℝ}
    {s : k → ℝ} {Vh : Matrix k n ℝ} (h : ThinSVD A U s Vh) : ThinSVD (A * Aᵀ) U (fun i => s i ^ 2) Uᵀ := by
  refine ⟨h.left, by rw [transpose_transpose]; exact h.left, ?_, fun i => sq_nonneg _⟩
  have e : A * Aᵀ = U * (diagonal s * (Vh * Vhᵀ) * diagonal s) * Uᵀ := by
    rw [ThinSVD.transpose_eq h.eq]
    conv_lhs => rw [h.eq]
    simp only [Matrix.mul_assoc]
  rw [e, h.right, Matrix.mul_one, diagonal_mul_diagonal]
  congr 3
  funext i
  ring

theorem ThinSVD.flip {m n k : Type*} [Fintype m] [DecidableEq m] [Fintype n] [DecidableEq n] [Fintype k] [DecidableEq k] {A : Matrix m n ℝ} {U : Matrix m k ℝ}
    {s : k → ℝ} {Vh : Matrix k n ℝ} (h : ThinSVD A U s Vh) : ThinSVD Aᵀ Vhᵀ s Uᵀ :=
  ⟨by rw [transpose_transpose]; exact h.right, by rw [transpose_transpose]; exact h.left, ThinSVD.transpose_eq h.eq, h.nonneg⟩

/-- The number of non-zero singular values of a symmetric matrix does not depend on the decomposition. -/
theorem ThinSVD.card_eq {m k k' : Type*} [Fintype m] [DecidableEq m] [Fintype k] [Fintype k'] [DecidableEq k] [DecidableEq k']
    {A : Matrix m m ℝ} {U : Matrix m k ℝ} {s : k → ℝ} {U' : Matrix m k' ℝ} {s' : k' → ℝ} (h : ThinSVD A U s Uᵀ)
    (h' : ThinSVD A U' s' U'ᵀ) : (Finset.univ.filter fun i => s i ≠ 0).card = (Finset.univ.filter fun i => s' i ≠ 0).card := by
  classical
  have e := h.spectral_unique h' (fun x => if x ≠ 0 then 1 else 0) (by simp)
  have t : ∀ {k : Type _} [Fintype k] [DecidableEq k] {U : Matrix m k ℝ} {s : k → ℝ}, Uᵀ * U = 1 →
      trace (Uᵀᵀ * diagonal (fun i => if s i ≠ 0 then (1 : ℝ) else 0) * Uᵀ) = (Finset.univ.filter fun i => s i ≠ 0).card := by
    intro k _ _ U s hU
    rw [transpose_transpose, Matrix.mul_assoc, trace_mul_comm, Matrix.mul_assoc, hU, Matrix.mul_one, trace_diagonal,
      Finset.sum_boole]
  have e' := congrArg trace e
  rw [t h.left] at e'
  have t' : trace (U'ᵀᵀ * diagonal (fun i => if s' i ≠ 0 then (1 : ℝ) else 0) * U'ᵀ) = (Finset.univ.filter fun i => s' i ≠ 0).card := by
    rw [transpose_transpose, Matrix.mul_assoc, trace_mul_comm, Matrix.mul_assoc, h'.left, Matrix.mul_one, trace_diagonal,
      Finset.sum_boole]
  rw [t'] at e'
  exact_mod_cast e'

end LA

/-- In a state that reproduces the data with orthonormal projection matrices, no singular value is treated as zero if the slices
have full rank. -/
theorem keepsAll_of_exact {E : Ext} (hE : E.SVDOk) {R k : ℕ} (hk : k < Js.length) (ho : s.Orthonormal Js R)
    (hx : (nth s.X k).shape = [I, Js.getD k 0])
    (he : s.err I Js R = 0) (hf : FullSlice E (nth s.X k) I (Js.getD k 0) R) : s.KeepsAll E I Js R k := by
  have hY := P2State.orthonormal_iff.1 ho k hk
  have hX : s.Mm I R k * s.Ym Js R k = s.Xm I Js k := by
    rw [P2State.err_eq] at he
    have := (Finset.sum_eq_zero_iff_of_nonneg fun k _ => LA.fsq_nonneg _).1 he k (Finset.mem_range.2 hk)
    exact sub_eq_zero.1 (LA.fsq_eq_zero_iff.1 this)
  have hsh : (s.cross I Js R k).shape = [Js.getD k 0, R] := shape_ofMat _ _ _
  have hc := (hE _ _ _ hsh).svd
  have hmat : mat (s.cross I Js R k) (Js.getD k 0) R = (s.Xm I Js k)ᵀ * s.Mm I R k := by
    ext j q
    rw [P2State.cross, mat_ofMat, Matrix.mul_apply, Finset.sum_range]
    rfl
  rw [hmat] at hc
  have hd := (hE _ _ _ hx).svd
  change LA.ThinSVD (s.Xm I Js k) _ _ _ at hd
  have hs := (hE _ _ _ hx).sorted
  set σ := vec (E.svd (s.cross I Js R k)).2.1 (min (Js.getD k 0) R) with hσ
  set S := vec (E.svd (nth s.X k)).2.1 (min I (Js.getD k 0)) with hS
  have h1 := hc.gram
  have h2 := hd.flip.gram.gram
  have hw : ((s.Xm I Js k)ᵀ * s.Mm I R k) * ((s.Xm I Js k)ᵀ * s.Mm I R k)ᵀ
      = ((s.Xm I Js k)ᵀ * (s.Xm I Js k)ᵀᵀ) * ((s.Xm I Js k)ᵀ * (s.Xm I Js k)ᵀᵀ)ᵀ := by
    have : s.Mm I R k * (s.Mm I R k)ᵀ = s.Xm I Js k * (s.Xm I Js k)ᵀ := by
      rw [← hX, transpose_mul, Matrix.mul_assoc, ← Matrix.mul_assoc (s.Ym Js R k), hY, Matrix.one_mul]
    rw [transpose_mul, transpose_mul, transpose_transpose, Matrix.mul_assoc, ← Matrix.mul_assoc (s.Mm I R k), this]
    simp only [Matrix.mul_assoc]
  rw [hw] at h1
  obtain ⟨hR, hf⟩ := hf
  have hRJ : R ≤ Js.getD k 0 := hR.trans (min_le_right _ _)
  have hcard := h1.card_eq h2
  have hSn : ∀ i : Fin (min I (Js.getD k 0)), (i : ℕ) < R → S i ≠ 0 := by
    intro i hi h0
    have := hf i hi
    have e : (E.svd (nth s.X k)).2.1.get [(i : ℕ)] = 0 := h0
    rw [e] at this
    have : 0 ≤ (Js.getD k 0 : ℝ) * (E.svd (nth s.X k)).2.1.get [0] ^ 2 * 1e-16 := by positivity
    linarith
  -- at least `R` values of the slice are not zero
  have hlow : R ≤ (Finset.univ.filter fun i => (S i ^ 2) ^ 2 ≠ 0).card := by
    have : (Finset.univ.map (Fin.castLEEmb hR)).card = R := by simp
    rw [← this]
    refine Finset.card_le_card fun i hi => ?_
    obtain ⟨j, -, rfl⟩ := Finset.mem_map.1 hi
    refine Finset.mem_filter.2 ⟨Finset.mem_univ _, pow_ne_zero _ (pow_ne_zero _ (hSn _ j.2))⟩
  have hup : (Finset.univ.filter fun i => σ i ^ 2 ≠ 0).card ≤ min (Js.getD k 0) R := by
    refine (Finset.card_le_univ _).trans (le_of_eq (Fintype.card_fin _))
  have hall : ∀ i, σ i ^ 2 ≠ 0 := by
    have : (Finset.univ.filter fun i => σ i ^ 2 ≠ 0) = Finset.univ := by
      refine Finset.eq_univ_of_card _ ?_
      rw [Fintype.card_fin]
      omega
    intro i
    have h := Finset.mem_univ i
    rw [← this] at h
    exact (Finset.mem_filter.1 h).2
  have hmem : ∀ i, ∃ j : Fin (min I (Js.getD k 0)), (j : ℕ) < R ∧ (S j ^ 2) = σ i := by
    intro i
    obtain ⟨j, hj⟩ := h1.value_mem h2 (i := i) (hall i)
    have hj0 : (S j ^ 2) ^ 2 ≠ 0 := by rw [hj]; exact hall i
    have e : S j ^ 2 = σ i := (sq_eq_sq₀ (sq_nonneg _) (hc.nonneg i)).1 hj
    refine ⟨j, ?_, e⟩
    by_contra hjR
    have : (insert j (Finset.univ.map (Fin.castLEEmb hR))).card = R + 1 := by
      rw [Finset.card_insert_of_notMem, Finset.card_map, Finset.card_univ, Fintype.card_fin]
      intro hm
      obtain ⟨l, -, rfl⟩ := Finset.mem_map.1 hm
      exact hjR l.2
    have hle : (insert j (Finset.univ.map (Fin.castLEEmb hR))).card ≤ (Finset.univ.filter fun i => (S i ^ 2) ^ 2 ≠ 0).card := by
      refine Finset.card_le_card fun i hi => ?_
      rcases Finset.mem_insert.1 hi with rfl | hi
      · exact Finset.mem_filter.2 ⟨Finset.mem_univ _, hj0⟩
      · obtain ⟨j, -, rfl⟩ := Finset.mem_map.1 hi
        exact Finset.mem_filter.2 ⟨Finset.mem_univ _, pow_ne_zero _ (pow_ne_zero _ (hSn _ j.2))⟩
    omega
  intro i hi
  have hpos : 0 < min (Js.getD k 0) R := by omega
  obtain ⟨j, hj, e⟩ := hmem ⟨i, hi⟩
  obtain ⟨j0, hj0, e0⟩ := hmem ⟨0, hpos⟩
  have e : (E.svd (nth s.X k)).2.1.get [(j : ℕ)] ^ 2 = (E.svd (s.cross I Js R k)).2.1.get [i] := e
  have e0' : S j0 ^ 2 = (E.svd (s.cross I Js R k)).2.1.get [0] := e0
  have hp : 0 < min I (Js.getD k 0) := lt_of_le_of_lt (Nat.zero_le _) j.2
  have h3 : S j0 ≤ S ⟨0, hp⟩ := hs (Nat.zero_le _)
  have h4 : S j0 ^ 2 ≤ S ⟨0, hp⟩ ^ 2 := pow_le_pow_left₀ (hd.nonneg _) h3 2
  have h5 : S ⟨0, hp⟩ = (E.svd (nth s.X k)).2.1.get [0] := rfl
  rw [← e, ← e0']
  refine lt_of_le_of_lt ?_ (hf j hj)
  rw [← h5]
  have : (0 : ℝ) ≤ (Js.getD k 0 : ℕ) := Nat.cast_nonneg _
  exact mul_le_mul_of_nonneg_right (mul_le_mul_of_nonneg_left h4 this) (by norm_num)

theorem P2State.err_nonneg (s : P2State) (I : ℕ) (Js : List ℕ) (R : ℕ) : 0 ≤ s.err I Js R := by
  rw [P2State.err_eq]; exact Finset.sum_nonneg fun _ _ => LA.fsq_nonneg _

/-- Iterations keep a state that reproduces slices of full rank. -/
theorem p2_orbit_exact {E : Ext} (hE : E.SVDOk) (hN : E.NNLSOk) {o : P2Opts} (hridge : o.ridgePenalties = none)
    {c : CPObj} (h : s.Working o I Js c) (hnd : s.dec.P.Nodup) (hsh : s.Shares c) (hfree : P2State.Free c)
    (ho : s.Orthonormal Js o.rank) (he : s.err I Js o.rank = 0)
    (hfull : ∀ k < Js.length, FullSlice E (nth s.X k) I (Js.getD k 0) o.rank) (n : ℕ) :
    (P2.orbit E o s n).Orthonormal Js o.rank ∧ (P2.orbit E o s n).err I Js o.rank = 0 := by
  induction n with
  | zero => exact ⟨ho, he⟩
  | succ n ih =>
    obtain ⟨c', g1, g2, g3, g4, g5, g6, -⟩ := p2_orbit_working hE hN h n
    have hJ : ∀ J ∈ Js, o.rank ≤ J := by
      intro J hJ
      obtain ⟨k, hk, rfl⟩ := List.getElem_of_mem hJ
      have := (hfull k hk).1
      rw [getD_eq_getElem' _ hk] at this
      omega
    obtain ⟨s', -, e1, -, -, -, e2, e3⟩ := C53_full_rank_partial hE hN hridge g1 (by rw [g5]; exact hnd)
      (by unfold P2State.Shares; rw [g2, g5]; exact hsh) (hfree.of_eq g3 g4) ih.1 hJ (fun k hk => keepsAll_of_exact hE hk ih.1
        (shape_nth g1.sized.X hk) ih.2 (by rw [g6]; exact hfull k hk))
    rw [p2_orbit_step hE hN h n] at e1
    obtain rfl : P2.orbit E o s (n + 1) = s' := Except.ok.inj e1
    exact ⟨e2, le_antisymm (e3.trans (le_of_eq ih.2)) (P2State.err_nonneg _ _ _ _)⟩

/-- **C144.** A fit without constraints and penalties (and with at least one CP update per iteration), started from orthonormal
projection matrices, ends with an SSE that is at most that of the start up to `2·δ` times this SSE and `(2k + 1)·δ` times the sum
of squares of the data, where `k` is the number of iterations, `δ = rank · N · 10⁻¹⁶` and `N` bounds the numbers of columns of the
slices. Nothing is assumed about singular values. -/
theorem C144_fit {E : Ext} (hE : E.SVDOk) (hN : E.NNLSOk) (hQ : E.QROk) {c : P2.Config} {D : P2Data}
    {arg : InitArg P2Obj} {h0 : Heap} (hi : P2.StartsFrom E c D arg h0 s) (h : s.Sized I Js c.opts.rank) (hs : s.Separate)
    (hal : s.Allocated) (hort : s.Orthonormal Js c.opts.rank) (hcp : 0 < c.opts.cpUpdates)
    (hnn : c.opts.nonNeg = none) (hon : c.opts.orth = none) (hridge : c.opts.ridgePenalties = none)
    (hlog : c.Measurable I Js) (hfreq : freqOption c.freq ≠ 0) {N : ℕ} (hJN : ∀ J ∈ Js, J ≤ N)
    {budget : Int} {mi : Option Int} {loggers : List Logger} {file : Option H5File}
    (hS : Storing (P2.method E c) (P2.newObject h0 budget loggers file) []) :
    ∃ w', ∃ k : ℕ, P2.fit E c D mi arg (P2.newObject h0 budget loggers file) = .ok () w' ∧ w'.it = k ∧
      P2.sse w'.st = .ok (p2Err s.X w'.st.P w'.st.A w'.st.D w'.st.C I Js c.opts.rank) ∧
      p2Err s.X w'.st.P w'.st.A w'.st.D w'.st.C I Js c.opts.rank
        ≤ (1 + 2 * (c.opts.rank * N * 1e-16)) * p2Err s.X s.P s.A s.D s.C I Js c.opts.rank
          + (2 * k + 1) * (c.opts.rank * N * 1e-16) * p2DataSq s.X I Js := by
  have hA := p2_free_admissible h hnn hon hridge
  obtain ⟨l, sp, w', k, el, ep, -, hfit, -, hit, hst, -, -, -, hsse, hX', -⟩ := C80_fit_completes hE hN hQ hi h hs.distinct hal hA
    hlog hfreq (mi := mi) hS
  obtain ⟨-, ci, hw, hd, hh, hX, hsh, hfree⟩ := p2_fit_start hQ h hs hal hnn hon hridge ep
  have hP : sp.P = s.P := by unfold P2State.P; rw [hd, hh]
  have eA : sp.A = s.A := by unfold P2State.A; rw [hd, hh]
  have eD : sp.D = s.D := by unfold P2State.D; rw [hd, hh]
  have eC : sp.C = s.C := by unfold P2State.C; rw [hd, hh]
  have := p2_orbit_bound hE hN hridge hcp hw (by rw [hd]; exact hs.nodup) hsh hfree
    (by unfold P2State.Orthonormal; rw [hP]; exact hort) hJN k
  rw [← hst, P2State.err, P2State.err, hX', hP, eA, eD, eC, hX] at this
  exact ⟨w', k, hfit, hit, by rw [hsse, P2State.err, hX'], this⟩

/-- **C144** for a start that reproduces the data: every entry of the result is that of the data up to the square root of
`(2k + 1) · rank · N · 10⁻¹⁶` times the norm of the data. -/
theorem C144_exact_start {E : Ext} (hE : E.SVDOk) (hN : E.NNLSOk) (hQ : E.QROk) {c : P2.Config} {D : P2Data}
    {arg : InitArg P2Obj} {h0 : Heap} (hi : P2.StartsFrom E c D arg h0 s) (h : s.Sized I Js c.opts.rank) (hs : s.Separate)
    (hal : s.Allocated) (hort : s.Orthonormal Js c.opts.rank) (hcp : 0 < c.opts.cpUpdates)
    (hnn : c.opts.nonNeg = none) (hon : c.opts.orth = none) (hridge : c.opts.ridgePenalties = none)
    (hlog : c.Measurable I Js) (hfreq : freqOption c.freq ≠ 0) {N : ℕ} (hJN : ∀ J ∈ Js, J ≤ N)
    {budget : Int} {mi : Option Int} {loggers : List Logger} {file : Option H5File}
    (hS : Storing (P2.method E c) (P2.newObject h0 budget loggers file) [])
    (hex : ∀ k < Js.length, ∀ i < I, ∀ j < Js.getD k 0,
      (nth s.X k).get [i, j] = p2Entry s.A s.D s.C (nth s.P k) c.opts.rank k i j) :
    ∃ w', ∃ n : ℕ, P2.fit E c D mi arg (P2.newObject h0 budget loggers file) = .ok () w' ∧ w'.it = n ∧
      (∀ k < Js.length, ∀ i < I, ∀ j < Js.getD k 0,
        ((nth s.X k).get [i, j] - p2Entry w'.st.A w'.st.D w'.st.C (nth w'.st.P k) c.opts.rank k i j) ^ 2
          ≤ (2 * n + 1) * (c.opts.rank * N * 1e-16) * p2DataSq s.X I Js) ∧
      ((∀ k < Js.length, FullSlice E (nth s.X k) I (Js.getD k 0) c.opts.rank) →
        P2.sse w'.st = .ok 0 ∧ ∀ k < Js.length, ∀ i < I, ∀ j < Js.getD k 0,
          (nth s.X k).get [i, j] = p2Entry w'.st.A w'.st.D w'.st.C (nth w'.st.P k) c.opts.rank k i j) := by
  have h00 : p2Err s.X s.P s.A s.D s.C I Js c.opts.rank = 0 := by
    unfold p2Err
    refine Finset.sum_eq_zero fun k hk => Finset.sum_eq_zero fun i hi' => Finset.sum_eq_zero fun j hj => ?_
    rw [hex k (Finset.mem_range.1 hk) i (Finset.mem_range.1 hi') j (Finset.mem_range.1 hj), sub_self, zero_pow two_ne_zero]
  obtain ⟨w', n, hfit, hit, hsse, hle⟩ := C144_fit hE hN hQ hi h hs hal hort hcp hnn hon hridge hlog hfreq hJN (mi := mi) hS
  rw [h00, mul_zero, zero_add] at hle
  have hent : ∀ k < Js.length, ∀ i < I, ∀ j < Js.getD k 0,
      ((nth s.X k).get [i, j] - p2Entry w'.st.A w'.st.D w'.st.C (nth w'.st.P k) c.opts.rank k i j) ^ 2
        ≤ p2Err s.X w'.st.P w'.st.A w'.st.D w'.st.C I Js c.opts.rank := by
    intro k hk i hi' j hj
    unfold p2Err
    refine le_trans ?_ (Finset.single_le_sum (fun k _ => Finset.sum_nonneg fun i _ => Finset.sum_nonneg fun j _ => sq_nonneg _)
      (Finset.mem_range.2 hk))
    refine le_trans ?_ (Finset.single_le_sum (fun i _ => Finset.sum_nonneg fun j _ => sq_nonneg _) (Finset.mem_range.2 hi'))
    exact Finset.single_le_sum (f := fun j => ((nth s.X k).get [i, j]
      - p2Entry w'.st.A w'.st.D w'.st.C (nth w'.st.P k) c.opts.rank k i j) ^ 2) (fun j _ => sq_nonneg _) (Finset.mem_range.2 hj)
  refine ⟨w', n, hfit, hit, fun k hk i hi' j hj => (hent k hk i hi' j hj).trans hle, fun hfull => ?_⟩
  have hA := p2_free_admissible h hnn hon hridge
  obtain ⟨l, sp, w2, m, el, ep, -, hfit2, -, -, hst, -, -, -, -, hX', -⟩ := C80_fit_completes hE hN hQ hi h hs.distinct hal hA
    hlog hfreq (mi := mi) hS
  rw [hfit] at hfit2
  obtain rfl : w' = w2 := by injection hfit2
  obtain ⟨-, ci, hw, hd, hh, hX, hsh, hfree⟩ := p2_fit_start hQ h hs hal hnn hon hridge ep
  have hP : sp.P = s.P := by unfold P2State.P; rw [hd, hh]
  have hz := (p2_orbit_exact hE hN hridge hw (by rw [hd]; exact hs.nodup) hsh hfree
    (by unfold P2State.Orthonormal; rw [hP]; exact hort)
    (by unfold P2State.err P2State.A P2State.D P2State.C; rw [hX, hP, hd, hh]; exact h00) (by rw [hX]; exact hfull) m).2
  rw [← hst, P2State.err, hX'] at hz
  refine ⟨by rw [hsse, hz], fun k hk i hi' j hj => ?_⟩
  have := hent k hk i hi' j hj
  rw [hz] at this
  have := pow_eq_zero_iff (two_ne_zero) |>.1 (le_antisymm this (sq_nonneg _))
  linarith

/-! ## A concrete case -/

/-- For rank one, every slice that is not zero has full rank. -/
theorem fullSlice_one {E : Ext} (hE : E.SVDOk) {X : NDArray ℝ} {J : ℕ} (hX : X.shape = [I, J]) (hJ : (J : ℝ) * 1e-16 < 1) {i j : ℕ}
    (hi : i < I) (hj : j < J) (hne : X.get [i, j] ≠ 0) : FullSlice E X I J 1 := by
  refine ⟨by omega, fun l hl => ?_⟩
  obtain rfl : l = 0 := by omega
  have h := hE X I J hX
  have hp : 0 < min I J := by omega
  have hpos : 0 < (E.svd X).2.1.get [0] ^ 2 := by
    refine lt_of_le_of_ne (sq_nonneg _) fun h0 => hne ?_
    have h0 : (E.svd X).2.1.get [0] = 0 := pow_eq_zero_iff (two_ne_zero) |>.1 h0.symm
    have hz : ∀ i, vec (E.svd X).2.1 (min I J) i = 0 := fun i => le_antisymm (by
      have : vec (E.svd X).2.1 (min I J) i ≤ vec (E.svd X).2.1 (min I J) ⟨0, hp⟩ := h.sorted (Nat.zero_le _)
      exact this.trans (le_of_eq h0)) (h.svd.nonneg i)
    have hf : LA.fsq (mat X I J) = 0 := by
      rw [h.svd.fsq]
      exact Finset.sum_eq_zero fun i _ => by rw [hz i]; norm_num
    have := congrFun (congrFun (LA.fsq_eq_zero_iff.1 hf) ⟨i, hi⟩) ⟨j, hj⟩
    exact this
  nlinarith

/-- Two slices `[2]` and `[3 0]`, rank one, with an exact start: any number of iterations reproduces the data. -/
example {E : Ext} (hE : E.SVDOk) (hN : E.NNLSOk) (hQ : E.QROk) {c : P2.Config} (hi : c.init.toLower = "precomputed")
    {g : List ℕ → ℝ} {n : ℕ} (ho : c.opts = p2Plain 1 (n + 1) g) (hlog : c.logs = []) (hfreq : c.freq = none) (budget : Int)
    (mi : Option Int) :
    ∃ h0 d w', P2.fit E c (.list [ofMat 1 1 fun _ _ => 2, ofMat 1 2 fun _ j => if j = 0 then 3 else 0]) mi (.tensor d)
      (P2.newObject h0 budget [] none) = .ok () w' ∧ P2.sse w'.st = .ok 0 := by
  have hr : c.opts.rank = 1 := by rw [ho]; rfl
  set X : List (NDArray ℝ) := [ofMat 1 1 fun _ _ => 2, ofMat 1 2 fun _ j => if j = 0 then 3 else 0] with hXd
  set h0 : Heap := ⟨fun a => if a = 0 then ofMat 1 1 fun _ _ => 1 else if a = 1 then ofMat 1 1 fun _ _ => 1
    else if a = 2 then ofMat 2 1 fun k _ => if k = 0 then 2 else 3 else if a = 3 then ofMat 1 1 fun _ _ => 1
    else ofMat 2 1 fun j _ => if j = 0 then 1 else 0, 5⟩ with hh0
  set d : P2Obj := ⟨1, 0, 1, 2, [3, 4], true, true, [(1, 1), (1, 2)], 3⟩ with hd
  obtain ⟨s, h1, h2, h3, h4, h5⟩ := p2_startsFrom_precomputed (E := E) (c := c) hi (I := 1) (Js := [1, 2]) (Xs := X) (by norm_num)
    (.cons rfl (.cons rfl .nil)) (by simp) (by omega) (by simp) (h0 := h0) (d := d) (by rw [hr]; rfl) (by rw [hr]; rfl)
    (by rw [hr]; rfl) (by rw [hr]; exact .cons rfl (.cons rfl .nil))
  have hsep : s.Separate := by rw [P2State.Separate, h3]; simp [hd]
  have hal : s.Allocated := by rw [P2State.Allocated, h3, h4]; simp [hd, hh0]
  have sA : s.A = ofMat 1 1 fun _ _ => 1 := by rw [P2State.A, h3, h4]; rfl
  have sD : s.D = ofMat 1 1 fun _ _ => 1 := by rw [P2State.D, h3, h4]; rfl
  have sC : s.C = ofMat 2 1 fun k _ => if k = 0 then 2 else 3 := by rw [P2State.C, h3, h4]; rfl
  have sP : s.P = [ofMat 1 1 fun _ _ => 1, ofMat 2 1 fun j _ => if j = 0 then 1 else 0] := by rw [P2State.P, h3, h4]; rfl
  have hort : s.Orthonormal [1, 2] c.opts.rank := by
    rw [hr, P2State.Orthonormal, sP]
    intro k hk i hi j hj
    obtain rfl : i = 0 := by omega
    obtain rfl : j = 0 := by omega
    have hk : k < 2 := hk
    interval_cases k
    · show ∑ l ∈ Finset.range 1, _ = _
      simp [nth, get_ofMat]
    · show ∑ l ∈ Finset.range 2, _ = _
      simp [nth, Finset.sum_range_succ, get_ofMat]
  obtain ⟨w', n', e1, e2, -, e3⟩ := C144_exact_start hE hN hQ h1 h2 hsep hal hort (by rw [ho]; exact Nat.succ_pos n)
    (by rw [ho]; rfl) (by rw [ho]; rfl) (by rw [ho]; rfl) (by intro p hp; rw [hlog] at hp; cases hp) (by rw [hfreq]; decide)
    (N := 2) (by simp) (budget := budget) (mi := mi) (loggers := []) (file := none) (p2_storing_none hfreq _ _) (by
      rw [h5, sA, sD, sC, sP, hr]
      intro k hk i hi j hj
      have hk : k < 2 := hk
      obtain rfl : i = 0 := by omega
      interval_cases k
      · obtain rfl : j = 0 := by simpa using hj
        simp [hXd, nth, p2Entry, get_ofMat]
      · have hj : j < 2 := hj
        interval_cases j <;> simp [hXd, nth, p2Entry, get_ofMat])
  refine ⟨h0, d, w', e1, (e3 ?_).1⟩
  rw [h5, hr]
  intro k hk
  have hk : k < 2 := hk
  interval_cases k
  · exact fullSlice_one hE rfl (by norm_num) (i := 0) (j := 0) (by norm_num) (by norm_num) (by simp [hXd, nth, get_ofMat])
  · exact fullSlice_one hE rfl (by norm_num) (i := 0) (j := 0) (by norm_num) (by norm_num) (by simp [hXd, nth, get_ofMat])

end
end TK
