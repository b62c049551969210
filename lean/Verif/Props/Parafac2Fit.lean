import Verif.Props.Parafac2Iter
import Verif.Props.Parafac2Init

/-! # Theorems about the initialisation and the fit of `Parafac2_ALS` -/

namespace TK
open NDArray Matrix Fit

noncomputable section

variable {s : P2State} {I R : ℕ} {Js : List ℕ}

/-! ### C54 -/

/-- Every slice has the projection matrix computed from that slice: `orthogonal_solve` of `A diag(C[k, :]) Dᵀ` and `X_k`. -/
def P2State.OwnProjections (E : Ext) (s s' : P2State) (I : ℕ) (Js : List ℕ) (R : ℕ) : Prop :=
  ∀ k < Js.length, ∃ Q, orthogonalSolve E (p2Score s.A s.D s.C I R k) (nth s.X k) = .ok Q ∧ nth s'.P k = Q.T

/-- **C54, what holds.** If the projection matrices are different arrays, each slice gets its own. Missing: `init="cp"`, which
uses one array for all slices (`C54_cp_last`, `C54_cp_fails`). -/
theorem C54_distinct_partial {E : Ext} (hE : E.SVDOk) (h : s.Sized I Js R) (ha : s.Apart) (hP : s.dec.P.Nodup) :
    ∃ s', P2.updateProjections E s = .ok s' ∧ P2State.OwnProjections E s s' I Js R := by
  haveI : Nonempty (NDArray ℝ) := ⟨full [] 0⟩
  choose! new hnew using fun k (hk : k < Js.length) => P2State.exists_new hE h hk
  obtain ⟨e, hs⟩ := P2State.updateProjections_ok h ha hnew
  refine ⟨_, e, fun k hk => ?_⟩
  rw [P2State.nth_withP h hP new hk hs]
  exact (hnew k hk).solve

/-- **C54** for `init="random"`. -/
theorem C54_random_partial {E : Ext} (hE : E.SVDOk) (hQ : E.QROk) {c : P2.Config} (h : s.Data I Js) (hR : 0 < c.opts.rank)
    (hJ : ∀ J ∈ Js, c.opts.rank ≤ J) : ∃ s1 s2, P2.initRandom E c s = .ok s1 ∧ P2.updateProjections E s1 = .ok s2 ∧
      P2State.OwnProjections E s1 s2 I Js c.opts.rank := by
  obtain ⟨t, e, h1, h2, h3, h4, -⟩ := P2State.initRandom_ok hQ h hR hJ
  obtain ⟨g1, g2, -⟩ := P2State.setNew_spec h hR h1 h2 h3 h4
  obtain ⟨s2, e2, h5⟩ := C54_distinct_partial hE g1 g2.apart g2.nodup
  exact ⟨_, s2, e, e2, h5⟩

/-- **C54** for a decomposition read from a checkpoint, which consists of new arrays. -/
theorem C54_loaded_partial {E : Ext} (hE : E.SVDOk) (h : s.Data I Js) (hR : 0 < R) {t : Parafac2Tensor} (hA : t.A.shape = [I, R])
    (hD : t.blueprint.shape = [R, R]) (hC : t.C.shape = [Js.length, R]) (hP : Factors t.P Js R) :
    ∃ s2, P2.updateProjections E (P2.setNew t s) = .ok s2 ∧ P2State.OwnProjections E (P2.setNew t s) s2 I Js R := by
  obtain ⟨g1, g2, -⟩ := P2State.setNew_spec h hR hA hD hC hP
  exact C54_distinct_partial hE g1 g2.apart g2.nodup

theorem Heap.writes_replicate {h : Heap} {q : Addr} {K : ℕ} {new : ℕ → NDArray ℝ} : ∀ {n : ℕ}, n < K →
    (h.writes (List.replicate K q) new (n + 1)).mem q = new n := by
  intro n hn
  rw [Heap.writes_succ, getD_eq_getElem' _ (by simpa using hn), List.getElem_replicate, Heap.mem_write_self]

/-- **C54, refuted**: after `init_cp`, for all data, the update of the projection matrices gives every slice the matrix computed
from the *last* slice. -/
theorem C54_cp_last {E : Ext} (hE : E.SVDOk) (hN : E.NNLSOk) (hQ : E.QROk) {c : P2.Config} {K J : ℕ}
    (h : s.Data I (List.replicate K J)) (hR : 0 < c.opts.rank) (hJ : c.opts.rank ≤ J) :
    ∃ s1 s2 Q, P2.initCp E c s = .ok s1 ∧ P2.updateProjections E s1 = .ok s2 ∧
      orthogonalSolve E (p2Score s1.A s1.D s1.C I c.opts.rank (K - 1)) (nth s.X (K - 1)) = .ok Q ∧
      ∀ k < K, nth s2.P k = Q.T := by
  obtain ⟨t0, C, A, B, t, -, e, -, hs, ha, -⟩ := P2State.initCp_ok hE hN hQ h hR hJ
  have hK : 0 < K := by simpa using h.posK
  haveI : Nonempty (NDArray ℝ) := ⟨full [] 0⟩
  choose! new hnew using fun k (hk : k < (List.replicate K J).length) => P2State.exists_new hE hs hk
  obtain ⟨e2, hs2⟩ := P2State.updateProjections_ok hs ha hnew
  obtain ⟨Q, eQ, hQv⟩ := (hnew (K - 1) (by simp; omega)).solve
  refine ⟨_, _, Q, e, e2, eQ, fun k hk => ?_⟩
  have hlen : s.X.length = K := by have := h.X.length_eq; simpa using this
  obtain ⟨n, rfl⟩ : ∃ n, K = n + 1 := ⟨K - 1, by omega⟩
  rw [P2State.nth_P hs2 (by simpa using hk)]
  show ((s.cpStart E C A B t).heap.writes (List.replicate s.X.length (s.heap.next + 1 + 1 + 1)) new
    (List.replicate (n + 1) J).length).mem ((List.replicate s.X.length (s.heap.next + 1 + 1 + 1)).getD k 0) = _
  rw [hlen, getD_eq_getElem' _ (by simpa using hk), List.getElem_replicate, List.length_replicate,
    Heap.writes_replicate (Nat.lt_succ_self n)]
  exact hQv

/-- The singular values of a matrix vanish exactly if the matrix does. -/
theorem svd_zero_iff {E : Ext} (hE : E.SVDOk) {N : NDArray ℝ} {m n : ℕ} (h : N.shape = [m, n]) :
    (∀ i < min m n, (E.svd N).2.1.get [i] = 0) ↔ ∀ i < m, ∀ j < n, N.get [i, j] = 0 := by
  obtain ⟨-, -, -, hsvd, -⟩ := hE N m n h
  constructor
  · intro hz i hi j hj
    have hd : diagonal (vec (E.svd N).2.1 (min m n)) = 0 := by
      rw [diagonal_eq_zero]
      funext k
      exact hz k k.2
    have := congrFun (congrFun hsvd.eq ⟨i, hi⟩) ⟨j, hj⟩
    rw [hd, Matrix.mul_zero, Matrix.zero_mul] at this
    exact this
  · intro hz i hi
    have hN0 : mat N m n = 0 := by
      funext a b
      exact hz a a.2 b b.2
    have h1 := hsvd.eq
    rw [hN0] at h1
    have h2 : diagonal (vec (E.svd N).2.1 (min m n)) = 0 := by
      calc diagonal (vec (E.svd N).2.1 (min m n))
          = ((mat (E.svd N).1 m (min m n))ᵀ * mat (E.svd N).1 m (min m n)) * diagonal (vec (E.svd N).2.1 (min m n))
            * (mat (E.svd N).2.2 (min m n) n * (mat (E.svd N).2.2 (min m n) n)ᵀ) := by
            rw [hsvd.left, hsvd.right, Matrix.one_mul, Matrix.mul_one]
        _ = (mat (E.svd N).1 m (min m n))ᵀ * (mat (E.svd N).1 m (min m n) * diagonal (vec (E.svd N).2.1 (min m n))
            * mat (E.svd N).2.2 (min m n) n) * (mat (E.svd N).2.2 (min m n) n)ᵀ := by
            simp only [Matrix.mul_assoc]
        _ = 0 := by rw [← h1, Matrix.mul_zero, Matrix.zero_mul]
    have := congrFun (diagonal_eq_zero.1 h2) ⟨i, hi⟩
    exact this

/-- For slices with one column and rank one, the new projection matrix has norm one exactly if `X_kᵀ A c_k D ≠ 0`. -/
theorem keepsAll_one {E : Ext} (hE : E.SVDOk) {k : ℕ} (hJ : Js.getD k 0 = 1) :
    s.KeepsAll E I Js 1 k ↔ (s.cross I Js 1 k).get [0, 0] ≠ 0 := by
  have hsh : (s.cross I Js 1 k).shape = [1, 1] := by rw [P2State.cross, shape_ofMat, hJ]
  have hz := svd_zero_iff hE hsh
  have hnn : 0 ≤ (E.svd (s.cross I Js 1 k)).2.1.get [0] := (hE _ _ _ hsh).svd.nonneg ⟨0, by simp⟩
  unfold P2State.KeepsAll
  rw [hJ]
  have e1 : (∀ i < min 1 1, (E.svd (s.cross I Js 1 k)).2.1.get [i] = 0) ↔ (E.svd (s.cross I Js 1 k)).2.1.get [0] = 0 := by
    constructor
    · intro h; exact h 0 (by simp)
    · intro h i hi
      obtain rfl : i = 0 := by simpa using hi
      exact h
  have e2 : (∀ i < 1, ∀ j < 1, (s.cross I Js 1 k).get [i, j] = 0) ↔ (s.cross I Js 1 k).get [0, 0] = 0 := by
    constructor
    · intro h; exact h 0 (by simp) 0 (by simp)
    · intro h i hi j hj
      obtain rfl : i = 0 := by omega
      obtain rfl : j = 0 := by omega
      exact h
  rw [e1, e2] at hz
  rw [Ne, ← not_congr hz]
  constructor
  · intro h h0
    have := h 0 (by simp)
    rw [h0] at this
    norm_num at this
  · intro h i hi
    obtain rfl : i = 0 := by simpa using hi
    have : 0 < (E.svd (s.cross I Js 1 k)).2.1.get [0] := lt_of_le_of_ne hnn (Ne.symm h)
    push_cast
    nlinarith


/-- The draws of the counterexample to C54: the first factor matrix of the random CP start is `(1, 0)`, the others are `(1)`
(before normalisation). -/
def c54Draw (_ : KruskalTensor.RandomMethod) (mode i _ : ℕ) : ℝ := if mode = 0 ∧ i = 1 then 0 else 1

/-- The slices of the counterexample: `X_0 = (1)` and `X_1 = (0)`. -/
def c54Slices : List (NDArray ℝ) := [full [1, 1] 1, full [1, 1] 0]

theorem colLen_eq_one {G : NDArray ℝ} {m : ℕ} (h : ∑ i ∈ Finset.range m, G.get [i, 0] ^ 2 = 1) : colLen G m 0 = 1 := by
  unfold colLen
  rw [h, Real.sqrt_one]

theorem c54_sqErr (F0 F1 F2 : NDArray ℝ) : sqErr (p2Stack c54Slices 1 1) (fun _ => 1) [F0, F1, F2] 1 =
    (1 - F0.get [0, 0] * (F1.get [0, 0] * F2.get [0, 0])) ^ 2 + (F0.get [1, 0] * (F1.get [0, 0] * F2.get [0, 0])) ^ 2 := by
  have hsh : (p2Stack c54Slices 1 1).shape = [2, 1, 1] := rfl
  have g0 : (p2Stack c54Slices 1 1).get [0, 0, 0] = 1 := by
    rw [p2Stack, get_ofFn (by simp [Valid, c54Slices])]
    exact get_full (by simp [Valid])
  have g1 : (p2Stack c54Slices 1 1).get [1, 0, 0] = 0 := by
    rw [p2Stack, get_ofFn (by simp [Valid, c54Slices])]
    exact get_full (by simp [Valid])
  rw [sqErr, hsh]
  simp only [sumIdx, Finset.sum_range_succ, Finset.sum_range_zero, zero_add, g0, g1, cpEntry, rankOne]
  ring

/-- The error of the random CP start of the counterexample. -/
theorem c54_start {t0 : KruskalTensor} (et0 : CP.initRandom c54Draw 1 none (p2Stack c54Slices 1 1) = .ok t0) :
    sqErr (p2Stack c54Slices 1 1) (fun _ => 1) t0.factorMatrices 1 = (1 - (1 / (1 + 1e-15)) ^ 3) ^ 2 := by
  have hsh : (p2Stack c54Slices 1 1).shape = [2, 1, 1] := rfl
  obtain ⟨t0', et0', hwf0, -, hF⟩ := C68_cp_start c54Draw (X := p2Stack c54Slices 1 1) (by rw [hsh]; simp) 1 (nn := none) (by simp)
  rw [et0'] at et0
  obtain rfl : t0' = t0 := by injection et0
  have hlen3 : t0'.factorMatrices.length = 3 := by rw [hwf0.factors.length_eq, hsh]; rfl
  obtain ⟨F0, F1, F2, hFs⟩ : ∃ F0 F1 F2, t0'.factorMatrices = [F0, F1, F2] := by
    match hm : t0'.factorMatrices with
    | [F0, F1, F2] => exact ⟨F0, F1, F2, rfl⟩
    | [] => simp [hm] at hlen3
    | [_] => simp [hm] at hlen3
    | [_, _] => simp [hm] at hlen3
    | _ :: _ :: _ :: _ :: _ => simp [hm] at hlen3
  rw [hFs] at hF ⊢
  obtain ⟨F0', G0, f0, -, d0, -, v0, -⟩ := hF 0 (by simp [hsh])
  obtain ⟨F1', G1, f1, -, d1, -, v1, -⟩ := hF 1 (by simp [hsh])
  obtain ⟨F2', G2, f2, -, d2, -, v2, -⟩ := hF 2 (by simp [hsh])
  simp only [hsh, List.getElem_cons_zero, List.getElem_cons_succ, c54Draw] at d0 d1 d2 v0 v1 v2
  obtain rfl : F0 = F0' := by simpa using f0
  obtain rfl : F1 = F1' := by simpa using f1
  obtain rfl : F2 = F2' := by simpa using f2
  have g00 : G0.get [0, 0] = 1 := by rw [d0 0 (by simp) 0 (by simp)]; simp
  have g01 : G0.get [1, 0] = 0 := by rw [d0 1 (by simp) 0 (by simp)]; simp
  have g10 : G1.get [0, 0] = 1 := by rw [d1 0 (by simp) 0 (by simp)]; simp
  have g20 : G2.get [0, 0] = 1 := by rw [d2 0 (by simp) 0 (by simp)]; simp
  have l0 : colLen G0 2 0 = 1 := colLen_eq_one (by simp [Finset.sum_range_succ, g00, g01])
  have l1 : colLen G1 1 0 = 1 := colLen_eq_one (by simp [g10])
  have l2 : colLen G2 1 0 = 1 := colLen_eq_one (by simp [g20])
  have w00 : F0.get [0, 0] = 1 / (1 + 1e-15) := by rw [v0 0 (by simp) 0 (by simp), l0, g00]; simp
  have w01 : F0.get [1, 0] = 0 := by rw [v0 1 (by simp) 0 (by simp), g01]; simp
  have w10 : F1.get [0, 0] = 1 / (1 + 1e-15) := by rw [v1 0 (by simp) 0 (by simp), l1, g10]; simp
  have w20 : F2.get [0, 0] = 1 / (1 + 1e-15) := by rw [v2 0 (by simp) 0 (by simp), l2, g20]; simp
  rw [c54_sqErr, w00, w01, w10, w20]
  ring

/-- **C54, refuted**: with `init="cp"`, rank one, the slices `(1)` and `(0)`, and the draws `c54Draw`, the first slice does not
have its own projection matrix after an update. (Its own one is `±1`, the one it gets from the last slice is not.) -/
theorem C54_cp_fails {E : Ext} (hE : E.SVDOk) (hN : E.NNLSOk) (hQ : E.QROk) {c : P2.Config} (hR : c.opts.rank = 1)
    (hd : c.cpDraw = c54Draw) (h0 : Heap) :
    ∃ s0 s1 s2, P2.setTarget (.list c54Slices) (P2.fresh h0) = .ok s0 ∧ P2.initCp E c s0 = .ok s1 ∧
      P2.updateProjections E s1 = .ok s2 ∧ ¬ P2State.OwnProjections E s1 s2 1 [1, 1] 1 := by
  have hX : List.Forall₂ (fun (Xk : NDArray ℝ) J => Xk.shape = [1, J]) c54Slices [1, 1] := .cons rfl (.cons rfl .nil)
  have e0 := p2_setTarget_list hX (by simp) (P2.fresh h0)
  set s0 : P2State := { P2.fresh h0 with
      X := c54Slices
      XShape := (1, [1, 1], [1, 1].length)
      XNorm := Real.sqrt ((c54Slices.map fun Xk => frobNorm Xk ^ 2).sum) } with hs0
  have hdata : s0.Data 1 (List.replicate 2 1) := ⟨by simp, by simp, by simp, hX, rfl⟩
  obtain ⟨t0, C, A, B, t, et0, e1, hfac, hs, ha, -, hA, hD, hC, -, -, hle, -⟩ := P2State.initCp_ok hE hN hQ hdata
    (by rw [hR]; norm_num) (by rw [hR])
  rw [hR] at et0 hfac hs hle
  set s1 := s0.cpStart E C A B t with hs1
  haveI : Nonempty (NDArray ℝ) := ⟨full [] 0⟩
  choose! new hnew using fun k (hk : k < (List.replicate 2 1).length) => P2State.exists_new hE hs hk
  obtain ⟨e2, hs2⟩ := P2State.updateProjections_ok hs ha hnew
  refine ⟨s0, s1, _, e0, e1, e2, fun hown => ?_⟩
  -- the start of the CP fit has an error below one
  rw [hd] at et0
  have hle' : sqErr (p2Stack c54Slices 1 1) (fun _ => 1) [C, A, B] 1 ≤ (1 - (1 / (1 + 1e-15)) ^ 3) ^ 2 := by
    rw [← c54_start et0]; exact hle
  rw [c54_sqErr] at hle'
  -- hence its result does not vanish at the first slice
  have hne : C.get [0, 0] * (A.get [0, 0] * B.get [0, 0]) ≠ 0 := by
    intro hz
    rw [hz] at hle'
    have h2 := sq_nonneg (C.get [1, 0] * (A.get [0, 0] * B.get [0, 0]))
    norm_num at hle'
    linarith
  have hC0 : C.get [0, 0] ≠ 0 := left_ne_zero_of_mul hne
  have hA0 : A.get [0, 0] ≠ 0 := left_ne_zero_of_mul (right_ne_zero_of_mul hne)
  have hB0 : B.get [0, 0] ≠ 0 := right_ne_zero_of_mul (right_ne_zero_of_mul hne)
  have hBs : B.shape = [1, 1] := hfac.shape_get (k := 2) (by simp)
  have hD0 : (E.qr B).2.get [0, 0] ≠ 0 := by
    intro hz
    have h1 := (hQ B 1 1 hBs).eq
    have h2 := congrFun (congrFun h1 0) 0
    rw [mul_apply] at h2
    have h3 : (∑ j : Fin (min 1 1), mat (E.qr B).1 1 (min 1 1) 0 j * mat (E.qr B).2 (min 1 1) 1 j 0) = 0 :=
      Finset.sum_eq_zero fun j _ => by
        have hj : (j : ℕ) = 0 := by have := j.2; simpa using this
        have : mat (E.qr B).2 (min 1 1) 1 j 0 = (E.qr B).2.get [0, 0] := by
          show (E.qr B).2.get [(j : ℕ), 0] = _
          rw [hj]
        rw [this, hz, mul_zero]
    exact hB0 (h2.trans h3)
  -- the own matrix of the first slice has norm one, that of the last one has not
  have hJ0 : (List.replicate 2 1).getD 0 0 = 1 := rfl
  have hJ1 : (List.replicate 2 1).getD 1 0 = 1 := rfl
  have hk0 : s1.KeepsAll E 1 (List.replicate 2 1) 1 0 := by
    rw [keepsAll_one hE hJ0]
    rw [P2State.cross, get_ofMat (by simp) (by simp), Finset.sum_range_one, p2Score, get_ofMat (by simp) (by simp),
      Finset.sum_range_one, hA, hC, hD]
    have : (nth s1.X 0).get [0, 0] = 1 := get_full (by simp [Valid])
    rw [this, one_mul]
    exact mul_ne_zero (mul_ne_zero hC0 hA0) hD0
  have hk1 : ¬ s1.KeepsAll E 1 (List.replicate 2 1) 1 1 := by
    rw [keepsAll_one hE hJ1, not_not]
    rw [P2State.cross, get_ofMat (by simp) (by simp), Finset.sum_range_one]
    have : (nth s1.X 1).get [0, 0] = 0 := get_full (by simp [Valid])
    rw [this, zero_mul]
  have o0 := (newP_orthonormal_iff hE hs (by simp) (hnew 0 (by simp)) le_rfl).2 hk0
  have o1 := fun h => hk1 ((newP_orthonormal_iff hE hs (by simp) (hnew 1 (by simp)) le_rfl).1 h)
  obtain ⟨Q, eQ, hQ0⟩ := hown 0 (by simp)
  obtain ⟨Q', eQ', hn0⟩ := (hnew 0 (by simp)).solve
  rw [eQ] at eQ'
  obtain rfl : Q = Q' := by injection eQ'
  have hlast : nth (s1.withP new (List.replicate 2 1).length).P 0 = new 1 :=
    Heap.writes_replicate (h := s1.heap) (q := s0.heap.next + 1 + 1 + 1) (K := 2) (new := new) (n := 1) (by norm_num)
  apply o1
  rw [← hlast, hQ0, ← hn0]
  exact o0

/-! ### C80: whole fits -/

/-- A new `Parafac2_ALS` object, in a program with the arrays `h`. -/
def P2.newObject (h : Heap) (maxIts : Int) (loggers : List Logger) (file : Option H5File) : World P2State :=
  ⟨P2.fresh h, 0, maxIts, loggers, file⟩

/-- `set_target` and `init_components` of a new object give the state `s`. -/
def P2.StartsFrom (E : Ext) (c : P2.Config) (D : P2Data) (arg : InitArg P2Obj) (h : Heap) (s : P2State) : Prop :=
  ∃ s0, P2.setTarget D (P2.fresh h) = .ok s0 ∧ ∀ budget loggers file,
    P2.initComponents E c arg ⟨s0, 0, budget, loggers, file⟩ = .ok () ⟨s, 0, budget, loggers, file⟩

/-- The loggers of the configuration can measure every state that can occur. -/
def P2.Config.Measurable (c : P2.Config) (I : ℕ) (Js : List ℕ) : Prop :=
  ∀ p ∈ c.logs, ∀ s : P2State, s.Sized I Js c.opts.rank → ∃ v, p.2 s = .ok v

/-- The loggers for the SSE and the loss can always measure. -/
theorem p2_measurable (o : P2Opts) (h : s.Sized I Js o.rank) : (∃ v, P2.sse s = .ok v) ∧ ∃ v, P2.loss o s = .ok v := by
  obtain ⟨l, e, -⟩ := h.loss (o := o)
  exact ⟨⟨_, h.sse⟩, l, e⟩

/-- The options are admissible: they are for the inner CP problem of size `I × R × K`. -/
abbrev P2.Admissible (o : P2Opts) (I K : ℕ) : Prop :=
  CP.Admissible (P2.innerOpts o) (some (P2.nonNegOption o)) o.orth [I, o.rank, K]

theorem P2State.Distinct.loss (h : s.Distinct) (r : FV) (l : ℝ) : (s.withLoss r l).Distinct := ⟨h.addrs, h.apart.A, h.apart.D, h.apart.C⟩

theorem P2State.Separate.loss (h : s.Separate) (r : FV) (l : ℝ) : (s.withLoss r l).Separate := h

theorem P2State.Sized.withLoss (h : s.Sized I Js R) (r : FV) (l : ℝ) : (s.withLoss r l).Sized I Js R :=
  ⟨h.posI, h.posR, h.posJ, h.posK, h.X, h.xshape, h.A, h.D, h.C, h.P⟩

/-- C80. A fit of a new `Parafac2_ALS` object with admissible options, whose initialisation gives matrices of the right sizes with
`A`, `D` and `C` in arrays of their own (slices may share a projection array), completes: it performs `k` iterations, `k = max_its` or the state then meets the stopping criterion,
`current_iteration` is `k`, the state is the one after `k` iterations, the checkpoints are those of the schedule, the SSE it
reports is the true one, and all sizes are right. -/
theorem C80_fit_completes {E : Ext} (hE : E.SVDOk) (hN : E.NNLSOk) (hQ : E.QROk) {c : P2.Config} {D : P2Data} {arg : InitArg P2Obj}
    {h0 : Heap} (hi : P2.StartsFrom E c D arg h0 s) (h : s.Sized I Js c.opts.rank) (hs : s.Distinct) (hal : s.Allocated)
    (hA : P2.Admissible c.opts I Js.length) (hlog : c.Measurable I Js) (hfreq : freqOption c.freq ≠ 0)
    {budget : Int} {mi : Option Int} {loggers : List Logger} {file : Option H5File}
    (hS : Storing (P2.method E c) (P2.newObject h0 budget loggers file) []) :
    ∃ l sp w', ∃ k : ℕ, P2.loss c.opts s = .ok l ∧ P2.prepareCp E c.opts (s.withLoss .pinf l) = .ok sp ∧
      (∃ ci, sp.Working c.opts I Js ci) ∧
      P2.fit E c D mi arg (P2.newObject h0 budget loggers file) = .ok () w' ∧
      (k : Int) ≤ max 0 (mi.getD budget) ∧ w'.it = k ∧ w'.st = P2.orbit E c.opts sp k ∧
      (∀ j < k, P2.iteration E c.opts (P2.orbit E c.opts sp j) = .ok (P2.orbit E c.opts sp (j + 1)) ∧
        P2.shouldStop c.opts (P2.orbit E c.opts sp j) = .ok false) ∧
      ((k : Int) < mi.getD budget → P2.shouldStop c.opts w'.st = .ok true) ∧
      w'.st.Sized I Js c.opts.rank ∧ P2.sse w'.st = .ok (w'.st.err I Js c.opts.rank) ∧ w'.st.X = s.X ∧
      Storing (P2.method E c) w' (schedule (freqOption c.freq) 0 k
          (fun j => (P2.orbit E c.opts sp j).dec.read (P2.orbit E c.opts sp j).heap) ++
        finalCheckpoint (P2.method E c) 0 k (mi.getD budget).toNat (w'.st.dec.read w'.st.heap)) := by
  obtain ⟨l, el, -⟩ := h.loss (o := c.opts)
  obtain ⟨h', ci, ep, hw, -⟩ := P2State.prepareCp_ok (E := E) hQ (o := c.opts) (h.withLoss .pinf l) (hs.loss .pinf l) hA
    (fun _ => hal)
  set sp := (s.withLoss .pinf l).withInner h' ci with hsp
  obtain ⟨s0, e0, ei⟩ := hi
  have hfit : P2.fit E c D mi arg (P2.newObject h0 budget loggers file) =
      run (P2.method E c) { P2.newObject h0 budget loggers file with
        it := 0, maxIts := mi.getD budget, st := s.withLoss .pinf l } := by
    have er : (P2.method E c).initRest s = .ok (s.withLoss .pinf l) := by
      show P2.initRest c.opts s = _
      rw [P2.initRest, el, bind_ok]; rfl
    unfold P2.fit Fit.fit Fit.initFit
    simp only [bind_assoc]
    rw [bind_of_ok (modify_def _ _), bind_of_ok (modifySt_ok (s := s0) e0)]
    show (P2.initComponents E c arg >>= _) (⟨s0, 0, budget, loggers, file⟩ : World P2State) = _
    rw [bind_of_ok (ei budget loggers file)]
    cases mi with
    | none =>
      rw [bind_of_ok (show setMaxIts none _ = .ok () _ from rfl), bind_of_ok (modifySt_ok er)]; rfl
    | some v =>
      rw [bind_of_ok (show setMaxIts (some v) _ = .ok () _ from rfl), bind_of_ok (modifySt_ok er)]; rfl
  set N := (mi.getD budget).toNat with hN'
  set ss := P2.orbit E c.opts sp with hss
  obtain ⟨k, hk1, hk2, hk3⟩ := exists_stop (P := fun j => P2.shouldStop c.opts (ss j) = .ok true) N
  have hgo : ∀ j < k, P2.shouldStop c.opts (ss j) = .ok false := by
    intro j hj
    have := hk2 j hj
    simp only [P2.shouldStop] at this ⊢
    cases hb : (ss j).relChange.absLt c.opts.convergenceTol with
    | false => rfl
    | true => exact absurd (by rw [hb]) this
  have hT : Trajectory (P2.method E c) ss k := by
    refine ⟨fun j _ => p2_orbit_step hE hN hw j, fun j hj => hgo j hj, fun j _ p hp => ?_, fun _ _ => ⟨_, parafac2_storeIn_eq _⟩⟩
    obtain ⟨c', h1, -⟩ := p2_orbit_working hE hN hw (j + 1)
    exact hlog p hp _ h1.sized
  set w1 : World P2State := { P2.newObject h0 budget loggers file with
    it := 0, maxIts := mi.getD budget, st := s.withLoss .pinf l } with hw1
  have hmax : (w1.maxIts - w1.it).toNat = N := by simp [hw1, hN']
  obtain ⟨w', g1, g2, g3, g4, g5⟩ := C43_schedule (P2.method E c) hfreq (w := w1) (L := []) (ss := ss) (k := k)
    (s' := ss k) ep hT (by rw [hmax]; exact hk1) (by rw [hmax]; exact hk3) rfl (fun hu => by simp [P2.method] at hu)
    ⟨hS.path, hS.cks, hS.logs⟩ (by simp) (by simp)
  obtain ⟨ck, hwk, -, -, -, -, hXk, -⟩ := p2_orbit_working hE hN hw k
  refine ⟨l, sp, w', k, el, ep, ⟨ci, hw⟩, by rw [hfit]; exact g1, by omega, by rw [g3]; simp [hw1], g2, ?_, ?_, ?_, ?_, ?_, ?_⟩
  · intro j hj
    exact ⟨p2_orbit_step hE hN hw j, hgo j hj⟩
  · intro hlt
    rw [g2]; exact hk3 (by omega)
  · rw [g2]; exact hwk.sized
  · rw [g2]; exact hwk.sized.sse
  · rw [g2]; exact hXk
  · rw [hmax, List.nil_append] at g5
    rw [g2]; exact g5

/-- C80 without constraints and penalties, from orthonormal projection matrices: the SSE of the result is at most that of the start
plus twice the singular values treated as zero on the way. -/
theorem C80_fit_improves_partial {E : Ext} (hE : E.SVDOk) (hN : E.NNLSOk) (hQ : E.QROk) {c : P2.Config} {D : P2Data}
    {arg : InitArg P2Obj} {h0 : Heap} (hi : P2.StartsFrom E c D arg h0 s) (h : s.Sized I Js c.opts.rank) (hs : s.Separate)
    (hal : s.Allocated) (hort : s.Orthonormal Js c.opts.rank)
    (hnn : c.opts.nonNeg = none) (hon : c.opts.orth = none) (hridge : c.opts.ridgePenalties = none)
    (hlog : c.Measurable I Js) (hfreq : freqOption c.freq ≠ 0)
    {budget : Int} {mi : Option Int} {loggers : List Logger} {file : Option H5File}
    (hS : Storing (P2.method E c) (P2.newObject h0 budget loggers file) []) :
    ∃ sp w', ∃ k : ℕ, P2.fit E c D mi arg (P2.newObject h0 budget loggers file) = .ok () w' ∧
      w'.st = P2.orbit E c.opts sp k ∧
      P2.sse w'.st = .ok (w'.st.err I Js c.opts.rank) ∧
      w'.st.err I Js c.opts.rank ≤ s.err I Js c.opts.rank
        + 2 * ∑ j ∈ Finset.range k, (P2.orbit E c.opts sp j).dropped E I Js c.opts.rank := by
  have hnf : P2.nonNegOption c.opts = [false, false, false] := by rw [P2.nonNegOption, hnn]; rfl
  have hof : P2State.orthFlags c.opts = [false, false, false] := by rw [P2State.orthFlags, hon]; rfl
  have hno : ∀ j : ℕ, ([false, false, false] : List Bool)[j]? ≠ some true := by
    intro j
    match j with
    | 0 => simp
    | 1 => simp
    | 2 => simp
    | _ + 3 => simp
  have hA : P2.Admissible c.opts I Js.length := by
    have h1 := h.posI
    have h2 := h.posR
    have h3 := h.posK
    refine ⟨h2, by simp, ?_, by simp [hnf], by simp [hon], by simp [P2.innerOpts, hridge], by simp [hon], by simp [hon]⟩
    intro n hn
    simp only [List.mem_cons, List.not_mem_nil, or_false] at hn
    rcases hn with rfl | rfl | rfl <;> omega
  obtain ⟨l, sp, w', k, el, ep, -, hfit, -, -, hst, -, -, -, hsse, -⟩ := C80_fit_completes hE hN hQ hi h hs.distinct hal hA hlog hfreq
    (mi := mi) hS
  obtain ⟨h', ci, ep', hw, -, -, hn1, ho1, -, -, hsh, -⟩ := P2State.prepareCp_ok (E := E) hQ (o := c.opts) (h.withLoss .pinf l)
    (hs.distinct.loss .pinf l) hA (fun _ => hal)
  rw [ep] at ep'
  obtain rfl : sp = (s.withLoss .pinf l).withInner h' ci := by injection ep'
  rw [hof] at hsh ho1
  rw [hnf] at hn1
  obtain ⟨rfl, h3⟩ := hsh hno
  have hfree : P2State.Free ci := by
    refine ⟨⟨_, hn1, ?_⟩, ⟨_, ho1, ?_⟩⟩ <;>
    · intro m hm
      interval_cases m <;> simp
  have := C53_trajectory_partial hE hN hridge hw hs.nodup h3 hfree (show P2State.Orthonormal _ Js c.opts.rank from hort) k
  refine ⟨_, w', k, hfit, hst, hsse, ?_⟩
  rw [hst]
  exact this.2

/-- `init="random"`: the start meets the hypotheses of C80. -/
theorem p2_startsFrom_random {E : Ext} (hQ : E.QROk) {c : P2.Config} (hi : c.init.toLower = "random") {Xs : List (NDArray ℝ)}
    (hI : 0 < I) (hX : List.Forall₂ (fun Xk J => Xk.shape = [I, J]) Xs Js) (hK : 0 < Js.length) (hR : 0 < c.opts.rank)
    (hJ : ∀ J ∈ Js, c.opts.rank ≤ J) (h0 : Heap) :
    ∃ s, P2.StartsFrom E c (.list Xs) .none h0 s ∧ s.Sized I Js c.opts.rank ∧ s.Separate ∧ s.Allocated ∧
      s.Orthonormal Js c.opts.rank ∧ s.X = Xs := by
  have e0 := p2_setTarget_list hX hK (P2.fresh h0)
  set s0 : P2State := { P2.fresh h0 with
      X := Xs
      XShape := (I, Js, Js.length)
      XNorm := Real.sqrt ((Xs.map fun Xk => frobNorm Xk ^ 2).sum) } with hs0
  have hd : s0.Data I Js := ⟨hI, fun J hJ' => hR.trans_le (hJ J hJ'), hK, hX, rfl⟩
  obtain ⟨t, e, h1, h2, h3, h4, h5⟩ := P2State.initRandom_ok hQ hd hR hJ
  obtain ⟨g1, g2, g3, g4, -⟩ := P2State.setNew_spec hd hR h1 h2 h3 h4
  refine ⟨_, ⟨s0, e0, fun budget loggers file => ?_⟩, g1, g2, g3, P2State.orthonormal_of_read g4 h4 h5, rfl⟩
  unfold P2.initComponents
  simp only [hi]
  exact modifySt_ok (w := ⟨s0, 0, budget, loggers, file⟩) e

/-- `init="precomputed"`: if the supplied decomposition has the right sizes, the start is that decomposition. -/
theorem p2_startsFrom_precomputed {E : Ext} {c : P2.Config} (hi : c.init.toLower = "precomputed") {Xs : List (NDArray ℝ)}
    (hI : 0 < I) (hX : List.Forall₂ (fun Xk J => Xk.shape = [I, J]) Xs Js) (hK : 0 < Js.length) (hR : 0 < c.opts.rank)
    (hJ : ∀ J ∈ Js, 0 < J) {h0 : Heap} {d : P2Obj} (hA : (h0.mem d.A).shape = [I, c.opts.rank])
    (hD : (h0.mem d.blueprint).shape = [c.opts.rank, c.opts.rank]) (hC : (h0.mem d.C).shape = [Js.length, c.opts.rank])
    (hP : Factors (d.P.map h0.mem) Js c.opts.rank) :
    ∃ s, P2.StartsFrom E c (.list Xs) (.tensor d) h0 s ∧ s.Sized I Js c.opts.rank ∧ s.dec = d ∧ s.heap = h0 ∧ s.X = Xs := by
  have e0 := p2_setTarget_list hX hK (P2.fresh h0)
  set s0 : P2State := { P2.fresh h0 with
      X := Xs
      XShape := (I, Js, Js.length)
      XNorm := Real.sqrt ((Xs.map fun Xk => frobNorm Xk ^ 2).sum) } with hs0
  have hchk : P2.checkValid c.opts.rank s0 (d.read h0) = .ok () := by
    have hd : s0.Data I Js := ⟨hI, hJ, hK, hX, rfl⟩
    exact (C62_parafac2_check_partial (t := d.read h0) (rank := c.opts.rank) hd hA hC hD hP rfl).1.2
      ⟨⟨rfl, rfl⟩, ⟨rfl, rfl⟩, rfl, rfl⟩
  refine ⟨{ s0 with dec := d }, ⟨s0, e0, fun budget loggers file => ?_⟩, ⟨hI, hR, hJ, hK, hX, rfl, hA, hD, hC, hP⟩, rfl, rfl, rfl⟩
  unfold P2.initComponents
  simp only [hi]
  refine modifySt_ok (w := ⟨s0, 0, budget, loggers, file⟩) (f := fun s => do
    P2.checkValid c.opts.rank s (d.read s.heap)
    pure { s with dec := d }) ?_
  show (P2.checkValid c.opts.rank s0 (d.read h0) >>= _) = _
  rw [hchk, bind_ok]; rfl

/-- Without `checkpoint_frequency` there is nothing to store. -/
theorem p2_storing_none {E : Ext} {c : P2.Config} (hf : c.freq = none) (w : World P2State) (L : List (Int × Parafac2Tensor)) :
    Storing (P2.method E c) w L := by
  have h : ¬ 0 < (P2.method E c).freq := by
    show ¬ 0 < freqOption c.freq
    rw [hf]; decide
  exact ⟨fun h' => absurd h' h, fun h' => absurd h' h, fun h' => absurd h' h⟩

/-- C80 with all hypotheses about the start discharged: a fit of slices with at least as many columns as the rank, from a random start
and with default constraints, completes within `max_its` iterations. -/
theorem C80_random_fit {E : Ext} (hE : E.SVDOk) (hN : E.NNLSOk) (hQ : E.QROk) {c : P2.Config} (hi : c.init.toLower = "random")
    {n : ℕ} {g : List ℕ → ℝ} (ho : c.opts = p2Plain R n g) (hlog : c.logs = []) (hfreq : c.freq = none) {Xs : List (NDArray ℝ)}
    (hI : 0 < I) (hX : List.Forall₂ (fun Xk J => Xk.shape = [I, J]) Xs Js) (hK : 0 < Js.length) (hR : 0 < R)
    (hJ : ∀ J ∈ Js, R ≤ J) (h0 : Heap) (budget : Int) (mi : Option Int) (loggers : List Logger) (file : Option H5File) :
    ∃ w', ∃ k : ℕ, P2.fit E c (.list Xs) mi .none (P2.newObject h0 budget loggers file) = .ok () w' ∧
      (k : Int) ≤ max 0 (mi.getD budget) ∧ w'.it = k ∧ w'.st.Sized I Js R ∧
      P2.sse w'.st = .ok (p2Err Xs w'.st.P w'.st.A w'.st.D w'.st.C I Js R) := by
  have hr : c.opts.rank = R := by rw [ho]; rfl
  obtain ⟨s, h1, h2, h3, h4, -, h6⟩ := p2_startsFrom_random hQ (c := c) hi hI hX hK (by omega) (by rw [hr]; exact hJ) h0
  obtain ⟨l, sp, w', k, -, -, -, e1, e2, e3, -, -, -, e7, e8, e9, -⟩ := C80_fit_completes hE hN hQ h1 h2 h3.distinct h4
    (by rw [ho]; exact p2Plain_admissible hR hI hK) (by intro p hp; rw [hlog] at hp; cases hp) (by rw [hfreq]; decide) (budget := budget)
    (mi := mi) (loggers := loggers) (file := file) (p2_storing_none hfreq _ _)
  rw [hr] at e7 e8
  exact ⟨w', k, e1, e2, e3, e7, by rw [e8, P2State.err, e9, h6]⟩

/-- The hypotheses hold for two slices of different sizes. -/
example : List.Forall₂ (fun (Xk : NDArray ℝ) J => Xk.shape = [2, J]) [full [2, 2] 1, full [2, 3] 5] [2, 3] ∧
    ∀ J ∈ [2, 3], 2 ≤ J := ⟨.cons rfl (.cons rfl .nil), by simp⟩

/-- **C56, refuted** for `Parafac2_ALS`: with `init="precomputed"` and a decomposition of the right sizes, `fit` completes but
`fit_transform` with the same arguments raises `AttributeError`. -/
theorem C56_parafac2_fails {E : Ext} (hE : E.SVDOk) (hN : E.NNLSOk) (hQ : E.QROk) {c : P2.Config}
    (hi : c.init.toLower = "precomputed") {n : ℕ} {g : List ℕ → ℝ} (ho : c.opts = p2Plain R n g) (hlog : c.logs = [])
    (hfreq : c.freq = none) {Xs : List (NDArray ℝ)} (hI : 0 < I) (hX : List.Forall₂ (fun Xk J => Xk.shape = [I, J]) Xs Js)
    (hK : 0 < Js.length) (hR : 0 < R) (hJ : ∀ J ∈ Js, 0 < J) {h0 : Heap} {d : P2Obj} (hA : (h0.mem d.A).shape = [I, R])
    (hD : (h0.mem d.blueprint).shape = [R, R]) (hC : (h0.mem d.C).shape = [Js.length, R]) (hP : Factors (d.P.map h0.mem) Js R)
    (hs : (d.A :: d.blueprint :: d.C :: d.P).Nodup) (hal : ∀ a ∈ d.A :: d.blueprint :: d.C :: d.P, a < h0.next)
    (budget : Int) (mi : Option Int) (loggers : List Logger) (file : Option H5File) :
    (∃ w', P2.fit E c (.list Xs) mi (.tensor d) (P2.newObject h0 budget loggers file) = .ok () w') ∧
      ∃ w', P2.fitTransform E c (.list Xs) mi (.tensor d) (P2.newObject h0 budget loggers file) = .error .attributeError w' := by
  have hr : c.opts.rank = R := by rw [ho]; rfl
  obtain ⟨s, h1, h2, h3, h4, h5⟩ := p2_startsFrom_precomputed (E := E) (c := c) hi hI hX hK (by omega) hJ (hr.symm ▸ hA)
    (hr.symm ▸ hD) (hr.symm ▸ hC) (hr.symm ▸ hP)
  obtain ⟨l, sp, w', k, -, -, -, e1, -⟩ := C80_fit_completes hE hN hQ h1 h2
    (show s.Separate by rw [P2State.Separate, h3]; exact hs).distinct
    (by rw [P2State.Allocated, h3, h4]; exact hal)
    (by rw [ho]; exact p2Plain_admissible hR hI hK) (by intro p hp; rw [hlog] at hp; cases hp) (by rw [hfreq]; decide) (budget := budget)
    (mi := mi) (loggers := loggers) (file := file) (p2_storing_none hfreq _ _)
  exact ⟨⟨w', e1⟩, C56_parafac2_precomputed_raises E c hi hX hK mi _ _⟩

/-- The hypotheses hold for two slices of different sizes. -/
example : ∃ (h0 : Heap) (d : P2Obj), (h0.mem d.A).shape = [2, 1] ∧ (h0.mem d.blueprint).shape = [1, 1] ∧
    (h0.mem d.C).shape = [2, 1] ∧ Factors (d.P.map h0.mem) [1, 2] 1 ∧ (d.A :: d.blueprint :: d.C :: d.P).Nodup ∧
    ∀ a ∈ d.A :: d.blueprint :: d.C :: d.P, a < h0.next :=
  ⟨⟨fun a => if a = 0 then full [2, 1] 3 else if a = 1 then full [1, 1] 1 else if a = 2 then full [2, 1] 1
      else if a = 3 then full [1, 1] 1 else full [2, 1] 1, 5⟩, ⟨1, 0, 1, 2, [3, 4], true, true, [(2, 1), (2, 2)], 3⟩,
    rfl, rfl, rfl, .cons rfl (.cons rfl .nil), by simp, by simp⟩

end
end TK
