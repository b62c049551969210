import Verif.Props.Scores
import Mathlib.LinearAlgebra.Matrix.Block
import Mathlib.LinearAlgebra.Matrix.ToLin
import Mathlib.LinearAlgebra.FiniteDimensional.Lemmas

/-!
# Core consistency (C63, C77)
-/

namespace TK
open NDArray

noncomputable section

/-! ### least squares with a QR decomposition -/

theorem le_of_injective {m n : ℕ} {M : Matrix (Fin m) (Fin n) ℝ} (h : ∀ v, M.mulVec v = 0 → v = 0) : n ≤ m := by
  have hi : Function.Injective M.mulVecLin := by
    rw [← LinearMap.ker_eq_bot, LinearMap.ker_eq_bot']
    intro v hv
    exact h v (by simpa using hv)
  simpa using LinearMap.finrank_le_finrank_of_injective hi

theorem qr_normal {m n : ℕ} {M Q : Matrix (Fin m) (Fin n) ℝ} {R : Matrix (Fin n) (Fin n) ℝ} {x : Matrix (Fin m) (Fin 1) ℝ}
    (hQ : Q.transpose * Q = 1) (hM : M = Q * R) (hR : R.det ≠ 0) :
    M.transpose * (M * (R⁻¹ * (Q.transpose * x)) - x) = 0 := by
  have hu : IsUnit R.det := isUnit_iff_ne_zero.2 hR
  have e1 : R * (R⁻¹ * (Q.transpose * x)) = Q.transpose * x := by
    rw [← Matrix.mul_assoc, Matrix.mul_nonsing_inv _ hu, Matrix.one_mul]
  rw [hM, Matrix.mul_assoc, e1, Matrix.mul_sub, Matrix.transpose_mul, Matrix.mul_assoc, Matrix.mul_assoc,
    ← Matrix.mul_assoc Q.transpose Q, hQ, Matrix.one_mul, sub_self]

theorem ls_left {m n : ℕ} {M : Matrix (Fin m) (Fin n) ℝ} {g h : Matrix (Fin n) (Fin 1) ℝ} {x : Matrix (Fin m) (Fin 1) ℝ}
    (hg : M.transpose * (M * g - x) = 0) : LA.fsq (M * h - x) = LA.fsq (M * g - x) + LA.fsq (M * (h - g)) := by
  have e : M * h - x = (M * g - x) + M * (h - g) := by rw [Matrix.mul_sub]; abel
  rw [e, LA.fsq_add, LA.fip_comm, LA.fip_mul_left', hg]
  simp [LA.fip]

/-! ### the Kronecker product of three matrices -/

theorem kronT_entry {A B C : NDArray ℝ} {I J K F : ℕ} (hA : A.shape = [I, F]) (hB : B.shape = [J, F])
    (hC : C.shape = [K, F]) :
    ∃ k, kron [A.T, B.T, C.T] = .ok k ∧ k.shape = [[F, F, F].prod, [I, J, K].prod] ∧
      ∀ i < I, ∀ j < J, ∀ l < K, ∀ p < F, ∀ q < F, ∀ r < F,
        k.T.get [ravel [I, J, K] [i, j, l], ravel [F, F, F] [p, q, r]] = A.get [i, p] * B.get [j, q] * C.get [l, r] := by
  have hm : Mats [A.T, B.T, C.T] [F, F, F] [I, J, K] :=
    ⟨.cons (shape_T hA) (.cons (shape_T hB) (.cons (shape_T hC) .nil)), rfl⟩
  refine ⟨_, kron_eq hm (by simp), rfl, fun i hi j hj l hl p hp q hq r hr => ?_⟩
  have v1 : Valid [I, J, K] [i, j, l] := by simp [hi, hj, hl]
  have v2 : Valid [F, F, F] [p, q, r] := by simp [hp, hq, hr]
  rw [get_T (A := kronMat _ _ _) rfl (ravel_lt v1) (ravel_lt v2), kronMat, get_ofMat (ravel_lt v2) (ravel_lt v1),
    unravel_ravel v1, unravel_ravel v2]
  simp only [kronEntry]
  rw [get_T hA hp hi, get_T hB hq hj, get_T hC hr hl]
  ring

/-- Three matrices with independent columns: the products are independent. -/
theorem indep_triple {A B C : ℕ → ℕ → ℝ} {I J K F : ℕ}
    (hA : ∀ v : ℕ → ℝ, (∀ i < I, ∑ p ∈ Finset.range F, A i p * v p = 0) → ∀ p < F, v p = 0)
    (hB : ∀ v : ℕ → ℝ, (∀ i < J, ∑ p ∈ Finset.range F, B i p * v p = 0) → ∀ p < F, v p = 0)
    (hC : ∀ v : ℕ → ℝ, (∀ i < K, ∑ p ∈ Finset.range F, C i p * v p = 0) → ∀ p < F, v p = 0)
    {v : ℕ → ℕ → ℕ → ℝ} (h : ∀ i < I, ∀ j < J, ∀ l < K, ∑ p ∈ Finset.range F, ∑ q ∈ Finset.range F,
      ∑ r ∈ Finset.range F, A i p * B j q * C l r * v p q r = 0) : ∀ p < F, ∀ q < F, ∀ r < F, v p q r = 0 := by
  have h1 : ∀ j < J, ∀ l < K, ∀ p < F, ∑ q ∈ Finset.range F, ∑ r ∈ Finset.range F, B j q * C l r * v p q r = 0 := by
    intro j hj l hl
    refine hA _ fun i hi => ?_
    rw [← h i hi j hj l hl]
    refine Finset.sum_congr rfl fun p _ => ?_
    rw [Finset.mul_sum]
    refine Finset.sum_congr rfl fun q _ => ?_
    rw [Finset.mul_sum]
    exact Finset.sum_congr rfl fun r _ => by ring
  have h2 : ∀ l < K, ∀ p < F, ∀ q < F, ∑ r ∈ Finset.range F, C l r * v p q r = 0 := by
    intro l hl p hp
    refine hB _ fun j hj => ?_
    rw [← h1 j hj l hl p hp]
    refine Finset.sum_congr rfl fun q _ => ?_
    rw [Finset.mul_sum]
    exact Finset.sum_congr rfl fun r _ => by ring
  intro p hp q hq
  exact hC _ fun l hl => h2 l hl p hp q hq

theorem reshapeCols_one {X : NDArray ℝ} : X.reshapeCols 1 = .ok (ofFlat [X.shape.prod, 1] X.flat) := by
  rw [reshapeCols, if_neg one_ne_zero, Nat.mod_one, if_pos rfl, Nat.div_one, reshape_ok' (by simp)]

theorem get_column {s : List ℕ} {f : ℕ → ℝ} {a : ℕ} (ha : a < s.prod) : (ofFlat [s.prod, 1] f).get [a, 0] = f a := by
  rw [ofFlat_mat, get_ofMat ha one_pos]; simp

/-- A function as a column. -/
def colOf (n : ℕ) (h : ℕ → ℝ) : Matrix (Fin n) (Fin 1) ℝ := fun c _ => h c

/-- The squared error of a Tucker model in matrix form. -/
theorem tuckerErr_eq {X k : NDArray ℝ} {A B C : NDArray ℝ} {I J K F : ℕ} (hX : X.shape = [I, J, K])
    (hk : ∀ i < I, ∀ j < J, ∀ l < K, ∀ p < F, ∀ q < F, ∀ r < F,
        k.T.get [ravel [I, J, K] [i, j, l], ravel [F, F, F] [p, q, r]] = A.get [i, p] * B.get [j, q] * C.get [l, r])
    (h : ℕ → ℝ) :
    tuckerErr X I J K F (fun i p => A.get [i, p]) (fun i p => B.get [i, p]) (fun i p => C.get [i, p])
        (fun p q r => h (ravel [F, F, F] [p, q, r]))
      = LA.fsq (mat k.T [I, J, K].prod [F, F, F].prod * colOf [F, F, F].prod h
        - mat (ofFlat [[I, J, K].prod, 1] X.flat) [I, J, K].prod 1) := by
  have e : ∀ a : Fin [I, J, K].prod, (mat k.T [I, J, K].prod [F, F, F].prod
        * colOf [F, F, F].prod h) a 0
      = (fun a : ℕ => ∑ c ∈ Finset.range [F, F, F].prod, k.T.get [a, c] * h c) a := fun a => by
    simp only [Matrix.mul_apply, mat, Finset.sum_range, colOf]
  rw [LA.fsq]
  simp only [Finset.univ_unique, Fin.default_eq_zero, Fin.isValue, Finset.sum_singleton, Matrix.sub_apply, e]
  have e2 : ∀ a : Fin [I, J, K].prod, mat (ofFlat [[I, J, K].prod, 1] X.flat) [I, J, K].prod 1 a 0 = X.flat a := fun a => by
    simp only [mat]; exact get_column a.2
  simp only [e2]
  rw [← Finset.sum_range (fun a => ((∑ c ∈ Finset.range [F, F, F].prod, k.T.get [a, c] * h c) - X.flat a) ^ 2),
    sum_range_prod]
  simp only [sumIdx, tuckerErr]
  refine Finset.sum_congr rfl fun i hi => Finset.sum_congr rfl fun j hj => Finset.sum_congr rfl fun l hl => ?_
  have hi : i < I := Finset.mem_range.1 hi
  have hj : j < J := Finset.mem_range.1 hj
  have hl : l < K := Finset.mem_range.1 hl
  have e3 : X.flat (ravel [I, J, K] [i, j, l]) = X.get [i, j, l] := by rw [NDArray.get, hX]
  rw [e3, sum_range_prod, ← neg_sub, neg_sq]
  congr 2
  simp only [sumIdx]
  refine Finset.sum_congr rfl fun p hp => Finset.sum_congr rfl fun q hq => Finset.sum_congr rfl fun r hr => ?_
  rw [hk i hi j hj l hl p (Finset.mem_range.1 hp) q (Finset.mem_range.1 hq) r (Finset.mem_range.1 hr)]

/-- The vector that the code computes is the core which fits best. -/
theorem coreVector_spec {E : Ext} (hE : E.QROk) {X A B C : NDArray ℝ} {I J K F : ℕ} (hX : X.shape = [I, J, K])
    (hA : A.shape = [I, F]) (hB : B.shape = [J, F]) (hC : C.shape = [K, F]) (iA : IndepColumns A I F)
    (iB : IndepColumns B J F) (iC : IndepColumns C K F) :
    ∃ g, coreVector E X A B C = .ok g ∧ g.shape = [[F, F, F].prod, 1] ∧
      IsBestCore X I J K F (fun i p => A.get [i, p]) (fun i p => B.get [i, p]) (fun i p => C.get [i, p])
        (fun p q r => g.get [ravel [F, F, F] [p, q, r], 0]) := by
  obtain ⟨k, ek, hk, kg⟩ := kronT_entry hA hB hC
  have hkT := shape_T hk
  have inj : ∀ v, (mat k.T [I, J, K].prod [F, F, F].prod).mulVec v = 0 → v = 0 := by
    intro v hv
    have hz := indep_triple iA iB iC (v := fun p q r => if h : ravel [F, F, F] [p, q, r] < [F, F, F].prod
      then v ⟨_, h⟩ else 0) fun i hi j hj l hl => by
        have v1 : Valid [I, J, K] [i, j, l] := by simp [hi, hj, hl]
        have e := congrFun hv ⟨_, ravel_lt v1⟩
        simp only [Matrix.mulVec, dotProduct, mat, Pi.zero_apply] at e
        have e' : ∑ c ∈ Finset.range [F, F, F].prod, k.T.get [ravel [I, J, K] [i, j, l], c]
            * (if h : c < [F, F, F].prod then v ⟨c, h⟩ else 0) = 0 := by
          rw [Finset.sum_range, ← e]
          exact Finset.sum_congr rfl fun c _ => by rw [dif_pos c.2]
        rw [sum_range_prod] at e'
        simp only [sumIdx] at e'
        refine Eq.trans ?_ e'
        refine Finset.sum_congr rfl fun p hp => Finset.sum_congr rfl fun q hq => Finset.sum_congr rfl fun r hr => ?_
        rw [kg i hi j hj l hl p (Finset.mem_range.1 hp) q (Finset.mem_range.1 hq) r (Finset.mem_range.1 hr)]
    funext c
    have hc := unravel_valid c.2
    obtain ⟨p, s1, hp, hp', t1⟩ := valid_cons_iff.1 hc
    obtain ⟨q, s2, hq, hq', t2⟩ := valid_cons_iff.1 t1
    obtain ⟨r, s3, hr, hr', t3⟩ := valid_cons_iff.1 t2
    simp at t3
    have hidx : unravel [F, F, F] c = [p, q, r] := by rw [hp, hq, hr, t3]
    have hrav : ravel [F, F, F] [p, q, r] = c := by rw [← hidx, ravel_unravel c.2]
    have := hz p hp' q hq' r hr'
    simp only [hrav, c.2, dif_pos] at this
    exact this
  have hle : [F, F, F].prod ≤ [I, J, K].prod := le_of_injective inj
  have hqr := hE k.T _ _ hkT
  rcases hQR : E.qr k.T with ⟨Q, R⟩
  rw [hQR] at hqr
  simp only at hqr
  have hmin : min [I, J, K].prod [F, F, F].prod = [F, F, F].prod := min_eq_right hle
  obtain ⟨q1, q2, q3, q4, q5⟩ := hqr
  rw [hmin] at q1 q2 q3 q4 q5
  set m := [I, J, K].prod with hm
  set n := [F, F, F].prod with hn
  have hRi : ∀ v, (mat R n n).mulVec v = 0 → v = 0 := fun v hv => inj v (by
    rw [q5, ← Matrix.mulVec_mulVec, hv, Matrix.mulVec_zero])
  have hdet : (mat R n n).det ≠ 0 := fun hd => by
    obtain ⟨v, hv, h0⟩ := Matrix.exists_mulVec_eq_zero_iff.2 hd
    exact hv (hRi v h0)
  have hup : (mat R n n).IsUpperTriangular := fun i j hij => q4 i i.2 j hij
  have hdiag : ¬ ∃ i < n, R.get [i, i] = 0 := by
    rintro ⟨i, hi, h0⟩
    rw [Matrix.det_of_isUpperTriangular hup] at hdet
    exact hdet (Finset.prod_eq_zero (Finset.mem_univ (⟨i, hi⟩ : Fin n)) h0)
  have hU : mat (ofMat n n fun i j => if i ≤ j then R.get [i, j] else 0) n n = mat R n n := by
    ext i j
    simp only [mat]
    rw [get_ofMat i.2 j.2]
    split
    · rfl
    · rw [q4 i i.2 j (by omega)]
  obtain ⟨rhs, erhs, hrhs, mrhs⟩ := matmul_mat (shape_T q1) (B := ofFlat [m, 1] X.flat) (shape_ofFlat [m, 1] X.flat)
  rw [mat_T q1] at mrhs
  set x := mat (ofFlat [m, 1] X.flat) m 1 with hx
  set g := (mat R n n)⁻¹ * ((mat Q m n).transpose * x) with hgdef
  have ecv : coreVector E X A B C = .ok (ofMatrix g) := by
    have hXp : X.shape.prod = m := by rw [hX]
    rw [coreVector, ek, bind_ok, reshapeCols_one, bind_ok, hXp, hQR]
    simp only [erhs, bind_ok]
    rw [solveTriangular, dims2, dims2, q2, hrhs]
    simp only [bind_ok, ne_eq, not_true, or_self, if_false]
    rw [if_neg hdiag, hU, mrhs]
    rfl
  have hnorm := qr_normal (x := x) q3 q5 hdet
  rw [← hgdef] at hnorm
  have hgflat : colOf n (fun c : ℕ => (ofMatrix g).get [c, 0]) = g := by
    funext c z
    obtain rfl : z = 0 := Subsingleton.elim _ _
    exact congrFun (congrFun (mat_ofMatrix g) c) 0
  have hEg := tuckerErr_eq hX kg fun c => (ofMatrix g).get [c, 0]
  rw [hgflat] at hEg
  have hEH : ∀ H : ℕ → ℕ → ℕ → ℝ, ∃ h : ℕ → ℝ, (∀ p < F, ∀ q < F, ∀ r < F, h (ravel [F, F, F] [p, q, r]) = H p q r) ∧
      tuckerErr X I J K F (fun i p => A.get [i, p]) (fun i p => B.get [i, p]) (fun i p => C.get [i, p]) H
        = LA.fsq (mat k.T m n * colOf n h - x) := by
    intro H
    have hh : ∀ p < F, ∀ q < F, ∀ r < F, (fun c => H ((unravel [F, F, F] c).getD 0 0) ((unravel [F, F, F] c).getD 1 0)
        ((unravel [F, F, F] c).getD 2 0)) (ravel [F, F, F] [p, q, r]) = H p q r := by
      intro p hp q hq r hr
      have v2 : Valid [F, F, F] [p, q, r] := by simp [hp, hq, hr]
      simp only [unravel_ravel v2]
      rfl
    refine ⟨fun c => H ((unravel [F, F, F] c).getD 0 0) ((unravel [F, F, F] c).getD 1 0)
      ((unravel [F, F, F] c).getD 2 0), hh, ?_⟩
    rw [← tuckerErr_eq hX kg]
    simp only [tuckerErr]
    refine Finset.sum_congr rfl fun i _ => Finset.sum_congr rfl fun j _ => Finset.sum_congr rfl fun l _ => ?_
    congr 2
    refine Finset.sum_congr rfl fun p hp => Finset.sum_congr rfl fun q hq => Finset.sum_congr rfl fun r hr => ?_
    have := hh p (Finset.mem_range.1 hp) q (Finset.mem_range.1 hq) r (Finset.mem_range.1 hr)
    simp only at this
    rw [this]
  refine ⟨ofMatrix g, ecv, rfl, fun H => ?_, fun H hH p hp q hq r hr => ?_⟩
  · obtain ⟨h, -, e⟩ := hEH H
    rw [e, hEg, ls_left (h := colOf n h) hnorm]
    have := LA.fsq_nonneg (mat k.T m n * (colOf n h - g))
    linarith
  · obtain ⟨h, hh, e⟩ := hEH H
    rw [e, hEg, ls_left (h := colOf n h) hnorm] at hH
    have h0 : LA.fsq (mat k.T m n * (colOf n h - g)) = 0 :=
      le_antisymm (by linarith) (LA.fsq_nonneg _)
    rw [LA.fsq_eq_zero_iff] at h0
    have v2 : Valid [F, F, F] [p, q, r] := by simp [hp, hq, hr]
    have hv := inj (fun c => h c - g c 0) (by
      funext a
      have := congrFun (congrFun h0 a) 0
      simpa [Matrix.mul_apply, Matrix.mulVec, dotProduct, colOf] using this)
    have hc := congrFun hv ⟨_, ravel_lt v2⟩
    rw [← hh p hp q hq r hr]
    have hgg : (ofMatrix g).get [ravel [F, F, F] [p, q, r], 0] = g ⟨_, ravel_lt v2⟩ 0 :=
      congrFun (congrFun (mat_ofMatrix g) ⟨_, ravel_lt v2⟩) 0
    rw [hgg]
    simpa [sub_eq_zero] using hc

/-! ### the scaled factor matrices -/

theorem indep_column {A : NDArray ℝ} {I F r : ℕ} (h : IndepColumns A I F) (hr : r < F) : ∃ i < I, A.get [i, r] ≠ 0 := by
  by_contra hcon
  push Not at hcon
  have := h (fun j => if j = r then 1 else 0) (fun i hi => by
    rw [Finset.sum_eq_single_of_mem r (Finset.mem_range.2 hr) fun j _ hj => by simp [hj]]
    simp [hcon i hi]) r hr
  simp at this

theorem indep_scale {A A' : NDArray ℝ} {I F : ℕ} {d : ℕ → ℝ} (hd : ∀ r < F, d r ≠ 0)
    (hA' : ∀ i < I, ∀ r < F, A'.get [i, r] = A.get [i, r] * d r) (h : IndepColumns A I F) : IndepColumns A' I F := by
  intro v hv r hr
  have := h (fun r => d r * v r) (fun i hi => by
    rw [← hv i hi]
    refine Finset.sum_congr rfl fun j hj => ?_
    rw [hA' i hi j (Finset.mem_range.1 hj), mul_assoc]) r hr
  exact (mul_eq_zero.1 this).resolve_left (hd r hr)

theorem colLen_pos_of_indep {A : NDArray ℝ} {I F r : ℕ} (h : IndepColumns A I F) (hr : r < F) : 0 < colLen A I r :=
  lt_of_le_of_ne (colLen_nonneg _ _ _) (colLen_ne_zero (indep_column h hr)).symm

/-- The scaled factor matrix as an array. -/
def balancedMat (eps : ℝ) (w : ℕ → ℝ) (A : NDArray ℝ) (I F : ℕ) : NDArray ℝ := ofMat I F (balanced eps w A I)

theorem indep_balanced {eps : ℝ} (he : 0 < eps) {w : ℕ → ℝ} {A : NDArray ℝ} {I F : ℕ} (hw : ∀ r < F, 0 < w r)
    (h : IndepColumns A I F) : IndepColumns (balancedMat eps w A I F) I F := by
  refine indep_scale (d := fun r => (colLen A I r + eps)⁻¹ * w r ^ ((1 : ℝ) / 3)) (fun r hr => ?_) (fun i hi r hr => ?_) h
  · have h1 := colLen_nonneg A I r
    have h2 := Real.rpow_pos_of_pos (hw r hr) (1 / 3)
    positivity
  · rw [balancedMat, get_ofMat hi hr, balanced, div_eq_mul_inv, mul_assoc]

theorem sum_column {n : List ℕ} {D : NDArray ℝ} (hD : D.shape = [n.prod, 1]) :
    (D.data.map fun x => x ^ 2).sum = sumIdx n fun idx => D.get [ravel n idx, 0] ^ 2 := by
  rw [sum_data, hD]
  simp only [sumIdx, Finset.sum_range_one]
  rw [sum_range_prod]

theorem isBestCore_congr {X : NDArray ℝ} {I J K F : ℕ} {a b c a' b' c' : ℕ → ℕ → ℝ} {G : ℕ → ℕ → ℕ → ℝ}
    (ha : ∀ i < I, ∀ r < F, a i r = a' i r) (hb : ∀ i < J, ∀ r < F, b i r = b' i r) (hc : ∀ i < K, ∀ r < F, c i r = c' i r)
    (h : IsBestCore X I J K F a b c G) : IsBestCore X I J K F a' b' c' G := by
  have : ∀ H, tuckerErr X I J K F a' b' c' H = tuckerErr X I J K F a b c H := fun H => by
    simp only [tuckerErr]
    refine Finset.sum_congr rfl fun i hi => Finset.sum_congr rfl fun j hj => Finset.sum_congr rfl fun l hl => ?_
    congr 2
    refine Finset.sum_congr rfl fun p hp => Finset.sum_congr rfl fun q hq => Finset.sum_congr rfl fun r hr => ?_
    rw [ha i (Finset.mem_range.1 hi) p (Finset.mem_range.1 hp), hb j (Finset.mem_range.1 hj) q (Finset.mem_range.1 hq),
      hc l (Finset.mem_range.1 hl) r (Finset.mem_range.1 hr)]
  exact ⟨fun H => by rw [this, this]; exact h.best H, fun H hH => h.unique H (by rwa [this, this] at hH)⟩

/-- `core_consistency` compares the best core with the superdiagonal one. -/
theorem coreConsistency_eq {E : Ext} (hE : E.QROk) {eps : ℝ} (he : 0 < eps) {X A B C : NDArray ℝ} {I J K F : ℕ}
    (hX : X.shape = [I, J, K]) (hA : A.shape = [I, F]) (hB : B.shape = [J, F]) (hC : C.shape = [K, F])
    (iA : IndepColumns A I F) (iB : IndepColumns B J F) (iC : IndepColumns C K F) (hF : 0 < F) (normalized : Bool) :
    ∃ G, IsBestCore X I J K F (balanced eps (compSize [A, B, C] [I, J, K]) A I)
        (balanced eps (compSize [A, B, C] [I, J, K]) B J) (balanced eps (compSize [A, B, C] [I, J, K]) C K) G ∧
      coreConsistency E X A B C normalized eps
        = .ok (FV.div (offDiagonal F G) (if normalized then coreSq F G else F)).oneSub.times100 := by
  set w := compSize [A, B, C] [I, J, K] with hw
  have hwp : ∀ r < F, 0 < w r := fun r hr => by
    have h1 := colLen_pos_of_indep iA hr
    have h2 := colLen_pos_of_indep iB hr
    have h3 := colLen_pos_of_indep iC hr
    simp only [hw, compSize, modeProd]
    positivity
  have hfs : Factors [A, B, C] [I, J, K] F := .cons hA (.cons hB (.cons hC .nil))
  obtain ⟨v, ev, sv, gv⟩ := prodRows_eq hfs (by simp)
  have hrow : ((newaxis0 v).map fun x => x ^ ((1 : ℝ) / 3)).shape = [1, F] := by simp [sv]
  have hval : ∀ {M : NDArray ℝ} {m : ℕ}, inplaceMul (normMat M m F eps) ((newaxis0 v).map fun x => x ^ ((1 : ℝ) / 3))
      = .ok (balancedMat eps w M m F) := by
    intro M m
    have e0 : zipB (· * ·) (normMat M m F eps) ((newaxis0 v).map fun x => x ^ ((1 : ℝ) / 3))
        = .ok (balancedMat eps w M m F) := by
      rw [zipB_mat_row (· * ·) hrow (m := m) rfl]
      refine congrArg Except.ok (ofMat_congr fun i hi r hr => ?_)
      rw [normMat, get_ofMat hi hr, get_map _ _ (by simp [sv, hr]), get_newaxis0, gv r hr, balanced]
    rw [inplaceMul, e0, bind_ok]
    exact if_pos rfl
  obtain ⟨g, eg, sg, hg⟩ := coreVector_spec hE hX (A := balancedMat eps w A I F) (B := balancedMat eps w B J F)
    (C := balancedMat eps w C K F) rfl rfl rfl (indep_balanced he hwp iA) (indep_balanced he hwp iB)
    (indep_balanced he hwp iC)
  have hT : (superdiagonal F).shape = [F, F, F] := rfl
  obtain ⟨D, eD, sD, gD⟩ := zipB_sub_shape (A := g) (B := ofFlat [[F, F, F].prod, 1] (superdiagonal F).flat) (· - ·)
    (by rw [sg]; rfl)
  rw [sg] at sD
  have hoff : (D.data.map fun x => x ^ 2).sum = offDiagonal F fun p q r => g.get [ravel [F, F, F] [p, q, r], 0] := by
    rw [sum_column sD]
    simp only [sumIdx, offDiagonal]
    refine Finset.sum_congr rfl fun p hp => Finset.sum_congr rfl fun q hq => Finset.sum_congr rfl fun r hr => ?_
    have v2 : Valid [F, F, F] [p, q, r] := by
      simp [Finset.mem_range.1 hp, Finset.mem_range.1 hq, Finset.mem_range.1 hr]
    have hlt := ravel_lt v2
    rw [gD _ (by rw [sg]; simp [Valid]; simpa using hlt), get_column hlt]
    have : (superdiagonal F).flat (ravel [F, F, F] [p, q, r]) = if p = q ∧ q = r then 1 else 0 := by
      have := get_ofFn (f := fun idx : List ℕ => if idx.getD 0 0 = idx.getD 1 0 ∧ idx.getD 1 0 = idx.getD 2 0
        then (1 : ℝ) else 0) v2
      exact this
    rw [this]
  have hsq : frobNorm g ^ 2 = coreSq F fun p q r => g.get [ravel [F, F, F] [p, q, r], 0] := by
    rw [frobNorm, Real.sq_sqrt, sum_column sg]
    · simp only [sumIdx, coreSq]
    · rw [sum_column sg]; exact sumIdx_nonneg fun _ _ => sq_nonneg _
  refine ⟨_, isBestCore_congr ?_ ?_ ?_ hg, ?_⟩
  · intro i hi r hr; exact get_ofMat hi hr
  · intro i hi r hr; exact get_ofMat hi hr
  · intro i hi r hr; exact get_ofMat hi hr
  have hTp : (superdiagonal F).shape.prod = [F, F, F].prod := rfl
  rw [coreConsistency, cols_ok hA, bind_ok, normalizeFactors_eq hfs]
  simp only [bind_ok, prodRowsKeep, ev, List.zipWith_cons_cons, List.zipWith_nil_left]
  simp only [List.mapM_cons, List.mapM_nil, hval, bind_ok, pure_bind]
  simp only [show pyGet [balancedMat eps w A I F, balancedMat eps w B J F, balancedMat eps w C K F] 0
      = .ok (balancedMat eps w A I F) from rfl,
    show pyGet [balancedMat eps w A I F, balancedMat eps w B J F, balancedMat eps w C K F] 1
      = .ok (balancedMat eps w B J F) from rfl,
    show pyGet [balancedMat eps w A I F, balancedMat eps w B J F, balancedMat eps w C K F] 2
      = .ok (balancedMat eps w C K F) from rfl, bind_ok, reshapeCols_one, eg, hTp, eD]
  rw [if_neg (by rintro ⟨-, h⟩; omega), hoff, hsq]
  rfl

/-! ### C63 -/

/-- **C63.** `core_consistency` is `100 (1 - ‖G - T‖² / F)`, where `G` is the core tensor which fits the data best among
all cores for the given (balanced) factor matrices; it never exceeds 100, and equals 100 exactly if `G` is the
superdiagonal core of ones. -/
theorem C63_value {E : Ext} (hE : E.QROk) {eps : ℝ} (he : 0 < eps) {X A B C : NDArray ℝ} {I J K F : ℕ}
    (hX : X.shape = [I, J, K]) (hA : A.shape = [I, F]) (hB : B.shape = [J, F]) (hC : C.shape = [K, F])
    (iA : IndepColumns A I F) (iB : IndepColumns B J F) (iC : IndepColumns C K F) (hF : 0 < F) :
    ∃ G v, IsBestCore X I J K F (balanced eps (compSize [A, B, C] [I, J, K]) A I)
        (balanced eps (compSize [A, B, C] [I, J, K]) B J) (balanced eps (compSize [A, B, C] [I, J, K]) C K) G ∧
      coreConsistency E X A B C false eps = .ok (.fin v) ∧ v = 100 * (1 - offDiagonal F G / F) ∧ v ≤ 100 ∧
      (v = 100 ↔ ∀ p < F, ∀ q < F, ∀ r < F, G p q r = if p = q ∧ q = r then 1 else 0) := by
  obtain ⟨G, hG, e⟩ := coreConsistency_eq hE he hX hA hB hC iA iB iC hF false
  have hF' : (0 : ℝ) < F := by exact_mod_cast hF
  have h0 : 0 ≤ offDiagonal F G :=
    Finset.sum_nonneg fun _ _ => Finset.sum_nonneg fun _ _ => Finset.sum_nonneg fun _ _ => sq_nonneg _
  refine ⟨G, _, hG, e.trans ?_, rfl, ?_, ?_⟩
  · simp only [Bool.false_eq_true, if_false]
    rw [FV.div, if_pos hF'.ne']
    rfl
  · have := div_nonneg h0 hF'.le
    linarith
  · have : 100 * (1 - offDiagonal F G / F) = 100 ↔ offDiagonal F G = 0 := by
      constructor
      · intro h
        have h1 : offDiagonal F G / F = 0 := by linarith
        rcases div_eq_zero_iff.1 h1 with h | h
        · exact h
        · exact absurd h hF'.ne'
      · intro h; rw [h]; norm_num
    rw [this, offDiagonal, Finset.sum_eq_zero_iff_of_nonneg fun _ _ => Finset.sum_nonneg fun _ _ =>
      Finset.sum_nonneg fun _ _ => sq_nonneg _]
    constructor
    · intro h p hp q hq r hr
      have h1 := (Finset.sum_eq_zero_iff_of_nonneg fun _ _ => Finset.sum_nonneg fun _ _ => sq_nonneg _).1
        (h p (Finset.mem_range.2 hp)) q (Finset.mem_range.2 hq)
      have h2 := (Finset.sum_eq_zero_iff_of_nonneg fun _ _ => sq_nonneg _).1 h1 r (Finset.mem_range.2 hr)
      exact sub_eq_zero.1 (pow_eq_zero_iff two_ne_zero |>.1 h2)
    · intro h p hp
      refine Finset.sum_eq_zero fun q hq => Finset.sum_eq_zero fun r hr => ?_
      rw [h p (Finset.mem_range.1 hp) q (Finset.mem_range.1 hq) r (Finset.mem_range.1 hr)]
      simp

/-- A core that is zero off the superdiagonal picks out the sum over the components. -/
theorem sum_superdiagonal {F : ℕ} {f : ℕ → ℕ → ℕ → ℝ} (h : ∀ p < F, ∀ q < F, ∀ r < F, ¬ (p = q ∧ q = r) → f p q r = 0) :
    ∑ p ∈ Finset.range F, ∑ q ∈ Finset.range F, ∑ r ∈ Finset.range F, f p q r = ∑ r ∈ Finset.range F, f r r r := by
  refine Finset.sum_congr rfl fun p hp => ?_
  have hp' := Finset.mem_range.1 hp
  rw [Finset.sum_eq_single_of_mem p hp, Finset.sum_eq_single_of_mem p hp]
  · intro r hr hne
    exact h p hp' p hp' r (Finset.mem_range.1 hr) fun h => hne h.2.symm
  · intro q hq hne
    exact Finset.sum_eq_zero fun r hr => h p hp' q (Finset.mem_range.1 hq) r (Finset.mem_range.1 hr) fun h => hne h.1.symm

theorem cube_root {x : ℝ} (hx : 0 < x) : x ^ ((1 : ℝ) / 3) * x ^ ((1 : ℝ) / 3) * x ^ ((1 : ℝ) / 3) = x := by
  rw [← Real.rpow_add hx, ← Real.rpow_add hx]
  norm_num

/-- For data that is a weighted sum of the components of `A`, `B`, `C`, the best core is superdiagonal and contains the
weights divided by the guards of the normalisation. -/
theorem core_of_exact {E : Ext} (hE : E.QROk) {eps : ℝ} (he : 0 < eps) {X A B C : NDArray ℝ} {I J K F : ℕ}
    (hX : X.shape = [I, J, K]) (hA : A.shape = [I, F]) (hB : B.shape = [J, F]) (hC : C.shape = [K, F])
    (iA : IndepColumns A I F) (iB : IndepColumns B J F) (iC : IndepColumns C K F) (hF : 0 < F) {c : ℕ → ℝ}
    (hXc : ∀ i < I, ∀ j < J, ∀ l < K, X.get [i, j, l] = cpEntry c [A, B, C] F [i, j, l]) :
    coreConsistency E X A B C false eps = .ok (.fin (100 * (1 -
      (∑ r ∈ Finset.range F, (c r / guard eps [A, B, C] [I, J, K] r - 1) ^ 2) / F))) := by
  obtain ⟨G, v, hG, e, hv, -⟩ := C63_value hE he hX hA hB hC iA iB iC hF
  rw [e, hv]
  set w := compSize [A, B, C] [I, J, K] with hw
  have hwp : ∀ r < F, 0 < w r ∧ 0 < guard eps [A, B, C] [I, J, K] r ∧
      guard eps [A, B, C] [I, J, K] r * ((colLen A I r + eps) * (colLen B J r + eps) * (colLen C K r + eps)) = w r := by
    intro r hr
    have h1 := colLen_pos_of_indep iA hr
    have h2 := colLen_pos_of_indep iB hr
    have h3 := colLen_pos_of_indep iC hr
    refine ⟨?_, ?_, ?_⟩
    · simp only [hw, compSize, modeProd]; positivity
    · simp only [guard, modeProd]; positivity
    · simp only [hw, compSize, guard, modeProd]; field_simp
  set H : ℕ → ℕ → ℕ → ℝ := fun p q r => if p = q ∧ q = r then c r / guard eps [A, B, C] [I, J, K] r else 0 with hH
  have hz : tuckerErr X I J K F (balanced eps w A I) (balanced eps w B J) (balanced eps w C K) H = 0 := by
    refine Finset.sum_eq_zero fun i hi => Finset.sum_eq_zero fun j hj => Finset.sum_eq_zero fun l hl => ?_
    rw [hXc i (Finset.mem_range.1 hi) j (Finset.mem_range.1 hj) l (Finset.mem_range.1 hl), sum_superdiagonal, cpEntry,
      ← Finset.sum_sub_distrib, Finset.sum_eq_zero, sq, mul_zero]
    · intro r hr
      obtain ⟨w1, w2, w3⟩ := hwp r (Finset.mem_range.1 hr)
      have h1 := colLen_nonneg A I r
      have h2 := colLen_nonneg B J r
      have h3 := colLen_nonneg C K r
      have hc := cube_root w1
      simp only [hH, and_self, if_true, balanced, rankOne, mul_one]
      have e1 : A.get [i, r] / (colLen A I r + eps) * w r ^ ((1 : ℝ) / 3) *
          (B.get [j, r] / (colLen B J r + eps) * w r ^ ((1 : ℝ) / 3)) *
          (C.get [l, r] / (colLen C K r + eps) * w r ^ ((1 : ℝ) / 3)) * (c r / guard eps [A, B, C] [I, J, K] r)
          = A.get [i, r] * B.get [j, r] * C.get [l, r] * c r *
            (w r ^ ((1 : ℝ) / 3) * w r ^ ((1 : ℝ) / 3) * w r ^ ((1 : ℝ) / 3)) / (guard eps [A, B, C] [I, J, K] r *
              ((colLen A I r + eps) * (colLen B J r + eps) * (colLen C K r + eps))) := by
        field_simp
      rw [e1, hc, w3, mul_div_assoc, div_self w1.ne']
      ring
    · intro p _ q _ r _ hne
      simp only [hH, if_neg hne, mul_zero]
  have hu := hG.unique H (by
    rw [hz]
    exact Finset.sum_nonneg fun _ _ => Finset.sum_nonneg fun _ _ => Finset.sum_nonneg fun _ _ => sq_nonneg _)
  have : offDiagonal F G = ∑ r ∈ Finset.range F, (c r / guard eps [A, B, C] [I, J, K] r - 1) ^ 2 := by
    rw [offDiagonal, sum_superdiagonal]
    · refine Finset.sum_congr rfl fun r hr => ?_
      rw [← hu r (Finset.mem_range.1 hr) r (Finset.mem_range.1 hr) r (Finset.mem_range.1 hr)]
      simp [hH]
    · intro p hp q hq r hr hne
      rw [← hu p hp q hq r hr]
      simp only [hH, if_neg hne, sub_zero]
      norm_num
  rw [this]

/-- **C63.** If `X` is the CP tensor of `A`, `B`, `C`, then the core consistency is 100 up to the guard of the
normalisation: component `r` contributes `(1/ρ_r - 1)²` with `ρ_r = ∏ n/(n + eps)`. -/
theorem C63_exact {E : Ext} (hE : E.QROk) {eps : ℝ} (he : 0 < eps) {X A B C : NDArray ℝ} {I J K F : ℕ}
    (hX : X.shape = [I, J, K]) (hA : A.shape = [I, F]) (hB : B.shape = [J, F]) (hC : C.shape = [K, F])
    (iA : IndepColumns A I F) (iB : IndepColumns B J F) (iC : IndepColumns C K F) (hF : 0 < F)
    (hXc : ∀ i < I, ∀ j < J, ∀ l < K, X.get [i, j, l] = cpEntry (fun _ => 1) [A, B, C] F [i, j, l]) :
    coreConsistency E X A B C false eps = .ok (.fin (100 * (1 -
      (∑ r ∈ Finset.range F, (1 / guard eps [A, B, C] [I, J, K] r - 1) ^ 2) / F))) :=
  core_of_exact hE he hX hA hB hC iA iB iC hF hXc

/-- The guard is close to one: if all columns are at least `δ` long, with `eps ≤ δ`, then `0 ≤ 1/ρ - 1 ≤ 7 eps / δ`. -/
theorem C63_guard {eps δ : ℝ} (he : 0 < eps) (hδ : eps ≤ δ) {A B C : NDArray ℝ} {I J K r : ℕ} (h1 : δ ≤ colLen A I r)
    (h2 : δ ≤ colLen B J r) (h3 : δ ≤ colLen C K r) :
    0 ≤ 1 / guard eps [A, B, C] [I, J, K] r - 1 ∧ 1 / guard eps [A, B, C] [I, J, K] r - 1 ≤ 7 * (eps / δ) := by
  have hd : 0 < δ := lt_of_lt_of_le he hδ
  have key : ∀ n : ℝ, δ ≤ n → 1 ≤ (n + eps) / n ∧ (n + eps) / n ≤ 1 + eps / δ := by
    intro n hn
    have hn0 : 0 < n := lt_of_lt_of_le hd hn
    have e : (n + eps) / n = 1 + eps / n := by field_simp
    rw [e]
    have a1 : 0 ≤ eps / n := by positivity
    have a2 : eps / n ≤ eps / δ := div_le_div_of_nonneg_left he.le hd hn
    constructor <;> linarith
  have eg : 1 / guard eps [A, B, C] [I, J, K] r
      = (colLen A I r + eps) / colLen A I r * ((colLen B J r + eps) / colLen B J r * ((colLen C K r + eps) / colLen C K r)) := by
    simp only [guard, modeProd, mul_one]
    rw [one_div, mul_inv, mul_inv, inv_div, inv_div, inv_div]
  rw [eg]
  obtain ⟨a1, a2⟩ := key _ h1
  obtain ⟨b1, b2⟩ := key _ h2
  obtain ⟨c1, c2⟩ := key _ h3
  set a := (colLen A I r + eps) / colLen A I r
  set b := (colLen B J r + eps) / colLen B J r
  set c := (colLen C K r + eps) / colLen C K r
  set t := eps / δ with ht
  have t0 : 0 ≤ t := by positivity
  have t1 : t ≤ 1 := by rw [ht, div_le_one hd]; exact hδ
  have bc1 : 1 ≤ b * c := one_le_mul_of_one_le_of_one_le b1 c1
  have bc2 : b * c ≤ (1 + t) * (1 + t) := mul_le_mul b2 c2 (by linarith) (by linarith)
  have abc1 : 1 ≤ a * (b * c) := one_le_mul_of_one_le_of_one_le a1 bc1
  have abc2 : a * (b * c) ≤ (1 + t) * ((1 + t) * (1 + t)) := mul_le_mul a2 bc2 (by linarith) (by linarith)
  refine ⟨by linarith, ?_⟩
  nlinarith [mul_nonneg t0 t0, mul_nonneg (mul_nonneg t0 t0) t0, mul_nonneg t0 (sub_nonneg.2 t1),
    mul_nonneg (mul_nonneg t0 t0) (sub_nonneg.2 t1)]

/-- The hypotheses of C63 hold for two components in three modes. -/
example : ∃ (E : Ext) (X A B C : NDArray ℝ), E.QROk ∧ X.shape = [2, 2, 3] ∧ A.shape = [2, 2] ∧ B.shape = [2, 2] ∧
    C.shape = [3, 2] ∧ IndepColumns A 2 2 ∧ IndepColumns B 2 2 ∧ IndepColumns C 3 2 ∧
    ∀ i < 2, ∀ j < 2, ∀ l < 3, X.get [i, j, l] = cpEntry (fun _ => 1) [A, B, C] 2 [i, j, l] := by
  obtain ⟨E, -, -, hE⟩ := exists_ext
  have ind : ∀ m, 2 ≤ m → IndepColumns (ofMat m 2 fun i j => if i = j then (1 : ℝ) else 2) m 2 := by
    intro m hm v h j hj
    have h0 := h 0 (by omega)
    have h1 := h 1 (by omega)
    rw [Finset.sum_range_succ, Finset.sum_range_one, get_ofMat (by omega) (by norm_num),
      get_ofMat (by omega) (by norm_num)] at h0 h1
    norm_num at h0 h1
    interval_cases j <;> linarith
  refine ⟨E, ofFn [2, 2, 3] (cpEntry (fun _ => 1) [ofMat 2 2 fun i j => if i = j then (1 : ℝ) else 2,
    ofMat 2 2 fun i j => if i = j then (1 : ℝ) else 2, ofMat 3 2 fun i j => if i = j then (1 : ℝ) else 2] 2), _, _, _, hE,
    rfl, rfl, rfl, rfl, ind 2 (by norm_num), ind 2 (by norm_num), ind 3 (by norm_num), fun i hi j hj l hl => ?_⟩
  exact get_ofFn (by simp [hi, hj, hl])

/-! ### C77: the method of `KruskalTensor` -/

/-- **C77.** `KruskalTensor.core_consistency` of the tensor itself: the weights are not taken into account, component `r`
contributes `(w_r/ρ_r - 1)²`. -/
theorem C77_value {E : Ext} (hE : E.QROk) {eps : ℝ} (he : 0 < eps) {t : KruskalTensor} {X A B C : NDArray ℝ} {I J K F : ℕ}
    (ht : t.WF [I, J, K] F) (hf : t.factorMatrices = [A, B, C]) (iA : IndepColumns A I F) (iB : IndepColumns B J F)
    (iC : IndepColumns C K F) (hF : 0 < F) (hX : t.constructTensor = .ok X) :
    t.coreConsistency E X false eps = .ok (.fin (100 * (1 -
      (∑ r ∈ Finset.range F, (t.weights.get [r] / guard eps [A, B, C] [I, J, K] r - 1) ^ 2) / F))) := by
  have hfs := ht.factors
  rw [hf] at hfs
  obtain ⟨hA, hB, hC⟩ : A.shape = [I, F] ∧ B.shape = [J, F] ∧ C.shape = [K, F] := by
    cases hfs with
    | cons h1 h2 => cases h2 with
      | cons h2 h3 => cases h3 with
        | cons h3 _ => exact ⟨h1, h2, h3⟩
  rw [constructTensor_eq ht (by simp), hf] at hX
  obtain rfl := (Except.ok.inj hX).symm
  rw [KruskalTensor.coreConsistency, hf]
  exact core_of_exact hE he rfl hA hB hC iA iB iC hF fun i hi j hj l hl => get_ofFn (by simp [hi, hj, hl])

/-- **C77, what holds.** With unit weights it is the core consistency of C63. Missing: other weights (`C77_fails`). -/
theorem C77_unit_weights_partial {E : Ext} (hE : E.QROk) {eps : ℝ} (he : 0 < eps) {t : KruskalTensor}
    {X A B C : NDArray ℝ} {I J K F : ℕ} (ht : t.WF [I, J, K] F) (hf : t.factorMatrices = [A, B, C])
    (iA : IndepColumns A I F) (iB : IndepColumns B J F) (iC : IndepColumns C K F) (hF : 0 < F)
    (hw : ∀ r < F, t.weights.get [r] = 1) (hX : t.constructTensor = .ok X) :
    t.coreConsistency E X false eps = .ok (.fin (100 * (1 -
      (∑ r ∈ Finset.range F, (1 / guard eps [A, B, C] [I, J, K] r - 1) ^ 2) / F))) := by
  rw [C77_value hE he ht hf iA iB iC hF hX]
  have : ∑ r ∈ Finset.range F, (t.weights.get [r] / guard eps [A, B, C] [I, J, K] r - 1) ^ 2
      = ∑ r ∈ Finset.range F, (1 / guard eps [A, B, C] [I, J, K] r - 1) ^ 2 :=
    Finset.sum_congr rfl fun r hr => by rw [hw r (Finset.mem_range.1 hr)]
  rw [this]

/-- **C77.** Tensors that do not have three modes raise `ValueError`. -/
theorem C77_order {E : Ext} {t : KruskalTensor} (h : t.factorMatrices.length ≠ 3) (X : NDArray ℝ) (b : Bool) (eps : ℝ) :
    t.coreConsistency E X b eps = .error .valueError := by
  rw [KruskalTensor.coreConsistency]
  split
  · rename_i A B C hf
    rw [hf] at h
    exact absurd rfl h
  · rfl

/-- **C77, refuted.** A Kruskal tensor with weight 3 that is compared with exactly the data it represents has a negative
core consistency. -/
theorem C77_fails {E : Ext} (hE : E.QROk) : ∃ (t : KruskalTensor) (X : NDArray ℝ) (v : ℝ), t.WF [1, 1, 1] 1 ∧
    t.constructTensor = .ok X ∧ t.coreConsistency E X = .ok (.fin v) ∧ v ≤ -300 := by
  have ind : IndepColumns (ofMat 1 1 fun _ _ => (1 : ℝ)) 1 1 := by
    intro v h j hj
    have := h 0 one_pos
    rw [Finset.sum_range_one, get_ofMat one_pos one_pos] at this
    obtain rfl : j = 0 := by omega
    linarith
  set o := ofMat 1 1 fun _ _ => (1 : ℝ) with ho
  set t : KruskalTensor := ⟨1, [o, o, o], full [1] 3⟩ with ht
  have wf : t.WF [1, 1, 1] 1 := ⟨rfl, .cons rfl (.cons rfl (.cons rfl .nil)), rfl⟩
  refine ⟨t, _, _, wf, constructTensor_eq wf (by simp),
    C77_value hE (by norm_num) wf rfl ind ind ind one_pos (constructTensor_eq wf (by simp)), ?_⟩
  have hl : colLen o 1 0 = 1 := by
    rw [colLen, Finset.sum_range_one, ho, get_ofMat one_pos one_pos]; norm_num
  have hw : t.weights.get [0] = 3 := get_full (by simp)
  rw [Finset.sum_range_one, hw]
  simp only [guard, modeProd, hl]
  norm_num

end
end TK
