import Verif.Lemmas.MatrixFits
import Verif.Props.Stationary
import Verif.Props.Stopping
import Verif.Props.CPInit
import Mathlib.Analysis.SpecificLimits.Basic

/-!
# C153: `CP_ALS` finds the best approximation of a matrix
# C154: with `init='svd'` after one iteration

Source: cp.py:385-423 (`_update_als_factor`, `_update_als_factors`, the loop), cp.py:97-112 (`init_svd`). For a tensor with two modes the
model is a product of two matrices, so that the best model is known: the truncated singular value decomposition.
-/

namespace TK
open NDArray Fit Matrix Filter Topology
open EStateM (Result)

noncomputable section

variable {X : NDArray ℝ} {I J : ℕ} {E : Ext} {c : CP.Config} {arg : InitArg KruskalTensor} {t : KruskalTensor} {budget : Int}
  {loggers : List Logger} {file : Option H5File}

/-- The iterations of a fit of a matrix. -/
theorem matrix_orbit {R : ℕ} {U : Matrix (Fin I) (Fin R) ℝ} {V : Matrix (Fin J) (Fin R) ℝ} {d : Fin R → ℝ} {ρ σ : ℝ}
    (hX : X.shape = [I, J]) (hL : LA.Leading (mat X I J) U V d ρ) (hσ : 0 < σ) (hd : ∀ r, σ ≤ d r) {G : ℕ → ℕ → List (NDArray ℝ)}
    (q1 : ∀ j, Sweep X R (G j)) (q2 : ∀ j, G j 2 = G (j + 1) 0) {A B : NDArray ℝ} (e0 : G 0 0 = [A, B])
    (hB : IsUnit (Vᵀ * mat B J R)) (n : ℕ) :
    ∃ F H, G (n + 1) 0 = [F, H] ∧
      LA.fsq (mat X I J - mat F I R * (mat H J R)ᵀ) ≤ LA.fsq (mat X I J) - ∑ i, d i ^ 2 +
        ρ ^ 2 * ((ρ / σ) ^ (4 * n) * LA.fsq (mat B J R * (Vᵀ * mat B J R)⁻¹ - V)) ∧
      LA.fsq (mat F I R * (mat H J R)ᵀ - U * diagonal d * Vᵀ) ≤
        4 * (ρ ^ 2 * ((ρ / σ) ^ (4 * n) * LA.fsq (mat B J R * (Vᵀ * mat B J R)⁻¹ - V))) := by
  set τ := LA.fsq (mat B J R * (Vᵀ * mat B J R)⁻¹ - V) with hτ
  have key : ∀ n, ∃ F H Z K, G n 0 = [F, H] ∧ LA.Near V (mat H J R) Z K ∧ LA.fsq Z ≤ (ρ / σ) ^ (4 * n) * τ := by
    intro n
    induction n with
    | zero => exact ⟨A, B, _, _, e0, LA.near_start hL.right hB, by simp [hτ]⟩
    | succ n ih =>
      obtain ⟨F, H, Z, K, e, hN, hZ⟩ := ih
      obtain ⟨F', H', e', n1, n2, -⟩ := sweep_two hX (q1 n) e
      obtain ⟨K1, m1, z1⟩ := hL.step hσ hd hN n1
      obtain ⟨K2, m2, z2⟩ := hL.flip.step hσ hd m1 n2
      refine ⟨F', H', _, K2, by rw [← q2 n]; exact e', m2, ?_⟩
      have hq : 0 ≤ (ρ / σ) ^ 2 := sq_nonneg _
      calc _ ≤ _ := z2
        _ ≤ (ρ / σ) ^ 2 * ((ρ / σ) ^ 2 * LA.fsq Z) := mul_le_mul_of_nonneg_left z1 hq
        _ ≤ (ρ / σ) ^ 2 * ((ρ / σ) ^ 2 * ((ρ / σ) ^ (4 * n) * τ)) :=
          mul_le_mul_of_nonneg_left (mul_le_mul_of_nonneg_left hZ hq) hq
        _ = _ := by ring
  obtain ⟨F, H, Z, K, e, hN, hZ⟩ := key n
  obtain ⟨F', H', e', n1, n2, -⟩ := sweep_two hX (q1 n) e
  obtain ⟨h1, h2⟩ := hL.model hσ hd hN n1 n2
  have h3 := mul_le_mul_of_nonneg_left hZ (sq_nonneg ρ)
  exact ⟨F', H', by rw [← q2 n]; exact e', by linarith, by linarith⟩

/-- **C153** (the best model): no model of a matrix with `R` components has a smaller squared error than the sum of the squares of
the entries minus the sum of the squares of the `R` largest singular values; the leading singular vectors attain it. -/
theorem C153_best {R : ℕ} {U : Matrix (Fin I) (Fin R) ℝ} {V : Matrix (Fin J) (Fin R) ℝ} {d : Fin R → ℝ} {ρ : ℝ}
    (hX : X.shape = [I, J]) (hL : LA.Leading (mat X I J) U V d ρ) :
    (∀ A B : NDArray ℝ, LA.fsq (mat X I J) - ∑ i, d i ^ 2 ≤ sqErr X (fun _ => 1) [A, B] R) ∧
      ∃ A B : NDArray ℝ, A.shape = [I, R] ∧ B.shape = [J, R] ∧
        sqErr X (fun _ => 1) [A, B] R = LA.fsq (mat X I J) - ∑ i, d i ^ 2 := by
  refine ⟨fun A B => ?_, ofMatrix (U * diagonal d), ofMatrix V, rfl, rfl, ?_⟩
  · rw [sqErr_matrix hX]
    exact hL.eckart_young _ _
  · rw [sqErr_matrix hX, mat_ofMatrix, mat_ofMatrix, hL.fsq_sub]

/-- **C153.** Let the data be a matrix whose `R`-th singular value `σ` (or a lower bound of it) is larger than the next one `ρ`,
and let `CP_ALS` with `R` components and without constraints or penalties start from a second factor matrix that is not
degenerate with respect to the leading right singular vectors. Then the reported error after `k + 1` iterations differs from that of
the best model by at most a multiple of `(ρ / σ) ^ (4 k)`, and so does the model from the truncated singular value decomposition. -/
theorem C153_rate (hE : E.SVDOk) (hN : E.NNLSOk) (hQ : E.QROk) (hA : CP.Admissible c.opts none none X.shape)
    (hridge : c.opts.ridgePenalties = none) (hlog : c.Measurable) (hfreq : freqOption c.freq ≠ 0)
    (hi : CP.StartsFrom E c none none arg X t) (ht : t.WF X.shape c.opts.rank) {mi : Option Int} (hb : 0 < mi.getD budget)
    (hS : Storing (CP.method E c) (CP.newObject none none budget loggers file) []) (hX : X.shape = [I, J])
    {U : Matrix (Fin I) (Fin c.opts.rank) ℝ} {V : Matrix (Fin J) (Fin c.opts.rank) ℝ} {d : Fin c.opts.rank → ℝ} {ρ σ : ℝ}
    (hL : LA.Leading (mat X I J) U V d ρ) (hσ : ρ < σ) (hd : ∀ r, σ ≤ d r)
    {B : NDArray ℝ} (hB : t.factorMatrices[1]? = some B) (hu : IsUnit (Vᵀ * mat B J c.opts.rank)) :
    ∃ w, CP.fit E c X mi arg (CP.newObject none none budget loggers file) = .ok () w ∧ ∀ k : ℕ, w.it = k + 1 → ∃ e,
      CP.sse w.st = .ok e ∧ LA.fsq (mat X I J) - ∑ i, d i ^ 2 ≤ e ∧
      e ≤ LA.fsq (mat X I J) - ∑ i, d i ^ 2 + ρ ^ 2 * ((ρ / σ) ^ (4 * k) *
        LA.fsq (mat B J c.opts.rank * (Vᵀ * mat B J c.opts.rank)⁻¹ - V)) ∧
      ∑ i : Fin I, ∑ j : Fin J, (cpEntry (fun r => w.st.dec.weights.get [r]) w.st.dec.factorMatrices c.opts.rank [(i : ℕ), (j : ℕ)] -
        (U * diagonal d * Vᵀ) i j) ^ 2 ≤ 4 * (ρ ^ 2 * ((ρ / σ) ^ (4 * k) *
          LA.fsq (mat B J c.opts.rank * (Vᵀ * mat B J c.opts.rank)⁻¹ - V))) := by
  obtain ⟨s0, w, k, e0, h1, -, hit, h2, -, -, hwf, hsse, hXw, hw1, -⟩ := C74_fit_completes hE hN hQ hA hlog hfreq hi ht hb hS
  obtain ⟨hG, hXs, hw, hU, hdec, q1, q2, hq⟩ := fit_sweeps hE hN hQ hA hridge ht e0
  have hst : w.st = CP.orbit E c.opts s0 k := by
    rw [orbit_iterate hE hN hA.rank k hG] at h2
    exact (Except.ok.inj h2).symm
  refine ⟨w, h1, fun n hn => ?_⟩
  obtain rfl : k = n + 1 := by rw [hit] at hn; exact_mod_cast hn
  obtain ⟨A, eA⟩ : ∃ A, t.factorMatrices = [A, B] := by
    have hl := ht.factors.length_eq
    rw [hX] at hl
    match hf : t.factorMatrices, hl with
    | [A, B'], _ =>
      rw [hf] at hB
      simp only [List.getElem?_cons_succ, List.getElem?_cons_zero, Option.some.injEq] at hB
      exact ⟨A, by rw [hB]⟩
  have hlen : X.shape.length = 2 := by rw [hX]; rfl
  rw [hlen] at q2
  obtain ⟨F, H, eF, b1, b2⟩ := matrix_orbit hX hL (hL.nonneg.trans_lt hσ) hd q1 q2
    (by rw [during_zero, show CP.orbit E c.opts s0 0 = s0 from rfl, hdec, eA]) hu n
  rw [during_zero] at eF
  have hsq : (CP.orbit E c.opts s0 (n + 1)).trueSSE c.opts.rank = sqErr X (fun _ => 1) [F, H] c.opts.rank := by rw [hq, eF]
  refine ⟨_, hsse, ?_, ?_, ?_⟩
  · rw [hst, hsq]
    exact (C153_best hX hL).1 F H
  · rw [hst, hsq, sqErr_matrix hX]
    exact b1
  · rw [hst, eF]
    refine le_trans (le_of_eq ?_) b2
    rw [← fsq_model_two]
    refine Finset.sum_congr rfl fun i _ => Finset.sum_congr rfl fun j _ => ?_
    rw [cpEntry, cpEntry, Finset.sum_congr rfl fun r hr => by
      rw [show (CP.orbit E c.opts s0 (n + 1)).dec.weights.get [r] = 1 by rw [← hst]; exact hw1 r (Finset.mem_range.1 hr)]]

/-- **C153** (limits): the errors of fits with more and more iterations tend to that of the best model. -/
theorem C153_limit (hE : E.SVDOk) (hN : E.NNLSOk) (hQ : E.QROk) (hA : CP.Admissible c.opts none none X.shape)
    (hridge : c.opts.ridgePenalties = none) (hlog : c.Measurable) (hfreq : freqOption c.freq ≠ 0)
    (hi : CP.StartsFrom E c none none arg X t) (ht : t.WF X.shape c.opts.rank)
    (hS : Storing (CP.method E c) (CP.newObject none none budget loggers file) []) (hX : X.shape = [I, J])
    {U : Matrix (Fin I) (Fin c.opts.rank) ℝ} {V : Matrix (Fin J) (Fin c.opts.rank) ℝ} {d : Fin c.opts.rank → ℝ} {ρ σ : ℝ}
    (hL : LA.Leading (mat X I J) U V d ρ) (hσ : ρ < σ) (hd : ∀ r, σ ≤ d r)
    {B : NDArray ℝ} (hB : t.factorMatrices[1]? = some B) (hu : IsUnit (Vᵀ * mat B J c.opts.rank))
    {res : ℕ → World CPState}
    (hres : ∀ n : ℕ, CP.fit E c X (some (n + 1)) arg (CP.newObject none none budget loggers file) = .ok () (res n))
    (hit : ∀ n : ℕ, (res n).it = n + 1) :
    ∃ e : ℕ → ℝ, (∀ n, CP.sse (res n).st = .ok (e n)) ∧ Tendsto e atTop (𝓝 (LA.fsq (mat X I J) - ∑ i, d i ^ 2)) ∧
      ∀ (i : Fin I) (j : Fin J), Tendsto (fun n => cpEntry (fun r => (res n).st.dec.weights.get [r]) (res n).st.dec.factorMatrices
        c.opts.rank [(i : ℕ), (j : ℕ)]) atTop (𝓝 ((U * diagonal d * Vᵀ) i j)) := by
  have hall : ∀ n : ℕ, ∃ e, CP.sse (res n).st = .ok e ∧ LA.fsq (mat X I J) - ∑ i, d i ^ 2 ≤ e ∧
      e ≤ LA.fsq (mat X I J) - ∑ i, d i ^ 2 + ρ ^ 2 * ((ρ / σ) ^ (4 * n) *
        LA.fsq (mat B J c.opts.rank * (Vᵀ * mat B J c.opts.rank)⁻¹ - V)) ∧
      ∑ i : Fin I, ∑ j : Fin J, (cpEntry (fun r => (res n).st.dec.weights.get [r]) (res n).st.dec.factorMatrices c.opts.rank
        [(i : ℕ), (j : ℕ)] - (U * diagonal d * Vᵀ) i j) ^ 2 ≤ 4 * (ρ ^ 2 * ((ρ / σ) ^ (4 * n) *
          LA.fsq (mat B J c.opts.rank * (Vᵀ * mat B J c.opts.rank)⁻¹ - V))) := by
    intro n
    obtain ⟨w, h1, h2⟩ := C153_rate hE hN hQ hA hridge hlog hfreq hi ht (mi := some ((n : Int) + 1)) (budget := budget)
      (by simp only [Option.getD_some]; omega) hS hX hL hσ hd hB hu
    obtain rfl : res n = w := by
      have := hres n
      rw [h1] at this
      injection this with _ h
      exact h.symm
    exact h2 n (hit n)
  choose e he hlo hhi hmod using hall
  have hσ0 : 0 < σ := hL.nonneg.trans_lt hσ
  have hq : Tendsto (fun n : ℕ => ρ ^ 2 * ((ρ / σ) ^ (4 * n) *
      LA.fsq (mat B J c.opts.rank * (Vᵀ * mat B J c.opts.rank)⁻¹ - V))) atTop (𝓝 0) := by
    have h1 : Tendsto (fun n : ℕ => (ρ / σ) ^ (4 * n)) atTop (𝓝 0) := by
      have h2 : (ρ / σ) ^ 4 < 1 := pow_lt_one₀ (div_nonneg hL.nonneg hσ0.le) ((div_lt_one hσ0).2 hσ) (by norm_num)
      have := tendsto_pow_atTop_nhds_zero_of_lt_one (by positivity) h2
      refine this.congr fun n => ?_
      rw [pow_mul]
    have := (h1.mul_const (LA.fsq (mat B J c.opts.rank * (Vᵀ * mat B J c.opts.rank)⁻¹ - V))).const_mul (ρ ^ 2)
    simpa using this
  refine ⟨e, he, ?_, fun i j => ?_⟩
  · have h1 := (tendsto_const_nhds (x := LA.fsq (mat X I J) - ∑ i, d i ^ 2)).add hq
    rw [add_zero] at h1
    exact tendsto_of_tendsto_of_tendsto_of_le_of_le tendsto_const_nhds h1 hlo hhi
  · rw [tendsto_iff_dist_tendsto_zero]
    have h1 := (hq.const_mul 4)
    rw [mul_zero] at h1
    have h2 := (Real.continuous_sqrt.tendsto 0).comp h1
    rw [Real.sqrt_zero] at h2
    refine squeeze_zero (fun _ => dist_nonneg) (fun n => ?_) h2
    rw [Real.dist_eq]
    refine Real.abs_le_sqrt (le_trans ?_ (hmod n))
    refine le_trans ?_ (Finset.single_le_sum (f := fun i : Fin I => ∑ j : Fin J, (cpEntry (fun r => (res n).st.dec.weights.get [r])
      (res n).st.dec.factorMatrices c.opts.rank [(i : ℕ), (j : ℕ)] - (U * diagonal d * Vᵀ) i j) ^ 2)
      (fun i _ => Finset.sum_nonneg fun j _ => sq_nonneg _) (Finset.mem_univ i))
    exact Finset.single_le_sum (f := fun j : Fin J => (cpEntry (fun r => (res n).st.dec.weights.get [r])
      (res n).st.dec.factorMatrices c.opts.rank [(i : ℕ), (j : ℕ)] - (U * diagonal d * Vᵀ) i j) ^ 2)
      (fun j _ => sq_nonneg _) (Finset.mem_univ j)

/-- The second factor matrix of an SVD start of a matrix. -/
theorem svd_start_two {U : NDArray ℝ → NDArray ℝ} (hU : FullSVDOk U) (hX : X.shape = [I, J]) (hI : I ≠ 0) (hJ : J ≠ 0) {R : ℕ}
    (hRI : R ≤ I) (hRJ : R ≤ J) : ∃ t A B, CP.initSvd U R X = .ok t ∧ t.WF X.shape R ∧ t.factorMatrices = [A, B] ∧
      (mat B J R)ᵀ * mat B J R = 1 ∧
      ∀ Q : Matrix (Fin J) (Fin R) ℝ, Qᵀ * Q = 1 → LA.fsq (mat X I J * Q) ≤ LA.fsq (mat X I J * mat B J R) := by
  obtain ⟨t, ht0, ht, -, hmax⟩ := C73_svd_start hU (X := X) (by rw [hX]; simp) (by
    rw [hX]; intro n hn
    simp only [List.mem_cons, List.not_mem_nil, or_false] at hn
    rcases hn with rfl | rfl <;> assumption) (R := R) (by
    rw [hX]; intro n hn
    simp only [List.mem_cons, List.not_mem_nil, or_false] at hn
    rcases hn with rfl | rfl <;> assumption)
  obtain ⟨B, M, hB, hM, h1, h2⟩ := hmax 1 (by rw [hX]; simp)
  obtain ⟨A, eA⟩ : ∃ A, t.factorMatrices = [A, B] := by
    have hl := ht.factors.length_eq
    rw [hX] at hl
    match hf : t.factorMatrices, hl with
    | [A, B'], _ =>
      rw [hf] at hB
      simp only [List.getElem?_cons_succ, List.getElem?_cons_zero, Option.some.injEq] at hB
      exact ⟨A, by rw [hB]⟩
  have eM := unfold_eq X (n := 1) (k := 1) (norm_nat (by rw [hX]; simp)) (by rw [hX]; exact hJ)
  rw [show ((1 : ℕ) : Int) = 1 from rfl, eM] at hM
  have hM := Except.ok.inj hM
  have hJ' : X.shape[1]'(by rw [hX]; simp) = J := by simp [hX]
  have hI' : (X.shape.eraseIdx 1).prod = I := by rw [hX]; simp
  have hsh : X.shape.getD 1 0 = J := by rw [hX]; rfl
  rw [hsh, hI'] at hM
  rw [hI'] at h2
  generalize X.shape[1]'(by rw [hX]; simp) = J' at h1 h2 hJ'
  subst hJ'
  have hT : mat M J' I = (mat X I J')ᵀ := by
    ext j i
    rw [← hM, transpose_apply, mat, mat, get_ofMat j.2 i.2, hX]
    have : unravel ([I, J'].eraseIdx 1) (i : ℕ) = [(i : ℕ)] := by
      simp [unravel]
      try exact Nat.mod_eq_of_lt i.2
    rw [this]; rfl
  refine ⟨t, A, B, ht0, ht, eA, h1, fun Q hQ => ?_⟩
  have := h2 Q hQ
  rw [hT, ← transpose_mul, ← transpose_mul, LA.fsq_transpose, LA.fsq_transpose] at this
  exact this

/-- **C154.** With `init='svd'` and as many components as fit in both modes, the model of a matrix after the first iteration is a
best model, and stays one: no pair of factor matrices with that many components has a smaller squared error. No gap between
the singular values is needed. -/
theorem C154_svd_start (hE : E.SVDOk) (hN : E.NNLSOk) (hQ : E.QROk) (hA : CP.Admissible c.opts none none X.shape)
    (hridge : c.opts.ridgePenalties = none) (hlog : c.Measurable) (hfreq : freqOption c.freq ≠ 0)
    (hinit : c.init.toLower = "svd") (hU : FullSVDOk c.U) {mi : Option Int} (hb : 0 < mi.getD budget)
    (hS : Storing (CP.method E c) (CP.newObject none none budget loggers file) []) (hX : X.shape = [I, J])
    (hRI : c.opts.rank ≤ I) (hRJ : c.opts.rank ≤ J) :
    ∃ w, CP.fit E c X mi .none (CP.newObject none none budget loggers file) = .ok () w ∧ (1 ≤ w.it → ∃ e,
      CP.sse w.st = .ok e ∧ ∀ A B : NDArray ℝ, e ≤ sqErr X (fun _ => 1) [A, B] c.opts.rank) := by
  obtain ⟨t, A0, B0, ht0, ht, eA, hB1, hB2⟩ := svd_start_two hU hX (hA.nonempty I (by rw [hX]; simp)) (hA.nonempty J (by rw [hX]; simp)) hRI hRJ
  have hst0 := startsFrom_svd (E := E) (nonNeg := none) (orth := none) hinit ht0
  obtain ⟨s0, w, k, e0, h1, hk, hit, h2, -, -, hwf, hsse, hXw, hw1, -⟩ := C74_fit_completes hE hN hQ hA hlog hfreq hst0 ht hb hS
  obtain ⟨hG, hXs, hw, hUn, hdec, q1, q2, hq⟩ := fit_sweeps hE hN hQ hA hridge ht e0
  have hst : w.st = CP.orbit E c.opts s0 k := by
    rw [orbit_iterate hE hN hA.rank k hG] at h2
    exact (Except.ok.inj h2).symm
  refine ⟨w, h1, fun hw1 => ⟨_, hsse, fun A B => ?_⟩⟩
  rw [hst]
  have hmono : ∀ j, (CP.orbit E c.opts s0 (j + 1)).trueSSE c.opts.rank ≤ (CP.orbit E c.opts s0 1).trueSSE c.opts.rank := by
    intro j
    induction j with
    | zero => exact le_rfl
    | succ j ih => exact (orbit_antitone hE hN hA.rank hridge hG hw hUn (j + 1)).trans ih
  obtain ⟨j, rfl⟩ : ∃ j, k = j + 1 := ⟨k - 1, by omega⟩
  refine (hmono j).trans ?_
  have hlen : X.shape.length = 2 := by rw [hX]; rfl
  rw [hlen] at q2
  obtain ⟨F, H, e, -, -, l1, l2⟩ := sweep_two hX (q1 0) (by
    rw [during_zero, show CP.orbit E c.opts s0 0 = s0 from rfl, hdec, eA])
  have e1 := q2 0
  rw [e, during_zero] at e1
  rw [hq, ← e1]
  refine (l1.trans (l2 (ofMatrix (mat X I J * mat B0 J c.opts.rank)) rfl)).trans ?_
  rw [sqErr_matrix hX, sqErr_matrix hX, mat_ofMatrix]
  obtain ⟨Q, C, hQ1, hQC⟩ := LA.exists_orth_factor (mat A I c.opts.rank) (mat B J c.opts.rank)
  rw [hQC]
  have hmin : min J c.opts.rank = c.opts.rank := by omega
  revert Q C
  rw [hmin]
  intro Q C hQ1 hQC
  refine le_trans ?_ (LA.fsq_project (mat X I J) hQ1 C)
  have h3 := hB2 Q hQ1
  have h4 : LA.fsq (mat X I J - mat X I J * mat B0 J c.opts.rank * (mat B0 J c.opts.rank)ᵀ) =
      LA.fsq (mat X I J) - LA.fsq (mat X I J * mat B0 J c.opts.rank) := by
    have e1 : LA.fip (mat X I J) (mat X I J * mat B0 J c.opts.rank * (mat B0 J c.opts.rank)ᵀ) =
        LA.fsq (mat X I J * mat B0 J c.opts.rank) := by
      rw [LA.fip_comm, LA.fip_mul_left, transpose_transpose, ← LA.fsq_eq_fip]
    have e2 : LA.fsq (mat X I J * mat B0 J c.opts.rank * (mat B0 J c.opts.rank)ᵀ) = LA.fsq (mat X I J * mat B0 J c.opts.rank) :=
      LA.fsq_mul_orth _ (by rw [transpose_transpose]; exact hB1)
    rw [LA.fsq_sub, e1, e2]
    ring
  rw [h4]; linarith

/-! ## Examples -/

/-- `diag(2, 1)`. -/
def matrix21 : NDArray ℝ := ofMat 2 2 fun i j => if i = j then (if i = 0 then 2 else 1) else 0

theorem mat_matrix21 : mat matrix21 2 2 = !![2, 0; 0, 1] := by
  ext i j
  rw [mat, matrix21, get_ofMat i.2 j.2]
  fin_cases i <;> fin_cases j <;> simp

theorem leading_matrix21 : LA.Leading (mat matrix21 2 2) (!![1; 0] : Matrix (Fin 2) (Fin 1) ℝ) !![1; 0] (fun _ => 2) 1 := by
  rw [mat_matrix21]
  refine ⟨?_, ?_, ?_, ?_, fun z hz => ?_, by norm_num, fun _ => by norm_num⟩
  · ext i j; fin_cases i; fin_cases j; simp [mul_apply]
  · ext i j; fin_cases i; fin_cases j; simp [mul_apply]
  · ext i j; fin_cases i <;> fin_cases j <;> simp [mul_apply]
  · ext i j; fin_cases i <;> fin_cases j <;> simp [mul_apply]
  · have h0 : z 0 = 0 := by simpa [mulVec, dotProduct] using congrFun hz 0
    simp [mulVec, dotProduct, h0]

/-- The configuration of the example: rank 1, no tolerances, start given by the caller. -/
def matrixConfig : CP.Config := ⟨⟨1, 0, 0, none⟩, "precomputed", none, true, [], fun _ _ _ _ => 0, id, fun _ => none⟩

/-- A start with the given second factor matrix. -/
def matrixStart (x y : ℝ) : KruskalTensor := ⟨1, [full [2, 1] 1, ofMat 2 1 fun i _ => if i = 0 then x else y], full [1] 1⟩

/-- The hypotheses of `C153_rate`: `diag(2, 1)`, one component, start with the second factor matrix (1, y), `ρ = 1`, `σ = 2`. -/
example (E : Ext) (y : ℝ) : CP.Admissible matrixConfig.opts none none matrix21.shape ∧ matrixConfig.opts.ridgePenalties = none ∧
    matrixConfig.Measurable ∧ freqOption matrixConfig.freq ≠ 0 ∧
    CP.StartsFrom E matrixConfig none none (.tensor (matrixStart 1 y)) matrix21 (matrixStart 1 y) ∧ (matrixStart 1 y).WF matrix21.shape 1 ∧
    Storing (CP.method E matrixConfig) (CP.newObject none none 10 [] none) [] ∧
    LA.Leading (mat matrix21 2 2) (!![1; 0] : Matrix (Fin 2) (Fin 1) ℝ) !![1; 0] (fun _ => 2) 1 ∧
    ∃ B, (matrixStart 1 y).factorMatrices[1]? = some B ∧ IsUnit ((!![1; 0] : Matrix (Fin 2) (Fin 1) ℝ)ᵀ * mat B 2 1) := by
  have ht : (matrixStart 1 y).WF matrix21.shape 1 := ⟨rfl, .cons rfl (.cons rfl .nil), rfl⟩
  have hi : matrixConfig.init.toLower = "precomputed" := by
    show "precomputed".toLower = _
    rw [String.toLower, ← String.toList_inj, String.toList_map]; decide
  refine ⟨⟨by decide, by simp [matrix21], by simp [matrix21], by simp, by simp, by simp [matrixConfig], by simp, by simp⟩, rfl,
    by intro p hp; simp [matrixConfig] at hp, show freqOption none ≠ 0 by decide, startsFrom_precomputed hi ht, ht,
    ⟨fun h => absurd h (show ¬ (0 : Int) < -1 by decide), fun h => absurd h (show ¬ (0 : Int) < -1 by decide),
      fun h => absurd h (show ¬ (0 : Int) < -1 by decide)⟩, leading_matrix21, _, rfl, ?_⟩
  refine isUnit_iff_exists_inv.2 ⟨1, ?_⟩
  rw [Matrix.mul_one]
  ext i j
  fin_cases i; fin_cases j
  have h0 : (ofMat 2 1 fun i _ => if i = 0 then (1 : ℝ) else y).get [0, 0] = 1 := by rw [get_ofMat (by omega) (by omega)]; rfl
  simp [mul_apply, mat, h0]

/-- The hypotheses of `C154_svd_start`: `matrix21` and one component, for every routine with the contract of `np.linalg.svd`. -/
example (E : Ext) : ∃ U, FullSVDOk U ∧ CP.Admissible ({ matrixConfig with init := "svd", U := U }).opts none none matrix21.shape ∧
    ({ matrixConfig with init := "svd", U := U }).init.toLower = "svd" ∧ matrix21.shape = [2, 2] ∧
    Storing (CP.method E { matrixConfig with init := "svd", U := U }) (CP.newObject none none 10 [] none) [] := by
  obtain ⟨U, hU⟩ := exists_fullSVD
  refine ⟨U, hU, ⟨Nat.one_pos, by simp [matrix21], by simp [matrix21], by simp, by simp, by simp [matrixConfig], by simp, by simp⟩, ?_, rfl,
    ⟨fun h => absurd h (show ¬ (0 : Int) < -1 by decide), fun h => absurd h (show ¬ (0 : Int) < -1 by decide),
      fun h => absurd h (show ¬ (0 : Int) < -1 by decide)⟩⟩
  show "svd".toLower = _
  rw [String.toLower, ← String.toList_inj, String.toList_map]; decide

/-- The condition on the start is needed: from a second factor matrix orthogonal to the leading singular vector all fits of
`diag(2, 1)` with one component end with the error 4, while the best model has the error 1. -/
theorem C153_orthogonal_start (hE : E.SVDOk) (hN : E.NNLSOk) (hQ : E.QROk) :
    (∃ A B : NDArray ℝ, sqErr matrix21 (fun _ => 1) [A, B] 1 = 1) ∧
    ∃ res : ℕ → World CPState, (∀ n : ℕ, CP.fit E matrixConfig matrix21 (some (n + 1)) (.tensor (matrixStart 0 1))
      (CP.newObject none none 10 [] none) = .ok () (res n)) ∧ (∀ n : ℕ, (res n).it = n + 1) ∧
      ∀ n, CP.sse (res n).st = .ok 4 := by
  refine ⟨?_, ?_⟩
  · obtain ⟨-, A, B, -, -, e⟩ := C153_best (X := matrix21) (I := 2) (J := 2) rfl leading_matrix21
    refine ⟨A, B, ?_⟩
    rw [e, mat_matrix21]
    simp [LA.fsq, Fin.sum_univ_two]
  have hA : CP.Admissible matrixConfig.opts none none matrix21.shape :=
    ⟨by decide, by simp [matrix21], by simp [matrix21], by simp, by simp, by simp [matrixConfig], by simp, by simp⟩
  have ht : (matrixStart 0 1).WF matrix21.shape matrixConfig.opts.rank := ⟨rfl, .cons rfl (.cons rfl .nil), rfl⟩
  have hi : matrixConfig.init.toLower = "precomputed" := by
    show "precomputed".toLower = _
    rw [String.toLower, ← String.toList_inj, String.toList_map]; decide
  have hst := startsFrom_precomputed (E := E) (c := matrixConfig) (X := matrix21) (nonNeg := none) (orth := none) hi ht
  have hS : Storing (CP.method E matrixConfig) (CP.newObject none none 10 [] none) [] :=
    ⟨fun h => absurd h (show ¬ (0 : Int) < -1 by decide), fun h => absurd h (show ¬ (0 : Int) < -1 by decide),
      fun h => absurd h (show ¬ (0 : Int) < -1 by decide)⟩
  have hlog : matrixConfig.Measurable := by intro p hp; simp [matrixConfig] at hp
  have hfreq : freqOption matrixConfig.freq ≠ 0 := show freqOption none ≠ 0 by decide
  have hfull : ∀ n : ℕ, ∃ w, CP.fit E matrixConfig matrix21 (some (n + 1)) (.tensor (matrixStart 0 1))
      (CP.newObject none none 10 [] none) = .ok () w ∧ w.it = n + 1 ∧ CP.sse w.st = .ok 4 := by
    intro n
    obtain ⟨s0, w, k, e0, h1, h2, h3, h4, -, h6, -, hsse, -⟩ := C74_fit_completes hE hN hQ hA hlog hfreq hst ht
      (mi := some ((n : Int) + 1)) (budget := 10) (by simp only [Option.getD_some]; omega) hS
    obtain ⟨hG, hXs, hw, hU, hdec, q1, q2, hq⟩ := fit_sweeps hE hN hQ hA rfl ht e0
    rw [orbit_iterate hE hN hA.rank k hG] at h4
    have hk : k = n + 1 := by
      obtain rfl | hlt : k = n + 1 ∨ k < n + 1 := by simp only [Option.getD_some] at h2; omega
      · rfl
      · have := h6 (by simp only [Option.getD_some]; omega)
        rw [← Except.ok.inj h4, never_stops le_rfl le_rfl (orbit_good hE hN hA.rank hG k).1] at this
        cases this
    subst hk
    refine ⟨w, h1, by rw [h3]; push_cast; rfl, ?_⟩
    have key : ∀ j, ∃ F H, CP.during E matrixConfig.opts s0 (j + 1) 0 = [F, H] ∧ mat F 2 1 = !![0; 1] ∧ mat H 2 1 = !![0; 1] := by
      have step : ∀ j A B, CP.during E matrixConfig.opts s0 j 0 = [A, B] → mat B 2 1 = !![0; 1] →
          ∃ F H, CP.during E matrixConfig.opts s0 (j + 1) 0 = [F, H] ∧ mat F 2 1 = !![0; 1] ∧ mat H 2 1 = !![0; 1] := by
        intro j A B e hB
        obtain ⟨F, H, e', n1, n2, -⟩ := sweep_two (I := 2) (J := 2) (X := matrix21) (R := 1) rfl (q1 j) e
        have hone : (!![0; 1] : Matrix (Fin 2) (Fin 1) ℝ)ᵀ * (!![0; 1] : Matrix (Fin 2) (Fin 1) ℝ) = 1 := by
          ext i j; fin_cases i; fin_cases j; simp [mul_apply]
        rw [hB, hone, Matrix.mul_one, mat_matrix21] at n1
        have hF : mat F 2 1 = !![0; 1] := by
          rw [n1]; ext i j; fin_cases i <;> fin_cases j <;> simp [mul_apply]
        rw [hF, hone, Matrix.mul_one, mat_matrix21] at n2
        refine ⟨F, H, by rw [← q2 j]; exact e', hF, ?_⟩
        rw [n2]; ext i j; fin_cases i <;> fin_cases j <;> simp [mul_apply]
      intro j
      induction j with
      | zero =>
        refine step 0 _ _ (by rw [during_zero, show CP.orbit E matrixConfig.opts s0 0 = s0 from rfl, hdec]; rfl) ?_
        ext i j
        rw [mat, get_ofMat i.2 j.2]
        fin_cases i <;> fin_cases j <;> simp
      | succ j ih =>
        obtain ⟨F, H, e, -, hH⟩ := ih
        exact step (j + 1) F H e hH
    obtain ⟨F, H, e, hF, hH⟩ := key n
    rw [during_zero] at e
    rw [hsse, ← Except.ok.inj h4, hq, e, show matrixConfig.opts.rank = 1 from rfl, sqErr_matrix (I := 2) (J := 2) (X := matrix21) rfl, hF, hH, mat_matrix21]
    refine congrArg Except.ok ?_
    rw [show (!![0; 1] : Matrix (Fin 2) (Fin 1) ℝ) * (!![0; 1] : Matrix (Fin 2) (Fin 1) ℝ)ᵀ = !![0, 0; 0, 1] by
      ext i j; fin_cases i <;> fin_cases j <;> rw [mul_apply] <;> simp]
    simp [LA.fsq, Fin.sum_univ_two]
    norm_num
  choose res h1 h2 h3 using hfull
  exact ⟨res, h1, h2, h3⟩

end

end TK
