import Verif.Spec.Ext
import Mathlib.Analysis.InnerProductSpace.Spectrum
import Mathlib.Analysis.InnerProductSpace.GramSchmidtOrtho
import Mathlib.Analysis.Matrix.Spectrum
import Mathlib.Topology.Algebra.Module.FiniteDimension
import Mathlib.Topology.MetricSpace.HausdorffDistance

/-!
# Routines with the contracts of `Verif/Spec/Ext.lean` exist

So the hypotheses `SVDOk`, `NNLSOk`, `QROk` of the theorems are satisfiable.
-/

set_option linter.unusedSectionVars false

namespace TK.LA
open Matrix Module

/-- The matrix whose columns are the given vectors. -/
def colMat {m k : ℕ} (b : Fin k → EuclideanSpace ℝ (Fin m)) : Matrix (Fin m) (Fin k) ℝ := fun i j => b j i

theorem colMat_orth {m k : ℕ} {b : Fin k → EuclideanSpace ℝ (Fin m)} (h : Orthonormal ℝ b) :
    (colMat b)ᵀ * colMat b = 1 := by
  ext i j
  have := (orthonormal_iff_ite.1 h) i j
  simp only [PiLp.inner_apply, RCLike.inner_apply, conj_trivial] at this
  simp only [mul_apply, transpose_apply, colMat, one_apply]
  rw [← this]
  exact Finset.sum_congr rfl fun _ _ => mul_comm _ _

/-- Symmetric matrices can be diagonalised with sorted eigenvalues. -/
theorem exists_eig {n : ℕ} {G : Matrix (Fin n) (Fin n) ℝ} (hG : Gᵀ = G) :
    ∃ (V : Matrix (Fin n) (Fin n) ℝ) (l : Fin n → ℝ), Antitone l ∧ Vᵀ * V = 1 ∧ G * V = V * diagonal l := by
  have hH : G.IsHermitian := by rw [IsHermitian, conjTranspose_eq_transpose_of_trivial, hG]
  have hs := isSymmetric_toEuclideanLin_iff.mpr hH
  have hn : finrank ℝ (EuclideanSpace ℝ (Fin n)) = n := by simp
  refine ⟨colMat (hs.eigenvectorBasis hn), hs.eigenvalues hn, hs.eigenvalues_antitone hn,
    colMat_orth (hs.eigenvectorBasis hn).orthonormal, ?_⟩
  ext i j
  have := hs.apply_eigenvectorBasis hn j
  have := congrArg (fun v : EuclideanSpace ℝ (Fin n) => v i) this
  simp only [toLpLin_apply, PiLp.smul_apply] at this
  rw [mul_diagonal]
  simp only [mul_apply, colMat]
  simpa [mulVec, dotProduct, mul_comm] using this

/-- Orthonormal families can be completed. -/
theorem exists_complete {m n : ℕ} (hnm : n ≤ m) (u : Fin n → EuclideanSpace ℝ (Fin m)) (s : Set (Fin n))
    (hu : ∀ i ∈ s, ∀ j ∈ s, inner ℝ (u i) (u j) = if i = j then (1 : ℝ) else 0) :
    ∃ w : Fin n → EuclideanSpace ℝ (Fin m), Orthonormal ℝ w ∧ ∀ i ∈ s, w i = u i := by
  let v : Fin m → EuclideanSpace ℝ (Fin m) := fun i => if h : (i : ℕ) < n then u ⟨i, h⟩ else 0
  let t : Set (Fin m) := {i | ∃ h : (i : ℕ) < n, (⟨i, h⟩ : Fin n) ∈ s}
  have hv : Orthonormal ℝ (t.domRestrict v) := by
    rw [orthonormal_iff_ite]
    rintro ⟨i, hi, hi'⟩ ⟨j, hj, hj'⟩
    have := hu _ hi' _ hj'
    simp only [Set.domRestrict_apply, v, hi, hj, dif_pos, this]
    simp [Fin.ext_iff]
  obtain ⟨b, hb⟩ := hv.exists_orthonormalBasis_extension_of_card_eq (by simp)
  refine ⟨fun i => b ⟨i, by omega⟩, ?_, ?_⟩
  · exact b.orthonormal.comp (fun i : Fin n => (⟨i, by omega⟩ : Fin m)) (fun i j h => by
      simpa [Fin.ext_iff] using h)
  · intro i hi
    have := hb ⟨i, by omega⟩ ⟨i.2, hi⟩
    simp only [this, v, i.2, dif_pos]

/-- Thin SVD of a tall matrix. -/
theorem exists_svd_tall {m n : ℕ} (hnm : n ≤ m) (A : Matrix (Fin m) (Fin n) ℝ) :
    ∃ (U : Matrix (Fin m) (Fin n) ℝ) (s : Fin n → ℝ) (Vh : Matrix (Fin n) (Fin n) ℝ),
      ThinSVD A U s Vh ∧ Antitone s := by
  obtain ⟨V, l, hl, hV, hGV⟩ := exists_eig (G := Aᵀ * A) (by rw [transpose_mul, transpose_transpose])
  have hV' : V * Vᵀ = 1 := mul_eq_one_comm.1 hV
  have hW : (A * V)ᵀ * (A * V) = diagonal l := by
    have : (A * V)ᵀ * (A * V) = Vᵀ * (Aᵀ * A * V) := by rw [transpose_mul]; simp only [Matrix.mul_assoc]
    rw [this, hGV, ← Matrix.mul_assoc, hV, Matrix.one_mul]
  have hWij : ∀ i j, ∑ x, (A * V) x i * (A * V) x j = if i = j then l i else 0 := by
    intro i j
    have := congrFun (congrFun hW i) j
    rwa [mul_apply, diagonal_apply] at this
  have hl0 : ∀ i, 0 ≤ l i := by
    intro i
    have := hWij i i
    rw [if_pos rfl] at this
    rw [← this]
    exact Finset.sum_nonneg fun _ _ => mul_self_nonneg _
  let u : Fin n → EuclideanSpace ℝ (Fin m) := fun i => WithLp.toLp 2 fun x => (A * V) x i / Real.sqrt (l i)
  obtain ⟨w, hw, hwu⟩ := exists_complete hnm u {i | l i ≠ 0} (by
    intro i hi j hj
    simp only [PiLp.inner_apply, RCLike.inner_apply, conj_trivial, u]
    have h1 := Real.sqrt_ne_zero'.2 (lt_of_le_of_ne (hl0 i) (Ne.symm hi))
    have h2 := Real.sqrt_ne_zero'.2 (lt_of_le_of_ne (hl0 j) (Ne.symm hj))
    have : ∀ x, (A * V) x j / Real.sqrt (l j) * ((A * V) x i / Real.sqrt (l i))
        = ((A * V) x i * (A * V) x j) / (Real.sqrt (l i) * Real.sqrt (l j)) := by
      intro x; field_simp
    simp only [this]
    rw [← Finset.sum_div, hWij]
    split
    · next h =>
      subst h
      rw [Real.mul_self_sqrt (hl0 i), div_self hi]
    · simp)
  refine ⟨colMat w, fun i => Real.sqrt (l i), Vᵀ, ⟨colMat_orth hw, ?_, ?_, fun i => Real.sqrt_nonneg _⟩,
    fun i j h => Real.sqrt_le_sqrt (hl h)⟩
  · rw [transpose_transpose, hV]
  · have : A * V = colMat w * diagonal fun i => Real.sqrt (l i) := by
      ext x i
      rw [mul_diagonal]
      by_cases hi : l i = 0
      · have := hWij i i
        rw [if_pos rfl, hi] at this
        have := (Finset.sum_eq_zero_iff_of_nonneg (fun x _ => mul_self_nonneg _)).1 this x (Finset.mem_univ _)
        rw [mul_self_eq_zero.1 this, hi]; simp
      · have hne := Real.sqrt_ne_zero'.2 (lt_of_le_of_ne (hl0 i) (Ne.symm hi))
        simp only [colMat, hwu i hi, u]
        field_simp
    rw [← this, Matrix.mul_assoc, hV', Matrix.mul_one]

/-- Every matrix has a thin SVD with sorted singular values. -/
theorem exists_svd {m n : ℕ} (A : Matrix (Fin m) (Fin n) ℝ) (k : ℕ) (hk : k = min m n) :
    ∃ (U : Matrix (Fin m) (Fin k) ℝ) (s : Fin k → ℝ) (Vh : Matrix (Fin k) (Fin n) ℝ),
      ThinSVD A U s Vh ∧ Antitone s := by
  rcases le_total n m with h | h
  · obtain rfl : k = n := by omega
    exact exists_svd_tall h A
  · obtain rfl : k = m := by omega
    obtain ⟨U, s, Vh, hs, ha⟩ := exists_svd_tall h Aᵀ
    refine ⟨Vhᵀ, s, Uᵀ, ⟨?_, ?_, ?_, hs.nonneg⟩, ha⟩
    · rw [transpose_transpose]; exact hs.right
    · rw [transpose_transpose]; exact hs.left
    · have := congrArg transpose hs.eq
      rw [transpose_transpose] at this
      rw [this]; simp only [transpose_mul, diagonal_transpose, Matrix.mul_assoc]

/-- Every matrix has a reduced QR decomposition. -/
theorem exists_qr {m n : ℕ} (A : Matrix (Fin m) (Fin n) ℝ) (k : ℕ) (hk : k = min m n) :
    ∃ (Q : Matrix (Fin m) (Fin k) ℝ) (R : Matrix (Fin k) (Fin n) ℝ), Qᵀ * Q = 1 ∧
      (∀ i : Fin k, ∀ j : Fin n, (j : ℕ) < i → R i j = 0) ∧ A = Q * R := by
  let a : Fin n → EuclideanSpace ℝ (Fin m) := fun j => WithLp.toLp 2 fun i => A i j
  let f : Fin m → EuclideanSpace ℝ (Fin m) := fun j => if h : (j : ℕ) < n then a ⟨j, h⟩ else 0
  let b := InnerProductSpace.gramSchmidtOrthonormalBasis (𝕜 := ℝ) (by simp) f
  have htri : ∀ i : Fin m, ∀ j : Fin n, (j : ℕ) < i → inner ℝ (b i) (a j) = 0 := by
    intro i j hij
    have := InnerProductSpace.gramSchmidtOrthonormalBasis_inv_triangular (𝕜 := ℝ) (by simp) f
      (i := ⟨j, by omega⟩) (j := i) hij
    simpa only [f, j.2, dif_pos] using this
  refine ⟨colMat fun i : Fin k => b ⟨i, by omega⟩, Matrix.of fun i j => inner ℝ (b ⟨i, by omega⟩) (a j), ?_, ?_, ?_⟩
  · exact colMat_orth (b.orthonormal.comp (fun i : Fin k => (⟨i, by omega⟩ : Fin m)) (fun i j h => by
      simpa [Fin.ext_iff] using h))
  · intro i j hij
    exact htri _ _ hij
  · ext x j
    have h1 := b.sum_repr' (a j)
    have h2 := congrArg (fun v : EuclideanSpace ℝ (Fin m) => v x) h1
    simp only [WithLp.ofLp_sum, Finset.sum_apply, PiLp.smul_apply, smul_eq_mul] at h2
    have h3 : A x j = a j x := rfl
    rw [h3, ← h2]
    simp only [mul_apply, colMat, of_apply]
    have hkm : k ≤ m := by omega
    rw [← Finset.sum_subset (Finset.subset_univ (Finset.univ.map (Fin.castLEEmb hkm)))]
    · rw [Finset.sum_map]
      apply Finset.sum_congr rfl
      intro i _
      rw [mul_comm]; rfl
    · intro i _ hi
      have : k ≤ (i : ℕ) := by
        by_contra hlt
        exact hi (Finset.mem_map.2 ⟨⟨i, by omega⟩, Finset.mem_univ _, by ext; simp⟩)
      rw [htri i j (by omega), zero_mul]

/-- The cone generated by the columns in `S`. -/
def coneS {m n : ℕ} (A : Matrix (Fin m) (Fin n) ℝ) (S : Finset (Fin n)) : Set (EuclideanSpace ℝ (Fin m)) :=
  {v | ∃ x : Fin n → ℝ, (∀ i, 0 ≤ x i) ∧ (∀ i, i ∉ S → x i = 0) ∧ v = WithLp.toLp 2 (A *ᵥ x)}

/-- If the columns in `S` are dependent, the cone is the union of smaller cones. -/
theorem coneS_reduce {m n : ℕ} {A : Matrix (Fin m) (Fin n) ℝ} {S : Finset (Fin n)} {d : Fin n → ℝ}
    (hd : A *ᵥ d = 0) (hdS : ∀ i, i ∉ S → d i = 0) (hd0 : ∃ i, 0 < d i) :
    coneS A S = ⋃ j ∈ S, coneS A (S.erase j) := by
  ext v
  simp only [Set.mem_iUnion, exists_prop]
  constructor
  · rintro ⟨x, hx, hxS, rfl⟩
    obtain ⟨i0, hi0⟩ := hd0
    obtain ⟨j, hj, hmin⟩ := Finset.exists_min_image (Finset.univ.filter fun i => 0 < d i)
      (fun i => x i / d i) ⟨i0, by simp [hi0]⟩
    have hdj : 0 < d j := (Finset.mem_filter.1 hj).2
    have hjS : j ∈ S := by
      by_contra h; rw [hdS j h] at hdj; exact lt_irrefl _ hdj
    refine ⟨j, hjS, fun i => x i - x j / d j * d i, ?_, ?_, ?_⟩
    · intro i
      have ht : 0 ≤ x j / d j := div_nonneg (hx j) hdj.le
      rcases le_or_gt (d i) 0 with h | h
      · have := mul_nonpos_of_nonneg_of_nonpos ht h
        have := hx i
        linarith
      · have := hmin i (by simp [h])
        rw [le_div_iff₀ h] at this
        linarith
    · intro i hi
      by_cases hij : i = j
      · subst hij; field_simp; simp
      · have : i ∉ S := fun h => hi (Finset.mem_erase.2 ⟨hij, h⟩)
        simp [hxS i this, hdS i this]
    · congr 1
      have : (fun i => x i - x j / d j * d i) = x - (x j / d j) • d := by
        funext i; simp
      rw [this, mulVec_sub, mulVec_smul, hd, smul_zero, sub_zero]
  · rintro ⟨j, hj, x, hx, hxS, rfl⟩
    exact ⟨x, hx, fun i hi => hxS i fun h => hi (Finset.mem_of_mem_erase h), rfl⟩

/-- If the columns in `S` are independent, the cone is closed. -/
theorem coneS_closed_of_indep {m n : ℕ} {A : Matrix (Fin m) (Fin n) ℝ} {S : Finset (Fin n)}
    (h : ∀ d : Fin n → ℝ, (∀ i, i ∉ S → d i = 0) → A *ᵥ d = 0 → d = 0) : IsClosed (coneS A S) := by
  let ext : (S → ℝ) →ₗ[ℝ] (Fin n → ℝ) :=
    { toFun := fun x i => if h : i ∈ S then x ⟨i, h⟩ else 0
      map_add' := fun x y => by funext i; by_cases h : i ∈ S <;> simp [h]
      map_smul' := fun c x => by funext i; by_cases h : i ∈ S <;> simp [h] }
  let L : (S → ℝ) →ₗ[ℝ] EuclideanSpace ℝ (Fin m) :=
    (WithLp.linearEquiv 2 ℝ (Fin m → ℝ)).symm.toLinearMap ∘ₗ A.mulVecLin ∘ₗ ext
  have hL : LinearMap.ker L = ⊥ := by
    rw [LinearMap.ker_eq_bot']
    intro x hx
    have h1 : A *ᵥ (ext x) = 0 := by
      have := congrArg WithLp.ofLp hx
      simpa [L] using this
    have h2 := h (ext x) (fun i hi => by simp [ext, hi]) h1
    funext i
    have := congrFun h2 i
    simpa [ext] using this
  have hc := (LinearMap.isClosedEmbedding_of_injective hL).isClosedMap {x : S → ℝ | ∀ i, 0 ≤ x i} (by
    have : {x : S → ℝ | ∀ i, 0 ≤ x i} = ⋂ i, {x | 0 ≤ x i} := by ext; simp
    rw [this]
    exact isClosed_iInter fun i => isClosed_le continuous_const (continuous_apply i))
  convert hc using 1
  ext v
  constructor
  · rintro ⟨x, hx, hxS, rfl⟩
    refine ⟨fun i => x i, fun i => hx i, ?_⟩
    have : ext (fun i : S => x i) = x := by
      funext i
      by_cases hi : i ∈ S
      · simp [ext, hi]
      · simp [ext, hi, hxS i hi]
    simp [L, this]
  · rintro ⟨x, hx, rfl⟩
    refine ⟨ext x, ?_, fun i hi => by simp [ext, hi], rfl⟩
    intro i
    by_cases hi : i ∈ S
    · simp [ext, hi]; exact hx _
    · simp [ext, hi]

/-- Finitely generated cones are closed. -/
theorem coneS_closed {m n : ℕ} (A : Matrix (Fin m) (Fin n) ℝ) (S : Finset (Fin n)) : IsClosed (coneS A S) := by
  induction S using Finset.strongInduction with
  | H S ih =>
    by_cases h : ∀ d : Fin n → ℝ, (∀ i, i ∉ S → d i = 0) → A *ᵥ d = 0 → d = 0
    · exact coneS_closed_of_indep h
    · push Not at h
      obtain ⟨d, hdS, hd, hne⟩ := h
      have : ∃ d : Fin n → ℝ, (∀ i, i ∉ S → d i = 0) ∧ A *ᵥ d = 0 ∧ ∃ i, 0 < d i := by
        obtain ⟨i, hi⟩ := Function.ne_iff.1 hne
        rcases lt_or_gt_of_ne hi with h | h
        · exact ⟨-d, fun i hi => by simp [hdS i hi], by rw [mulVec_neg, hd, neg_zero],
            i, by simpa using h⟩
        · exact ⟨d, hdS, hd, i, by simpa using h⟩
      obtain ⟨d, hdS, hd, hpos⟩ := this
      rw [coneS_reduce hd hdS hpos]
      exact isClosed_biUnion_finset fun j hj => ih _ (Finset.erase_ssubset hj)

/-- Non-negative least squares problems have a solution. -/
theorem exists_nnls {m n : ℕ} (A : Matrix (Fin m) (Fin n) ℝ) (b : Fin m → ℝ) :
    ∃ x : Fin n → ℝ, (∀ i, 0 ≤ x i) ∧ ∀ y : Fin n → ℝ, (∀ i, 0 ≤ y i) →
      ∑ i, ((∑ j, A i j * x j) - b i) ^ 2 ≤ ∑ i, ((∑ j, A i j * y j) - b i) ^ 2 := by
  obtain ⟨v, ⟨x, hx, _, rfl⟩, hv⟩ := (coneS_closed A Finset.univ).exists_infDist_eq_dist
    ⟨_, 0, fun _ => le_refl _, fun _ _ => rfl, rfl⟩ (WithLp.toLp 2 b)
  refine ⟨x, hx, fun y hy => ?_⟩
  have h1 : Metric.infDist (WithLp.toLp 2 b) (coneS A Finset.univ) ≤ dist (WithLp.toLp 2 b)
      (WithLp.toLp 2 (A *ᵥ y) : EuclideanSpace ℝ (Fin m)) :=
    Metric.infDist_le_dist_of_mem ⟨y, hy, fun i hi => absurd (Finset.mem_univ i) hi, rfl⟩
  rw [hv] at h1
  have key : ∀ z : Fin n → ℝ, ∑ i, ((∑ j, A i j * z j) - b i) ^ 2 = dist (WithLp.toLp 2 b)
      (WithLp.toLp 2 (A *ᵥ z) : EuclideanSpace ℝ (Fin m)) ^ 2 := by
    intro z
    rw [EuclideanSpace.dist_eq, Real.sq_sqrt (Finset.sum_nonneg fun _ _ => sq_nonneg _)]
    apply Finset.sum_congr rfl
    intro i _
    rw [Real.dist_eq, sq_abs]
    simp only [mulVec, dotProduct]
    ring
  rw [key, key]
  exact pow_le_pow_left₀ dist_nonneg h1 2

end TK.LA

namespace TK
open NDArray Matrix

/-- The array with the entries of a matrix. -/
noncomputable def ofMatrix {m n : ℕ} (M : Matrix (Fin m) (Fin n) ℝ) : NDArray ℝ :=
  ofMat m n fun i j => if h : i < m ∧ j < n then M ⟨i, h.1⟩ ⟨j, h.2⟩ else 0

theorem mat_ofMatrix {m n : ℕ} (M : Matrix (Fin m) (Fin n) ℝ) : mat (ofMatrix M) m n = M := by
  ext i j
  simp only [mat, ofMatrix]
  rw [get_ofMat i.2 j.2]
  simp

/-- The array with the entries of a vector. -/
noncomputable def ofVector {n : ℕ} (v : Fin n → ℝ) : NDArray ℝ :=
  ofFn [n] fun idx => if h : idx.getD 0 0 < n then v ⟨_, h⟩ else 0

theorem get_ofVector {n : ℕ} (v : Fin n → ℝ) (i : Fin n) : (ofVector v).get [(i : ℕ)] = v i := by
  rw [ofVector, get_ofFn (by simp)]
  simp

/-- Routines meeting all contracts exist. -/
theorem exists_ext : ∃ E : Ext, E.SVDOk ∧ E.NNLSOk ∧ E.QROk := by
  have h1 : ∀ A : NDArray ℝ, ∃ r : NDArray ℝ × NDArray ℝ × NDArray ℝ, ∀ m n, A.shape = [m, n] →
      IsSVD A r.1 r.2.1 r.2.2 m n := by
    intro A
    by_cases h : ∃ m n, A.shape = [m, n]
    · obtain ⟨m, n, hs⟩ := h
      obtain ⟨U, s, Vh, hsvd, ha⟩ := LA.exists_svd (mat A m n) _ rfl
      refine ⟨(ofMatrix U, ofVector s, ofMatrix Vh), fun m' n' hs' => ?_⟩
      rw [hs] at hs'
      obtain ⟨rfl, rfl⟩ : m = m' ∧ n = n' := by simpa using hs'
      have hvec : vec (ofVector s) (min m n) = s := by funext i; exact get_ofVector s i
      exact ⟨rfl, rfl, rfl, by rw [mat_ofMatrix, mat_ofMatrix, hvec]; exact hsvd, by rw [hvec]; exact ha⟩
    · exact ⟨(A, A, A), fun m n hs => absurd ⟨m, n, hs⟩ h⟩
  have h2 : ∀ A b : NDArray ℝ, ∃ x : NDArray ℝ, ∀ n m, A.shape = [n, m] → b.shape = [n] → IsNNLS A b x n m := by
    intro A b
    by_cases h : ∃ n m, A.shape = [n, m]
    · obtain ⟨n, m, hs⟩ := h
      obtain ⟨x, hx, hopt⟩ := LA.exists_nnls (mat A n m) (vec b n)
      refine ⟨ofVector x, fun n' m' hs' _ => ?_⟩
      rw [hs] at hs'
      obtain ⟨rfl, rfl⟩ : n = n' ∧ m = m' := by simpa using hs'
      refine ⟨rfl, fun j hj => ?_, fun y hy => ?_⟩
      · rw [get_ofVector x ⟨j, hj⟩]; exact hx _
      · have := hopt (fun i => y i) (fun i => hy i i.2)
        simp only [Finset.sum_range]
        simp only [get_ofVector]
        exact this
    · exact ⟨A, fun m n hs => absurd ⟨m, n, hs⟩ h⟩
  have h3 : ∀ A : NDArray ℝ, ∃ r : NDArray ℝ × NDArray ℝ, ∀ m n, A.shape = [m, n] → IsQR A r.1 r.2 m n := by
    intro A
    by_cases h : ∃ m n, A.shape = [m, n]
    · obtain ⟨m, n, hs⟩ := h
      obtain ⟨Q, R, hQ, hR, hA⟩ := LA.exists_qr (mat A m n) _ rfl
      refine ⟨(ofMatrix Q, ofMatrix R), fun m' n' hs' => ?_⟩
      rw [hs] at hs'
      obtain ⟨rfl, rfl⟩ : m = m' ∧ n = n' := by simpa using hs'
      refine ⟨rfl, rfl, by rw [mat_ofMatrix]; exact hQ, fun i hi j hj => ?_, by
        rw [mat_ofMatrix, mat_ofMatrix]; exact hA⟩
      have hjn : j < n := by omega
      have := congrFun (congrFun (mat_ofMatrix R) ⟨i, hi⟩) ⟨j, hjn⟩
      exact this.trans (hR ⟨i, hi⟩ ⟨j, hjn⟩ hj)
    · exact ⟨(A, A), fun m n hs => absurd ⟨m, n, hs⟩ h⟩
  choose svd hsvd using h1
  choose nnls hnnls using h2
  choose qr hqr using h3
  exact ⟨⟨svd, nnls, qr⟩, hsvd, hnnls, hqr⟩

end TK
