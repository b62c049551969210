import Verif.LinAlg.SubspaceIteration
import Verif.Lemmas.Descent
import Verif.Lemmas.Explained

/-!
# Sweeps over matrices
-/

namespace TK
open NDArray Matrix

noncomputable section

variable {X : NDArray ℝ} {I J R : ℕ}

theorem cpEntry_two (A B : NDArray ℝ) {i j : ℕ} (hi : i < I) (hj : j < J) :
    cpEntry (fun _ => 1) [A, B] R [i, j] = (mat A I R * (mat B J R)ᵀ) ⟨i, hi⟩ ⟨j, hj⟩ := by
  rw [mul_apply, cpEntry, Finset.sum_range]
  refine Finset.sum_congr rfl fun r _ => ?_
  simp [rankOne, mat]

/-- The squared error of a model of a matrix. -/
theorem sqErr_matrix (hX : X.shape = [I, J]) (A B : NDArray ℝ) :
    sqErr X (fun _ => 1) [A, B] R = LA.fsq (mat X I J - mat A I R * (mat B J R)ᵀ) := by
  rw [sqErr, hX, LA.fsq]
  simp only [sumIdx]
  rw [Finset.sum_range]
  refine Finset.sum_congr rfl fun i _ => ?_
  rw [Finset.sum_range]
  refine Finset.sum_congr rfl fun j _ => ?_
  rw [cpEntry_two A B i.2 j.2]
  rfl

/-- The distance of a model of a matrix to a matrix. -/
theorem fsq_model_two (M : Matrix (Fin I) (Fin J) ℝ) (A B : NDArray ℝ) :
    (∑ i : Fin I, ∑ j : Fin J, (cpEntry (fun _ => 1) [A, B] R [(i : ℕ), (j : ℕ)] - M i j) ^ 2) =
      LA.fsq (mat A I R * (mat B J R)ᵀ - M) := by
  rw [LA.fsq]
  refine Finset.sum_congr rfl fun i _ => Finset.sum_congr rfl fun j _ => ?_
  rw [cpEntry_two A B i.2 j.2]
  rfl

/-- Minimisers satisfy the normal equations. -/
theorem normal_of_optimal {m n p : ℕ} {M : Matrix (Fin m) (Fin n) ℝ} {B : Matrix (Fin n) (Fin p) ℝ} {F : Matrix (Fin m) (Fin p) ℝ}
    (h : ∀ Y, LA.fsq (M - F * Bᵀ) ≤ LA.fsq (M - Y * Bᵀ)) : F * (Bᵀ * B) = M * B := by
  set N := (M - F * Bᵀ) * B with hN
  have key : ∀ t : ℝ, 0 ≤ t * (-2 * LA.fsq N) + t ^ 2 * LA.fsq (N * Bᵀ) := by
    intro t
    have h1 := h (F + t • N)
    have e : M - (F + t • N) * Bᵀ = (M - F * Bᵀ) - t • (N * Bᵀ) := by
      rw [Matrix.add_mul, Matrix.smul_mul]; abel
    have e1 : LA.fip (M - F * Bᵀ) (t • (N * Bᵀ)) = t * LA.fsq N := by
      have : LA.fip (M - F * Bᵀ) (t • (N * Bᵀ)) = t * LA.fip (M - F * Bᵀ) (N * Bᵀ) := by
        simp only [LA.fip, Matrix.smul_apply, smul_eq_mul, Finset.mul_sum]
        exact Finset.sum_congr rfl fun i _ => Finset.sum_congr rfl fun j _ => by ring
      rw [this, LA.fip_comm, LA.fip_mul_left, transpose_transpose, ← hN, ← LA.fsq_eq_fip]
    have e2 : LA.fsq (t • (N * Bᵀ)) = t ^ 2 * LA.fsq (N * Bᵀ) := by
      simp only [LA.fsq, Matrix.smul_apply, smul_eq_mul, Finset.mul_sum, mul_pow]
    rw [e, LA.fsq_sub (M - F * Bᵀ) (t • _), e1, e2] at h1
    linarith
  have h0 : LA.fsq N = 0 := by
    have hc := LA.fsq_nonneg (N * Bᵀ)
    have hn := LA.fsq_nonneg N
    by_contra hne
    have hpos : 0 < LA.fsq N := lt_of_le_of_ne hn (Ne.symm hne)
    have := key (LA.fsq N / (LA.fsq (N * Bᵀ) + 1))
    have hc1 : 0 < LA.fsq (N * Bᵀ) + 1 := by linarith
    have e : LA.fsq N / (LA.fsq (N * Bᵀ) + 1) * (-2 * LA.fsq N) + (LA.fsq N / (LA.fsq (N * Bᵀ) + 1)) ^ 2 * LA.fsq (N * Bᵀ) =
        (LA.fsq N / (LA.fsq (N * Bᵀ) + 1)) ^ 2 * (-LA.fsq (N * Bᵀ) - 2) := by
      field_simp; ring
    rw [e] at this
    have h2 : 0 < (LA.fsq N / (LA.fsq (N * Bᵀ) + 1)) ^ 2 := by positivity
    nlinarith
  have := LA.fsq_eq_zero_iff.1 h0
  rw [hN, Matrix.sub_mul, sub_eq_zero] at this
  rw [← Matrix.mul_assoc]
  exact this.symm

/-- A sweep over a matrix: two least squares problems. -/
theorem sweep_two {g : ℕ → List (NDArray ℝ)} (hX : X.shape = [I, J]) (h : Sweep X R g) {A B : NDArray ℝ} (e0 : g 0 = [A, B]) :
    ∃ F G, g 2 = [F, G] ∧ mat F I R * ((mat B J R)ᵀ * mat B J R) = mat X I J * mat B J R ∧
      mat G J R * ((mat F I R)ᵀ * mat F I R) = (mat X I J)ᵀ * mat F I R ∧
      sqErr X (fun _ => 1) [F, G] R ≤ sqErr X (fun _ => 1) [F, B] R ∧
      ∀ Y : NDArray ℝ, Y.shape = [I, R] → sqErr X (fun _ => 1) [F, B] R ≤ sqErr X (fun _ => 1) [Y, B] R := by
  obtain ⟨F, e1, o1⟩ := h.step 0 (by rw [hX]; simp)
  obtain ⟨G, e2, o2⟩ := h.step 1 (by rw [hX]; simp)
  have g1 : g 1 = [F, B] := by rw [show 1 = 0 + 1 from rfl, e1, e0]; rfl
  have g2 : g 2 = [F, G] := by rw [show 2 = 1 + 1 from rfl, e2, g1]; rfl
  have o1' : ∀ Y : NDArray ℝ, Y.shape = [I, R] → sqErr X (fun _ => 1) [F, B] R ≤ sqErr X (fun _ => 1) [Y, B] R := by
    intro Y hY
    have := o1 Y (by rw [hX]; exact hY)
    rw [show 0 + 1 = 1 from rfl, g1, e0] at this
    exact this
  have o2' : ∀ Y : NDArray ℝ, Y.shape = [J, R] → sqErr X (fun _ => 1) [F, G] R ≤ sqErr X (fun _ => 1) [F, Y] R := by
    intro Y hY
    have := o2 Y (by rw [hX]; exact hY)
    rw [show 1 + 1 = 2 from rfl, g2, g1] at this
    exact this
  refine ⟨F, G, g2, normal_of_optimal fun Y => ?_, normal_of_optimal fun Y => ?_, ?_, o1'⟩
  · have := o1' (ofMatrix Y) rfl
    rwa [sqErr_matrix hX, sqErr_matrix hX, mat_ofMatrix] at this
  · have := o2' (ofMatrix Y) rfl
    rw [sqErr_matrix hX, sqErr_matrix hX, mat_ofMatrix, ← LA.fsq_transpose, ← LA.fsq_transpose (mat X I J - mat F I R * Yᵀ)] at this
    simpa only [transpose_sub, transpose_mul, transpose_transpose] using this
  · obtain ⟨F', hF', e⟩ : ∃ Y : NDArray ℝ, Y.shape = [J, R] ∧ mat Y J R = mat B J R :=
      ⟨ofMatrix (mat B J R), rfl, mat_ofMatrix _⟩
    have := o2' F' hF'
    rw [sqErr_matrix hX F F', e, ← sqErr_matrix hX] at this
    exact this

end

end TK
