import Verif.Props.Stopping

/-!
# Least squares updates leave a residual that is orthogonal to the model
-/

namespace TK
open NDArray Matrix

noncomputable section

/-- A quadratic that is nowhere negative and vanishes at zero has no linear term. -/
theorem linear_eq_zero {a b : ℝ} (hb : 0 ≤ b) (h : ∀ c : ℝ, 0 ≤ c ^ 2 * b - 2 * c * a) : a = 0 := by
  have h1 := h (a / (b + 1))
  have hb1 : 0 < b + 1 := by linarith
  have h2 : (a / (b + 1)) ^ 2 * b - 2 * (a / (b + 1)) * a = -(a ^ 2 * (b + 2)) / (b + 1) ^ 2 := by
    field_simp
    ring
  rw [h2, le_div_iff₀ (by positivity), zero_mul] at h1
  have h3 : a ^ 2 ≤ 0 := by nlinarith [sq_nonneg a]
  exact pow_eq_zero_iff two_ne_zero |>.1 (le_antisymm h3 (sq_nonneg a))

/-- The model depends linearly on each factor matrix. -/
theorem cpEntry_set_linear {fs : List (NDArray ℝ)} {sizes : List ℕ} {R m : ℕ} (hl : fs.length = sizes.length)
    (hm : m < sizes.length) {F Y Z : NDArray ℝ} {c : ℝ} (w : ℕ → ℝ)
    (hZ : ∀ i < sizes.getD m 0, ∀ r < R, Z.get [i, r] = F.get [i, r] + c * Y.get [i, r]) {idx : List ℕ}
    (hidx : Valid sizes idx) :
    cpEntry w (fs.set m Z) R idx = cpEntry w (fs.set m F) R idx + c * cpEntry w (fs.set m Y) R idx := by
  have hlen : idx.length = fs.length := hidx.length_eq.trans hl.symm
  have key : ∀ (G : NDArray ℝ) (r : ℕ), rankOne (fs.set m G) idx r =
      G.get [idx.getD m 0, r] * rankOne (fs.eraseIdx m) (idx.eraseIdx m) r := by
    intro G r
    rw [rankOne_eraseIdx (fs := fs.set m G) (k := m) (by simpa using hl ▸ hm) (by simpa using hlen), List.getElem_set_self,
      List.eraseIdx_set_eq]
  unfold cpEntry
  rw [Finset.mul_sum, ← Finset.sum_add_distrib]
  refine Finset.sum_congr rfl fun r hr => ?_
  rw [key, key, key, hZ _ (hidx.getD_lt hm) r (by simpa using hr)]
  ring

/-- If a factor matrix minimises the squared error, the residual is orthogonal to every model that differs only in
that matrix. -/
theorem optimal_orthogonal {X : NDArray ℝ} {fs : List (NDArray ℝ)} {R m : ℕ} (hl : fs.length = X.shape.length)
    (hm : m < X.shape.length) {w : ℕ → ℝ} {F : NDArray ℝ}
    (hopt : ∀ Y : NDArray ℝ, Y.shape = [X.shape.getD m 0, R] → sqErr X w (fs.set m F) R ≤ sqErr X w (fs.set m Y) R)
    (Y : NDArray ℝ) :
    (sumIdx X.shape fun idx => (X.get idx - cpEntry w (fs.set m F) R idx) * cpEntry w (fs.set m Y) R idx) = 0 := by
  set M := cpEntry w (fs.set m F) R with hM
  set N := cpEntry w (fs.set m Y) R with hN
  refine linear_eq_zero (b := sumIdx X.shape fun idx => N idx ^ 2) (sumIdx_nonneg fun _ _ => sq_nonneg _) fun c => ?_
  have h1 := hopt (ofMat (X.shape.getD m 0) R fun i r => F.get [i, r] + c * Y.get [i, r]) (shape_ofMat _ _ _)
  have h2 : sqErr X w (fs.set m (ofMat (X.shape.getD m 0) R fun i r => F.get [i, r] + c * Y.get [i, r])) R =
      sqErr X w (fs.set m F) R + (c ^ 2 * (sumIdx X.shape fun idx => N idx ^ 2) -
        2 * c * sumIdx X.shape fun idx => (X.get idx - M idx) * N idx) := by
    rw [sqErr, sqErr, mul_sumIdx, mul_sumIdx, ← sumIdx_sub, ← sumIdx_add]
    refine sumIdx_congr fun idx hidx => ?_
    rw [cpEntry_set_linear hl hm w (fun i hi r hr => get_ofMat hi hr) hidx]
    ring
  linarith

/-- If the residual is orthogonal to the model, the squared norms add up. -/
theorem sqErr_of_orthogonal {X : NDArray ℝ} {w : ℕ → ℝ} {fs : List (NDArray ℝ)} {R : ℕ}
    (h : (sumIdx X.shape fun idx => (X.get idx - cpEntry w fs R idx) * cpEntry w fs R idx) = 0) :
    sqErr X w fs R = (sumIdx X.shape fun idx => X.get idx ^ 2) - sumIdx X.shape fun idx => cpEntry w fs R idx ^ 2 := by
  have h1 : (sumIdx X.shape fun idx => X.get idx * cpEntry w fs R idx) = sumIdx X.shape fun idx => cpEntry w fs R idx ^ 2 := by
    rw [← sub_eq_zero, ← sumIdx_sub, ← h]
    exact sumIdx_congr fun idx _ => by ring
  rw [sqErr, sq_expand, h1]
  ring

end
end TK
