import Verif.Props.Explained
import Mathlib.Analysis.Calculus.Deriv.Mul
import Mathlib.Analysis.Calculus.Deriv.Pow
import Mathlib.Analysis.Calculus.Deriv.Add
import Mathlib.Analysis.SpecificLimits.Basic
import Mathlib.Topology.Instances.Matrix
import Mathlib.Algebra.Order.Chebyshev

/-!
# Sweeps of least squares updates

Facts about lists of factor matrices that are updated mode after mode, each time by a matrix that minimises the squared error.
-/

namespace TK
open NDArray Matrix Filter Topology

noncomputable section

/-! ## Specification -/

/-- Spec: squared distance of two CP models with weights 1. -/
def modelDist (shape : List ℕ) (fs gs : List (NDArray ℝ)) (R : ℕ) : ℝ :=
  sumIdx shape fun idx => (cpEntry (fun _ => 1) fs R idx - cpEntry (fun _ => 1) gs R idx) ^ 2

/-- Spec: no change of a single factor matrix lowers the squared error. -/
def BlockOptimal (X : NDArray ℝ) (fs : List (NDArray ℝ)) (R : ℕ) : Prop :=
  ∀ m < X.shape.length, ∀ Y : NDArray ℝ, Y.shape = [X.shape.getD m 0, R] →
    sqErr X (fun _ => 1) fs R ≤ sqErr X (fun _ => 1) (fs.set m Y) R

/-- The factor matrix of mode `m`. -/
def modeMat (fs : List (NDArray ℝ)) (m : ℕ) : NDArray ℝ := fs.getD m (full [] 0)

/-- Spec: all factor matrices moved along a joint direction, `F_m + t D_m`. -/
def movedAlong (sizes : List ℕ) (R : ℕ) (fs : List (NDArray ℝ)) (D : ℕ → NDArray ℝ) (t : ℝ) : List (NDArray ℝ) :=
  (List.range sizes.length).map fun m =>
    ofMat (sizes.getD m 0) R fun i r => (modeMat fs m).get [i, r] + t * (D m).get [i, r]

/-- Spec: the derivative of the squared error at the factor matrices `fs` vanishes in all joint directions. -/
def Stationary (X : NDArray ℝ) (fs : List (NDArray ℝ)) (R : ℕ) : Prop :=
  ∀ D : ℕ → NDArray ℝ, HasDerivAt (fun t => sqErr X (fun _ => 1) (movedAlong X.shape R fs D t) R) 0 0

/-- Spec: all entries of the factor matrices converge along `l`. -/
def FactorsTendTo (l : Filter ℕ) (gs : ℕ → List (NDArray ℝ)) (fs : List (NDArray ℝ)) (sizes : List ℕ) (R : ℕ) : Prop :=
  ∀ m < sizes.length, ∀ i < sizes.getD m 0, ∀ r < R,
    Tendsto (fun j => (modeMat (gs j) m).get [i, r]) l (𝓝 ((modeMat fs m).get [i, r]))

/-- Spec: for each mode the rank-one terms formed by the other modes are linearly independent. -/
def Independent (sizes : List ℕ) (fs : List (NDArray ℝ)) (R : ℕ) : Prop :=
  ∀ m < sizes.length, ∀ v : ℕ → ℝ, (∀ idx, Valid (sizes.eraseIdx m) idx →
    ∑ r ∈ Finset.range R, v r * rankOne (fs.eraseIdx m) idx r = 0) → ∀ r < R, v r = 0

/-! ## Products over the modes -/

theorem modeMat_eq {fs : List (NDArray ℝ)} {m : ℕ} (h : m < fs.length) : modeMat fs m = fs[m] := by
  rw [modeMat, List.getD_eq_getElem?_getD, List.getElem?_eq_getElem h]; rfl

theorem modeMat_set_self {fs : List (NDArray ℝ)} {m : ℕ} (h : m < fs.length) (F : NDArray ℝ) : modeMat (fs.set m F) m = F := by
  rw [modeMat_eq (by simpa using h), List.getElem_set_self]

theorem modeMat_set_ne {fs : List (NDArray ℝ)} {m k : ℕ} (h : k ≠ m) (F : NDArray ℝ) : modeMat (fs.set m F) k = modeMat fs k := by
  rw [modeMat, modeMat, List.getD_eq_getElem?_getD, List.getD_eq_getElem?_getD, List.getElem?_set_ne h.symm]

theorem rankOne_eq_prod : ∀ {fs : List (NDArray ℝ)} {idx : List ℕ} (r : ℕ), idx.length = fs.length →
    rankOne fs idx r = ∏ m ∈ Finset.range fs.length, (modeMat fs m).get [idx.getD m 0, r]
  | [], [], r, _ => by simp [rankOne]
  | F :: fs, i :: idx, r, h => by
    rw [List.length_cons, Finset.prod_range_succ', rankOne, rankOne_eq_prod r (by simpa using h), mul_comm]
    rfl

theorem tendsto_rankOne {l : Filter ℕ} {gs : ℕ → List (NDArray ℝ)} {fs : List (NDArray ℝ)} {sizes : List ℕ} {R : ℕ}
    (h : FactorsTendTo l gs fs sizes R) (hg : ∀ j, (gs j).length = sizes.length) (hf : fs.length = sizes.length)
    {idx : List ℕ} (hidx : Valid sizes idx) {r : ℕ} (hr : r < R) :
    Tendsto (fun j => rankOne (gs j) idx r) l (𝓝 (rankOne fs idx r)) := by
  have hl := hidx.length_eq
  rw [rankOne_eq_prod r (hl.trans hf.symm), hf]
  have : (fun j => rankOne (gs j) idx r) =
      fun j => ∏ m ∈ Finset.range sizes.length, (modeMat (gs j) m).get [idx.getD m 0, r] := by
    funext j
    rw [rankOne_eq_prod r (hl.trans (hg j).symm), hg j]
  rw [this]
  exact tendsto_finsetProd _ fun m hm =>
    h m (Finset.mem_range.1 hm) _ (hidx.getD_lt (Finset.mem_range.1 hm)) r hr

theorem tendsto_sumIdx {l : Filter ℕ} : ∀ {s : List ℕ} {f : ℕ → List ℕ → ℝ} {g : List ℕ → ℝ},
    (∀ idx, Valid s idx → Tendsto (fun j => f j idx) l (𝓝 (g idx))) →
    Tendsto (fun j => sumIdx s (f j)) l (𝓝 (sumIdx s g))
  | [], _, _, h => h [] trivial
  | _ :: _, _, _, h => by
    simp only [sumIdx_cons]
    exact tendsto_finsetSum _ fun i hi => tendsto_sumIdx fun idx hidx => h (i :: idx) ⟨Finset.mem_range.1 hi, hidx⟩

theorem tendsto_cpEntry {l : Filter ℕ} {gs : ℕ → List (NDArray ℝ)} {fs : List (NDArray ℝ)} {sizes : List ℕ} {R : ℕ}
    (h : FactorsTendTo l gs fs sizes R) (hg : ∀ j, (gs j).length = sizes.length) (hf : fs.length = sizes.length)
    (w : ℕ → ℝ) {idx : List ℕ} (hidx : Valid sizes idx) :
    Tendsto (fun j => cpEntry w (gs j) R idx) l (𝓝 (cpEntry w fs R idx)) :=
  tendsto_finsetSum _ fun r hr => (tendsto_rankOne h hg hf hidx (by simpa using hr)).const_mul (w r)

theorem tendsto_sqErr {l : Filter ℕ} {gs : ℕ → List (NDArray ℝ)} {fs : List (NDArray ℝ)} {X : NDArray ℝ} {R : ℕ}
    (h : FactorsTendTo l gs fs X.shape R) (hg : ∀ j, (gs j).length = X.shape.length) (hf : fs.length = X.shape.length)
    (w : ℕ → ℝ) : Tendsto (fun j => sqErr X w (gs j) R) l (𝓝 (sqErr X w fs R)) :=
  tendsto_sumIdx fun _ hidx => ((tendsto_cpEntry h hg hf w hidx).const_sub _).pow 2

theorem FactorsTendTo.set {l : Filter ℕ} {gs : ℕ → List (NDArray ℝ)} {fs : List (NDArray ℝ)} {sizes : List ℕ} {R : ℕ}
    (h : FactorsTendTo l gs fs sizes R) (hg : ∀ j, (gs j).length = sizes.length) (hf : fs.length = sizes.length) (m : ℕ)
    (Y : NDArray ℝ) : FactorsTendTo l (fun j => (gs j).set m Y) (fs.set m Y) sizes R := by
  intro k hk i hi r hr
  by_cases hkm : k = m
  · subst hkm
    rw [modeMat_set_self (hf.symm ▸ hk)]
    refine Tendsto.congr (fun j => ?_) tendsto_const_nhds
    rw [modeMat_set_self ((hg j).symm ▸ hk)]
  · rw [modeMat_set_ne hkm]
    refine Tendsto.congr (fun j => ?_) (h k hk i hi r hr)
    rw [modeMat_set_ne hkm]

/-! ## The derivative of the squared error -/

theorem modeMat_movedAlong {sizes : List ℕ} {R m : ℕ} (hm : m < sizes.length) (fs : List (NDArray ℝ)) (D : ℕ → NDArray ℝ)
    (t : ℝ) : modeMat (movedAlong sizes R fs D t) m =
      ofMat (sizes.getD m 0) R fun i r => (modeMat fs m).get [i, r] + t * (D m).get [i, r] := by
  rw [modeMat_eq (by simpa [movedAlong] using hm)]
  simp [movedAlong]

theorem length_movedAlong (sizes : List ℕ) (R : ℕ) (fs : List (NDArray ℝ)) (D : ℕ → NDArray ℝ) (t : ℝ) :
    (movedAlong sizes R fs D t).length = sizes.length := by simp [movedAlong]

theorem rankOne_movedAlong {sizes : List ℕ} {R r : ℕ} (hr : r < R) {idx : List ℕ} (hidx : Valid sizes idx)
    (fs : List (NDArray ℝ)) (D : ℕ → NDArray ℝ) (t : ℝ) : rankOne (movedAlong sizes R fs D t) idx r =
      ∏ m ∈ Finset.range sizes.length, ((modeMat fs m).get [idx.getD m 0, r] + t * (D m).get [idx.getD m 0, r]) := by
  rw [rankOne_eq_prod r (hidx.length_eq.trans (length_movedAlong _ _ _ _ _).symm), length_movedAlong]
  refine Finset.prod_congr rfl fun m hm => ?_
  rw [modeMat_movedAlong (Finset.mem_range.1 hm), get_ofMat (hidx.getD_lt (Finset.mem_range.1 hm)) hr]

theorem rankOne_set_eq {fs : List (NDArray ℝ)} {idx : List ℕ} {m r : ℕ} (h : idx.length = fs.length) (hm : m < fs.length)
    (Y : NDArray ℝ) : rankOne (fs.set m Y) idx r =
      (∏ k ∈ (Finset.range fs.length).erase m, (modeMat fs k).get [idx.getD k 0, r]) * Y.get [idx.getD m 0, r] := by
  rw [rankOne_eq_prod r (by simpa using h), List.length_set, ← Finset.prod_erase_mul _ _ (Finset.mem_range.2 hm),
    modeMat_set_self hm]
  congr 1
  exact Finset.prod_congr rfl fun k hk => by rw [modeMat_set_ne (Finset.ne_of_mem_erase hk)]

theorem hasDerivAt_rankOne {sizes : List ℕ} {R r : ℕ} (hr : r < R) {idx : List ℕ} (hidx : Valid sizes idx)
    {fs : List (NDArray ℝ)} (hf : fs.length = sizes.length) (D : ℕ → NDArray ℝ) :
    HasDerivAt (fun t => rankOne (movedAlong sizes R fs D t) idx r)
      (∑ m ∈ Finset.range sizes.length, rankOne (fs.set m (D m)) idx r) 0 := by
  have h1 : ∀ m ∈ Finset.range sizes.length, HasDerivAt
      (fun t : ℝ => (modeMat fs m).get [idx.getD m 0, r] + t * (D m).get [idx.getD m 0, r])
      ((D m).get [idx.getD m 0, r]) 0 := by
    intro m _
    simpa using ((hasDerivAt_id (0 : ℝ)).mul_const ((D m).get [idx.getD m 0, r])).const_add
      ((modeMat fs m).get [idx.getD m 0, r])
  have h2 := HasDerivAt.fun_finsetProd h1
  refine (h2.congr_deriv ?_).congr_of_eventuallyEq (Eventually.of_forall fun t => rankOne_movedAlong hr hidx fs D t)
  refine Finset.sum_congr rfl fun m hm => ?_
  rw [rankOne_set_eq (hidx.length_eq.trans hf.symm) (hf.symm ▸ Finset.mem_range.1 hm), hf, smul_eq_mul]
  simp

theorem hasDerivAt_sumIdx : ∀ {s : List ℕ} {f : ℝ → List ℕ → ℝ} {f' : List ℕ → ℝ} {x : ℝ},
    (∀ idx, Valid s idx → HasDerivAt (fun t => f t idx) (f' idx) x) →
    HasDerivAt (fun t => sumIdx s (f t)) (sumIdx s f') x
  | [], _, _, _, h => h [] trivial
  | _ :: _, _, _, _, h => by
    simp only [sumIdx_cons]
    exact HasDerivAt.fun_sum fun i hi => hasDerivAt_sumIdx fun idx hidx => h (i :: idx) ⟨Finset.mem_range.1 hi, hidx⟩

theorem movedAlong_zero {sizes : List ℕ} {R r : ℕ} (hr : r < R) {idx : List ℕ} (hidx : Valid sizes idx)
    {fs : List (NDArray ℝ)} (hf : fs.length = sizes.length) (D : ℕ → NDArray ℝ) :
    rankOne (movedAlong sizes R fs D 0) idx r = rankOne fs idx r := by
  rw [rankOne_movedAlong hr hidx, rankOne_eq_prod r (hidx.length_eq.trans hf.symm), hf]
  simp

/-- The derivative of the squared error at `gs`, when the model moves in the direction of the model `hs`. -/
def tensorSlope (X : NDArray ℝ) (R : ℕ) (gs hs : List (NDArray ℝ)) : ℝ :=
  -2 * sumIdx X.shape fun idx => (X.get idx - cpEntry (fun _ => 1) gs R idx) * cpEntry (fun _ => 1) hs R idx

/-- The derivative of the squared error along a joint direction. -/
theorem hasDerivAt_sqErr {X : NDArray ℝ} {fs : List (NDArray ℝ)} {R : ℕ} (hf : fs.length = X.shape.length)
    (D : ℕ → NDArray ℝ) : HasDerivAt (fun t => sqErr X (fun _ => 1) (movedAlong X.shape R fs D t) R)
      (∑ m ∈ Finset.range X.shape.length, tensorSlope X R fs (fs.set m (D m))) 0 := by
  set w : ℕ → ℝ := fun _ => 1 with hw
  have h1 : ∀ idx, Valid X.shape idx → HasDerivAt (fun t => cpEntry w (movedAlong X.shape R fs D t) R idx)
      (∑ m ∈ Finset.range X.shape.length, cpEntry w (fs.set m (D m)) R idx) 0 := by
    intro idx hidx
    have : ∑ m ∈ Finset.range X.shape.length, cpEntry w (fs.set m (D m)) R idx =
        ∑ r ∈ Finset.range R, w r * ∑ m ∈ Finset.range X.shape.length, rankOne (fs.set m (D m)) idx r := by
      simp only [cpEntry, Finset.mul_sum]
      exact Finset.sum_comm
    rw [this]
    exact HasDerivAt.fun_sum fun r hr => (hasDerivAt_rankOne (Finset.mem_range.1 hr) hidx hf D).const_mul (w r)
  have h0 : ∀ idx, Valid X.shape idx → cpEntry w (movedAlong X.shape R fs D 0) R idx = cpEntry w fs R idx := fun idx hidx =>
    Finset.sum_congr rfl fun r hr => by rw [movedAlong_zero (Finset.mem_range.1 hr) hidx hf]
  have h2 : HasDerivAt (fun t => sqErr X w (movedAlong X.shape R fs D t) R)
      (sumIdx X.shape fun idx => -2 * ((X.get idx - cpEntry w fs R idx) *
        ∑ m ∈ Finset.range X.shape.length, cpEntry w (fs.set m (D m)) R idx)) 0 := by
    refine hasDerivAt_sumIdx fun idx hidx => ?_
    have := ((h1 idx hidx).const_sub (X.get idx)).pow 2
    refine this.congr_deriv ?_
    rw [h0 idx hidx]
    push_cast
    ring
  refine h2.congr_deriv ?_
  simp only [tensorSlope]
  rw [← mul_sumIdx, ← Finset.mul_sum, ← sumIdx_sum]
  congr 1
  exact sumIdx_congr fun idx _ => Finset.mul_sum _ _ _

/-- A matrix that is optimal for each mode is stationary for all modes together. -/
theorem BlockOptimal.stationary {X : NDArray ℝ} {fs : List (NDArray ℝ)} {R : ℕ} (h : BlockOptimal X fs R)
    (hf : fs.length = X.shape.length) : Stationary X fs R := by
  intro D
  refine (hasDerivAt_sqErr hf D).congr_deriv (Finset.sum_eq_zero fun m hm => ?_)
  have hm' : m < X.shape.length := Finset.mem_range.1 hm
  have hset : fs.set m (fs[m]'(hf.symm ▸ hm')) = fs := List.set_getElem_self _
  have := optimal_orthogonal (w := fun _ => 1) (F := fs[m]'(hf.symm ▸ hm')) hf hm'
    (fun Y hY => by rw [hset]; exact h m hm' Y hY) (D m)
  rw [hset] at this
  rw [tensorSlope, this, mul_zero]

/-! ## A sweep of updates -/

/-- Spec: `g m` are the factor matrices before the update of mode `m`, and this update minimises the squared error. -/
structure Sweep (X : NDArray ℝ) (R : ℕ) (g : ℕ → List (NDArray ℝ)) : Prop where
  len : ∀ m ≤ X.shape.length, (g m).length = X.shape.length
  step : ∀ m < X.shape.length, ∃ F, g (m + 1) = (g m).set m F ∧
    ∀ Y : NDArray ℝ, Y.shape = [X.shape.getD m 0, R] →
      sqErr X (fun _ => 1) (g (m + 1)) R ≤ sqErr X (fun _ => 1) ((g m).set m Y) R

namespace Sweep

variable {X : NDArray ℝ} {R : ℕ} {g : ℕ → List (NDArray ℝ)}

/-- Each update moves the model by exactly the amount by which it lowers the squared error. -/
theorem dist (h : Sweep X R g) {m : ℕ} (hm : m < X.shape.length) :
    modelDist X.shape (g m) (g (m + 1)) R = sqErr X (fun _ => 1) (g m) R - sqErr X (fun _ => 1) (g (m + 1)) R := by
  obtain ⟨F, e, opt⟩ := h.step m hm
  have hl := h.len m hm.le
  have hm' : m < (g m).length := hl.symm ▸ hm
  rw [e] at opt ⊢
  have h1 := optimal_orthogonal hl hm opt (g m)[m]
  have h2 := optimal_orthogonal hl hm opt F
  rw [List.set_getElem_self] at h1
  have h3 := congrArg₂ (· - ·) h1 h2
  simp only [sub_zero] at h3
  rw [← sumIdx_sub] at h3
  have h4 : sqErr X (fun _ => 1) (g m) R - sqErr X (fun _ => 1) ((g m).set m F) R - modelDist X.shape (g m) ((g m).set m F) R =
      -2 * sumIdx X.shape fun idx => (X.get idx - cpEntry (fun _ => 1) ((g m).set m F) R idx) * cpEntry (fun _ => 1) (g m) R idx -
        (X.get idx - cpEntry (fun _ => 1) ((g m).set m F) R idx) * cpEntry (fun _ => 1) ((g m).set m F) R idx := by
    rw [mul_sumIdx, sqErr, sqErr, modelDist, ← sumIdx_sub, ← sumIdx_sub]
    exact sumIdx_congr fun idx _ => by ring
  rw [h3, mul_zero] at h4
  linarith

/-- The whole sweep moves the model by at most the number of modes times the decrease of the squared error. -/
theorem dist_le (h : Sweep X R g) : modelDist X.shape (g 0) (g X.shape.length) R ≤
    X.shape.length * (sqErr X (fun _ => 1) (g 0) R - sqErr X (fun _ => 1) (g X.shape.length) R) := by
  set d := X.shape.length with hd
  have h1 : sqErr X (fun _ => 1) (g 0) R - sqErr X (fun _ => 1) (g d) R =
      ∑ m ∈ Finset.range d, modelDist X.shape (g m) (g (m + 1)) R := by
    rw [Finset.sum_congr rfl fun m hm => h.dist (Finset.mem_range.1 hm), Finset.sum_range_sub']
  rw [h1]
  simp only [modelDist]
  rw [← sumIdx_sum, mul_sumIdx, ← sub_nonneg, ← sumIdx_sub]
  refine sumIdx_nonneg fun idx _ => ?_
  have h2 : cpEntry (fun _ => 1) (g 0) R idx - cpEntry (fun _ => 1) (g d) R idx =
      ∑ m ∈ Finset.range d, (cpEntry (fun _ => 1) (g m) R idx - cpEntry (fun _ => 1) (g (m + 1)) R idx) :=
    (Finset.sum_range_sub' (fun m => cpEntry (fun _ => (1 : ℝ)) (g m) R idx) d).symm
  rw [h2, sub_nonneg]
  simpa using sq_sum_le_card_mul_sum_sq (s := Finset.range d)
    (f := fun m => cpEntry (fun _ => (1 : ℝ)) (g m) R idx - cpEntry (fun _ => 1) (g (m + 1)) R idx)

/-- A mode keeps its matrix until it is updated, and from then on. -/
theorem before (h : Sweep X R g) {k : ℕ} : ∀ {m : ℕ}, m ≤ X.shape.length → m ≤ k → modeMat (g m) k = modeMat (g 0) k
  | 0, _, _ => rfl
  | m + 1, hm, hk => by
    obtain ⟨F, e, -⟩ := h.step m hm
    rw [e, modeMat_set_ne (by omega), h.before (by omega) (by omega)]

theorem after (h : Sweep X R g) {k : ℕ} : ∀ {n m : ℕ}, m + n = X.shape.length → k < m →
    modeMat (g m) k = modeMat (g X.shape.length) k
  | 0, m, hm, _ => by rw [← hm]; rfl
  | n + 1, m, hm, hk => by
    obtain ⟨F, e, -⟩ := h.step m (by omega)
    rw [← h.after (n := n) (m := m + 1) (by omega) (by omega), e, modeMat_set_ne (by omega)]

end Sweep

/-! ## Limits of sweeps -/

theorem modeMat_eraseIdx {fs : List (NDArray ℝ)} {m k : ℕ} :
    modeMat (fs.eraseIdx m) k = modeMat fs (if k < m then k else k + 1) := by
  rw [modeMat, modeMat, List.getD_eq_getElem?_getD, List.getD_eq_getElem?_getD, List.getElem?_eraseIdx]
  split <;> rfl

theorem getD_eraseIdx' {l : List ℕ} {m k : ℕ} : (l.eraseIdx m).getD k 0 = l.getD (if k < m then k else k + 1) 0 := by
  rw [List.getD_eq_getElem?_getD, List.getD_eq_getElem?_getD, List.getElem?_eraseIdx]
  split <;> rfl

theorem FactorsTendTo.eraseIdx {l : Filter ℕ} {gs : ℕ → List (NDArray ℝ)} {fs : List (NDArray ℝ)} {sizes : List ℕ} {R : ℕ}
    (h : FactorsTendTo l gs fs sizes R) {m : ℕ} (hm : m < sizes.length) :
    FactorsTendTo l (fun j => (gs j).eraseIdx m) (fs.eraseIdx m) (sizes.eraseIdx m) R := by
  intro k hk i hi r hr
  simp only [modeMat_eraseIdx]
  rw [getD_eraseIdx'] at hi
  rw [List.length_eraseIdx_of_lt hm] at hk
  refine h _ ?_ i hi r hr
  split <;> omega

/-- Inner products of the rank-one terms of all modes but `m`. -/
def restGram (sizes : List ℕ) (fs : List (NDArray ℝ)) (R m : ℕ) : Matrix (Fin R) (Fin R) ℝ :=
  Matrix.of fun q r => sumIdx (sizes.eraseIdx m) fun idx => rankOne (fs.eraseIdx m) idx q * rankOne (fs.eraseIdx m) idx r

theorem restGram_det {sizes : List ℕ} {fs : List (NDArray ℝ)} {R m : ℕ} (hm : m < sizes.length)
    (h : Independent sizes fs R) : (restGram sizes fs R m).det ≠ 0 := by
  intro hdet
  obtain ⟨v, hv0, hv⟩ := Matrix.exists_mulVec_eq_zero_iff.2 hdet
  apply hv0
  set v' : ℕ → ℝ := fun r => if hr : r < R then v ⟨r, hr⟩ else 0 with hv'
  have hvr : ∀ r : Fin R, v' r = v r := fun r => by simp [hv']
  have hsq : (sumIdx (sizes.eraseIdx m) fun idx => (∑ r ∈ Finset.range R, v' r * rankOne (fs.eraseIdx m) idx r) ^ 2) = 0 := by
    have h1 : (sumIdx (sizes.eraseIdx m) fun idx => (∑ r ∈ Finset.range R, v' r * rankOne (fs.eraseIdx m) idx r) ^ 2) =
        ∑ q : Fin R, v q * ((restGram sizes fs R m).mulVec v) q := by
      simp only [Matrix.mulVec, dotProduct, restGram, Matrix.of_apply, Finset.mul_sum, sumIdx_mul, mul_sumIdx]
      rw [← sumIdx_congr (f := fun idx => ∑ q : Fin R, ∑ r : Fin R, v q * (rankOne (fs.eraseIdx m) idx q *
        rankOne (fs.eraseIdx m) idx r * v r)) fun idx _ => ?_]
      · rw [sumIdx_sum]
        exact Finset.sum_congr rfl fun q _ => sumIdx_sum _ _ _
      · rw [Finset.sum_range, sq, Finset.sum_mul_sum]
        refine Finset.sum_congr rfl fun q _ => Finset.sum_congr rfl fun r _ => ?_
        rw [hvr, hvr]; ring
    rw [h1, hv]; simp
  have h2 := (sumSq_eq_zero_iff (f := fun idx => ∑ r ∈ Finset.range R, v' r * rankOne (fs.eraseIdx m) idx r)).1 hsq
  have h3 := h m hm v' h2
  funext r
  rw [← hvr r]
  exact h3 r r.2

/-- If the other matrices and the model converge, and the rank-one terms of the other modes are independent in the limit, then
the remaining matrix converges too. -/
theorem factor_recovered {l : Filter ℕ} {gs : ℕ → List (NDArray ℝ)} {fs : List (NDArray ℝ)} {sizes : List ℕ} {R m : ℕ}
    (h : FactorsTendTo l gs fs sizes R) (hg : ∀ j, (gs j).length = sizes.length) (hf : fs.length = sizes.length)
    (hm : m < sizes.length) (hI : Independent sizes fs R) {F : ℕ → NDArray ℝ}
    (hc : ∀ idx, Valid sizes idx → Tendsto (fun j => cpEntry (fun _ => 1) ((gs j).set m (F j)) R idx) l
      (𝓝 (cpEntry (fun _ => 1) fs R idx))) :
    FactorsTendTo l (fun j => (gs j).set m (F j)) fs sizes R := by
  intro k hk i hi r hr
  by_cases hkm : k ≠ m
  · refine Tendsto.congr (fun j => ?_) (h k hk i hi r hr)
    rw [modeMat_set_ne hkm]
  obtain rfl : k = m := not_not.1 hkm
  have hfun : (fun j => (modeMat ((gs j).set k (F j)) k).get [i, r]) = fun j => (F j).get [i, r] :=
    funext fun j => by rw [modeMat_set_self ((hg j).symm ▸ hk)]
  rw [hfun]
  have hlen : (sizes.eraseIdx k).length + 1 = sizes.length := by rw [List.length_eraseIdx_of_lt hk]; omega
  have hrk : ∀ idx, Valid (sizes.eraseIdx k) idx → ∀ q < R, Tendsto (fun j => rankOne ((gs j).eraseIdx k) idx q) l
      (𝓝 (rankOne (fs.eraseIdx k) idx q)) := fun idx hidx q hq =>
    tendsto_rankOne (h.eraseIdx hk)
      (fun j => by rw [List.length_eraseIdx_of_lt ((hg j).symm ▸ hk), List.length_eraseIdx_of_lt hk, hg j])
      (by rw [List.length_eraseIdx_of_lt (hf.symm ▸ hk), List.length_eraseIdx_of_lt hk, hf]) hidx hq
  have hG : Tendsto (fun j => restGram sizes (gs j) R k) l (𝓝 (restGram sizes fs R k)) := by
    refine tendsto_pi_nhds.2 fun a => tendsto_pi_nhds.2 fun b => ?_
    exact tendsto_sumIdx fun idx hidx => (hrk idx hidx a a.2).mul (hrk idx hidx b b.2)
  have hv : ∀ idx, Valid (sizes.eraseIdx k) idx → Valid sizes (idx.insertIdx k i) := by
    intro idx hidx
    have := hidx.insertIdx (n := k) (i := i) (m := sizes.getD k 0) (by omega) hi
    rwa [insertIdx_eraseIdx_getD hk] at this
  -- the right hand sides of the normal equations
  have key : ∀ (gs : List (NDArray ℝ)) (F : NDArray ℝ), gs.length = sizes.length →
      (fun r : Fin R => sumIdx (sizes.eraseIdx k) fun idx =>
        cpEntry (fun _ => (1 : ℝ)) (gs.set k F) R (idx.insertIdx k i) * rankOne (gs.eraseIdx k) idx r) =
      Matrix.vecMul (fun q : Fin R => F.get [i, (q : ℕ)]) (restGram sizes gs R k) := by
    intro gs F hl
    funext r
    simp only [Matrix.vecMul, dotProduct, restGram, Matrix.of_apply, mul_sumIdx]
    rw [← sumIdx_sum]
    refine sumIdx_congr fun idx hidx => ?_
    have hk' : k < (gs.set k F).length := by rw [List.length_set, hl]; exact hk
    rw [cpEntry_insertIdx _ hk' (by rw [List.length_set, hl, hidx.length_eq]; exact hlen), List.getElem_set_self,
      List.eraseIdx_set_eq, Finset.sum_range, Finset.sum_mul]
    exact Finset.sum_congr rfl fun q _ => by ring
  have hb : Tendsto (fun j => Matrix.vecMul (fun q : Fin R => (F j).get [i, (q : ℕ)]) (restGram sizes (gs j) R k)) l
      (𝓝 (Matrix.vecMul (fun q : Fin R => (modeMat fs k).get [i, (q : ℕ)]) (restGram sizes fs R k))) := by
    have hset : fs.set k (modeMat fs k) = fs := by rw [modeMat_eq (hf.symm ▸ hk)]; exact List.set_getElem_self _
    rw [← key fs _ hf, hset]
    simp only [← key _ _ (hg _)]
    rw [tendsto_pi_nhds]; intro q
    exact tendsto_sumIdx fun idx hidx => (hc _ (hv idx hidx)).mul (hrk idx hidx q q.2)
  have hdet := restGram_det hk hI
  have hcramer : ∀ (G : Matrix (Fin R) (Fin R) ℝ) (z : Fin R → ℝ), G.det ≠ 0 →
      (G.det)⁻¹ • Matrix.vecMul (Matrix.vecMul z G) G.adjugate = z := by
    intro G z hG0
    rw [Matrix.vecMul_vecMul, Matrix.mul_adjugate, Matrix.vecMul_smul, Matrix.vecMul_one, smul_smul, inv_mul_cancel₀ hG0, one_smul]
  have hdetT : Tendsto (fun j => (restGram sizes (gs j) R k).det) l (𝓝 (restGram sizes fs R k).det) :=
    ((continuous_id.matrix_det).tendsto _).comp hG
  have hadj : Tendsto (fun j => (restGram sizes (gs j) R k).adjugate) l (𝓝 (restGram sizes fs R k).adjugate) :=
    ((continuous_id.matrix_adjugate).tendsto _).comp hG
  have hmul : Tendsto (fun j => ((restGram sizes (gs j) R k).det)⁻¹ • Matrix.vecMul
      (Matrix.vecMul (fun q : Fin R => (F j).get [i, (q : ℕ)]) (restGram sizes (gs j) R k)) (restGram sizes (gs j) R k).adjugate) l
      (𝓝 (((restGram sizes fs R k).det)⁻¹ • Matrix.vecMul
      (Matrix.vecMul (fun q : Fin R => (modeMat fs k).get [i, (q : ℕ)]) (restGram sizes fs R k)) (restGram sizes fs R k).adjugate)) := by
    refine (hdetT.inv₀ hdet).smul ?_
    rw [tendsto_pi_nhds]; intro q
    have hsum := tendsto_finsetSum Finset.univ fun (p : Fin R) _ => ((tendsto_pi_nhds.1 hb p).mul (tendsto_pi_nhds.1 (tendsto_pi_nhds.1 hadj p) q))
    exact hsum
  rw [hcramer _ _ hdet] at hmul
  have hev : ∀ᶠ j in l, (restGram sizes (gs j) R k).det ≠ 0 := hdetT.eventually_ne hdet
  have h5 := tendsto_pi_nhds.1 hmul ⟨r, hr⟩
  refine h5.congr' ?_
  filter_upwards [hev] with j hj
  rw [hcramer _ _ hj]

/-- If the matrices before and after each update of the sweeps tend to the same limit, the limit is optimal for each mode. -/
theorem blockOptimal_of_limit {X : NDArray ℝ} {R : ℕ} {l : Filter ℕ} [l.NeBot] {G : ℕ → ℕ → List (NDArray ℝ)}
    (hS : ∀ j, Sweep X R (G j)) {fs : List (NDArray ℝ)} (hf : fs.length = X.shape.length)
    (h : ∀ m ≤ X.shape.length, FactorsTendTo l (fun j => G j m) fs X.shape R) : BlockOptimal X fs R := by
  intro m hm Y hY
  have h1 := tendsto_sqErr (h (m + 1) hm) (fun j => (hS j).len _ hm) hf fun _ => 1
  have h2 := tendsto_sqErr ((h m hm.le).set (fun j => (hS j).len _ hm.le) hf m Y)
    (fun j => by rw [List.length_set]; exact (hS j).len _ hm.le) (by rw [List.length_set]; exact hf) fun _ => 1
  refine le_of_tendsto_of_tendsto' h1 h2 fun j => ?_
  obtain ⟨F, -, opt⟩ := (hS j).step m hm
  exact opt Y hY

/-- Limits of consecutive sweeps are optimal for each mode. -/
theorem blockOptimal_of_tendsto {X : NDArray ℝ} {R : ℕ} {G : ℕ → ℕ → List (NDArray ℝ)} (hS : ∀ j, Sweep X R (G j))
    (hnext : ∀ j, G j X.shape.length = G (j + 1) 0) {fs : List (NDArray ℝ)} (hf : fs.length = X.shape.length)
    (h : FactorsTendTo atTop (fun j => G j 0) fs X.shape R) : BlockOptimal X fs R := by
  refine blockOptimal_of_limit (l := atTop) hS hf fun m hm k hk i hi r hr => ?_
  by_cases hkm : k < m
  · have := (h k hk i hi r hr).comp (tendsto_add_atTop_nat 1)
    refine this.congr fun j => ?_
    rw [(hS j).after (n := X.shape.length - m) (by omega) hkm, hnext j]
    rfl
  · refine (h k hk i hi r hr).congr fun j => ?_
    rw [(hS j).before hm (not_lt.1 hkm)]

/-- Consecutive sweeps move the model less and less. -/
theorem tendsto_modelDist {X : NDArray ℝ} {R : ℕ} {G : ℕ → ℕ → List (NDArray ℝ)} (hS : ∀ j, Sweep X R (G j))
    (hnext : ∀ j, G j X.shape.length = G (j + 1) 0) {m : ℕ} (hm : m < X.shape.length) :
    Tendsto (fun j => modelDist X.shape (G j m) (G j (m + 1)) R) atTop (𝓝 0) := by
  set e : ℕ → ℝ := fun j => sqErr X (fun _ => 1) (G j 0) R with he
  have h0 : ∀ fs gs : List (NDArray ℝ), 0 ≤ modelDist X.shape fs gs R := fun _ _ => sumIdx_nonneg fun _ _ => sq_nonneg _
  have hle : ∀ j, modelDist X.shape (G j m) (G j (m + 1)) R ≤ e j - e (j + 1) := by
    intro j
    have h1 : e j - e (j + 1) = ∑ k ∈ Finset.range X.shape.length, modelDist X.shape (G j k) (G j (k + 1)) R := by
      rw [Finset.sum_congr rfl fun k hk => (hS j).dist (Finset.mem_range.1 hk), Finset.sum_range_sub', hnext j]
    rw [h1]
    exact Finset.single_le_sum (f := fun k => modelDist X.shape (G j k) (G j (k + 1)) R) (fun k _ => h0 _ _) (Finset.mem_range.2 hm)
  have hanti : Antitone e := antitone_nat_of_succ_le fun j => by linarith [hle j, h0 (G j m) (G j (m + 1))]
  have hbdd : BddBelow (Set.range e) := ⟨0, by rintro _ ⟨j, rfl⟩; exact sumIdx_nonneg fun _ _ => sq_nonneg _⟩
  have hlim := tendsto_atTop_ciInf hanti hbdd
  have h2 := hlim.sub (hlim.comp (tendsto_add_atTop_nat 1))
  rw [sub_self] at h2
  exact squeeze_zero (fun j => h0 _ _) hle h2

theorem tendsto_of_sumIdx_sq {l : Filter ℕ} : ∀ {s : List ℕ} {f : ℕ → List ℕ → ℝ},
    Tendsto (fun j => sumIdx s fun idx => f j idx ^ 2) l (𝓝 0) → ∀ idx, Valid s idx → Tendsto (fun j => f j idx) l (𝓝 0)
  | [], f, h, [], _ => by
    rw [tendsto_zero_iff_abs_tendsto_zero]
    have := (Real.continuous_sqrt.tendsto 0).comp h
    rw [Real.sqrt_zero] at this
    refine this.congr fun j => ?_
    exact Real.sqrt_sq_eq_abs _
  | _ :: s, f, h, i :: idx, hidx => by
    refine tendsto_of_sumIdx_sq (s := s) (f := fun j idx => f j (i :: idx)) ?_ idx hidx.2
    refine squeeze_zero (fun j => sumIdx_nonneg fun _ _ => sq_nonneg _) (fun j => ?_) h
    exact Finset.single_le_sum (f := fun i => sumIdx s fun idx => f j (i :: idx) ^ 2)
      (fun i _ => sumIdx_nonneg fun _ _ => sq_nonneg _) (Finset.mem_range.2 hidx.1)

/-- Accumulation points of consecutive sweeps at which the rank-one terms are independent are optimal for each mode. -/
theorem blockOptimal_of_cluster {X : NDArray ℝ} {R : ℕ} {G : ℕ → ℕ → List (NDArray ℝ)} (hS : ∀ j, Sweep X R (G j))
    (hnext : ∀ j, G j X.shape.length = G (j + 1) 0) {fs : List (NDArray ℝ)} (hf : fs.length = X.shape.length)
    {φ : ℕ → ℕ} (hφ : StrictMono φ) (h : FactorsTendTo atTop (fun j => G (φ j) 0) fs X.shape R)
    (hI : Independent X.shape fs R) : BlockOptimal X fs R := by
  refine blockOptimal_of_limit (l := atTop) (G := fun j => G (φ j)) (fun j => hS (φ j)) hf fun m => ?_
  induction m with
  | zero => exact fun _ => h
  | succ m ih =>
    intro hm
    have hm' : m < X.shape.length := hm
    have h1 := ih hm'.le
    have hex : ∀ j, ∃ F, G (φ j) (m + 1) = (G (φ j) m).set m F := fun j => by
      obtain ⟨F, e, -⟩ := (hS (φ j)).step m hm'
      exact ⟨F, e⟩
    choose F hF using hex
    have hd := (tendsto_modelDist hS hnext hm').comp hφ.tendsto_atTop
    have hfun : (fun j => G (φ j) (m + 1)) = fun j => (G (φ j) m).set m (F j) := funext hF
    rw [hfun]
    refine factor_recovered h1 (fun j => (hS (φ j)).len _ hm'.le) hf hm' hI fun idx hidx => ?_
    have h2 := tendsto_of_sumIdx_sq hd idx hidx
    have h3 := tendsto_cpEntry h1 (fun j => (hS (φ j)).len _ hm'.le) hf (fun _ => 1) hidx
    have h4 := h3.sub h2
    rw [sub_zero] at h4
    refine h4.congr fun j => ?_
    rw [← hF j]; simp

end
end TK
