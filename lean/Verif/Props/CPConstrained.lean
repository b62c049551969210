import Verif.Props.CP
import Mathlib.LinearAlgebra.Matrix.Determinant.Basic
import Mathlib.Tactic.LinearCombination

/-!
# Properties of `CP_ALS` with penalties and constraints: C37-C39

The constrained updates solve `min ‖Y V - M‖` with `V = KᵀK`, `M = X_(m) K` (the normal equations) instead of
`min ‖Y Kᵀ - X_(m)‖`. For each kind of update there is a theorem on what holds (when the normal equations lead
to the same minimiser) and a witness on which the loss increases.
-/

namespace TK
open NDArray Matrix

noncomputable section

/-- The Khatri-Rao product of all factor matrices but `m`. -/
def CPState.krp (s : CPState) (m R : ℕ) : NDArray ℝ :=
  krMat (s.dec.factorMatrices.eraseIdx m) (s.X.shape.eraseIdx m) R

/-- Entry `(a, b)` of `KᵀK`, written as the sum over all multi-indices of the other modes. -/
def CPState.gram (s : CPState) (m a b : ℕ) : ℝ :=
  sumIdx (s.X.shape.eraseIdx m) fun idx =>
    rankOne (s.dec.factorMatrices.eraseIdx m) idx a * rankOne (s.dec.factorMatrices.eraseIdx m) idx b

theorem trueSSE_updated {s : CPState} {R m : ℕ} (h : s.Sized R) (hm : m < s.X.shape.length)
    (hw : ∀ r < R, s.dec.weights.get [r] = 1) {Z : NDArray ℝ} (hZ : Z.shape = [s.X.shape.getD m 0, R]) :
    (s.updated m R Z).trueSSE R
      = LA.fsq (mat Z (s.X.shape.getD m 0) R * (mat (s.krp m R) (s.X.shape.eraseIdx m).prod R)ᵀ
        - mat (unfoldMat s.X m) (s.X.shape.getD m 0) (s.X.shape.eraseIdx m).prod) := by
  have hf := h.wf.factors
  have hm' : m < s.dec.factorMatrices.length := by rw [hf.length_eq]; exact hm
  rw [CPState.trueSSE, sqErr_congr_weights (w := fun r => (s.updated m R Z).dec.weights.get [r])
      (w' := fun _ => 1) (fun r hr => hw r hr)]
  have hfZ : Factors (s.updated m R Z).dec.factorMatrices (s.updated m R Z).X.shape R := factors_set hf hZ
  rw [sqErr_eq hfZ (k := m) (by simpa [CPState.updated] using hm')]
  simp only [CPState.updated, List.getElem_set_self, eraseIdx_set_self]
  rw [resid_eq, mat_T (A := krMat _ _ _) (shape_ofMat _ _ _)]
  rfl

theorem trueSSE_self {s : CPState} {R m : ℕ} (hm : m < s.dec.factorMatrices.length) :
    (s.updated m R (s.dec.factorMatrices[m])).trueSSE R = s.trueSSE R := by
  simp [CPState.updated, CPState.trueSSE]

theorem mat_gramProd {s : CPState} {R m : ℕ} (h : s.Sized R) :
    mat (ofMat R R fun a b => gramProd (s.dec.factorMatrices.eraseIdx m) a b) R R
      = (mat (s.krp m R) (s.X.shape.eraseIdx m).prod R)ᵀ * mat (s.krp m R) (s.X.shape.eraseIdx m).prod R := by
  apply mat_gram
  intro a ha b hb
  rw [get_ofMat ha hb, ← krMat_gram (h.wf.factors.eraseIdx m) ha hb]
  rfl

theorem gram_eq {s : CPState} {R m a b : ℕ} (h : s.Sized R) :
    s.gram m a b = gramProd (s.dec.factorMatrices.eraseIdx m) a b :=
  sumIdx_rankOne_mul (h.wf.factors.eraseIdx m) a b

/-- Expansion of the loss through the normal equations. -/
theorem fsq_normal {n k q : ℕ} (Z : Matrix (Fin n) (Fin k) ℝ) (K : Matrix (Fin q) (Fin k) ℝ)
    (U : Matrix (Fin n) (Fin q) ℝ) :
    LA.fsq (Z * Kᵀ - U) = LA.fip (Z * (Kᵀ * K)) Z - 2 * LA.fip Z (U * K) + LA.fsq U := by
  rw [LA.fsq_sub, LA.fsq_eq_fip (Z * Kᵀ), LA.fip_mul_left, LA.fip_mul_left, transpose_transpose, Matrix.mul_assoc,
    LA.fip_comm Z]

/-! ### C37 -/

/-- The documented loss `‖X - X̂‖² + Σ_i l_i ‖U_i‖²`. -/
def ridgeLoss (X : NDArray ℝ) (w : ℕ → ℝ) (fs : List (NDArray ℝ)) (R : ℕ) (penalties : List ℝ) : ℝ :=
  sqErr X w fs R + (List.zipWith (fun l (F : NDArray ℝ) => l * normSq F (F.shape.getD 0 0) R) penalties fs).sum

theorem addPenalties_eq {R : ℕ} : ∀ {ps : List ℝ} {fs : List (NDArray ℝ)} {sizes : List ℕ} (x : ℝ),
    Factors fs sizes R → CP.addPenalties ps fs x
      = x + (List.zipWith (fun l (F : NDArray ℝ) => l * normSq F (F.shape.getD 0 0) R) ps fs).sum
  | [], _, _, x, _ => by simp [CP.addPenalties]
  | l :: ps, [], _, x, _ => by simp [CP.addPenalties]
  | l :: ps, F :: fs, sizes, x, h => by
    cases h with
    | @cons _ n _ sizes hF h =>
      rw [CP.addPenalties, addPenalties_eq _ h, List.zipWith_cons_cons, List.sum_cons, frobNorm_sq, hF]
      simp [normSq, add_assoc]

/-- C37: the attribute `loss` is the documented loss. -/
theorem C37_loss {o : CPOpts} {s : CPState} (h : s.Sized o.rank) (hc : s.Cached o.rank) {ps : List ℝ}
    (hp : o.ridgePenalties = some ps) :
    CP.loss o s = .ok (ridgeLoss s.X (fun r => s.dec.weights.get [r]) s.dec.factorMatrices o.rank ps) := by
  rw [CP.loss, C35_sse h hc, bind_ok, hp]
  simp only
  rw [addPenalties_eq _ h.wf.factors]; rfl

/-- C37, the part that holds: if the columns of the Khatri-Rao product of the other factors are orthonormal,
the ridge update of a mode minimises the documented loss in that factor. (`‖·‖²` of the other factors does not
change.) Missing: the claim for other states; it is false, see `C37_ridge_increases`. -/
theorem C37_ridge_partial {E : Ext} (hE : E.SVDOk) {o : CPOpts} {s : CPState} {m : ℕ} {l : ℝ} (h : s.Sized o.rank)
    (hm : m < s.X.shape.length) (hw : ∀ r < o.rank, s.dec.weights.get [r] = 1) (hl : 0 ≤ l)
    (hc : s.ModeConfig o m false false (some l))
    (hV : ∀ a < o.rank, ∀ b < o.rank, s.gram m a b = if a = b then 1 else 0) :
    ∃ F, F.shape = [s.X.shape.getD m 0, o.rank] ∧ CP.updateFactor E o m s = .ok (s.updated m o.rank F) ∧
      ∀ Y : NDArray ℝ, Y.shape = [s.X.shape.getD m 0, o.rank] →
        (s.updated m o.rank F).trueSSE o.rank + l * normSq F (s.X.shape.getD m 0) o.rank
          ≤ (s.updated m o.rank Y).trueSSE o.rank + l * normSq Y (s.X.shape.getD m 0) o.rank := by
  set R := o.rank
  obtain ⟨F, e, hF, hopt, -⟩ := C12_ridge hE hl
    (A := ofMat R R fun a b => gramProd (s.dec.factorMatrices.eraseIdx m) a b)
    (B := mttkrpMat s.X s.dec.factorMatrices m R) (shape_ofMat _ _ _) (shape_ofMat _ _ _)
  refine ⟨F, hF, updateFactor_ok h.wf.factors h.order hm (h.dim hm) (getSolve_ok hc (by simp)) e hF, fun Y hY => ?_⟩
  have hVm : mat (ofMat R R fun a b => gramProd (s.dec.factorMatrices.eraseIdx m) a b) R R = 1 := by
    ext a b
    rw [mat_ofMat, ← gram_eq h, hV a a.2 b b.2, Matrix.one_apply]
    simp [Fin.ext_iff]
  have h1 := hopt Y
  rw [resid_eq, resid_eq, hVm, Matrix.mul_one, Matrix.mul_one] at h1
  have key : ∀ Z : NDArray ℝ, Z.shape = [s.X.shape.getD m 0, R] → (s.updated m R Z).trueSSE R
      = LA.fsq (mat Z (s.X.shape.getD m 0) R - mat (mttkrpMat s.X s.dec.factorMatrices m R) (s.X.shape.getD m 0) R)
        - LA.fsq (mat (mttkrpMat s.X s.dec.factorMatrices m R) (s.X.shape.getD m 0) R)
        + LA.fsq (mat (unfoldMat s.X m) (s.X.shape.getD m 0) (s.X.shape.eraseIdx m).prod) := by
    intro Z hZ
    rw [trueSSE_updated h hm hw hZ, fsq_normal, ← mat_gramProd h, hVm, Matrix.mul_one, mat_mttkrp, LA.fsq_sub,
      ← LA.fsq_eq_fip]
    unfold CPState.krp
    ring
  rw [key F hF, key Y hY]
  linarith

/-- The witness for C37: `X = [[5]]`, factors `[[2]]` and `[[2]]`, penalties 1 and 1. -/
def ridgeWitness : CPState where
  X := ofMat 1 1 fun _ _ => 5
  XNorm := frobNorm (ofMat 1 1 fun _ _ => (5 : ℝ))
  dec := ⟨1, [ofMat 1 1 fun _ _ => 2, ofMat 1 1 fun _ _ => 2], full [1] 1⟩
  nonNeg := some [false, false]
  orth := some [false, false]
  lastMode := none
  cache := none
  relChange := .pinf
  prevSSE := 1

theorem ridgeWitness_sized : ridgeWitness.Sized 1 :=
  ⟨⟨rfl, by simp [Factors, ridgeWitness], rfl⟩, by simp [ridgeWitness], by simp [ridgeWitness]⟩

theorem ridgeWitness_cached : ridgeWitness.Cached 1 :=
  ⟨by simp only [ridgeWitness, frobNorm, sum_data], by simp [ridgeWitness]⟩

/-- C37 is violated: from `ridgeWitness` the update of mode 0 with penalties `[1, 1]` always increases the
documented loss (from 9 to `4 + 1625/289 ≈ 9.62`). -/
theorem C37_ridge_increases {E : Ext} (hE : E.SVDOk) :
    ∃ s' L L', CP.updateFactor E ⟨1, 0, 0, some [1, 1]⟩ 0 ridgeWitness = .ok s' ∧
      CP.loss ⟨1, 0, 0, some [1, 1]⟩ ridgeWitness = .ok L ∧ CP.loss ⟨1, 0, 0, some [1, 1]⟩ s' = .ok L' ∧ L < L' := by
  set o : CPOpts := ⟨1, 0, 0, some [1, 1]⟩ with ho
  set s := ridgeWitness with hs
  have hS : s.Sized o.rank := ridgeWitness_sized
  have hC : s.Cached o.rank := ridgeWitness_cached
  have hm : 0 < s.X.shape.length := by simp [hs, ridgeWitness]
  have hc : s.ModeConfig o 0 false false (some 1) :=
    ⟨⟨_, rfl, rfl⟩, ⟨_, rfl, rfl⟩, Or.inr ⟨_, _, rfl, rfl, rfl⟩⟩
  obtain ⟨F, e, hF, hopt, -⟩ := C12_ridge hE (l := 1) zero_le_one
    (A := ofMat 1 1 fun a b => gramProd (s.dec.factorMatrices.eraseIdx 0) a b)
    (B := mttkrpMat s.X s.dec.factorMatrices 0 1) (m := 1) (n := 1) (p := 1) (shape_ofMat _ _ _) rfl
  have hu : CP.updateFactor E o 0 s = .ok (s.updated 0 1 F) :=
    updateFactor_ok hS.wf.factors hS.order hm (hS.dim hm) (getSolve_ok hc (by simp)) e hF
  obtain ⟨hS', hC'⟩ := C35_update hS hC hm hu
  refine ⟨_, _, _, hu, C37_loss hS hC rfl, C37_loss hS' hC' rfl, ?_⟩
  -- the new entry is 40/17
  have hget : ∀ y : ℝ, (ofMat 1 1 fun _ _ => y).get [0, 0] = y := fun y => get_ofMat (by omega) (by omega)
  have hV : (ofMat 1 1 fun a b => gramProd (s.dec.factorMatrices.eraseIdx 0) a b).get [0, 0] = 4 := by
    rw [get_ofMat (by omega) (by omega)]
    simp [gramProd, gramEntry, hs, ridgeWitness, hget]; norm_num
  have hM : (mttkrpMat s.X s.dec.factorMatrices 0 1).get [0, 0] = 10 := by
    rw [mttkrpMat, get_ofMat (by simp [hs, ridgeWitness]) (by omega)]
    simp [mttkrpEntry, rankOne, hs, ridgeWitness, hget]; norm_num
  have h1 := hopt (ofMat 1 1 fun _ _ => 40 / 17)
  simp only [resid, normSq, Finset.sum_range_one, hV, hM, hget] at h1
  have hy : F.get [0, 0] = 40 / 17 := by
    have h2 : (F.get [0, 0] - 40 / 17) ^ 2 ≤ 0 := by nlinarith
    have h3 := pow_eq_zero_iff (two_ne_zero) |>.1 (le_antisymm h2 (sq_nonneg _))
    linarith
  simp only [ridgeLoss, sqErr, cpEntry, ho, CPState.updated, hs, ridgeWitness, normSq]
  simp [rankOne, hget, hy, hF]
  norm_num

/-! ### C38 -/

/-- C38, the part that holds: if the columns of the Khatri-Rao product of the other factors are orthogonal
(in particular for rank 1), the non-negative update of a mode minimises the sum of squared errors over all
non-negative values of the factor. Missing: the claim for other states; it is false, see
`C38_nonneg_increases`. -/
theorem C38_nonneg_partial {E : Ext} (hN : E.NNLSOk) {o : CPOpts} {s : CPState} {m : ℕ} (h : s.Sized o.rank)
    (hm : m < s.X.shape.length) (hw : ∀ r < o.rank, s.dec.weights.get [r] = 1)
    (hc : s.ModeConfig o m true false none)
    (hV : ∀ a < o.rank, ∀ b < o.rank, a ≠ b → s.gram m a b = 0) :
    ∃ F, F.shape = [s.X.shape.getD m 0, o.rank] ∧ CP.updateFactor E o m s = .ok (s.updated m o.rank F) ∧
      NonNeg F (s.X.shape.getD m 0) o.rank ∧
      ∀ Y : NDArray ℝ, Y.shape = [s.X.shape.getD m 0, o.rank] → NonNeg Y (s.X.shape.getD m 0) o.rank →
        (s.updated m o.rank F).trueSSE o.rank ≤ (s.updated m o.rank Y).trueSSE o.rank := by
  set R := o.rank
  set n := s.X.shape.getD m 0 with hn
  set M := mttkrpMat s.X s.dec.factorMatrices m R with hM
  set V := ofMat R R fun a b => gramProd (s.dec.factorMatrices.eraseIdx m) a b with hVd
  obtain ⟨F, e, hF, hFn, hopt⟩ := nonneg_core hN (A := V) (B := M) (m := R) (n := R) (p := n) rfl rfl
  refine ⟨F, hF, updateFactor_ok h.wf.factors h.order hm (h.dim hm) (getSolve_ok hc (by simp)) e hF, hFn,
    fun Y hY hYn => ?_⟩
  set d : ℕ → ℝ := fun r => s.gram m r r with hd
  have hVg : ∀ a < R, ∀ b < R, V.get [a, b] = if a = b then d b else 0 := by
    intro a ha b hb
    rw [hVd, get_ofMat ha hb, ← gram_eq h]
    split
    · next hab => rw [hab]
    · next hab => exact hV a ha b hb hab
  -- the residual of the normal equations
  have hres : ∀ Z : NDArray ℝ, resid Z V M n R R
      = ∑ i ∈ Finset.range n, ∑ r ∈ Finset.range R, (Z.get [i, r] * d r - M.get [i, r]) ^ 2 := by
    intro Z
    refine Finset.sum_congr rfl fun i hi => Finset.sum_congr rfl fun r hr => ?_
    congr 2
    rw [Finset.sum_eq_single_of_mem r hr]
    · rw [hVg r (by simpa using hr) r (by simpa using hr), if_pos rfl]
    · intro a ha har
      rw [hVg a (by simpa using ha) r (by simpa using hr), if_neg har, mul_zero]
  -- entrywise optimality
  have hent : ∀ i < n, ∀ r < R, ∀ y, 0 ≤ y →
      (F.get [i, r] * d r - M.get [i, r]) ^ 2 ≤ (y * d r - M.get [i, r]) ^ 2 := by
    intro i hi r hr y hy
    have h1 := hopt (ofMat n R fun a b => if a = i ∧ b = r then y else F.get [a, b]) (by
      intro a ha b hb
      rw [get_ofMat ha hb]
      split
      · exact hy
      · exact hFn a ha b hb)
    rw [hres, hres] at h1
    have h2 : ∀ a ∈ Finset.range n, ∑ b ∈ Finset.range R,
        ((ofMat n R fun a b => if a = i ∧ b = r then y else F.get [a, b]).get [a, b] * d b - M.get [a, b]) ^ 2
        = ∑ b ∈ Finset.range R, (F.get [a, b] * d b - M.get [a, b]) ^ 2 + if a = i then
          (y * d r - M.get [i, r]) ^ 2 - (F.get [i, r] * d r - M.get [i, r]) ^ 2 else 0 := by
      intro a ha
      have ha : a < n := by simpa using ha
      split
      · next hai =>
        subst hai
        rw [← sub_eq_iff_eq_add', ← Finset.sum_sub_distrib, Finset.sum_eq_single_of_mem r (by simpa using hr)]
        · rw [get_ofMat ha hr]; simp
        · intro b hb hbr
          rw [get_ofMat ha (by simpa using hb)]; simp [hbr]
      · next hai =>
        rw [add_zero]
        refine Finset.sum_congr rfl fun b hb => ?_
        rw [get_ofMat ha (by simpa using hb)]; simp [hai]
    rw [Finset.sum_congr rfl h2, Finset.sum_add_distrib, Finset.sum_ite_eq' (Finset.range n) i,
      if_pos (by simpa using hi)] at h1
    linarith
  -- the loss
  have hloss : ∀ Z : NDArray ℝ, Z.shape = [n, R] → (s.updated m R Z).trueSSE R
      = (∑ i ∈ Finset.range n, ∑ r ∈ Finset.range R, (Z.get [i, r] ^ 2 * d r - 2 * (Z.get [i, r] * M.get [i, r])))
        + LA.fsq (mat (unfoldMat s.X m) n (s.X.shape.eraseIdx m).prod) := by
    intro Z hZ
    rw [trueSSE_updated h hm hw hZ, fsq_normal, ← mat_gramProd h]
    congr 1
    unfold CPState.krp
    rw [← mat_mttkrp]
    simp only [LA.fip]
    rw [Finset.sum_range, Finset.mul_sum, ← Finset.sum_sub_distrib]
    refine Finset.sum_congr rfl fun i _ => ?_
    rw [Finset.sum_range, Finset.mul_sum, ← Finset.sum_sub_distrib]
    refine Finset.sum_congr rfl fun r _ => ?_
    have e1 : (mat Z n R * mat V R R) i r = Z.get [(i : ℕ), (r : ℕ)] * d r := by
      rw [mul_apply, Finset.sum_eq_single r]
      · simp only [mat]; rw [hVg r r.2 r r.2, if_pos rfl]
      · intro a _ har
        simp only [mat]
        rw [hVg a a.2 r r.2, if_neg (fun h => har (Fin.ext h)), mul_zero]
      · simp
    rw [e1]
    simp only [mat]
    ring
  rw [hloss F hF, hloss Y hY]
  refine add_le_add ?_ le_rfl
  refine Finset.sum_le_sum fun i hi => Finset.sum_le_sum fun r hr => ?_
  have hi : i < n := by simpa using hi
  have hr : r < R := by simpa using hr
  have hd0 : 0 ≤ d r := sumIdx_nonneg fun _ _ => mul_self_nonneg _
  rcases hd0.eq_or_lt with h0 | h0
  · -- column `r` of the Khatri-Rao product vanishes
    have hz : ∀ idx, Valid (s.X.shape.eraseIdx m) idx → rankOne (s.dec.factorMatrices.eraseIdx m) idx r = 0 := by
      have h1 : (sumIdx (s.X.shape.eraseIdx m) fun idx =>
          rankOne (s.dec.factorMatrices.eraseIdx m) idx r * rankOne (s.dec.factorMatrices.eraseIdx m) idx r) = 0 :=
        h0.symm
      intro idx hidx
      rw [← sum_unravel] at h1
      have h2 := (Finset.sum_eq_zero_iff_of_nonneg fun p _ => mul_self_nonneg _).1 h1
        (ravel (s.X.shape.eraseIdx m) idx) (by simpa using ravel_lt hidx)
      rw [unravel_ravel hidx] at h2
      exact mul_self_eq_zero.1 h2
    have hM0 : M.get [i, r] = 0 := by
      rw [hM, mttkrpMat, get_ofMat hi hr, mttkrpEntry, sumIdx_congr (g := fun _ => 0)]
      · exact sumIdx_zero _
      · intro idx hidx
        rw [hz idx hidx, mul_zero]
    rw [← h0, hM0]; simp
  · have h1 := hent i hi r hr _ (hYn i hi r hr)
    have h2 : d r * (F.get [i, r] ^ 2 * d r - 2 * (F.get [i, r] * M.get [i, r]))
        ≤ d r * (Y.get [i, r] ^ 2 * d r - 2 * (Y.get [i, r] * M.get [i, r])) := by nlinarith
    exact le_of_mul_le_mul_left h2 h0

/-- The witness for C38: `X = [[1, -1]]`, factors `[[1, 0]]` (non-negative) and `[[1, 1], [0, 1]]`. -/
def nonnegWitness : CPState where
  X := ofMat 1 2 fun _ j => if j = 0 then 1 else -1
  XNorm := frobNorm (ofMat 1 2 fun _ j => if j = 0 then (1 : ℝ) else -1)
  dec := ⟨2, [ofMat 1 2 fun _ j => if j = 0 then 1 else 0, ofMat 2 2 fun i j => if i ≤ j then 1 else 0], full [2] 1⟩
  nonNeg := some [true, false]
  orth := some [false, false]
  lastMode := none
  cache := none
  relChange := .pinf
  prevSSE := 1

theorem nonnegWitness_sized : nonnegWitness.Sized 2 :=
  ⟨⟨rfl, by simp [Factors, nonnegWitness], rfl⟩, by simp [nonnegWitness], by simp [nonnegWitness]⟩

theorem nonnegWitness_cached : nonnegWitness.Cached 2 :=
  ⟨by simp only [nonnegWitness, frobNorm, sum_data], by simp [nonnegWitness]⟩

/-- C38 is violated: from `nonnegWitness`, whose first factor is non-negative, the non-negative update of mode 0
always increases the sum of squared errors (from 1 to 1.25). -/
theorem C38_nonneg_increases {E : Ext} (hN : E.NNLSOk) :
    (∃ F, nonnegWitness.dec.factorMatrices[0]? = some F ∧ NonNeg F 1 2) ∧
    ∃ s' L L', CP.updateFactor E ⟨2, 0, 0, none⟩ 0 nonnegWitness = .ok s' ∧
      CP.sse nonnegWitness = .ok L ∧ CP.sse s' = .ok L' ∧ L < L' := by
  set o : CPOpts := ⟨2, 0, 0, none⟩ with ho
  set s := nonnegWitness with hs
  refine ⟨⟨_, rfl, fun i hi j hj => ?_⟩, ?_⟩
  · rw [get_ofMat hi hj]; split <;> norm_num
  have hS : s.Sized o.rank := nonnegWitness_sized
  have hC : s.Cached o.rank := nonnegWitness_cached
  have hm : 0 < s.X.shape.length := by simp [hs, nonnegWitness]
  have hc : s.ModeConfig o 0 true false none :=
    ⟨⟨_, rfl, rfl⟩, ⟨_, rfl, rfl⟩, Or.inl ⟨rfl, rfl⟩⟩
  obtain ⟨F, e, hF, hFn, hopt⟩ := nonneg_core hN
    (A := ofMat 2 2 fun a b => gramProd (s.dec.factorMatrices.eraseIdx 0) a b)
    (B := mttkrpMat s.X s.dec.factorMatrices 0 2) (m := 2) (n := 2) (p := 1) (shape_ofMat _ _ _) rfl
  have hu : CP.updateFactor E o 0 s = .ok (s.updated 0 2 F) :=
    updateFactor_ok hS.wf.factors hS.order hm (hS.dim hm) (getSolve_ok hc (by simp)) e hF
  obtain ⟨hS', hC'⟩ := C35_update hS hC hm hu
  refine ⟨_, _, _, hu, C35_sse hS hC, C35_sse hS' hC', ?_⟩
  have hV : ∀ a < 2, ∀ b < 2, (ofMat 2 2 fun a b => gramProd (s.dec.factorMatrices.eraseIdx 0) a b).get [a, b]
      = if a = 1 ∧ b = 1 then 2 else 1 := by
    intro a ha b hb
    rw [get_ofMat ha hb]
    interval_cases a <;> interval_cases b <;>
      simp [gramProd, gramEntry, hs, nonnegWitness, Finset.sum_range_succ] <;> norm_num
  have hM : ∀ b < 2, (mttkrpMat s.X s.dec.factorMatrices 0 2).get [0, b] = if b = 0 then 1 else 0 := by
    intro b hb
    rw [mttkrpMat, get_ofMat (by simp [hs, nonnegWitness]) hb]
    interval_cases b <;> simp [mttkrpEntry, rankOne, hs, nonnegWitness, Finset.sum_range_succ]
  obtain ⟨W, hW⟩ : ∃ W : NDArray ℝ, W = ofMat 1 2 fun _ j => if j = 0 then 1 / 2 else 0 := ⟨_, rfl⟩
  have hW0 : W.get [0, 0] = 1 / 2 := by rw [hW, get_ofMat (by omega) (by omega)]; simp
  have hW1 : W.get [0, 1] = 0 := by rw [hW, get_ofMat (by omega) (by omega)]; simp
  have h1 := hopt W (by
    intro i hi j hj
    rw [hW, get_ofMat hi hj]; split <;> norm_num)
  simp only [resid, Finset.sum_range_one, Finset.sum_range_succ, Finset.sum_range_zero, zero_add] at h1
  simp only [hW0, hW1, hV 0 (by omega) 0 (by omega), hV 0 (by omega) 1 (by omega), hV 1 (by omega) 0 (by omega),
    hV 1 (by omega) 1 (by omega), hM 0 (by omega), hM 1 (by omega)] at h1
  norm_num at h1
  have hx := hFn 0 (by omega) 0 (by omega)
  have hy := hFn 0 (by omega) 1 (by omega)
  set x := F.get [0, 0] with hxd
  set y := F.get [0, 1] with hyd
  have hy0 : y = 0 := by nlinarith [sq_nonneg (x - 1 / 2 + y), sq_nonneg (x - 1 / 2 + 2 * y)]
  have hx0 : x = 1 / 2 := by
    rw [hy0] at h1
    have : (x - 1 / 2) ^ 2 ≤ 0 := by nlinarith
    have h3 := pow_eq_zero_iff (two_ne_zero) |>.1 (le_antisymm this (sq_nonneg _))
    linarith
  simp only [CPState.trueSSE, sqErr, cpEntry, ho, CPState.updated, hs, nonnegWitness]
  simp [rankOne, Finset.sum_range_succ, ← hxd, ← hyd, hx0, hy0]
  norm_num

/-! ### C39 -/

theorem orthoCols_iff {X : NDArray ℝ} {m r : ℕ} : OrthoCols X m r ↔ (mat X m r)ᵀ * mat X m r = 1 := by
  constructor
  · intro h
    ext i j
    have := h i i.2 j j.2
    rw [Finset.sum_range] at this
    simp only [mul_apply, transpose_apply, mat]
    rw [this, Matrix.one_apply]
    simp [Fin.ext_iff]
  · intro h i hi j hj
    have := congrFun (congrFun h ⟨i, hi⟩) ⟨j, hj⟩
    simp only [mul_apply, transpose_apply, mat, Matrix.one_apply, Fin.mk.injEq] at this
    rw [Finset.sum_range]
    exact this

theorem fsq_orthoCols {m r : ℕ} {Z : Matrix (Fin m) (Fin r) ℝ} (h : Zᵀ * Z = 1) : LA.fsq Z = r := by
  rw [LA.fsq_eq_fip, ← LA.fip_transpose, LA.fip_eq_trace, transpose_transpose, h]
  simp

/-- C39, the part that holds: if the Gram matrix of the Khatri-Rao product of the other factors is a positive
multiple of the identity and no singular value is dropped, the orthonormal update minimises the sum of squared
errors over all factors with orthonormal columns. Missing: the claim for other states; it is false, see
`C39_orthonormal_increases`. -/
theorem C39_orthonormal_partial {E : Ext} (hE : E.SVDOk) {o : CPOpts} {s : CPState} {m : ℕ} {c : ℝ}
    (h : s.Sized o.rank) (hm : m < s.X.shape.length) (hw : ∀ r < o.rank, s.dec.weights.get [r] = 1)
    (hc : s.ModeConfig o m false true none) (hr : 0 < o.rank) (hrn : o.rank ≤ s.X.shape.getD m 0) (hc0 : 0 < c)
    (hV : ∀ a < o.rank, ∀ b < o.rank, s.gram m a b = if a = b then c else 0)
    (hk : ∀ V M, CP.alsLhs o.rank m s.dec.factorMatrices = .ok V → CP.alsRhs s m = .ok M →
      AllKept E V.T M.T o.rank (s.X.shape.getD m 0)) :
    ∃ F, F.shape = [s.X.shape.getD m 0, o.rank] ∧ CP.updateFactor E o m s = .ok (s.updated m o.rank F) ∧
      OrthoCols F (s.X.shape.getD m 0) o.rank ∧
      ∀ Y : NDArray ℝ, Y.shape = [s.X.shape.getD m 0, o.rank] → OrthoCols Y (s.X.shape.getD m 0) o.rank →
        (s.updated m o.rank F).trueSSE o.rank ≤ (s.updated m o.rank Y).trueSSE o.rank := by
  set R := o.rank
  set n := s.X.shape.getD m 0 with hn
  set M := mttkrpMat s.X s.dec.factorMatrices m R with hM
  set V := ofMat R R fun a b => gramProd (s.dec.factorMatrices.eraseIdx m) a b with hVd
  have hk' := hk V M (alsLhs_eq h.wf.factors m) (alsRhs_eq h.wf.factors h.order hm (h.dim hm))
  obtain ⟨F, e, hF, hFo, hopt⟩ := C14_orthogonal_rightsolve_partial hE (A := V) (B := M) (n := R) (r := R) (m := n)
    rfl rfl hr hrn hk'
  refine ⟨F, hF, updateFactor_ok h.wf.factors h.order hm (h.dim hm) (getSolve_ok hc (by simp)) e hF, hFo,
    fun Y hY hYo => ?_⟩
  have hVm : mat V R R = c • (1 : Matrix (Fin R) (Fin R) ℝ) := by
    ext a b
    rw [hVd, mat_ofMat, ← gram_eq h, hV a a.2 b b.2, Matrix.smul_apply, Matrix.one_apply]
    simp [Fin.ext_iff]
  have h1 := hopt Y hY hYo
  rw [resid_eq, resid_eq, hVm, Matrix.mul_smul, Matrix.mul_smul, Matrix.mul_one, Matrix.mul_one, LA.fsq_sub,
    LA.fsq_sub] at h1
  have es : ∀ Z : Matrix (Fin n) (Fin R) ℝ, LA.fsq (c • Z) = c ^ 2 * LA.fsq Z := by
    intro Z; simp [LA.fsq, mul_pow, Finset.mul_sum]
  have ei : ∀ Z W : Matrix (Fin n) (Fin R) ℝ, LA.fip (c • Z) W = c * LA.fip Z W := by
    intro Z W; simp [LA.fip, mul_assoc, Finset.mul_sum]
  rw [es, es, ei, ei, fsq_orthoCols (orthoCols_iff.1 hFo), fsq_orthoCols (orthoCols_iff.1 hYo)] at h1
  have key : ∀ Z : NDArray ℝ, Z.shape = [n, R] → OrthoCols Z n R → (s.updated m R Z).trueSSE R
      = c * R - 2 * LA.fip (mat Z n R) (mat M n R)
        + LA.fsq (mat (unfoldMat s.X m) n (s.X.shape.eraseIdx m).prod) := by
    intro Z hZ hZo
    rw [trueSSE_updated h hm hw hZ, fsq_normal, ← mat_gramProd h, hVm, Matrix.mul_smul, Matrix.mul_one, ei,
      ← LA.fsq_eq_fip, fsq_orthoCols (orthoCols_iff.1 hZo), mat_mttkrp]
    rfl
  rw [key F hF hFo, key Y hY hYo]
  have h2 : c * LA.fip (mat Y n R) (mat M n R) ≤ c * LA.fip (mat F n R) (mat M n R) := by linarith
  have h3 := le_of_mul_le_mul_left h2 hc0
  linarith

/-- For a `2 × 2` matrix whose determinant is not tiny the code drops no singular value. -/
theorem allKept_of_det {E : Ext} (hE : E.SVDOk) {A B C : NDArray ℝ} (hA : A.shape = [2, 2]) (hB : B.shape = [2, 2])
    (hC : matmul B.T A = .ok C) (hd : 4 ≤ (C.get [0, 0] * C.get [1, 1] - C.get [0, 1] * C.get [1, 0]) ^ 2)
    (hn : C.get [0, 0] ^ 2 + C.get [0, 1] ^ 2 + C.get [1, 0] ^ 2 + C.get [1, 1] ^ 2 ≤ 1000) : AllKept E A B 2 2 := by
  obtain ⟨C', U, S, Vh, X, e0, hs, hC', hsvd, -, -, -⟩ := orthogonalSolve_mat hE hA hB (by omega) (by omega)
  rw [hC] at e0
  obtain rfl : C = C' := by injection e0
  intro C'' h i hi
  rw [hC] at h
  obtain rfl : C = C'' := by injection h
  have hi : i < 2 := hi
  rw [hs]
  simp only
  let U' : Matrix (Fin 2) (Fin 2) ℝ := mat U 2 (min 2 2)
  let V' : Matrix (Fin 2) (Fin 2) ℝ := mat Vh (min 2 2) 2
  let s' : Fin 2 → ℝ := vec S (min 2 2)
  have hU : U'ᵀ * U' = 1 := hsvd.svd.left
  have hV : V' * V'ᵀ = 1 := hsvd.svd.right
  have hCe : mat C 2 2 = U' * diagonal s' * V' := hsvd.svd.eq
  have dU : U'.det ^ 2 = 1 := by
    have := congrArg Matrix.det hU
    rwa [det_mul, det_transpose, det_one, ← pow_two] at this
  have dV : V'.det ^ 2 = 1 := by
    have := congrArg Matrix.det hV
    rwa [det_mul, det_transpose, det_one, ← pow_two] at this
  have dC : (mat C 2 2).det ^ 2 = (s' 0 * s' 1) ^ 2 := by
    rw [hCe, det_mul, det_mul, det_diagonal, mul_pow, mul_pow, dU, dV]
    simp
  have fC : LA.fsq (mat C 2 2) = s' 0 ^ 2 + s' 1 ^ 2 := by
    rw [hCe, LA.fsq_mul_orth _ hV, ← LA.fsq_transpose, transpose_mul, LA.fsq_mul_orth _ (by simpa using hU)]
    simp [LA.fsq, Fin.sum_univ_two]
  have e1 : (mat C 2 2).det = C.get [0, 0] * C.get [1, 1] - C.get [0, 1] * C.get [1, 0] := by
    rw [det_fin_two]; rfl
  have e2 : LA.fsq (mat C 2 2) = C.get [0, 0] ^ 2 + C.get [0, 1] ^ 2 + C.get [1, 0] ^ 2 + C.get [1, 1] ^ 2 := by
    simp [LA.fsq, Fin.sum_univ_two, mat]; ring
  rw [← e1, dC] at hd
  rw [← e2, fC] at hn
  have n0 : 0 ≤ s' 0 := hsvd.svd.nonneg (0 : Fin 2)
  have n1 : 0 ≤ s' 1 := hsvd.svd.nonneg (1 : Fin 2)
  have g0 : S.get [0] = s' 0 := rfl
  have g1 : S.get [1] = s' 1 := rfl
  have hle : s' 1 ≤ s' 0 := hsvd.sorted (show (0 : Fin 2) ≤ 1 by simp)
  have hp : 2 ≤ s' 0 * s' 1 := by nlinarith [mul_nonneg n0 n1]
  have hs0 : s' 0 ^ 2 ≤ 1000 := by nlinarith [sq_nonneg (s' 1)]
  have hpos : 0 < s' 0 := by
    rcases n0.eq_or_lt with h | h
    · rw [← h] at hp; norm_num at hp
    · exact h
  have hgoal : 2 * s' 0 * 1e-16 < s' 1 := by
    have : s' 0 * (2 * s' 0 * 1e-16) < s' 0 * s' 1 := by
      norm_num
      nlinarith
    exact lt_of_mul_lt_mul_left this n0
  have htol : orthTol U S = 2 * s' 0 * 1e-16 := by
    simp only [orthTol, hsvd.shapeU, g0]
    norm_num
  rw [htol]
  have : i = 0 ∨ i = 1 := by omega
  rcases this with rfl | rfl
  · rw [g0]; linarith
  · rw [g1]; exact hgoal

/-- The witness for C39: `X = [[1, -1], [0, 2]]`, first factor `I`, second factor `[[1, 1], [0, 1]]`. -/
def orthWitness : CPState where
  X := ofMat 2 2 fun i j => if i = 0 then (if j = 0 then 1 else -1) else (if j = 0 then 0 else 2)
  XNorm := frobNorm (ofMat 2 2 fun i j => if i = 0 then (if j = 0 then (1 : ℝ) else -1) else (if j = 0 then 0 else 2))
  dec := ⟨2, [ofMat 2 2 fun i j => if i = j then 1 else 0, ofMat 2 2 fun i j => if i ≤ j then 1 else 0], full [2] 1⟩
  nonNeg := some [false, false]
  orth := some [true, false]
  lastMode := none
  cache := none
  relChange := .pinf
  prevSSE := 1

theorem orthWitness_sized : orthWitness.Sized 2 :=
  ⟨⟨rfl, by simp [Factors, orthWitness], rfl⟩, by simp [orthWitness], by simp [orthWitness]⟩

theorem orthWitness_cached : orthWitness.Cached 2 :=
  ⟨by simp only [orthWitness, frobNorm, sum_data], by simp [orthWitness]⟩

theorem orth_rigid {a b c d : ℝ} (h1 : a * a + c * c = 1) (h2 : b * b + d * d = 1) (h3 : 3 ≤ a + 2 * d) :
    a = 1 ∧ b = 0 ∧ c = 0 ∧ d = 1 := by
  have ha1 : a ≤ 1 := by nlinarith [mul_self_nonneg c]
  have hd1 : d ≤ 1 := by nlinarith [mul_self_nonneg b]
  have ha : a = 1 := by linarith
  have hd : d = 1 := by linarith
  subst ha hd
  exact ⟨rfl, mul_self_eq_zero.1 (by linarith), mul_self_eq_zero.1 (by linarith), rfl⟩

/-- C39 is violated: from `orthWitness`, whose first factor has orthonormal columns, the orthonormal update of
mode 0 always increases the sum of squared errors. -/
theorem C39_orthonormal_increases {E : Ext} (hE : E.SVDOk) :
    (∃ F, orthWitness.dec.factorMatrices[0]? = some F ∧ OrthoCols F 2 2) ∧
    ∃ s' L L', CP.updateFactor E ⟨2, 0, 0, none⟩ 0 orthWitness = .ok s' ∧
      CP.sse orthWitness = .ok L ∧ CP.sse s' = .ok L' ∧ L < L' := by
  set o : CPOpts := ⟨2, 0, 0, none⟩ with ho
  set s := orthWitness with hs
  have hI : OrthoCols (ofMat 2 2 fun i j => if i = j then 1 else 0) 2 2 := by
    intro i hi j hj
    interval_cases i <;> interval_cases j <;> simp [Finset.sum_range_succ]
  refine ⟨⟨_, rfl, hI⟩, ?_⟩
  have hS : s.Sized o.rank := orthWitness_sized
  have hC : s.Cached o.rank := orthWitness_cached
  have hm : 0 < s.X.shape.length := by simp [hs, orthWitness]
  have hc : s.ModeConfig o 0 false true none :=
    ⟨⟨_, rfl, rfl⟩, ⟨_, rfl, rfl⟩, Or.inl ⟨rfl, rfl⟩⟩
  obtain ⟨V, hVd⟩ : ∃ V, V = ofMat 2 2 fun a b => gramProd (s.dec.factorMatrices.eraseIdx 0) a b := ⟨_, rfl⟩
  obtain ⟨M, hMd⟩ : ∃ M, M = mttkrpMat s.X s.dec.factorMatrices 0 2 := ⟨_, rfl⟩
  have hVs : V.shape = [2, 2] := by rw [hVd]; rfl
  have hMs : M.shape = [2, 2] := by rw [hMd]; rfl
  have hV : ∀ a < 2, ∀ b < 2, V.get [a, b] = if a = 1 ∧ b = 1 then 2 else 1 := by
    intro a ha b hb
    rw [hVd, get_ofMat ha hb]
    interval_cases a <;> interval_cases b <;>
      simp [gramProd, gramEntry, hs, orthWitness, Finset.sum_range_succ] <;> norm_num
  have hM : ∀ a < 2, ∀ b < 2, M.get [a, b] = if a = b then (if a = 0 then 1 else 2) else 0 := by
    intro a ha b hb
    rw [hMd, mttkrpMat, get_ofMat (by simp [hs, orthWitness, ha]) hb]
    interval_cases a <;> interval_cases b <;>
      simp [mttkrpEntry, rankOne, hs, orthWitness, Finset.sum_range_succ]
  have hMTs := shape_T hMs
  have hVTs := shape_T hVs
  have hCg := matmul_ok (shape_T hMTs) hVTs
  have hkept : AllKept E V.T M.T 2 2 := by
    have hT : ∀ a < 2, ∀ l < 2, M.T.T.get [a, l] = M.get [a, l] := by
      intro a ha l hl; rw [get_T hMTs ha hl, get_T hMs hl ha]
    apply allKept_of_det hE hVTs hMTs hCg
    · simp only [get_ofMat (by omega : 0 < 2) (by omega : 0 < 2), get_ofMat (by omega : 1 < 2) (by omega : 1 < 2),
        get_ofMat (by omega : 0 < 2) (by omega : 1 < 2), get_ofMat (by omega : 1 < 2) (by omega : 0 < 2),
        Finset.sum_range_succ, Finset.sum_range_zero, zero_add]
      simp [hT, hM, get_T hVs, hV]
      norm_num
    · simp only [get_ofMat (by omega : 0 < 2) (by omega : 0 < 2), get_ofMat (by omega : 1 < 2) (by omega : 1 < 2),
        get_ofMat (by omega : 0 < 2) (by omega : 1 < 2), get_ofMat (by omega : 1 < 2) (by omega : 0 < 2),
        Finset.sum_range_succ, Finset.sum_range_zero, zero_add]
      simp [hT, hM, get_T hVs, hV]
      norm_num
  obtain ⟨F, e, hF, hFo, hopt⟩ := C14_orthogonal_rightsolve_partial hE (A := V) (B := M) (n := 2) (r := 2) (m := 2)
    hVs hMs (by omega) le_rfl hkept
  have hu : CP.updateFactor E o 0 s = .ok (s.updated 0 2 F) := by
    rw [hVd, hMd] at e
    exact updateFactor_ok hS.wf.factors hS.order hm (hS.dim hm) (getSolve_ok hc (by simp)) e hF
  obtain ⟨hS', hC'⟩ := C35_update hS hC hm hu
  refine ⟨_, _, _, hu, C35_sse hS hC, C35_sse hS' hC', ?_⟩
  -- a rotation that is better than the identity for the normal equations
  obtain ⟨W, hW⟩ : ∃ W : NDArray ℝ, W = ofMat 2 2 fun i j =>
    if i = j then 40 / 41 else if i = 0 then -9 / 41 else 9 / 41 := ⟨_, rfl⟩
  have hWg : ∀ a < 2, ∀ b < 2, W.get [a, b] = if a = b then 40 / 41 else if a = 0 then -9 / 41 else 9 / 41 := by
    intro a ha b hb; rw [hW, get_ofMat ha hb]
  have h1 := hopt W (by rw [hW]; rfl) (by
    intro i hi j hj
    interval_cases i <;> interval_cases j <;> simp [Finset.sum_range_succ, hWg] <;> norm_num)
  have o00 := hFo 0 (by omega) 0 (by omega)
  have o01 := hFo 0 (by omega) 1 (by omega)
  have o11 := hFo 1 (by omega) 1 (by omega)
  simp [resid, Finset.sum_range_succ, hV, hM, hWg] at h1
  simp [Finset.sum_range_succ] at o00 o01 o11
  set a := F.get [0, 0] with had
  set b := F.get [0, 1] with hbd
  set c := F.get [1, 0] with hcd
  set d := F.get [1, 1] with hdd
  have hne : a + 2 * d < 3 := by
    by_contra hcon
    push Not at hcon
    obtain ⟨ha, hb0, hc0, hd⟩ := orth_rigid o00 o11 hcon
    rw [ha, hb0, hc0, hd] at h1
    norm_num at h1
  simp only [CPState.trueSSE, sqErr, cpEntry, ho, CPState.updated, hs, orthWitness]
  simp [rankOne, Finset.sum_range_succ, ← had, ← hbd, ← hcd, ← hdd]
  linarith

/-! ### the hypotheses of the positive parts are met -/

/-- A state whose second factor has orthonormal columns. -/
def orthExample (nn on : List Bool) : CPState where
  X := ofMat 2 2 fun i j => i - 3 * j
  XNorm := frobNorm (ofMat 2 2 fun i j => (i : ℝ) - 3 * j)
  dec := ⟨2, [ofMat 2 2 fun i j => i + j, ofMat 2 2 fun i j => if i = j then 1 else 0], full [2] 1⟩
  nonNeg := some nn
  orth := some on
  lastMode := none
  cache := none
  relChange := .pinf
  prevSSE := 1

theorem orthExample_gram (nn on : List Bool) : ∀ a < 2, ∀ b < 2,
    (orthExample nn on).gram 0 a b = if a = b then 1 else 0 := by
  intro a ha b hb
  interval_cases a <;> interval_cases b <;>
    simp [CPState.gram, orthExample, rankOne, Finset.sum_range_succ]

example : (orthExample [true, false] [false, false]).Sized 2 ∧
    (orthExample [true, false] [false, false]).ModeConfig ⟨2, 0, 0, none⟩ 0 true false none ∧
    (orthExample [false, false] [true, false]).ModeConfig ⟨2, 0, 0, none⟩ 0 false true none ∧
    (orthExample [false, false] [false, false]).ModeConfig ⟨2, 0, 0, some [2, 1]⟩ 0 false false (some 2) :=
  ⟨⟨⟨rfl, by simp [Factors, orthExample], rfl⟩, by simp [orthExample], by simp [orthExample]⟩,
    ⟨⟨_, rfl, rfl⟩, ⟨_, rfl, rfl⟩, Or.inl ⟨rfl, rfl⟩⟩, ⟨⟨_, rfl, rfl⟩, ⟨_, rfl, rfl⟩, Or.inl ⟨rfl, rfl⟩⟩,
    ⟨⟨_, rfl, rfl⟩, ⟨_, rfl, rfl⟩, Or.inr ⟨_, _, rfl, rfl, rfl⟩⟩⟩

end
end TK
