import Verif.Props.MoreComponents
import Verif.Props.Best
import Verif.Props.Parafac2Fit

/-!
# C163: the reported error, the noise and the distance to the truth

Source: cp.py (`SSE`, `_fit`), parafac2.py (`SSE`, `_fit`). If the data are the sum of some truth and noise, the reported error tells how far
the fitted model is from the truth, up to the norm of the noise; no assumption on the truth is needed.
-/

namespace TK
open NDArray Fit
open EStateM (Result)

noncomputable section

theorem sqrt_add_of_cauchy {A B c : ℝ} (hA : 0 ≤ A) (hB : 0 ≤ B) (hc : c ^ 2 ≤ A * B) :
    Real.sqrt (A + 2 * c + B) ≤ Real.sqrt A + Real.sqrt B := by
  refine Real.sqrt_le_iff.2 ⟨by positivity, ?_⟩
  have h1 : c ≤ Real.sqrt A * Real.sqrt B := by
    rw [← Real.sqrt_mul hA]
    exact Real.le_sqrt_of_sq_le hc
  have h2 := Real.sq_sqrt hA
  have h3 := Real.sq_sqrt hB
  nlinarith

/-- Spec: the distance of two functions of the entries of a tensor. -/
def entryDist (sizes : List ℕ) (f g : List ℕ → ℝ) : ℝ := Real.sqrt (sumIdx sizes fun idx => (f idx - g idx) ^ 2)

theorem entryDist_comm (sizes : List ℕ) (f g : List ℕ → ℝ) : entryDist sizes f g = entryDist sizes g f := by
  unfold entryDist
  congr 1
  exact sumIdx_congr fun idx _ => by ring

theorem entryDist_triangle (sizes : List ℕ) (f g h : List ℕ → ℝ) : entryDist sizes f h ≤ entryDist sizes f g + entryDist sizes g h := by
  have e : (sumIdx sizes fun idx => (f idx - h idx) ^ 2) = (sumIdx sizes fun idx => (f idx - g idx) ^ 2) +
      2 * (sumIdx sizes fun idx => (f idx - g idx) * (g idx - h idx)) + sumIdx sizes fun idx => (g idx - h idx) ^ 2 := by
    rw [mul_sumIdx, ← sumIdx_add, ← sumIdx_add]
    exact sumIdx_congr fun idx _ => by ring
  rw [entryDist, e]
  exact sqrt_add_of_cauchy (sumIdx_nonneg fun _ _ => sq_nonneg _) (sumIdx_nonneg fun _ _ => sq_nonneg _)
    (cauchy_sumIdx sizes (fun idx => f idx - g idx) fun idx => g idx - h idx)

/-- **C163.** Let the data be `X = M + noise` for any `M`. Whatever the start, the constraints, the penalties and the budget of a fit of
`CP_ALS` are, the distance of the fitted model to `M` is between `|√SSE - ‖noise‖|` and `√SSE + ‖noise‖`, with the reported SSE. -/
theorem C163_cp {E : Ext} (hE : E.SVDOk) (hN : E.NNLSOk) (hQ : E.QROk) {c : CP.Config}
    {nonNeg orth : Option (List Bool)} {X : NDArray ℝ} (hA : CP.Admissible c.opts nonNeg orth X.shape)
    (hlog : c.Measurable) (hfreq : freqOption c.freq ≠ 0) {arg : InitArg KruskalTensor} {t : KruskalTensor}
    (hi : CP.StartsFrom E c nonNeg orth arg X t) (ht : t.WF X.shape c.opts.rank) {M noise : List ℕ → ℝ}
    (hM : ∀ idx, Valid X.shape idx → X.get idx = M idx + noise idx) {budget : Int} {mi : Option Int} (hb : 0 < mi.getD budget)
    {loggers : List Logger} {file : Option H5File}
    (hS : Storing (CP.method E c) (CP.newObject nonNeg orth budget loggers file) []) :
    ∃ w e, CP.fit E c X mi arg (CP.newObject nonNeg orth budget loggers file) = .ok () w ∧ CP.sse w.st = .ok e ∧
      |Real.sqrt e - Real.sqrt (sumIdx X.shape fun idx => noise idx ^ 2)| ≤
        entryDist X.shape (cpEntry (fun r => w.st.dec.weights.get [r]) w.st.dec.factorMatrices c.opts.rank) M ∧
      entryDist X.shape (cpEntry (fun r => w.st.dec.weights.get [r]) w.st.dec.factorMatrices c.opts.rank) M ≤
        Real.sqrt e + Real.sqrt (sumIdx X.shape fun idx => noise idx ^ 2) := by
  obtain ⟨s0, w, k, -, h1, -, -, -, -, -, -, hsse, hX, -⟩ := C74_fit_completes hE hN hQ hA hlog hfreq hi ht hb hS
  refine ⟨w, _, h1, hsse, ?_⟩
  set m := cpEntry (fun r => w.st.dec.weights.get [r]) w.st.dec.factorMatrices c.opts.rank with hm
  have e1 : Real.sqrt (w.st.trueSSE c.opts.rank) = entryDist X.shape X.get m := by
    rw [CPState.trueSSE, hX]; rfl
  have e2 : Real.sqrt (sumIdx X.shape fun idx => noise idx ^ 2) = entryDist X.shape X.get M := by
    unfold entryDist
    congr 1
    exact sumIdx_congr fun idx hidx => by rw [hM idx hidx]; ring
  rw [e1, e2]
  have t1 := entryDist_triangle X.shape m X.get M
  have t2 := entryDist_triangle X.shape X.get m M
  have t3 := entryDist_triangle X.shape X.get M m
  rw [entryDist_comm X.shape M m] at t3
  rw [entryDist_comm X.shape m X.get] at t1
  exact ⟨abs_le.2 ⟨by linarith, by linarith⟩, t1⟩

/-- **C163**: without constraints and penalties, if the truth is a CP model of any number of components whose columns in the modes after the
first are multiples of columns of the start, a fit that makes an iteration is not further from the truth than twice the norm of the noise. -/
theorem C163_recovered {E : Ext} (hE : E.SVDOk) (hN : E.NNLSOk) (hQ : E.QROk) {c : CP.Config} {X : NDArray ℝ}
    (hA : CP.Admissible c.opts none none X.shape) (hridge : c.opts.ridgePenalties = none)
    (hlog : c.Measurable) (hfreq : freqOption c.freq ≠ 0) {arg : InitArg KruskalTensor} {t : KruskalTensor}
    (hi : CP.StartsFrom E c none none arg X t) (ht : t.WF X.shape c.opts.rank)
    {R : ℕ} {v : ℕ → ℝ} {fs : List (NDArray ℝ)} (hf : fs.length = X.shape.length) {σ : ℕ → ℕ} (hσ : ∀ r < R, σ r < c.opts.rank)
    {γ : ℕ → ℕ → ℝ} (hcol : ContainedIn X.shape R σ γ fs t.factorMatrices) {noise : List ℕ → ℝ}
    (hM : ∀ idx, Valid X.shape idx → X.get idx = cpEntry v fs R idx + noise idx)
    {budget : Int} {mi : Option Int} (hb : 0 < mi.getD budget) {loggers : List Logger} {file : Option H5File}
    (hS : Storing (CP.method E c) (CP.newObject none none budget loggers file) []) :
    ∃ w, CP.fit E c X mi arg (CP.newObject none none budget loggers file) = .ok () w ∧ (0 < w.it →
      entryDist X.shape (cpEntry (fun r => w.st.dec.weights.get [r]) w.st.dec.factorMatrices c.opts.rank) (cpEntry v fs R) ≤
        2 * Real.sqrt (sumIdx X.shape fun idx => noise idx ^ 2)) := by
  obtain ⟨w, h1, h2⟩ := C160_contains hE hN hQ hA hridge hlog hfreq hi ht hf hσ hcol (v := v) hb hS
  obtain ⟨w', e, h1', h3, -, h4⟩ := C163_cp hE hN hQ hA hlog hfreq hi ht hM hb hS
  rw [h1] at h1'
  obtain rfl : w = w' := by injection h1'
  refine ⟨w, h1, fun hpos => ?_⟩
  obtain ⟨e', h5, h6⟩ := h2 hpos
  rw [h3] at h5
  obtain rfl : e = e' := Except.ok.inj h5
  have h7 : sqErr X v fs R = sumIdx X.shape fun idx => noise idx ^ 2 :=
    sumIdx_congr fun idx hidx => by rw [hM idx hidx]; ring
  rw [h7] at h6
  have := Real.sqrt_le_sqrt h6
  linarith

/-- The hypotheses of `C163_recovered` (and `C163_cp`): `diag(2, 1)` as the sum of the truth `diag(2, 0)` and the noise `diag(0, 1)`, from a
start whose second factor matrix is that of the truth. -/
example {E : Ext} (hE : E.SVDOk) (hN : E.NNLSOk) (hQ : E.QROk) :
    ∃ w, CP.fit E matrixConfig matrix21 (some 10) (.tensor (matrixStart 1 0)) (CP.newObject none none 10 [] none) = .ok () w ∧ (0 < w.it →
      entryDist [2, 2] (cpEntry (fun r => w.st.dec.weights.get [r]) w.st.dec.factorMatrices 1)
        (cpEntry (fun _ => 1) [ofMat 2 1 fun i _ => if i = 0 then 2 else 0, ofMat 2 1 fun i _ => if i = 0 then 1 else 0] 1) ≤ 2) := by
  have ht : (matrixStart 1 0).WF matrix21.shape matrixConfig.opts.rank := ⟨rfl, .cons rfl (.cons rfl .nil), rfl⟩
  have hi : matrixConfig.init.toLower = "precomputed" := by
    show "precomputed".toLower = _
    rw [String.toLower, ← String.toList_inj, String.toList_map]; decide
  obtain ⟨w, h1, h2⟩ := C163_recovered hE hN hQ (c := matrixConfig) (X := matrix21)
    ⟨by decide, by simp [matrix21], by simp [matrix21], by simp, by simp, by simp [matrixConfig], by simp, by simp⟩
    rfl (fun p hp => by cases hp) (show freqOption none ≠ 0 by decide) (startsFrom_precomputed hi ht) ht (R := 1) (v := fun _ => 1)
    (fs := [ofMat 2 1 fun i _ => if i = 0 then 2 else 0, ofMat 2 1 fun i _ => if i = 0 then 1 else 0]) rfl (σ := fun _ => 0)
    (fun _ _ => Nat.one_pos) (γ := fun _ _ => 1) (fun k hk h0 i hi r hr => by
      obtain rfl : k = 1 := by have : k < 2 := hk; omega
      have hi' : i < 2 := hi
      show (ofMat 2 1 fun i _ => if i = 0 then (1 : ℝ) else 0).get [i, r] = 1 * (ofMat 2 1 fun i _ => if i = 0 then (1 : ℝ) else 0).get [i, 0]
      rw [get_ofMat hi' hr, get_ofMat hi' Nat.one_pos, one_mul])
    (noise := fun idx => if idx = [1, 1] then 1 else 0) (fun idx hidx => by
      match idx, hidx with
      | [i, j], ⟨a, b, _⟩ =>
        have a : i < 2 := a
        have b : j < 2 := b
        rw [cpEntry, Finset.sum_range_one]
        simp only [rankOne]
        rw [matrix21, get_ofMat a b, get_ofMat a Nat.one_pos, get_ofMat b Nat.one_pos]
        interval_cases i <;> interval_cases j <;> norm_num)
    (mi := some 10) (budget := 10) (loggers := []) (file := none) (by decide)
    ⟨fun h => absurd h (show ¬ (0 : Int) < -1 by decide), fun h => absurd h (show ¬ (0 : Int) < -1 by decide),
      fun h => absurd h (show ¬ (0 : Int) < -1 by decide)⟩
  refine ⟨w, h1, fun hpos => (h2 hpos).trans (le_of_eq ?_)⟩
  have : (sumIdx matrix21.shape fun idx => (if idx = [1, 1] then (1 : ℝ) else 0) ^ 2) = 1 := by
    rw [show matrix21.shape = [2, 2] from rfl, sumIdx_two]
    simp [Finset.sum_range_succ]
  rw [this, Real.sqrt_one, mul_one]

/-! ## PARAFAC2 -/

variable {s : P2State} {I : ℕ} {Js : List ℕ}

/-- Spec: the distance of two functions of the entries of the slices. -/
def slicesDist (I : ℕ) (Js : List ℕ) (f g : ℕ → ℕ → ℕ → ℝ) : ℝ :=
  Real.sqrt (∑ k ∈ Finset.range Js.length, ∑ i ∈ Finset.range I, ∑ j ∈ Finset.range (Js.getD k 0), (f k i j - g k i j) ^ 2)

theorem slicesDist_comm (I : ℕ) (Js : List ℕ) (f g : ℕ → ℕ → ℕ → ℝ) : slicesDist I Js f g = slicesDist I Js g f := by
  unfold slicesDist
  congr 1
  exact Finset.sum_congr rfl fun k _ => Finset.sum_congr rfl fun i _ => Finset.sum_congr rfl fun j _ => by ring

theorem slicesDist_triangle (I : ℕ) (Js : List ℕ) (f g h : ℕ → ℕ → ℕ → ℝ) :
    slicesDist I Js f h ≤ slicesDist I Js f g + slicesDist I Js g h := by
  have flat : ∀ F : ℕ → ℕ → ℕ → ℝ, ∑ k ∈ Finset.range Js.length, ∑ i ∈ Finset.range I, ∑ j ∈ Finset.range (Js.getD k 0), F k i j =
      ∑ p ∈ (Finset.range Js.length).sigma fun k => Finset.range I ×ˢ Finset.range (Js.getD k 0), F p.1 p.2.1 p.2.2 := by
    intro F
    rw [Finset.sum_sigma]
    exact Finset.sum_congr rfl fun k _ => (Finset.sum_product _ _ fun q => F k q.1 q.2).symm
  unfold slicesDist
  rw [flat, flat, flat]
  set S := (Finset.range Js.length).sigma fun k => Finset.range I ×ˢ Finset.range (Js.getD k 0)
  have e : ∑ p ∈ S, (f p.1 p.2.1 p.2.2 - h p.1 p.2.1 p.2.2) ^ 2 = ∑ p ∈ S, (f p.1 p.2.1 p.2.2 - g p.1 p.2.1 p.2.2) ^ 2 +
      2 * ∑ p ∈ S, (f p.1 p.2.1 p.2.2 - g p.1 p.2.1 p.2.2) * (g p.1 p.2.1 p.2.2 - h p.1 p.2.1 p.2.2) +
      ∑ p ∈ S, (g p.1 p.2.1 p.2.2 - h p.1 p.2.1 p.2.2) ^ 2 := by
    rw [Finset.mul_sum, ← Finset.sum_add_distrib, ← Finset.sum_add_distrib]
    exact Finset.sum_congr rfl fun p _ => by ring
  rw [e]
  exact sqrt_add_of_cauchy (Finset.sum_nonneg fun _ _ => sq_nonneg _) (Finset.sum_nonneg fun _ _ => sq_nonneg _)
    (Finset.sum_mul_sq_le_sq_mul_sq S _ _)

/-- **C163** for `Parafac2_ALS`, with any constraints, penalties, starts and budgets. The hypotheses are those of `C80_fit_completes` (see the
examples there), and any `M` has a `noise` with `hM`. -/
theorem C163_parafac2 {E : Ext} (hE : E.SVDOk) (hN : E.NNLSOk) (hQ : E.QROk) {c : P2.Config} {D : P2Data} {arg : InitArg P2Obj}
    {h0 : Heap} (hi : P2.StartsFrom E c D arg h0 s) (h : s.Sized I Js c.opts.rank) (hs : s.Distinct) (hal : s.Allocated)
    (hA : P2.Admissible c.opts I Js.length) (hlog : c.Measurable I Js) (hfreq : freqOption c.freq ≠ 0)
    {M noise : ℕ → ℕ → ℕ → ℝ}
    (hM : ∀ k < Js.length, ∀ i < I, ∀ j < Js.getD k 0, (nth s.X k).get [i, j] = M k i j + noise k i j)
    {budget : Int} {mi : Option Int} {loggers : List Logger} {file : Option H5File}
    (hS : Storing (P2.method E c) (P2.newObject h0 budget loggers file) []) :
    ∃ w e, P2.fit E c D mi arg (P2.newObject h0 budget loggers file) = .ok () w ∧ P2.sse w.st = .ok e ∧
      |Real.sqrt e - Real.sqrt (∑ k ∈ Finset.range Js.length, ∑ i ∈ Finset.range I, ∑ j ∈ Finset.range (Js.getD k 0), noise k i j ^ 2)| ≤
        slicesDist I Js (fun k => p2Entry w.st.A w.st.D w.st.C (nth w.st.P k) c.opts.rank k) M ∧
      slicesDist I Js (fun k => p2Entry w.st.A w.st.D w.st.C (nth w.st.P k) c.opts.rank k) M ≤
        Real.sqrt e + Real.sqrt (∑ k ∈ Finset.range Js.length, ∑ i ∈ Finset.range I, ∑ j ∈ Finset.range (Js.getD k 0), noise k i j ^ 2) := by
  obtain ⟨l, sp, w, k, -, -, -, hfit, -, -, -, -, -, -, hsse, hX, -⟩ :=
    C80_fit_completes hE hN hQ hi h hs hal hA hlog hfreq (mi := mi) hS
  refine ⟨w, _, hfit, hsse, ?_⟩
  set m := fun k => p2Entry w.st.A w.st.D w.st.C (nth w.st.P k) c.opts.rank k with hm
  set x : ℕ → ℕ → ℕ → ℝ := fun k i j => (nth s.X k).get [i, j] with hx
  have e1 : Real.sqrt (w.st.err I Js c.opts.rank) = slicesDist I Js x m := by
    rw [P2State.err, hX]; rfl
  have e2 : Real.sqrt (∑ k ∈ Finset.range Js.length, ∑ i ∈ Finset.range I, ∑ j ∈ Finset.range (Js.getD k 0), noise k i j ^ 2) =
      slicesDist I Js x M := by
    unfold slicesDist
    congr 1
    refine Finset.sum_congr rfl fun k hk => Finset.sum_congr rfl fun i hi => Finset.sum_congr rfl fun j hj => ?_
    simp only [hx]
    rw [hM k (Finset.mem_range.1 hk) i (Finset.mem_range.1 hi) j (Finset.mem_range.1 hj)]
    ring
  rw [e1, e2]
  have t1 := slicesDist_triangle I Js m x M
  have t2 := slicesDist_triangle I Js x m M
  have t3 := slicesDist_triangle I Js x M m
  rw [slicesDist_comm I Js M m] at t3
  rw [slicesDist_comm I Js m x] at t1
  exact ⟨abs_le.2 ⟨by linarith, by linarith⟩, t1⟩

end

end TK
