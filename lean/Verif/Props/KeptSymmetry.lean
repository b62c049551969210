import Verif.Props.SliceOrder
import Verif.Props.CMTFMoved
import Verif.Props.MatrixFits
import Verif.Lemmas.Descent

/-!
# C164: fits keep the symmetries of the data and the start

Source: cp.py (`_fit`), parafac2.py (`_fit`), cmtf.py (`_fit`). If exchanging rows leaves the data and the initial decomposition as they are,
it leaves the fitted decomposition as it is; so a fit with a symmetric start cannot find a better model that is not symmetric.
-/

namespace TK
open NDArray Fit
open EStateM (Result)

noncomputable section

variable {σ : ℕ → Equiv.Perm ℕ}

theorem rankOne_moved {fs : List (NDArray ℝ)} {sizes idx : List ℕ} {R r : ℕ} (hf : fs.length = sizes.length) (hr : r < R)
    (hF : ∀ k < sizes.length, ∀ i < sizes.getD k 0, ∀ r < R, (modeMat fs k).get [σ k i, r] = (modeMat fs k).get [i, r])
    (hv : Valid sizes idx) : rankOne fs (idx.mapIdx fun k i => σ k i) r = rankOne fs idx r := by
  have hl := hv.length_eq
  rw [rankOne_eq_prod r (by simp [hl, hf]), rankOne_eq_prod r (by rw [hl, hf])]
  refine Finset.prod_congr rfl fun m hm => ?_
  have hm' : m < sizes.length := by rw [← hf]; exact Finset.mem_range.1 hm
  have hm2 : m < idx.length := by omega
  have e : (idx.mapIdx fun k i => σ k i).getD m 0 = σ m (idx.getD m 0) := by
    rw [List.getD_eq_getElem?_getD, List.getD_eq_getElem?_getD, List.getElem?_mapIdx, List.getElem?_eq_getElem hm2]
    rfl
  rw [e, hF m hm' _ (hv.getD_lt hm') r hr]

/-- **C164.** If moving the rows of each mode `k` by `σ k` leaves the data and the factor matrices of the initial decomposition as they are
(modes with an orthonormality constraint are not moved), it leaves the factor matrices of the fitted decomposition and its tensor as they
are, whatever the non-negativity constraints, the penalties and the budget are. -/
theorem C164_cp {E : Ext} (hE : E.SVDOk) (hN : E.NNLSOk) (hQ : E.QROk) {c : CP.Config}
    {nonNeg orth : Option (List Bool)} {X : NDArray ℝ} (hA : CP.Admissible c.opts nonNeg orth X.shape)
    (hlog : c.Measurable) (hfreq : freqOption c.freq ≠ 0) {arg : InitArg KruskalTensor} {t : KruskalTensor}
    (hi : CP.StartsFrom E c nonNeg orth arg X t) (ht : t.WF X.shape c.opts.rank)
    (hσ : ∀ k < X.shape.length, ∀ i, σ k i < X.shape.getD k 0 ↔ i < X.shape.getD k 0)
    (hfix : ∀ l, orth = some l → ∀ k : ℕ, l[k]? = some true → σ k = Equiv.refl ℕ)
    (hX : ∀ idx, Valid X.shape idx → X.get (idx.mapIdx fun k i => σ k i) = X.get idx)
    (hstart : ∀ k F, t.factorMatrices[k]? = some F → ∀ i < X.shape.getD k 0, ∀ r < c.opts.rank, F.get [σ k i, r] = F.get [i, r])
    {budget : Int} {mi : Option Int} (hb : 0 < mi.getD budget) {loggers : List Logger} {file : Option H5File}
    (hS : Storing (CP.method E c) (CP.newObject nonNeg orth budget loggers file) []) :
    ∃ w, CP.fit E c X mi arg (CP.newObject nonNeg orth budget loggers file) = .ok () w ∧
      (∀ k F, w.st.dec.factorMatrices[k]? = some F → ∀ i < X.shape.getD k 0, ∀ r < c.opts.rank, F.get [σ k i, r] = F.get [i, r]) ∧
      ∀ idx, Valid X.shape idx →
        cpEntry (fun r => w.st.dec.weights.get [r]) w.st.dec.factorMatrices c.opts.rank (idx.mapIdx fun k i => σ k i) =
          cpEntry (fun r => w.st.dec.weights.get [r]) w.st.dec.factorMatrices c.opts.rank idx := by
  obtain ⟨w, w', h1, h2, h3, -⟩ := C112_rows hE hN hQ hA hlog hfreq hi hi ht ht rfl hσ hfix hX
    (fun k F F' hF hF' => by rw [hF] at hF'; obtain rfl := Option.some.inj hF'; exact hstart k F hF) hb hS
  rw [h1] at h2
  obtain rfl : w = w' := by injection h2
  have h4 := fun k F hF => h3 k F F hF hF
  obtain ⟨-, w', -, -, h1', -, -, -, -, -, hwf, -⟩ := C74_fit_completes hE hN hQ hA hlog hfreq hi ht hb hS
  rw [h1] at h1'
  obtain rfl : w = w' := by injection h1'
  have hlen : w.st.dec.factorMatrices.length = X.shape.length := hwf.factors.length_eq
  refine ⟨w, h1, h4, fun idx hv => ?_⟩
  unfold cpEntry
  refine Finset.sum_congr rfl fun r hr => ?_
  rw [rankOne_moved hlen (Finset.mem_range.1 hr) (fun k hk i hi r hr => ?_) hv]
  have hk' : k < w.st.dec.factorMatrices.length := by omega
  have e : w.st.dec.factorMatrices[k]? = some (modeMat w.st.dec.factorMatrices k) := by
    rw [modeMat, List.getD_eq_getElem?_getD, List.getElem?_eq_getElem hk']; rfl
  exact h4 k _ e i hi r hr

theorem swap_lt_two (i : ℕ) : Equiv.swap 0 1 i < 2 ↔ i < 2 := by
  rcases i with _ | _ | i
  · simp
  · simp
  · rw [Equiv.swap_apply_of_ne_of_ne (by omega) (by omega)]

/-- `[[2, -1], [-1, 2]]`, which does not change when both the rows and the columns are exchanged. -/
def swapMatrix : NDArray ℝ := ofMat 2 2 fun i j => if i = j then 2 else -1

theorem swapMatrix_error (a : ℝ) : 9 ≤ sumIdx [2, 2] fun idx => (swapMatrix.get idx - a) ^ 2 := by
  rw [sumIdx_two]
  simp only [Finset.sum_range_succ, Finset.sum_range_zero]
  rw [swapMatrix, get_ofMat (by omega) (by omega), get_ofMat (by omega) (by omega), get_ofMat (by omega) (by omega),
    get_ofMat (by omega) (by omega)]
  norm_num
  nlinarith [sq_nonneg (a - 1 / 2)]

/-- **C164**, the consequence for symmetric starts (and a case of the hypotheses of `C164_cp`): from the start with equal rows, a fit of
`[[2, -1], [-1, 2]]` with one component ends with an error of at least 9, for every budget, although a model with error 1 exists. -/
theorem C164_stuck {E : Ext} (hE : E.SVDOk) (hN : E.NNLSOk) (hQ : E.QROk) {n : Int} (hn : 0 < n) :
    (∃ w e, CP.fit E matrixConfig swapMatrix (some n) (.tensor (matrixStart 1 1)) (CP.newObject none none n [] none) = .ok () w ∧
      CP.sse w.st = .ok e ∧ 9 ≤ e) ∧
    (sumIdx [2, 2] fun idx => (swapMatrix.get idx - cpEntry (fun _ => 3 / 2)
      [ofMat 2 1 fun i _ => if i = 0 then 1 else -1, ofMat 2 1 fun i _ => if i = 0 then 1 else -1] 1 idx) ^ 2) = 1 := by
  constructor
  · have ht : (matrixStart 1 1).WF swapMatrix.shape matrixConfig.opts.rank := ⟨rfl, .cons rfl (.cons rfl .nil), rfl⟩
    have hi : matrixConfig.init.toLower = "precomputed" := by
      show "precomputed".toLower = _
      rw [String.toLower, ← String.toList_inj, String.toList_map]; decide
    have hA : CP.Admissible matrixConfig.opts none none swapMatrix.shape :=
      ⟨by decide, by simp [swapMatrix], by simp [swapMatrix], by simp, by simp, by simp [matrixConfig], by simp, by simp⟩
    have hS : Storing (CP.method E matrixConfig) (CP.newObject none none n [] none) [] :=
      ⟨fun h => absurd h (show ¬ (0 : Int) < -1 by decide), fun h => absurd h (show ¬ (0 : Int) < -1 by decide),
        fun h => absurd h (show ¬ (0 : Int) < -1 by decide)⟩
    have hs := swap_lt_two
    obtain ⟨w, h1, h2, -⟩ := C164_cp hE hN hQ (c := matrixConfig) (X := swapMatrix) (σ := fun _ => Equiv.swap 0 1) hA
      (fun p hp => by cases hp) (show freqOption none ≠ 0 by decide) (startsFrom_precomputed hi ht) ht
      (fun k hk i => by
        have hk : k < 2 := hk
        interval_cases k <;> exact hs i)
      (fun l h => by cases h)
      (fun idx hidx => by
        match idx, hidx with
        | [i, j], ⟨a, b, _⟩ =>
          have a : i < 2 := a
          have b : j < 2 := b
          show swapMatrix.get [Equiv.swap 0 1 i, Equiv.swap 0 1 j] = swapMatrix.get [i, j]
          rw [swapMatrix, get_ofMat ((hs i).2 a) ((hs j).2 b), get_ofMat a b]
          simp)
      (fun k F hF i hi r hr => by
        match k, hF with
        | 0, hF =>
          obtain rfl : full [2, 1] 1 = F := Option.some.inj hF
          have a : i < 2 := hi
          rw [get_full (show Valid [2, 1] [Equiv.swap 0 1 i, r] from ⟨(hs i).2 a, hr, trivial⟩),
            get_full (show Valid [2, 1] [i, r] from ⟨a, hr, trivial⟩)]
        | 1, hF =>
          obtain rfl : (ofMat 2 1 fun i _ => if i = 0 then (1 : ℝ) else 1) = F := Option.some.inj hF
          have a : i < 2 := hi
          have hr : r < 1 := hr
          rw [get_ofMat ((hs i).2 a) hr, get_ofMat a hr]
          simp
        | k + 2, hF => exact absurd hF (by simp [matrixStart]))
      (mi := some n) (budget := n) (loggers := []) (file := none) hn hS
    obtain ⟨-, w', -, -, h1', -, -, -, -, -, hwf, hsse, hX, -⟩ := C74_fit_completes hE hN hQ hA
      (fun p hp => by cases hp) (show freqOption none ≠ 0 by decide) (startsFrom_precomputed hi ht) ht (mi := some n) (budget := n)
      (loggers := []) (file := none) hn hS
    rw [h1] at h1'
    obtain rfl : w = w' := by injection h1'
    refine ⟨w, _, h1, hsse, ?_⟩
    rw [CPState.trueSSE, hX, sqErr]
    obtain ⟨A, B, hAB⟩ : ∃ A B, w.st.dec.factorMatrices = [A, B] := List.length_eq_two.1 hwf.factors.length_eq
    have sA : ∀ i < 2, A.get [i, 0] = A.get [0, 0] := fun i hi => by
      have := h2 0 A (by rw [hAB]; rfl) 0 (show 0 < 2 by omega) 0 Nat.one_pos
      rw [Equiv.swap_apply_left] at this
      interval_cases i
      · rfl
      · exact this
    have sB : ∀ i < 2, B.get [i, 0] = B.get [0, 0] := fun i hi => by
      have := h2 1 B (by rw [hAB]; rfl) 0 (show 0 < 2 by omega) 0 Nat.one_pos
      rw [Equiv.swap_apply_left] at this
      interval_cases i
      · rfl
      · exact this
    have e : (sumIdx swapMatrix.shape fun idx => (swapMatrix.get idx -
        cpEntry (fun r => w.st.dec.weights.get [r]) w.st.dec.factorMatrices matrixConfig.opts.rank idx) ^ 2) =
        sumIdx [2, 2] fun idx => (swapMatrix.get idx - w.st.dec.weights.get [0] * (A.get [0, 0] * B.get [0, 0])) ^ 2 := by
      refine sumIdx_congr fun idx hidx => ?_
      match idx, hidx with
      | [i, j], ⟨a, b, _⟩ =>
        rw [hAB, show matrixConfig.opts.rank = 1 from rfl, cpEntry, Finset.sum_range_one]
        simp only [rankOne, mul_one]
        rw [sA i a, sB j b]
    rw [e]
    exact swapMatrix_error _
  · rw [sumIdx_two]
    simp only [Finset.sum_range_succ, Finset.sum_range_zero, cpEntry, rankOne]
    rw [swapMatrix]
    simp only [get_ofMat (show 0 < 2 by omega) (show 0 < 2 by omega), get_ofMat (show 0 < 2 by omega) (show 1 < 2 by omega),
      get_ofMat (show 1 < 2 by omega) (show 0 < 2 by omega), get_ofMat (show 1 < 2 by omega) (show 1 < 2 by omega),
      get_ofMat (show 0 < 2 by omega) (show 0 < 1 by omega), get_ofMat (show 1 < 2 by omega) (show 0 < 1 by omega)]
    norm_num

/-! ## PARAFAC2 -/

variable {s : P2State} {I : ℕ} {Js : List ℕ} {α τ : Equiv.Perm ℕ}

/-- **C164** for `Parafac2_ALS`: if moving the rows of the slices by `α` and the slices by `τ` leaves the data and the start as they are, the
fitted `A`, `C` and projection matrices have the same symmetry. The hypotheses are those of `C113_parafac2` for equal data and starts;
`α` and `τ` may be other than the identity when rows or slices with their starts are equal. -/
theorem C164_parafac2 {E : Ext} (hE : E.SVDOk) (hN : E.NNLSOk) (hQR : E.QROk) {c : P2.Config}
    (hα : ∀ i, α i < I ↔ i < I) (hτ : ∀ k, τ k < Js.length ↔ k < Js.length)
    (hJs : ∀ k < Js.length, Js.getD (τ k) 0 = Js.getD k 0)
    (hfixA : ∀ l, c.opts.orth = some l → l[0]? = some true → α = Equiv.refl ℕ)
    (hfixC : ∀ l, c.opts.orth = some l → l[2]? = some true → τ = Equiv.refl ℕ)
    {D : P2Data} {arg : InitArg P2Obj} {h0 : Heap} (hi : P2.StartsFrom E c D arg h0 s)
    (h : s.Sized I Js c.opts.rank) (hs : s.Separate) (hal : s.Allocated)
    (eA : ∀ i < I, ∀ r < c.opts.rank, s.A.get [α i, r] = s.A.get [i, r])
    (eC : ∀ k < Js.length, ∀ r < c.opts.rank, s.C.get [τ k, r] = s.C.get [k, r])
    (eX : ∀ k < Js.length, ∀ i < I, ∀ j < Js.getD k 0, (nth s.X (τ k)).get [α i, j] = (nth s.X k).get [i, j])
    (eP : ∀ k < Js.length, nth s.P (τ k) = nth s.P k)
    (hA : P2.Admissible c.opts I Js.length) (hlog : c.Measurable I Js) (hfreq : freqOption c.freq ≠ 0)
    {budget : Int} {mi : Option Int} {loggers : List Logger} {file : Option H5File}
    (hS : Storing (P2.method E c) (P2.newObject h0 budget loggers file) []) :
    ∃ w, P2.fit E c D mi arg (P2.newObject h0 budget loggers file) = .ok () w ∧
      (∀ i < I, ∀ r < c.opts.rank, w.st.A.get [α i, r] = w.st.A.get [i, r]) ∧
      (∀ k < Js.length, ∀ r < c.opts.rank, w.st.C.get [τ k, r] = w.st.C.get [k, r]) ∧
      ∀ k < Js.length, nth w.st.P (τ k) = nth w.st.P k := by
  obtain ⟨w, w', h1, h2, -, h3, -, h4, h5, -⟩ := C113_parafac2 hE hN hQR hα hτ rfl hJs hfixA hfixC hi hi h h hs hs hal hal eA rfl eC eX eP
    hA hlog hlog hfreq (mi := mi) hS hS
  rw [h1] at h2
  obtain rfl : w = w' := by injection h2
  exact ⟨w, h1, h3, h4, h5⟩

/-- The hypotheses of `C164_parafac2`: two equal slices with equal rows, all of which are exchanged. -/
example {E : Ext} (hE : E.SVDOk) (hN : E.NNLSOk) (hQ : E.QROk) {g : List ℕ → ℝ} {sv : NDArray ℝ → NDArray ℝ × NDArray ℝ × NDArray ℝ} :
    ∃ (h0 : Heap) (d : P2Obj) (w : World P2State), P2.fit E ⟨p2Plain 1 1 g, "precomputed", none, false, [], fun _ _ => 0, fun _ _ => 0, fun _ _ _ => 0,
        fun _ _ _ _ => 0, sv, fun _ => none⟩ (.list [full [2, 2] 5, full [2, 2] 5]) (some 10) (.tensor d) (P2.newObject h0 10 [] none) = .ok () w ∧
      w.st.A.get [1, 0] = w.st.A.get [0, 0] ∧ w.st.C.get [1, 0] = w.st.C.get [0, 0] ∧ nth w.st.P 1 = nth w.st.P 0 := by
  set h0 : Heap := ⟨fun a => if a = 0 then full [2, 1] 3 else if a = 1 then full [1, 1] 1 else full [2, 1] 1, 5⟩ with hh
  set d : P2Obj := ⟨1, 0, 1, 2, [3, 4], true, true, [(2, 2), (2, 2)], 4⟩ with hd
  have hi : "precomputed".toLower = "precomputed" := by
    rw [String.toLower, ← String.toList_inj, String.toList_map]; decide
  have hs := swap_lt_two
  obtain ⟨s, h1, h2, h3, h4, h5⟩ := p2_startsFrom_precomputed (E := E) (c := ⟨p2Plain 1 1 g, "precomputed", none, false, [], fun _ _ => 0, fun _ _ => 0,
      fun _ _ _ => 0, fun _ _ _ _ => 0, sv, fun _ => none⟩) hi (I := 2) (Js := [2, 2]) (by omega)
    (Xs := [full [2, 2] 5, full [2, 2] 5]) (.cons rfl (.cons rfl .nil)) (by decide) (show 0 < 1 by omega) (by simp) (h0 := h0) (d := d)
    rfl rfl rfl (.cons rfl (.cons rfl .nil))
  have eA : s.A = full [2, 1] 3 := by rw [P2State.A, h3, h4]; rfl
  have eC : s.C = full [2, 1] 1 := by rw [P2State.C, h3, h4]; rfl
  have eP : s.P = [full [2, 1] 1, full [2, 1] 1] := by rw [P2State.P, h3, h4]; rfl
  obtain ⟨w, g1, g2, g3, g4⟩ := C164_parafac2 hE hN hQ (α := Equiv.swap 0 1) (τ := Equiv.swap 0 1) (I := 2) (Js := [2, 2]) hs hs
    (fun k hk => by have : k < 2 := hk; interval_cases k <;> simp) (fun l h => by cases h) (fun l h => by cases h) h1 h2
    (by rw [P2State.Separate, h3]; decide) (by rw [P2State.Allocated, h3, h4]; decide)
    (fun i hi r hr => by
      rw [eA, get_full (show Valid [2, 1] [Equiv.swap 0 1 i, r] from ⟨(hs i).2 hi, hr, trivial⟩),
        get_full (show Valid [2, 1] [i, r] from ⟨hi, hr, trivial⟩)])
    (fun i hi r hr => by
      rw [eC, get_full (show Valid [2, 1] [Equiv.swap 0 1 i, r] from ⟨(hs i).2 hi, hr, trivial⟩),
        get_full (show Valid [2, 1] [i, r] from ⟨hi, hr, trivial⟩)])
    (fun k hk i hi j hj => by
      have hk : k < 2 := hk
      have e : ∀ k < 2, nth s.X k = full [2, 2] 5 := fun k hk => by
        rw [h5]; interval_cases k <;> rfl
      have hj : j < 2 := by interval_cases k <;> exact hj
      rw [e _ ((hs k).2 hk), e k hk, get_full (show Valid [2, 2] [Equiv.swap 0 1 i, j] from ⟨(hs i).2 hi, hj, trivial⟩),
        get_full (show Valid [2, 2] [i, j] from ⟨hi, hj, trivial⟩)])
    (fun k hk => by
      have hk : k < 2 := hk
      have e : ∀ k < 2, nth s.P k = full [2, 1] 1 := fun k hk => by
        rw [eP]; interval_cases k <;> rfl
      rw [e _ ((hs k).2 hk), e k hk])
    (p2Plain_admissible (by omega) (by omega) (by decide)) (fun p hp => by cases hp) (show freqOption none ≠ 0 by decide)
    (budget := 10) (mi := some 10) (loggers := []) (file := none) (p2_storing_none rfl _ _)
  refine ⟨h0, d, w, g1, ?_, ?_, ?_⟩
  · have := g2 0 (by omega) 0 (show 0 < 1 by omega)
    rwa [Equiv.swap_apply_left] at this
  · have := g3 0 (show 0 < 2 by omega) 0 (show 0 < 1 by omega)
    rwa [Equiv.swap_apply_left] at this
  · have := g4 0 (show 0 < 2 by omega)
    rwa [Equiv.swap_apply_left] at this

/-! ## Coupled matrices -/

/-- **C164** for `CMTF_ALS`, where the rows of the coupled matrices move with those of their mode and their columns by `τ`; the drawn right
factors must have the symmetry as well. -/
theorem C164_coupled {E : Ext} (hE : E.SVDOk) (hN : E.NNLSOk) (hQ : E.QROk) {c : CMTF.Config}
    {X : NDArray ℝ} (hA : CP.Admissible c.cp.opts none none X.shape)
    (hridge : c.cp.opts.ridgePenalties = none) {Ys : List (NDArray ℝ)} {modes : List Int} {ms qs : List ℕ}
    (hY : CMTF.Coupled X.shape Ys modes ms qs)
    (hlog : c.Measurable ms qs) (hfreq : freqOption c.cp.freq ≠ 0) {arg : InitArg KruskalTensor} {t : KruskalTensor}
    (hi : CP.StartsFrom E c.cp none none arg X t) (ht : t.WF X.shape c.cp.opts.rank)
    {σ τ : ℕ → Equiv.Perm ℕ} (hσ : ∀ k < X.shape.length, ∀ i, σ k i < X.shape.getD k 0 ↔ i < X.shape.getD k 0)
    (hτ : ∀ i < ms.length, ∀ j, τ i j < qs.getD i 0 ↔ j < qs.getD i 0)
    (hX : ∀ idx, Valid X.shape idx → X.get (idx.mapIdx fun k i => σ k i) = X.get idx)
    (hYm : ∀ i < ms.length, ∀ a < X.shape.getD (ms.getD i 0) 0, ∀ j < qs.getD i 0,
      (Ys.getD i noArr).get [σ (ms.getD i 0) a, τ i j] = (Ys.getD i noArr).get [a, j])
    (hstart : ∀ k F, t.factorMatrices[k]? = some F → ∀ i < X.shape.getD k 0, ∀ r < c.cp.opts.rank, F.get [σ k i, r] = F.get [i, r])
    (hdraw : ∀ i < ms.length, ∀ j < qs.getD i 0, ∀ r < c.cp.opts.rank, c.drawN i (τ i j) r = c.drawN i j r)
    {budget : Int} {mi : Option Int} (hb : 0 < mi.getD budget) {loggers : List Logger} {file : Option H5File}
    (hS : Storing (CMTF.method E c) (CMTF.newObject none none budget loggers file) []) :
    ∃ w, CMTF.fit E c X Ys modes mi arg (CMTF.newObject none none budget loggers file) = .ok () w ∧
      (∀ k < X.shape.length, ∀ i < X.shape.getD k 0, ∀ r < c.cp.opts.rank,
        (w.st.cp.dec.factorMatrices.getD k noArr).get [σ k i, r] = (w.st.cp.dec.factorMatrices.getD k noArr).get [i, r]) ∧
      ∀ i < ms.length, ∀ j < qs.getD i 0, ∀ r < c.cp.opts.rank,
        (w.st.V.getD i noArr).get [τ i j, r] = (w.st.V.getD i noArr).get [j, r] := by
  obtain ⟨w, w', h1, h2, h3, h4, -⟩ := C117_cmtf_rows hE hN hQ rfl hA hridge hY hY hlog hlog hfreq hfreq hi hi ht ht rfl hσ hτ hX hYm
    (fun k F F' hF hF' => by rw [hF] at hF'; obtain rfl := Option.some.inj hF'; exact hstart k F hF) hdraw hb hS hS
  rw [h1] at h2
  obtain rfl : w = w' := by injection h2
  exact ⟨w, h1, h3, h4⟩

/-- The hypotheses of `C164_coupled`: a `2 × 2` matrix and a coupled `2 × 3` matrix with equal entries, where all rows and the first two columns
of the coupled matrix are exchanged. -/
example {E : Ext} (hE : E.SVDOk) (hN : E.NNLSOk) (hQ : E.QROk) :
    ∃ w, CMTF.fit E ⟨⟨⟨1, 1e-8, 1e-8, none⟩, "precomputed", none, false, [], fun _ _ _ _ => 0, id, fun _ => none⟩, [], fun _ _ _ => 1, fun _ _ _ => 1⟩
      (full [2, 2] 1) [full [2, 3] 5] [0] (some 10) (.tensor (matrixStart 1 1)) (CMTF.newObject none none 10 [] none) = .ok () w ∧
      (w.st.V.getD 0 noArr).get [1, 0] = (w.st.V.getD 0 noArr).get [0, 0] := by
  have hA : CP.Admissible ⟨1, 1e-8, 1e-8, none⟩ none none (full [2, 2] (1 : ℝ)).shape := by
    refine ⟨by simp, by simp, by simp, by simp, by simp, by simp, by simp, by simp⟩
  have hC : CMTF.Coupled (full [2, 2] (1 : ℝ)).shape [full [2, 3] 5] [0] [0] [3] := by
    refine ⟨.cons ⟨by decide, Or.inl rfl⟩ .nil, rfl, fun i hi => ?_⟩
    obtain rfl : i = 0 := by have : i < 1 := hi; omega
    rfl
  have ht : KruskalTensor.WF (matrixStart 1 1) (full [2, 2] (1 : ℝ)).shape 1 := ⟨rfl, .cons rfl (.cons rfl .nil), rfl⟩
  have hs := swap_lt_two
  have hs3 : ∀ j, Equiv.swap 0 1 j < 3 ↔ j < 3 := fun i => by
    rcases i with _ | _ | i
    · simp
    · simp
    · rw [Equiv.swap_apply_of_ne_of_ne (by omega) (by omega)]
  obtain ⟨w, g1, -, g2⟩ := C164_coupled hE hN hQ
    (c := ⟨⟨⟨1, 1e-8, 1e-8, none⟩, "precomputed", none, false, [], fun _ _ _ _ => 0, id, fun _ => none⟩, [], fun _ _ _ => 1, fun _ _ _ => 1⟩) hA rfl hC
    (fun p hp => by cases hp) (show freqOption none ≠ 0 by decide)
    (startsFrom_precomputed (by
      show "precomputed".toLower = _
      rw [String.toLower, ← String.toList_inj, String.toList_map]; decide) ht) ht (σ := fun _ => Equiv.swap 0 1) (τ := fun _ => Equiv.swap 0 1)
    (fun k hk i => by
      have hk : k < 2 := hk
      interval_cases k <;> exact hs i)
    (fun k hk i => by
      obtain rfl : k = 0 := by have : k < 1 := hk; omega
      exact hs3 i)
    (fun idx hidx => by
      match idx, hidx with
      | [i, j], ⟨a, b, _⟩ =>
        have a : i < 2 := a
        have b : j < 2 := b
        show (full [2, 2] (1 : ℝ)).get [Equiv.swap 0 1 i, Equiv.swap 0 1 j] = _
        rw [get_full (show Valid [2, 2] [_, _] from ⟨(hs i).2 a, (hs j).2 b, trivial⟩), get_full (show Valid [2, 2] [_, _] from ⟨a, b, trivial⟩)])
    (fun k hk a ha j hj => by
      obtain rfl : k = 0 := by have : k < 1 := hk; omega
      have ha : a < 2 := ha
      have hj : j < 3 := hj
      show (full [2, 3] (5 : ℝ)).get [Equiv.swap 0 1 a, Equiv.swap 0 1 j] = (full [2, 3] (5 : ℝ)).get [a, j]
      rw [get_full (show Valid [2, 3] [_, _] from ⟨(hs a).2 ha, (hs3 j).2 hj, trivial⟩), get_full (show Valid [2, 3] [_, _] from ⟨ha, hj, trivial⟩)])
    (fun k F hF i hi r hr => by
      match k, hF with
      | 0, hF =>
        obtain rfl : full [2, 1] 1 = F := Option.some.inj hF
        have a : i < 2 := hi
        rw [get_full (show Valid [2, 1] [Equiv.swap 0 1 i, r] from ⟨(hs i).2 a, hr, trivial⟩),
          get_full (show Valid [2, 1] [i, r] from ⟨a, hr, trivial⟩)]
      | 1, hF =>
        obtain rfl : (ofMat 2 1 fun i _ => if i = 0 then (1 : ℝ) else 1) = F := Option.some.inj hF
        have a : i < 2 := hi
        have hr : r < 1 := hr
        rw [get_ofMat ((hs i).2 a) hr, get_ofMat a hr]
        simp
      | k + 2, hF => exact absurd hF (by simp [matrixStart]))
    (fun _ _ _ _ _ _ => rfl) (budget := 10) (mi := some 10) (by decide) (loggers := []) (file := none)
    ⟨fun h => absurd h (show ¬ (0 : Int) < -1 by decide), fun h => absurd h (show ¬ (0 : Int) < -1 by decide),
      fun h => absurd h (show ¬ (0 : Int) < -1 by decide)⟩
  refine ⟨w, g1, ?_⟩
  have := g2 0 (show 0 < 1 by omega) 0 (show 0 < 3 by omega) 0 (show 0 < 1 by omega)
  rwa [Equiv.swap_apply_left] at this

end

end TK
