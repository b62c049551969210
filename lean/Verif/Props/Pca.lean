import Verif.LinAlg.Pca
import Verif.Props.CPFit
import Verif.Props.Parafac2Fit
import Verif.Props.CMTFFit
import Verif.Props.Scores

/-!
# C155: a model with `R` components explains at most as much as `R` principal components of an unfolding

Source: cp.py:168-181 (`SSE`), parafac2.py:218-223 (`SSE`), cmtf.py:33-44 and the fits. The eigenvalues of the matrix of the inner products of the rows of an
unfolding are the squares of its singular values.
-/

namespace TK
open NDArray Fit Matrix

noncomputable section

/-- Spec: the inner products of the rows of the mode-`k` unfolding. -/
def rowGram (X : NDArray ℝ) (k n : ℕ) : Matrix (Fin n) (Fin n) ℝ := fun i j =>
  sumIdx (X.shape.eraseIdx k) fun idx => X.get (idx.insertIdx k i) * X.get (idx.insertIdx k j)

/-- Spec: the inner products of the rows of the slices side by side, the sum of the `X_k X_kᵀ`. -/
def slicesGram (X : List (NDArray ℝ)) (I : ℕ) (Js : List ℕ) : Matrix (Fin I) (Fin I) ℝ := fun i j =>
  ∑ k ∈ Finset.range Js.length, ∑ q ∈ Finset.range (Js.getD k 0), (nth X k).get [(i : ℕ), q] * (nth X k).get [(j : ℕ), q]

variable {X : NDArray ℝ} {k R : ℕ}

/-- The mode-`k` unfolding as a matrix. -/
def rowsMat (X : NDArray ℝ) (k n : ℕ) : Matrix (Fin n) (Fin (X.shape.eraseIdx k).prod) ℝ := fun i p =>
  X.get ((unravel (X.shape.eraseIdx k) p).insertIdx k i)

theorem rowGram_eq (n : ℕ) : rowGram X k n = rowsMat X k n * (rowsMat X k n)ᵀ := by
  ext i j
  rw [rowGram, mul_apply, ← sum_unravel, Finset.sum_range]
  rfl

/-- `rowGram` belongs to what `unfold` returns. -/
theorem rowGram_unfold (hk : k < X.shape.length) (h0 : X.shape.getD k 0 ≠ 0) :
    ∃ M, unfold X k = .ok M ∧ rowGram X k (X.shape.getD k 0) =
      mat M (X.shape.getD k 0) (X.shape.eraseIdx k).prod * (mat M (X.shape.getD k 0) (X.shape.eraseIdx k).prod)ᵀ := by
  refine ⟨_, unfold_eq X (norm_nat hk) h0, ?_⟩
  have e : mat (ofMat (X.shape.getD k 0) (X.shape.eraseIdx k).prod fun i p => X.get ((unravel (X.shape.eraseIdx k) p).insertIdx k i))
      (X.shape.getD k 0) (X.shape.eraseIdx k).prod = rowsMat X k (X.shape.getD k 0) := by
    ext i p
    rw [mat, get_ofMat i.2 p.2]; rfl
  rw [e, rowGram_eq]

/-- **C155** (models): a CP model with `R` components leaves at least the eigenvalues beyond the `R` largest. -/
theorem C155_model {w : ℕ → ℝ} {fs : List (NDArray ℝ)} (hf : fs.length = X.shape.length) (hk : k < X.shape.length)
    {l : Fin (X.shape.getD k 0) → ℝ} (hl : LA.Eigenvalues (rowGram X k (X.shape.getD k 0)) l) :
    LA.tailSum l R ≤ sqErr X w fs R := by
  rw [rowGram_eq] at hl
  have hk' : k < fs.length := by omega
  refine (LA.tailSum_le hl (R := R) (of fun i r => w r * (fs[k]).get [(i : ℕ), (r : ℕ)])
    (of fun p r => rankOne (fs.eraseIdx k) (unravel (X.shape.eraseIdx k) p) r)).trans (le_of_eq ?_)
  rw [LA.fsq, sqErr, sumIdx_split hk, Finset.sum_range]
  refine Finset.sum_congr rfl fun i _ => ?_
  rw [← sum_unravel, Finset.sum_range]
  refine Finset.sum_congr rfl fun p _ => ?_
  rw [cpEntry_insertIdx w hk' (by
    rw [(unravel_valid (s := X.shape.eraseIdx k) p.2).length_eq, List.length_eraseIdx_of_lt hk]; omega), Finset.sum_range, Matrix.sub_apply, mul_apply]
  congr 2
  exact Finset.sum_congr rfl fun r _ => by rw [transpose_apply, of_apply, of_apply]; ring

/-- **C155** (CP): whatever the constraints, penalties and start, the error that `CP_ALS` reports is at least the sum of the
squared singular values of every unfolding beyond the `R` largest. -/
theorem C155_cp {E : Ext} (hE : E.SVDOk) (hN : E.NNLSOk) (hQ : E.QROk) {c : CP.Config}
    {nonNeg orth : Option (List Bool)} (hA : CP.Admissible c.opts nonNeg orth X.shape)
    (hlog : c.Measurable) (hfreq : freqOption c.freq ≠ 0) {arg : InitArg KruskalTensor} {t : KruskalTensor}
    (hi : CP.StartsFrom E c nonNeg orth arg X t)
    (ht : t.WF X.shape c.opts.rank) {budget : Int} {mi : Option Int} (hb : 0 < mi.getD budget)
    {loggers : List Logger} {file : Option H5File}
    (hS : Storing (CP.method E c) (CP.newObject nonNeg orth budget loggers file) []) :
    ∃ w e, CP.fit E c X mi arg (CP.newObject nonNeg orth budget loggers file) = .ok () w ∧ CP.sse w.st = .ok e ∧
      ∀ k < X.shape.length, ∀ l, LA.Eigenvalues (rowGram X k (X.shape.getD k 0)) l → LA.tailSum l c.opts.rank ≤ e := by
  obtain ⟨s0, w, n, e0, h1, -, hit, h2, -, -, hwf, hsse, hXw, -⟩ := C74_fit_completes hE hN hQ hA hlog hfreq hi ht hb hS
  refine ⟨w, _, h1, hsse, fun k hk l hl => ?_⟩
  rw [CPState.trueSSE, hXw]
  exact C155_model hwf.factors.length_eq hk hl

variable {I : ℕ} {Js : List ℕ} {s : P2State}

/-- **C155** (PARAFAC2 models): the slices side by side. -/
theorem C155_slices {Xs P : List (NDArray ℝ)} {A D C : NDArray ℝ} {l : Fin I → ℝ} (hl : LA.Eigenvalues (slicesGram Xs I Js) l) :
    LA.tailSum l R ≤ p2Err Xs P A D C I Js R := by
  set M : Matrix (Fin I) (Σ k : Fin Js.length, Fin (Js.getD k 0)) ℝ := fun i p => (nth Xs p.1).get [(i : ℕ), (p.2 : ℕ)] with hM
  have hG : slicesGram Xs I Js = M * Mᵀ := by
    ext i j
    rw [slicesGram, mul_apply, Finset.sum_range]
    refine Eq.trans ?_ (Fintype.sum_sigma fun p => M i p * Mᵀ p j).symm
    refine Finset.sum_congr rfl fun k _ => ?_
    rw [Finset.sum_range]
    rfl
  rw [hG] at hl
  refine (LA.tailSum_le hl (R := R) (of fun i r => A.get [(i : ℕ), (r : ℕ)])
    (of fun p r => C.get [(p.1 : ℕ), (r : ℕ)] * ∑ q ∈ Finset.range R, (nth P p.1).get [(p.2 : ℕ), q] * D.get [q, (r : ℕ)])).trans
    (le_of_eq ?_)
  rw [LA.fsq, p2Err, Finset.sum_comm (s := Finset.range Js.length) (t := Finset.range I), Finset.sum_range]
  refine Finset.sum_congr rfl fun i _ => ?_
  refine (Fintype.sum_sigma _).trans ?_
  rw [Finset.sum_range]
  refine Finset.sum_congr rfl fun k _ => ?_
  rw [Finset.sum_range]
  refine Finset.sum_congr rfl fun j _ => ?_
  rw [p2Entry, Finset.sum_range, Matrix.sub_apply, mul_apply]
  congr 2
  exact Finset.sum_congr rfl fun r _ => by rw [transpose_apply, of_apply, of_apply]; ring

/-- **C155** (PARAFAC2): the same for the slices side by side, and for every slice alone. -/
theorem C155_parafac2 {E : Ext} (hE : E.SVDOk) (hN : E.NNLSOk) (hQ : E.QROk) {c : P2.Config} {D : P2Data} {arg : InitArg P2Obj}
    {h0 : Heap} (hi : P2.StartsFrom E c D arg h0 s) (h : s.Sized I Js c.opts.rank) (hs : s.Distinct) (hal : s.Allocated)
    (hA : P2.Admissible c.opts I Js.length) (hlog : c.Measurable I Js) (hfreq : freqOption c.freq ≠ 0)
    {budget : Int} {mi : Option Int} {loggers : List Logger} {file : Option H5File}
    (hS : Storing (P2.method E c) (P2.newObject h0 budget loggers file) []) :
    ∃ w e, P2.fit E c D mi arg (P2.newObject h0 budget loggers file) = .ok () w ∧ P2.sse w.st = .ok e ∧
      ∀ l, LA.Eigenvalues (slicesGram s.X I Js) l → LA.tailSum l c.opts.rank ≤ e := by
  obtain ⟨l, sp, w', k, el, ep, -, hfit, -, hit, hst, -, hstop, -, hsse, hX, -⟩ := C80_fit_completes hE hN hQ hi h hs hal hA hlog hfreq (mi := mi) hS
  refine ⟨w', _, hfit, hsse, fun l hl => ?_⟩
  rw [P2State.err, hX]
  exact C155_slices hl

/-- Spec: the inner products of the rows of the mode-`k` unfolding with the matrices coupled to this mode beside it. -/
def coupledGram (X : NDArray ℝ) (Ys : List (NDArray ℝ)) (ms qs : List ℕ) (k n : ℕ) : Matrix (Fin n) (Fin n) ℝ := fun i j =>
  rowGram X k n i j + ∑ m ∈ (Finset.range ms.length).filter fun m => ms.getD m 0 = k, ∑ q ∈ Finset.range (qs.getD m 0),
    (Ys.getD m noArr).get [(i : ℕ), q] * (Ys.getD m noArr).get [(j : ℕ), q]

theorem sum_if_fin {p : Prop} [Decidable p] (n : ℕ) (f : ℕ → ℝ) :
    ∑ q : Fin (if p then n else 0), f q = if p then ∑ q ∈ Finset.range n, f q else 0 := by
  by_cases h : p
  · rw [if_pos h, Fin.sum_univ_eq_sum_range f, if_pos h]
  · rw [if_neg h, Fin.sum_univ_eq_sum_range f, if_neg h, Finset.sum_range_zero]

/-- **C155** (coupled models). -/
theorem C155_coupled {w : ℕ → ℝ} {fs Ys Vs : List (NDArray ℝ)} {ms qs : List ℕ} (hf : fs.length = X.shape.length)
    (hk : k < X.shape.length) (hY : ∀ i < ms.length, (Ys.getD i noArr).shape = [X.shape.getD (ms.getD i 0) 0, qs.getD i 0])
    {l : Fin (X.shape.getD k 0) → ℝ} (hl : LA.Eigenvalues (coupledGram X Ys ms qs k (X.shape.getD k 0)) l) :
    LA.tailSum l R ≤ sqErr X w fs R + coupledErr fs Ys Vs ms R := by
  set n := X.shape.getD k 0 with hn
  set M : Matrix (Fin n) (Fin (X.shape.eraseIdx k).prod ⊕ Σ m : Fin ms.length, Fin (if ms.getD m 0 = k then qs.getD m 0 else 0)) ℝ :=
    fun i p => match p with
      | .inl p => rowsMat X k n i p
      | .inr p => (Ys.getD p.1 noArr).get [(i : ℕ), (p.2 : ℕ)] with hM
  have hG : coupledGram X Ys ms qs k n = M * Mᵀ := by
    ext i j
    rw [coupledGram, mul_apply]
    refine Eq.trans ?_ (Fintype.sum_sum_type fun p => M i p * Mᵀ p j).symm
    congr 1
    · rw [rowGram_eq, mul_apply]; rfl
    · refine Eq.trans ?_ (Fintype.sum_sigma fun p => M i (.inr p) * Mᵀ (.inr p) j).symm
      rw [Finset.sum_filter, Finset.sum_range]
      refine Finset.sum_congr rfl fun m _ => ?_
      exact (sum_if_fin _ fun q => (Ys.getD m noArr).get [(i : ℕ), q] * (Ys.getD m noArr).get [(j : ℕ), q]).symm
  rw [hG] at hl
  have hk' : k < fs.length := by omega
  refine (LA.tailSum_le hl (R := R) (of fun i r => (fs[k]).get [(i : ℕ), (r : ℕ)])
    (of fun p r => match p with
      | .inl p => w r * rankOne (fs.eraseIdx k) (unravel (X.shape.eraseIdx k) p) r
      | .inr p => (Vs.getD p.1 noArr).get [(p.2 : ℕ), (r : ℕ)])).trans ?_
  have h1 : ∀ B : (Fin (X.shape.eraseIdx k).prod ⊕ Σ m : Fin ms.length, Fin (if ms.getD m 0 = k then qs.getD m 0 else 0)) → Fin R → ℝ,
      LA.fsq (M - (of fun (i : Fin n) (r : Fin R) => (fs[k]).get [(i : ℕ), (r : ℕ)]) * (of B)ᵀ) = (∑ i, ∑ p, (rowsMat X k n i p -
      ∑ r : Fin R, (fs[k]).get [(i : ℕ), (r : ℕ)] * B (.inl p) r) ^ 2) + ∑ i : Fin n, ∑ m : Fin ms.length,
        ∑ q : Fin (if ms.getD m 0 = k then qs.getD m 0 else 0), ((Ys.getD m noArr).get [(i : ℕ), (q : ℕ)] -
          ∑ r : Fin R, (fs[k]).get [(i : ℕ), (r : ℕ)] * B (.inr ⟨m, q⟩) r) ^ 2 := by
    intro B
    rw [LA.fsq, ← Finset.sum_add_distrib]
    refine Finset.sum_congr rfl fun i _ => ?_
    refine (Fintype.sum_sum_type _).trans ?_
    congr 1
    exact Fintype.sum_sigma _
  rw [h1]
  refine add_le_add (le_of_eq ?_) ?_
  · rw [sqErr, sumIdx_split hk, Finset.sum_range]
    refine Finset.sum_congr rfl fun i _ => ?_
    rw [← sum_unravel, Finset.sum_range]
    refine Finset.sum_congr rfl fun p _ => ?_
    rw [cpEntry_insertIdx w hk' (by
      rw [(unravel_valid (s := X.shape.eraseIdx k) p.2).length_eq, List.length_eraseIdx_of_lt hk]; omega), Finset.sum_range]
    congr 2
    exact Finset.sum_congr rfl fun r _ => by ring
  · rw [Finset.sum_comm, coupledErr, Finset.sum_range]
    refine Finset.sum_le_sum fun m _ => ?_
    rw [Finset.sum_congr rfl fun i _ => sum_if_fin (p := ms.getD m 0 = k) (qs.getD m 0) fun q => ((Ys.getD m noArr).get [((i : Fin n) : ℕ), q] -
      ∑ r : Fin R, (fs[k]).get [(i : ℕ), (r : ℕ)] * (Vs.getD m noArr).get [q, (r : ℕ)]) ^ 2]
    by_cases hm : ms.getD m 0 = k
    · simp only [if_pos hm]
      rw [coupledErrAt, matErr, hY m m.2, hm, getD_of_lt hk', ← hn]
      refine le_of_eq ?_
      show _ = ∑ i ∈ Finset.range n, ∑ j ∈ Finset.range (qs.getD m 0), _
      rw [Finset.sum_range]
      refine Finset.sum_congr rfl fun i _ => Finset.sum_congr rfl fun q _ => ?_
      rw [Finset.sum_range fun r => (fs[k]).get [(i : ℕ), r] * (Vs.getD m noArr).get [q, r]]
    · simp only [if_neg hm]
      rw [Finset.sum_const_zero, coupledErrAt, matErr]
      exact Finset.sum_nonneg fun _ _ => Finset.sum_nonneg fun _ _ => sq_nonneg _

/-- **C155** (coupled fits): the same for the unfolding with the matrices coupled to its mode beside it. -/
theorem C155_cmtf {E : Ext} (hE : E.SVDOk) (hN : E.NNLSOk) (hQ : E.QROk) {c : CMTF.Config}
    {nonNeg orth : Option (List Bool)} (hA : CP.Admissible c.cp.opts nonNeg orth X.shape)
    (hnn : ∀ l, nonNeg = some l → l = List.replicate X.shape.length false)
    {Ys : List (NDArray ℝ)} {modes : List Int} {ms qs : List ℕ} (hC : CMTF.Coupled X.shape Ys modes ms qs)
    (hlog : c.Measurable ms qs) (hfreq : freqOption c.cp.freq ≠ 0) {arg : InitArg KruskalTensor} {t : KruskalTensor}
    (hi : CP.StartsFrom E c.cp nonNeg orth arg X t) (ht : t.WF X.shape c.cp.opts.rank)
    {budget : Int} {mi : Option Int} (hb : 0 < mi.getD budget) {loggers : List Logger} {file : Option H5File}
    (hS : Storing (CMTF.method E c) (CMTF.newObject nonNeg orth budget loggers file) []) :
    ∃ w e, CMTF.fit E c X Ys modes mi arg (CMTF.newObject nonNeg orth budget loggers file) = .ok () w ∧ CMTF.sse w.st = .ok e ∧
      ∀ k < X.shape.length, ∀ l, LA.Eigenvalues (coupledGram X Ys ms qs k (X.shape.getD k 0)) l → LA.tailSum l c.cp.opts.rank ≤ e := by
  obtain ⟨u, s0, sk, w, n, -, h1, -, -, -, -, -, -, -, hsz, hX, hY, -, hsse, -⟩ :=
    C83_fit_completes hE hN hQ hA hnn hC hlog hfreq hi ht hb hS
  refine ⟨w, _, h1, hsse, fun k hk l hl => ?_⟩
  rw [CMTFState.trueLoss, CPState.trueSSE, hX, hY]
  have hs := hsz.shapeY
  rw [hX, hY] at hs
  refine C155_coupled ?_ hk hs hl
  have := hsz.cp.wf.factors.length_eq
  rw [hX] at this
  exact this

/-- The eigenvalues exist for all data. -/
theorem C155_exist (X : NDArray ℝ) (Xs Ys : List (NDArray ℝ)) (Js ms qs : List ℕ) (k n : ℕ) :
    (∃ l, LA.Eigenvalues (rowGram X k n) l) ∧ (∃ l, LA.Eigenvalues (slicesGram Xs n Js) l) ∧
      ∃ l, LA.Eigenvalues (coupledGram X Ys ms qs k n) l := by
  have h : ∀ G : Matrix (Fin n) (Fin n) ℝ, Gᵀ = G → ∃ l, LA.Eigenvalues G l := fun G hG => by
    obtain ⟨U, l, h1, h2, h3⟩ := LA.exists_eig hG
    exact ⟨l, h1, U, h2, h3⟩
  have h1 : ∀ i j, rowGram X k n i j = rowGram X k n j i := fun i j => sumIdx_congr fun idx _ => mul_comm _ _
  refine ⟨h _ ?_, h _ ?_, h _ ?_⟩
  · ext i j
    exact h1 j i
  · ext i j
    rw [transpose_apply, slicesGram, slicesGram]
    exact Finset.sum_congr rfl fun m _ => Finset.sum_congr rfl fun q _ => mul_comm _ _
  · ext i j
    exact congrArg₂ (· + ·) (h1 j i) (Finset.sum_congr rfl fun m _ => Finset.sum_congr rfl fun q _ => mul_comm _ _)

/-! ## Examples -/

/-- The `2 × 2` data of the example, `diag(2, 1)`. -/
def pcaData : NDArray ℝ := ofMat 2 2 fun i j => if i = j then (if i = 0 then 2 else 1) else 0

/-- The eigenvalues of `diag(2, 1) diag(2, 1)ᵀ` are 4 and 1; one component leaves at least 1. -/
theorem pcaData_eigenvalues : LA.Eigenvalues (rowGram pcaData 0 2) ![4, 1] ∧ LA.tailSum ![4, 1] 1 = 1 := by
  have hg : rowGram pcaData 0 2 = !![4, 0; 0, 1] := by
    have h : ∀ i j : ℕ, i < 2 → j < 2 → pcaData.get [i, j] = if i = j then (if i = 0 then 2 else 1) else 0 :=
      fun i j hi hj => get_ofMat hi hj
    ext i j
    show sumIdx [2] _ = _
    rw [sumIdx, Finset.sum_range_succ, Finset.sum_range_one]
    simp only [sumIdx, List.insertIdx_zero]
    rw [h _ _ i.2 (by omega), h _ _ j.2 (by omega), h _ _ i.2 (by omega), h _ _ j.2 (by omega)]
    fin_cases i <;> fin_cases j <;> norm_num
  refine ⟨⟨?_, 1, by simp, ?_⟩, ?_⟩
  · intro i j hij
    fin_cases i <;> fin_cases j <;> simp_all
  · rw [hg, Matrix.mul_one, Matrix.one_mul]
    ext i j
    fin_cases i <;> fin_cases j <;> simp
  · simp [LA.tailSum, Fin.sum_univ_two]

/-- Every fit of `diag(2, 1)` with one component from the start of ones reports an error of at least 1. -/
example {E : Ext} (hE : E.SVDOk) (hN : E.NNLSOk) (hQ : E.QROk) (n : ℕ) :
    ∃ w e, CP.fit E ⟨⟨1, 0, 0, none⟩, "precomputed", none, true, [], fun _ _ _ _ => 0, id, fun _ => none⟩ pcaData (some (n + 1))
      (.tensor ⟨1, [full [2, 1] 1, full [2, 1] 1], full [1] 1⟩) (CP.newObject none none 10 [] none) = .ok () w ∧
      CP.sse w.st = .ok e ∧ 1 ≤ e := by
  have ht : (⟨1, [full [2, 1] 1, full [2, 1] 1], full [1] 1⟩ : KruskalTensor).WF pcaData.shape 1 := ⟨rfl, .cons rfl (.cons rfl .nil), rfl⟩
  obtain ⟨w, e, h1, h2, h3⟩ := C155_cp (X := pcaData) hE hN hQ
    (c := ⟨⟨1, 0, 0, none⟩, "precomputed", none, true, [], fun _ _ _ _ => 0, id, fun _ => none⟩) (nonNeg := none) (orth := none)
    ⟨by decide, by simp [pcaData], by simp [pcaData], by simp, by simp, by simp, by simp, by simp⟩
    (by intro p hp; simp at hp) (show freqOption none ≠ 0 by decide)
    (startsFrom_precomputed (by
      show "precomputed".toLower = _
      rw [String.toLower, ← String.toList_inj, String.toList_map]; decide) ht) ht (budget := 10) (mi := some ((n : Int) + 1))
    (by simp only [Option.getD_some]; omega) (loggers := []) (file := none)
    ⟨fun h => absurd h (show ¬ (0 : Int) < -1 by decide), fun h => absurd h (show ¬ (0 : Int) < -1 by decide),
      fun h => absurd h (show ¬ (0 : Int) < -1 by decide)⟩
  refine ⟨w, e, h1, h2, ?_⟩
  have := h3 0 (by simp [pcaData]) _ pcaData_eigenvalues.1
  exact pcaData_eigenvalues.2 ▸ this

end

end TK
