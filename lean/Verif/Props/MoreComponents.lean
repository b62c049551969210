import Verif.Props.IterationBound
import Verif.Props.StartScale

/-!
# C160: a fit is at least as good as the models that its start contains

Source: cp.py:385-402 (the updates of an iteration), cp.py:408-426 (the loop).
-/

namespace TK
open NDArray Fit
open EStateM (Result)

noncomputable section

variable {E : Ext}

/-- Spec: the columns of `fs` in the modes after the first are multiples of columns of `gs`: column `r` is `γ k r` times column `σ r`. -/
def ContainedIn (sizes : List ℕ) (R : ℕ) (σ : ℕ → ℕ) (γ : ℕ → ℕ → ℝ) (fs gs : List (NDArray ℝ)) : Prop :=
  ∀ k < sizes.length, 0 < k → ∀ i < sizes.getD k 0, ∀ r < R, (modeMat fs k).get [i, r] = γ k r * (modeMat gs k).get [i, σ r]

/-- The first factor matrix that makes a model with the columns of `gs` equal to the one given by `fs`. -/
def gathered (n d R S : ℕ) (w : ℕ → ℝ) (σ : ℕ → ℕ) (γ : ℕ → ℕ → ℝ) (fs : List (NDArray ℝ)) : NDArray ℝ :=
  ofMat n S fun i q => ∑ r ∈ (Finset.range R).filter (fun r => σ r = q),
    w r * ((modeMat fs 0).get [i, r] * ∏ k ∈ Finset.range (d - 1), γ (k + 1) r)

theorem cpEntry_gathered {sizes : List ℕ} {fs gs : List (NDArray ℝ)} {R S : ℕ} {w : ℕ → ℝ} {σ : ℕ → ℕ} {γ : ℕ → ℕ → ℝ}
    (hf : fs.length = sizes.length) (hg : gs.length = sizes.length) (h0 : 0 < sizes.length) (hσ : ∀ r < R, σ r < S)
    (h : ContainedIn sizes R σ γ fs gs) {idx : List ℕ} (hidx : Valid sizes idx) :
    cpEntry (fun _ => 1) (gs.set 0 (gathered (sizes.getD 0 0) sizes.length R S w σ γ fs)) S idx = cpEntry w fs R idx := by
  obtain ⟨d, hd⟩ : ∃ d, sizes.length = d + 1 := ⟨sizes.length - 1, by omega⟩
  have hl : (gs.set 0 (gathered (sizes.getD 0 0) sizes.length R S w σ γ fs)).length = sizes.length := by rw [List.length_set, hg]
  have h1 : ∀ q < S, rankOne (gs.set 0 (gathered (sizes.getD 0 0) sizes.length R S w σ γ fs)) idx q =
      ∑ r ∈ (Finset.range R).filter (fun r => σ r = q), w r * rankOne fs idx r := by
    intro q hq
    rw [rankOne_eq_prod q (hidx.length_eq.trans hl.symm), hl, hd, Finset.prod_range_succ', modeMat_set_self (by omega),
      Finset.prod_congr rfl fun k _ => by rw [modeMat_set_ne (Nat.succ_ne_zero k)], gathered, get_ofMat (hidx.getD_lt h0) hq, mul_comm,
      Finset.sum_mul]
    refine Finset.sum_congr rfl fun r hr => ?_
    obtain ⟨hr', rfl⟩ := Finset.mem_filter.1 hr
    rw [rankOne_eq_prod r (hidx.length_eq.trans hf.symm), hf, hd, Finset.prod_range_succ', Nat.add_sub_cancel]
    have : ∏ k ∈ Finset.range d, (modeMat fs (k + 1)).get [idx.getD (k + 1) 0, r] =
        (∏ k ∈ Finset.range d, γ (k + 1) r) * ∏ k ∈ Finset.range d, (modeMat gs (k + 1)).get [idx.getD (k + 1) 0, σ r] := by
      rw [← Finset.prod_mul_distrib]
      refine Finset.prod_congr rfl fun k hk => ?_
      have hk' : k + 1 < sizes.length := by have := Finset.mem_range.1 hk; omega
      rw [h (k + 1) hk' (Nat.succ_pos k) _ (hidx.getD_lt hk') r (Finset.mem_range.1 hr')]
    rw [this]
    ring
  rw [cpEntry, cpEntry]
  rw [Finset.sum_congr rfl fun q hq => by rw [one_mul, h1 q (Finset.mem_range.1 hq)]]
  exact Finset.sum_fiberwise_of_maps_to (fun r hr => Finset.mem_range.2 (hσ r (Finset.mem_range.1 hr))) fun r => w r * rankOne fs idx r

/-- **C160.** A fit of `CP_ALS` without constraints and penalties that makes an iteration ends with an error that is at most that of any
model whose columns in the modes after the first are multiples of columns of the start, with any number of components, any weights and
any first factor matrix. -/
theorem C160_contains (hE : E.SVDOk) (hN : E.NNLSOk) (hQ : E.QROk) {c : CP.Config} {X : NDArray ℝ}
    (hA : CP.Admissible c.opts none none X.shape) (hridge : c.opts.ridgePenalties = none)
    (hlog : c.Measurable) (hfreq : freqOption c.freq ≠ 0) {arg : InitArg KruskalTensor} {t : KruskalTensor}
    (hi : CP.StartsFrom E c none none arg X t) (ht : t.WF X.shape c.opts.rank)
    {R : ℕ} {v : ℕ → ℝ} {fs : List (NDArray ℝ)} (hf : fs.length = X.shape.length) {σ : ℕ → ℕ} (hσ : ∀ r < R, σ r < c.opts.rank)
    {γ : ℕ → ℕ → ℝ} (hcol : ContainedIn X.shape R σ γ fs t.factorMatrices)
    {budget : Int} {mi : Option Int} (hb : 0 < mi.getD budget) {loggers : List Logger} {file : Option H5File}
    (hS : Storing (CP.method E c) (CP.newObject none none budget loggers file) []) :
    ∃ w, CP.fit E c X mi arg (CP.newObject none none budget loggers file) = .ok () w ∧
      (0 < w.it → ∃ e, CP.sse w.st = .ok e ∧ e ≤ sqErr X v fs R) := by
  obtain ⟨s0, w, k, e0, h1, h2, h3, h4, -, -, -, hsse, -⟩ := C74_fit_completes hE hN hQ hA hlog hfreq hi ht hb hS
  refine ⟨w, h1, fun hpos => ⟨_, hsse, ?_⟩⟩
  obtain ⟨s0', e0', hG, hXs, -, -, hw, hnn, hon, hdec⟩ := initFit_good (E := E) hQ (old := CP.fresh none none) rfl hA ht
  rw [e0] at e0'
  obtain rfl : s0 = s0' := Except.ok.inj e0'
  have hU : s0.Unconstrained := by
    refine ⟨⟨_, hnn, fun m hm => ?_⟩, ⟨_, hon, fun m hm => ?_⟩⟩ <;>
      simpa [CP.fresh, List.getElem?_replicate] using hXs ▸ hm
  rw [orbit_iterate hE hN hA.rank _ hG] at h4
  rw [← Except.ok.inj h4]
  obtain ⟨j, rfl⟩ : ∃ j, k = j + 1 := ⟨k - 1, by omega⟩
  have hmono := antitone_nat_of_succ_le (f := fun j => (CP.orbit E c.opts s0 j).trueSSE c.opts.rank)
    (orbit_antitone hE hN hA.rank hridge hG hw hU) (Nat.le_add_left 1 j)
  refine hmono.trans ((first_iteration_best hE hN hA.rank hridge hG hw hU
    (Y := gathered (X.shape.getD 0 0) X.shape.length R c.opts.rank v σ γ fs) (by rw [hXs]; rfl)).trans (le_of_eq ?_))
  have hl : t.factorMatrices.length = X.shape.length := ht.factors.length_eq
  have e : (s0.updated 0 c.opts.rank (gathered (X.shape.getD 0 0) X.shape.length R c.opts.rank v σ γ fs)).trueSSE c.opts.rank =
      sqErr X (fun r => s0.dec.weights.get [r]) (t.factorMatrices.set 0 (gathered (X.shape.getD 0 0) X.shape.length R c.opts.rank v σ γ fs))
        c.opts.rank := by
    rw [← hdec rfl, ← hXs]
    rfl
  rw [e, sqErr_congr_weights (w' := fun _ => 1) hw]
  refine sumIdx_congr fun idx hidx => ?_
  rw [cpEntry_gathered hf hl (by have := hA.order; omega) hσ hcol hidx]

/-- C160 for fits one after the other: a fit with more components, started from the columns of the result of a first fit and any other
columns, ends with an error that is not larger. -/
theorem C160_more (hE : E.SVDOk) (hN : E.NNLSOk) (hQ : E.QROk) {c c' : CP.Config} {X : NDArray ℝ}
    (hA : CP.Admissible c.opts none none X.shape) (hA' : CP.Admissible c'.opts none none X.shape)
    (hridge : c'.opts.ridgePenalties = none) (hR : c.opts.rank ≤ c'.opts.rank)
    (hlog : c.Measurable) (hfreq : freqOption c.freq ≠ 0) (hlog' : c'.Measurable) (hfreq' : freqOption c'.freq ≠ 0)
    {arg arg' : InitArg KruskalTensor} {t t' : KruskalTensor}
    (hi : CP.StartsFrom E c none none arg X t) (ht : t.WF X.shape c.opts.rank)
    (hi' : CP.StartsFrom E c' none none arg' X t') (ht' : t'.WF X.shape c'.opts.rank)
    {budget budget' : Int} {mi mi' : Option Int} (hb : 0 < mi.getD budget) (hb' : 0 < mi'.getD budget')
    {loggers loggers' : List Logger} {file file' : Option H5File}
    (hS : Storing (CP.method E c) (CP.newObject none none budget loggers file) [])
    (hS' : Storing (CP.method E c') (CP.newObject none none budget' loggers' file') []) :
    ∃ w w', CP.fit E c X mi arg (CP.newObject none none budget loggers file) = .ok () w ∧
      CP.fit E c' X mi' arg' (CP.newObject none none budget' loggers' file') = .ok () w' ∧
      ((∀ k < X.shape.length, 0 < k → ∀ i < X.shape.getD k 0, ∀ r < c.opts.rank,
          (modeMat t'.factorMatrices k).get [i, r] = (modeMat w.st.dec.factorMatrices k).get [i, r]) → 0 < w'.it →
        ∃ e e', CP.sse w.st = .ok e ∧ CP.sse w'.st = .ok e' ∧ e' ≤ e) := by
  obtain ⟨s0, w, k, e0, h1, h2, h3, h4, -, -, -, hsse, -⟩ := C74_fit_completes hE hN hQ hA hlog hfreq hi ht hb hS
  obtain ⟨s0', w', -, -, h1', -⟩ := C74_fit_completes hE hN hQ hA' hlog' hfreq' hi' ht' hb' hS'
  refine ⟨w, w', h1, h1', fun hcol hpos => ?_⟩
  obtain ⟨s0', e0', hG, hXs, -⟩ := initFit_good (E := E) hQ (old := CP.fresh none none) (o := c.opts) rfl hA ht
  rw [e0] at e0'
  obtain rfl : s0 = s0' := Except.ok.inj e0'
  rw [orbit_iterate hE hN hA.rank _ hG] at h4
  obtain ⟨g, p⟩ := orbit_good hE hN hA.rank hG k
  rw [Except.ok.inj h4] at g p
  obtain ⟨w'', e1, h⟩ := C160_contains hE hN hQ hA' hridge hlog' hfreq' hi' ht' (R := c.opts.rank)
    (v := fun r => w.st.dec.weights.get [r]) (fs := w.st.dec.factorMatrices) (by rw [g.sized.wf.factors.length_eq, p.X, hXs]) (σ := id)
    (fun r hr => hr.trans_le hR) (γ := fun _ _ => 1) (fun k hk h0 i hi r hr => by rw [one_mul]; exact (hcol k hk h0 i hi r hr).symm) hb' hS'
  rw [h1'] at e1
  obtain rfl : w' = w'' := by injection e1
  obtain ⟨e', q1, q2⟩ := h hpos
  refine ⟨_, e', hsse, q1, q2.trans (le_of_eq ?_)⟩
  rw [CPState.trueSSE, p.X, hXs]

/-- For the matrix with diagonal 2, 1 and the start whose second column vector is (0, 1), any fit has an error of at most 4, the error of the
model with the columns (0, -1/3) and (0, -3); here for 10 iterations at most. -/
example (hE : E.SVDOk) (hN : E.NNLSOk) (hQ : E.QROk) :
    ∃ w, CP.fit E matrixConfig matrix21 (some 10) (.tensor (matrixStart 0 1)) (CP.newObject none none 10 [] none) = .ok () w ∧
      (0 < w.it → ∃ e, CP.sse w.st = .ok e ∧ e ≤ sqErr matrix21 (fun _ => 1)
        [ofMat 2 1 fun i _ => if i = 0 then 0 else -1 / 3, ofMat 2 1 fun i _ => if i = 0 then 0 else -3] 1) := by
  have ht : (matrixStart 0 1).WF matrix21.shape matrixConfig.opts.rank := ⟨rfl, .cons rfl (.cons rfl .nil), rfl⟩
  have hi : matrixConfig.init.toLower = "precomputed" := by
    show "precomputed".toLower = _
    rw [String.toLower, ← String.toList_inj, String.toList_map]; decide
  refine C160_contains hE hN hQ ⟨by decide, by simp [matrix21], by simp [matrix21], by simp, by simp, by simp [matrixConfig], by simp, by simp⟩
    rfl (fun p hp => by cases hp) (show freqOption none ≠ 0 by decide) (startsFrom_precomputed hi ht) ht rfl (σ := fun _ => 0)
    (fun _ _ => Nat.one_pos) (γ := fun _ _ => -3) ?_ (by decide)
    ⟨fun h => absurd h (show ¬ (0 : Int) < -1 by decide), fun h => absurd h (show ¬ (0 : Int) < -1 by decide),
      fun h => absurd h (show ¬ (0 : Int) < -1 by decide)⟩
  intro k hk h0 i hi r hr
  obtain rfl : k = 1 := by have : k < 2 := hk; omega
  have hi' : i < 2 := hi
  show (ofMat 2 1 fun i _ => if i = 0 then (0 : ℝ) else -3).get [i, r] = -3 * (ofMat 2 1 fun i _ => if i = 0 then (0 : ℝ) else 1).get [i, 0]
  rw [get_ofMat hi' hr, get_ofMat hi' Nat.one_pos]
  split <;> norm_num

end

end TK
