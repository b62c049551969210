import Verif.Props.ExplainedRidge

/-!
# C166: the fitted model is never longer than the data

Source: cp.py (`CP_ALS._fit`), decompositions.py (`KruskalTensor.construct_tensor`). Components of a fit can grow without bound while they cancel
each other (degeneracy), but their sum cannot.
-/

namespace TK
open NDArray Fit
open EStateM (Result)

noncomputable section

theorem le_sumIdx : ∀ {s : List ℕ} {f : List ℕ → ℝ} {idx : List ℕ}, (∀ i, 0 ≤ f i) → Valid s idx → f idx ≤ sumIdx s f
  | [], f, idx, _, h => by
    have : idx = [] := by simpa [Valid] using h
    rw [this, sumIdx_nil]
  | n :: s, f, idx, h0, h => by
    obtain ⟨i, is, rfl, hi, his⟩ := valid_cons_iff.1 h
    rw [sumIdx_cons]
    refine (le_sumIdx (f := fun is => f (i :: is)) (fun _ => h0 _) his).trans ?_
    exact Finset.single_le_sum (f := fun i => sumIdx s fun is => f (i :: is)) (fun j _ => sumIdx_nonneg fun _ _ => h0 _) (Finset.mem_range.2 hi)

/-- Spec: `construct_tensor` returns a tensor of the same size as `X` whose norm is at most that of `X`, so that no entry exceeds this norm. -/
def Shorter (t : KruskalTensor) (X : NDArray ℝ) : Prop :=
  ∃ T, t.constructTensor = .ok T ∧ T.shape = X.shape ∧ sumSq T ≤ sumSq X ∧
    ∀ idx, Valid X.shape idx → |T.get idx| ≤ Real.sqrt (sumSq X)

theorem shorter_of {t : KruskalTensor} {X : NDArray ℝ} {R : ℕ} (h : t.WF X.shape R) (h2 : 2 ≤ X.shape.length)
    (hle : modelSq X.shape (fun r => t.weights.get [r]) t.factorMatrices R ≤ sumSq X) : Shorter t X := by
  refine ⟨_, constructTensor_eq h h2, rfl, ?_, fun idx hidx => ?_⟩
  · refine le_trans (le_of_eq ?_) hle
    show (sumIdx X.shape fun idx => _) = sumIdx X.shape fun idx => _
    exact sumIdx_congr fun idx hidx => by rw [get_ofFn hidx]
  · rw [get_ofFn hidx]
    refine Real.abs_le_sqrt (le_trans ?_ hle)
    exact le_sumIdx (f := fun idx => cpEntry _ _ R idx ^ 2) (fun _ => sq_nonneg _) hidx

variable {E : Ext} {c : CP.Config} {nonNeg orth : Option (List Bool)} {X : NDArray ℝ}

/-- **C166**, any number of components, no constraint on the last mode, with or without penalties: after a fit of `CP_ALS` with at least one
iteration the tensor that the decomposition represents is not longer than the data. -/
theorem C166_shorter (hE : E.SVDOk) (hN : E.NNLSOk) (hQ : E.QROk) (hA : CP.Admissible c.opts nonNeg orth X.shape)
    (hF : CP.LastFree c.opts nonNeg orth X.shape.length ∨ CP.LastRidge c.opts nonNeg orth X.shape.length)
    (hlog : c.Measurable) (hfreq : freqOption c.freq ≠ 0) {arg : InitArg KruskalTensor} {t : KruskalTensor}
    (hi : CP.StartsFrom E c nonNeg orth arg X t) (ht : t.WF X.shape c.opts.rank) {budget : Int} {mi : Option Int} (hb : 0 < mi.getD budget)
    {loggers : List Logger} {file : Option H5File} (hS : Storing (CP.method E c) (CP.newObject nonNeg orth budget loggers file) []) :
    ∃ w, CP.fit E c X mi arg (CP.newObject nonNeg orth budget loggers file) = .ok () w ∧ (1 ≤ w.it → Shorter w.st.dec X) := by
  obtain ⟨s0, w, k, -, h1, -, -, -, -, -, hwf, hsse, hX', -⟩ := C74_fit_completes hE hN hQ hA hlog hfreq hi ht hb hS
  refine ⟨w, h1, fun hk => shorter_of hwf hA.order ?_⟩
  have h0 : 0 ≤ w.st.trueSSE c.opts.rank := sumIdx_nonneg fun _ _ => sq_nonneg _
  rcases hF with hF | hF
  · obtain ⟨w', h1', -, h⟩ := C100_fit_partial hE hN hQ hA hF hlog hfreq hi ht hb hS
    obtain rfl : w = w' := by rw [h1] at h1'; injection h1'
    have h2 := (h hk).2.1
    rw [hsse] at h2
    have := Except.ok.inj h2
    linarith
  · obtain ⟨w', h1', -, h⟩ := C100_ridge_partial hE hN hQ hA hF hlog hfreq hi ht hb hS
    obtain rfl : w = w' := by rw [h1] at h1'; injection h1'
    obtain ⟨e, h2, h3⟩ := (h hk).1
    rw [hsse] at h2
    have := Except.ok.inj h2
    linarith

/-- **C166** for one component and non-negativity constraints on any modes. -/
theorem C166_one_component (hE : E.SVDOk) (hN : E.NNLSOk) (hQ : E.QROk) (hA : CP.Admissible c.opts nonNeg none X.shape)
    (hridge : c.opts.ridgePenalties = none) (hR : c.opts.rank = 1)
    (hlog : c.Measurable) (hfreq : freqOption c.freq ≠ 0) {arg : InitArg KruskalTensor} {t : KruskalTensor}
    (hi : CP.StartsFrom E c nonNeg none arg X t) (ht : t.WF X.shape c.opts.rank) {budget : Int} {mi : Option Int} (hb : 0 < mi.getD budget)
    {loggers : List Logger} {file : Option H5File} (hS : Storing (CP.method E c) (CP.newObject nonNeg none budget loggers file) []) :
    ∃ w, CP.fit E c X mi arg (CP.newObject nonNeg none budget loggers file) = .ok () w ∧ (1 ≤ w.it → Shorter w.st.dec X) := by
  obtain ⟨s0, w, k, -, h1, -, -, -, -, -, hwf, hsse, hX', -⟩ := C74_fit_completes hE hN hQ hA hlog hfreq hi ht hb hS
  refine ⟨w, h1, fun hk => shorter_of hwf hA.order ?_⟩
  have h0 : 0 ≤ w.st.trueSSE c.opts.rank := sumIdx_nonneg fun _ _ => sq_nonneg _
  obtain ⟨w', h1', -, -, hone, h⟩ := C100_one_partial hE hN hQ hA hridge (Or.inl hR) hlog hfreq hi ht hb hS
  obtain rfl : w = w' := by rw [h1] at h1'; injection h1'
  have h2 := (h hk).2.1
  rw [hsse] at h2
  have h3 := Except.ok.inj h2
  have h4 : modelSq X.shape (fun r => w.st.dec.weights.get [r]) w.st.dec.factorMatrices c.opts.rank =
      modelSq X.shape (fun _ => 1) w.st.dec.factorMatrices c.opts.rank :=
    sumIdx_congr fun idx _ => by rw [cpEntry_congr_weights hone]
  linarith

/-- The hypotheses are met by a fit with two components, a non-negative first factor matrix and penalties: no entry of the model exceeds
`√19 = ‖evData‖`. -/
example (hE : E.SVDOk) (hN : E.NNLSOk) (hQ : E.QROk) : ∃ w,
    CP.fit E evRidged evData (some 5) (.tensor evStart) (CP.newObject (some [true, false]) none 1 [] none) = .ok () w ∧
      (1 ≤ w.it → Shorter w.st.dec evData) := by
  have hi : evRidged.init.toLower = "precomputed" := by
    show "precomputed".toLower = _
    rw [String.toLower, ← String.toList_inj, String.toList_map]; decide
  have ht : evStart.WF evData.shape 2 := ⟨rfl, by simp [Factors, evStart, evData], rfl⟩
  exact C166_shorter hE hN hQ (c := evRidged) (X := evData) (nonNeg := some [true, false]) (orth := none)
    ⟨by decide, by simp [evData], by simp [evData], by simp [evData], by simp, by simp [evRidged, evData], by simp, by simp⟩
    (Or.inr ⟨Or.inr (by simp [evData]), by simp, [3, 2], 2, rfl, by simp [evData], by simp⟩) (by intro p hp; simp [evRidged, evConfig] at hp) (by decide)
    (startsFrom_precomputed hi ht) ht (mi := some 5) (budget := 1) (by decide)
    ⟨fun h => absurd h (show ¬ (0 : Int) < -1 by decide), fun h => absurd h (show ¬ (0 : Int) < -1 by decide),
      fun h => absurd h (show ¬ (0 : Int) < -1 by decide)⟩

end
end TK
