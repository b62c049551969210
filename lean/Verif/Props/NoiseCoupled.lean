import Verif.Props.Noise
import Verif.Props.CoupledVariance

/-!
# C163: the distance of coupled models to the truth

Source: cmtf.py (`SSE`, `_fit`). The statement of `C163_cp` for coupled models: the distance is that of the tensor and of all coupled matrices.
-/

namespace TK
open NDArray Fit
open EStateM (Result)

noncomputable section

theorem cauchy_add {A A' B B' c c' : ℝ} (hA : 0 ≤ A) (hA' : 0 ≤ A') (hB : 0 ≤ B) (hB' : 0 ≤ B') (h : c ^ 2 ≤ A * B) (h' : c' ^ 2 ≤ A' * B') :
    (c + c') ^ 2 ≤ (A + A') * (B + B') := by
  have h1 : (2 * (c * c')) ^ 2 ≤ (A * B' + A' * B) ^ 2 := by
    have := mul_le_mul h h' (sq_nonneg _) (mul_nonneg hA hB)
    nlinarith [sq_nonneg (A * B' - A' * B)]
  have h2 := abs_le_of_sq_le_sq' h1 (by positivity)
  nlinarith [h2.2]

/-- Spec: the distance of two coupled models, given by the entries of the tensor and of the coupled matrices. -/
def dataDist (X : NDArray ℝ) (Ys : List (NDArray ℝ)) (n : ℕ) (f : List ℕ → ℝ) (F : ℕ → ℕ → ℕ → ℝ) (g : List ℕ → ℝ) (G : ℕ → ℕ → ℕ → ℝ) : ℝ :=
  Real.sqrt ((sumIdx X.shape fun idx => (f idx - g idx) ^ 2) +
    ∑ i ∈ Finset.range n, ∑ a ∈ Finset.range ((Ys.getD i noArr).shape.getD 0 0), ∑ b ∈ Finset.range ((Ys.getD i noArr).shape.getD 1 0),
      (F i a b - G i a b) ^ 2)

variable {X : NDArray ℝ} {Ys : List (NDArray ℝ)} {n : ℕ} {ms qs : List ℕ}

theorem dataDist_comm (f : List ℕ → ℝ) (F : ℕ → ℕ → ℕ → ℝ) (g : List ℕ → ℝ) (G : ℕ → ℕ → ℕ → ℝ) :
    dataDist X Ys n f F g G = dataDist X Ys n g G f F := by
  unfold dataDist
  congr 2
  · exact sumIdx_congr fun idx _ => by ring
  · exact Finset.sum_congr rfl fun k _ => Finset.sum_congr rfl fun i _ => Finset.sum_congr rfl fun j _ => by ring

theorem dataDist_triangle (f : List ℕ → ℝ) (F : ℕ → ℕ → ℕ → ℝ) (g : List ℕ → ℝ) (G : ℕ → ℕ → ℕ → ℝ) (h : List ℕ → ℝ) (H : ℕ → ℕ → ℕ → ℝ) :
    dataDist X Ys n f F h H ≤ dataDist X Ys n f F g G + dataDist X Ys n g G h H := by
  have flat : ∀ Φ : ℕ → ℕ → ℕ → ℝ, ∑ i ∈ Finset.range n, ∑ a ∈ Finset.range ((Ys.getD i noArr).shape.getD 0 0),
      ∑ b ∈ Finset.range ((Ys.getD i noArr).shape.getD 1 0), Φ i a b =
      ∑ p ∈ (Finset.range n).sigma fun i => Finset.range ((Ys.getD i noArr).shape.getD 0 0) ×ˢ
        Finset.range ((Ys.getD i noArr).shape.getD 1 0), Φ p.1 p.2.1 p.2.2 := by
    intro Φ
    rw [Finset.sum_sigma]
    exact Finset.sum_congr rfl fun k _ => (Finset.sum_product _ _ fun q => Φ k q.1 q.2).symm
  unfold dataDist
  rw [flat, flat, flat]
  set S := (Finset.range n).sigma fun i => Finset.range ((Ys.getD i noArr).shape.getD 0 0) ×ˢ Finset.range ((Ys.getD i noArr).shape.getD 1 0)
  have e1 : (sumIdx X.shape fun idx => (f idx - h idx) ^ 2) = (sumIdx X.shape fun idx => (f idx - g idx) ^ 2) +
      2 * (sumIdx X.shape fun idx => (f idx - g idx) * (g idx - h idx)) + sumIdx X.shape fun idx => (g idx - h idx) ^ 2 := by
    rw [mul_sumIdx, ← sumIdx_add, ← sumIdx_add]
    exact sumIdx_congr fun idx _ => by ring
  have e2 : ∑ p ∈ S, (F p.1 p.2.1 p.2.2 - H p.1 p.2.1 p.2.2) ^ 2 = ∑ p ∈ S, (F p.1 p.2.1 p.2.2 - G p.1 p.2.1 p.2.2) ^ 2 +
      2 * ∑ p ∈ S, (F p.1 p.2.1 p.2.2 - G p.1 p.2.1 p.2.2) * (G p.1 p.2.1 p.2.2 - H p.1 p.2.1 p.2.2) +
      ∑ p ∈ S, (G p.1 p.2.1 p.2.2 - H p.1 p.2.1 p.2.2) ^ 2 := by
    rw [Finset.mul_sum, ← Finset.sum_add_distrib, ← Finset.sum_add_distrib]
    exact Finset.sum_congr rfl fun p _ => by ring
  have n1 : ∀ u v : List ℕ → ℝ, 0 ≤ sumIdx X.shape fun idx => (u idx - v idx) ^ 2 := fun u v => sumIdx_nonneg fun _ _ => sq_nonneg _
  have n2 : ∀ U V : ℕ → ℕ → ℕ → ℝ, 0 ≤ ∑ p ∈ S, (U p.1 p.2.1 p.2.2 - V p.1 p.2.1 p.2.2) ^ 2 :=
    fun U V => Finset.sum_nonneg fun _ _ => sq_nonneg _
  have key := sqrt_add_of_cauchy (add_nonneg (n1 f g) (n2 F G)) (add_nonneg (n1 g h) (n2 G H))
    (cauchy_add (n1 f g) (n2 F G) (n1 g h) (n2 G H) (cauchy_sumIdx X.shape (fun idx => f idx - g idx) fun idx => g idx - h idx)
      (Finset.sum_mul_sq_le_sq_mul_sq S (fun p => F p.1 p.2.1 p.2.2 - G p.1 p.2.1 p.2.2) fun p => G p.1 p.2.1 p.2.2 - H p.1 p.2.1 p.2.2))
  refine le_trans (le_of_eq ?_) key
  rw [e1, e2]
  congr 1
  ring

/-- **C163** for `CMTF_ALS`: the tensor and the coupled matrices are sums of any truth and noise; the distance is that of the tensor and of all
coupled matrices. The hypotheses are those of `C83_fit_completes` (see the example there), and any truth has a noise. -/
theorem C163_coupled {E : Ext} (hE : E.SVDOk) (hN : E.NNLSOk) (hQ : E.QROk) {c : CMTF.Config}
    {nonNeg orth : Option (List Bool)} (hA : CP.Admissible c.cp.opts nonNeg orth X.shape)
    (hnn : ∀ l, nonNeg = some l → l = List.replicate X.shape.length false)
    {modes : List Int} (hC : CMTF.Coupled X.shape Ys modes ms qs)
    (hlog : c.Measurable ms qs) (hfreq : freqOption c.cp.freq ≠ 0) {arg : InitArg KruskalTensor} {t : KruskalTensor}
    (hi : CP.StartsFrom E c.cp nonNeg orth arg X t) (ht : t.WF X.shape c.cp.opts.rank)
    {T noise : List ℕ → ℝ} (hT : ∀ idx, Valid X.shape idx → X.get idx = T idx + noise idx)
    {M mnoise : ℕ → ℕ → ℕ → ℝ} (hM : ∀ i < ms.length, ∀ a < (Ys.getD i noArr).shape.getD 0 0, ∀ b < (Ys.getD i noArr).shape.getD 1 0,
      (Ys.getD i noArr).get [a, b] = M i a b + mnoise i a b)
    {budget : Int} {mi : Option Int} (hb : 0 < mi.getD budget) {loggers : List Logger} {file : Option H5File}
    (hS : Storing (CMTF.method E c) (CMTF.newObject nonNeg orth budget loggers file) []) :
    ∃ w e, CMTF.fit E c X Ys modes mi arg (CMTF.newObject nonNeg orth budget loggers file) = .ok () w ∧ CMTF.sse w.st = .ok e ∧
      |Real.sqrt e - dataDist X Ys ms.length noise mnoise (fun _ => 0) (fun _ _ _ => 0)| ≤
        dataDist X Ys ms.length (cpEntry (fun r => w.st.cp.dec.weights.get [r]) w.st.cp.dec.factorMatrices c.cp.opts.rank)
          (fun i a b => ∑ r ∈ Finset.range c.cp.opts.rank, (w.st.cp.dec.factorMatrices.getD (ms.getD i 0) noArr).get [a, r] *
            (w.st.V.getD i noArr).get [b, r]) T M ∧
      dataDist X Ys ms.length (cpEntry (fun r => w.st.cp.dec.weights.get [r]) w.st.cp.dec.factorMatrices c.cp.opts.rank)
          (fun i a b => ∑ r ∈ Finset.range c.cp.opts.rank, (w.st.cp.dec.factorMatrices.getD (ms.getD i 0) noArr).get [a, r] *
            (w.st.V.getD i noArr).get [b, r]) T M ≤
        Real.sqrt e + dataDist X Ys ms.length noise mnoise (fun _ => 0) (fun _ _ _ => 0) := by
  obtain ⟨u, s0, sk, w, k, h0, hfit, -, -, hk, hnorm, -, -, -, hsz, hXw, hYw, -, hsse, -⟩ :=
    C83_fit_completes hE hN hQ hA hnn hC hlog hfreq hi ht hb hS
  refine ⟨w, _, hfit, hsse, ?_⟩
  set m := cpEntry (fun r => w.st.cp.dec.weights.get [r]) w.st.cp.dec.factorMatrices c.cp.opts.rank with hm
  set μ : ℕ → ℕ → ℕ → ℝ := fun i a b => ∑ r ∈ Finset.range c.cp.opts.rank, (w.st.cp.dec.factorMatrices.getD (ms.getD i 0) noArr).get [a, r] *
            (w.st.V.getD i noArr).get [b, r] with hμ
  set y : ℕ → ℕ → ℕ → ℝ := fun i a b => (Ys.getD i noArr).get [a, b] with hy
  have e1 : Real.sqrt (w.st.trueLoss c.cp.opts.rank ms) = dataDist X Ys ms.length X.get y m μ := by
    rw [CMTFState.trueLoss, CPState.trueSSE, hXw, hYw]; rfl
  have e2 : dataDist X Ys ms.length noise mnoise (fun _ => 0) (fun _ _ _ => 0) = dataDist X Ys ms.length X.get y T M := by
    unfold dataDist
    congr 2
    · exact sumIdx_congr fun idx hidx => by rw [hT idx hidx]; ring
    · refine Finset.sum_congr rfl fun k hk => Finset.sum_congr rfl fun i hi => Finset.sum_congr rfl fun j hj => ?_
      simp only [hy]
      rw [hM k (Finset.mem_range.1 hk) i (Finset.mem_range.1 hi) j (Finset.mem_range.1 hj)]
      ring
  rw [e1, e2]
  have t1 := dataDist_triangle (X := X) (Ys := Ys) (n := ms.length) m μ X.get y T M
  have t2 := dataDist_triangle (X := X) (Ys := Ys) (n := ms.length) X.get y m μ T M
  have t3 := dataDist_triangle (X := X) (Ys := Ys) (n := ms.length) X.get y T M m μ
  rw [dataDist_comm T M m μ] at t3
  rw [dataDist_comm m μ X.get y] at t1
  exact ⟨abs_le.2 ⟨by linarith, by linarith⟩, t1⟩

end

end TK
