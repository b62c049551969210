import Verif.Props.Continue

/-!
# C107 for `CMTF_ALS`

`_fit` of `CMTF_ALS` ends with a normalisation that moves the norms of the components into the weights (cmtf.py:84-86), and the
updates of a later `continue_fit` ignore the weights.
-/

namespace TK
open NDArray
open EStateM (Result)
open Fit

noncomputable section

/-- What `_normalize_components` leaves alone. -/
theorem cmtf_normalize_keeps {s s' : CMTFState} {eps : ℝ} (h : CMTF.normalizeComponents s eps = .ok s') :
    s' = { s with V := s'.V, cp := { s.cp with dec := s'.cp.dec } } := by
  unfold CMTF.normalizeComponents at h
  obtain ⟨Vs, -, h⟩ := bind_eq_ok.1 h
  obtain ⟨dec, -, h⟩ := bind_eq_ok.1 h
  rw [← pure_eq_ok.1 h]

/-- `X = [2]` with the coupled matrix `[2]`, rank 1, no constraints: the weight, the two factors and the right factor are the given
numbers. -/
structure Num107 (s : CMTFState) (ω a b v : ℝ) : Prop where
  sized : s.Sized 1 [0] [1]
  cfg : s.Cfg c82.cp.opts
  free : s.Free c82.cp.opts [0]
  X : s.cp.X = one1 2
  Ys : s.Ys = [one1 2]
  weight : s.cp.dec.weights.get [0] = ω
  factors : ∃ A B, s.cp.dec.factorMatrices = [A, B] ∧ A.get [0, 0] = a ∧ B.get [0, 0] = b
  V : (s.V.getD 0 noArr).get [0, 0] = v

theorem Num107.loss {s : CMTFState} {ω a b v : ℝ} (h : Num107 s ω a b v) :
    CMTF.sse s = .ok ((2 - ω * (a * b)) ^ 2 + (2 - a * v) ^ 2) := by
  rw [cmtf_sse_ok h.sized]
  obtain ⟨A, B, hf, ha, hb⟩ := h.factors
  refine congrArg Except.ok ?_
  rw [CMTFState.trueLoss, CPState.trueSSE, coupledErr, hf, h.X, h.Ys, sqErr_one rfl]
  simp only [List.length_cons, List.length_nil, Finset.sum_range_succ, Finset.sum_range_zero, coupledErrAt]
  show _ + (0 + matErr (one1 2) A (s.V.getD 0 noArr) 1) = _
  rw [matErr_one rfl, h.V, ha, hb, get_one1, h.weight, zero_add]

/-- With tolerances of 0, no iteration is skipped. -/
theorem Num107.go {s : CMTFState} {ω a b v : ℝ} (h : Num107 s ω a b v) : CMTF.shouldStop c82.cp.opts s = .ok false := by
  rw [CMTF.shouldStop, h.loss, bind_ok]
  refine congrArg Except.ok ?_
  have h0 : (0 : ℝ) ≤ (2 - ω * (a * b)) ^ 2 + (2 - a * v) ^ 2 := by positivity
  have h1 : (FV.div ((2 - ω * (a * b)) ^ 2 + (2 - a * v) ^ 2) (s.cp.XNorm ^ 2)).lt c82.cp.opts.relLossTol = false := by
    unfold FV.div
    split
    · simp only [FV.lt, decide_eq_false_iff_not, not_lt]
      exact div_nonneg h0 (sq_nonneg _)
    · split
      · rfl
      · split
        · rename_i h; exact absurd h (not_lt.2 h0)
        · rfl
  have h2 : s.cp.relChange.absLt c82.cp.opts.convergenceTol = false := by
    cases s.cp.relChange with
    | fin x => simp only [FV.absLt, decide_eq_false_iff_not, not_lt]; exact abs_nonneg x
    | pinf => rfl
    | ninf => rfl
    | nan => rfl
  rw [h1, h2]; rfl

theorem first107 : FirstOf ([0].map fun m : ℕ => (m : Int)) 0 :=
  ⟨by simp, fun j hj => absurd hj (by omega)⟩

/-- One iteration: the first factor is the least-squares solution for the other factor and the right factor, then the products are 2. -/
theorem Num107.step {E : Ext} (hE : E.SVDOk) (hN : E.NNLSOk) {s : CMTFState} {ω a b v : ℝ} (h : Num107 s ω a b v) (hb : 0 < b)
    (hv : 0 < v) : ∃ s', CMTF.iteration E c82.cp.opts s = .ok s' ∧
      ∀ a', a' = 2 * (b + v) / (b ^ 2 + v ^ 2) → Num107 s' ω a' (2 / a') (2 / a') := by
  obtain ⟨A, B, hAB, -, hB⟩ := h.factors
  obtain ⟨s1, F, G, e1, hsp, hFG, hoF, hoG⟩ := cmtf_iteration_free hE h.sized h.cfg h.free (by rw [h.X]; rfl) hAB
  obtain ⟨s1', e1', hs1, -, hcfg, -, -, hbest, -⟩ := cmtf_iteration_ok hE hN (by simp [c82]) h.sized h.cfg
  rw [e1] at e1'
  cases e1'
  have hloss : ∀ Z W : NDArray ℝ, sqErr s.cp.X (fun _ => 1) [Z, W] 1 + firstErr [Z, W] s.Ys s.V [0] 1
      = (2 - Z.get [0, 0] * W.get [0, 0]) ^ 2 + (2 - Z.get [0, 0] * v) ^ 2 := by
    intro Z W
    have hfil : (Finset.range [0].length).filter (IsFirst [0]) = {0} := by decide
    rw [firstErr, hfil, Finset.sum_singleton, coupledErrAt, h.X, h.Ys, sqErr_one rfl]
    show _ + matErr (one1 2) Z (s.V.getD 0 noArr) 1 = _
    rw [matErr_one rfl, h.V]
    simp
  have hpos : 0 < b ^ 2 + v ^ 2 := by positivity
  refine ⟨s1, e1, fun a' ha' => ?_⟩
  have ha0 : 0 < a' := by rw [ha']; positivity
  have hF : F.get [0, 0] = a' := by
    have h1 := hoF (one1 a') (by rw [h.X]; rfl)
    change sqErr s.cp.X (fun _ => 1) [F, B] 1 + firstErr [F, B] s.Ys s.V [0] 1
      ≤ sqErr s.cp.X (fun _ => 1) [one1 a', B] 1 + firstErr [one1 a', B] s.Ys s.V [0] 1 at h1
    rw [hloss, hloss, hB, get_one1] at h1
    have h2 : a' * (b ^ 2 + v ^ 2) = 2 * (b + v) := by rw [ha']; field_simp
    have h5 : (F.get [0, 0] - a') * (a' * (b ^ 2 + v ^ 2) - 2 * (b + v)) = 0 := by rw [h2]; ring
    have h3 : (b ^ 2 + v ^ 2) * (F.get [0, 0] - a') ^ 2 ≤ 0 := by nlinarith
    have h4 : (F.get [0, 0] - a') ^ 2 = 0 := le_antisymm (by nlinarith [sq_nonneg (F.get [0, 0] - a')]) (sq_nonneg _)
    have := pow_eq_zero_iff two_ne_zero |>.1 h4
    linarith
  have hG : G.get [0, 0] = 2 / a' := by
    have h1 := hoG (one1 (2 / a')) (by rw [h.X]; rfl)
    change sqErr s.cp.X (fun _ => 1) [F, G] 1 + firstErr [F, G] s.Ys s.V [0] 1
      ≤ sqErr s.cp.X (fun _ => 1) [F, one1 (2 / a')] 1 + firstErr [F, one1 (2 / a')] s.Ys s.V [0] 1 at h1
    rw [hloss, hloss, get_one1, hF, mul_div_cancel₀ _ ha0.ne'] at h1
    have h3 : (2 - a' * G.get [0, 0]) ^ 2 = 0 := le_antisymm (by linarith) (sq_nonneg _)
    have := pow_eq_zero_iff two_ne_zero |>.1 h3
    rw [eq_div_iff ha0.ne']; linarith
  have hV : (s1.V.getD 0 noArr).get [0, 0] = 2 / a' := by
    have h1 := hbest 0 (by rw [h.free.plain]; exact first107) (one1 (2 / a'))
    rw [h.Ys, hFG] at h1
    change matErr (one1 2) F (s1.V.getD 0 noArr) 1 ≤ matErr (one1 2) F (one1 (2 / a')) 1 at h1
    rw [matErr_one rfl, matErr_one rfl, get_one1, get_one1, hF, mul_div_cancel₀ _ ha0.ne'] at h1
    have h3 : (2 - a' * (s1.V.getD 0 noArr).get [0, 0]) ^ 2 = 0 := le_antisymm (by linarith) (sq_nonneg _)
    have := pow_eq_zero_iff two_ne_zero |>.1 h3
    rw [eq_div_iff ha0.ne']; linarith
  exact ⟨hs1, hcfg, h.free.sameProblem hsp, hsp.X.trans h.X, hsp.Ys.trans h.Ys, by rw [hsp.weights]; exact h.weight,
    ⟨F, G, hFG, hF, hG⟩, hV⟩

/-- The normalisation at the end of `_fit`. -/
theorem Num107.norm {s : CMTFState} {ω a b v : ℝ} (h : Num107 s ω a b v) (ha : 0 < a) (hb : 0 < b) :
    ∃ s', CMTF.normalizeComponents s = .ok s' ∧ Num107 s' (ω * (a * b)) (a / (a + 1e-15)) (b / (b + 1e-15)) (v * a) := by
  obtain ⟨A, B, hAB, hA, hB⟩ := h.factors
  obtain ⟨s', e, hs', hX, hY, hM, hdec, hfs, hV⟩ := cmtf_normalize_ok h.sized 1e-15
  have hk := cmtf_normalize_keeps e
  have hnn : s'.cp.nonNeg = s.cp.nonNeg := by rw [hk]
  have hon : s'.cp.orth = s.cp.orth := by rw [hk]
  refine ⟨s', e, hs', ⟨by rw [hnn, hX]; exact h.cfg.nonNeg, fun m hm => ?_⟩, ⟨?_, fun m hm => ?_⟩, hX.trans h.X, hY.trans h.Ys, ?_, ?_, ?_⟩
  · rw [hX] at hm
    obtain ⟨on, ridge, hc⟩ := h.cfg.conf m hm
    exact ⟨on, ridge, by rw [hnn]; exact hc.nonNeg, by rw [hon]; exact hc.orth, hc.ridge⟩
  · rw [CMTFState.Plain, hM]; exact h.free.plain
  · rw [hX] at hm
    have hc := h.free.conf m hm
    exact ⟨by rw [hnn]; exact hc.nonNeg, by rw [hon]; exact hc.orth, hc.ridge⟩
  · obtain ⟨t', e', -, -, hw⟩ := normalizeComponents_ok h.sized.cp.wf true 1e-15
    rw [hdec] at e'
    cases e'
    rw [hw 0 (by norm_num), h.weight, if_pos rfl, hAB, h.X]
    show ω * (colLen A 1 0 * (colLen B 1 0 * 1)) = _
    rw [colLen_one, colLen_one, hA, hB, abs_of_pos ha, abs_of_pos hb, mul_one]
  · rw [hfs, hAB, h.X]
    refine ⟨_, _, rfl, ?_, ?_⟩
    · show (normMat A 1 1 1e-15).get [0, 0] = _
      rw [normMat, get_ofMat (by norm_num) (by norm_num), colLen_one, hA, abs_of_pos ha]
    · show (normMat B 1 1 1e-15).get [0, 0] = _
      rw [normMat, get_ofMat (by norm_num) (by norm_num), colLen_one, hB, abs_of_pos hb]
  · rw [hV 0 (by norm_num), hAB, h.X]
    show (scaledBy (s.V.getD 0 noArr) A 1 1 1).get [0, 0] = _
    rw [scaledBy, get_ofMat (by norm_num) (by norm_num), h.V, colLen_one, hA, abs_of_pos ha]

/-- The start of the witness: both factors are 1. -/
def t107 : KruskalTensor := ⟨1, [one1 1, one1 1], full [1] 1⟩

/-- One call of `_fit` in which `k` iterations are performed. -/
theorem run107 {E : Ext} {ss : ℕ → CMTFState} {k : ℕ} {w : World CMTFState} (h0 : w.st = ss 0) (hk0 : 0 < k)
    (hk : w.maxIts = w.it + k)
    (hstep : ∀ j < k, CMTF.iteration E c82.cp.opts (ss j) = .ok (ss (j + 1)))
    (hgo : ∀ j < k, CMTF.shouldStop c82.cp.opts (ss j) = .ok false) {s' : CMTFState}
    (hn : CMTF.normalizeComponents (ss k) = .ok s') :
    ∃ w', run (CMTF.method E c82) w = .ok () w' ∧ w'.st = s' ∧ w'.it = w.it + k := by
  have hno : ¬ 0 < (CMTF.method E c82).freq := by show ¬ (0 : Int) < -1; decide
  obtain ⟨w', h1, h2, h3, -⟩ := C43_schedule (CMTF.method E c82) (show (-1 : Int) ≠ 0 by decide) (w := w) (L := []) (ss := ss) (k := k)
    (s' := s') (by rw [h0]; rfl)
    ⟨hstep, hgo, fun j _ p hp => by simp [CMTF.method, c82] at hp, fun j _ => ⟨_, kruskal_storeIn_eq _⟩⟩
    (by omega) (fun h => by omega) hn (fun _ => by omega)
    ⟨fun h => absurd h hno, fun h => absurd h hno, fun h => absurd h hno⟩ (fun _ _ h => absurd h hno) (fun h => absurd h hno)
  exact ⟨w', h1, h2, h3⟩

/-- **C107, refuted** for `CMTF_ALS`: `X = [2]` with the coupled matrix `[2]` on mode 0, rank 1, all starting values 1. One iteration fits
the data exactly, and so do two in one call of `fit`. But `continue_fit` after the first makes the tensor error about 4: the weight
of the component is 2 after the normalisation, the second iteration makes the product of the factors 2 again, and the model is 4. -/
theorem C107_cmtf_fails {E : Ext} (hE : E.SVDOk) (hN : E.NNLSOk) (hQ : E.QROk) :
    ∃ w1 w2 w3 e1 e2 e3,
      CMTF.fit E c82 (one1 2) [one1 2] [0] (some 1) (.tensor t107) (CMTF.newObject none none 1 [] none) = .ok () w1 ∧
      continueFit (CMTF.method E c82) (some 2) w1 = .ok () w2 ∧
      CMTF.fit E c82 (one1 2) [one1 2] [0] (some 2) (.tensor t107) (CMTF.newObject none none 1 [] none) = .ok () w3 ∧
      CMTF.sse w1.st = .ok e1 ∧ CMTF.sse w2.st = .ok e2 ∧ CMTF.sse w3.st = .ok e3 ∧ w2.it = 2 ∧ w3.it = 2 ∧
      e1 < 1 / 100 ∧ 3 < e2 ∧ e3 < 1 / 100 := by
  have hA : CP.Admissible c82.cp.opts none none (one1 2).shape := by
    refine ⟨by simp [c82], by simp, by simp, by simp, by simp, by simp [c82], by simp, by simp⟩
  have hC : CMTF.Coupled (one1 2).shape [one1 2] [0] [0] [1] :=
    ⟨.cons (isMode_nat (by norm_num)) .nil, rfl, by simp⟩
  have ht : t107.WF (one1 2).shape c82.cp.opts.rank := ⟨rfl, .cons rfl (.cons rfl .nil), rfl⟩
  have hi : CP.StartsFrom E c82.cp none none (.tensor t107) (one1 2) t107 := startsFrom_precomputed (by
    show "precomputed".toLower = _
    rw [String.toLower, ← String.toList_inj, String.toList_map]; decide) ht
  obtain ⟨u, s0, h0, hfit⟩ := cmtf_fit_unfold hQ hA hC hi ht
  have hV : s0.V.getD 0 noArr = one1 1 := by
    rw [h0.V 0 (by simp)]
    refine ofMat_congr fun i hi j hj => ?_
    have hone : ∀ x : ℝ, x = 1 → (1 : ℝ) / x = 1 := fun x hx => by rw [hx, div_one]
    have hi0 : i = 0 := by simpa using hi
    have hj0 : j = 0 := by simpa [c82] using hj
    subst hi0 hj0
    refine hone _ ?_
    show colLen (ofMat 1 1 fun _ _ => (1 : ℝ)) 1 0 = 1
    rw [colLen_one, get_ofMat (by norm_num) (by norm_num), abs_one]
  set δ : ℝ := 1 / (1 + 1e-15) with hδ
  have hs0 : Num107 s0 1 δ δ 1 := by
    refine ⟨h0.sized, h0.cfg hA (by simp), h0.free hA (by simp) rfl rfl, h0.eqX, h0.eqYs, ?_, ?_, by rw [hV, get_one1]⟩
    · rw [h0.startWeights (r := 0) (by simp [c82])]
      show colLen (one1 1) 1 0 * (colLen (one1 1) 1 0 * 1) = 1
      rw [colLen_one, get_one1, abs_one]; norm_num
    · obtain ⟨v, e, -, hf, -⟩ := normalizeComponents_ok h0.wf true 1e-15
      have := h0.normalised
      rw [e] at this
      injection this with this
      rw [h0.same rfl] at hf
      refine ⟨_, _, by rw [← this, hf]; rfl, ?_, ?_⟩ <;>
      · show (normMat (one1 1) 1 1 1e-15).get [0, 0] = δ
        rw [normMat, get_ofMat (by norm_num) (by norm_num), colLen_one, get_one1, abs_one]
  have hδ0 : 0 < δ := by rw [hδ]; norm_num
  have hδ1 : δ ≤ 1 := by rw [hδ]; norm_num
  have hδ2 : 1 / 2 ≤ δ := by rw [hδ]; norm_num
  clear_value δ
  -- the first iteration
  obtain ⟨s1, i1, n1⟩ := hs0.step hE hN hδ0 one_pos
  set a1 : ℝ := 2 * (δ + 1) / (δ ^ 2 + 1 ^ 2) with ha1
  have n1 := n1 a1 rfl
  have ha1l : 1 ≤ a1 := by rw [ha1, le_div_iff₀ (by positivity)]; nlinarith
  have ha1u : a1 ≤ 4 := by rw [ha1, div_le_iff₀ (by positivity)]; nlinarith
  clear_value a1
  have hb1l : 1 / 2 ≤ 2 / a1 := by rw [le_div_iff₀ (by linarith)]; linarith
  have hb1u : 2 / a1 ≤ 2 := by rw [div_le_iff₀ (by linarith)]; linarith
  have hab1 : a1 * (2 / a1) = 2 := mul_div_cancel₀ _ (by linarith)
  obtain ⟨z1, j1, m1⟩ := n1.norm (by linarith) (by linarith)
  -- the second iteration of a single call
  obtain ⟨s2, i2, n2⟩ := n1.step hE hN (by linarith) (by linarith)
  have n2 := n2 a1 (by rw [eq_div_iff (by positivity)]; field_simp)
  obtain ⟨z2, j2, m2⟩ := n2.norm (by linarith) (by linarith)
  set α := a1 / (a1 + 1e-15) with hα
  set β := 2 / a1 / (2 / a1 + 1e-15) with hβ
  have hαl : 999 / 1000 ≤ α := by rw [hα, le_div_iff₀ (by linarith)]; linarith
  have hαu : α ≤ 1 := by rw [hα, div_le_iff₀ (by linarith)]; linarith
  have hβl : 999 / 1000 ≤ β := by rw [hβ, le_div_iff₀ (by linarith)]; linarith
  have hβu : β ≤ 1 := by rw [hβ, div_le_iff₀ (by linarith)]; linarith
  clear_value α β
  -- the iteration of `continue_fit`
  rw [hab1, one_mul, div_mul_cancel₀ _ (by linarith : a1 ≠ 0)] at m1 m2
  obtain ⟨s3, i3, n3⟩ := m1.step hE hN (by linarith) two_pos
  set a3 : ℝ := 2 * (β + 2) / (β ^ 2 + 2 ^ 2) with ha3
  have n3 := n3 a3 rfl
  have ha3l : 1 ≤ a3 := by rw [ha3, le_div_iff₀ (by positivity)]; nlinarith
  have ha3u : a3 ≤ 4 := by rw [ha3, div_le_iff₀ (by positivity)]; nlinarith
  clear_value a3
  have hb3l : 1 / 2 ≤ 2 / a3 := by rw [le_div_iff₀ (by linarith)]; linarith
  have hab3 : a3 * (2 / a3) = 2 := mul_div_cancel₀ _ (by linarith)
  obtain ⟨z3, j3, m3⟩ := n3.norm (by linarith) (by linarith)
  rw [hab3, div_mul_cancel₀ _ (by linarith : a3 ≠ 0)] at m3
  set γ := a3 / (a3 + 1e-15) with hγ
  set κ := 2 / a3 / (2 / a3 + 1e-15) with hκ
  have hγl : 999 / 1000 ≤ γ := by rw [hγ, le_div_iff₀ (by linarith)]; linarith
  have hκl : 999 / 1000 ≤ κ := by rw [hκ, le_div_iff₀ (by linarith)]; linarith
  clear_value γ κ
  -- the three calls
  obtain ⟨w1, r1, t1, u1⟩ := run107 (E := E) (ss := fun j => if j = 0 then s0 else s1) (k := 1)
    (w := ⟨s0, 0, 1, [], none⟩) rfl one_pos rfl
    (fun j hj => by
      obtain rfl : j = 0 := by omega
      exact i1)
    (fun j hj => by
      obtain rfl : j = 0 := by omega
      exact hs0.go) j1
  obtain ⟨w2, r2, t2, u2⟩ := run107 (E := E) (ss := fun j => if j = 0 then z1 else s3) (k := 1)
    (w := { w1 with maxIts := 2 }) t1 one_pos (by show (2 : Int) = w1.it + _; rw [u1]; rfl)
    (fun j hj => by
      obtain rfl : j = 0 := by omega
      exact i3)
    (fun j hj => by
      obtain rfl : j = 0 := by omega
      exact m1.go) j3
  obtain ⟨w3, r3, t3, u3⟩ := run107 (E := E) (ss := fun j => if j = 0 then s0 else if j = 1 then s1 else s2) (k := 2)
    (w := ⟨s0, 0, 2, [], none⟩) rfl two_pos rfl
    (fun j hj => by
      rcases (by omega : j = 0 ∨ j = 1) with rfl | rfl
      · exact i1
      · exact i2)
    (fun j hj => by
      rcases (by omega : j = 0 ∨ j = 1) with rfl | rfl
      · exact hs0.go
      · exact n1.go) j2
  have hsm : (2 - 2 * (α * β)) ^ 2 + (2 - α * 2) ^ 2 < 1 / 100 := by
    have h1 : 998 / 1000 ≤ α * β := by nlinarith
    have h2 : α * β ≤ 1 := by nlinarith
    nlinarith
  refine ⟨w1, w2, w3, _, _, _, (hfit (some 1) 1 [] none).trans r1, ?_, (hfit (some 2) 1 [] none).trans r3, by rw [t1]; exact m1.loss,
    by rw [t2]; exact m3.loss, by rw [t3]; exact m2.loss, by rw [u2]; show w1.it + _ = _; rw [u1]; rfl, by rw [u3]; rfl, hsm, ?_, hsm⟩
  · rw [continueFit, bind_of_ok (setMaxIts_ok _ _)]
    exact r2
  · have h1 : 998 / 1000 ≤ γ * κ := by nlinarith
    nlinarith [sq_nonneg (2 - γ * 2)]

/-- There are routines that meet the contracts, so the witness is not vacuous. -/
example : ∃ E w1 w2 e1 e2, CMTF.fit E c82 (one1 2) [one1 2] [0] (some 1) (.tensor t107) (CMTF.newObject none none 1 [] none) = .ok () w1 ∧
    continueFit (CMTF.method E c82) (some 2) w1 = .ok () w2 ∧ CMTF.sse w1.st = .ok e1 ∧ CMTF.sse w2.st = .ok e2 ∧ e1 < e2 := by
  obtain ⟨E, hE, hN, hQ⟩ := exists_ext
  obtain ⟨w1, w2, -, e1, e2, -, h1, h2, -, h3, h4, -, -, -, h5, h6, -⟩ := C107_cmtf_fails hE hN hQ
  exact ⟨E, w1, w2, e1, e2, h1, h2, h3, h4, by linarith⟩

end
end TK
