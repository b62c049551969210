import Verif.Props.RidgeLimits
import Mathlib.Analysis.SpecialFunctions.Exp
import Mathlib.Analysis.Complex.ExponentialBounds

/-!
# C159: a bound for the number of iterations that depends on the tolerances alone

Source: cp.py:408-426 (the loop and the stopping tests). After the first iteration the error is at most `‖X‖²`, whatever the start;
from then on each iteration that the stopping tests let pass lowers it by the factor `1 - convergence_tol`, and it stays at least
`rel_loss_tol · ‖X‖²`.
-/

namespace TK
open NDArray Fit
open EStateM (Result)

noncomputable section

variable {E : Ext}

theorem sqErr_congr_modes {X : NDArray ℝ} {fs gs : List (NDArray ℝ)} {R : ℕ} (hf : fs.length = X.shape.length)
    (hg : gs.length = X.shape.length)
    (h : ∀ k < X.shape.length, ∀ i < X.shape.getD k 0, ∀ r < R, (modeMat fs k).get [i, r] = (modeMat gs k).get [i, r]) :
    sqErr X (fun _ => 1) fs R = sqErr X (fun _ => 1) gs R := by
  refine sumIdx_congr fun idx hidx => ?_
  congr 2
  refine Finset.sum_congr rfl fun r hr => ?_
  rw [rankOne_eq_prod r (hidx.length_eq.trans hf.symm), rankOne_eq_prod r (hidx.length_eq.trans hg.symm), hf, hg]
  congr 1
  exact Finset.prod_congr rfl fun k hk =>
    h k (Finset.mem_range.1 hk) _ (hidx.getD_lt (Finset.mem_range.1 hk)) r (Finset.mem_range.1 hr)

/-- The error of the zero model. -/
theorem sqErr_set_zero {X : NDArray ℝ} {fs : List (NDArray ℝ)} {R m : ℕ} (hf : fs.length = X.shape.length) (hm : m < X.shape.length) :
    sqErr X (fun _ => 1) (fs.set m (ofMat (X.shape.getD m 0) R fun _ _ => 0)) R = sumIdx X.shape fun idx => X.get idx ^ 2 := by
  refine sumIdx_congr fun idx hidx => ?_
  have : cpEntry (fun _ => (1 : ℝ)) (fs.set m (ofMat (X.shape.getD m 0) R fun _ _ => 0)) R idx = 0 := by
    refine Finset.sum_eq_zero fun r hr => ?_
    have hl : (fs.set m (ofMat (X.shape.getD m 0) R fun _ _ => (0 : ℝ))).length = X.shape.length := by rw [List.length_set, hf]
    rw [rankOne_eq_prod r (hidx.length_eq.trans hl.symm), hl, Finset.prod_eq_zero (Finset.mem_range.2 hm), mul_zero]
    rw [modeMat_set_self (hf.symm ▸ hm), get_ofMat (hidx.getD_lt hm) (Finset.mem_range.1 hr)]
  rw [this, sub_zero]

variable {X : NDArray ℝ} {R : ℕ} {flags : List Bool} {g : ℕ → List (NDArray ℝ)}

/-- With one component, or without flags, the updates minimise the squared error over the admissible matrices. -/
theorem NonNegSweep.best (h : NonNegSweep X R flags g) (hR : R = 1 ∨ ∀ m : ℕ, flags[m]? ≠ some true) {m : ℕ} (hm : m < X.shape.length)
    {Y : NDArray ℝ} (hY : Y.shape = [X.shape.getD m 0, R]) (hn : flags[m]? = some true → NonNeg Y (X.shape.getD m 0) R) :
    sqErr X (fun _ => 1) (g (m + 1)) R ≤ sqErr X (fun _ => 1) ((g m).set m Y) R := by
  obtain ⟨F, e, h1, h2⟩ := h.step m hm
  by_cases hf : flags[m]? = some true
  · obtain rfl : R = 1 := hR.resolve_right fun h => h m hf
    rw [e]
    exact sqErr_le_of_slopeSq_one (h.len m hm.le) hm hY ((h2 hf).2 Y hY (hn hf))
  · exact h1 hf Y hY

/-- A sweep ends with an error of at most `‖X‖²`, whatever it started from. -/
theorem NonNegSweep.le_zero (h : NonNegSweep X R flags g) (hR : R = 1 ∨ ∀ m : ℕ, flags[m]? ≠ some true) (h0 : 0 < X.shape.length) :
    sqErr X (fun _ => 1) (g X.shape.length) R ≤ sumIdx X.shape fun idx => X.get idx ^ 2 := by
  obtain ⟨n, hn⟩ : ∃ n, X.shape.length = n + 1 := ⟨X.shape.length - 1, by omega⟩
  have hm : n < X.shape.length := by omega
  have := h.best hR hm (Y := ofMat (X.shape.getD n 0) R fun _ _ => 0) rfl fun _ i hi j hj => by rw [get_ofMat hi hj]
  rw [sqErr_set_zero (h.len n hm.le) hm] at this
  rw [hn]
  exact this

/-- A sweep from admissible matrices does not increase the error. -/
theorem NonNegSweep.le_start (h : NonNegSweep X R flags g) (hR : R = 1 ∨ ∀ m : ℕ, flags[m]? ≠ some true)
    (hadm : ∀ m < X.shape.length, flags[m]? = some true → NonNeg (modeMat (g 0) m) (X.shape.getD m 0) R) :
    ∀ m ≤ X.shape.length, sqErr X (fun _ => 1) (g m) R ≤ sqErr X (fun _ => 1) (g 0) R
  | 0, _ => le_rfl
  | m + 1, hm => by
    have hm' : m < X.shape.length := hm
    refine le_trans ?_ (h.le_start hR hadm m hm'.le)
    have hY := h.best hR hm' (Y := ofMat (X.shape.getD m 0) R fun i r => (modeMat (g m) m).get [i, r]) rfl fun hf i hi r hr => by
      rw [get_ofMat hi hr, h.before hm'.le le_rfl]
      exact hadm m hm' hf i hi r hr
    refine hY.trans (le_of_eq (sqErr_congr_modes (by rw [List.length_set, h.len m hm'.le]) (h.len m hm'.le) fun k hk i hi r hr => ?_))
    by_cases hkm : k = m
    · subst hkm
      rw [modeMat_set_self (by rw [h.len _ hm'.le]; exact hk), get_ofMat hi hr]
    · rw [modeMat_set_ne hkm]

/-- The matrices after a sweep are admissible. -/
theorem NonNegSweep.admissible (h : NonNegSweep X R flags g) {m : ℕ} (hm : m < X.shape.length) (hf : flags[m]? = some true) :
    NonNeg (modeMat (g X.shape.length) m) (X.shape.getD m 0) R := by
  obtain ⟨F, e, -, h2⟩ := h.step m hm
  rw [← h.after (n := X.shape.length - (m + 1)) (m := m + 1) (by omega) (by omega), e,
    modeMat_set_self (by rw [h.len _ hm.le]; exact hm)]
  exact (h2 hf).1

theorem orbit_orbit (o : CPOpts) (s : CPState) : ∀ j, CP.orbit E o (CP.orbit E o s 1) j = CP.orbit E o s (j + 1)
  | 0 => rfl
  | j + 1 => by rw [CP.orbit, orbit_orbit o s j]; rfl

/-- **C159.** If `(1 - convergence_tol)^N < rel_loss_tol`, then a fit of `CP_ALS` of any tensor that is not zero, from any start, makes
at most `N + 1` iterations, whatever `max_its` is; with one component also with non-negative factor matrices. -/
theorem C159_bound (hE : E.SVDOk) (hN : E.NNLSOk) (hQ : E.QROk) {c : CP.Config} {nonNeg : Option (List Bool)}
    (hA : CP.Admissible c.opts nonNeg none X.shape) (hridge : c.opts.ridgePenalties = none) (hR : c.opts.rank = 1 ∨ nonNeg = none)
    (hlog : c.Measurable) (hfreq : freqOption c.freq ≠ 0) {arg : InitArg KruskalTensor} {t : KruskalTensor}
    (hi : CP.StartsFrom E c nonNeg none arg X t) (ht : t.WF X.shape c.opts.rank)
    (hX : 0 < sumIdx X.shape fun idx => X.get idx ^ 2) {N : ℕ}
    (hrel : 0 < c.opts.relLossTol) (hbound : max 0 (1 - c.opts.convergenceTol) ^ N < c.opts.relLossTol)
    {budget : Int} {mi : Option Int} (hb : 0 < mi.getD budget) {loggers : List Logger} {file : Option H5File}
    (hS : Storing (CP.method E c) (CP.newObject nonNeg none budget loggers file) []) :
    ∃ w', CP.fit E c X mi arg (CP.newObject nonNeg none budget loggers file) = .ok () w' ∧ w'.it ≤ N + 1 ∧
      ((N : Int) + 1 < mi.getD budget → CP.shouldStop c.opts w'.st = .ok true) := by
  obtain ⟨s0, w', k, e0, h1, h2, h3, h4, h5, h6, -⟩ := C74_fit_completes hE hN hQ hA hlog hfreq hi ht hb hS
  obtain ⟨s0', e0', hG, hXs, -, -, hw, hnn, hon, -⟩ := initFit_good (E := E) hQ (old := CP.fresh nonNeg none) rfl hA ht
  rw [e0] at e0'
  obtain rfl : s0 = s0' := Except.ok.inj e0'
  have hU : s0.Flagged (CP.flagsOf nonNeg X.shape.length) := by
    refine ⟨hnn, ?_, _, hon, fun m hm => ?_⟩
    · rw [hXs]
      cases hq : nonNeg with
      | none => simp [CP.flagsOf]
      | some l => simpa [CP.flagsOf] using hA.nonNegLen l hq
    · simpa [CP.fresh, List.getElem?_replicate] using hXs ▸ hm
  have hR' : c.opts.rank = 1 ∨ ∀ m : ℕ, (CP.flagsOf nonNeg X.shape.length)[m]? ≠ some true := by
    refine hR.imp_right fun h m hm => ?_
    rw [h, CP.flagsOf, Option.getD_none, List.getElem?_replicate] at hm
    split at hm <;> simp at hm
  obtain ⟨q1, q2⟩ := flagged_orbit hE hN hA.rank hridge hG hw hU
  rw [hXs] at q1 q2
  have herr : ∀ j, (CP.orbit E c.opts s0 j).trueSSE c.opts.rank = sqErr X (fun _ => 1) (CP.during E c.opts s0 j 0) c.opts.rank := by
    intro j
    obtain ⟨-, p⟩ := orbit_good hE hN hA.rank hG j
    rw [CPState.trueSSE, p.X, hXs, during_zero]
    exact sqErr_congr_weights fun r hr => by rw [p.weights]; exact hw r hr
  have hmono : ∀ j, (CP.orbit E c.opts s0 (j + 1 + 1)).trueSSE c.opts.rank ≤ (CP.orbit E c.opts s0 (j + 1)).trueSSE c.opts.rank := by
    intro j
    rw [herr, herr, ← q2 (j + 1)]
    refine (q1 (j + 1)).le_start hR' (fun m hm hf => ?_) _ le_rfl
    rw [← q2 j]
    exact (q1 j).admissible hm hf
  have hfirst : (CP.orbit E c.opts s0 1).trueSSE c.opts.rank ≤ sumIdx X.shape fun idx => X.get idx ^ 2 := by
    rw [herr, ← q2 0]
    exact (q1 0).le_zero hR' (by have := hA.order; omega)
  have hnorm : s0.XNorm ^ 2 = sumIdx X.shape fun idx => X.get idx ^ 2 := by
    rw [hG.cached.norm, hXs, Real.sq_sqrt hX.le]
  obtain ⟨hG1, p1⟩ := orbit_good hE hN hA.rank hG 1
  have hkN : k ≤ N + 1 := by
    by_contra hlt
    rw [not_le] at hlt
    have hgo : ∀ i ≤ N, CP.shouldStop c.opts (CP.orbit E c.opts (CP.orbit E c.opts s0 1) i) = .ok false := by
      intro i hi'
      obtain ⟨s, r1, r2⟩ := h5 (i + 1) (by omega)
      rw [orbit_iterate hE hN hA.rank _ hG] at r1
      rw [orbit_orbit, Except.ok.inj r1]; exact r2
    obtain ⟨a, b⟩ := orbit_geometric hE hN hA.rank hG1 (by rw [p1.XNorm, hnorm]; exact hX) hrel
      (fun j => by rw [orbit_orbit, orbit_orbit]; exact hmono j) N hgo
    rw [p1.XNorm, hnorm] at a
    have h7 := mul_le_mul_of_nonneg_left hfirst (pow_nonneg (le_max_left 0 (1 - c.opts.convergenceTol)) N)
    have h8 := mul_lt_mul_of_pos_right hbound hX
    linarith
  exact ⟨w', h1, by rw [h3]; exact_mod_cast hkN, fun hlt => h6 (by omega)⟩

/-- The number of iterations with the tolerances that are the defaults of the constructor (cp.py:66-68). -/
theorem C159_defaults (hE : E.SVDOk) (hN : E.NNLSOk) (hQ : E.QROk) {c : CP.Config}
    (hA : CP.Admissible c.opts none none X.shape) (hridge : c.opts.ridgePenalties = none) (htol : c.opts.convergenceTol = 1e-6)
    (hrel : c.opts.relLossTol = 1e-10)
    (hlog : c.Measurable) (hfreq : freqOption c.freq ≠ 0) {arg : InitArg KruskalTensor} {t : KruskalTensor}
    (hi : CP.StartsFrom E c none none arg X t) (ht : t.WF X.shape c.opts.rank)
    (hX : 0 < sumIdx X.shape fun idx => X.get idx ^ 2)
    {budget : Int} {mi : Option Int} (hb : 0 < mi.getD budget) {loggers : List Logger} {file : Option H5File}
    (hS : Storing (CP.method E c) (CP.newObject none none budget loggers file) []) :
    ∃ w', CP.fit E c X mi arg (CP.newObject none none budget loggers file) = .ok () w' ∧ w'.it ≤ 24000001 := by
  obtain ⟨w', h1, h2, -⟩ := C159_bound hE hN hQ hA hridge (Or.inr rfl) hlog hfreq hi ht hX (N := 24000000)
    (by rw [hrel]; norm_num) (by
      rw [htol, hrel, max_eq_right (by norm_num)]
      have h1 : (1 - 1e-6 : ℝ) ≤ Real.exp (-1e-6) := by have := Real.add_one_le_exp (-1e-6 : ℝ); linarith
      calc (1 - 1e-6 : ℝ) ^ 24000000 ≤ Real.exp (-1e-6) ^ 24000000 := pow_le_pow_left₀ (by norm_num) h1 _
        _ = Real.exp (-1) ^ 24 := by
          rw [← Real.exp_nat_mul, ← Real.exp_nat_mul]
          norm_num
        _ ≤ (1 / 2.7) ^ 24 := by
          refine pow_le_pow_left₀ (Real.exp_pos _).le ?_ _
          rw [Real.exp_neg, ← one_div]
          exact one_div_le_one_div_of_le (by norm_num) (by have := Real.exp_one_gt_d9; linarith)
        _ < 1e-10 := by norm_num) hb hS
  exact ⟨w', h1, h2⟩

/-- Half-way tolerances: any fit of a tensor that is not zero stops after at most 5 iterations; shown for the matrix `i · j + 1` with
non-negative factor matrices. -/
example (hE : E.SVDOk) (hN : E.NNLSOk) (hQ : E.QROk) :
    ∃ w', CP.fit E ⟨⟨1, 1 / 2, 1 / 10, none⟩, "precomputed", none, false, [], fun _ _ _ _ => 0, id, fun _ => none⟩
        (ofMat 2 3 fun i j => (i : ℝ) * j + 1) none (.tensor ⟨1, [full [2, 1] 1, full [3, 1] 7], full [1] 1⟩)
        (CP.newObject (some [true, true]) none 1000 [{}] none) = .ok () w' ∧ w'.it ≤ 5 := by
  have ht : KruskalTensor.WF ⟨1, [full [2, 1] 1, full [3, 1] 7], full [1] 1⟩ (ofMat 2 3 fun i j => (i : ℝ) * j + 1).shape 1 :=
    ⟨rfl, .cons rfl (.cons rfl .nil), rfl⟩
  obtain ⟨w', h1, h2, -⟩ := C159_bound hE hN hQ
    (c := ⟨⟨1, 1 / 2, 1 / 10, none⟩, "precomputed", none, false, [], fun _ _ _ _ => 0, id, fun _ => none⟩)
    (nonNeg := some [true, true]) (X := ofMat 2 3 fun i j => (i : ℝ) * j + 1)
    ⟨by simp, by simp [ofMat], by simp [ofMat], by simp [ofMat], by simp, by simp, by simp, by simp⟩ rfl (Or.inl rfl) (fun p hp => by cases hp)
    (show freqOption none ≠ 0 by decide)
    (startsFrom_precomputed (by
      show "precomputed".toLower = _
      rw [String.toLower, ← String.toList_inj, String.toList_map]; decide) ht) ht
    (by
      refine lt_of_lt_of_le (b := (1 : ℝ)) one_pos ?_
      rw [show (ofMat 2 3 fun i j => (i : ℝ) * j + 1).shape = [2, 3] from rfl]
      simp [sumIdx, Finset.sum_range_succ, get_ofMat]
      norm_num)
    (N := 4) (by norm_num) (by norm_num) (budget := 1000) (mi := none) (by decide) (loggers := [{}]) (file := none)
    ⟨fun h => absurd h (show ¬ (0 : Int) < -1 by decide), fun h => absurd h (show ¬ (0 : Int) < -1 by decide),
      fun h => absurd h (show ¬ (0 : Int) < -1 by decide)⟩
  exact ⟨w', h1, h2⟩

end

end TK
