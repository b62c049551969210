import Verif.Props.ModeOrder
import Verif.Props.Continuity
import Mathlib.Topology.Order.Lattice

/-!
# C162: the factor match score depends continuously on the factor matrices

Source: metrics.py (`factor_match_score`), utils.py (`normalize_factors`). The score is a maximum, over the assignments of the components, of
minima or means of products of guarded cosines, all of which are continuous; the size penalty is not where two components vanish.
-/

namespace TK
open NDArray Filter Topology
open Fit

noncomputable section

variable {as bs : ℕ → List (NDArray ℝ)} {a b : List (NDArray ℝ)} {sizes : List ℕ} {R R' : ℕ} {eps : ℝ} {l : Filter ℕ}

theorem tendsto_colLen {Fs : ℕ → NDArray ℝ} {F : NDArray ℝ} {m r : ℕ}
    (h : ∀ i < m, Tendsto (fun j => (Fs j).get [i, r]) l (𝓝 (F.get [i, r]))) : Tendsto (fun j => colLen (Fs j) m r) l (𝓝 (colLen F m r)) :=
  (tendsto_finsetSum _ fun i hi => (h i (Finset.mem_range.1 hi)).pow 2).sqrt

theorem tendsto_congruence {Fs Gs : ℕ → NDArray ℝ} {F G : NDArray ℝ} {m r s : ℕ} (he : 0 < eps)
    (hF : ∀ i < m, Tendsto (fun j => (Fs j).get [i, r]) l (𝓝 (F.get [i, r])))
    (hG : ∀ i < m, Tendsto (fun j => (Gs j).get [i, s]) l (𝓝 (G.get [i, s]))) :
    Tendsto (fun j => congruence eps (Fs j) (Gs j) m r s) l (𝓝 (congruence eps F G m r s)) := by
  refine Tendsto.div ?_ (((tendsto_colLen hF).add_const eps).mul ((tendsto_colLen hG).add_const eps)) ?_
  · exact (tendsto_finsetSum _ fun i hi => (hF i (Finset.mem_range.1 hi)).mul (hG i (Finset.mem_range.1 hi))).abs
  · have h1 : 0 ≤ colLen F m r := Real.sqrt_nonneg _
    have h2 : 0 ≤ colLen G m s := Real.sqrt_nonneg _
    positivity

theorem tendsto_congruenceProd (he : 0 < eps) (ha : FactorsTendTo l as a sizes R) (hb : FactorsTendTo l bs b sizes R')
    (hal : a.length = sizes.length) (hbl : b.length = sizes.length) (hals : ∀ j, (as j).length = sizes.length)
    (hbls : ∀ j, (bs j).length = sizes.length) {r s : ℕ} (hr : r < R) (hs : s < R') :
    Tendsto (fun j => congruenceProd eps r s (as j) (bs j) sizes) l (𝓝 (congruenceProd eps r s a b sizes)) := by
  rw [congruenceProd_eq_prod eps r s hal hbl]
  simp only [fun j => congruenceProd_eq_prod eps r s (hals j) (hbls j)]
  exact tendsto_finsetProd _ fun k hk => tendsto_congruence he (fun i hi => ha k (Finset.mem_range.1 hk) i hi r hr)
    fun i hi => hb k (Finset.mem_range.1 hk) i hi s hs

theorem tendsto_compSize (ha : FactorsTendTo l as a sizes R) (hal : a.length = sizes.length) (hals : ∀ j, (as j).length = sizes.length)
    {r : ℕ} (hr : r < R) : Tendsto (fun j => compSize (as j) sizes r) l (𝓝 (compSize a sizes r)) := by
  simp only [compSize]
  rw [modeProd_eq_prod _ hal.symm]
  simp only [fun j => modeProd_eq_prod (fun F m => colLen F m r) (hals j).symm]
  rw [hal]
  simp only [hals]
  exact tendsto_finsetProd _ fun k hk => tendsto_colLen fun i hi => ha k (Finset.mem_range.1 hk) i hi r hr

theorem compSize_nonneg' (fs : List (NDArray ℝ)) (sizes : List ℕ) (r : ℕ) (h : fs.length = sizes.length) : 0 ≤ compSize fs sizes r := by
  rw [compSize, modeProd_eq_prod _ h.symm]
  exact Finset.prod_nonneg fun _ _ => Real.sqrt_nonneg _

theorem tendsto_compMatch (he : 0 < eps) (ha : FactorsTendTo l as a sizes R) (hb : FactorsTendTo l bs b sizes R')
    (hal : a.length = sizes.length) (hbl : b.length = sizes.length) (hals : ∀ j, (as j).length = sizes.length)
    (hbls : ∀ j, (bs j).length = sizes.length) {penalty : Bool} (hc : Comparable penalty a b sizes R R') {r s : ℕ} (hr : r < R) (hs : s < R') :
    Tendsto (fun j => compMatch penalty eps (as j) (bs j) sizes r s) l (𝓝 (compMatch penalty eps a b sizes r s)) := by
  refine Tendsto.mul ?_ (tendsto_congruenceProd he ha hb hal hbl hals hbls hr hs)
  cases penalty with
  | false => simpa using tendsto_const_nhds
  | true =>
    have h1 := tendsto_compSize ha hal hals hr
    have h2 := tendsto_compSize hb hbl hbls hs
    simp only [if_true, sizeMatch]
    refine ((h1.sub h2).abs.div (h1.max h2) ?_).const_sub 1
    have p1 := compSize_nonneg' a sizes r hal
    have p2 := compSize_nonneg' b sizes s hbl
    rcases hc rfl r hr s hs with h | h
    · exact (lt_max_of_lt_left (lt_of_le_of_ne p1 (Ne.symm h))).ne'
    · exact (lt_max_of_lt_right (lt_of_le_of_ne p2 (Ne.symm h))).ne'

theorem tendsto_assignScore (he : 0 < eps) (hR : 0 < R) (ha : FactorsTendTo l as a sizes R) (hb : FactorsTendTo l bs b sizes R')
    (hal : a.length = sizes.length) (hbl : b.length = sizes.length) (hals : ∀ j, (as j).length = sizes.length)
    (hbls : ∀ j, (bs j).length = sizes.length) {penalty : Bool} (hc : Comparable penalty a b sizes R R') (useMin : Bool)
    {π : List ℕ} (hπ : IsAssignment π R R') :
    Tendsto (fun j => assignScore useMin penalty eps (as j) (bs j) sizes R π) l (𝓝 (assignScore useMin penalty eps a b sizes R π)) := by
  have key : ∀ r < R, Tendsto (fun j => compMatch penalty eps (as j) (bs j) sizes r (π.getD r 0)) l
      (𝓝 (compMatch penalty eps a b sizes r (π.getD r 0))) := fun r hr =>
    tendsto_compMatch he ha hb hal hbl hals hbls hc hr (hπ.getD_lt hr)
  unfold assignScore
  cases useMin with
  | false => exact (tendsto_finsetSum _ fun r hr => key r (Finset.mem_range.1 hr)).div_const _
  | true =>
    haveI : Nonempty (Fin R) := ⟨⟨0, hR⟩⟩
    simp only [if_true, reduceMin, ← Finset.inf'_univ_eq_ciInf]
    exact Tendsto.finset_inf'_nhds_apply _ fun r _ => key r r.2

/-- The best score is the maximum over the assignments. -/
theorem IsBest.eq_sup {useMin penalty : Bool} {v : ℝ} {π : List ℕ} (h : IsBest useMin penalty eps a b sizes R R' v π)
    (hne : (permutations R (List.range R')).toFinset.Nonempty) :
    v = (permutations R (List.range R')).toFinset.sup' hne (assignScore useMin penalty eps a b sizes R) := by
  refine le_antisymm ?_ (Finset.sup'_le _ _ fun ρ hρ => h.best ρ (mem_permutations_range.1 (List.mem_toFinset.1 hρ)))
  rw [h.attained]
  exact Finset.le_sup' _ (List.mem_toFinset.2 (mem_permutations_range.2 h.assignment))

/-- C162, the part that holds: if the entries of the factor matrices converge, `factor_match_score` (minimum or mean over the components)
converges to the score of the limits. With the size penalty, no two components that are compared may both be zero in the limit
(false otherwise, `C162_fails`). -/
theorem C162_continuous_partial (he : 0 < eps) (hR : 0 < R) (hRR : R ≤ R') (hne : sizes ≠ []) (ha : FactorsTendTo atTop as a sizes R)
    (hb : FactorsTendTo atTop bs b sizes R') (fa : Factors a sizes R) (fb : Factors b sizes R') (fas : ∀ j, Factors (as j) sizes R)
    (fbs : ∀ j, Factors (bs j) sizes R') (useMin penalty : Bool) (hc : Comparable penalty a b sizes R R') :
    ∃ v π, ∃ vs : ℕ → ℝ, ∃ πs : ℕ → List ℕ, factorMatchScore a b penalty (redName useMin) eps = .ok (v, some π) ∧
      (∀ᶠ j in atTop, factorMatchScore (as j) (bs j) penalty (redName useMin) eps = .ok (vs j, some (πs j))) ∧
      Tendsto vs atTop (𝓝 v) := by
  have hal := fa.length_eq
  have hbl := fb.length_eq
  have hals := fun j => (fas j).length_eq
  have hbls := fun j => (fbs j).length_eq
  have hcs : ∀ᶠ j in atTop, Comparable penalty (as j) (bs j) sizes R R' := by
    cases penalty with
    | false => exact Eventually.of_forall fun j h => absurd h (by simp)
    | true =>
      have h1 : ∀ᶠ j in atTop, ∀ r ∈ Finset.range R, ∀ s ∈ Finset.range R', compSize (as j) sizes r ≠ 0 ∨ compSize (bs j) sizes s ≠ 0 := by
        rw [Filter.eventually_all_finset]
        intro r hr
        rw [Filter.eventually_all_finset]
        intro s hs
        have hr := Finset.mem_range.1 hr
        have hs := Finset.mem_range.1 hs
        rcases hc rfl r hr s hs with h | h
        · exact ((tendsto_compSize ha hal hals hr).eventually_ne h).mono fun _ h => Or.inl h
        · exact ((tendsto_compSize hb hbl hbls hs).eventually_ne h).mono fun _ h => Or.inr h
      exact h1.mono fun j h _ r hr s hs => h r (Finset.mem_range.2 hr) s (Finset.mem_range.2 hs)
  obtain ⟨v, π, e, -, -, hbest⟩ := C26_factor_match_score he hR hRR fa fb hne useMin penalty hc
  have hn : (permutations R (List.range R')).toFinset.Nonempty := ⟨π, List.mem_toFinset.2 (mem_permutations_range.2 hbest.assignment)⟩
  have hex : ∀ j, ∃ v π, Comparable penalty (as j) (bs j) sizes R R' →
      factorMatchScore (as j) (bs j) penalty (redName useMin) eps = .ok (v, some π) ∧
        IsBest useMin penalty eps (as j) (bs j) sizes R R' v π := by
    intro j
    by_cases h : Comparable penalty (as j) (bs j) sizes R R'
    · obtain ⟨v, π, e, -, -, h1⟩ := C26_factor_match_score he hR hRR (fas j) (fbs j) hne useMin penalty h
      exact ⟨v, π, fun _ => ⟨e, h1⟩⟩
    · exact ⟨0, [], fun h' => absurd h' h⟩
  choose vs πs hvs using hex
  refine ⟨v, π, vs, πs, e, hcs.mono fun j h => (hvs j h).1, ?_⟩
  rw [hbest.eq_sup hn]
  refine (Tendsto.finset_sup'_nhds_apply hn fun ρ hρ => tendsto_assignScore he hR ha hb hal hbl hals hbls hc useMin
    (mem_permutations_range.1 (List.mem_toFinset.1 hρ))).congr' (hcs.mono fun j h => ?_)
  exact ((hvs j h).2.eq_sup hn).symm

/-- **C162, refuted** for the size penalty at zero components: the score of a decomposition with one component and entries `1/(n+1)`, compared
with itself, is not negative, but that of the limit is -1. -/
theorem C162_fails (he : 0 < eps) (useMin : Bool) : ∃ as : ℕ → List (NDArray ℝ), ∃ a : List (NDArray ℝ),
    FactorsTendTo atTop as a [2, 3] 1 ∧ (∀ j, Factors (as j) [2, 3] 1) ∧ Factors a [2, 3] 1 ∧
    factorMatchScore a a true (redName useMin) eps = .ok (-1, none) ∧
    ∀ j, ∃ v π, factorMatchScore (as j) (as j) true (redName useMin) eps = .ok (v, some π) ∧ 0 ≤ v := by
  have hg : ∀ (x : ℝ) (m i : ℕ), i < m → (ofMat m 1 fun _ _ => x).get [i, 0] = x := fun x m i hi => get_ofMat hi one_pos
  have hsz : ∀ x : ℝ, compSize [ofMat 2 1 fun _ _ => x, ofMat 3 1 fun _ _ => x] [2, 3] 0 =
      Real.sqrt (x ^ 2 + x ^ 2) * Real.sqrt (x ^ 2 + x ^ 2 + x ^ 2) := by
    intro x
    have c2 : colLen (ofMat 2 1 fun _ _ => x) 2 0 = Real.sqrt (x ^ 2 + x ^ 2) := by
      rw [colLen, Finset.sum_range_succ, Finset.sum_range_one, hg _ _ _ (by norm_num), hg _ _ _ (by norm_num)]
    have c3 : colLen (ofMat 3 1 fun _ _ => x) 3 0 = Real.sqrt (x ^ 2 + x ^ 2 + x ^ 2) := by
      rw [colLen, Finset.sum_range_succ, Finset.sum_range_succ, Finset.sum_range_one, hg _ _ _ (by norm_num), hg _ _ _ (by norm_num),
        hg _ _ _ (by norm_num)]
    rw [compSize, modeProd, modeProd, modeProd, mul_one, c2, c3]
    all_goals simp
  have hF : ∀ x : ℝ, Factors [ofMat 2 1 fun _ _ => x, ofMat 3 1 fun _ _ => x] [2, 3] 1 := fun x => .cons rfl (.cons rfl .nil)
  refine ⟨fun n => [ofMat 2 1 fun _ _ => 1 / ((n : ℝ) + 1), ofMat 3 1 fun _ _ => 1 / ((n : ℝ) + 1)],
    [ofMat 2 1 fun _ _ => 0, ofMat 3 1 fun _ _ => 0], ?_, fun j => hF _, hF 0, ?_, fun j => ?_⟩
  · intro m hm i hi r hr
    obtain rfl : r = 0 := by omega
    have hm : m < 2 := hm
    interval_cases m
    · show Tendsto (fun n : ℕ => (ofMat 2 1 fun _ _ => 1 / ((n : ℝ) + 1)).get [i, 0]) atTop (𝓝 ((ofMat 2 1 fun _ _ => (0 : ℝ)).get [i, 0]))
      simp only [fun x => hg x 2 i hi]
      exact tendsto_one_div_add_atTop_nhds_zero_nat
    · show Tendsto (fun n : ℕ => (ofMat 3 1 fun _ _ => 1 / ((n : ℝ) + 1)).get [i, 0]) atTop (𝓝 ((ofMat 3 1 fun _ _ => (0 : ℝ)).get [i, 0]))
      simp only [fun x => hg x 3 i hi]
      exact tendsto_one_div_add_atTop_nhds_zero_nat
  · exact C29_zero_component he (hF 0) (hF 0) (by simp) useMin (by rw [hsz]; simp) (by rw [hsz]; simp)
  · obtain ⟨v, π, e, h0, -⟩ := C26_factor_match_score he one_pos le_rfl (hF (1 / ((j : ℝ) + 1))) (hF (1 / ((j : ℝ) + 1))) (by simp)
      useMin true (comparable_of_nonzero fun r hr => by
        obtain rfl : r = 0 := by omega
        rw [hsz]
        positivity)
    exact ⟨v, π, e, h0⟩

/-- **C162 for fits**: fits of data `X_n → X` from starts `t_n → t` with `j + 1` iterations find, in the limit, the components of the fit of
`X`: their factor match score with that fit converges to the score of that fit with itself, which is at least the mean (or minimum) of
`(‖column‖ / (‖column‖ + eps))²` multiplied over the modes. The example of `C157_full` has a case of the hypotheses. -/
theorem C162_fits {E : Ext} {c : CP.Config} {arg : InitArg KruskalTensor} {args : ℕ → InitArg KruskalTensor} {t : KruskalTensor}
    {ts : ℕ → KruskalTensor} {X : NDArray ℝ} {Xs : ℕ → NDArray ℝ} {budget : Int} {loggers : List Logger} {file : Option H5File}
    (hE : E.SVDOk) (hN : E.NNLSOk) (hQ : E.QROk) (hA : CP.Admissible c.opts none none X.shape)
    (hridge : c.opts.ridgePenalties = none) (hlog : c.Measurable) (hfreq : freqOption c.freq ≠ 0)
    (hX : DataTendTo Xs X) (hi : CP.StartsFrom E c none none arg X t) (his : ∀ n, CP.StartsFrom E c none none (args n) (Xs n) (ts n))
    (ht : t.WF X.shape c.opts.rank) (hts : ∀ n, (ts n).WF X.shape c.opts.rank)
    (hS : Storing (CP.method E c) (CP.newObject none none budget loggers file) [])
    (hst : ∀ k < X.shape.length, 0 < k → ModeTendTo (fun n => (ts n).factorMatrices) t.factorMatrices X.shape c.opts.rank k)
    (hD : Determined E c.opts X t) (t1 : c.opts.convergenceTol ≤ 0) (t2 : c.opts.relLossTol ≤ 0) (he : 0 < eps) (useMin : Bool) (j : ℕ) :
    ∃ w, ∃ res : ℕ → World CPState,
      CP.fit E c X (some (j + 1)) arg (CP.newObject none none budget loggers file) = .ok () w ∧
      (∀ n, CP.fit E c (Xs n) (some (j + 1)) (args n) (CP.newObject none none budget loggers file) = .ok () (res n)) ∧
      ∃ v, ∃ vs : ℕ → ℝ, ∃ πs : ℕ → List ℕ,
        (∀ᶠ n in atTop, factorMatchScore (res n).st.dec.factorMatrices w.st.dec.factorMatrices false (redName useMin) eps =
          .ok (vs n, some (πs n))) ∧ Tendsto vs atTop (𝓝 v) ∧
        (if useMin then reduceMin else reduceMean) c.opts.rank
          (fun r => modeProd (fun F m => (colLen F m r / (colLen F m r + eps)) ^ 2) w.st.dec.factorMatrices X.shape) ≤ v := by
  obtain ⟨w, res, hw, -, hres, hlim, -⟩ := C157_full hE hN hQ hA hridge hlog hfreq hX hi his ht hts hS hst hD t1 t2 j
  have hwf : ∀ {Z : NDArray ℝ} {a : InitArg KruskalTensor} {u : KruskalTensor} {w : World CPState}, Z.shape = X.shape →
      CP.StartsFrom E c none none a Z u → u.WF X.shape c.opts.rank →
      CP.fit E c Z (some (j + 1)) a (CP.newObject none none budget loggers file) = .ok () w →
      Factors w.st.dec.factorMatrices X.shape c.opts.rank := by
    intro Z a u w hZ hi hu hw
    obtain ⟨s0, w', k, e0, h1, h2, h3, h4, -, h6, h7, -⟩ := C74_fit_completes hE hN hQ (by rw [hZ]; exact hA) hlog hfreq hi
      (by rw [hZ]; exact hu) (mi := some ((j : Int) + 1)) (budget := budget) (by simp only [Option.getD_some]; omega) hS
    rw [hw] at h1
    obtain rfl : w = w' := by injection h1
    rw [← hZ]; exact h7.factors
  have hne : X.shape ≠ [] := by
    intro h
    have := hA.order
    rw [h] at this
    simp at this
  have fw := hwf rfl hi ht hw
  obtain ⟨v, π, vs, πs, e, h1, h2⟩ := C162_continuous_partial he hA.rank le_rfl hne hlim (fun m hm i hi r hr => tendsto_const_nhds) fw fw
    (fun n => hwf (hX.1 n) (his n) (hts n) (hres n).1) (fun _ => fw) useMin false (fun h => absurd h (by simp))
  obtain ⟨-, v', π', e', -, h3⟩ := C29_self he hA.rank fw hne useMin false (by simp)
  rw [e] at e'
  obtain rfl : v = v' := by injection e' with h; exact (Prod.mk.inj h).1
  exact ⟨w, res, hw, fun n => (hres n).1, v, vs, πs, h1, h2, h3⟩

end

end TK
