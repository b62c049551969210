import Verif.Props.P2Stationary
import Verif.Props.Pca
import Mathlib.Analysis.SpecialFunctions.Exp
import Mathlib.Analysis.Complex.ExponentialBounds

/-!
# C91 for `Parafac2_ALS`: a bound for the number of iterations that does not depend on the start

Source: parafac2.py (the loop of `_fit` and `_update_convergence`). After the first iteration the error is at most that of the zero model,
whatever the start; from then on each iteration that the stopping test lets pass lowers it by the factor `1 - convergence_tol`, and it stays
at least what the principal components of the slices side by side leave.
-/

namespace TK
open NDArray Fit
open EStateM (Result)

noncomputable section

variable {s : P2State} {I : ℕ} {Js : List ℕ}

/-- Spec: the sum of the squares of all entries of the slices. -/
def p2NormSq (Xs : List (NDArray ℝ)) (I : ℕ) (Js : List ℕ) : ℝ :=
  ∑ k ∈ Finset.range Js.length, ∑ i ∈ Finset.range I, ∑ j ∈ Finset.range (Js.getD k 0), (nth Xs k).get [i, j] ^ 2

/-- The error of a model without signal in any slice. -/
theorem p2Loss_zero (X P : List (NDArray ℝ)) {fs : List (NDArray ℝ)} {R : ℕ} (hf : fs.length = 3) :
    p2Loss X P (fs.set 2 (ofMat Js.length R fun _ _ => 0)) I Js R = p2NormSq X I Js := by
  rw [p2Loss, p2Err, p2NormSq]
  refine Finset.sum_congr rfl fun k hk => Finset.sum_congr rfl fun i _ => Finset.sum_congr rfl fun j _ => ?_
  have : p2Entry (modeMat (fs.set 2 (ofMat Js.length R fun _ _ => 0)) 0) (modeMat (fs.set 2 (ofMat Js.length R fun _ _ => 0)) 1)
      (modeMat (fs.set 2 (ofMat Js.length R fun _ _ => (0 : ℝ))) 2) (nth P k) R k i j = 0 := by
    refine Finset.sum_eq_zero fun r hr => ?_
    rw [modeMat_set_self (by omega), get_ofMat (Finset.mem_range.1 hk) (Finset.mem_range.1 hr)]
    ring
  rw [this, sub_zero]

/-- A step ends with an error of at most that of the zero model, whatever it started from. -/
theorem P2Step.le_zero {X fs P' fs' : List (NDArray ℝ)} {R n : ℕ} (h : P2Step X I Js R n fs P' fs') (hn : 0 < n) :
    p2Loss X P' fs' I Js R ≤ p2NormSq X I Js := by
  obtain ⟨g, hg, rfl, -⟩ := h.last hn
  have := hg.p2_le h.orth (m := 2) (by omega) (Y := ofMat Js.length R fun _ _ => 0) rfl
  rwa [p2Loss_zero X P' (hg.len 2 (show 2 ≤ 3 by omega))] at this

/-- C91 for `Parafac2_ALS` without constraints and penalties, as long as the updates treat no singular value as zero: if
`(1 - convergence_tol)^N · ‖X‖²` is below the error of every model (for example below what the principal components leave,
`C91_parafac2_pca`), then the fit makes at most `N + 1` iterations, whatever `max_its` and the start are (the projection matrices of the
start need not be orthonormal). -/
theorem C91_parafac2_start_partial {E : Ext} (hE : E.SVDOk) (hN : E.NNLSOk) (hQ : E.QROk) {c : P2.Config} {D : P2Data}
    {arg : InitArg P2Obj} {h0 : Heap} (hi : P2.StartsFrom E c D arg h0 s) (h : s.Sized I Js c.opts.rank) (hs : s.Separate)
    (hal : s.Allocated) (hJ : ∀ J ∈ Js, c.opts.rank ≤ J) (hcp : 0 < c.opts.cpUpdates)
    (hnn : c.opts.nonNeg = none) (hon : c.opts.orth = none) (hridge : c.opts.ridgePenalties = none)
    (hlog : c.Measurable I Js) (hfreq : freqOption c.freq ≠ 0) {l : ℝ} {sp : P2State} (el : P2.loss c.opts s = .ok l)
    (ep : P2.prepareCp E c.opts (s.withLoss .pinf l) = .ok sp)
    (hk : ∀ j, ∀ k < Js.length, (P2.orbit E c.opts sp j).KeepsAll E I Js c.opts.rank k) {N : ℕ}
    (hbound : ∀ (P : List (NDArray ℝ)) (A D C : NDArray ℝ),
      max 0 (1 - c.opts.convergenceTol) ^ N * p2NormSq s.X I Js < p2Err s.X P A D C I Js c.opts.rank)
    {budget : Int} {mi : Option Int} {loggers : List Logger} {file : Option H5File}
    (hS : Storing (P2.method E c) (P2.newObject h0 budget loggers file) []) :
    ∃ w', P2.fit E c D mi arg (P2.newObject h0 budget loggers file) = .ok () w' ∧ w'.it ≤ N + 1 ∧
      ((N : Int) + 1 < mi.getD budget → P2.shouldStop c.opts w'.st = .ok true) := by
  obtain ⟨hA, ci, hw, hd, hh, hX, hsh, hfree⟩ := p2_fit_start hQ h hs hal hnn hon hridge ep
  obtain ⟨l', sp', w', k, el', ep', -, hfit, hkb, hit, hst, hgo, hstop, -⟩ :=
    C80_fit_completes hE hN hQ hi h hs.distinct hal hA hlog hfreq (mi := mi) hS
  rw [el] at el'
  obtain rfl : l = l' := Except.ok.inj el'
  rw [ep] at ep'
  obtain rfl : sp = sp' := Except.ok.inj ep'
  have hsteps := p2_orbit_steps hE hN hridge hw (by rw [hd]; exact hs.nodup) hsh hfree hJ hk
  rw [hX] at hsteps
  have herr : ∀ j, (P2.orbit E c.opts sp j).err I Js c.opts.rank =
      p2Loss s.X (P2.orbit E c.opts sp j).P (P2.orbit E c.opts sp j).facs I Js c.opts.rank := by
    intro j
    obtain ⟨-, -, -, -, -, -, x, -⟩ := p2_orbit_working hE hN hw j
    rw [P2State.err, x, hX]
    rfl
  have hprev : sp.prevLoss = sp.err I Js c.opts.rank := by
    obtain ⟨l', e, hl⟩ := h.loss (o := c.opts)
    rw [el] at e
    obtain ⟨h', ci', ep', -⟩ := P2State.prepareCp_ok (E := E) hQ (o := c.opts) (h.withLoss .pinf l) (hs.distinct.loss .pinf l) hA
      (fun _ => hal)
    rw [ep] at ep'
    have hp : sp.prevLoss = l := by rw [Except.ok.inj ep']; rfl
    have h1 : sp.err I Js c.opts.rank = s.err I Js c.opts.rank := by
      unfold P2State.err P2State.P P2State.A P2State.D P2State.C
      rw [hX, hd, hh]
    rw [hp, h1, ← hl hridge, ← Except.ok.inj e]
  have hkN : k ≤ N + 1 := by
    by_contra hlt
    rw [not_le] at hlt
    have := geometric_decrease (L := fun j => (P2.orbit E c.opts sp (j + 1)).err I Js c.opts.rank) (tol := c.opts.convergenceTol)
      (fun j => p2_err_nonneg _ _ _ _) (N := N) (fun j _ => by
        rw [herr, herr]
        exact (hsteps (j + 1)).le (hsteps j).orth) (fun j hj => by
        have := (hgo (j + 1 + 1) (by omega)).2
        rw [P2.shouldStop, (p2_orbit_relChange hE hN hridge hw hprev (j + 1)).2] at this
        exact Except.ok.inj this)
    have h1 : (P2.orbit E c.opts sp (0 + 1)).err I Js c.opts.rank ≤ p2NormSq s.X I Js := by
      rw [herr]; exact (hsteps 0).le_zero hcp
    have h2 := mul_le_mul_of_nonneg_left h1 (pow_nonneg (le_max_left 0 (1 - c.opts.convergenceTol)) N)
    have h3 := hbound (P2.orbit E c.opts sp (N + 1)).P (modeMat (P2.orbit E c.opts sp (N + 1)).facs 0)
      (modeMat (P2.orbit E c.opts sp (N + 1)).facs 1) (modeMat (P2.orbit E c.opts sp (N + 1)).facs 2)
    have h4 := herr (N + 1)
    rw [p2Loss] at h4
    linarith
  exact ⟨w', hfit, by rw [hit]; exact_mod_cast hkN, fun hlt => hstop (by omega)⟩

/-- The bound on the error of `C91_parafac2_start_partial` holds if `(1 - convergence_tol)^N · ‖X‖²` is below what the leading principal components
of the slices side by side leave (C155). -/
theorem C91_parafac2_pca {Xs : List (NDArray ℝ)} {R N : ℕ} {tol : ℝ} {e : Fin I → ℝ} (he : LA.Eigenvalues (slicesGram Xs I Js) e)
    (hlt : max 0 (1 - tol) ^ N * p2NormSq Xs I Js < LA.tailSum e R) (P : List (NDArray ℝ)) (A D C : NDArray ℝ) :
    max 0 (1 - tol) ^ N * p2NormSq Xs I Js < p2Err Xs P A D C I Js R :=
  hlt.trans_le (C155_slices he)

/-- The hypotheses of `C91_parafac2_start_partial` hold: with the default tolerance 1e-8, a fit of rank one to the `2 × 2` identity matrix makes at
most `10^8 + 1` iterations, whatever its budget is; every model has an error of at least 1. -/
example {E : Ext} (hE : E.SVDOk) (hN : E.NNLSOk) (hQ : E.QROk) {c : P2.Config} (hi : c.init.toLower = "precomputed") {n : ℕ}
    {g : List ℕ → ℝ} (ho : c.opts = p2Plain 1 n g) (hlog : c.logs = []) (hfreq : c.freq = none) (hn : 0 < n) (budget : Int) (hb : 100000001 < budget) :
    ∃ (h0 : Heap) (d : P2Obj), ∃ w', P2.fit E c (.list [ofMat 2 2 fun i j => if i = j then 1 else 0]) none (.tensor d)
        (P2.newObject h0 budget [] none) = .ok () w' ∧ w'.it ≤ 100000001 ∧ P2.shouldStop c.opts w'.st = .ok true := by
  have hr : c.opts.rank = 1 := by rw [ho]; rfl
  set h0 : Heap := ⟨fun a => if a = 0 then ofMat 2 1 (fun i _ => if i = 0 then 1 else 0) else if a = 1 then ofMat 1 1 (fun _ _ => 1)
      else if a = 2 then ofMat 1 1 (fun _ _ => 1) else ofMat 2 1 fun i _ => if i = 0 then 1 else 0, 4⟩ with hh0
  set d : P2Obj := ⟨1, 0, 1, 2, [3], true, true, [(2, 2)], 3⟩ with hd
  set X : NDArray ℝ := ofMat 2 2 fun i j => if i = j then 1 else 0 with hX
  obtain ⟨s, h1, h2, h3, h4, h5⟩ := p2_startsFrom_precomputed (E := E) (c := c) hi (I := 2) (Js := [2]) (Xs := [X]) (by norm_num)
    (.cons rfl .nil) (by simp) (by omega) (by simp) (h0 := h0) (d := d) (by rw [hr]; rfl) (by rw [hr]; rfl) (by rw [hr]; rfl)
    (by rw [hr]; exact .cons rfl .nil)
  have hsep : s.Separate := by rw [P2State.Separate, h3]; simp [hd]
  have hal : s.Allocated := by rw [P2State.Allocated, h3, h4]; simp [hd, hh0]
  have hort : s.Orthonormal [2] c.opts.rank := by
    rw [hr]
    intro k hk i hi j hj
    obtain rfl : k = 0 := by simpa using hk
    obtain rfl : i = 0 := by omega
    obtain rfl : j = 0 := by omega
    rw [P2State.P, h3, h4]
    show ∑ l ∈ Finset.range 2, (ofMat 2 1 fun i _ => if i = 0 then (1 : ℝ) else 0).get [l, 0]
      * (ofMat 2 1 fun i _ => if i = 0 then (1 : ℝ) else 0).get [l, 0] = _
    rw [Finset.sum_range_succ, Finset.sum_range_one, get_ofMat (by norm_num) (by norm_num), get_ofMat (by norm_num) (by norm_num)]
    norm_num
  have herr : s.err 2 [2] 1 = 1 := by
    rw [P2State.err, h5, P2State.P, P2State.A, P2State.D, P2State.C, h3, h4]
    have e1 : ∀ i < 2, (ofMat 2 1 fun i _ => if i = 0 then (1 : ℝ) else 0).get [i, 0] = if i = 0 then 1 else 0 :=
      fun i hi => get_ofMat hi (by norm_num)
    have e2 : (ofMat 1 1 fun _ _ => (1 : ℝ)).get [0, 0] = 1 := get_ofMat (by norm_num) (by norm_num)
    show ∑ k ∈ Finset.range 1, ∑ i ∈ Finset.range 2, ∑ j ∈ Finset.range 2, (X.get [i, j]
      - p2Entry (ofMat 2 1 fun i _ => if i = 0 then (1 : ℝ) else 0) (ofMat 1 1 fun _ _ => (1 : ℝ)) (ofMat 1 1 fun _ _ => (1 : ℝ))
        (nth [ofMat 2 1 fun i _ => if i = 0 then (1 : ℝ) else 0] k) 1 k i j) ^ 2 = 1
    rw [Finset.sum_range_one]
    have e3 : ∀ i < 2, ∀ j < 2, (X.get [i, j] - p2Entry (ofMat 2 1 fun i _ => if i = 0 then (1 : ℝ) else 0)
        (ofMat 1 1 fun _ _ => (1 : ℝ)) (ofMat 1 1 fun _ _ => (1 : ℝ))
        (nth [ofMat 2 1 fun i _ => if i = 0 then (1 : ℝ) else 0] 0) 1 0 i j)
        = (if i = j then 1 else 0) - (if i = 0 then 1 else 0) * (if j = 0 then 1 else 0) := by
      intro i hi j hj
      rw [p2Entry, Finset.sum_range_one, Finset.sum_range_one, hX, get_ofMat hi hj, e1 i hi, e2]
      show _ - _ * 1 * ((ofMat 2 1 fun i _ => if i = 0 then (1 : ℝ) else 0).get [j, 0] * 1) = _
      rw [e1 j hj, mul_one, mul_one]
    rw [Finset.sum_range_succ, Finset.sum_range_one, Finset.sum_range_succ, Finset.sum_range_one, Finset.sum_range_succ,
      Finset.sum_range_one, e3 0 (by norm_num) 0 (by norm_num), e3 0 (by norm_num) 1 (by norm_num),
      e3 1 (by norm_num) 0 (by norm_num), e3 1 (by norm_num) 1 (by norm_num)]
    norm_num
  have hfsq : LA.fsq (s.Xm 2 [2] 0) = 2 := by
    unfold P2State.Xm
    rw [h5]
    show LA.fsq (mat X 2 2) = 2
    have e : ∀ i j : Fin 2, mat X 2 2 i j = if i = j then 1 else 0 := by
      intro i j
      show X.get [(i : ℕ), (j : ℕ)] = _
      rw [hX, get_ofMat i.2 j.2]
      simp only [Fin.val_inj]
    simp only [LA.fsq, Fin.sum_univ_two, e]
    norm_num
  obtain ⟨l, el, hl⟩ := h2.loss (o := c.opts)
  have hnn : c.opts.nonNeg = none := by rw [ho]; rfl
  have hon : c.opts.orth = none := by rw [ho]; rfl
  have hridge : c.opts.ridgePenalties = none := by rw [ho]; rfl
  have htol : c.opts.convergenceTol = 1e-8 := by rw [ho]; rfl
  have hp := p2Plain_prepare (E := E) hQ (n := n) (g := g) (s := s.withLoss .pinf l) (by rw [hr] at h2; exact h2.withLoss _ _)
    (hsep.loss .pinf l)
  rw [← ho] at hp
  obtain ⟨ci, ep, hw, hsh, hfree⟩ := hp
  have hk := p2_orbit_keepsAll hE hN hridge hw hsh hfree (show P2State.Orthonormal _ [2] c.opts.rank from hort) hr (by norm_num)
    (show s.err 2 [2] 1 < LA.fsq (s.Xm 2 [2] 0) by rw [herr, hfsq]; norm_num)
  obtain ⟨N, hNd⟩ : ∃ N : ℕ, N = 100000000 := ⟨_, rfl⟩
  have hpow : (1 - 1e-8 : ℝ) ^ N < 1 / 2 := by
    have h1 : (1 - 1e-8 : ℝ) ≤ Real.exp (-1e-8) := by have := Real.add_one_le_exp (-1e-8 : ℝ); linarith
    calc (1 - 1e-8 : ℝ) ^ N ≤ Real.exp (-1e-8) ^ N := pow_le_pow_left₀ (by norm_num) h1 _
      _ = Real.exp (-1) := by rw [← Real.exp_nat_mul, hNd]; norm_num
      _ < 1 / 2 := by
        rw [Real.exp_neg, ← one_div]
        exact one_div_lt_one_div_of_lt (by norm_num) (by have := Real.exp_one_gt_d9; linarith)
  have hsq : p2NormSq s.X 2 [2] = 2 := by
    rw [h5, p2NormSq, List.length_singleton, Finset.sum_range_one]
    show ∑ i ∈ Finset.range 2, ∑ j ∈ Finset.range 2, (nth [X] 0).get [i, j] ^ 2 = 2
    have e : ∀ i < 2, ∀ j < 2, (nth [X] 0).get [i, j] = if i = j then 1 else 0 := fun i hi j hj => by
      show X.get [i, j] = _
      rw [hX, get_ofMat hi hj]
    simp only [Finset.sum_range_succ, Finset.sum_range_zero, zero_add]
    rw [e 0 (by norm_num) 0 (by norm_num), e 0 (by norm_num) 1 (by norm_num), e 1 (by norm_num) 0 (by norm_num),
      e 1 (by norm_num) 1 (by norm_num)]
    norm_num
  obtain ⟨w', e, a, b⟩ := C91_parafac2_start_partial hE hN hQ h1 h2 hsep hal (by rw [hr]; simp) (by rw [ho]; exact hn) hnn hon hridge
    (by intro p hp; rw [hlog] at hp; cases hp) (by rw [hfreq]; decide) el ep (N := N) hk
    (fun P A D C => by
      rw [hsq, htol, hr, h5, max_eq_right (by norm_num)]
      have := p2_eye_err P A D C
      linarith) (mi := none) (budget := budget) (loggers := []) (file := none) (p2_storing_none hfreq _ _)
  have hNi : (N : Int) = 100000000 := by rw [hNd]; rfl
  rw [hNi] at a b
  exact ⟨h0, d, w', e, a, b hb⟩

end

end TK
