import Verif.Props.ModelLength
import Verif.Props.ExplainedRidgeP2
import Verif.Props.OneComponentNonNegP2

/-!
# C166 for `Parafac2_ALS`

Source: parafac2.py (`Parafac2_ALS._fit`), decompositions.py (`Parafac2Tensor.construct_slices`).
-/

namespace TK
open NDArray Fit Matrix
open EStateM (Result)

noncomputable section

variable {s : P2State} {I R : ℕ} {Js : List ℕ}

/-- The squared norm of the inner model, slice by slice. -/
theorem inner_modelSq (s : P2State) (I : ℕ) (Js : List ℕ) (R : ℕ) :
    modelSq [I, R, Js.length] (fun _ => 1) [s.A, s.D, s.C] R = ∑ k ∈ Finset.range Js.length, LA.fsq (s.Mm I R k) := by
  have e1 : modelSq [I, R, Js.length] (fun _ => 1) [s.A, s.D, s.C] R = ∑ i ∈ Finset.range I, ∑ q ∈ Finset.range R,
      ∑ k ∈ Finset.range Js.length, (p2Score s.A s.D s.C I R k).get [i, q] ^ 2 := by
    unfold modelSq
    simp only [sumIdx_cons, sumIdx_nil]
    refine Finset.sum_congr rfl fun i hi => Finset.sum_congr rfl fun q hq => Finset.sum_congr rfl fun k hk => ?_
    rw [p2Score, get_ofMat (Finset.mem_range.1 hi) (Finset.mem_range.1 hq)]
    congr 1
    unfold cpEntry
    refine Finset.sum_congr rfl fun r _ => ?_
    simp only [rankOne]
    ring
  have e2 : ∀ i, ∑ q ∈ Finset.range R, ∑ k ∈ Finset.range Js.length, (p2Score s.A s.D s.C I R k).get [i, q] ^ 2 =
      ∑ k ∈ Finset.range Js.length, ∑ q ∈ Finset.range R, (p2Score s.A s.D s.C I R k).get [i, q] ^ 2 := fun i => Finset.sum_comm
  rw [e1]
  simp only [e2]
  rw [Finset.sum_comm]
  refine Finset.sum_congr rfl fun k _ => ?_
  unfold LA.fsq
  rw [Finset.sum_range]
  refine Finset.sum_congr rfl fun i _ => ?_
  rw [Finset.sum_range]
  rfl

/-- Projection matrices that do not increase lengths: the slices of the model are together not longer than the inner model. -/
theorem p2_slices_le (h : s.Sized I Js R) (hc : s.Contracting Js R) :
    ∃ Y, (s.dec.read s.heap).constructSlices = .ok Y ∧ List.Forall₂ (fun X J => X.shape = [I, J]) Y Js ∧
      slicesSq Y ≤ modelSq [I, R, Js.length] (fun _ => 1) [s.A, s.D, s.C] R := by
  obtain ⟨Y, e, hY, g⟩ := h.slices
  refine ⟨Y, e, hY, ?_⟩
  rw [inner_modelSq, slicesSq, sum_map_nth, hY.length_eq]
  refine Finset.sum_le_sum fun k hk => ?_
  refine le_trans (le_of_eq ?_) ((hc k (Finset.mem_range.1 hk)).fsq_mul_le (s.Mm I R k))
  rw [sumSq, shape_nth hY (Finset.mem_range.1 hk), sumIdx_two, LA.fsq, Finset.sum_range]
  refine Finset.sum_congr rfl fun i _ => ?_
  rw [Finset.sum_range]
  refine Finset.sum_congr rfl fun j _ => ?_
  rw [g k (Finset.mem_range.1 hk) i i.2 j j.2, P2State.p2Entry_eq, Finset.sum_range, Matrix.mul_apply]
  congr 1
  simp only [P2State.Mm, P2State.Ym, p2Score, mat_ofMat, Matrix.transpose_apply, mat]
  refine Finset.sum_congr rfl fun q _ => ?_
  rw [get_ofMat i.2 q.2]

/-- **C166** for `Parafac2_ALS`, slices of any sizes: without orthogonality constraints, with no constraint on `C` (one component: it may be non-negative), no penalties or penalties of which
none is negative, and at least one inner update, after a fit with a positive iteration budget the slices that the decomposition represents
are together not longer than the slices of the data, whatever the start (and although the projection matrices need not be orthonormal, C52). -/
theorem C166_parafac2 {E : Ext} (hE : E.SVDOk) (hN : E.NNLSOk) (hQ : E.QROk) {c : P2.Config} {D : P2Data}
    {arg : InitArg P2Obj} {h0 : Heap} (hi : P2.StartsFrom E c D arg h0 s) (h : s.Sized I Js c.opts.rank) (hs : s.Distinct)
    (hal : s.Allocated) (hA : P2.Admissible c.opts I Js.length) (hon : c.opts.orth = none)
    (hpen : c.opts.ridgePenalties = none ∨ ∃ ps p, c.opts.ridgePenalties = some ps ∧ ps[2]? = some p ∧ ∀ x ∈ ps, 0 ≤ x)
    {nn : Bool} (hnn : (P2.nonNegOption c.opts)[2]? = some nn) (h1 : nn = false ∨ c.opts.rank = 1) (hup : 0 < c.opts.cpUpdates)
    (hlog : c.Measurable I Js) (hfreq : freqOption c.freq ≠ 0)
    {budget : Int} {mi : Option Int} (hb : 0 < mi.getD budget) {loggers : List Logger} {file : Option H5File}
    (hS : Storing (P2.method E c) (P2.newObject h0 budget loggers file) []) :
    ∃ w' Y, P2.fit E c D mi arg (P2.newObject h0 budget loggers file) = .ok () w' ∧
      (w'.st.dec.read w'.st.heap).constructSlices = .ok Y ∧ List.Forall₂ (fun X J => X.shape = [I, J]) Y Js ∧ slicesSq Y ≤ slicesSq s.X := by
  have hof : P2State.orthFlags c.opts = [false, false, false] := by rw [P2State.orthFlags, hon]; rfl
  have hno : ∀ j : ℕ, ([false, false, false] : List Bool)[j]? ≠ some true := by
    intro j
    match j with
    | 0 => simp
    | 1 => simp
    | 2 => simp
    | _ + 3 => simp
  obtain ⟨l, sp, w', k, el, ep, -, hfit, -, hit, hst, -, hstop, -⟩ := C80_fit_completes hE hN hQ hi h hs hal hA hlog hfreq
    (mi := mi) hS
  obtain ⟨h', ci, ep', hw, -, -, hn1, ho1, -, -, hsh, -⟩ := P2State.prepareCp_ok (E := E) hQ (o := c.opts) (h.withLoss .pinf l)
    (hs.loss .pinf l) hA (fun _ => hal)
  rw [ep] at ep'
  obtain rfl : sp = (s.withLoss .pinf l).withInner h' ci := by injection ep'
  rw [hof] at hsh ho1
  obtain ⟨rfl, h3⟩ := hsh hno
  have hk : k ≠ 0 := by
    rintro rfl
    have := hstop (by exact_mod_cast hb)
    rw [hst] at this
    cases this
  obtain ⟨j, rfl⟩ : ∃ j, k = j + 1 := ⟨k - 1, by omega⟩
  obtain ⟨c1, hw1, ha, hn2, ho2, hd, hXj, -⟩ := p2_orbit_working hE hN hw j
  have hsh1 : (P2.orbit E c.opts ((s.withLoss .pinf l).withInner (s.withLoss .pinf l).heap ci) j).Shares c1 := by
    unfold P2State.Shares
    rw [ha, hd]; exact h3
  have hstep := p2_orbit_step hE hN hw j
  have hmain : w'.st.err I Js c.opts.rank ≤ slicesSq s.X -
      modelSq [I, c.opts.rank, Js.length] (fun _ => 1) [w'.st.A, w'.st.D, w'.st.C] c.opts.rank := by
    have hX0 : ((s.withLoss .pinf l).withInner (s.withLoss .pinf l).heap ci).X = s.X := rfl
    rw [← hX0, ← hXj, hst]
    rcases hpen with hp | ⟨ps, p, hp, hp2, hp0⟩
    · rcases h1 with rfl | h1
      swap
      · exact (p2_iteration_one hE hN h1 hp hw1 hsh1 (hn2.trans hn1) (hA.nonNegLen _ rfl) (ho2.trans ho1) hup hstep).2.2.2
      exact p2_iteration_explained hE hN hw1 hsh1 ⟨⟨_, hn2.trans hn1, hnn⟩, ⟨_, ho2.trans ho1, rfl⟩, Or.inl ⟨hp, rfl⟩⟩ hup hstep
    · exact p2_iteration_short hE hN hw1 hsh1 (hp0 p (List.mem_of_getElem? hp2)) h1 ⟨⟨_, hn2.trans hn1, hnn⟩, ⟨_, ho2.trans ho1, rfl⟩, Or.inr ⟨ps, p, hp, hp2, rfl⟩⟩ hup hstep
  obtain ⟨s'', c', f, e, hw2, -, -, -, -, -, -, -, -, -, -, -, -, hcon, -⟩ := P2State.iteration_ok hE hN hw1
  rw [hstep] at e
  obtain rfl := Except.ok.inj e
  rw [← hst] at hw2 hcon
  obtain ⟨Y, eY, hY, hle⟩ := p2_slices_le hw2.sized hcon
  have herr : 0 ≤ w'.st.err I Js c.opts.rank := by
    rw [P2State.err_eq]
    exact Finset.sum_nonneg fun k _ => LA.fsq_nonneg _
  exact ⟨w', Y, hfit, eY, hY, by linarith⟩

/-- **C166** for `Parafac2_ALS` with `init="random"` and ridge penalties: the hypotheses are met by all data. -/
theorem C166_parafac2_random {E : Ext} (hE : E.SVDOk) (hN : E.NNLSOk) (hQ : E.QROk) {c : P2.Config}
    (hi : c.init.toLower = "random") {n : ℕ} {g : List ℕ → ℝ} {p q r : ℝ} (hp0 : 0 ≤ p) (hq0 : 0 ≤ q) (hr0 : 0 ≤ r) (ho : c.opts = p2Ridged R (n + 1) g [p, q, r])
    (hlog : c.logs = []) (hfreq : c.freq = none) {Xs : List (NDArray ℝ)} (hI : 0 < I) (hX : List.Forall₂ (fun Xk J => Xk.shape = [I, J]) Xs Js)
    (hK : 0 < Js.length) (hR : 0 < R) (hJ : ∀ J ∈ Js, R ≤ J) (h0 : Heap) (budget : Int) (mi : Option Int)
    (hb : 0 < mi.getD budget) (loggers : List Logger) (file : Option H5File) :
    ∃ w' Y, P2.fit E c (.list Xs) mi .none (P2.newObject h0 budget loggers file) = .ok () w' ∧
      (w'.st.dec.read w'.st.heap).constructSlices = .ok Y ∧ slicesSq Y ≤ slicesSq Xs := by
  have hr : c.opts.rank = R := by rw [ho]; rfl
  have e0 := p2_setTarget_list hX hK (P2.fresh h0)
  set s0 : P2State := { P2.fresh h0 with
      X := Xs
      XShape := (I, Js, Js.length)
      XNorm := Real.sqrt ((Xs.map fun Xk => frobNorm Xk ^ 2).sum) } with hs0
  have hJ' : ∀ J ∈ Js, c.opts.rank ≤ J := by rw [hr]; exact hJ
  have hR' : 0 < c.opts.rank := by rw [hr]; exact hR
  have hd : s0.Data I Js := ⟨hI, fun J hJ2 => hR'.trans_le (hJ' J hJ2), hK, hX, rfl⟩
  obtain ⟨t, e, h1, h2, h3, h4, h5⟩ := P2State.initRandom_ok hQ hd hR' hJ'
  obtain ⟨g1, g2, g3, g4, -⟩ := P2State.setNew_spec hd hR' h1 h2 h3 h4
  have hstart : P2.StartsFrom E c (.list Xs) .none h0 (P2.setNew t s0) := by
    refine ⟨s0, e0, fun budget loggers file => ?_⟩
    unfold P2.initComponents
    simp only [hi]
    exact modifySt_ok (w := ⟨s0, 0, budget, loggers, file⟩) e
  obtain ⟨w', Y, q1, q2, -, q3⟩ := C166_parafac2 hE hN hQ hstart g1 g2.distinct g3
    (by rw [ho]; exact p2Ridged_admissible hR hI hK rfl) (by rw [ho]; rfl) (Or.inr ⟨[p, q, r], r, by rw [ho]; rfl, rfl, by simp [hp0, hq0, hr0]⟩) (nn := false) (by rw [ho]; rfl) (Or.inl rfl)
    (by rw [ho]; exact Nat.succ_pos n) (by intro p hp; rw [hlog] at hp; cases hp) (by rw [hfreq]; decide) (budget := budget)
    (mi := mi) hb (loggers := loggers) (file := file) (p2_storing_none hfreq _ _)
  exact ⟨w', Y, q1, q2, q3⟩

/-- Two slices with 2 and 3 columns. -/
example : List.Forall₂ (fun (Xk : NDArray ℝ) J => Xk.shape = [2, J]) [full [2, 2] 1, full [2, 3] 5] [2, 3] ∧ ∀ J ∈ [2, 3], 2 ≤ J :=
  ⟨.cons rfl (.cons rfl .nil), by simp⟩

end
end TK
