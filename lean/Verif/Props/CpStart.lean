import Verif.Props.Stopping

/-! # Fits of `Parafac2_ALS` started with `init="cp"` (C108) -/

namespace TK
open NDArray Matrix Fit

noncomputable section

local macro "aomega" : tactic => `(tactic| (try dsimp only [Addr] at *) <;> omega)

variable {I K J : ℕ}

/-- The squared error of the CP model `Σ_r C[k, r] A[i, r] B[j, r]` for the slices, from the definition. -/
def cpSliceErr (Xs : List (NDArray ℝ)) (C A B : NDArray ℝ) (I K J R : ℕ) : ℝ :=
  ∑ k ∈ Finset.range K, ∑ i ∈ Finset.range I, ∑ j ∈ Finset.range J,
    ((nth Xs k).get [i, j] - ∑ r ∈ Finset.range R, C.get [k, r] * A.get [i, r] * B.get [j, r]) ^ 2

theorem cpSliceErr_eq {Xs : List (NDArray ℝ)} (hl : Xs.length = K) (C A B : NDArray ℝ) (R : ℕ) :
    sqErr (p2Stack Xs I J) (fun _ => 1) [C, A, B] R = cpSliceErr Xs C A B I K J R := by
  rw [sqErr, show (p2Stack Xs I J).shape = [K, I, J] by rw [p2Stack, shape_ofFn, hl]]
  simp only [sumIdx, cpSliceErr]
  refine Finset.sum_congr rfl fun k hk => Finset.sum_congr rfl fun i hi => Finset.sum_congr rfl fun j hj => ?_
  rw [p2Stack, get_ofFn (by simp only [Finset.mem_range] at hk hi hj; simp [Valid, hl, hk, hi, hj])]
  simp only [cpEntry, rankOne, one_mul, mul_one, mul_assoc]
  rfl

theorem startEntry {E : Ext} (hQ : E.QROk) {B : NDArray ℝ} {R : ℕ} (hB : B.shape = [J, R]) (hJ : R ≤ J) {j r : ℕ} (hj : j < J)
    (hr : r < R) : ∑ q ∈ Finset.range R, (E.qr B).1.get [j, q] * (E.qr B).2.get [q, r] = B.get [j, r] := by
  have h := (hQ B J R hB).eq
  rw [min_eq_right hJ] at h
  have := congrFun (congrFun h ⟨j, hj⟩) ⟨r, hr⟩
  rw [mul_apply] at this
  exact (Fin.sum_univ_eq_sum_range (fun q => (E.qr B).1.get [j, q] * (E.qr B).2.get [q, r]) R).symm.trans this.symm

/-- What `init="cp"` starts from: the matrices `C`, `A`, `B` are those of a CP model fitted in at most 20 iterations from a random
start, and the PARAFAC2 model is that CP model. -/
theorem p2_startsFrom_cp {E : Ext} (hE : E.SVDOk) (hN : E.NNLSOk) (hQ : E.QROk) {c : P2.Config} (hi : c.init.toLower = "cp")
    {Xs : List (NDArray ℝ)} (hI : 0 < I) (hX : List.Forall₂ (fun Xk J => Xk.shape = [I, J]) Xs (List.replicate K J)) (hK : 0 < K)
    (hR : 0 < c.opts.rank) (hJ : c.opts.rank ≤ J) (arg : InitArg P2Obj) (h0 : Heap) :
    ∃ t0 w C A B s q, CP.initRandom c.cpDraw c.opts.rank none (p2Stack Xs I J) = .ok t0 ∧
      CP.fit E (P2.cpConfig c) (p2Stack Xs I J) none .none (CP.newObject none none 20 [] none) = .ok () w ∧
      w.st.dec.factorMatrices = [C, A, B] ∧ Factors [C, A, B] [K, I, J] c.opts.rank ∧
      P2.StartsFrom E c (.list Xs) arg h0 s ∧ s.Sized I (List.replicate K J) c.opts.rank ∧ s.Distinct ∧ s.Allocated ∧
      s.Orthonormal (List.replicate K J) c.opts.rank ∧ s.X = Xs ∧ s.dec.P = List.replicate K q ∧ s.A = A ∧ s.C = C ∧
      s.D = (E.qr B).2 ∧
      (∀ k < K, ∀ i < I, ∀ j < J, p2Entry s.A s.D s.C (nth s.P k) c.opts.rank k i j =
        ∑ r ∈ Finset.range c.opts.rank, C.get [k, r] * A.get [i, r] * B.get [j, r]) ∧
      sqErr (p2Stack Xs I J) (fun _ => 1) [C, A, B] c.opts.rank
        ≤ sqErr (p2Stack Xs I J) (fun _ => 1) t0.factorMatrices c.opts.rank := by
  have hK' : 0 < (List.replicate K J).length := by simpa using hK
  have hlen : Xs.length = K := by simpa using hX.length_eq
  have e0 := p2_setTarget_list hX hK' (P2.fresh h0)
  set s0 : P2State := { P2.fresh h0 with
      X := Xs
      XShape := (I, List.replicate K J, (List.replicate K J).length)
      XNorm := Real.sqrt ((Xs.map fun Xk => frobNorm Xk ^ 2).sum) } with hs0
  have hd : s0.Data I (List.replicate K J) := ⟨hI, fun J' hJ' => by rw [List.eq_of_mem_replicate hJ']; omega, hK', hX, rfl⟩
  obtain ⟨t0, C, A, B, t, et, e, hf, hs, ha, hal, hA, hD, hC, hP, -, hle, w, ew, hw⟩ := P2State.initCp_ok hE hN hQ hd hR hJ
  have hBs : B.shape = [J, c.opts.rank] := hf.shape_get (k := 2) (by simp)
  refine ⟨t0, w, C, A, B, _, s0.heap.next + 1 + 1 + 1, et, ew, hw, hf, ⟨s0, e0, fun budget loggers file => ?_⟩, hs, ⟨?_, ha⟩, hal,
    fun k hk => ?_, rfl, ?_, hA, hC, hD, fun k hk i hi' j hj => ?_, hle⟩
  · unfold P2.initComponents
    simp only [hi]
    exact modifySt_ok (w := ⟨s0, 0, budget, loggers, file⟩) e
  · show [s0.heap.next, s0.heap.next + 1, s0.heap.next + 1 + 1].Nodup
    simp only [List.nodup_cons, List.mem_cons, List.not_mem_nil, or_false, not_or, List.nodup_nil, and_true, not_false_eq_true]
    refine ⟨⟨?_, ?_⟩, ?_⟩ <;> aomega
  · have hk : k < K := by simpa using hk
    rw [hP, nth_lt (by simpa using hk), List.getElem_replicate, getD_eq_getElem' _ (by simpa using hk), List.getElem_replicate]
    have := (hQ B J c.opts.rank hBs).orth
    rw [min_eq_right hJ] at this
    exact orthoCols_iff.2 this
  · show List.replicate s0.X.length _ = _
    rw [show s0.X.length = K from hlen]
  · rw [hP, nth_lt (by simpa using hk), List.getElem_replicate, p2Entry, hA, hC, hD]
    refine Finset.sum_congr rfl fun r hr => ?_
    rw [startEntry hQ hBs hJ hj (Finset.mem_range.1 hr)]
    ring

/-! ## What the iterations do -/

/-- If one array serves as the projection matrix of every slice, it gets the matrix computed from the last slice. -/
theorem p2_shared_iteration {E : Ext} (hE : E.SVDOk) (hN : E.NNLSOk) {o : P2Opts} {s s' : P2State} {c : CPObj} {q : Addr}
    (h : s.Working o I (List.replicate K J) c) (hP : s.dec.P = List.replicate K q) (e : P2.iteration E o s = .ok s') :
    ∃ v, P2State.NewP E s I (List.replicate K J) o.rank (K - 1) v ∧ ∀ k < K, nth s'.P k = v := by
  obtain ⟨s1, c', f, e', hw', -, -, -, hd, -, -, -, -, -, hnew, -⟩ := P2State.iteration_ok hE hN h
  rw [e] at e'
  obtain rfl := Except.ok.inj e'
  have hK : 0 < K := by simpa using h.sized.posK
  have haddr : ∀ k < K, s.dec.P.getD k 0 = q := fun k hk => by
    rw [hP, getD_eq_getElem' _ (by simpa using hk), List.getElem_replicate]
  have hnth : ∀ k < K, nth s'.P k = s'.heap.mem q := fun k hk => by
    rw [P2State.nth_P hw'.sized (by simpa using hk), hd, haddr k hk]
  refine ⟨s'.heap.mem q, ?_, hnth⟩
  obtain ⟨k', hl, hn⟩ := hnew (K - 1) (by simp; omega)
  have h1 := hl.lt
  have h2 := hl.ge (by simp; omega)
  rw [List.length_replicate] at h1
  obtain rfl : k' = K - 1 := by omega
  rw [hnth _ (by omega)] at hn
  exact hn

/-- A PARAFAC2 model with the same projection matrix for all slices is a CP model. -/
theorem p2_shared_is_cp {s : P2State} {R : ℕ} {v : NDArray ℝ} (hP : ∀ k < K, nth s.P k = v) :
    ∃ B : NDArray ℝ, B.shape = [J, R] ∧ ∀ k < K, ∀ i, ∀ j < J, p2Entry s.A s.D s.C (nth s.P k) R k i j =
      ∑ r ∈ Finset.range R, s.C.get [k, r] * s.A.get [i, r] * B.get [j, r] := by
  refine ⟨ofMat J R fun j r => ∑ q ∈ Finset.range R, v.get [j, q] * s.D.get [q, r], shape_ofMat _ _ _, fun k hk i j hj => ?_⟩
  rw [hP k hk, p2Entry]
  refine Finset.sum_congr rfl fun r hr => ?_
  rw [get_ofMat hj (Finset.mem_range.1 hr)]
  ring

/-! ## C108 -/

/-- **C108, what holds.** A fit with `init="cp"` of slices of the same size, with at least as many columns as the rank, starts from a
CP model: the matrices that at most 20 iterations of `CP_ALS` give from a random start, so the error at the start is that of the CP
model, which is not larger than that of the random start. The fit then completes within its budget and the SSE it reports is the
true one. Missing: the result is not always better than the start (`C108_gets_worse`), and can never be anything but a CP model
(`C108_always_cp`). -/
theorem C108_fit_partial {E : Ext} (hE : E.SVDOk) (hN : E.NNLSOk) (hQ : E.QROk) {c : P2.Config} (hi : c.init.toLower = "cp")
    {Xs : List (NDArray ℝ)} (hI : 0 < I) (hX : List.Forall₂ (fun Xk J => Xk.shape = [I, J]) Xs (List.replicate K J)) (hK : 0 < K)
    (hR : 0 < c.opts.rank) (hJ : c.opts.rank ≤ J) (hA : P2.Admissible c.opts I K) (hlog : c.logs = []) (hfreq : c.freq = none)
    (arg : InitArg P2Obj) (h0 : Heap) (budget : Int) (mi : Option Int) (loggers : List Logger) (file : Option H5File) :
    ∃ t0 w C A B s w', ∃ k : ℕ, CP.initRandom c.cpDraw c.opts.rank none (p2Stack Xs I J) = .ok t0 ∧
      CP.fit E (P2.cpConfig c) (p2Stack Xs I J) none .none (CP.newObject none none 20 [] none) = .ok () w ∧
      w.st.dec.factorMatrices = [C, A, B] ∧
      P2.StartsFrom E c (.list Xs) arg h0 s ∧
      (∀ k < K, ∀ i < I, ∀ j < J, p2Entry s.A s.D s.C (nth s.P k) c.opts.rank k i j =
        ∑ r ∈ Finset.range c.opts.rank, C.get [k, r] * A.get [i, r] * B.get [j, r]) ∧
      p2Err Xs s.P s.A s.D s.C I (List.replicate K J) c.opts.rank = cpSliceErr Xs C A B I K J c.opts.rank ∧
      cpSliceErr Xs C A B I K J c.opts.rank ≤ sqErr (p2Stack Xs I J) (fun _ => 1) t0.factorMatrices c.opts.rank ∧
      P2.fit E c (.list Xs) mi arg (P2.newObject h0 budget loggers file) = .ok () w' ∧
      (k : Int) ≤ max 0 (mi.getD budget) ∧ w'.it = k ∧
      P2.sse w'.st = .ok (p2Err Xs w'.st.P w'.st.A w'.st.D w'.st.C I (List.replicate K J) c.opts.rank) := by
  have hlen : Xs.length = K := by simpa using hX.length_eq
  obtain ⟨t0, w, C, A, B, s, q, et, ew, hw, -, hs, g1, g2, g3, -, g5, -, -, -, -, g6, g7⟩ :=
    p2_startsFrom_cp hE hN hQ hi hI hX hK hR hJ arg h0
  obtain ⟨l, sp, w', k, -, -, -, e1, e2, e3, -, -, -, -, e8, e9, -⟩ := C80_fit_completes hE hN hQ hs g1 g2 g3
    (by simpa using hA) (by intro p hp; rw [hlog] at hp; cases hp) (by rw [hfreq]; decide) (budget := budget)
    (mi := mi) (loggers := loggers) (file := file) (p2_storing_none hfreq _ _)
  refine ⟨t0, w, C, A, B, s, w', k, et, ew, hw, hs, g6, ?_, ?_, e1, e2, e3, by rw [e8, P2State.err, e9, g5]⟩
  · rw [p2Err, cpSliceErr, List.length_replicate]
    refine Finset.sum_congr rfl fun k hk => ?_
    rw [getD_eq_getElem' _ (by simpa using hk), List.getElem_replicate]
    refine Finset.sum_congr rfl fun i hi => Finset.sum_congr rfl fun j hj => ?_
    rw [g6 k (Finset.mem_range.1 hk) i (Finset.mem_range.1 hi) j (Finset.mem_range.1 hj)]
  · rw [← cpSliceErr_eq hlen]; exact g7

/-- What a fit with `init="cp"` ends with: the start or, after one or more iterations, a state in which every slice has the
projection matrix that was computed from the last slice. -/
theorem p2_cp_result {E : Ext} (hE : E.SVDOk) (hN : E.NNLSOk) (hQ : E.QROk) {c : P2.Config} (hi : c.init.toLower = "cp")
    {Xs : List (NDArray ℝ)} (hI : 0 < I) (hX : List.Forall₂ (fun Xk J => Xk.shape = [I, J]) Xs (List.replicate K J)) (hK : 0 < K)
    (hR : 0 < c.opts.rank) (hJ : c.opts.rank ≤ J) (hA : P2.Admissible c.opts I K) (hlog : c.logs = []) (hfreq : c.freq = none)
    {arg : InitArg P2Obj} {h0 : Heap} {budget : Int} {mi : Option Int} {loggers : List Logger} {file : Option H5File}
    {w' : World P2State} (e : P2.fit E c (.list Xs) mi arg (P2.newObject h0 budget loggers file) = .ok () w') :
    w'.st.X = Xs ∧ w'.st.Sized I (List.replicate K J) c.opts.rank ∧
    P2.sse w'.st = .ok (p2Err Xs w'.st.P w'.st.A w'.st.D w'.st.C I (List.replicate K J) c.opts.rank) ∧
    ∃ v, (∀ k < K, nth w'.st.P k = v) ∧ (0 < mi.getD budget → ∃ s, s.X = Xs ∧ s.Sized I (List.replicate K J) c.opts.rank ∧
      P2State.NewP E s I (List.replicate K J) c.opts.rank (K - 1) v) := by
  obtain ⟨t0, w, C, A, B, s, q, -, -, -, -, hs, g1, g2, g3, -, g5, g6, -⟩ := p2_startsFrom_cp hE hN hQ hi hI hX hK hR hJ arg h0
  have hA' : P2.Admissible c.opts I (List.replicate K J).length := by simpa using hA
  obtain ⟨l, sp, w1, k, el, ep, ⟨ci, hw⟩, e1, e2, e3, e4, e5, e6, e7, e8, e9, -⟩ := C80_fit_completes hE hN hQ hs g1 g2 g3
    hA' (by intro p hp; rw [hlog] at hp; cases hp) (by rw [hfreq]; decide) (budget := budget)
    (mi := mi) (loggers := loggers) (file := file) (p2_storing_none hfreq _ _)
  rw [e1] at e
  obtain rfl : w1 = w' := by injection e
  obtain ⟨h', ci', ep', -, hold, -⟩ := P2State.prepareCp_ok (E := E) hQ (o := c.opts) (g1.withLoss .pinf l) (g2.loss .pinf l) hA'
    (fun _ => g3)
  rw [ep] at ep'
  have hsp := Except.ok.inj ep'
  have hspd : sp.dec = s.dec := by rw [hsp]; rfl
  have hspr : sp.relChange = .pinf := by rw [hsp]; rfl
  have hspX : sp.X = s.X := by rw [hsp]; rfl
  refine ⟨e9.trans g5, e7, by rw [e8, P2State.err, e9, g5], ?_⟩
  cases k with
  | zero =>
    have hn : ∀ k < K, nth w1.st.P k = w1.st.heap.mem q := fun k hk => by
      rw [P2State.nth_P e7 (by simpa using hk), show w1.st.dec = s.dec by rw [e4]; exact hspd, g6,
        getD_eq_getElem' _ (by simpa using hk), List.getElem_replicate]
    refine ⟨w1.st.heap.mem q, hn, fun hb => ?_⟩
    have := e6 (by simpa using hb)
    rw [e4] at this
    have h1 : sp.relChange.absLt c.opts.convergenceTol = true := Except.ok.inj this
    rw [hspr] at h1
    cases h1
  | succ k =>
    obtain ⟨c1, v1, -, -, -, d1, x1, -⟩ := p2_orbit_working hE hN hw k
    obtain ⟨v, hv, hv'⟩ := p2_shared_iteration hE hN v1 (by rw [d1, hspd, g6]) (p2_orbit_step hE hN hw k)
    exact ⟨v, by rw [e4]; exact hv', fun _ => ⟨_, x1.trans (hspX.trans g5), v1.sized, hv⟩⟩

/-- **C108, refuted**: with `init="cp"` the result of the fit is a CP model, for all data, however many iterations are performed: there
is one matrix `B` that is the evolving factor of every slice. -/
theorem C108_always_cp {E : Ext} (hE : E.SVDOk) (hN : E.NNLSOk) (hQ : E.QROk) {c : P2.Config} (hi : c.init.toLower = "cp")
    {Xs : List (NDArray ℝ)} (hI : 0 < I) (hX : List.Forall₂ (fun Xk J => Xk.shape = [I, J]) Xs (List.replicate K J)) (hK : 0 < K)
    (hR : 0 < c.opts.rank) (hJ : c.opts.rank ≤ J) (hA : P2.Admissible c.opts I K) (hlog : c.logs = []) (hfreq : c.freq = none)
    {arg : InitArg P2Obj} {h0 : Heap} {budget : Int} {mi : Option Int} {loggers : List Logger} {file : Option H5File}
    {w' : World P2State} (e : P2.fit E c (.list Xs) mi arg (P2.newObject h0 budget loggers file) = .ok () w') :
    ∃ B : NDArray ℝ, B.shape = [J, c.opts.rank] ∧ ∀ k < K, ∀ i, ∀ j < J,
      p2Entry w'.st.A w'.st.D w'.st.C (nth w'.st.P k) c.opts.rank k i j =
        ∑ r ∈ Finset.range c.opts.rank, w'.st.C.get [k, r] * w'.st.A.get [i, r] * B.get [j, r] := by
  obtain ⟨-, -, -, v, hv, -⟩ := p2_cp_result hE hN hQ hi hI hX hK hR hJ hA hlog hfreq e
  exact p2_shared_is_cp hv

/-- **C108, refuted**: if the last slice is zero, a fit with `init="cp"` and at least one iteration ends with a model that is zero
everywhere, whatever the other slices are: the SSE is the sum of squares of the data. -/
theorem C108_last_zero {E : Ext} (hE : E.SVDOk) (hN : E.NNLSOk) (hQ : E.QROk) {c : P2.Config} (hi : c.init.toLower = "cp")
    {Xs : List (NDArray ℝ)} (hI : 0 < I) (hX : List.Forall₂ (fun Xk J => Xk.shape = [I, J]) Xs (List.replicate K J)) (hK : 0 < K)
    (hR : 0 < c.opts.rank) (hJ : c.opts.rank ≤ J) (hA : P2.Admissible c.opts I K) (hlog : c.logs = []) (hfreq : c.freq = none)
    (hz : ∀ i < I, ∀ j < J, (nth Xs (K - 1)).get [i, j] = 0)
    {arg : InitArg P2Obj} {h0 : Heap} {budget : Int} {mi : Option Int} (hb : 0 < mi.getD budget) {loggers : List Logger}
    {file : Option H5File} {w' : World P2State}
    (e : P2.fit E c (.list Xs) mi arg (P2.newObject h0 budget loggers file) = .ok () w') :
    (∀ k < K, ∀ i < I, ∀ j < J, p2Entry w'.st.A w'.st.D w'.st.C (nth w'.st.P k) c.opts.rank k i j = 0) ∧
      P2.sse w'.st = .ok (∑ k ∈ Finset.range K, ∑ i ∈ Finset.range I, ∑ j ∈ Finset.range J, (nth Xs k).get [i, j] ^ 2) := by
  obtain ⟨-, -, es, v, hv, hnew⟩ := p2_cp_result hE hN hQ hi hI hX hK hR hJ hA hlog hfreq e
  obtain ⟨s, hsX, hsz, hn⟩ := hnew hb
  have hgJ : ∀ k < K, (List.replicate K J).getD k 0 = J := fun k hk => by
    rw [getD_eq_getElem' _ (by simpa using hk), List.getElem_replicate]
  have hv0 := newP_zero hE hsz (by simp; omega) hn (by
    ext i j
    show (nth s.X (K - 1)).get [(i : ℕ), (j : ℕ)] = 0
    rw [hsX]
    exact hz i i.2 j (j.2.trans_eq (hgJ _ (by omega))))
  rw [hgJ _ (by omega)] at hv0
  have hvz : ∀ j < J, ∀ q < c.opts.rank, v.get [j, q] = 0 := fun j hj q hq => congrFun (congrFun hv0 ⟨q, hq⟩) ⟨j, hj⟩
  have hent : ∀ k < K, ∀ i < I, ∀ j < J, p2Entry w'.st.A w'.st.D w'.st.C (nth w'.st.P k) c.opts.rank k i j = 0 := by
    intro k hk i _ j hj
    rw [hv k hk, p2Entry]
    refine Finset.sum_eq_zero fun r _ => ?_
    rw [Finset.sum_eq_zero fun q hq => by rw [hvz j hj q (Finset.mem_range.1 hq), zero_mul], mul_zero]
  refine ⟨hent, ?_⟩
  rw [es, p2Err, List.length_replicate]
  refine congrArg Except.ok (Finset.sum_congr rfl fun k hk => ?_)
  rw [hgJ k (Finset.mem_range.1 hk)]
  refine Finset.sum_congr rfl fun i hi => Finset.sum_congr rfl fun j hj => ?_
  rw [hent k (Finset.mem_range.1 hk) i (Finset.mem_range.1 hi) j (Finset.mem_range.1 hj), sub_zero]

/-- **C108, refuted**: with `init="cp"`, rank one, the slices `(1)` and `(0)` and the draws `c54Draw`, the error at the start is less
than `10⁻²⁰`, but the error of the result is 1, however many iterations are performed. -/
theorem C108_gets_worse {E : Ext} (hE : E.SVDOk) (hN : E.NNLSOk) (hQ : E.QROk) {c : P2.Config} (hi : c.init.toLower = "cp")
    {n : ℕ} {g : List ℕ → ℝ} (ho : c.opts = p2Plain 1 n g) (hlog : c.logs = []) (hfreq : c.freq = none) (hd : c.cpDraw = c54Draw)
    (arg : InitArg P2Obj) (h0 : Heap) {budget : Int} {mi : Option Int} (hb : 0 < mi.getD budget) (loggers : List Logger)
    (file : Option H5File) :
    ∃ s w', P2.StartsFrom E c (.list c54Slices) arg h0 s ∧
      p2Err c54Slices s.P s.A s.D s.C 1 [1, 1] 1 < 1e-20 ∧
      P2.fit E c (.list c54Slices) mi arg (P2.newObject h0 budget loggers file) = .ok () w' ∧ P2.sse w'.st = .ok 1 := by
  have hr : c.opts.rank = 1 := by rw [ho]; rfl
  have hX : List.Forall₂ (fun (Xk : NDArray ℝ) J => Xk.shape = [1, J]) c54Slices (List.replicate 2 1) := .cons rfl (.cons rfl .nil)
  have hA : P2.Admissible c.opts 1 2 := by rw [ho]; exact p2Plain_admissible (by norm_num) (by norm_num) (by norm_num)
  obtain ⟨t0, w, C, A, B, s, w', k, et, -, -, hs, -, q1, q2, e1, -⟩ := C108_fit_partial hE hN hQ hi (by norm_num) hX (by norm_num)
    (by rw [hr]; norm_num) (by rw [hr]) hA hlog hfreq arg h0 budget mi loggers file
  obtain ⟨-, hsse⟩ := C108_last_zero hE hN hQ hi (by norm_num) hX (by norm_num) (by rw [hr]; norm_num) (by rw [hr]) hA hlog hfreq
    (by
      intro i hi' j hj
      exact get_full ⟨hi', hj, trivial⟩) hb e1
  refine ⟨s, w', hs, ?_, e1, ?_⟩
  · rw [hr, hd] at et
    rw [hr] at q1 q2
    rw [c54_start et] at q2
    refine lt_of_le_of_lt ((le_of_eq q1).trans q2) ?_
    norm_num
  · rw [hsse]
    have z0 : (nth c54Slices 0).get [0, 0] = 1 := get_full (by simp [Valid])
    have z1 : (nth c54Slices 1).get [0, 0] = 0 := get_full (by simp [Valid])
    simp only [Finset.sum_range_succ, Finset.sum_range_zero, zero_add, z0, z1]
    norm_num

/-- **C108** for a single slice, without constraints and penalties: the result is not worse than the CP model the fit starts from, up to
twice the singular values treated as zero on the way. Missing: more slices (`C108_gets_worse`). -/
theorem C108_one_slice_partial {E : Ext} (hE : E.SVDOk) (hN : E.NNLSOk) (hQ : E.QROk) {c : P2.Config} (hi : c.init.toLower = "cp")
    {X : NDArray ℝ} (hI : 0 < I) (hX : X.shape = [I, J]) (hR : 0 < c.opts.rank) (hJ : c.opts.rank ≤ J)
    (hnn : c.opts.nonNeg = none) (hon : c.opts.orth = none) (hridge : c.opts.ridgePenalties = none)
    (hlog : c.logs = []) (hfreq : c.freq = none) (arg : InitArg P2Obj) (h0 : Heap) (budget : Int) (mi : Option Int)
    (loggers : List Logger) (file : Option H5File) :
    ∃ w C A B sp w', ∃ k : ℕ,
      CP.fit E (P2.cpConfig c) (p2Stack [X] I J) none .none (CP.newObject none none 20 [] none) = .ok () w ∧
      w.st.dec.factorMatrices = [C, A, B] ∧
      P2.fit E c (.list [X]) mi arg (P2.newObject h0 budget loggers file) = .ok () w' ∧ w'.st = P2.orbit E c.opts sp k ∧
      P2.sse w'.st = .ok (w'.st.err I [J] c.opts.rank) ∧
      w'.st.err I [J] c.opts.rank ≤ cpSliceErr [X] C A B I 1 J c.opts.rank
        + 2 * ∑ j ∈ Finset.range k, (P2.orbit E c.opts sp j).dropped E I [J] c.opts.rank := by
  have hX' : List.Forall₂ (fun (Xk : NDArray ℝ) J => Xk.shape = [I, J]) [X] (List.replicate 1 J) := .cons hX .nil
  obtain ⟨t0, w, C, A, B, s, q, -, ew, hw, -, hs, g1, g2, g3, g4, g5, g6, -, -, -, g7, -⟩ :=
    p2_startsFrom_cp hE hN hQ hi hI hX' (by norm_num) hR hJ arg h0
  have hsep : s.Separate := by
    have h1 := g2.addrs
    have h2 := g2.apart
    have a1 := h2.A
    have a2 := h2.D
    have a3 := h2.C
    rw [g6] at a1 a2 a3
    unfold P2State.Separate
    rw [g6]
    simp only [List.nodup_cons, List.mem_cons, List.not_mem_nil, or_false, not_or, List.replicate_one, List.nodup_nil, and_true,
      not_false_eq_true] at h1 a1 a2 a3 ⊢
    exact ⟨⟨h1.1.1, h1.1.2, a1⟩, ⟨h1.2, a2⟩, a3⟩
  obtain ⟨sp, w', k, e1, e2, e3, e4⟩ := C80_fit_improves_partial hE hN hQ hs g1 hsep g3 g4 hnn hon hridge
    (by intro p hp; rw [hlog] at hp; cases hp) (by rw [hfreq]; decide) (budget := budget)
    (mi := mi) (loggers := loggers) (file := file) (p2_storing_none hfreq _ _)
  refine ⟨w, C, A, B, sp, w', k, ew, hw, e1, e2, e3, e4.trans (add_le_add (le_of_eq ?_) le_rfl)⟩
  show p2Err _ _ _ _ _ _ _ _ = _
  rw [p2Err, cpSliceErr, List.length_replicate, g5]
  refine Finset.sum_congr rfl fun k hk => ?_
  have hk0 : k = 0 := by simpa using hk
  subst hk0
  refine Finset.sum_congr rfl fun i hi => Finset.sum_congr rfl fun j hj => ?_
  rw [g7 0 (by norm_num) i (Finset.mem_range.1 hi) j (Finset.mem_range.1 hj)]

/-- A fit with `init="cp"` of slices with different numbers of columns raises `ValueError`. -/
theorem C108_sizes_raise (E : Ext) {c : P2.Config} (hi : c.init.toLower = "cp") {Xs : List (NDArray ℝ)} {Js : List ℕ}
    (hX : List.Forall₂ (fun Xk J => Xk.shape = [I, J]) Xs Js) (hJs : ∃ J ∈ Js, J ≠ Js.getD 0 0) (mi : Option Int)
    (arg : InitArg P2Obj) (w : World P2State) :
    ∃ w', P2.fit E c (.list Xs) mi arg w = .error .valueError w' := by
  obtain ⟨J, hJ, hne⟩ := hJs
  have hK : 0 < Js.length := List.length_pos_of_mem hJ
  have e0 := p2_setTarget_list hX hK w.st
  have hst : P2.stackSlices Xs = .error .valueError := by
    match Xs, Js, hX with
    | X0 :: Xs, J0 :: Js, .cons hX0 hXs =>
      rw [P2.stackSlices]
      simp only [hX0]
      rw [if_neg]
      intro hall
      rw [List.all_eq_true] at hall
      obtain ⟨k, hk, rfl⟩ := List.getElem_of_mem hJ
      have hk' : k < (X0 :: Xs).length := by
        have := hXs.length_eq
        simp only [List.length_cons] at hk ⊢
        omega
      have h1 := (List.forall₂_iff_get.1 (List.Forall₂.cons hX0 hXs : List.Forall₂ (fun (Xk : NDArray ℝ) J => Xk.shape = [I, J])
        (X0 :: Xs) (J0 :: Js))).2 k hk' hk
      have h2 := hall _ (List.getElem_mem hk')
      simp only [List.get_eq_getElem, decide_eq_true_eq] at h1 h2
      rw [h2] at h1
      exact hne (by simpa using h1.symm)
  have hcp : ∀ s : P2State, s.X = Xs → P2.initCp E c s = .error .valueError := by
    intro s hs
    rw [P2.initCp, hs, hst]; rfl
  unfold P2.fit Fit.fit Fit.initFit
  simp only [bind_assoc]
  rw [bind_of_ok (modify_def _ _), bind_of_ok (modifySt_ok (w := ⟨w.st, 0, w.maxIts, w.loggers, w.file⟩) e0)]
  unfold P2.initComponents
  simp only [hi]
  exact ⟨_, by rw [bind_of_error]; exact modifySt_error (hcp _ rfl)⟩

/-- The hypotheses hold for two slices of different sizes. -/
example : List.Forall₂ (fun (Xk : NDArray ℝ) J => Xk.shape = [2, J]) [full [2, 2] 1, full [2, 3] 5] [2, 3] ∧
    (∃ J ∈ [2, 3], J ≠ [2, 3].getD 0 0) ∧ "CP".toLower = "cp" := by
  refine ⟨.cons rfl (.cons rfl .nil), ⟨3, by simp, by simp⟩, ?_⟩
  rw [String.toLower, ← String.toList_inj, String.toList_map]; decide

/-- The hypotheses about the data and the options hold for three slices of size 4 × 3 and rank 2; the last slice is zero. -/
example (n : ℕ) (g : List ℕ → ℝ) :
    List.Forall₂ (fun (Xk : NDArray ℝ) J => Xk.shape = [4, J]) [full [4, 3] 1, full [4, 3] 5, full [4, 3] 0] (List.replicate 3 3) ∧
    P2.Admissible (p2Plain 2 n g) 4 3 ∧ (p2Plain 2 n g).rank ≤ 3 ∧
    (∀ i < 4, ∀ j < 3, (nth [full [4, 3] (1 : ℝ), full [4, 3] 5, full [4, 3] 0] (3 - 1)).get [i, j] = 0) ∧
    (p2Plain 2 n g).nonNeg = none ∧ (p2Plain 2 n g).orth = none ∧ (p2Plain 2 n g).ridgePenalties = none :=
  ⟨.cons rfl (.cons rfl (.cons rfl .nil)), p2Plain_admissible (by norm_num) (by norm_num) (by norm_num), by norm_num [p2Plain],
    fun _ hi _ hj => get_full ⟨hi, hj, trivial⟩, rfl, rfl, rfl⟩

/-- There are routines that meet their contracts, and a configuration as in `C108_gets_worse`. -/
example (h0 : Heap) : ∃ (E : Ext) (c : P2.Config) (s : P2State) (w' : World P2State), E.SVDOk ∧ E.NNLSOk ∧ E.QROk ∧
    P2.StartsFrom E c (.list c54Slices) .none h0 s ∧ p2Err c54Slices s.P s.A s.D s.C 1 [1, 1] 1 < 1e-20 ∧
    P2.fit E c (.list c54Slices) (some 1000) .none (P2.newObject h0 5 [] none) = .ok () w' ∧ P2.sse w'.st = .ok 1 := by
  obtain ⟨E, hE, hN, hQ⟩ := exists_ext
  obtain ⟨s, w', h1, h2, h3, h4⟩ := C108_gets_worse hE hN hQ (c := ⟨p2Plain 1 1 fun _ => 0, "cp", none, false, [], fun _ _ => 0,
    fun _ _ => 0, fun _ _ _ => 0, c54Draw, fun A => (A, A, A), fun _ => none⟩) (by
      rw [String.toLower, ← String.toList_inj, String.toList_map]; decide) rfl rfl rfl rfl .none h0 (budget := 5) (mi := some 1000)
    (by decide) [] none
  exact ⟨E, _, s, w', hE, hN, hQ, h1, h2, h3, h4⟩

end
end TK
