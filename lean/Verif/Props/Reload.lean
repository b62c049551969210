import Verif.Props.Symmetry

/-!
# C93, C94: what an object reports, and how it continues, after `load_checkpoint`

`load_checkpoint` replaces the decomposition of an object (base_decomposer.py:197-219), but not the attributes
`_last_updated_mode`, `_matrix_khatri_rao_product_cache`, `prev_SSE` and `_rel_function_change`.
-/

namespace TK
open NDArray
open EStateM (Result)
open Fit

noncomputable section

/-! ## Another `prev_SSE` -/

/-- Another remembered error. -/
def CPState.withPrev (s : CPState) (p : ℝ) : CPState := { s with prevSSE := p }

theorem updateFactor_withPrev (E : Ext) (o : CPOpts) (m : ℕ) (s : CPState) (p : ℝ) :
    CP.updateFactor E o m (s.withPrev p) = (CP.updateFactor E o m s).map fun s' => s'.withPrev p := by
  have h1 : CP.alsRhs (s.withPrev p) m = CP.alsRhs s m := rfl
  have h2 : CP.getSolve E o (s.withPrev p) m = CP.getSolve E o s m := rfl
  rw [CP.updateFactor, CP.updateFactor, h1, h2]
  show (CP.alsLhs o.rank m s.dec.factorMatrices >>= _ : Py CPState) = _
  cases CP.alsLhs o.rank m s.dec.factorMatrices with
  | error e => rfl
  | ok lhs =>
    simp only [bind_ok]
    cases CP.alsRhs s m with
    | error e => rfl
    | ok rhs =>
      simp only [bind_ok]
      cases CP.getSolve E o s m with
      | error e => rfl
      | ok solve =>
        simp only [bind_ok]
        cases solve lhs rhs with
        | error e => rfl
        | ok new =>
          simp only [bind_ok]
          show (pyGet s.dec.factorMatrices m >>= _ : Py CPState) = _
          cases pyGet s.dec.factorMatrices (m : Int) with
          | error e => rfl
          | ok F =>
            simp only [bind_ok]
            cases assignAll F new with
            | error e => rfl
            | ok F' => rfl

theorem updateModes_withPrev (E : Ext) (o : CPOpts) (p : ℝ) : ∀ (modes : List ℕ) (s : CPState),
    CP.updateModes E o modes (s.withPrev p) = (CP.updateModes E o modes s).map fun s' => s'.withPrev p
  | [], s => rfl
  | m :: ms, s => by
    rw [CP.updateModes, CP.updateModes, List.foldlM_cons, List.foldlM_cons, updateFactor_withPrev]
    cases CP.updateFactor E o m s with
    | error e => rfl
    | ok s1 => exact updateModes_withPrev E o p ms s1

/-- The remembered error matters for the relative change after an iteration only. -/
theorem iteration_withPrev (E : Ext) (o : CPOpts) (s : CPState) (p : ℝ) :
    CP.iteration E o (s.withPrev p) =
      (CP.iteration E o s).map fun s' => s'.withRel (FV.div (p - s'.prevSSE) p) := by
  rw [CP.iteration, CP.iteration, CP.updateFactors, CP.updateFactors]
  show (CP.updateModes E o (List.range s.X.shape.length) (s.withPrev p) >>= _ : Py CPState) = _
  rw [updateModes_withPrev]
  cases CP.updateModes E o (List.range s.X.shape.length) s with
  | error e => rfl
  | ok s1 =>
    show CP.updateConvergence (s1.withPrev p) = _
    rw [bind_ok, CP.updateConvergence, CP.updateConvergence]
    have : CP.sse (s1.withPrev p) = CP.sse s1 := rfl
    rw [this]
    cases CP.sse s1 with
    | error e => rfl
    | ok e => rfl

/-- Nothing but the relative change is left, after an iteration, of what the start remembered. -/
theorem orbit_forgets {E : Ext} (hE : E.SVDOk) (hN : E.NNLSOk) {o : CPOpts} (hr : 0 < o.rank) {s : CPState}
    (hG : s.Good o) (a : Option ℕ) (b : Option (NDArray ℝ)) (r : FV) (p : ℝ) (j : ℕ) :
    ∃ r', CP.orbit E o ((s.withPrev p).withLast a b r) (j + 1) = (CP.orbit E o s (j + 1)).withRel r' := by
  have hne : ∀ {s : CPState}, s.Good o → s.X.shape ≠ [] := by
    intro s h e; have := h.sized.order; rw [e] at this; simp at this
  induction j with
  | zero =>
    obtain ⟨s', h0, -⟩ := iteration_total hE hN hr hG
    refine ⟨FV.div (p - s'.prevSSE) p, ?_⟩
    rw [orbit_succ, orbit_succ]
    show (match CP.iteration E o ((s.withPrev p).withLast a b r) with
      | .ok s' => s'
      | .error _ => _) = CPState.withRel (match CP.iteration E o s with
      | .ok s' => s'
      | .error _ => s) _
    rw [iteration_withLast E o (s.withPrev p) a b r (hne (s := s) hG), iteration_withPrev, h0]
    rfl
  | succ j ih =>
    obtain ⟨r', hr'⟩ := ih
    have hg := (orbit_good hE hN hr hG (j + 1)).1
    set t := CP.orbit E o s (j + 1) with ht
    have e : CP.orbit E o s (j + 1 + 1) = match CP.iteration E o t with
      | .ok s' => s'
      | .error _ => t := orbit_succ E o s (j + 1)
    obtain ⟨s', h0, -⟩ := iteration_total hE hN hr hg
    refine ⟨s'.relChange, ?_⟩
    rw [orbit_succ, hr', e, show t.withRel r' = t.withLast t.lastMode t.cache r' from rfl,
      iteration_withLast E o t _ _ _ (hne hg), h0]
    rfl

theorem sse_withRel (s : CPState) (r : FV) : CP.sse (s.withRel r) = CP.sse s := rfl

theorem good_withRel {o : CPOpts} {s : CPState} (h : s.Good o) (r : FV) : (s.withRel r).Good o :=
  ⟨⟨h.sized.wf, h.sized.order, h.sized.nonempty⟩, ⟨h.cached.norm, h.cached.cache⟩,
    fun m hm => by
      obtain ⟨nn, on, ridge, hc, hb⟩ := h.config m hm
      exact ⟨nn, on, ridge, ⟨hc.nonNeg, hc.orth, hc.ridge⟩, hb⟩, h.prev⟩

/-! ## C93: the error that is reported -/

/-- The factor matrices whose inner product with the data enters the SSE after `load_checkpoint`: the loaded one in
the mode that was updated last, and those of the decomposition before it was loaded in the other modes. -/
def mixed (m : ℕ) (loaded old : List (NDArray ℝ)) : List (NDArray ℝ) :=
  match loaded[m]? with
  | some F => old.set m F
  | none => old

/-- The SSE that is reported after the decomposition `d` is put in place of the one whose update was last. -/
theorem sse_loaded {s : CPState} {d : KruskalTensor} {R m : ℕ} (h : s.Sized R) (hc : s.Cached R)
    (hl : s.lastMode = some m) (hd : d.WF s.X.shape R) :
    CP.sse { s with dec := d } = .ok ((sumIdx s.X.shape fun idx => s.X.get idx ^ 2) +
      (sumIdx s.X.shape fun idx => cpEntry (fun r => d.weights.get [r]) d.factorMatrices R idx ^ 2) -
      2 * sumIdx s.X.shape fun idx => s.X.get idx *
        cpEntry (fun r => d.weights.get [r]) (mixed m d.factorMatrices s.dec.factorMatrices) R idx) := by
  obtain ⟨hm, c, hcc, hcs, hcg⟩ := hc.cache m hl
  have hlen := hd.factors.length_eq
  have hlen' := h.wf.factors.length_eq
  have hm' : m < d.factorMatrices.length := by omega
  have hmix : mixed m d.factorMatrices s.dec.factorMatrices = s.dec.factorMatrices.set m d.factorMatrices[m] := by
    rw [mixed, List.getElem?_eq_getElem hm']
  set t : CPState := { s with dec := ⟨d.rank, s.dec.factorMatrices.set m d.factorMatrices[m], d.weights⟩ } with ht
  have htS : t.Sized R :=
    ⟨⟨hd.rank, factors_set h.wf.factors (hd.factors.shape_get hm'), hd.weights⟩, h.order, h.nonempty⟩
  have htC : t.Cached R := by
    refine ⟨hc.norm, fun m' hm'' => ?_⟩
    obtain rfl : m = m' := Option.some.inj (hl.symm.trans hm'')
    refine ⟨hm, c, hcc, hcs, fun i hi r hr => ?_⟩
    rw [hcg i hi r hr, mttkrpEntry, mttkrpEntry]
    show _ = sumIdx _ fun idx => s.X.get (idx.insertIdx m i) *
      rankOne ((s.dec.factorMatrices.set m d.factorMatrices[m]).eraseIdx m) idx r
    rw [eraseIdx_set_self]
  have hip : CP.innerProd { s with dec := d } m = CP.innerProd t m := by
    rw [CP.innerProd, CP.innerProd]
    show (pyGet d.factorMatrices m >>= _ : Py ℝ) = pyGet (s.dec.factorMatrices.set m d.factorMatrices[m]) m >>= _
    have hm2 : m < (s.dec.factorMatrices.set m d.factorMatrices[m]).length := by rw [List.length_set]; omega
    rw [pyGet_ok (norm_nat hm'), pyGet_ok (norm_nat hm2), bind_ok, bind_ok, List.getElem_set_self]
  have hsse : CP.sse { s with dec := d } = (do
      let Y ← d.constructTensor
      let ip ← CP.innerProd { s with dec := d } m
      pure (s.XNorm ^ 2 + frobNorm Y ^ 2 - 2 * ip) : Py ℝ) := by
    unfold CP.sse
    split
    · rename_i m' hm''
      obtain rfl : m = m' := Option.some.inj (hl.symm.trans hm'')
      rfl
    · rename_i hn
      rw [show ({ s with dec := d } : CPState).lastMode = s.lastMode from rfl, hl] at hn
      cases hn
  rw [hsse, constructTensor_eq hd h.order, bind_ok, hip, innerProd_eq htS htC hl, bind_ok]
  refine congrArg Except.ok ?_
  rw [hc.norm, Real.sq_sqrt (sumIdx_nonneg fun _ _ => sq_nonneg _), frobNorm_sq, hmix]
  congr 2
  exact sumIdx_congr fun idx hidx => by rw [get_ofFn (s := s.X.shape) hidx]

/-- Loading a checkpoint into an object replaces its decomposition and `current_iteration`, and nothing else. -/
theorem load_ok {E : Ext} {c : CP.Config} {w : World CPState} {f : H5File} {L : List (Int × KruskalTensor)} {n : Int}
    {d : KruskalTensor} (hc : Checkpoints KruskalTensor.storeIn true f L) (hmem : (n, d) ∈ L)
    (hd : d.WF w.st.X.shape c.opts.rank) (hne : w.st.X.shape ≠ []) :
    loadCheckpoint (CP.method E c) (.file f) (some n) w =
      .ok () { w with it := n, st := { w.st with dec := d } } :=
  C48_load (CP.method E c) (L := L) hc hmem (fun _ hg => kruskal_group_roundtrip hd hne hg)
    (((C62_check_partial hd.factors.length_eq).1).2 hd.factors)

/-- C93 in part: after `load_checkpoint` the SSE is that of the loaded decomposition if the object has not updated
a factor matrix yet, or if the loaded decomposition agrees with the one it replaces in all modes but the one
that was updated last (for instance, is the same). -/
theorem C93_sse_partial {E : Ext} {c : CP.Config} {w : World CPState} {f : H5File} {L : List (Int × KruskalTensor)}
    {n : Int} {d : KruskalTensor} (hc : Checkpoints KruskalTensor.storeIn true f L) (hmem : (n, d) ∈ L)
    (hS : w.st.Sized c.opts.rank) (hC : w.st.Cached c.opts.rank) (hd : d.WF w.st.X.shape c.opts.rank)
    (hsame : ∀ m, w.st.lastMode = some m → d.factorMatrices.eraseIdx m = w.st.dec.factorMatrices.eraseIdx m) :
    ∃ w', loadCheckpoint (CP.method E c) (.file f) (some n) w = .ok () w' ∧ w'.st.dec = d ∧ w'.it = n ∧
      CP.sse w'.st = .ok (sqErr w.st.X (fun r => d.weights.get [r]) d.factorMatrices c.opts.rank) := by
  have hne : w.st.X.shape ≠ [] := by intro h; have := hS.order; rw [h] at this; simp at this
  refine ⟨_, load_ok hc hmem hd hne, rfl, rfl, ?_⟩
  have hS' : ({ w.st with dec := d } : CPState).Sized c.opts.rank := ⟨hd, hS.order, hS.nonempty⟩
  refine C35_sse hS' ⟨hC.norm, fun m hl => ?_⟩
  obtain ⟨hm, cc, hcc, hcs, hcg⟩ := hC.cache m hl
  refine ⟨hm, cc, hcc, hcs, fun i hi r hr => ?_⟩
  rw [hcg i hi r hr, mttkrpEntry, mttkrpEntry, hsame m hl]

/-- C93 in part: what is reported otherwise. The inner product of the data with the model is taken with the *old*
factor matrices in all modes but the one that was updated last. -/
theorem C93_reported_partial {E : Ext} {c : CP.Config} {w : World CPState} {f : H5File}
    {L : List (Int × KruskalTensor)} {n : Int} {d : KruskalTensor}
    (hc : Checkpoints KruskalTensor.storeIn true f L) (hmem : (n, d) ∈ L) (hS : w.st.Sized c.opts.rank)
    (hC : w.st.Cached c.opts.rank) (hd : d.WF w.st.X.shape c.opts.rank) {m : ℕ} (hl : w.st.lastMode = some m) :
    ∃ w', loadCheckpoint (CP.method E c) (.file f) (some n) w = .ok () w' ∧ w'.st.dec = d ∧
      CP.sse w'.st = .ok (sqErr w.st.X (fun r => d.weights.get [r]) d.factorMatrices c.opts.rank +
        2 * sumIdx w.st.X.shape fun idx => w.st.X.get idx *
          (cpEntry (fun r => d.weights.get [r]) d.factorMatrices c.opts.rank idx -
            cpEntry (fun r => d.weights.get [r]) (mixed m d.factorMatrices w.st.dec.factorMatrices)
              c.opts.rank idx)) := by
  have hne : w.st.X.shape ≠ [] := by intro h; have := hS.order; rw [h] at this; simp at this
  refine ⟨_, load_ok hc hmem hd hne, rfl, ?_⟩
  rw [show ({ w with it := n, st := { w.st with dec := d } } : World CPState).st = { w.st with dec := d } from rfl,
    sse_loaded hS hC hl hd]
  refine congrArg Except.ok ?_
  rw [sqErr, sq_expand]
  simp only [mul_sub, sumIdx_sub]
  ring

/-! ## C94: continuing from a loaded checkpoint -/

/-- With tolerances that are not positive, a fit can only stop when the reported SSE is negative. -/
theorem goes_on {o : CPOpts} (h1 : o.convergenceTol ≤ 0) (h2 : o.relLossTol ≤ 0) {s : CPState} {e : ℝ}
    (hs : CP.sse s = .ok e) (he : 0 ≤ e) : CP.shouldStop o s = .ok false := by
  rw [CP.shouldStop, hs, bind_ok]
  have a1 : s.relChange.absLt o.convergenceTol = false := by
    cases s.relChange with
    | fin x => exact decide_eq_false (not_lt.2 (h1.trans (abs_nonneg x)))
    | pinf => rfl
    | ninf => rfl
    | nan => rfl
  have a2 : (FV.div e (s.XNorm ^ 2)).lt o.relLossTol = false := by
    unfold FV.div
    split
    · exact decide_eq_false (not_lt.2 (h2.trans (div_nonneg he (sq_nonneg _))))
    · split
      · rfl
      · rw [if_neg (not_lt.2 he)]; rfl
  rw [a1, a2]; rfl

/-- C94 in part: after `load_checkpoint` has loaded the decomposition `d` of iteration `n`, `continue_fit` with
`max_its=M` performs `M - n` iterations of alternating least squares from `d`: the same as a new object that is
started from `d`. This holds if both tolerances are zero (or negative) and the SSE that is reported after the load
is not negative (`C93_fails`). The checkpoints that are in the file of the object must have smaller numbers. -/
theorem C94_continue_partial {E : Ext} (hE : E.SVDOk) (hN : E.NNLSOk) {c : CP.Config} (hr : 0 < c.opts.rank)
    (hlog : c.Measurable) (hfreq : freqOption c.freq ≠ 0) (h1 : c.opts.convergenceTol ≤ 0) (h2 : c.opts.relLossTol ≤ 0)
    {nonNeg : Option (List Bool)} {w : World CPState} (hs : Resumable c.opts nonNeg w.st) {f : H5File}
    {L L' : List (Int × KruskalTensor)} {n M : Int} {d : KruskalTensor}
    (hc : Checkpoints KruskalTensor.storeIn true f L) (hmem : (n, d) ∈ L) (hd : d.WF w.st.X.shape c.opts.rank)
    (hw : ∀ r < c.opts.rank, d.weights.get [r] = 1) (hM : n < M) (hS : Storing (CP.method E c) w L')
    (hL' : ∀ q ∈ L', q.1 < n) :
    ∃ w', loadCheckpoint (CP.method E c) (.file f) (some n) w = .ok () w' ∧ w'.st.dec = d ∧
      ∀ e, CP.sse w'.st = .ok e → 0 ≤ e →
        ∃ t s' w'', CP.initFit E (CP.fresh nonNeg none) w.st.X d = .ok t ∧
          CP.iterate E c.opts (M - n).toNat t = .ok s' ∧
          continueFit (CP.method E c) (some M) w' = .ok () w'' ∧ w''.st.dec = s'.dec ∧ w''.it = M := by
  have hG := hs.good
  have hne : w.st.X.shape ≠ [] := by intro h; have := hG.sized.order; rw [h] at this; simp at this
  refine ⟨_, load_ok hc hmem hd hne, rfl, fun e he he0 => ?_⟩
  set u : CPState := { w.st with dec := d } with hu
  set t : CPState := { w.st with
    dec := d, prevSSE := sqErr w.st.X (fun r => d.weights.get [r]) d.factorMatrices c.opts.rank } with ht
  have htG0 : (t.withLast none none .pinf).Good c.opts :=
    ⟨⟨hd, hG.sized.order, hG.sized.nonempty⟩, ⟨hG.cached.norm, by simp [CPState.withLast]⟩,
      fun m hm => by
        obtain ⟨nn, on, ridge, hc', hb⟩ := hG.config m hm
        exact ⟨nn, on, ridge, ⟨hc'.nonNeg, hc'.orth, hc'.ridge⟩, hb⟩, rfl⟩
  set t0 := t.withLast none none .pinf with ht0
  have hut : u = (t0.withPrev u.prevSSE).withLast u.lastMode u.cache u.relChange := rfl
  have horb : ∀ j, ∃ r', CP.orbit E c.opts u (j + 1) = (CP.orbit E c.opts t0 (j + 1)).withRel r' := by
    intro j
    rw [hut]
    exact orbit_forgets hE hN hr htG0 _ _ _ _ j
  have hgood : ∀ j, (CP.orbit E c.opts u (j + 1)).Good c.opts := by
    intro j
    obtain ⟨r', e'⟩ := horb j
    rw [e']
    exact good_withRel (orbit_good hE hN hr htG0 (j + 1)).1 r'
  have hstep : ∀ j, CP.iteration E c.opts (CP.orbit E c.opts u j) = .ok (CP.orbit E c.opts u (j + 1)) := by
    have key : ∀ j, (∃ s', CP.iteration E c.opts (CP.orbit E c.opts u j) = .ok s') →
        CP.iteration E c.opts (CP.orbit E c.opts u j) = .ok (CP.orbit E c.opts u (j + 1)) := by
      rintro j ⟨s', h'⟩
      rw [CP.orbit, h']
    intro j
    refine key j ?_
    cases j with
    | zero =>
      obtain ⟨s', h', -⟩ := iteration_total hE hN hr htG0
      show ∃ s', CP.iteration E c.opts u = .ok s'
      rw [hut, iteration_withLast E c.opts (t0.withPrev u.prevSSE) _ _ _ hne, iteration_withPrev, h']
      exact ⟨_, rfl⟩
    | succ j =>
      obtain ⟨s', h', -⟩ := iteration_total hE hN hr (hgood j)
      exact ⟨s', h'⟩
  have hgo : ∀ j, CP.shouldStop c.opts (CP.orbit E c.opts u j) = .ok false := by
    intro j
    cases j with
    | zero => exact goes_on h1 h2 he he0
    | succ j => exact never_stops h1 h2 (hgood j)
  have hT : Trajectory (CP.method E c) (CP.orbit E c.opts u) (M - n).toNat :=
    ⟨fun j _ => hstep j, fun j _ => hgo j, fun j _ p hp => hlog p hp _ (hgood j), fun _ _ => ⟨_, kruskal_storeIn_eq _⟩⟩
  have hnot : ∀ m : Int, n ≤ m → m ∉ L'.map Prod.fst := by
    intro m hm hmem
    obtain ⟨q, hq, rfl⟩ := List.mem_map.1 hmem
    have := hL' q hq; omega
  set w1 : World CPState := { w with it := n, st := u } with hw1
  have hcont : continueFit (CP.method E c) (some M) w1 = run (CP.method E c) { w1 with maxIts := M } := by
    rw [continueFit, bind_of_ok (setMaxIts_ok _ _)]; rfl
  obtain ⟨w', g1, g2, g3, g4, g5⟩ := C43_schedule (CP.method E c) hfreq (w := { w1 with maxIts := M }) (L := L')
    (ss := CP.orbit E c.opts u) (k := (M - n).toNat) (s' := CP.orbit E c.opts u (M - n).toNat) rfl
    hT le_rfl (fun h => absurd h (lt_irrefl _)) rfl
    (fun _ => hM) ⟨hS.path, hS.cks, hS.logs⟩
    (fun j hj _ _ => hnot _ (by show n ≤ n + (j : Int); omega))
    (fun _ _ => hnot _ (by show n ≤ n + ((M - n).toNat : Int); omega))
  refine ⟨t0, CP.orbit E c.opts t0 (M - n).toNat, w', ?_, orbit_iterate hE hN hr _ htG0, hcont.trans g1, ?_, ?_⟩
  · exact initFit_resume (s := t0) htG0 hw hs.nonNeg hs.orth
  · obtain ⟨K, hK⟩ : ∃ K, (M - n).toNat = K + 1 := ⟨(M - n).toNat - 1, by omega⟩
    obtain ⟨r', e'⟩ := horb K
    rw [g2, hK, e']; rfl
  · rw [g3]; show n + ((M - n).toNat : Int) = M; omega

/-! ## A fit whose first checkpoint is loaded afterwards -/

/-- The factor matrices after one iteration for a `2 × 2` matrix with one component. -/
theorem iteration22_values {E : Ext} (hE : E.SVDOk) {o : CPOpts} (ho : o.rank = 1) (hr : o.ridgePenalties = none)
    {s : CPState} (h : s.Good o) (hX : s.X.shape = [2, 2]) (hU : s.Unconstrained)
    {A B : NDArray ℝ} (hf : s.dec.factorMatrices = [A, B]) :
    ∃ s' F G, CP.iteration E o s = .ok s' ∧ s'.dec.factorMatrices = [F, G] ∧ s'.lastMode = some 1 ∧
      (∀ i < 2, F.get [i, 0] * (B.get [0, 0] ^ 2 + B.get [1, 0] ^ 2) =
        s.X.get [i, 0] * B.get [0, 0] + s.X.get [i, 1] * B.get [1, 0]) ∧
      (∀ i < 2, G.get [i, 0] * (F.get [0, 0] ^ 2 + F.get [1, 0] ^ 2) =
        s.X.get [0, i] * F.get [0, 0] + s.X.get [1, i] * F.get [1, 0]) := by
  obtain ⟨l1, a1, b1⟩ := hU.nonNeg
  obtain ⟨l2, a2, b2⟩ := hU.orth
  rw [hX] at b1 b2
  obtain ⟨F, hF, e1, opt1⟩ := update_rows hE h.sized (m := 0) (by rw [hX]; decide)
    ⟨⟨l1, a1, b1 0 (by simp)⟩, ⟨l2, a2, b2 0 (by simp)⟩, Or.inl ⟨hr, rfl⟩⟩
  set s1 := s.updated 0 o.rank F with hs1
  have hS1 := h.sized.updated hF
  have hC1 : s1.Cached o.rank := h.cached.updated (by rw [hX]; decide)
  obtain ⟨G, hG, e2, opt2⟩ := update_rows hE hS1 (m := 1) (by show 1 < s.X.shape.length; rw [hX]; decide)
    ⟨⟨l1, a1, b1 1 (by simp)⟩, ⟨l2, a2, b2 1 (by simp)⟩, Or.inl ⟨hr, rfl⟩⟩
  have hS2 := hS1.updated hG
  have hC2 : (s1.updated 1 o.rank G).Cached o.rank := hC1.updated (by show 1 < s.X.shape.length; rw [hX]; decide)
  have hBs : B.shape = [2, 1] := by
    have := h.sized.wf.factors
    rw [hf, hX, ho] at this
    simp only [Factors, List.forall₂_cons] at this
    exact this.2.1
  have hFs : F.shape = [2, 1] := by rw [hF, hX, ho]; rfl
  refine ⟨(s1.updated 1 o.rank G).withSSE ((s1.updated 1 o.rank G).trueSSE o.rank), F, G, ?_, ?_, rfl, ?_, ?_⟩
  · rw [CP.iteration, CP.updateFactors, hX]
    have : CP.updateModes E o (List.range [2, 2].length) s = .ok (s1.updated 1 o.rank G) := by
      show CP.updateModes E o [0, 1] s = _
      rw [CP.updateModes, List.foldlM_cons, e1, bind_ok, List.foldlM_cons, e2, bind_ok]; rfl
    rw [this, bind_ok, CP.updateConvergence, C35_sse hS2 hC2, bind_ok]; rfl
  · simp [CPState.withSSE, CPState.updated, hs1, hf]
  · intro i hi
    have := (opt1 i (by rw [hX]; exact hi)).1 0 (by omega)
    simpa [ho, hf, hX, gramProd, gramEntry, hBs, mttkrpEntry, Finset.sum_range_succ, rankOne, pow_two] using this
  · intro i hi
    have := (opt2 i (by show i < s.X.shape.getD 1 0; rw [hX]; exact hi)).1 0 (by omega)
    simpa [ho, hf, hX, hs1, CPState.updated, gramProd, gramEntry, hFs, mttkrpEntry, Finset.sum_range_succ, rankOne,
      pow_two] using this

/-- The matrix `diag(4, 1)`. -/
def diag41 : NDArray ℝ := ofMat 2 2 fun i j => if i = j then (if i = 0 then 4 else 1) else 0

/-- The decomposition with factors `(1, 1)` and `(1, 8)`. -/
def steepKT : KruskalTensor :=
  ⟨1, [ofMat 2 1 fun _ _ => 1, ofMat 2 1 fun i _ => if i = 0 then 1 else 8], full [1] 1⟩

/-- Two iterations for `diag(4, 1)` from `(1, 1)`, `(1, 8)`, with checkpoints, and the load of the first one. -/
theorem reload_run {E : Ext} (hE : E.SVDOk) (hN : E.NNLSOk) (hQ : E.QROk) :
    ∃ w1 f d, CP.fit E (plainConfig "precomputed" (some 1)) diag41 (some 2) (.tensor steepKT)
        (CP.newObject none none 2 [] none) = .ok () w1 ∧ w1.file = some f ∧
      loadCheckpoint (CP.method E (plainConfig "precomputed" (some 1))) (.file f) (some 0) w1 =
        .ok () { w1 with it := 0, st := { w1.st with dec := d } } ∧
      w1.st.trueSSE 1 = 16 / 13 ∧
      sqErr diag41 (fun r => d.weights.get [r]) d.factorMatrices 1 = 13 ∧
      CP.sse { w1.st with dec := d } = .ok (-5) ∧ w1.st.XNorm ^ 2 = 17 ∧
      Resumable (plainConfig "precomputed" (some 1)).opts none w1.st ∧
      ∃ L, Checkpoints KruskalTensor.storeIn true f L ∧ ((1 : Int), w1.st.dec) ∈ L := by
  have hA : CP.Admissible ⟨1, 0, 0, none⟩ none none diag41.shape :=
    ⟨by decide, by simp [diag41], by simp [diag41], by simp, by simp, by simp, by simp, by simp⟩
  have ht : steepKT.WF diag41.shape 1 := ⟨rfl, by simp [Factors, steepKT, diag41], rfl⟩
  have hi1 : (plainConfig "precomputed" (some 1)).init.toLower = "precomputed" := by
    show "precomputed".toLower = _
    rw [String.toLower, ← String.toList_inj, String.toList_map]; decide
  obtain ⟨s0, w1, k, e0, h1, h2, h3, h4, -, h6, -, -, -, -, h10⟩ := C74_fit_completes hE hN hQ
    (c := plainConfig "precomputed" (some 1)) (mi := some 2) (budget := 2) (loggers := []) (file := none) hA
    (by intro p hp; simp [plainConfig] at hp) (by decide) (startsFrom_precomputed hi1 ht) ht (by decide)
    ⟨fun _ => rfl, fun _ => checkpoints_empty _ _, fun _ n hn => by simp [CP.method, plainConfig] at hn⟩
  obtain ⟨s0', e0', hG, hX, -, -, hw, hnn, hon, hdec⟩ := initFit_good (E := E) hQ (old := CP.fresh none none)
    (o := ⟨1, 0, 0, none⟩) rfl hA ht
  rw [e0] at e0'
  obtain rfl : s0 = s0' := by injection e0'
  set o : CPOpts := ⟨1, 0, 0, none⟩ with ho
  have hgood := fun j => orbit_good hE hN (by decide : 0 < o.rank) hG j
  have hst : w1.st = CP.orbit E o s0 k := by
    have : CP.iterate E o k s0 = .ok w1.st := h4
    rw [orbit_iterate hE hN (by decide) k hG] at this
    exact (Except.ok.inj this).symm
  have hk : k = 2 := by
    by_contra hne
    have h2' : (k : Int) ≤ 2 := h2
    have := h6 (by show (k : Int) < 2; omega)
    rw [hst] at this
    have hgo' : CP.shouldStop o (CP.orbit E o s0 k) = .ok false := never_stops le_rfl le_rfl (hgood k).1
    rw [show (plainConfig "precomputed" (some 1)).opts = o from rfl, hgo'] at this
    cases this
  subst hk
  have hck := h10.cks (by show (0 : Int) < 1; decide)
  have hmem : ((0 : Int), (CP.orbit E o s0 1).dec) ∈ schedule (freqOption (some 1)) 0 2
      (fun j => (CP.orbit E o s0 j).dec) :=
    mem_schedule.2 ⟨0, by omega, by decide, by decide, by simp⟩
  have hmem' := List.mem_append_left (finalCheckpoint (CP.method E (plainConfig "precomputed" (some 1))) 0 2
    ((some (2 : Int)).getD 2).toNat (CP.orbit E o s0 2).dec) hmem
  obtain ⟨f, hf⟩ := file_of_checkpoints hck hmem'
  rw [hf] at hck
  have hU : ∀ j, (CP.orbit E o s0 j).Unconstrained := by
    intro j
    have hrep : ∀ m < 2, ([false, false] : List Bool)[m]? = some false := by
      intro m hm
      interval_cases m <;> rfl
    have hl : (CP.orbit E o s0 j).X.shape.length = 2 := by rw [(hgood j).2.X, hX]; rfl
    exact ⟨⟨[false, false], (hgood j).2.nonNeg.trans hnn, fun m hm => hrep m (by omega)⟩,
      ⟨[false, false], (hgood j).2.orth.trans hon, fun m hm => hrep m (by omega)⟩⟩
  have hXj : ∀ j, (CP.orbit E o s0 j).X = diag41 := fun j => (hgood j).2.X.trans hX
  have hx : ∀ i < 2, ∀ j < 2, diag41.get [i, j] = if i = j then (if i = 0 then 4 else 1) else 0 := by
    intro i hi j hj
    rw [diag41, get_ofMat hi hj]
  have x00 := hx 0 (by omega) 0 (by omega)
  have x01 := hx 0 (by omega) 1 (by omega)
  have x10 := hx 1 (by omega) 0 (by omega)
  have x11 := hx 1 (by omega) 1 (by omega)
  simp only [if_true, if_false, zero_ne_one, one_ne_zero] at x00 x01 x10 x11
  obtain ⟨s1, F1, G1, i1, f1, -, p1, q1⟩ := iteration22_values hE (o := o) rfl rfl hG (by rw [hX]; rfl)
    (hU 0) (hdec rfl)
  obtain rfl : CP.orbit E o s0 1 = s1 := by
    have := orbit_step hE hN (by decide) hG 0
    rw [show CP.orbit E o s0 0 = s0 from rfl, i1] at this
    exact (Except.ok.inj this).symm
  obtain ⟨s2, F2, G2, i2, f2, l2, p2, q2⟩ := iteration22_values hE (o := o) rfl rfl (hgood 1).1
    (by rw [hXj]; rfl) (hU 1) f1
  obtain rfl : CP.orbit E o s0 2 = s2 := by
    have := orbit_step hE hN (by decide) hG 1
    rw [i2] at this
    exact (Except.ok.inj this).symm
  have b0 : (ofMat 2 1 fun i _ => if i = 0 then (1 : ℝ) else 8).get [0, 0] = 1 := by
    rw [get_ofMat (by omega) (by omega)]; rfl
  have b1 : (ofMat 2 1 fun i _ => if i = 0 then (1 : ℝ) else 8).get [1, 0] = 8 := by
    rw [get_ofMat (by omega) (by omega)]; rfl
  have p10 := p1 0 (by omega)
  have p11 := p1 1 (by omega)
  rw [b0, b1, hX] at p10 p11
  have a0 : F1.get [0, 0] = 4 / 65 := by rw [x00, x01] at p10; linarith
  have a1 : F1.get [1, 0] = 8 / 65 := by rw [x10, x11] at p11; linarith
  have q10 := q1 0 (by omega)
  have q11 := q1 1 (by omega)
  rw [a0, a1, hX] at q10 q11
  have g0 : G1.get [0, 0] = 13 := by rw [x00, x10] at q10; linarith
  have g1 : G1.get [1, 0] = 13 / 2 := by rw [x01, x11] at q11; linarith
  have p20 := p2 0 (by omega)
  have p21 := p2 1 (by omega)
  rw [g0, g1, hXj] at p20 p21
  have c0 : F2.get [0, 0] = 16 / 65 := by rw [x00, x01] at p20; linarith
  have c1 : F2.get [1, 0] = 2 / 65 := by rw [x10, x11] at p21; linarith
  have q20 := q2 0 (by omega)
  have q21 := q2 1 (by omega)
  rw [c0, c1, hXj] at q20 q21
  have d0 : G2.get [0, 0] = 16 := by rw [x00, x10] at q20; linarith
  have d1 : G2.get [1, 0] = 1 / 2 := by rw [x01, x11] at q21; linarith
  have w1' : (CP.orbit E o s0 1).dec.weights.get [0] = 1 := by rw [(hgood 1).2.weights]; exact hw 0 (by decide)
  have w2' : (CP.orbit E o s0 2).dec.weights.get [0] = 1 := by rw [(hgood 2).2.weights]; exact hw 0 (by decide)
  have hd : (CP.orbit E o s0 1).dec.WF w1.st.X.shape o.rank := by
    have := (hgood 1).1.sized.wf
    rw [hXj] at this
    rw [hst, hXj]; exact this
  have hn : w1.st.X.shape ≠ [] := by rw [hst, hXj]; simp [diag41]
  refine ⟨w1, f, (CP.orbit E o s0 1).dec, h1, hf, load_ok hck hmem' hd hn, ?_, ?_, ?_, ?_, ?_,
    _, hck, ?_⟩
  · rw [hst, CPState.trueSSE, f2, hXj, sqErr22 (w := fun r => (CP.orbit E o s0 2).dec.weights.get [r]) rfl w2', err22,
      x00, x01, x10, x11, c0, c1, d0, d1]
    norm_num
  · rw [f1, sqErr22 (w := fun r => (CP.orbit E o s0 1).dec.weights.get [r]) rfl w1', err22,
      x00, x01, x10, x11, a0, a1, g0, g1]
    norm_num
  · rw [hst] at hd
    rw [hst, sse_loaded (hgood 2).1.sized (hgood 2).1.cached l2 hd, f1, f2, hXj]
    refine congrArg Except.ok ?_
    rw [show diag41.shape = [2, 2] from rfl, show o.rank = 1 from rfl]
    simp only [mixed, List.getElem?_cons_succ, List.getElem?_cons_zero, List.set_cons_succ, List.set_cons_zero, sumIdx,
      cpEntry, rankOne, Finset.sum_range_succ, Finset.sum_range_zero, w1', x00, x01, x10, x11, a0, a1, g0, g1, c0, c1]
    norm_num
  · rw [hst, (hgood 2).1.cached.norm, Real.sq_sqrt (sumIdx_nonneg fun _ _ => sq_nonneg _), hXj,
      show diag41.shape = [2, 2] from rfl]
    simp only [sumIdx, Finset.sum_range_succ, Finset.sum_range_zero, x00, x01, x10, x11]
    norm_num
  · rw [hst]
    exact Resumable.orbit hE hN (by decide) ⟨hG, hw, by rw [hnn, hX]; rfl, by rw [hon, hX]; rfl⟩ 2
  · rw [hst]
    exact List.mem_append_left _ (mem_schedule.2 ⟨1, by omega, by decide, by decide, rfl⟩)

/-- C93 is false of the code: after a fit of `diag(4, 1)` with two iterations, the object is told to load its
checkpoint 0. The squared error of the loaded decomposition is 13, but the object reports `-5`. -/
theorem C93_fails {E : Ext} (hE : E.SVDOk) (hN : E.NNLSOk) (hQ : E.QROk) :
    ∃ w1 f w2, CP.fit E (plainConfig "precomputed" (some 1)) diag41 (some 2) (.tensor steepKT)
        (CP.newObject none none 2 [] none) = .ok () w1 ∧ w1.file = some f ∧
      loadCheckpoint (CP.method E (plainConfig "precomputed" (some 1))) (.file f) (some 0) w1 = .ok () w2 ∧
      sqErr diag41 (fun r => w2.st.dec.weights.get [r]) w2.st.dec.factorMatrices 1 = 13 ∧
      CP.sse w2.st = .ok (-5) := by
  obtain ⟨w1, f, d, h1, h2, h3, -, h5, h6, -⟩ := reload_run hE hN hQ
  exact ⟨w1, f, _, h1, h2, h3, h5, h6⟩

/-- C94 is false of the code: if that object then is told to continue with `max_its=100`, it performs no iteration
although both tolerances are zero, and keeps the loaded decomposition with error 13. (The error of the second
iteration of the original fit was `16/13`.) -/
theorem C94_fails {E : Ext} (hE : E.SVDOk) (hN : E.NNLSOk) (hQ : E.QROk) :
    ∃ w1 f w2 w3, CP.fit E (plainConfig "precomputed" (some 1)) diag41 (some 2) (.tensor steepKT)
        (CP.newObject none none 2 [] none) = .ok () w1 ∧ w1.file = some f ∧
      w1.st.trueSSE 1 = 16 / 13 ∧
      loadCheckpoint (CP.method E (plainConfig "precomputed" (some 1))) (.file f) (some 0) w1 = .ok () w2 ∧
      continueFit (CP.method E (plainConfig "precomputed" (some 1))) (some 100) w2 = .ok () w3 ∧
      w3.it = 0 ∧ w3.st.dec = w2.st.dec ∧
      sqErr diag41 (fun r => w3.st.dec.weights.get [r]) w3.st.dec.factorMatrices 1 = 13 := by
  obtain ⟨w1, f, d, h1, h2, h3, h4, h5, h6, h7, -⟩ := reload_run hE hN hQ
  set w2 : World CPState := { w1 with it := 0, st := { w1.st with dec := d } } with hw2
  refine ⟨w1, f, w2, { w2 with maxIts := 100 }, h1, h2, h4, h3, ?_, rfl, rfl, h5⟩
  have hstop : (CP.method E (plainConfig "precomputed" (some 1))).stop w2.st = .ok true := by
    show CP.shouldStop ⟨1, 0, 0, none⟩ w2.st = .ok true
    rw [CP.shouldStop, show CP.sse w2.st = .ok (-5) from h6, bind_ok]
    refine congrArg Except.ok ?_
    rw [show w2.st.XNorm ^ 2 = 17 from h7]
    have : (FV.div (-5) 17).lt 0 = true := by
      rw [FV.div, if_pos (by norm_num)]
      exact decide_eq_true (by norm_num)
    rw [this, Bool.or_true]
  rw [continueFit, bind_of_ok (setMaxIts_ok _ _)]
  set w3 : World CPState := { w2 with maxIts := 100 } with hw3
  show run (CP.method E (plainConfig "precomputed" (some 1))) w3 = .ok () w3
  have hp : modifySt (CP.method E (plainConfig "precomputed" (some 1))).prepare w3 = .ok () w3 := rfl
  rw [run, bind_of_ok hp, bind_of_ok (get_def _)]
  have hl : loop (CP.method E (plainConfig "precomputed" (some 1))) ((100 : Int) - 0).toNat 0 none w3 =
      .ok (some 0) w3 := by
    show loop (CP.method E (plainConfig "precomputed" (some 1))) (99 + 1) 0 none w3 = _
    rw [loop, bind_of_ok (get_def _), bind_of_ok (lift_ok hstop _)]
    rfl
  show (loop (CP.method E (plainConfig "precomputed" (some 1))) ((100 : Int) - 0).toNat 0 none >>= _ : Fit _ _) w3 = _
  have hfin : final (CP.method E (plainConfig "precomputed" (some 1))) (some 0) w3 = .ok () w3 := by
    have hn : (pure (((0 : ℕ) : Int) + 1) : Fit CPState Int) w3 = .ok 1 w3 := rfl
    have hdv : (lift (divides (CP.method E (plainConfig "precomputed" (some 1))).freq 1) : Fit CPState Bool) w3 =
        .ok true w3 := lift_ok (by
          show divides 1 1 = _
          rw [divides_ok (by decide)]; rfl) _
    rw [final, if_pos (show (CP.method E (plainConfig "precomputed" (some 1))).usesLoopVar = true from rfl)]
    rw [bind_of_ok hn, bind_of_ok hdv]
    rfl
  rw [bind_of_ok hl, bind_of_ok hfin]
  rfl

/-- A case of the partial theorems: after that fit the last checkpoint (1) is loaded. The error is reported
correctly, and an object in this state (without checkpoints of its own) that continues up to `max_its=100` performs
99 iterations. -/
example {E : Ext} (hE : E.SVDOk) (hN : E.NNLSOk) (hQ : E.QROk) :
    ∃ w : World CPState, ∃ f w' w'',
      loadCheckpoint (CP.method E (plainConfig "precomputed" none)) (.file f) (some 1) w = .ok () w' ∧
      CP.sse w'.st = .ok (16 / 13) ∧
      continueFit (CP.method E (plainConfig "precomputed" none)) (some 100) w' = .ok () w'' ∧ w''.it = 100 := by
  obtain ⟨w1, f, d, -, -, -, h4, -, -, -, hR, L, hck, hmem⟩ := reload_run hE hN hQ
  have hneg : ¬ 0 < (CP.method E (plainConfig "precomputed" none)).freq := by
    show ¬ (0 : Int) < -1
    decide
  have hG := hR.good
  obtain ⟨w', l1, l2, l3⟩ := C94_continue_partial hE hN (c := plainConfig "precomputed" none) (by decide)
    (by intro p hp; simp [plainConfig] at hp) (by decide) le_rfl le_rfl hR (L' := []) hck hmem hG.sized.wf hR.weights
    (show (1 : Int) < 100 by decide) ⟨fun h => absurd h hneg, fun h => absurd h hneg, fun h => absurd h hneg⟩ (by simp)
  obtain ⟨w2, k1, k2, -, k4⟩ := C93_sse_partial (E := E) (c := plainConfig "precomputed" none) hck hmem hG.sized
    hG.cached hG.sized.wf (fun _ _ => rfl)
  obtain rfl : w' = w2 := by
    rw [l1] at k1
    injection k1
  have k4' : CP.sse w'.st = .ok (16 / 13) := by rw [k4]; exact congrArg Except.ok h4
  obtain ⟨-, -, w'', -, -, m3, -, m5⟩ := l3 _ k4' (by norm_num)
  exact ⟨w1, f, w', w'', l1, k4', m3, m5⟩

/-- A case of `C93_reported_partial`: the run of `C93_fails` has updated mode 1 last. -/
example {E : Ext} (hE : E.SVDOk) (hN : E.NNLSOk) (hQ : E.QROk) :
    ∃ w : World CPState, ∃ f L n d, Checkpoints KruskalTensor.storeIn true f L ∧ (n, d) ∈ L ∧ w.st.Sized 1 ∧
      w.st.Cached 1 ∧ d.WF w.st.X.shape 1 ∧ ∃ m, w.st.lastMode = some m := by
  obtain ⟨w1, f, d, -, -, -, h4, h5, h6, -, hR, L, hck, hmem⟩ := reload_run hE hN hQ
  refine ⟨w1, f, L, 1, w1.st.dec, hck, hmem, hR.good.sized, hR.good.cached, hR.good.sized.wf, ?_⟩
  cases hl : w1.st.lastMode with
  | some m => exact ⟨m, rfl⟩
  | none =>
    exfalso
    have : 0 ≤ (-5 : ℝ) := by
      have e : CP.sse { w1.st with dec := d } = (do
          let Y ← d.constructTensor
          let D ← zipB (· - ·) w1.st.X Y
          pure (frobNorm D ^ 2) : Py ℝ) := by
        unfold CP.sse
        split
        · rename_i m' hm''
          rw [show ({ w1.st with dec := d } : CPState).lastMode = w1.st.lastMode from rfl, hl] at hm''
          cases hm''
        · rfl
      rw [h6] at e
      obtain ⟨Y, -, e⟩ := bind_eq_ok.1 e.symm
      obtain ⟨D, -, e⟩ := bind_eq_ok.1 e
      rw [← Except.ok.inj e]
      positivity
    norm_num at this

end
end TK
