import Verif.Props.CPFit

/-!
# C47: resuming a fit of `CP_ALS` from a checkpoint
-/

namespace TK
open NDArray
open EStateM (Result)
open Fit

noncomputable section

/-- The attributes of a state that describe the last update are replaced. -/
def CPState.withLast (s : CPState) (a : Option ℕ) (b : Option (NDArray ℝ)) (r : FV) : CPState :=
  { s with lastMode := a, cache := b, relChange := r }

/-- Another relative change. -/
def CPState.withRel (s : CPState) (r : FV) : CPState := { s with relChange := r }

/-- An update does not read what is remembered of the last update. -/
theorem updateFactor_withLast (E : Ext) (o : CPOpts) (m : ℕ) (s : CPState) (a : Option ℕ) (b : Option (NDArray ℝ))
    (r : FV) : CP.updateFactor E o m (s.withLast a b r) =
      (CP.updateFactor E o m s).map fun s' => s'.withRel r := by
  have h1 : CP.alsRhs (s.withLast a b r) m = CP.alsRhs s m := rfl
  have h2 : CP.getSolve E o (s.withLast a b r) m = CP.getSolve E o s m := rfl
  rw [CP.updateFactor, CP.updateFactor, h1, h2]
  show (CP.alsLhs o.rank m s.dec.factorMatrices >>= _ : Py CPState) = _
  cases CP.alsLhs o.rank m s.dec.factorMatrices with
  | error e => rfl
  | ok lhs =>
    simp only [bind_ok]
    cases CP.alsRhs s m with
    | error e => rfl
    | ok rhs =>
      simp only [bind_ok]
      cases CP.getSolve E o s m with
      | error e => rfl
      | ok solve =>
        simp only [bind_ok]
        cases solve lhs rhs with
        | error e => rfl
        | ok new =>
          simp only [bind_ok]
          show (pyGet s.dec.factorMatrices m >>= _ : Py CPState) = _
          cases pyGet s.dec.factorMatrices (m : Int) with
          | error e => rfl
          | ok F =>
            simp only [bind_ok]
            cases assignAll F new with
            | error e => rfl
            | ok F' => rfl

theorem updateFactor_withRel (E : Ext) (o : CPOpts) (m : ℕ) (s : CPState) (r : FV) :
    CP.updateFactor E o m (s.withRel r) = (CP.updateFactor E o m s).map fun s' => s'.withRel r :=
  updateFactor_withLast E o m s s.lastMode s.cache r

theorem updateModes_withRel (E : Ext) (o : CPOpts) (r : FV) : ∀ (modes : List ℕ) (s : CPState),
    CP.updateModes E o modes (s.withRel r) = (CP.updateModes E o modes s).map fun s' => s'.withRel r
  | [], s => rfl
  | m :: ms, s => by
    rw [CP.updateModes, CP.updateModes, List.foldlM_cons, List.foldlM_cons, updateFactor_withRel]
    cases CP.updateFactor E o m s with
    | error e => rfl
    | ok s1 => exact updateModes_withRel E o r ms s1

/-- One iteration from a state does not depend on what it remembers of the last update. -/
theorem iteration_withLast (E : Ext) (o : CPOpts) (s : CPState) (a : Option ℕ) (b : Option (NDArray ℝ)) (r : FV)
    (hd : s.X.shape ≠ []) : CP.iteration E o (s.withLast a b r) = CP.iteration E o s := by
  obtain ⟨m, ms, hm⟩ : ∃ m ms, List.range s.X.shape.length = m :: ms := by
    refine List.exists_cons_of_ne_nil fun h => hd ?_
    exact List.length_eq_zero_iff.1 (List.range_eq_nil.1 h)
  rw [CP.iteration, CP.iteration, CP.updateFactors, CP.updateFactors]
  have hX : (s.withLast a b r).X = s.X := rfl
  rw [hX, hm, CP.updateModes, CP.updateModes, List.foldlM_cons, List.foldlM_cons, updateFactor_withLast]
  cases CP.updateFactor E o m s with
  | error e => rfl
  | ok s1 =>
    have h1 : List.foldlM (fun s m => CP.updateFactor E o m s) (s1.withRel r) ms =
        (List.foldlM (fun s m => CP.updateFactor E o m s) s1 ms).map fun s' => s'.withRel r :=
      updateModes_withRel E o r ms s1
    show (List.foldlM (fun s m => CP.updateFactor E o m s) (s1.withRel r) ms >>= _ : Py CPState) = _
    rw [h1, bind_ok]
    cases List.foldlM (fun s m => CP.updateFactor E o m s) s1 ms with
    | error e => rfl
    | ok s2 => rfl

theorem orbit_succ (E : Ext) (o : CPOpts) (s : CPState) (j : ℕ) :
    CP.orbit E o s (j + 1) = match CP.iteration E o (CP.orbit E o s j) with
    | .ok s' => s'
    | .error _ => CP.orbit E o s j := rfl

theorem orbit_withLast (E : Ext) (o : CPOpts) (s : CPState) (a : Option ℕ) (b : Option (NDArray ℝ)) (r : FV)
    (hd : s.X.shape ≠ []) {s1 : CPState} (hs : CP.iteration E o s = .ok s1) :
    ∀ j, CP.orbit E o (s.withLast a b r) (j + 1) = CP.orbit E o s (j + 1)
  | 0 => by
    show (match CP.iteration E o (s.withLast a b r) with
      | .ok s' => s'
      | .error _ => s.withLast a b r) = (match CP.iteration E o s with
      | .ok s' => s'
      | .error _ => s)
    rw [iteration_withLast E o s a b r hd, hs]
  | j + 1 => by
    rw [orbit_succ, orbit_withLast E o s a b r hd hs j, ← orbit_succ]

theorem orbit_add (E : Ext) (o : CPOpts) (s : CPState) (k : ℕ) :
    ∀ j, CP.orbit E o (CP.orbit E o s k) j = CP.orbit E o s (k + j)
  | 0 => rfl
  | j + 1 => by rw [CP.orbit, orbit_add E o s k j, ← Nat.add_assoc, CP.orbit]

/-- The weights of a state stay one, so nothing changes when they are reset. -/
theorem resetWeights_eq {t : KruskalTensor} {R : ℕ} (h : t.weights.shape = [R])
    (hw : ∀ r < R, t.weights.get [r] = 1) : t.resetWeights = t := by
  have : (t.weights.map (· * 0)).map (· + 1) = t.weights := by
    refine ext_get rfl fun idx hidx => ?_
    have hv : Valid t.weights.shape idx := hidx
    rw [get_map _ _ (by simpa using hv), get_map _ _ hv]
    rw [h] at hv
    obtain ⟨r, rfl, hr⟩ : ∃ r, idx = [r] ∧ r < R := by
      match idx, hv with
      | [r], hv => exact ⟨r, rfl, by simpa using hv⟩
    rw [hw r hr]; ring
  rw [KruskalTensor.resetWeights, this]

/-- A new object that is started from the decomposition of the state `s` of an earlier run: it is in the state
`s`, but does not remember the last update. (No mode has the orthonormality constraint.) -/
theorem initFit_resume {E : Ext} {o : CPOpts} {s : CPState} (hG : s.Good o)
    (hw : ∀ r < o.rank, s.dec.weights.get [r] = 1) {nonNeg : Option (List Bool)}
    (hnn : s.nonNeg = some (nonNeg.getD (List.replicate s.X.shape.length false)))
    (hon : s.orth = some (List.replicate s.X.shape.length false)) :
    CP.initFit E (CP.fresh nonNeg none) s.X s.dec = .ok (s.withLast none none .pinf) := by
  have hortho : ∀ (n i : ℕ) (fs : List (NDArray ℝ)), i + n ≤ fs.length →
      CP.orthonormalise E i (List.replicate n false) fs = .ok fs := by
    intro n
    induction n with
    | zero => intro i fs _; rfl
    | succ n ih =>
      intro i fs h
      rw [List.replicate_succ, CP.orthonormalise, pyGet_ok (norm_nat (by omega)), bind_ok]
      exact ih (i + 1) fs (by omega)
  have hlen : s.dec.factorMatrices.length = s.X.shape.length := hG.sized.wf.factors.length_eq
  have hnorm : frobNorm s.X = s.XNorm := by
    rw [hG.cached.norm, frobNorm, sum_data]
  rw [CP.initFit]
  simp only [resetWeights_eq hG.sized.wf.weights hw, hlen]
  have h1 : (CP.fresh nonNeg none).orth.getD (List.replicate s.X.shape.length false)
      = List.replicate s.X.shape.length false := rfl
  have h2 : (CP.fresh nonNeg none).nonNeg = nonNeg := rfl
  rw [h1, h2, hortho _ 0 _ (by omega), bind_ok, ← hnn, ← hon, hnorm]
  set s1 : CPState := { CP.fresh nonNeg none with
    X := s.X, XNorm := s.XNorm, dec := { s.dec with factorMatrices := s.dec.factorMatrices }
    nonNeg := s.nonNeg, orth := s.orth, relChange := .pinf } with hs1
  have hc : s1.Cached o.rank := ⟨hG.cached.norm, by simp [hs1, CP.fresh]⟩
  have hz : s1.Sized o.rank := ⟨hG.sized.wf, hG.sized.order, hG.sized.nonempty⟩
  rw [C35_sse hz hc, bind_ok]
  have : s1.trueSSE o.rank = s.prevSSE := hG.prev.symm
  rw [this]
  rfl

/-- A state from which a run can be resumed: the states of a run of an object without orthonormality constraints
and with the non-negativity constraints `nonNeg`. -/
structure Resumable (o : CPOpts) (nonNeg : Option (List Bool)) (s : CPState) : Prop where
  good : s.Good o
  weights : ∀ r < o.rank, s.dec.weights.get [r] = 1
  nonNeg : s.nonNeg = some (nonNeg.getD (List.replicate s.X.shape.length false))
  orth : s.orth = some (List.replicate s.X.shape.length false)

theorem Resumable.orbit {E : Ext} (hE : E.SVDOk) (hN : E.NNLSOk) {o : CPOpts} (hr : 0 < o.rank)
    {nonNeg : Option (List Bool)} {s : CPState} (h : Resumable o nonNeg s) (j : ℕ) :
    Resumable o nonNeg (CP.orbit E o s j) := by
  obtain ⟨h1, h2⟩ := orbit_good hE hN hr h.good j
  exact ⟨h1, by rw [h2.weights]; exact h.weights, by rw [h2.nonNeg, h2.X]; exact h.nonNeg,
    by rw [h2.orth, h2.X]; exact h.orth⟩

/-- Storing and loading a decomposition in a checkpoint group. -/
theorem kruskal_group_roundtrip {t : KruskalTensor} {sizes : List ℕ} {R : ℕ} (h : t.WF sizes R) (hne : sizes ≠ [])
    {g : Group} (hg : t.storeIn Group.empty = .ok g) : KruskalTensor.loadFrom g = .ok t := by
  obtain ⟨f, h1, h2⟩ := C19_kruskal_roundtrip t sizes R h hne
  rw [storeFile, hg, bind_ok] at h1
  cases h1
  exact h2

theorem initComponents_checkpoint {E : Ext} {c : CP.Config} (hi : c.init.toLower = "from_checkpoint") {p : CkPath}
    {w : World CPState} : CP.initComponents E c (.path p) w = loadCheckpoint (CP.method E c) (p.resolve w) none w := by
  unfold CP.initComponents
  simp only [hi]
  rfl

/-- What `fit` with `init='from_checkpoint'` does when the latest checkpoint of the file is number `n` and holds
the decomposition of the state `s`: the loop starts in the state `s` (without memory of its last update) with
`current_iteration = n`. -/
theorem resume_start {E : Ext} {c : CP.Config} {nonNeg : Option (List Bool)} {s : CPState}
    (hs : Resumable c.opts nonNeg s) (hi : c.init.toLower = "from_checkpoint") {p : CkPath} {f : H5File}
    {budget : Int} {loggers : List Logger} {file : Option H5File}
    (hp : ∀ w : World CPState, w.file = file → p.resolve w = .file f) {L : List (Int × KruskalTensor)} {n : Int}
    (hc : Checkpoints KruskalTensor.storeIn true f L) (hlast : L.getLast? = some (n, s.dec)) (mi : Option Int) :
    CP.fit E c s.X mi (.path p) (CP.newObject nonNeg none budget loggers file) =
      run (CP.method E c) ⟨s.withLast none none .pinf, n, mi.getD budget, loggers, file⟩ := by
  have hmem : (n, s.dec) ∈ L := List.mem_of_getLast? hlast
  have hne : s.X.shape ≠ [] := by
    intro h; have := hs.good.sized.order; rw [h] at this; simp at this
  refine fit_unfold (E := E) (c := c) (X := s.X) (mi := mi) (arg := .path p)
    (w := CP.newObject nonNeg none budget loggers file) (t := s.dec) (n := n) ?_ ?_
  · rw [initComponents_checkpoint hi, hp _ rfl,
      C48_load_default (CP.method E c) (L := L) (n := n) (d := s.dec) hc hlast,
      C48_load (CP.method E c) (L := L) hc hmem (fun g hg => kruskal_group_roundtrip hs.good.sized.wf hne hg)]
    · rfl
    · exact ((C62_check_partial hs.good.sized.wf.factors.length_eq).1).2 hs.good.sized.wf.factors
  · rw [C36_refit_partial (old := { (CP.newObject nonNeg none budget loggers file).st with
      X := s.X, XNorm := frobNorm s.X, dec := s.dec }) rfl]
    exact initFit_resume hs.good hs.weights hs.nonNeg hs.orth

/-- The stopping test of the resumed state agrees with that of the original one as far as going on is concerned. -/
theorem shouldStop_withLast {o : CPOpts} {s : CPState} (h : s.Good o) (hgo : CP.shouldStop o s = .ok false) :
    CP.shouldStop o (s.withLast none none .pinf) = .ok false := by
  have hc : (s.withLast none none .pinf).Cached o.rank := ⟨h.cached.norm, by simp [CPState.withLast]⟩
  have hz : (s.withLast none none .pinf).Sized o.rank := ⟨h.sized.wf, h.sized.order, h.sized.nonempty⟩
  rw [CP.shouldStop, C35_sse h.sized h.cached, bind_ok] at hgo
  rw [CP.shouldStop, C35_sse hz hc, bind_ok]
  have hgo' := pure_eq_ok.1 hgo
  rw [Bool.or_eq_false_iff] at hgo'
  refine congrArg Except.ok ?_
  rw [Bool.or_eq_false_iff]
  exact ⟨rfl, hgo'.2⟩

theorem good_withLast {o : CPOpts} {s : CPState} (h : s.Good o) : (s.withLast none none .pinf).Good o :=
  ⟨⟨h.sized.wf, h.sized.order, h.sized.nonempty⟩, ⟨h.cached.norm, by simp [CPState.withLast]⟩,
    fun m hm => by
      obtain ⟨nn, on, ridge, hc, hb⟩ := h.config m hm
      exact ⟨nn, on, ridge, ⟨hc.nonNeg, hc.orth, hc.ridge⟩, hb⟩, h.prev⟩

/-- A resumed run: with `M - n` iterations it continues the iterations of the original run, and it can store its
checkpoints after the ones that are there, unless its first iteration would store one. -/
theorem resume_run {E : Ext} (hE : E.SVDOk) (hN : E.NNLSOk) {c : CP.Config} (hr : 0 < c.opts.rank)
    (hlog : c.Measurable) (hfreq : freqOption c.freq ≠ 0) {nonNeg : Option (List Bool)} {s : CPState}
    (hs : Resumable c.opts nonNeg s) (hi : c.init.toLower = "from_checkpoint") {p : CkPath} {f : H5File}
    {budget : Int} {loggers : List Logger} {file : Option H5File}
    (hp : ∀ w : World CPState, w.file = file → p.resolve w = .file f) {L L' : List (Int × KruskalTensor)} {n M : Int}
    (hc : Checkpoints KruskalTensor.storeIn true f L) (hlast : L.getLast? = some (n, s.dec)) (hM : n < M)
    (hgo : ∀ j < (M - n).toNat, CP.shouldStop c.opts (CP.orbit E c.opts s j) = .ok false)
    (hS : Storing (CP.method E c) (CP.newObject nonNeg none budget loggers file) L')
    (hL' : ∀ q ∈ L', q.1 ≤ n) (hfirst : 0 < freqOption c.freq → ¬ freqOption c.freq ∣ n + 1) :
    ∃ w', CP.fit E c s.X (some M) (.path p) (CP.newObject nonNeg none budget loggers file) = .ok () w' ∧
      w'.st = CP.orbit E c.opts s (M - n).toNat ∧ w'.it = M ∧
      Storing (CP.method E c) w' (L' ++ schedule (freqOption c.freq) n (M - n).toNat
          (fun j => (CP.orbit E c.opts (s.withLast none none .pinf) j).dec) ++
        finalCheckpoint (CP.method E c) n (M - n).toNat (M - n).toNat
          (CP.orbit E c.opts s (M - n).toNat).dec) := by
  rw [resume_start hs hi hp hc hlast (some M)]
  have hd : s.X.shape ≠ [] := by
    intro h; have := hs.good.sized.order; rw [h] at this; simp at this
  obtain ⟨s1, e1, -⟩ := iteration_total hE hN hr hs.good
  obtain ⟨K, hK⟩ : ∃ K, (M - n).toNat = K + 1 := ⟨(M - n).toNat - 1, by omega⟩
  set t := s.withLast none none .pinf with ht
  have hG := good_withLast hs.good
  have horb : ∀ j, CP.orbit E c.opts t (j + 1) = CP.orbit E c.opts s (j + 1) :=
    orbit_withLast E c.opts s none none .pinf hd e1
  have hgo' : ∀ j < (M - n).toNat, CP.shouldStop c.opts (CP.orbit E c.opts t j) = .ok false := by
    intro j hj
    cases j with
    | zero => exact shouldStop_withLast hs.good (hgo 0 hj)
    | succ j => rw [horb]; exact hgo (j + 1) hj
  set w1 : World CPState := ⟨t, n, (some M).getD budget, loggers, file⟩ with hw1
  have hmax : (w1.maxIts - w1.it).toNat = (M - n).toNat := rfl
  have hnot : ∀ m : Int, n < m → m ∉ L'.map Prod.fst := by
    intro m hm hmem
    obtain ⟨q, hq, rfl⟩ := List.mem_map.1 hmem
    have := hL' q hq; omega
  obtain ⟨w', g1, g2, g3, g4, g5⟩ := C43_schedule (CP.method E c) hfreq (w := w1) (L := L')
    (ss := CP.orbit E c.opts t) (k := (M - n).toNat) (s' := CP.orbit E c.opts t (M - n).toNat) rfl
    (cp_trajectory hE hN hr hlog hG hgo') (by rw [hmax]) (by rw [hmax]; intro h; omega) rfl
    (fun _ => hM) ⟨hS.path, hS.cks, hS.logs⟩ (fun j hj h1 h2 => by
      by_cases hj0 : j = 0
      · subst hj0
        refine absurd ?_ (hfirst h1)
        rw [Nat.cast_zero, add_zero] at h2
        exact h2
      · exact hnot _ (by show n < n + (j : Int); omega))
    (fun _ _ => hnot _ (by show n < n + ((M - n).toNat : Int); omega))
  have hend : CP.orbit E c.opts t (M - n).toNat = CP.orbit E c.opts s (M - n).toNat := by rw [hK]; exact horb K
  refine ⟨w', g1, g2.trans hend, ?_, ?_⟩
  · rw [g3]; show n + ((M - n).toNat : Int) = M; omega
  · rw [← hend]; exact g5

/-- C47, the part that holds: a fit with budget `N` that ended by storing its last state (the frequency does not
divide `N`), resumed from that file with budget `M`, gives the decomposition of the uninterrupted fit with budget
`M`. The resumed fit may store into the same file if the frequency does not divide `N + 1`.
(Missing: files whose latest checkpoint was stored inside the loop, see `C47_extra_iteration`; a frequency that
divides `N + 1`, see `C47_same_file_fails`.) -/
theorem C47_partial {E : Ext} (hE : E.SVDOk) (hN : E.NNLSOk) {c c' : CP.Config} (hr : 0 < c.opts.rank)
    (ho : c'.opts = c.opts) (hlog : c'.Measurable) (hfreq' : freqOption c'.freq ≠ 0)
    {nonNeg : Option (List Bool)} {s0 : CPState} (hs : Resumable c.opts nonNeg s0)
    (hi : c'.init.toLower = "from_checkpoint") {N : ℕ} {M : Int} (hN0 : 0 < N) (hM : (N : Int) < M)
    (hf : 0 < freqOption c.freq) (hdiv : ¬ freqOption c.freq ∣ (N : Int))
    (hgo : ∀ j : ℕ, (j : Int) < M → CP.shouldStop c.opts (CP.orbit E c.opts s0 j) = .ok false)
    {f : H5File} (hc : Checkpoints KruskalTensor.storeIn true f
      (schedule (freqOption c.freq) 0 N (fun j => (CP.orbit E c.opts s0 j).dec) ++
        finalCheckpoint (CP.method E c) 0 N N (CP.orbit E c.opts s0 N).dec))
    {p : CkPath} {budget : Int} {loggers : List Logger} {file : Option H5File}
    (hp : ∀ w : World CPState, w.file = file → p.resolve w = .file f)
    {L' : List (Int × KruskalTensor)} (hL' : ∀ q ∈ L', q.1 ≤ (N : Int))
    (hS : Storing (CP.method E c') (CP.newObject nonNeg none budget loggers file) L')
    (hfirst : 0 < freqOption c'.freq → ¬ freqOption c'.freq ∣ (N : Int) + 1) :
    ∃ w' s, CP.fit E c' s0.X (some M) (.path p) (CP.newObject nonNeg none budget loggers file) = .ok () w' ∧
      CP.iterate E c.opts M.toNat s0 = .ok s ∧ w'.st.dec = s.dec ∧ w'.it = M := by
  have hlast : (schedule (freqOption c.freq) 0 N (fun j => (CP.orbit E c.opts s0 j).dec) ++
      finalCheckpoint (CP.method E c) 0 N N (CP.orbit E c.opts s0 N).dec).getLast? =
      some ((N : Int), (CP.orbit E c.opts s0 N).dec) := by
    have : finalCheckpoint (CP.method E c) 0 N N (CP.orbit E c.opts s0 N).dec =
        [((N : Int), (CP.orbit E c.opts s0 N).dec)] := by
      rw [finalCheckpoint, finalNumber]
      have h1 : (CP.method E c).usesLoopVar = true := rfl
      have h2 : (CP.method E c).freq = freqOption c.freq := rfl
      rw [h1, h2, if_pos rfl, if_neg (lt_irrefl _), if_pos ⟨hf, hdiv⟩]
      simp
    rw [this, List.getLast?_append]
    simp
  have hsN := hs.orbit hE hN hr N
  have hX : (CP.orbit E c.opts s0 N).X = s0.X := (orbit_good hE hN hr hs.good N).2.X
  obtain ⟨w', h1, h2, h3, -⟩ := resume_run hE hN (c := c') (by rw [ho]; exact hr) hlog hfreq' (ho ▸ hsN) hi hp hc
    hlast hM (fun j hj => by
      rw [ho, orbit_add]
      exact hgo (N + j) (by push_cast; omega)) hS hL' hfirst
  rw [hX] at h1
  refine ⟨w', _, h1, orbit_iterate hE hN hr M.toNat hs.good, ?_, h3⟩
  rw [h2, ho, orbit_add]
  congr 2
  omega

/-- C47 is false: a checkpoint stored inside the loop has number `n`, but holds the decomposition after `n + 1`
iterations. Resuming from it with budget `M` gives the decomposition after `M + 1` iterations. -/
theorem C47_extra_iteration {E : Ext} (hE : E.SVDOk) (hN : E.NNLSOk) {c : CP.Config} (hr : 0 < c.opts.rank)
    (hlog : c.Measurable) (hfreq : freqOption c.freq < 0) {nonNeg : Option (List Bool)} {s0 : CPState}
    (hs : Resumable c.opts nonNeg s0) (hi : c.init.toLower = "from_checkpoint") {n : ℕ} {M : Int} (hM : (n : Int) < M)
    (hgo : ∀ j : ℕ, (j : Int) < M + 1 → CP.shouldStop c.opts (CP.orbit E c.opts s0 j) = .ok false)
    {freq : Int} (hf : 0 < freq) (hdiv : freq ∣ (n : Int) + 1)
    {f : H5File} (hc : Checkpoints KruskalTensor.storeIn true f
      (schedule freq 0 (n + 1) (fun j => (CP.orbit E c.opts s0 j).dec)))
    {p : CkPath} {budget : Int} {loggers : List Logger} {file : Option H5File}
    (hp : ∀ w : World CPState, w.file = file → p.resolve w = .file f) :
    ∃ w' s, CP.fit E c s0.X (some M) (.path p) (CP.newObject nonNeg none budget loggers file) = .ok () w' ∧
      CP.iterate E c.opts (M.toNat + 1) s0 = .ok s ∧ w'.st.dec = s.dec ∧ w'.it = M := by
  have hlast := getLast?_schedule (freq := freq) (start := 0) (k := n)
    (c := fun j => (CP.orbit E c.opts s0 j).dec) hf (by simpa using hdiv)
  rw [zero_add] at hlast
  have hX : (CP.orbit E c.opts s0 (n + 1)).X = s0.X := (orbit_good hE hN hr hs.good (n + 1)).2.X
  obtain ⟨w', h1, h2, h3, -⟩ := resume_run hE hN (c := c) hr hlog hfreq.ne (hs.orbit hE hN hr (n + 1)) hi hp hc
    hlast hM (fun j hj => by
      rw [orbit_add]
      exact hgo (n + 1 + j) (by push_cast; omega)) (L' := [])
    ⟨fun h => by have : 0 < freqOption c.freq := h; omega, fun h => by have : 0 < freqOption c.freq := h; omega,
      fun h => by have : 0 < freqOption c.freq := h; omega⟩ (by simp)
    (fun h => by omega)
  rw [hX] at h1
  refine ⟨w', _, h1, orbit_iterate hE hN hr (M.toNat + 1) hs.good, ?_, h3⟩
  rw [h2, orbit_add]
  congr 2
  omega

/-- C47 is false: resuming from a checkpoint that was stored inside the loop, with the same frequency and the same
file, raises in the first iteration because the name of its checkpoint is taken. -/
theorem C47_same_file_fails {E : Ext} (hE : E.SVDOk) (hN : E.NNLSOk) {c : CP.Config} (hr : 0 < c.opts.rank)
    (hlog : c.Measurable) {nonNeg : Option (List Bool)} {s : CPState} (hs : Resumable c.opts nonNeg s)
    (hi : c.init.toLower = "from_checkpoint") {n M : Int} (hM : n < M) (hf : 0 < freqOption c.freq)
    (hdiv : freqOption c.freq ∣ n + 1) (hgo : CP.shouldStop c.opts s = .ok false) {f : H5File}
    {L : List (Int × KruskalTensor)} (hc : Checkpoints KruskalTensor.storeIn true f L)
    (hlast : L.getLast? = some (n, s.dec)) {budget : Int} {loggers : List Logger}
    (hS : Storing (CP.method E c) (CP.newObject nonNeg none budget loggers (some f)) L) :
    raised (CP.fit E c s.X (some M) (.path .own) (CP.newObject nonNeg none budget loggers (some f))) =
      some .nameExists := by
  rw [resume_start hs hi (f := f) (fun w hw => by rw [CkPath.resolve, hw]) hc hlast (some M)]
  obtain ⟨s1, e1, h1, -⟩ := iteration_total hE hN hr (good_withLast hs.good)
  refine (first_iteration_collides (CP.method E c) (L := L)
    (w := ⟨s.withLast none none .pinf, n, (some M).getD budget, loggers, some f⟩) (s0 := s.withLast none none .pinf) (s1 := s1)
    rfl (shouldStop_withLast hs.good hgo) e1 (fun p hp => hlog p hp _ h1) hM hf hdiv
    ⟨hS.path, hS.cks, hS.logs⟩ ?_).1
  exact List.mem_map.2 ⟨_, List.mem_of_getLast? hlast, rfl⟩


/-! ### a concrete run in which the additional iteration matters -/

/-- With tolerances that are not positive a run never stops early. -/
theorem never_stops {o : CPOpts} (h1 : o.convergenceTol ≤ 0) (h2 : o.relLossTol ≤ 0) {s : CPState} (h : s.Good o) :
    CP.shouldStop o s = .ok false := by
  rw [CP.shouldStop, C35_sse h.sized h.cached, bind_ok]
  have he : 0 ≤ s.trueSSE o.rank := sumIdx_nonneg fun _ _ => sq_nonneg _
  have a1 : s.relChange.absLt o.convergenceTol = false := by
    cases s.relChange with
    | fin x => exact decide_eq_false (not_lt.2 (h1.trans (abs_nonneg x)))
    | pinf => rfl
    | ninf => rfl
    | nan => rfl
  have a2 : (FV.div (s.trueSSE o.rank) (s.XNorm ^ 2)).lt o.relLossTol = false := by
    unfold FV.div
    split
    · exact decide_eq_false (not_lt.2 (h2.trans (div_nonneg he (sq_nonneg _))))
    · split
      · rfl
      · rw [if_neg (not_lt.2 he)]; rfl
  rw [a1, a2]; rfl

/-- The squared error of a rank-one model of a `2 × 2` matrix. -/
def err22 (X A B : NDArray ℝ) : ℝ :=
  (X.get [0, 0] - A.get [0, 0] * B.get [0, 0]) ^ 2 + (X.get [0, 1] - A.get [0, 0] * B.get [1, 0]) ^ 2 +
  (X.get [1, 0] - A.get [1, 0] * B.get [0, 0]) ^ 2 + (X.get [1, 1] - A.get [1, 0] * B.get [1, 0]) ^ 2

theorem sqErr22 {X A B : NDArray ℝ} {w : ℕ → ℝ} (hX : X.shape = [2, 2]) (hw : w 0 = 1) :
    sqErr X w [A, B] 1 = err22 X A B := by
  simp only [sqErr, hX, sumIdx, cpEntry, rankOne, Finset.sum_range_succ, Finset.sum_range_zero, hw, err22]
  ring

/-- One iteration for a `2 × 2` matrix with one component. -/
theorem iteration22 {E : Ext} (hE : E.SVDOk) {o : CPOpts} (ho : o.rank = 1) (hr : o.ridgePenalties = none)
    {s : CPState} (h : s.Good o) (hX : s.X.shape = [2, 2]) (hw : s.dec.weights.get [0] = 1) (hU : s.Unconstrained)
    {A B : NDArray ℝ} (hf : s.dec.factorMatrices = [A, B]) :
    ∃ s' F G, CP.iteration E o s = .ok s' ∧ s'.dec.factorMatrices = [F, G] ∧
      (∀ Y : NDArray ℝ, Y.shape = [2, 1] → err22 s.X F B ≤ err22 s.X Y B) ∧
      (∀ Y : NDArray ℝ, Y.shape = [2, 1] → err22 s.X F G ≤ err22 s.X F Y) := by
  obtain ⟨l1, a1, b1⟩ := hU.nonNeg
  obtain ⟨l2, a2, b2⟩ := hU.orth
  rw [hX] at b1 b2
  have hw' : ∀ r < o.rank, s.dec.weights.get [r] = 1 := by
    intro r hr'
    obtain rfl : r = 0 := by omega
    exact hw
  obtain ⟨F, hF, e1, opt1⟩ := C34_update_core hE h.sized (m := 0) (by rw [hX]; decide) hw'
    ⟨⟨l1, a1, b1 0 (by simp)⟩, ⟨l2, a2, b2 0 (by simp)⟩, Or.inl ⟨hr, rfl⟩⟩
  set s1 := s.updated 0 o.rank F with hs1
  have hS1 := h.sized.updated hF
  have hC1 : s1.Cached o.rank := h.cached.updated (by rw [hX]; decide)
  obtain ⟨G, hG, e2, opt2⟩ := C34_update_core hE hS1 (m := 1) (by show 1 < s.X.shape.length; rw [hX]; decide) hw'
    ⟨⟨l1, a1, b1 1 (by simp)⟩, ⟨l2, a2, b2 1 (by simp)⟩, Or.inl ⟨hr, rfl⟩⟩
  have hS2 := hS1.updated hG
  have hC2 : (s1.updated 1 o.rank G).Cached o.rank := hC1.updated (by show 1 < s.X.shape.length; rw [hX]; decide)
  refine ⟨(s1.updated 1 o.rank G).withSSE ((s1.updated 1 o.rank G).trueSSE o.rank), F, G, ?_, ?_, ?_, ?_⟩
  · rw [CP.iteration, CP.updateFactors, hX]
    have : CP.updateModes E o (List.range [2, 2].length) s = .ok (s1.updated 1 o.rank G) := by
      show CP.updateModes E o [0, 1] s = _
      rw [CP.updateModes, List.foldlM_cons, e1, bind_ok, List.foldlM_cons, e2, bind_ok]; rfl
    rw [this, bind_ok, CP.updateConvergence, C35_sse hS2 hC2, bind_ok]; rfl
  · simp [CPState.withSSE, CPState.updated, hs1, hf]
  · intro Y hY
    have := opt1 Y (by rw [hX, ho, hY]; rfl)
    simp only [hs1, CPState.trueSSE, CPState.updated, hf, List.set_cons_zero, ho] at this
    rwa [sqErr22 (w := fun r => s.dec.weights.get [r]) hX hw,
      sqErr22 (w := fun r => s.dec.weights.get [r]) hX hw] at this
  · intro Y hY
    have := opt2 Y (by show Y.shape = [s.X.shape.getD 1 0, o.rank]; rw [hX, ho, hY]; rfl)
    simp only [CPState.trueSSE, CPState.updated, hs1, hf, List.set_cons_zero, List.set_cons_succ, ho] at this
    rwa [sqErr22 (w := fun r => s.dec.weights.get [r]) hX hw,
      sqErr22 (w := fun r => s.dec.weights.get [r]) hX hw] at this

/-- Two iterations from factors `(1, 1)`, `(1, 1)` for the matrix `diag(2, 1)` do not end where one ends. -/
theorem two_iterations_differ {E : Ext} (hE : E.SVDOk) (hN : E.NNLSOk) {o : CPOpts} (ho : o.rank = 1)
    (hr : o.ridgePenalties = none) {s : CPState} (h : s.Good o) (hX : s.X.shape = [2, 2])
    (hw : s.dec.weights.get [0] = 1) (hU : s.Unconstrained) {A B : NDArray ℝ} (hf : s.dec.factorMatrices = [A, B])
    (x00 : s.X.get [0, 0] = 2) (x01 : s.X.get [0, 1] = 0) (x10 : s.X.get [1, 0] = 0) (x11 : s.X.get [1, 1] = 1)
    (hB0 : B.get [0, 0] = 1) (hB1 : B.get [1, 0] = 1) :
    (CP.orbit E o s 2).dec ≠ (CP.orbit E o s 1).dec := by
  have hget0 : ∀ x y : ℝ, (ofMat 2 1 fun i _ => if i = 0 then x else y).get [0, 0] = x := fun x y => by
    rw [get_ofMat (by omega) (by omega)]; rfl
  have hget1 : ∀ x y : ℝ, (ofMat 2 1 fun i _ => if i = 0 then x else y).get [1, 0] = y := fun x y => by
    rw [get_ofMat (by omega) (by omega)]; rfl
  obtain ⟨s1, F, G, e1, f1, opt1, opt2⟩ := iteration22 hE ho hr h hX hw hU hf
  have hs1 : CP.orbit E o s 1 = s1 := by
    have := orbit_step hE hN (by omega) h 0
    rw [show CP.orbit E o s 0 = s from rfl, e1] at this
    exact (Except.ok.inj this).symm
  obtain ⟨g1, p1⟩ := orbit_good hE hN (by omega) h 1
  rw [hs1] at g1 p1
  have hU1 : s1.Unconstrained := by
    obtain ⟨l1, a1, b1⟩ := hU.nonNeg
    obtain ⟨l2, a2, b2⟩ := hU.orth
    exact ⟨⟨l1, by rw [p1.nonNeg]; exact a1, by rw [p1.X]; exact b1⟩,
      ⟨l2, by rw [p1.orth]; exact a2, by rw [p1.X]; exact b2⟩⟩
  obtain ⟨s2, F', G', e2, f2, opt3, -⟩ := iteration22 hE ho hr g1 (by rw [p1.X]; exact hX)
    (by rw [p1.weights]; exact hw) hU1 f1
  have hs2 : CP.orbit E o s 2 = s2 := by
    have := orbit_step hE hN (by omega) h 1
    rw [hs1, e2] at this
    exact (Except.ok.inj this).symm
  intro heq
  rw [hs1, hs2] at heq
  have hF' : F' = F := by
    have := congrArg KruskalTensor.factorMatrices heq
    rw [f1, f2] at this
    injection this
  subst hF'
  have h1 := opt1 (ofMat 2 1 fun i _ => if i = 0 then 1 else 1 / 2) rfl
  have h2 := opt2 (ofMat 2 1 fun i _ => if i = 0 then 8 / 5 else 2 / 5) rfl
  have h3 := opt3 (ofMat 2 1 fun i _ => if i = 0 then 20 / 17 else 1 / 2) rfl
  rw [p1.X] at h3
  simp only [err22, x00, x01, x10, x11, hB0, hB1, hget0, hget1] at h1 h2 h3
  generalize F'.get [0, 0] = a at h1 h2 h3
  generalize F'.get [1, 0] = b at h1 h2 h3
  generalize G.get [0, 0] = c at h2 h3
  generalize G.get [1, 0] = d at h2 h3
  have ha : a = 1 ∧ b = 1 / 2 := by
    have : 2 * (a - 1) ^ 2 + 2 * (b - 1 / 2) ^ 2 ≤ 0 := by nlinarith
    constructor
    · have : (a - 1) ^ 2 = 0 := le_antisymm (by nlinarith [sq_nonneg (b - 1 / 2)]) (sq_nonneg _)
      linarith [pow_eq_zero_iff (two_ne_zero) |>.1 this]
    · have : (b - 1 / 2) ^ 2 = 0 := le_antisymm (by nlinarith [sq_nonneg (a - 1)]) (sq_nonneg _)
      linarith [pow_eq_zero_iff (two_ne_zero) |>.1 this]
  obtain ⟨rfl, rfl⟩ := ha
  have hc : c = 8 / 5 ∧ d = 2 / 5 := by
    have : 5 / 4 * (c - 8 / 5) ^ 2 + 5 / 4 * (d - 2 / 5) ^ 2 ≤ 0 := by nlinarith
    constructor
    · have : (c - 8 / 5) ^ 2 = 0 := le_antisymm (by nlinarith [sq_nonneg (d - 2 / 5)]) (sq_nonneg _)
      linarith [pow_eq_zero_iff (two_ne_zero) |>.1 this]
    · have : (d - 2 / 5) ^ 2 = 0 := le_antisymm (by nlinarith [sq_nonneg (c - 8 / 5)]) (sq_nonneg _)
      linarith [pow_eq_zero_iff (two_ne_zero) |>.1 this]
  obtain ⟨rfl, rfl⟩ := hc
  norm_num at h3

/-- The matrix `diag(2, 1)`. -/
def diag21 : NDArray ℝ := ofMat 2 2 fun i j => if i = j then (if i = 0 then 2 else 1) else 0

/-- The decomposition with factors `(1, 1)` and `(1, 1)`. -/
def onesKT : KruskalTensor := ⟨1, [ofMat 2 1 fun _ _ => 1, ofMat 2 1 fun _ _ => 1], full [1] 1⟩

/-- A configuration without tolerances and loggers. -/
def plainConfig (init : String) (freq : Option Int) : CP.Config :=
  ⟨⟨1, 0, 0, none⟩, init, freq, true, [], fun _ _ _ _ => 0, id, fun _ => none⟩

theorem checkpoints_empty {τ : Type} (st : τ → Group → Py Group) (b : Bool) :
    Checkpoints st b H5File.empty ([] : List (Int × τ)) :=
  ⟨by simp, by simp, by intro k hk; simp [H5File.empty, Dict.has] at hk, rfl, by simp; rfl, rfl, by simp [H5File.empty]⟩

theorem file_of_checkpoints {τ : Type} {st : τ → Group → Py Group} {b : Bool} {file : Option H5File}
    {L : List (Int × τ)} {e : Int × τ} (h : CheckpointsAt st b file L) (he : e ∈ L) : ∃ f, file = some f := by
  cases file with
  | some f => exact ⟨f, rfl⟩
  | none =>
    obtain ⟨g, -, hg⟩ := h.group e he
    have : (H5File.empty.groups.find ("checkpoint_".toList ++ fmtInt 5 e.1)) = none := rfl
    rw [Option.getD_none, this] at hg
    cases hg

/-- C47 is false of the code: a fit of `diag(2, 1)` with `max_its=1` that stores a checkpoint in every iteration,
and a fit resumed from that file with `max_its=1`, end with different decompositions. -/
theorem C47_fails {E : Ext} (hE : E.SVDOk) (hN : E.NNLSOk) (hQ : E.QROk) :
    ∃ w1 f w2, CP.fit E (plainConfig "precomputed" (some 1)) diag21 (some 1) (.tensor onesKT)
        (CP.newObject none none 1 [] none) = .ok () w1 ∧ w1.file = some f ∧
      CP.fit E (plainConfig "from_checkpoint" none) diag21 (some 1) (.path (.other (.file f)))
        (CP.newObject none none 1 [] none) = .ok () w2 ∧ w2.st.dec ≠ w1.st.dec := by
  have hA : CP.Admissible ⟨1, 0, 0, none⟩ none none diag21.shape :=
    ⟨by decide, by simp [diag21], by simp [diag21], by simp, by simp, by simp, by simp, by simp⟩
  have ht : onesKT.WF diag21.shape 1 := ⟨rfl, by simp [Factors, onesKT, diag21], rfl⟩
  have hi1 : (plainConfig "precomputed" (some 1)).init.toLower = "precomputed" := by
    show "precomputed".toLower = _
    rw [String.toLower, ← String.toList_inj, String.toList_map]; decide
  have hi2 : (plainConfig "from_checkpoint" none).init.toLower = "from_checkpoint" := by
    show "from_checkpoint".toLower = _
    rw [String.toLower, ← String.toList_inj, String.toList_map]; decide
  obtain ⟨s0, w1, k, e0, h1, h2, h3, h4, -, h6, -, -, -, -, h10⟩ := C74_fit_completes hE hN hQ
    (c := plainConfig "precomputed" (some 1)) (mi := some 1) (budget := 1) (loggers := []) (file := none) hA
    (by intro p hp; simp [plainConfig] at hp) (by decide) (startsFrom_precomputed hi1 ht) ht (by decide)
    ⟨fun _ => rfl, fun _ => checkpoints_empty _ _, fun _ n hn => by simp [CP.method, plainConfig] at hn⟩
  obtain ⟨s0', e0', hG, hX, -, -, hw, hnn, hon, hdec⟩ := initFit_good (E := E) hQ (old := CP.fresh none none)
    (o := ⟨1, 0, 0, none⟩) rfl hA ht
  rw [e0] at e0'
  obtain rfl : s0 = s0' := by injection e0'
  have hgo : ∀ j, CP.shouldStop ⟨1, 0, 0, none⟩ (CP.orbit E ⟨1, 0, 0, none⟩ s0 j) = .ok false := fun j =>
    never_stops le_rfl le_rfl (orbit_good hE hN (by decide) hG j).1
  have hiter : ∀ j, CP.iterate E ⟨1, 0, 0, none⟩ j s0 = .ok (CP.orbit E ⟨1, 0, 0, none⟩ s0 j) := fun j =>
    orbit_iterate hE hN (by decide) j hG
  have hst : w1.st = CP.orbit E ⟨1, 0, 0, none⟩ s0 k := by
    have : CP.iterate E ⟨1, 0, 0, none⟩ k s0 = .ok w1.st := h4
    rw [hiter] at this
    exact (Except.ok.inj this).symm
  have hk : k = 1 := by
    by_contra hne
    have h2' : (k : Int) ≤ 1 := h2
    have := h6 (by show (k : Int) < 1; omega)
    rw [hst] at this
    have hgo' := hgo k
    rw [show (plainConfig "precomputed" (some 1)).opts = ⟨1, 0, 0, none⟩ from rfl] at this
    rw [hgo'] at this
    cases this
  subst hk
  have hL : schedule (freqOption (some 1)) 0 1 (fun j => (CP.orbit E ⟨1, 0, 0, none⟩ s0 j).dec) ++
      finalCheckpoint (CP.method E (plainConfig "precomputed" (some 1))) 0 1 1
        (CP.orbit E ⟨1, 0, 0, none⟩ s0 1).dec =
      schedule (freqOption (some 1)) 0 (0 + 1) (fun j => (CP.orbit E ⟨1, 0, 0, none⟩ s0 j).dec) := by
    have : finalCheckpoint (CP.method E (plainConfig "precomputed" (some 1))) 0 1 1
        (CP.orbit E ⟨1, 0, 0, none⟩ s0 1).dec = [] := by
      rw [finalCheckpoint]
      exact if_neg fun h => h.2 (one_dvd _)
    rw [this, List.append_nil]
  have hck := h10.cks (by show (0 : Int) < 1; decide)
  have hck' : CheckpointsAt KruskalTensor.storeIn true w1.file
    (schedule (freqOption (some 1)) 0 (0 + 1) (fun j => (CP.orbit E ⟨1, 0, 0, none⟩ s0 j).dec)) := hL ▸ hck
  obtain ⟨f, hf⟩ := file_of_checkpoints hck' (e := (0, (CP.orbit E ⟨1, 0, 0, none⟩ s0 1).dec))
    (mem_schedule.2 ⟨0, by simp, by decide, by decide, by simp⟩)
  rw [hf] at hck'
  have hRes : Resumable (plainConfig "from_checkpoint" none).opts none s0 :=
    ⟨hG, hw, by rw [hnn, hX]; rfl, by rw [hon, hX]; rfl⟩
  obtain ⟨w2, s, r1, r2, r3, -⟩ := C47_extra_iteration hE hN (c := plainConfig "from_checkpoint" none) (by decide)
    (by intro p hp; simp [plainConfig] at hp) (by decide) (nonNeg := none) hRes hi2 (n := 0) (M := 1) (by decide)
    (fun j _ => hgo j) (freq := 1) (by decide) (by decide) (f := f) hck' (p := .other (.file f)) (budget := 1)
    (loggers := []) (file := none) (fun w _ => rfl)
  rw [hX] at r1
  refine ⟨w1, f, w2, h1, hf, r1, ?_⟩
  have : CP.iterate E ⟨1, 0, 0, none⟩ 2 s0 = .ok s := r2
  rw [hiter] at this
  rw [r3, ← Except.ok.inj this, hst]
  have hx : ∀ i < 2, ∀ j < 2, s0.X.get [i, j] = if i = j then (if i = 0 then 2 else 1) else 0 := by
    intro i hi j hj
    rw [hX, diag21, get_ofMat hi hj]
  refine two_iterations_differ hE hN rfl rfl hG (by rw [hX]; rfl) (hw 0 (by decide)) ?_ (hdec rfl)
    (hx 0 (by omega) 0 (by omega)) (hx 0 (by omega) 1 (by omega)) (hx 1 (by omega) 0 (by omega))
    (hx 1 (by omega) 1 (by omega)) ?_ ?_
  · show s0.Unconstrained
    have hrep : ∀ m < s0.X.shape.length, ([false, false] : List Bool)[m]? = some false := by
      intro m hm
      rw [hX] at hm
      have : m < 2 := hm
      interval_cases m <;> rfl
    exact ⟨⟨[false, false], hnn, hrep⟩, ⟨[false, false], hon, hrep⟩⟩
  · rw [get_ofMat (by omega) (by omega)]
  · rw [get_ofMat (by omega) (by omega)]

/-! ### the hypotheses of C47 for fits of `diag(2, 1)` -/

theorem diag21_fit {E : Ext} (hE : E.SVDOk) (hN : E.NNLSOk) (hQ : E.QROk) {fr : Int} (hf : 0 < fr) {N : ℕ}
    (hN0 : 0 < N) :
    ∃ s0 w1, Resumable ⟨1, 0, 0, none⟩ none s0 ∧ s0.X = diag21 ∧
      (∀ j, CP.shouldStop ⟨1, 0, 0, none⟩ (CP.orbit E ⟨1, 0, 0, none⟩ s0 j) = .ok false) ∧
      CP.fit E (plainConfig "precomputed" (some fr)) diag21 (some N) (.tensor onesKT)
        (CP.newObject none none 1 [] none) = .ok () w1 ∧ w1.st = CP.orbit E ⟨1, 0, 0, none⟩ s0 N ∧
      Storing (CP.method E (plainConfig "precomputed" (some fr))) w1
        (schedule fr 0 N (fun j => (CP.orbit E ⟨1, 0, 0, none⟩ s0 j).dec) ++
          finalCheckpoint (CP.method E (plainConfig "precomputed" (some fr))) 0 N N
            (CP.orbit E ⟨1, 0, 0, none⟩ s0 N).dec) := by
  have hA : CP.Admissible ⟨1, 0, 0, none⟩ none none diag21.shape :=
    ⟨by decide, by simp [diag21], by simp [diag21], by simp, by simp, by simp, by simp, by simp⟩
  have ht : onesKT.WF diag21.shape 1 := ⟨rfl, by simp [Factors, onesKT, diag21], rfl⟩
  have hi1 : (plainConfig "precomputed" (some fr)).init.toLower = "precomputed" := by
    show "precomputed".toLower = _
    rw [String.toLower, ← String.toList_inj, String.toList_map]; decide
  obtain ⟨s0, w1, k, e0, h1, h2, h3, h4, -, h6, -, -, -, -, h10⟩ := C74_fit_completes hE hN hQ
    (c := plainConfig "precomputed" (some fr)) (mi := some (N : Int)) (budget := 1) (loggers := []) (file := none) hA
    (by intro p hp; simp [plainConfig] at hp) hf.ne' (startsFrom_precomputed hi1 ht) ht
    (show (0 : Int) < N by omega)
    ⟨fun _ => rfl, fun _ => checkpoints_empty _ _, fun _ n hn => by simp [CP.method, plainConfig] at hn⟩
  obtain ⟨s0', e0', hG, hX, -, -, hw, hnn, hon, hdec⟩ := initFit_good (E := E) hQ (old := CP.fresh none none)
    (o := ⟨1, 0, 0, none⟩) rfl hA ht
  rw [e0] at e0'
  obtain rfl : s0 = s0' := by injection e0'
  have hgo : ∀ j, CP.shouldStop ⟨1, 0, 0, none⟩ (CP.orbit E ⟨1, 0, 0, none⟩ s0 j) = .ok false := fun j =>
    never_stops le_rfl le_rfl (orbit_good hE hN (by decide) hG j).1
  have hst : w1.st = CP.orbit E ⟨1, 0, 0, none⟩ s0 k := by
    have : CP.iterate E ⟨1, 0, 0, none⟩ k s0 = .ok w1.st := h4
    rw [orbit_iterate hE hN (by decide) k hG] at this
    exact (Except.ok.inj this).symm
  have hk : k = N := by
    by_contra hne
    have h2' : (k : Int) ≤ N := h2
    have := h6 (by show (k : Int) < N; omega)
    rw [hst] at this
    have hgo' := hgo k
    rw [show (plainConfig "precomputed" (some fr)).opts = ⟨1, 0, 0, none⟩ from rfl] at this
    rw [hgo'] at this
    cases this
  subst hk
  exact ⟨s0, w1, ⟨hG, hw, by rw [hnn, hX]; rfl, by rw [hon, hX]; rfl⟩, hX, hgo, h1, hst, h10⟩

/-- `C47_partial`: a fit with `max_its=3` that stores every second iteration, resumed with `max_its=7`, ends where
the iterations of the first fit end after 7 of them. -/
example {E : Ext} (hE : E.SVDOk) (hN : E.NNLSOk) (hQ : E.QROk) :
    ∃ s0 w1 f w2, CP.fit E (plainConfig "precomputed" (some 2)) diag21 (some 3) (.tensor onesKT)
        (CP.newObject none none 1 [] none) = .ok () w1 ∧ w1.file = some f ∧
      w1.st = CP.orbit E ⟨1, 0, 0, none⟩ s0 3 ∧
      CP.fit E (plainConfig "from_checkpoint" none) diag21 (some 7) (.path (.other (.file f)))
        (CP.newObject none none 1 [] none) = .ok () w2 ∧ w2.it = 7 ∧
      w2.st.dec = (CP.orbit E ⟨1, 0, 0, none⟩ s0 7).dec := by
  have hi2 : (plainConfig "from_checkpoint" none).init.toLower = "from_checkpoint" := by
    show "from_checkpoint".toLower = _
    rw [String.toLower, ← String.toList_inj, String.toList_map]; decide
  obtain ⟨s0, w1, hR, hX, hgo, h1, h2, h3⟩ := diag21_fit hE hN hQ (fr := 2) (by decide) (N := 3) (by decide)
  have hck := h3.cks (show (0 : Int) < 2 by decide)
  obtain ⟨f, hf⟩ := file_of_checkpoints hck (e := (1, (CP.orbit E ⟨1, 0, 0, none⟩ s0 2).dec))
    (List.mem_append_left _ (mem_schedule.2 ⟨1, by decide, by decide, by decide, by simp⟩))
  rw [hf] at hck
  obtain ⟨w2, s, r1, r2, r3, r4⟩ := C47_partial hE hN (c := plainConfig "precomputed" (some 2))
    (c' := plainConfig "from_checkpoint" none) (by decide) rfl (by intro p hp; simp [plainConfig] at hp) (by decide)
    hR hi2 (N := 3) (M := 7) (by decide) (by decide) (by decide) (show ¬ (2 : Int) ∣ 3 by decide)
    (fun j _ => hgo j) (f := f) hck (p := .other (.file f)) (budget := 1) (loggers := []) (file := none)
    (fun _ _ => rfl) (L' := []) (by simp)
    ⟨fun h => absurd h (show ¬ (0 : Int) < -1 by decide), fun h => absurd h (show ¬ (0 : Int) < -1 by decide),
      fun h => absurd h (show ¬ (0 : Int) < -1 by decide)⟩ (by decide)
  rw [hX] at r1
  have r2' : CP.iterate E ⟨1, 0, 0, none⟩ 7 s0 = .ok s := r2
  rw [orbit_iterate hE hN (by decide) 7 hR.good] at r2'
  exact ⟨s0, w1, f, w2, h1, hf, h2, r1, r4, by rw [r3, ← Except.ok.inj r2']⟩

/-- `C47_same_file_fails`: every second iteration is stored, `max_its=4`, and the fit is resumed with the same
options and the same file. (`C47_fails` is a case of `C47_extra_iteration`.) -/
example {E : Ext} (hE : E.SVDOk) (hN : E.NNLSOk) (hQ : E.QROk) :
    ∃ w1 f, CP.fit E (plainConfig "precomputed" (some 2)) diag21 (some 4) (.tensor onesKT)
        (CP.newObject none none 1 [] none) = .ok () w1 ∧ w1.file = some f ∧
      raised (CP.fit E (plainConfig "from_checkpoint" (some 2)) diag21 (some 7) (.path .own)
        (CP.newObject none none 1 [] (some f))) = some .nameExists := by
  have hi2 : (plainConfig "from_checkpoint" (some 2)).init.toLower = "from_checkpoint" := by
    show "from_checkpoint".toLower = _
    rw [String.toLower, ← String.toList_inj, String.toList_map]; decide
  obtain ⟨s0, w1, hR, hX, hgo, h1, h2, h3⟩ := diag21_fit hE hN hQ (fr := 2) (by decide) (N := 4) (by decide)
  have hck := h3.cks (show (0 : Int) < 2 by decide)
  have hL : (schedule 2 0 4 (fun j => (CP.orbit E ⟨1, 0, 0, none⟩ s0 j).dec) ++
          finalCheckpoint (CP.method E (plainConfig "precomputed" (some 2))) 0 4 4
            (CP.orbit E ⟨1, 0, 0, none⟩ s0 4).dec) =
      [(1, (CP.orbit E ⟨1, 0, 0, none⟩ s0 2).dec), (3, (CP.orbit E ⟨1, 0, 0, none⟩ s0 4).dec)] := by
    have h1 : ∀ g : ℕ → KruskalTensor, schedule 2 0 4 g = [(1, g 2), (3, g 4)] := fun g => rfl
    have h2 : finalCheckpoint (CP.method E (plainConfig "precomputed" (some 2))) 0 4 4
        (CP.orbit E ⟨1, 0, 0, none⟩ s0 4).dec = [] :=
      if_neg fun h => h.2 (show (2 : Int) ∣ 4 by decide)
    rw [h1, h2, List.append_nil]
  have hck' : CheckpointsAt KruskalTensor.storeIn true w1.file
      [(1, (CP.orbit E ⟨1, 0, 0, none⟩ s0 2).dec), (3, (CP.orbit E ⟨1, 0, 0, none⟩ s0 4).dec)] := hL ▸ hck
  obtain ⟨f, hf⟩ := file_of_checkpoints hck' (e := (1, (CP.orbit E ⟨1, 0, 0, none⟩ s0 2).dec)) (by simp)
  rw [hf] at hck'
  have hX4 : (CP.orbit E ⟨1, 0, 0, none⟩ s0 4).X = diag21 := by
    rw [(orbit_good hE hN (by decide) hR.good 4).2.X, hX]
  have := C47_same_file_fails hE hN (c := plainConfig "from_checkpoint" (some 2)) (by decide)
    (by intro p hp; simp [plainConfig] at hp) (hR.orbit hE hN (by decide) 4) hi2 (n := 3) (M := 7) (by decide)
    (by decide) (show (2 : Int) ∣ 3 + 1 by decide) (hgo 4) (f := f) hck' rfl (budget := 1) (loggers := [])
    ⟨fun _ => rfl, fun _ => hck', fun _ n hn => by simp [CP.method, plainConfig] at hn⟩
  rw [hX4] at this
  exact ⟨w1, f, h1, hf, this⟩

end
end TK
