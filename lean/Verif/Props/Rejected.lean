import Verif.Props.Reload
import Verif.Props.CMTFFit
import Verif.Props.Parafac2Fit

/-!
# C111: fits that are rejected

Source: base_decomposer.py:127-164 (`_init_fit`, `fit`), 197-219 (`load_checkpoint`), cp.py:130-162, parafac2.py:133-149, cmtf.py:76-82,
287-309 (`init_components`).

`fit` replaces the data and resets `current_iteration` before it looks at the initial decomposition. So an object whose
`fit` raised, because the options or the initial decomposition were not accepted, has its old decomposition together with the new data.
-/

namespace TK
open NDArray
open EStateM (Result)
open Fit

noncomputable section

variable {σ τ α : Type}

/-- If the call raises, it has changed at most `current_iteration`. -/
def KeepsOnError (x : Fit σ α) : Prop := ∀ w e v, x w = .error e v → v = { w with it := v.it }

/-- The call changes at most `current_iteration`. -/
def OnlyIt (x : Fit σ α) : Prop :=
  KeepsOnError x ∧ ∀ w a v, x w = .ok a v → v = { w with it := v.it }

theorem keeps_bind {β : Type} {x : Fit σ α} {f : α → Fit σ β} (hx : OnlyIt x) (hf : ∀ a, KeepsOnError (f a)) :
    KeepsOnError (x >>= f) := by
  intro w e v h
  cases hxw : x w with
  | error e1 v1 =>
    rw [bind_of_error hxw] at h
    cases h
    exact hx.1 w e v hxw
  | ok a v1 =>
    rw [bind_of_ok hxw] at h
    have h1 := hf a v1 e v h
    rw [hx.2 w a v1 hxw] at h1
    exact h1

theorem onlyIt_lift (x : Py α) : OnlyIt (lift x : Fit σ α) := by
  cases x with
  | ok a => exact ⟨fun w e v h => (by cases h), fun w b v h => by cases h; rfl⟩
  | error e => exact ⟨fun w e v h => (by cases h; rfl), fun w b v h => by cases h⟩

theorem onlyIt_pure (a : α) : OnlyIt (pure a : Fit σ α) := ⟨fun w e v h => (by cases h), fun w b v h => by cases h; rfl⟩

theorem onlyIt_throw (e : PyErr) : OnlyIt (throw e : Fit σ α) := ⟨fun w e v h => (by cases h; rfl), fun w b v h => by cases h⟩

theorem onlyIt_get : OnlyIt (get : Fit σ (World σ)) := ⟨fun w e v h => (by cases h), fun w b v h => by cases h; rfl⟩

theorem onlyIt_modifyIt (n : Int) : OnlyIt (modify fun w => { w with it := n } : Fit σ PUnit) :=
  ⟨fun w e v h => (by cases h), fun w b v h => by cases h; rfl⟩

theorem keeps_set (w : World σ) : KeepsOnError (set w : Fit σ PUnit) := fun w e v h => by cases h

theorem keeps_modifySt (f : σ → Py σ) : KeepsOnError (modifySt f) :=
  keeps_bind onlyIt_get fun _ => keeps_bind (onlyIt_lift _) fun _ => keeps_set _

/-- C111 for `load_checkpoint`: if it raises, only `current_iteration` may have changed. -/
theorem C111_load_partial (m : Method σ τ) (p : FileArg) (n : Option Int) : KeepsOnError (loadCheckpoint m p n) := by
  unfold loadCheckpoint
  refine keeps_bind (onlyIt_lift _) fun f => ?_
  have tail : ∀ k : Int, KeepsOnError (do
      let g ← lift (f.groups.item (ckName k))
      let d ← lift (m.loadDec g)
      let w ← get
      lift (m.check d w.st)
      set { w with st := m.setDec d w.st } : Fit σ Unit) := fun k =>
    keeps_bind (onlyIt_lift _) fun g => keeps_bind (onlyIt_lift _) fun d => keeps_bind onlyIt_get fun w =>
      keeps_bind (onlyIt_lift _) fun _ => keeps_set _
  have body : ∀ k : Int, KeepsOnError (do
      modify fun w => { w with it := k }
      if !f.hasName (ckName k) then throw .valueError
      let g ← lift (f.groups.item (ckName k))
      let d ← lift (m.loadDec g)
      let w ← get
      lift (m.check d w.st)
      set { w with st := m.setDec d w.st } : Fit σ Unit) := fun k =>
    keeps_bind (onlyIt_modifyIt k) fun _ => by
      split
      · exact keeps_bind (onlyIt_throw _) fun _ => tail k
      · exact tail k
  cases n with
  | none =>
    simp only
    split
    · exact keeps_bind (onlyIt_throw _) fun _ => keeps_bind (onlyIt_lift _) body
    · exact keeps_bind (onlyIt_lift _) body
  | some k =>
    simp only
    split
    · exact keeps_bind (onlyIt_throw _) fun _ => keeps_bind (onlyIt_pure _) body
    · exact keeps_bind (onlyIt_pure _) body

/-- `init_components` of `CP_ALS`. -/
theorem cp_init_keeps (E : Ext) (c : CP.Config) (arg : InitArg KruskalTensor) : KeepsOnError (CP.initComponents E c arg) := by
  have main : KeepsOnError (do
      if c.init.toLower = "random" then
        Fit.modifySt fun s => do
          let t ← CP.initRandom c.draw c.opts.rank s.nonNeg s.X
          pure { s with dec := t }
      else if c.init.toLower = "svd" then
        Fit.modifySt fun s => do
          let t ← CP.initSvd c.U c.opts.rank s.X
          pure { s with dec := t }
      else if c.init.toLower = "from_checkpoint" then
        match arg with
        | .path p => do
          let w ← get
          Fit.loadCheckpoint (CP.method E c) (p.resolve w) none
        | _ => throw .typeError
      else if c.init.toLower = "precomputed" then
        match arg with
        | .tensor t => Fit.modifySt fun s => do
            CP.checkValid c.opts.rank s.X.shape t
            pure { s with dec := t }
        | _ => throw .attributeError
      else
        match c.isFile c.init with
        | some p => do
          let w ← get
          Fit.loadCheckpoint (CP.method E c) (p.resolve w) none
        | none => throw .valueError : Fit CPState Unit) := by
    split_ifs
    · exact keeps_modifySt _
    · exact keeps_modifySt _
    · split
      · exact keeps_bind onlyIt_get fun _ => C111_load_partial _ _ _
      · exact (onlyIt_throw _).1
    · split
      · exact keeps_modifySt _
      · exact (onlyIt_throw _).1
    · split
      · exact keeps_bind onlyIt_get fun _ => C111_load_partial _ _ _
      · exact (onlyIt_throw _).1
  unfold CP.initComponents
  simp only
  split
  · exact keeps_bind (onlyIt_throw _) fun _ => main
  · exact main

/-- `init_components` of `Parafac2_ALS`. -/
theorem p2_init_keeps (E : Ext) (c : P2.Config) (arg : InitArg P2Obj) : KeepsOnError (P2.initComponents E c arg) := by
  unfold P2.initComponents
  simp only
  split_ifs
  · exact keeps_modifySt _
  · exact keeps_modifySt _
  · exact keeps_modifySt _
  · split
    · exact keeps_bind onlyIt_get fun _ => C111_load_partial _ _ _
    · exact (onlyIt_throw _).1
  · split
    · exact keeps_modifySt _
    · exact (onlyIt_throw _).1
  · split
    · exact keeps_bind onlyIt_get fun _ => C111_load_partial _ _ _
    · exact (onlyIt_throw _).1

theorem cmtf_zoom_keeps {x : Fit CPState Unit} (hx : KeepsOnError x) : KeepsOnError (CMTF.zoom x) := by
  intro w e v h
  unfold CMTF.zoom at h
  cases hxw : x ⟨w.st.cp, w.it, w.maxIts, w.loggers, w.file⟩ with
  | ok a u => rw [hxw] at h; cases h
  | error e1 u =>
    rw [hxw] at h
    cases h
    have := hx _ _ _ hxw
    rw [this]


/-! ## `fit` -/

/-- A `fit` whose `init_components` raises raises the same exception, with the object in the same state. -/
theorem fit_init_error {m : Method σ τ} {setTarget : σ → Py σ} {init : Fit σ Unit} {mi : Option Int} {w v : World σ} {s : σ}
    {e : PyErr} (hs : setTarget w.st = .ok s) (h : init { w with it := 0, st := s } = .error e v) :
    Fit.fit m setTarget init mi w = .error e v := by
  unfold Fit.fit
  refine bind_of_error ?_
  unfold Fit.initFit
  rw [bind_of_ok (modify_def _ _), bind_of_ok (modifySt_ok (w := { w with it := 0 }) hs)]
  exact bind_of_error h

/-- **C111, what holds, for `CP_ALS`.** A `fit` that is rejected by `init_components` keeps the decomposition, the
constraints, what is remembered for the SSE, `max_its`, the loggers and the checkpoint file. Missing: the data tensor and
`current_iteration`, which have been replaced (`C111_cp_fails`). -/
theorem C111_cp_partial {E : Ext} {c : CP.Config} {X : NDArray ℝ} {mi : Option Int} {arg : InitArg KruskalTensor}
    {w v : World CPState} {e : PyErr}
    (h : CP.initComponents E c arg { w with it := 0, st := { w.st with X := X, XNorm := frobNorm X } } = .error e v) :
    CP.fit E c X mi arg w = .error e { w with it := v.it, st := { w.st with X := X, XNorm := frobNorm X } } := by
  have h1 := cp_init_keeps E c arg _ _ _ h
  rw [CP.fit, fit_init_error (s := { w.st with X := X, XNorm := frobNorm X }) rfl h, h1]

/-- An initial decomposition with matrices of other sizes is rejected in this way. -/
theorem C111_cp_sizes {E : Ext} {c : CP.Config} (hi : c.init.toLower = "precomputed") {X : NDArray ℝ} (mi : Option Int)
    {t : KruskalTensor} (hn : t.factorMatrices.length = X.shape.length)
    (ht : ¬ Factors t.factorMatrices X.shape c.opts.rank) (w : World CPState) :
    CP.fit E c X mi (.tensor t) w =
      .error .valueError { w with it := 0, st := { w.st with X := X, XNorm := frobNorm X } } := by
  have hchk := (C62_check_partial (rank := c.opts.rank) hn).2 ht
  have : CP.initComponents E c (.tensor t) { w with it := 0, st := { w.st with X := X, XNorm := frobNorm X } } =
      .error .valueError { w with it := 0, st := { w.st with X := X, XNorm := frobNorm X } } := by
    unfold CP.initComponents
    simp only [hi]
    simp only [List.contains_cons, BEq.rfl, Bool.true_or, Bool.not_true, Bool.and_false, Bool.false_eq_true, if_false,
      if_true, show ("precomputed" = "random") = False from by decide, show ("precomputed" = "svd") = False from by decide,
      show ("precomputed" = "from_checkpoint") = False from by decide]
    refine modifySt_error ?_
    show (CP.checkValid c.opts.rank X.shape t >>= _) = _
    rw [hchk]
    rfl
  exact C111_cp_partial this

/-- **C111, what holds, for `Parafac2_ALS`.** -/
theorem C111_parafac2_partial {E : Ext} {c : P2.Config} {D : P2Data} {mi : Option Int} {arg : InitArg P2Obj}
    {w v : World P2State} {s : P2State} {e : PyErr} (hs : P2.setTarget D w.st = .ok s)
    (h : P2.initComponents E c arg { w with it := 0, st := s } = .error e v) :
    P2.fit E c D mi arg w = .error e { w with it := v.it, st := s } ∧
      s.dec = w.st.dec ∧ s.heap = w.st.heap := by
  have h1 := p2_init_keeps E c arg _ _ _ h
  refine ⟨?_, ?_⟩
  · rw [P2.fit, fit_init_error hs h, h1]
  · unfold P2.setTarget at hs
    cases D <;>
    · obtain ⟨_, _, hs⟩ := bind_eq_ok.1 hs
      obtain ⟨_, _, hs⟩ := bind_eq_ok.1 hs
      obtain ⟨_, _, hs⟩ := bind_eq_ok.1 hs
      obtain ⟨_, _, hs⟩ := bind_eq_ok.1 hs
      obtain rfl := Except.ok.inj hs
      exact ⟨rfl, rfl⟩

/-- **C111, what holds, for `CMTF_ALS`.** If the initial decomposition is rejected, the decomposition, the uncoupled factor matrices and
the weights are kept. -/
theorem C111_cmtf_partial {E : Ext} {c : CMTF.Config} {X : NDArray ℝ} {Ys : List (NDArray ℝ)} {modes : List Int} {mi : Option Int}
    {arg : InitArg KruskalTensor} {w : World CMTFState} {v : World CPState} {e : PyErr}
    (h : CP.initComponents E c.cp arg
      ⟨{ w.st.cp with X := X, XNorm := frobNorm X }, 0, w.maxIts, w.loggers, w.file⟩ = .error e v) :
    ∃ s, CMTF.fit E c X Ys modes mi arg w = .error e { w with it := v.it, st := s } ∧ s.cp.dec = w.st.cp.dec ∧
      s.V = w.st.V ∧ s.coupledWeights = w.st.coupledWeights ∧ s.cp.X = X ∧ s.Ys = Ys ∧ s.modes = modes := by
  have h1 := cp_init_keeps E c.cp arg _ _ _ h
  refine ⟨{ CMTF.setCoupled Ys modes w.st with cp := { w.st.cp with X := X, XNorm := frobNorm X } }, ?_, rfl, rfl, rfl, rfl, rfl, rfl⟩
  unfold CMTF.fit
  rw [bind_of_ok (modifySt_ok (s := CMTF.setCoupled Ys modes w.st) rfl)]
  refine fit_init_error (s := { CMTF.setCoupled Ys modes w.st with cp := { w.st.cp with X := X, XNorm := frobNorm X } }) rfl ?_
  unfold CMTF.initComponents
  refine bind_of_error ?_
  unfold CMTF.zoom
  simp only
  rw [h, h1]


/-- C111 for an object of `CMTF_ALS` is false of the code: if the coupled matrices are not accepted (here: a coupling mode without a matrix,
`IndexError`), the decomposition of the object has been replaced by the initial one. -/
theorem C111_cmtf_fails {E : Ext} {c : CMTF.Config} (hi : c.cp.init.toLower = "precomputed") {X : NDArray ℝ} (mode : Int)
    (modes : List Int) (mi : Option Int) {t : KruskalTensor} (ht : t.WF X.shape c.cp.opts.rank) (w : World CMTFState) :
    ∃ s, CMTF.fit E c X [] (mode :: modes) mi (.tensor t) w = .error .indexError { w with it := 0, st := s } ∧ s.cp.dec = t := by
  have hchk : CP.checkValid c.cp.opts.rank X.shape t = .ok () := ((C62_check_partial ht.factors.length_eq).1).2 ht.factors
  have hcp : ∀ w : World CPState, w.st.X = X → CP.initComponents E c.cp (.tensor t) w =
      .ok () { w with st := { w.st with dec := t } } := by
    intro w hw
    unfold CP.initComponents
    simp only [hi]
    simp only [List.contains_cons, BEq.rfl, Bool.true_or, Bool.not_true, Bool.and_false, Bool.false_eq_true, if_false,
      if_true, show ("precomputed" = "random") = False from by decide, show ("precomputed" = "svd") = False from by decide,
      show ("precomputed" = "from_checkpoint") = False from by decide]
    refine modifySt_ok ?_
    rw [hw, hchk]
    rfl
  refine ⟨{ CMTF.setCoupled [] (mode :: modes) w.st with cp := { w.st.cp with X := X, XNorm := frobNorm X, dec := t } }, ?_, rfl⟩
  unfold CMTF.fit
  rw [bind_of_ok (modifySt_ok (s := CMTF.setCoupled [] (mode :: modes) w.st) rfl)]
  refine fit_init_error (s := { CMTF.setCoupled [] (mode :: modes) w.st with cp := { w.st.cp with X := X, XNorm := frobNorm X } })
    rfl ?_
  unfold CMTF.initComponents
  have hz : CMTF.zoom (CP.initComponents E c.cp (.tensor t))
      ⟨{ CMTF.setCoupled [] (mode :: modes) w.st with cp := { w.st.cp with X := X, XNorm := frobNorm X } }, 0, w.maxIts, w.loggers,
        w.file⟩ = .ok () ⟨{ CMTF.setCoupled [] (mode :: modes) w.st with cp := { w.st.cp with X := X, XNorm := frobNorm X, dec := t } },
        0, w.maxIts, w.loggers, w.file⟩ := by
    unfold CMTF.zoom
    simp only
    rw [hcp _ rfl]
  rw [bind_of_ok hz]
  refine modifySt_error ?_
  unfold CMTF.initCoupled
  rfl

/-! ## The object afterwards -/

/-- The SSE of an object that has updated a factor matrix, after its data tensor has been replaced. -/
theorem sse_other_target {s : CPState} (hl : s.lastMode ≠ none) {a : ℝ} (h : CP.sse s = .ok a) (X : NDArray ℝ) :
    CP.sse { s with X := X, XNorm := frobNorm X } = .ok (a - s.XNorm ^ 2 + frobNorm X ^ 2) := by
  unfold CP.sse at h ⊢
  cases hm : s.lastMode with
  | none => exact absurd hm hl
  | some m =>
    rw [hm] at h
    simp only at h ⊢
    obtain ⟨Y, hY, h⟩ := bind_eq_ok.1 h
    obtain ⟨ip, hip, h⟩ := bind_eq_ok.1 h
    obtain rfl := Except.ok.inj h
    rw [hY, bind_ok]
    have : CP.innerProd { s with X := X, XNorm := frobNorm X, lastMode := some m } m = CP.innerProd s m := rfl
    rw [this, hip, bind_ok]
    refine congrArg Except.ok ?_
    ring

/-- A decomposition of a 3×2 matrix. -/
def tallKT : KruskalTensor := ⟨1, [ofMat 3 1 fun _ _ => 1, ofMat 2 1 fun _ _ => 1], full [1] 1⟩

/-- **C111, refuted**: `diag(4, 1)` is fitted, with squared error `16/13`. Then `fit` is called with a 2×2 matrix of zeros and an
initial decomposition of a 3×2 matrix, which raises `ValueError`. The object has kept its decomposition, but its
data are the zeros, its `current_iteration` is 0, and the SSE that it reports is negative. -/
theorem C111_cp_fails {E : Ext} (hE : E.SVDOk) (hN : E.NNLSOk) (hQ : E.QROk) :
    ∃ w1 w2, CP.fit E (plainConfig "precomputed" (some 1)) diag41 (some 2) (.tensor steepKT)
        (CP.newObject none none 2 [] none) = .ok () w1 ∧ CP.sse w1.st = .ok (16 / 13) ∧
      CP.fit E (plainConfig "precomputed" (some 1)) (full [2, 2] 0) none (.tensor tallKT) w1 = .error .valueError w2 ∧
      w2.st.dec = w1.st.dec ∧ w2.st.X = full [2, 2] 0 ∧ w2.it = 0 ∧ CP.sse w2.st = .ok (-205 / 13) := by
  obtain ⟨w1, f, d, h1, -, -, h4, -, h6, h7, h8, -⟩ := reload_run hE hN hQ
  have hi1 : (plainConfig "precomputed" (some 1)).init.toLower = "precomputed" := by
    show "precomputed".toLower = _
    rw [String.toLower, ← String.toList_inj, String.toList_map]; decide
  have hsse : CP.sse w1.st = .ok (16 / 13) := by
    rw [← h4]
    exact C35_sse h8.good.sized h8.good.cached
  have hl : w1.st.lastMode ≠ none := by
    intro hl
    unfold CP.sse at h6
    simp only [hl] at h6
    obtain ⟨Y, -, h6⟩ := bind_eq_ok.1 h6
    obtain ⟨D, -, h6⟩ := bind_eq_ok.1 h6
    have := Except.ok.inj h6
    have := sq_nonneg (frobNorm D)
    linarith
  refine ⟨w1, _, h1, hsse, C111_cp_sizes hi1 none rfl ?_ w1, rfl, rfl, rfl, ?_⟩
  · intro h
    have := (List.forall₂_cons.1 h).1
    simp [tallKT] at this
  · rw [sse_other_target hl hsse, h7, frobNorm_sq]
    refine congrArg Except.ok ?_
    rw [show (full [2, 2] (0 : ℝ)).shape = [2, 2] from rfl]
    have hz : ∀ i < 2, ∀ j < 2, (full [2, 2] (0 : ℝ)).get [i, j] = 0 := by
      intro i hi j hj
      exact get_full (by simp [Valid]; omega)
    simp only [sumIdx, Finset.sum_range_succ, Finset.sum_range_zero, hz 0 (by omega) 0 (by omega), hz 0 (by omega) 1 (by omega),
      hz 1 (by omega) 0 (by omega), hz 1 (by omega) 1 (by omega)]
    norm_num

/-! ## Checkpoints that are not accepted -/

/-- C48: without a path, or with the path of a file that does not exist, `load_checkpoint` raises and changes nothing. -/
theorem C48_no_file (m : Method σ τ) (n : Option Int) (w : World σ) :
    loadCheckpoint m .none n w = .error .typeError w ∧ loadCheckpoint m .missing n w = .error .fileNotFound w :=
  ⟨rfl, rfl⟩

/-- C48: a stored decomposition that does not fit the data is not loaded. `current_iteration` has been changed. -/
theorem C48_not_valid (m : Method σ τ) {f : H5File} {L : List (Int × τ)} {w : World σ} {n : Int} {d : τ} {e : PyErr}
    (hc : Checkpoints m.storeDec m.writesIts f L) (hmem : (n, d) ∈ L)
    (hround : ∀ g, m.storeDec d Group.empty = .ok g → m.loadDec g = .ok d) (hchk : m.check d w.st = .error e) :
    loadCheckpoint m (.file f) (some n) w = .error e { w with it := n } := by
  have hfin : f.root.attrs.has finalKey = true := by
    rw [Dict.has_eq_isSome, show finalKey = "final_iteration".toList from rfl, hc.final]
    cases L with
    | nil => simp at hmem
    | cons a l => simp [List.getLast?_cons]
  obtain ⟨g, hg, hfg⟩ := hc.group _ hmem
  have hfg' : f.groups.find (ckName n) = some g := hfg
  have hname : f.hasName (ckName n) = true := by
    rw [H5File.hasName, Dict.has_eq_isSome, hfg']; rfl
  rw [loadCheckpoint, bind_of_ok (lift_ok (show FileArg.open (.file f) = .ok f from rfl) _)]
  simp only [hfin, Bool.not_true, Bool.false_eq_true, if_false]
  rw [bind_of_ok (pure_def _ _), bind_of_ok (modify_def _ _)]
  simp only [hname, Bool.not_true, Bool.false_eq_true, if_false]
  rw [bind_of_ok (lift_ok (Dict.item_ok hfg') _), bind_of_ok (lift_ok (hround g hg) _),
    bind_of_ok (get_def _)]
  exact bind_of_error (lift_error hchk _)

/-- C111 for a `CMTF_ALS` object that is started from the checkpoint file of a fit of another size: `current_iteration` is the
number of the checkpoint. -/
theorem C111_cmtf_checkpoint {E : Ext} {c : CMTF.Config} (hi : c.cp.init.toLower = "from_checkpoint") {X : NDArray ℝ}
    {Ys : List (NDArray ℝ)} {modes : List Int} (mi : Option Int) {f : H5File} {L : List (Int × KruskalTensor)} {n : Int}
    {d : KruskalTensor} (hc : Checkpoints KruskalTensor.storeIn true f L) (hlast : L.getLast? = some (n, d)) {sizes : List ℕ} {R : ℕ}
    (hd : d.WF sizes R) (hne : sizes ≠ []) (hn : d.factorMatrices.length = X.shape.length)
    (hx : ¬ Factors d.factorMatrices X.shape c.cp.opts.rank) (w : World CMTFState) :
    ∃ s, CMTF.fit E c X Ys modes mi (.path (.other (.file f))) w = .error .valueError { w with it := n, st := s } ∧
      s.cp.dec = w.st.cp.dec ∧ s.V = w.st.V ∧ s.coupledWeights = w.st.coupledWeights ∧ s.cp.X = X ∧ s.Ys = Ys ∧
      s.modes = modes := by
  refine C111_cmtf_partial
    (v := ⟨{ w.st.cp with X := X, XNorm := frobNorm X }, n, w.maxIts, w.loggers, w.file⟩) ?_
  unfold CP.initComponents
  simp only [hi]
  simp only [List.contains_cons, BEq.rfl, Bool.true_or, Bool.or_true, Bool.not_true, Bool.and_false, Bool.false_eq_true, if_false,
    if_true, show ("from_checkpoint" = "random") = False from by decide, show ("from_checkpoint" = "svd") = False from by decide]
  rw [bind_of_ok (get_def _)]
  show loadCheckpoint (CP.method E c.cp) (.file f) none _ = _
  rw [C48_load_default (CP.method E c.cp) (L := L) hc hlast]
  exact C48_not_valid (CP.method E c.cp) (L := L) (d := d) hc (List.mem_of_getLast? hlast)
    (fun g hg => kruskal_group_roundtrip hd hne hg) ((C62_check_partial hn).2 hx)


/-! ## Concrete cases -/

/-- A fitted or new `Parafac2_ALS` object with `init="precomputed"` and no initial decomposition, slices of sizes 1×2 and 1×1. -/
example {E : Ext} {c : P2.Config} (hi : c.init.toLower = "precomputed") (w : World P2State) :
    ∃ s, P2.fit E c (.list [ofMat 1 2 fun _ _ => 3, ofMat 1 1 fun _ _ => 5]) none .none w =
        .error .attributeError { w with it := 0, st := s } ∧ s.dec = w.st.dec ∧ s.heap = w.st.heap ∧ s.X.length = 2 := by
  obtain ⟨s, hs, hX⟩ : ∃ s, P2.setTarget (.list [ofMat 1 2 fun _ _ => 3, ofMat 1 1 fun _ _ => 5]) w.st = .ok s ∧ s.X.length = 2 :=
    ⟨_, rfl, rfl⟩
  have h : P2.initComponents E c .none { w with it := 0, st := s } = .error .attributeError { w with it := 0, st := s } := by
    unfold P2.initComponents
    simp only [hi]
    simp only [if_true, if_false, show ("precomputed" = "random") = False from by decide,
      show ("precomputed" = "svd") = False from by decide, show ("precomputed" = "cp") = False from by decide,
      show ("precomputed" = "from_checkpoint") = False from by decide]
    rfl
  obtain ⟨h1, h2, h3⟩ := C111_parafac2_partial (mi := none) hs h
  exact ⟨s, h1, h2, h3, hX⟩

/-- A `CMTF_ALS` object with `init="random"` that is given a decomposition. -/
example {E : Ext} {c : CMTF.Config} (hi : c.cp.init.toLower = "random") (w : World CMTFState) :
    ∃ s, CMTF.fit E c diag41 [diag41] [0] none (.tensor steepKT) w = .error .warning { w with it := 0, st := s } ∧
      s.cp.dec = w.st.cp.dec ∧ s.V = w.st.V ∧ s.coupledWeights = w.st.coupledWeights ∧ s.cp.X = diag41 ∧ s.Ys = [diag41] ∧
      s.modes = [0] := by
  refine C111_cmtf_partial (v := ⟨{ w.st.cp with X := diag41, XNorm := frobNorm diag41 }, 0, w.maxIts, w.loggers, w.file⟩) ?_
  unfold CP.initComponents
  simp only [hi]
  rfl

example {E : Ext} : ∃ s, CMTF.fit E ⟨plainConfig "precomputed" none, [], fun _ _ _ => 0, fun _ _ _ => 0⟩ diag41 [] [0] none
      (.tensor steepKT) (CMTF.newObject none none 2 [] none) =
        .error .indexError { CMTF.newObject none none 2 [] none with it := 0, st := s } ∧ s.cp.dec = steepKT :=
  C111_cmtf_fails (by
    show "precomputed".toLower = _
    rw [String.toLower, ← String.toList_inj, String.toList_map]; decide) 0 [] none
    ⟨rfl, by simp [Factors, steepKT, diag41, plainConfig], rfl⟩ _

/-- The checkpoints of `reload_run` (of 2×2 matrices) and a `CMTF_ALS` object for a 3×2 matrix. -/
example {E : Ext} {f : H5File} {L : List (Int × KruskalTensor)} (hc : Checkpoints KruskalTensor.storeIn true f L) {n : Int}
    (hl : L.getLast? = some (n, steepKT)) :
    ∃ s, CMTF.fit E ⟨plainConfig "from_checkpoint" none, [], fun _ _ _ => 0, fun _ _ _ => 0⟩ (full [3, 2] 1) [] [] none
        (.path (.other (.file f))) (CMTF.newObject none none 2 [] none) =
        .error .valueError { CMTF.newObject none none 2 [] none with it := n, st := s } ∧
      s.cp.dec = (CMTF.newObject none none 2 [] none).st.cp.dec := by
  obtain ⟨s, h1, h2, -⟩ := C111_cmtf_checkpoint (E := E) (c := ⟨plainConfig "from_checkpoint" none, [], fun _ _ _ => 0, fun _ _ _ => 0⟩)
    (X := full [3, 2] 1) (Ys := []) (modes := []) (by
      show "from_checkpoint".toLower = _
      rw [String.toLower, ← String.toList_inj, String.toList_map]; decide) none hc hl (sizes := [2, 2]) (R := 1)
    ⟨rfl, by simp [Factors, steepKT], rfl⟩ (by simp) rfl (fun h => by simpa [steepKT] using (List.forall₂_cons.1 h).1)
    (CMTF.newObject none none 2 [] none)
  exact ⟨s, h1, h2⟩

end
end TK
