import Verif.Props.CMTFFitMore
import Verif.Props.CMTFFails
import Verif.Props.CMTFMoved
import Verif.Props.CoupledSizes
import Verif.Props.ContinueP2
import Verif.Lemmas.HeapFit

/-!
# Objects that are fitted again (C124)

Source: base_decomposer.py:127-164, 197-219, cp.py:336-352, cmtf.py:76-119, 287-309, parafac2.py:87-149, 362-387.

A second fit of a `CP_ALS` object raises `TypeError` (C36). The other two classes do not use what is left from the fit before.
`CMTF_ALS` objects however keep the lists `[False, …]` that replace `None` in the first fit, whose length is the number of modes
of the first tensor.
-/

namespace TK
open NDArray Fit
open EStateM (Result)

noncomputable section

variable {σ τ : Type}

/-- `load_checkpoint` replaces the decomposition; what else there is in the object does not matter. -/
theorem load_sim {R R1 : σ → σ → Prop} {m : Method σ τ} (hcheck : ∀ {p s}, R p s → ∀ d, m.check d p = m.check d s)
    (hset : ∀ {p s}, R p s → ∀ d, R1 (m.setDec d p) (m.setDec d s)) (f : FileArg) (n : Option Int) :
    Sim R R1 (fun _ _ => True) (loadCheckpoint m f n) (loadCheckpoint m f n) := by
  unfold loadCheckpoint
  refine Sim.bind (R1 := R) Sim.liftSame fun f' f hf => ?_
  subst hf
  dsimp only
  have thr : ∀ {α β β' : Type} {Q : β' → β → Prop} {e : PyErr} {x' : Fit σ β'} {k : α → Fit σ β},
      Sim R R1 Q x' (throw e >>= k) := by
    intro α β β' Q e x' k w' w _ b v h
    obtain ⟨a, w1, h1, -⟩ := ok_of_bind h
    cases h1
  have key : ∀ n : Int, Sim R R1 (fun _ _ => True)
      (do
        modify fun w => { w with it := n }
        if (!f'.hasName (ckName n)) = true then throw .valueError
        let g ← lift (f'.groups.item (ckName n))
        let d ← lift (m.loadDec g)
        let w ← MonadState.get
        lift (m.check d w.st)
        set { w with st := m.setDec d w.st })
      (do
        modify fun w => { w with it := n }
        if (!f'.hasName (ckName n)) = true then throw .valueError
        let g ← lift (f'.groups.item (ckName n))
        let d ← lift (m.loadDec g)
        let w ← MonadState.get
        lift (m.check d w.st)
        set { w with st := m.setDec d w.st }) := by
    intro n
    refine Sim.bind (R1 := R) (Sim.modify fun w' w hw => ⟨hw.st, rfl, hw.maxIts, hw.loggers, hw.file⟩) fun _ _ _ => ?_
    by_cases hn : (!f'.hasName (ckName n)) = true
    · simp only [if_pos hn]
      exact thr
    · simp only [if_neg hn]
      refine Sim.bind (R1 := R) Sim.liftSame fun g' g hg => ?_
      subst hg
      refine Sim.bind (R1 := R) Sim.liftSame fun d' d hd => ?_
      subst hd
      refine Sim.bind (R1 := R) Sim.get fun w' w hw => ?_
      refine Sim.bind (R1 := R) (Q := Eq) (Sim.lift fun a ha => ⟨a, ?_, rfl⟩) fun _ _ _ => ?_
      · rw [hcheck hw.st]; exact ha
      · exact Sim.set ⟨hset hw.st d', hw.it, hw.maxIts, hw.loggers, hw.file⟩
  by_cases hk : (!f'.root.attrs.has finalKey) = true
  · simp only [if_pos hk]
    exact thr
  · simp only [if_neg hk]
    cases n with
    | some n => exact key n
    | none =>
      refine Sim.bind (R1 := R) Sim.liftSame fun n' n hn => ?_
      subst hn
      exact key n'

/-! ### `Parafac2_ALS` -/

/-- `fit` starts by setting `current_iteration` to 0. -/
theorem fit_it (m : Method σ τ) (t : σ → Py σ) (i : Fit σ Unit) (mi : Option Int) (s : σ) (k k' B : Int) (L : List Logger)
    (F : Option H5File) : fit m t i mi ⟨s, k, B, L, F⟩ = fit m t i mi ⟨s, k', B, L, F⟩ := rfl

/-- Objects that agree in the data and in the arrays in memory. -/
def P2Target (p s : P2State) : Prop :=
  p = { s with dec := p.dec, inner := p.inner, relChange := p.relChange, prevLoss := p.prevLoss }

/-- Objects that agree in the data and in the decomposition. -/
def P2Begun (p s : P2State) : Prop :=
  p = { s with inner := p.inner, relChange := p.relChange, prevLoss := p.prevLoss }

theorem p2_projections_rest (E : Ext) (i : Option CPObj) (r : FV) (l : ℝ) : ∀ (ks : List ℕ) (s : P2State),
    ks.foldlM (P2.updateProjection E) { s with inner := i, relChange := r, prevLoss := l }
      = (ks.foldlM (P2.updateProjection E) s >>= fun s1 => .ok { s1 with inner := i, relChange := r, prevLoss := l })
  | [], _ => rfl
  | k :: ks, s => by
    rw [List.foldlM_cons, List.foldlM_cons, bind_assoc]
    have : P2.updateProjection E { s with inner := i, relChange := r, prevLoss := l } k
        = (P2.updateProjection E s k >>= fun s1 => .ok { s1 with inner := i, relChange := r, prevLoss := l }) := by
      unfold P2.updateProjection
      simp only [bind_assoc]
      rfl
    rw [this, bind_assoc]
    congr 1
    funext s1
    rw [bind_ok]
    exact p2_projections_rest E i r l ks s1

theorem setNew_begun {p s : P2State} (h : P2Target p s) (t : Parafac2Tensor) : P2Begun (P2.setNew t p) (P2.setNew t s) := by
  unfold P2Target at h
  generalize p.dec = d at h
  generalize p.inner = i at h
  generalize p.relChange = r at h
  generalize p.prevLoss = l at h
  subst h
  rfl

theorem p2_initComponents_sim (E : Ext) (c : P2.Config) (arg : InitArg P2Obj) :
    Sim P2Target P2Begun (fun _ _ => True) (P2.initComponents E c arg) (P2.initComponents E c arg) := by
  have hload : ∀ f n, Sim P2Target P2Begun (fun _ _ => True) (loadCheckpoint (P2.method E c) f n)
      (loadCheckpoint (P2.method E c) f n) := fun f n => load_sim
    (fun {p s} h d => by
      show P2.checkValid _ p d = P2.checkValid _ s d
      rw [h]; rfl)
    (fun {p s} h d => setNew_begun h d) f n
  unfold P2.initComponents
  dsimp only
  split_ifs
  · refine Sim.modifySt fun {p s s1} h e => ?_
    unfold P2.initSvd at e ⊢
    have hX : p.X = s.X := by rw [h]
    have hS : p.XShape = s.XShape := by rw [h]
    simp only [bind_eq_ok] at e
    obtain ⟨Y, e1, Y', e2, A, e3, J, e4, t, e5, e6⟩ := e
    have hb := setNew_begun h t
    refine ⟨{ s1 with
      inner := (P2.setNew t p).inner
      relChange := (P2.setNew t p).relChange
      prevLoss := (P2.setNew t p).prevLoss }, ?_, rfl⟩
    rw [hX, hS]
    simp only [e1, e2, e3, e4, e5, bind_ok]
    rw [hb, P2.updateProjections]
    have := p2_projections_rest E (P2.setNew t p).inner (P2.setNew t p).relChange (P2.setNew t p).prevLoss
      (List.range (P2.setNew t s).XShape.2.2) (P2.setNew t s)
    refine this.trans ?_
    rw [show List.foldlM (P2.updateProjection E) (P2.setNew t s) (List.range (P2.setNew t s).XShape.2.2) = .ok s1 from e6]
    rfl
  · refine Sim.modifySt fun {p s s1} h e => ?_
    unfold P2.initRandom at e ⊢
    rw [bind_eq_ok] at e
    obtain ⟨t, e1, e2⟩ := e
    have e2 := pure_eq_ok.1 e2
    subst e2
    refine ⟨_, ?_, setNew_begun h t⟩
    rw [show p.XShape = s.XShape by rw [h], e1]; rfl
  · refine Sim.modifySt fun {p s s1} h e => ?_
    refine ⟨{ s1 with inner := p.inner, relChange := p.relChange, prevLoss := p.prevLoss }, ?_, rfl⟩
    rw [h]
    unfold P2.initCp at e ⊢
    rw [bind_eq_ok] at e
    obtain ⟨X, e1, e2⟩ := e
    dsimp only
    rw [e1, bind_ok]
    revert e2
    split
    · intro e2; cases e2
    · split
      · intro e2
        rw [bind_eq_ok] at e2
        obtain ⟨t, e3, e4⟩ := e2
        have e4 := pure_eq_ok.1 e4
        subst e4
        rw [e3]; rfl
      · intro e2; cases e2
  · split
    · refine Sim.bind (R1 := P2Target) Sim.get fun w' w hw => ?_
      rw [CPRef.resolve_eq hw.file]
      exact hload _ _
    · exact Sim.throw
  · split
    · rename_i d
      refine Sim.modifySt fun {p s s1} h e => ?_
      rw [bind_eq_ok] at e
      obtain ⟨_, e1, e2⟩ := e
      have e2 := pure_eq_ok.1 e2
      subst e2
      refine ⟨{ p with dec := d }, ?_, ?_⟩
      · rw [show P2.checkValid c.opts.rank p (d.read p.heap) = P2.checkValid c.opts.rank s (d.read s.heap) by rw [h]; rfl, e1]
        rfl
      · unfold P2Target at h
        generalize p.dec = d at h
        generalize p.inner = i at h
        generalize p.relChange = r at h
        generalize p.prevLoss = l at h
        subst h
        rfl
    · exact Sim.throw
  · split
    · refine Sim.bind (R1 := P2Target) Sim.get fun w' w hw => ?_
      rw [CPRef.resolve_eq hw.file]
      exact hload _ _
    · exact Sim.throw

/-- The inner object is replaced before it is used. -/
theorem p2_run_inner (E : Ext) (c : P2.Config) {w' w : World P2State}
    (h : WRel (fun p s => p = { s with inner := p.inner }) w' w) {v : World P2State}
    (e : run (P2.method E c) w = .ok () v) : run (P2.method E c) w' = .ok () v := by
  unfold run at e ⊢
  obtain ⟨_, w1, e1, e2⟩ := ok_of_bind e
  cases hp : (P2.method E c).prepare w.st with
  | error err => rw [modifySt_error hp] at e1; cases e1
  | ok s1 =>
    rw [modifySt_ok hp] at e1
    injection e1 with _ e1
    subst e1
    have hp' : (P2.method E c).prepare w'.st = .ok s1 := by
      rw [h.st, ← hp]; rfl
    rw [bind_of_ok (modifySt_ok hp')]
    have : ({ w' with st := s1 } : World P2State) = { w with st := s1 } := by
      rw [h.it, h.maxIts, h.loggers, h.file]
    rw [this]
    exact e2

theorem p2_fit_again {E : Ext} {c : P2.Config} {D : P2Data} {mi : Option Int} {arg : InitArg P2Obj} {p s : P2State}
    (hh : p.heap = s.heap) {it it' B : Int} {L : List Logger} {F : Option H5File} {v : World P2State}
    (e : P2.fit E c D mi arg ⟨s, it, B, L, F⟩ = .ok () v) : P2.fit E c D mi arg ⟨p, it', B, L, F⟩ = .ok () v := by
  have e : fit _ _ _ mi ⟨s, 0, B, L, F⟩ = .ok () v := e
  show fit _ _ _ mi ⟨p, 0, B, L, F⟩ = .ok () v
  unfold Fit.fit at e ⊢
  obtain ⟨_, w1, e1, e2⟩ := ok_of_bind e
  have hs : Sim (fun p s : P2State => p.heap = s.heap) (fun p s => p = { s with inner := p.inner }) (fun _ _ => True)
      (initFit (P2.method E c) (P2.setTarget D) (P2.initComponents E c arg) mi)
      (initFit (P2.method E c) (P2.setTarget D) (P2.initComponents E c arg) mi) := by
    unfold initFit
    refine Sim.bind (R1 := fun p s => p.heap = s.heap)
      (Sim.modify fun w' w hw => ⟨hw.st, rfl, hw.maxIts, hw.loggers, hw.file⟩) fun _ _ _ => ?_
    refine Sim.bind (R1 := P2Target) (Sim.modifySt fun {p s s1} h e => ?_) fun _ _ _ => ?_
    · obtain ⟨g, hg⟩ : ∃ g : Py (List (NDArray ℝ) × ℕ × List ℕ), ∀ q : P2State, P2.setTarget D q = (g >>= fun r =>
          .ok { q with
            X := r.1
            XShape := (r.2.1, r.2.2, r.1.length)
            XNorm := Real.sqrt ((r.1.map fun Xk => frobNorm Xk ^ 2).sum) }) := by
        cases D with
        | tensor X =>
          exact ⟨do
            let Xs ← P2.frontalSlices X
            let X0 ← pyGet Xs 0
            let I ← rows X0
            let Js ← Xs.mapM cols
            pure (Xs, I, Js), fun q => by unfold P2.setTarget; simp only [bind_assoc]; rfl⟩
        | list Xs =>
          exact ⟨do
            let X0 ← pyGet Xs 0
            let I ← rows X0
            let Js ← Xs.mapM cols
            pure (Xs, I, Js), fun q => by unfold P2.setTarget; simp only [bind_assoc]; rfl⟩
      rw [hg, bind_eq_ok] at e
      obtain ⟨r, f1, f2⟩ := e
      have f2 := Except.ok.inj f2
      subst f2
      refine ⟨_, by rw [hg, f1]; rfl, ?_⟩
      unfold P2Target
      rw [← h]
    · refine Sim.bind (p2_initComponents_sim E c arg) fun _ _ _ => ?_
      refine Sim.bind (setMaxIts_sim P2Begun mi) fun _ _ _ => Sim.modifySt fun {p s s1} h e => ?_
      have e : P2.initRest c.opts s = .ok s1 := e
      show ∃ p1, P2.initRest c.opts p = .ok p1 ∧ _
      unfold P2.initRest at e ⊢
      rw [bind_eq_ok] at e
      obtain ⟨l, f1, f2⟩ := e
      have f2 := pure_eq_ok.1 f2
      subst f2
      refine ⟨{ p with prevLoss := l, relChange := .pinf }, ?_, ?_⟩
      · rw [show P2.loss c.opts p = P2.loss c.opts s by rw [h]; rfl, f1]; rfl
      · unfold P2Begun at h
        generalize p.inner = i at h
        generalize p.relChange = r at h
        generalize p.prevLoss = l at h
        subst h
        rfl
  obtain ⟨_, w1', f1, f2, -⟩ := hs ⟨p, 0, B, L, F⟩ ⟨s, 0, B, L, F⟩ ⟨hh, rfl, rfl, rfl, rfl⟩ () w1 e1
  rw [bind_of_ok f1]
  exact p2_run_inner E c f2 e2

/-- C124 for `Parafac2_ALS`: whatever has been done with an object before, `fit` does the same as for a new object with the same
options, `max_its`, loggers and checkpoint file: one of the two returns if and only if the other one does, in the same state. -/
theorem C124_parafac2 (E : Ext) (c : P2.Config) (D : P2Data) (mi : Option Int) (arg : InitArg P2Obj) (used : World P2State)
    (v : World P2State) :
    P2.fit E c D mi arg used = .ok () v ↔
      P2.fit E c D mi arg ⟨P2.fresh used.st.heap, 0, used.maxIts, used.loggers, used.file⟩ = .ok () v := by
  obtain ⟨p, it, B, L, F⟩ := used
  exact ⟨fun h => p2_fit_again (show (P2.fresh p.heap).heap = p.heap from rfl) h,
    fun h => p2_fit_again (show p.heap = (P2.fresh p.heap).heap from rfl) h⟩

/-! ### `CMTF_ALS` -/

/-- Constraints that mean the same for `d` modes: `None` and `[False] * d` do. -/
def SameFlags (d : ℕ) (l l' : Option (List Bool)) : Prop :=
  l.getD (List.replicate d false) = l'.getD (List.replicate d false)

theorem SameFlags.symm {d : ℕ} {l l' : Option (List Bool)} (h : SameFlags d l l') : SameFlags d l' l := Eq.symm h

/-- `init_components` makes a decomposition with one factor matrix for each mode of `X`. -/
def CP.Whole (E : Ext) (c : CP.Config) (arg : InitArg KruskalTensor) (X : NDArray ℝ) : Prop :=
  ∀ w v : World CPState, w.st.X = X → CP.initComponents E c arg w = .ok () v →
    v.st.dec.factorMatrices.length = X.shape.length

theorem absConstrained_none : ∀ (n mode : ℕ) (fs : List (NDArray ℝ)), mode + n ≤ fs.length →
    CP.absConstrained mode (List.replicate n false) fs = .ok fs
  | 0, _, _, _ => rfl
  | n + 1, mode, fs, h => by
    rw [List.replicate_succ, CP.absConstrained, pyGet_ok (norm_nat (show mode < fs.length by omega)), bind_ok]
    exact absConstrained_none n (mode + 1) fs (by omega)

theorem absConstrained_length : ∀ {l : List Bool} {mode : ℕ} {fs gs : List (NDArray ℝ)},
    CP.absConstrained mode l fs = .ok gs → gs.length = fs.length ∧ (fs.length < mode + l.length → l = [])
  | [], _, _, _, h => by
    rw [CP.absConstrained] at h
    exact ⟨by rw [Except.ok.inj h], fun _ => rfl⟩
  | b :: l, mode, fs, gs, h => by
    rw [CP.absConstrained, bind_eq_ok] at h
    obtain ⟨F, h1, h2⟩ := h
    obtain ⟨h3, h4⟩ := absConstrained_length h2
    have h5 : (if b then fs.set mode (F.map abs) else fs).length = fs.length := by split <;> simp
    rw [h5] at h3 h4
    refine ⟨h3, fun hlt => ?_⟩
    rw [List.length_cons] at hlt
    have := h4 (by omega)
    subst this
    rw [pyGet_nat_error (by simp at hlt; omega)] at h1
    cases h1

theorem orthonormalise_length {E : Ext} : ∀ {l : List Bool} {mode : ℕ} {fs gs : List (NDArray ℝ)},
    CP.orthonormalise E mode l fs = .ok gs → gs.length = fs.length ∧ (fs.length < mode + l.length → l = [])
  | [], _, _, _, h => by
    rw [CP.orthonormalise] at h
    exact ⟨by rw [Except.ok.inj h], fun _ => rfl⟩
  | b :: l, mode, fs, gs, h => by
    rw [CP.orthonormalise, bind_eq_ok] at h
    obtain ⟨F, h1, h2⟩ := h
    obtain ⟨h3, h4⟩ := orthonormalise_length h2
    have h5 : (if b then fs.set mode (E.qr F).1 else fs).length = fs.length := by split <;> simp
    rw [h5] at h3 h4
    refine ⟨h3, fun hlt => ?_⟩
    rw [List.length_cons] at hlt
    have := h4 (by omega)
    subst this
    rw [pyGet_nat_error (by simp at hlt; omega)] at h1
    cases h1

theorem normalizeLoop_length {u : Bool} {eps : ℝ} : ∀ {fs gs : List (NDArray ℝ)} {w w' : NDArray ℝ},
    KruskalTensor.normalizeLoop u eps fs w = .ok (gs, w') → gs.length = fs.length
  | [], gs, w, w', h => by
    rw [KruskalTensor.normalizeLoop] at h
    rw [← (Prod.mk.inj (Except.ok.inj h)).1]
  | F :: fs, gs, w, w', h => by
    rw [KruskalTensor.normalizeLoop] at h
    simp only [bind_eq_ok] at h
    obtain ⟨⟨F', w1⟩, _, ⟨fs', w2⟩, h2, h3⟩ := h
    have h3 := pure_eq_ok.1 h3
    rw [← (Prod.mk.inj h3).1, List.length_cons, List.length_cons, normalizeLoop_length h2]

theorem randomInit_length {draw : KruskalTensor.RandomMethod → ℕ → ℕ → ℕ → ℝ} {sizes : List ℕ} {R : ℕ} {m : String} {eps : ℝ}
    {t : KruskalTensor} (h : KruskalTensor.randomInit draw sizes R m eps = .ok t) : t.factorMatrices.length = sizes.length := by
  rw [KruskalTensor.randomInit] at h
  simp only [bind_eq_ok] at h
  obtain ⟨m, -, t1, h1, h2⟩ := h
  have e1 : t1.factorMatrices.length = sizes.length := by
    rw [KruskalTensor.init] at h1
    simp only [bind_eq_ok] at h1
    obtain ⟨_, _, _, _, _, _, h3⟩ := h1
    rw [← pure_eq_ok.1 h3]
    simp
  rw [KruskalTensor.normalizeComponents, bind_eq_ok] at h2
  obtain ⟨⟨gs, w⟩, h3, h4⟩ := h2
  rw [← pure_eq_ok.1 h4, ← e1]
  exact normalizeLoop_length h3

/-- The constraints matter only through their meaning. -/
theorem initRandom_flags {draw : KruskalTensor.RandomMethod → ℕ → ℕ → ℕ → ℝ} {R : ℕ} {l l' : Option (List Bool)} {X : NDArray ℝ}
    (h : SameFlags X.shape.length l l') : CP.initRandom draw R l X = CP.initRandom draw R l' X := by
  have key : CP.initRandom draw R none X = CP.initRandom draw R (some (List.replicate X.shape.length false)) X := by
    unfold CP.initRandom
    cases ht : KruskalTensor.randomInit draw X.shape R "normal" with
    | error e => rfl
    | ok t =>
      simp only [bind_ok]
      rw [absConstrained_none _ _ _ (by rw [randomInit_length ht]; omega), bind_ok]
  cases l with
  | none =>
    cases l' with
    | none => rfl
    | some l' => rw [key, show List.replicate X.shape.length false = l' from h]
  | some l =>
    cases l' with
    | none => rw [key, show l = List.replicate X.shape.length false from h]
    | some l' => rw [show l = l' from h]

theorem kruskal_init_none {fs : List (NDArray ℝ)} {t : KruskalTensor} (h : KruskalTensor.init fs none = .ok t) :
    t.factorMatrices = fs := by
  rw [KruskalTensor.init] at h
  simp only [bind_eq_ok] at h
  obtain ⟨_, _, _, _, _, _, h3⟩ := h
  rw [← pure_eq_ok.1 h3]

/-- A random start, a start from the SVD, and a start from a given decomposition with as many factor matrices as `X` has modes;
`current_iteration` is not changed. -/
theorem initComponents_plain {E : Ext} {c : CP.Config} {arg : InitArg KruskalTensor} {w v : World CPState}
    (hi : c.init.toLower ∈ ["random", "svd", "precomputed"])
    (ht : ∀ t, arg = .tensor t → t.factorMatrices.length = w.st.X.shape.length) (e : CP.initComponents E c arg w = .ok () v) :
    v.st.dec.factorMatrices.length = w.st.X.shape.length ∧ v.it = w.it := by
  have hmod : ∀ f : CPState → Py CPState, (∀ s1, f w.st = .ok s1 → s1.dec.factorMatrices.length = w.st.X.shape.length) →
      modifySt f w = .ok () v → v.st.dec.factorMatrices.length = w.st.X.shape.length ∧ v.it = w.it := by
    intro f hf e
    cases hs : f w.st with
    | error err => rw [modifySt_error hs] at e; cases e
    | ok s1 =>
      rw [modifySt_ok hs] at e
      injection e with _ e
      subst e
      exact ⟨hf s1 hs, rfl⟩
  unfold CP.initComponents at e
  dsimp only at e
  by_cases hg : (arg.given && !(["precomputed", "from_checkpoint"].contains c.init.toLower)) = true
  · simp only [if_pos hg] at e
    obtain ⟨a, w1, h1, -⟩ := ok_of_bind e
    cases h1
  simp only [if_neg hg] at e
  by_cases h1 : c.init.toLower = "random"
  · rw [if_pos h1] at e
    refine hmod _ (fun s1 h => ?_) e
    rw [bind_eq_ok] at h
    obtain ⟨t, h2, h3⟩ := h
    rw [← pure_eq_ok.1 h3]
    show t.factorMatrices.length = _
    unfold CP.initRandom at h2
    rw [bind_eq_ok] at h2
    obtain ⟨t1, h4, h5⟩ := h2
    rw [← randomInit_length h4]
    cases hn : w.st.nonNeg with
    | none => rw [hn] at h5; rw [pure_eq_ok.1 h5]
    | some l =>
      rw [hn] at h5
      dsimp only at h5
      rw [bind_eq_ok] at h5
      obtain ⟨gs, h6, h7⟩ := h5
      rw [← pure_eq_ok.1 h7]
      exact (absConstrained_length h6).1
  by_cases h2 : c.init.toLower = "svd"
  · rw [if_neg h1, if_pos h2] at e
    refine hmod _ (fun s1 h => ?_) e
    rw [bind_eq_ok] at h
    obtain ⟨t, h2, h3⟩ := h
    rw [← pure_eq_ok.1 h3]
    show t.factorMatrices.length = _
    unfold CP.initSvd at h2
    cases hm : w.st.X.shape.min? with
    | none => rw [hm] at h2; cases h2
    | some m =>
      rw [hm] at h2
      dsimp only at h2
      split at h2
      · cases h2
      · rw [bind_eq_ok] at h2
        obtain ⟨fs, h4, h5⟩ := h2
        rw [kruskal_init_none h5]
        have := (mapM_ok_iff.1 h4).length_eq
        simpa using this.symm
  have h3 : c.init.toLower = "precomputed" := by simpa [h1, h2] using hi
  rw [if_neg h1, if_neg h2, h3, if_neg (by decide), if_pos rfl] at e
  cases arg with
  | none => cases e
  | path p => cases e
  | tensor t =>
    refine hmod _ (fun s1 h => ?_) e
    rw [bind_eq_ok] at h
    obtain ⟨_, _, h5⟩ := h
    rw [← pure_eq_ok.1 h5]
    exact ht t rfl

theorem whole_plain {E : Ext} {c : CP.Config} {arg : InitArg KruskalTensor} {X : NDArray ℝ}
    (hi : c.init.toLower ∈ ["random", "svd", "precomputed"])
    (ht : ∀ t, arg = .tensor t → t.factorMatrices.length = X.shape.length) : CP.Whole E c arg X := by
  intro w v hX e
  subst hX
  exact (initComponents_plain hi ht e).1

/-- Objects that agree in the tensor and in the meaning of the constraints for `d` modes. -/
structure CPTarget (d : ℕ) (p s : CPState) : Prop where
  X : p.X = s.X
  XNorm : p.XNorm = s.XNorm
  order : s.X.shape.length = d
  nonNeg : SameFlags d p.nonNeg s.nonNeg
  orth : SameFlags d p.orth s.orth

theorem CPTarget.setDec {d : ℕ} {p s : CPState} (h : CPTarget d p s) (t : KruskalTensor) :
    CPTarget d { p with dec := t } { s with dec := t } := ⟨h.X, h.XNorm, h.order, h.nonNeg, h.orth⟩

/-- `init_components` depends on the tensor and on the meaning of the constraints, and changes the decomposition only. -/
theorem cp_initComponents_sim {R R1 : CPState → CPState → Prop} (hX : ∀ {p s}, R p s → p.X = s.X)
    (hn : ∀ {p s}, R p s → SameFlags s.X.shape.length p.nonNeg s.nonNeg)
    (hset : ∀ {p s}, R p s → ∀ t, R1 { p with dec := t } { s with dec := t }) (E : Ext) (c : CP.Config)
    (arg : InitArg KruskalTensor) : Sim R R1 (fun _ _ => True) (CP.initComponents E c arg) (CP.initComponents E c arg) := by
  have hload : ∀ f n, Sim R R1 (fun _ _ => True)
      (loadCheckpoint (CP.method E c) f n) (loadCheckpoint (CP.method E c) f n) := fun f n => load_sim
    (fun {p s} h t => by
      show CP.checkValid _ p.X.shape t = CP.checkValid _ s.X.shape t
      rw [hX h])
    (fun {p s} h t => hset h t) f n
  have thr : ∀ {α β β' : Type} {Q : β' → β → Prop} {e : PyErr} {x' : Fit CPState β'} {k : α → Fit CPState β},
      Sim R R1 Q x' (throw e >>= k) := by
    intro α β β' Q e x' k w' w _ b v h
    obtain ⟨a, w1, h1, -⟩ := ok_of_bind h
    cases h1
  unfold CP.initComponents
  dsimp only
  by_cases hg : (arg.given && !(["precomputed", "from_checkpoint"].contains c.init.toLower)) = true
  · simp only [if_pos hg]
    exact thr
  simp only [if_neg hg]
  split_ifs
  · refine Sim.modifySt fun {p s s1} h e => ?_
    rw [bind_eq_ok] at e
    obtain ⟨t, e1, e2⟩ := e
    have e2 := pure_eq_ok.1 e2
    subst e2
    refine ⟨_, ?_, hset h t⟩
    rw [hX h, initRandom_flags (hn h), e1]; rfl
  · refine Sim.modifySt fun {p s s1} h e => ?_
    rw [bind_eq_ok] at e
    obtain ⟨t, e1, e2⟩ := e
    have e2 := pure_eq_ok.1 e2
    subst e2
    refine ⟨_, ?_, hset h t⟩
    rw [hX h, e1]; rfl
  · split
    · refine Sim.bind (R1 := R) Sim.get fun w' w hw => ?_
      rw [CPRef.resolve_eq hw.file]
      exact hload _ _
    · exact Sim.throw
  · split
    · refine Sim.modifySt fun {p s s1} h e => ?_
      rw [bind_eq_ok] at e
      obtain ⟨_, e1, e2⟩ := e
      have e2 := pure_eq_ok.1 e2
      subst e2
      refine ⟨_, ?_, hset h _⟩
      rw [hX h, e1]; rfl
    · exact Sim.throw
  · split
    · refine Sim.bind (R1 := R) Sim.get fun w' w hw => ?_
      rw [CPRef.resolve_eq hw.file]
      exact hload _ _
    · exact Sim.throw

/-- A method of `CP_ALS` that treats related objects alike does so for `CMTF_ALS` objects that agree in the rest. -/
theorem zoom_sim {R R1 : CPState → CPState → Prop} {Q : CMTFState → CMTFState → Prop} {f : Fit CPState Unit}
    (h : Sim R R1 (fun _ _ => True) f f) (hQ : ∀ {p s : CMTFState} (a b : CPState), Q p s → Q { p with cp := a } { s with cp := b }) :
    Sim (fun p s => R p.cp s.cp ∧ Q p s) (fun p s => R1 p.cp s.cp ∧ Q p s) (fun _ _ => True) (CMTF.zoom f) (CMTF.zoom f) := by
  intro w' w hw a v e
  unfold CMTF.zoom at e ⊢
  cases hf : f ⟨w.st.cp, w.it, w.maxIts, w.loggers, w.file⟩ with
  | error err u => rw [hf] at e; cases e
  | ok a1 u =>
    rw [hf] at e
    injection e with _ e
    subst e
    obtain ⟨_, u', e1, e2, -⟩ := h ⟨w'.st.cp, w'.it, w'.maxIts, w'.loggers, w'.file⟩ _
      ⟨hw.st.1, hw.it, hw.maxIts, hw.loggers, hw.file⟩ _ _ hf
    rw [e1]
    exact ⟨(), _, rfl, ⟨⟨e2.st, hQ _ _ hw.st.2⟩, e2.it, e2.maxIts, e2.loggers, e2.file⟩, trivial⟩

/-- Objects that agree in everything but the number of the mode that was updated last. -/
def CMTFSame (p s : CMTFState) : Prop := p = { s with cp := { s.cp with lastMode := p.cp.lastMode } }

/-- The loggers do not look at the number of the mode that was updated last (a private attribute). -/
def CMTF.Config.Public (c : CMTF.Config) : Prop :=
  ∀ l ∈ c.logs, ∀ (s : CMTFState) (x : Option ℕ), l.2 { s with cp := { s.cp with lastMode := x } } = l.2 s

theorem cmtf_updateModes_same {E : Ext} {o : CPOpts} {ks : List ℕ} {s s1 : CMTFState} (x : Option ℕ)
    (e : CMTF.updateModes E o ks s = .ok s1) :
    ∃ p1, CMTF.updateModes E o ks { s with cp := { s.cp with lastMode := x } } = .ok p1 ∧ CMTFSame p1 s1 := by
  cases ks with
  | nil =>
    have e := Except.ok.inj (show (Except.ok s : Py CMTFState) = .ok s1 from e)
    subst e
    exact ⟨_, rfl, rfl⟩
  | cons k ks => exact ⟨s1, e, rfl⟩

theorem cmtf_uncoupled_same {E : Ext} : ∀ {ds : List (Int × List ℕ)} {s s1 : CMTFState} (x : Option ℕ),
    ds.foldlM (CMTF.updateUncoupled E) s = .ok s1 →
    ds.foldlM (CMTF.updateUncoupled E) { s with cp := { s.cp with lastMode := x } }
      = .ok { s1 with cp := { s1.cp with lastMode := x } }
  | [], s, s1, x, e => by
    have e := Except.ok.inj (show (Except.ok s : Py CMTFState) = .ok s1 from e)
    subst e
    rfl
  | d :: ds, s, s1, x, e => by
    rw [List.foldlM_cons, bind_eq_ok] at e
    obtain ⟨s2, e1, e2⟩ := e
    have f1 : CMTF.updateUncoupled E { s with cp := { s.cp with lastMode := x } } d
        = .ok { s2 with cp := { s2.cp with lastMode := x } } := by
      unfold CMTF.updateUncoupled at e1 ⊢
      simp only [bind_eq_ok] at e1
      obtain ⟨i, g1, U, g2, Y, g3, nn, g4, new, g5, V, g6, V', g7, g8⟩ := e1
      have g8 := pure_eq_ok.1 g8
      subst g8
      simp only [g1, g2, g3, g4, g5, g6, g7, bind_ok]
      rfl
    rw [List.foldlM_cons, f1, bind_ok]
    exact cmtf_uncoupled_same x e2

theorem cmtf_step_same {E : Ext} {o : CPOpts} {p s s1 : CMTFState} (h : CMTFSame p s) (e : CMTF.iteration E o s = .ok s1) :
    ∃ p1, CMTF.iteration E o p = .ok p1 ∧ CMTFSame p1 s1 := by
  unfold CMTFSame at h
  generalize p.cp.lastMode = x at h
  subst h
  unfold CMTF.iteration CMTF.updateFactors at e ⊢
  simp only [bind_assoc, bind_eq_ok] at e
  obtain ⟨s2, e1, s3, e2, e3⟩ := e
  obtain ⟨p2, f1, f2⟩ := cmtf_updateModes_same x e1
  have f3 := cmtf_uncoupled_same p2.cp.lastMode e2
  unfold CMTF.updateConvergence at e3 ⊢
  rw [bind_eq_ok] at e3
  obtain ⟨v, e4, e5⟩ := e3
  have e5 := pure_eq_ok.1 e5
  subst e5
  simp only [bind_assoc]
  rw [show CMTF.updateModes E o (List.range s.cp.X.shape.length) { s with cp := { s.cp with lastMode := x } } = .ok p2 from f1,
    bind_ok]
  rw [show p2.map.foldlM (CMTF.updateUncoupled E) p2 = .ok { s3 with cp := { s3.cp with lastMode := p2.cp.lastMode } } by
    rw [show p2.map = s2.map by rw [f2], ← f3]
    rw [← f2], bind_ok]
  rw [show CMTF.sse { s3 with cp := { s3.cp with lastMode := p2.cp.lastMode } } = CMTF.sse s3 from rfl, e4, bind_ok]
  exact ⟨_, rfl, rfl⟩

theorem cmtf_refines_self {E : Ext} {c : CMTF.Config} (hp : c.Public) :
    Refines CMTFSame (CMTF.method E c).started (CMTF.method E c).started where
  dec := by
    intro p s h
    rw [h]; rfl
  stop := by
    intro p s b h e
    rw [h]; exact e
  prepare := by
    intro p s s1 h e
    have e := Except.ok.inj (show (Except.ok s : Py CMTFState) = .ok s1 from e)
    subst e
    exact ⟨p, rfl, h⟩
  step := fun h e => cmtf_step_same h e
  post := by
    intro p s s1 h e
    have e : CMTF.normalizeComponents s = .ok s1 := e
    show ∃ p1, CMTF.normalizeComponents p = .ok p1 ∧ _
    unfold CMTFSame at h
    generalize p.cp.lastMode = x at h
    subst h
    unfold CMTF.normalizeComponents at e ⊢
    simp only [bind_eq_ok] at e
    obtain ⟨Vs, e1, t, e2, e3⟩ := e
    have e3 := pure_eq_ok.1 e3
    subst e3
    simp only [e1, e2, bind_ok]
    exact ⟨_, rfl, rfl⟩
  initRest := by
    intro p s s1 h e
    cases (show (Except.error PyErr.valueError : Py CMTFState) = .ok s1 from e)
  logs := by
    have : ∀ l : List (Name × (CMTFState → Py ℝ)),
        (∀ q ∈ l, ∀ (s : CMTFState) (x : Option ℕ), q.2 { s with cp := { s.cp with lastMode := x } } = q.2 s) →
        List.Forall₂ (fun l' l : Name × (CMTFState → Py ℝ) =>
          l'.1 = l.1 ∧ ∀ p s v, CMTFSame p s → l.2 s = .ok v → l'.2 p = .ok v) l l := by
      intro l
      induction l with
      | nil => intro _; exact .nil
      | cons q l ih =>
        intro h
        refine .cons ⟨rfl, fun p s v hps e => ?_⟩ (ih fun q hq => h q (by simp [hq]))
        rw [hps, h q (by simp)]; exact e
    exact this _ hp
  storeDec := rfl
  freq := rfl
  hasPath := rfl
  typeName := rfl
  usesLoopVar := rfl
  writesIts := rfl

theorem initFlag_same {d : ℕ} {l l' : Option (List Bool)} (h : SameFlags d l l') {m : Int} {k : ℕ} (hm : IsMode m d k) :
    CMTF.initFlag l m = CMTF.initFlag l' m := by
  have key : CMTF.initFlag (some (List.replicate d false)) m = .ok false := by
    show pyGet _ m = _
    rw [pyGet_ok (k := k) (by rw [List.length_replicate]; exact hm.norm)]
    simp
  cases l with
  | none =>
    cases l' with
    | none => rfl
    | some l' => rw [← show List.replicate d false = l' from h, key]; rfl
  | some l =>
    cases l' with
    | none => rw [show l = List.replicate d false from h, key]; rfl
    | some l' => rw [show l = l' from h]

theorem initCoupledLoop_same {c : CMTF.Config} {d : ℕ} {l l' : Option (List Bool)} (h : SameFlags d l l') (Ys : List (NDArray ℝ)) :
    ∀ (i : ℕ) (modes : List Int), (∀ m ∈ modes, ∃ k, IsMode m d k) →
      CMTF.initCoupledLoop c l Ys i modes = CMTF.initCoupledLoop c l' Ys i modes
  | _, [], _ => rfl
  | i, m :: modes, hm => by
    obtain ⟨k, hk⟩ := hm m (by simp)
    rw [CMTF.initCoupledLoop, CMTF.initCoupledLoop, initFlag_same h hk,
      initCoupledLoop_same h Ys (i + 1) modes fun m' h' => hm m' (by simp [h'])]

/-- What the second fit of an object takes from the object: the constraints. -/
theorem cmtf_fit_again {E : Ext} {c : CMTF.Config} (hp : c.Public) {X : NDArray ℝ} {Ys : List (NDArray ℝ)} {modes : List Int}
    (hm : ∀ m ∈ modes, ∃ k, IsMode m X.shape.length k) {mi : Option Int} {arg : InitArg KruskalTensor}
    (hwhole : CP.Whole E c.cp arg X) {p s : CMTFState} (hn : SameFlags X.shape.length p.cp.nonNeg s.cp.nonNeg)
    (ho : SameFlags X.shape.length p.cp.orth s.cp.orth) {it it' B : Int} {L : List Logger} {F : Option H5File} {v : World CMTFState}
    (e : CMTF.fit E c X Ys modes mi arg ⟨s, it, B, L, F⟩ = .ok () v) :
    ∃ v', CMTF.fit E c X Ys modes mi arg ⟨p, it', B, L, F⟩ = .ok () v' ∧ WRel CMTFSame v' v := by
  have hs : Sim (fun p s : CMTFState => SameFlags X.shape.length p.cp.nonNeg s.cp.nonNeg ∧ SameFlags X.shape.length p.cp.orth s.cp.orth)
      CMTFSame (fun _ _ => True) (CMTF.fit E c X Ys modes mi arg) (CMTF.fit E c X Ys modes mi arg) := by
    unfold CMTF.fit
    refine Sim.bind (R1 := fun p s : CMTFState =>
      (SameFlags X.shape.length p.cp.nonNeg s.cp.nonNeg ∧ SameFlags X.shape.length p.cp.orth s.cp.orth) ∧
      p.Ys = s.Ys ∧ p.modes = s.modes ∧ p.map = s.map ∧ s.modes = modes)
      (Sim.modifySt fun {p s s1} h e => ?_) fun _ _ _ => ?_
    · have e := Except.ok.inj e
      subst e
      exact ⟨_, rfl, h, rfl, rfl, rfl, rfl⟩
    unfold Fit.fit initFit
    refine Sim.bind (R1 := CMTFSame) (Q := fun _ _ => True) ?_ fun _ _ _ => by
      have := run_sim (cmtf_refines_self (E := E) hp)
      rw [run_started] at this
      exact this
    refine Sim.bind (R1 := fun p s : CMTFState =>
      (SameFlags X.shape.length p.cp.nonNeg s.cp.nonNeg ∧ SameFlags X.shape.length p.cp.orth s.cp.orth) ∧
      p.Ys = s.Ys ∧ p.modes = s.modes ∧ p.map = s.map ∧ s.modes = modes)
      (Sim.modify fun w' w hw => ⟨hw.st, rfl, hw.maxIts, hw.loggers, hw.file⟩) fun _ _ _ => ?_
    refine Sim.bind (R1 := fun p s : CMTFState => (CPTarget X.shape.length p.cp s.cp ∧ s.cp.X = X) ∧
      p.Ys = s.Ys ∧ p.modes = s.modes ∧ p.map = s.map ∧ s.modes = modes) (Sim.modifySt fun {p s s1} h e => ?_) fun _ _ _ => ?_
    · have e := Except.ok.inj (show (Except.ok _ : Py CMTFState) = .ok s1 from e)
      subst e
      exact ⟨_, rfl, ⟨⟨rfl, rfl, rfl, h.1.1, h.1.2⟩, rfl⟩, h.2⟩
    refine Sim.bind (R1 := fun p s : CMTFState => ((CPTarget X.shape.length p.cp s.cp ∧ p.cp.dec = s.cp.dec) ∧
        s.cp.dec.factorMatrices.length = X.shape.length) ∧
      (p.Ys = s.Ys ∧ p.modes = s.modes ∧ p.map = s.map ∧ s.modes = modes) ∧ p.V = s.V ∧ p.coupledWeights = s.coupledWeights)
      (Q := fun _ _ => True) ?_ fun _ _ _ => ?_
    · unfold CMTF.initComponents
      refine Sim.bind (R1 := fun p s : CMTFState => ((CPTarget X.shape.length p.cp s.cp ∧ p.cp.dec = s.cp.dec) ∧
        s.cp.dec.factorMatrices.length = X.shape.length) ∧
        (p.Ys = s.Ys ∧ p.modes = s.modes ∧ p.map = s.map ∧ s.modes = modes)) (Q := fun _ _ => True) ?_ fun _ _ _ => ?_
      · refine zoom_sim (R := fun p s => CPTarget X.shape.length p s ∧ s.X = X)
          (R1 := fun p s => (CPTarget X.shape.length p s ∧ p.dec = s.dec) ∧ s.dec.factorMatrices.length = X.shape.length)
          (Q := fun p s => p.Ys = s.Ys ∧ p.modes = s.modes ∧ p.map = s.map ∧ s.modes = modes) ?_ fun a b h => h
        intro w' w hw a v e
        obtain ⟨a', v', f1, f2, f3⟩ := cp_initComponents_sim (R := CPTarget X.shape.length)
          (R1 := fun p s => CPTarget X.shape.length p s ∧ p.dec = s.dec) (fun h => h.X) (fun h => by rw [h.order]; exact h.nonNeg)
          (fun h t => ⟨h.setDec t, rfl⟩) E c.cp arg w' w
          ⟨hw.st.1, hw.it, hw.maxIts, hw.loggers, hw.file⟩ a v e
        exact ⟨a', v', f1, ⟨⟨f2.st, hwhole w v hw.st.2 e⟩, f2.it, f2.maxIts, f2.loggers, f2.file⟩, f3⟩
      · refine Sim.modifySt fun {p s s1} h e => ?_
        unfold CMTF.initCoupled at e ⊢
        rw [bind_eq_ok] at e
        obtain ⟨Vs, e1, e2⟩ := e
        have e2 := pure_eq_ok.1 e2
        subst e2
        obtain ⟨h1, h2, h3, h4, h5⟩ := h
        rw [h2, h3, initCoupledLoop_same h1.1.1.nonNeg s.Ys 0 s.modes (by rw [h5]; exact hm), e1, bind_ok]
        exact ⟨_, rfl, h1, ⟨rfl, rfl, h4, h5⟩, rfl, rfl⟩
    · refine Sim.bind (setMaxIts_sim _ mi) fun _ _ _ => Sim.modifySt fun {p s s1} h e => ?_
      have e : CMTF.initRest E s = .ok s1 := e
      show ∃ p1, CMTF.initRest E p = .ok p1 ∧ _
      obtain ⟨⟨⟨h1, h2⟩, h3⟩, ⟨h4, h5, h6, -⟩, h7, h8⟩ := h
      have hnn : p.cp.nonNeg.getD (List.replicate p.cp.dec.resetWeights.factorMatrices.length false)
          = s.cp.nonNeg.getD (List.replicate s.cp.dec.resetWeights.factorMatrices.length false) := by
        rw [h2, show s.cp.dec.resetWeights.factorMatrices.length = X.shape.length from h3]; exact h1.nonNeg
      have hon : p.cp.orth.getD (List.replicate p.cp.dec.resetWeights.factorMatrices.length false)
          = s.cp.orth.getD (List.replicate s.cp.dec.resetWeights.factorMatrices.length false) := by
        rw [h2, show s.cp.dec.resetWeights.factorMatrices.length = X.shape.length from h3]; exact h1.orth
      unfold CMTF.initRest at e ⊢
      dsimp only at e ⊢
      simp only [bind_eq_ok] at e
      obtain ⟨fs, e1, v, e2, t, e3, e4⟩ := e
      have e4 := pure_eq_ok.1 e4
      subst e4
      rw [hnn, hon, h2, e1, bind_ok]
      have hsse : ∀ (a b : CMTFState), a.cp.dec = b.cp.dec → a.cp.X = b.cp.X → a.Ys = b.Ys → a.modes = b.modes → a.V = b.V →
          a.coupledWeights = b.coupledWeights → CMTF.sse b = .ok v → CMTF.sse a = .ok v := by
        intro a b g1 g2 g3 g4 g5 g6 g7
        rw [← g7]
        unfold CMTF.sse CMTF.coupledSSE CMTF.reconstructed CMTF.coupledFactors
        rw [g1, g2, g3, g4, g5, g6]
      have e2' := hsse { p with cp := { p.cp with
        dec := { s.cp.dec.resetWeights with factorMatrices := fs }
        nonNeg := some (s.cp.nonNeg.getD (List.replicate s.cp.dec.resetWeights.factorMatrices.length false))
        orth := some (s.cp.orth.getD (List.replicate s.cp.dec.resetWeights.factorMatrices.length false))
        relChange := .pinf } } { s with cp := { s.cp with
        dec := { s.cp.dec.resetWeights with factorMatrices := fs }
        nonNeg := some (s.cp.nonNeg.getD (List.replicate s.cp.dec.resetWeights.factorMatrices.length false))
        orth := some (s.cp.orth.getD (List.replicate s.cp.dec.resetWeights.factorMatrices.length false))
        relChange := .pinf } } rfl h1.X h4 h5 h7 h8 e2
      rw [e2', bind_ok, e3, bind_ok]
      refine ⟨_, rfl, ?_⟩
      unfold CMTFSame
      dsimp only
      rw [h1.X, h1.XNorm, h4, h5, h6, h7, h8]
  obtain ⟨_, v', f1, f2, -⟩ := hs ⟨p, it, B, L, F⟩ ⟨s, it, B, L, F⟩ ⟨⟨hn, ho⟩, rfl, rfl, rfl, rfl⟩ () v e
  exact ⟨v', f1, f2⟩

/-! The constraints after a fit. -/

/-- An object whose constraints are `a` and `b`, next to itself. -/
def CMTFFlags (a b : Option (List Bool)) (p s : CMTFState) : Prop := p = s ∧ s.cp.nonNeg = a ∧ s.cp.orth = b

theorem cmtf_updateModes_flags {E : Ext} {o : CPOpts} : ∀ {ks : List ℕ} {s s1 : CMTFState}, CMTF.updateModes E o ks s = .ok s1 →
    s1.cp.nonNeg = s.cp.nonNeg ∧ s1.cp.orth = s.cp.orth
  | [], s, s1, e => by
    have e := Except.ok.inj (show (Except.ok s : Py CMTFState) = .ok s1 from e)
    rw [e]; exact ⟨rfl, rfl⟩
  | k :: ks, s, s1, e => by
    unfold CMTF.updateModes at e
    rw [List.foldlM_cons, bind_eq_ok] at e
    obtain ⟨s2, e1, e2⟩ := e
    obtain ⟨h1, h2⟩ := cmtf_updateModes_flags (show CMTF.updateModes E o ks s2 = .ok s1 from e2)
    rw [bind_eq_ok] at e1
    obtain ⟨b, -, e3⟩ := e1
    split at e3
    · cases e3
    · unfold CMTF.updateFactor at e3
      simp only [bind_eq_ok] at e3
      obtain ⟨_, _, _, _, _, _, _, _, _, _, _, _, e4⟩ := e3
      rw [h1, h2, ← pure_eq_ok.1 e4]
      exact ⟨rfl, rfl⟩

theorem cmtf_uncoupled_flags {E : Ext} : ∀ {ds : List (Int × List ℕ)} {s s1 : CMTFState},
    ds.foldlM (CMTF.updateUncoupled E) s = .ok s1 → s1.cp = s.cp
  | [], s, s1, e => by
    have e := Except.ok.inj (show (Except.ok s : Py CMTFState) = .ok s1 from e)
    rw [e]
  | d :: ds, s, s1, e => by
    rw [List.foldlM_cons, bind_eq_ok] at e
    obtain ⟨s2, e1, e2⟩ := e
    unfold CMTF.updateUncoupled at e1
    simp only [bind_eq_ok] at e1
    obtain ⟨_, _, _, _, _, _, _, _, _, _, _, _, _, _, e4⟩ := e1
    rw [cmtf_uncoupled_flags e2, ← pure_eq_ok.1 e4]

theorem cmtf_refines_flags {E : Ext} {c : CMTF.Config} (a b : Option (List Bool)) :
    Refines (CMTFFlags a b) (CMTF.method E c).started (CMTF.method E c).started where
  dec := by
    intro p s h
    rw [h.1]
  stop := by
    intro p s b h e
    rw [h.1]; exact e
  prepare := by
    intro p s s1 h e
    have e := Except.ok.inj (show (Except.ok s : Py CMTFState) = .ok s1 from e)
    subst e
    exact ⟨p, rfl, h⟩
  step := by
    intro p s s1 h e
    obtain ⟨rfl, h2, h3⟩ := h
    refine ⟨s1, e, rfl, ?_⟩
    have e : CMTF.iteration E c.cp.opts p = .ok s1 := e
    unfold CMTF.iteration CMTF.updateFactors at e
    simp only [bind_assoc, bind_eq_ok] at e
    obtain ⟨s2, e1, s3, e2, e3⟩ := e
    obtain ⟨g1, g2⟩ := cmtf_updateModes_flags e1
    unfold CMTF.updateConvergence at e3
    rw [bind_eq_ok] at e3
    obtain ⟨v, e4, e5⟩ := e3
    rw [← pure_eq_ok.1 e5]
    show s3.cp.nonNeg = a ∧ s3.cp.orth = b
    rw [cmtf_uncoupled_flags e2, g1, g2]
    exact ⟨h2, h3⟩
  post := by
    intro p s s1 h e
    obtain ⟨rfl, h2, h3⟩ := h
    refine ⟨s1, e, rfl, ?_⟩
    have e : CMTF.normalizeComponents p = .ok s1 := e
    unfold CMTF.normalizeComponents at e
    simp only [bind_eq_ok] at e
    obtain ⟨Vs, e1, t, e2, e3⟩ := e
    rw [← pure_eq_ok.1 e3]
    exact ⟨h2, h3⟩
  initRest := by
    intro p s s1 h e
    cases (show (Except.error PyErr.valueError : Py CMTFState) = .ok s1 from e)
  logs := List.forall₂_same.2 fun l _ => ⟨rfl, fun p s v h e => by rw [h.1]; exact e⟩
  storeDec := rfl
  freq := rfl
  hasPath := rfl
  typeName := rfl
  usesLoopVar := rfl
  writesIts := rfl

/-- What `_init_fit` does with the constraints and the number of factor matrices: it needs as many factor matrices as there are
constraints at most. -/
theorem cmtf_initRest_flags {E : Ext} {s s1 : CMTFState} (e : CMTF.initRest E s = .ok s1) :
    s1.cp.nonNeg = some (s.cp.nonNeg.getD (List.replicate s.cp.dec.factorMatrices.length false)) ∧
    s1.cp.orth = some (s.cp.orth.getD (List.replicate s.cp.dec.factorMatrices.length false)) ∧ s1.cp.X = s.cp.X ∧
    (∀ l, s.cp.orth = some l → l.length ≤ s.cp.dec.factorMatrices.length) := by
  unfold CMTF.initRest at e
  dsimp only at e
  simp only [bind_eq_ok] at e
  obtain ⟨fs, e1, v, e2, t, e3, e4⟩ := e
  rw [← pure_eq_ok.1 e4]
  refine ⟨rfl, rfl, rfl, fun l hl => ?_⟩
  by_contra hlt
  rw [hl] at e1
  have := (orthonormalise_length e1).2 (by
    show s.cp.dec.factorMatrices.length < 0 + l.length
    omega)
  have : l = [] := this
  subst this
  simp at hlt

/-- What is known after `_init_fit`. -/
theorem cmtf_init_facts {E : Ext} {c : CMTF.Config} {X : NDArray ℝ} {Ys : List (NDArray ℝ)} {modes : List Int} {mi : Option Int}
    {arg : InitArg KruskalTensor} (hwhole : CP.Whole E c.cp arg X) {w v : World CMTFState}
    (e : CMTF.fit E c X Ys modes mi arg w = .ok () v) :
    ∃ w1, run (CMTF.method E c) w1 = .ok () v ∧
      w1.st.cp.nonNeg = some (w.st.cp.nonNeg.getD (List.replicate X.shape.length false)) ∧
      w1.st.cp.orth = some (w.st.cp.orth.getD (List.replicate X.shape.length false)) ∧ w1.st.cp.X = X ∧
      (∀ l, w.st.cp.orth = some l → l.length ≤ X.shape.length) ∧
      ∃ u u' : World CPState, u.st.X = X ∧ u.it = 0 ∧ CP.initComponents E c.cp arg u = .ok () u' ∧ w1.it = u'.it := by
  unfold CMTF.fit Fit.fit initFit at e
  simp only [bind_assoc] at e
  obtain ⟨_, w1, e1, e⟩ := ok_of_bind e
  rw [modifySt_ok (s := CMTF.setCoupled Ys modes w.st) rfl] at e1
  injection e1 with _ e1
  subst e1
  obtain ⟨_, w1, e1, e⟩ := ok_of_bind e
  rw [modify_def] at e1
  injection e1 with _ e1
  subst e1
  obtain ⟨_, w1, e1, e⟩ := ok_of_bind e
  rw [modifySt_ok (s := { CMTF.setCoupled Ys modes w.st with cp := { w.st.cp with X := X, XNorm := frobNorm X } }) rfl] at e1
  injection e1 with _ e1
  subst e1
  obtain ⟨_, w2, e2, e⟩ := ok_of_bind e
  obtain ⟨_, w3, e3, e⟩ := ok_of_bind e
  obtain ⟨_, w4, e4, e⟩ := ok_of_bind e
  refine ⟨w4, e, ?_⟩
  unfold CMTF.initComponents at e2
  obtain ⟨_, w5, e5, e6⟩ := ok_of_bind e2
  unfold CMTF.zoom at e5
  dsimp only at e5
  set u : World CPState := ⟨{ w.st.cp with X := X, XNorm := frobNorm X }, 0, w.maxIts, w.loggers, w.file⟩ with hu
  cases hc : CP.initComponents E c.cp arg u with
  | error err u' => rw [hc] at e5; cases e5
  | ok a u' =>
    rw [hc] at e5
    injection e5 with _ e5
    obtain ⟨_, u1, g1, g2, -⟩ := cp_initComponents_sim
      (R := fun p s => p = s ∧ s.nonNeg = w.st.cp.nonNeg ∧ s.orth = w.st.cp.orth ∧ s.X = X)
      (R1 := fun p s => p = s ∧ s.nonNeg = w.st.cp.nonNeg ∧ s.orth = w.st.cp.orth ∧ s.X = X) (fun h => by rw [h.1])
      (fun h => by rw [h.1]; exact rfl) (fun h t => by obtain ⟨rfl, h2⟩ := h; exact ⟨rfl, h2⟩) E c.cp arg u u
      ⟨⟨rfl, rfl, rfl, rfl⟩, rfl, rfl, rfl, rfl⟩ _ _ hc
    obtain ⟨-, k1, k2, k3⟩ := g2.st
    have k4 := hwhole u u' rfl hc
    cases h6 : CMTF.initCoupled c w5.st with
    | error err => rw [modifySt_error h6] at e6; cases e6
    | ok s6 =>
      rw [modifySt_ok h6] at e6
      injection e6 with _ e6
      unfold CMTF.initCoupled at h6
      rw [bind_eq_ok] at h6
      obtain ⟨Vs, h7, h8⟩ := h6
      have h8 := pure_eq_ok.1 h8
      have hcp : w2.st.cp = u'.st := by rw [← e6, ← h8, ← e5]
      have hit : w2.it = u'.it := by rw [← e6, ← e5]
      have h3 : w3.st = w2.st ∧ w3.it = w2.it := by
        cases mi with
        | none =>
          injection (show Result.ok () w2 = Result.ok () w3 from e3) with _ e3
          rw [e3]; exact ⟨rfl, rfl⟩
        | some n =>
          injection (show Result.ok () { w2 with maxIts := n } = Result.ok () w3 from e3) with _ e3
          rw [← e3]; exact ⟨rfl, rfl⟩
      cases h9 : CMTF.initRest E w3.st with
      | error err => rw [modifySt_error (f := (CMTF.method E c).initRest) h9] at e4; cases e4
      | ok s9 =>
        rw [modifySt_ok (f := (CMTF.method E c).initRest) h9] at e4
        injection e4 with _ e4
        obtain ⟨q1, q2, q3, q4⟩ := cmtf_initRest_flags h9
        rw [h3.1, hcp] at q1 q2 q3 q4
        rw [k4, k1] at q1
        rw [k4, k2] at q2
        rw [k4, k2] at q4
        rw [← e4]
        exact ⟨q1, q2, q3.trans k3, q4, u, u', rfl, rfl, hc, h3.2.trans hit⟩

/-- The constraints of an object after a fit are those it had, as lists. -/
theorem cmtf_fit_flags {E : Ext} {c : CMTF.Config} {X : NDArray ℝ} {Ys : List (NDArray ℝ)} {modes : List Int} {mi : Option Int}
    {arg : InitArg KruskalTensor} (hwhole : CP.Whole E c.cp arg X) {w v : World CMTFState}
    (e : CMTF.fit E c X Ys modes mi arg w = .ok () v) :
    v.st.cp.nonNeg = some (w.st.cp.nonNeg.getD (List.replicate X.shape.length false)) ∧
      v.st.cp.orth = some (w.st.cp.orth.getD (List.replicate X.shape.length false)) := by
  obtain ⟨w1, e1, h1, h2, -⟩ := cmtf_init_facts hwhole e
  have := run_sim (cmtf_refines_flags (E := E) (c := c) w1.st.cp.nonNeg w1.st.cp.orth)
  rw [run_started] at this
  obtain ⟨_, v', f1, f2, -⟩ := this w1 w1 ⟨⟨rfl, rfl, rfl⟩, rfl, rfl, rfl, rfl⟩ _ _ e1
  exact ⟨f2.st.2.1.trans h1, f2.st.2.2.trans h2⟩

/-- A `CMTF_ALS` object that was created with the constraints `nn` and `on` and used for tensors with `d` modes. -/
inductive CMTF.Used (E : Ext) (c : CMTF.Config) (nn on : Option (List Bool)) (d : ℕ) : World CMTFState → Prop
  | new (B : Int) (L : List Logger) (F : Option H5File) : CMTF.Used E c nn on d (CMTF.newObject nn on B L F)
  | fit {w v : World CMTFState} {X : NDArray ℝ} {Ys : List (NDArray ℝ)} {modes : List Int} {mi : Option Int}
      {arg : InitArg KruskalTensor} : CMTF.Used E c nn on d w → X.shape.length = d → CP.Whole E c.cp arg X →
      CMTF.fit E c X Ys modes mi arg w = .ok () v → CMTF.Used E c nn on d v
  | goOn {w v : World CMTFState} {mi : Option Int} : CMTF.Used E c nn on d w →
      continueFit (CMTF.method E c) mi w = .ok () v → CMTF.Used E c nn on d v

theorem CMTF.Used.flags {E : Ext} {c : CMTF.Config} {nn on : Option (List Bool)} {d : ℕ} {w : World CMTFState}
    (h : CMTF.Used E c nn on d w) : SameFlags d w.st.cp.nonNeg nn ∧ SameFlags d w.st.cp.orth on := by
  induction h with
  | new B L F => exact ⟨rfl, rfl⟩
  | fit _ hX hw e ih =>
    obtain ⟨h1, h2⟩ := cmtf_fit_flags hw e
    rw [hX] at h1 h2
    unfold SameFlags at ih ⊢
    rw [h1, h2]
    exact ih
  | @goOn w v mi _ e ih =>
    unfold continueFit at e
    obtain ⟨_, w1, e1, e2⟩ := ok_of_bind e
    have h1 : w1.st = w.st := by
      cases mi with
      | none =>
        injection (show Result.ok () w = Result.ok () w1 from e1) with _ e1
        rw [e1]
      | some n =>
        injection (show Result.ok () { w with maxIts := n } = Result.ok () w1 from e1) with _ e1
        rw [← e1]
    have := run_sim (cmtf_refines_flags (E := E) (c := c) w1.st.cp.nonNeg w1.st.cp.orth)
    rw [run_started] at this
    obtain ⟨_, v', f1, f2, -⟩ := this w1 w1 ⟨⟨rfl, rfl, rfl⟩, rfl, rfl, rfl, rfl⟩ _ _ e2
    rw [f2.st.2.1, f2.st.2.2, h1]
    exact ih

/-- C124 for `CMTF_ALS`, the part that holds: `fit` of an object that was used for tensors with as many modes as `X` does the same
as `fit` of a new object with the same options, `max_its`, loggers and checkpoint file. One of the two returns if and only if the
other one does, and everything but the number of the mode that was updated last is then the same.
Missing: tensors with another number of modes (see `C124_fails` and `C124_higher_order`). -/
theorem C124_cmtf_partial {E : Ext} {c : CMTF.Config} (hp : c.Public) {nn on : Option (List Bool)} {X : NDArray ℝ}
    {used : World CMTFState} (hu : CMTF.Used E c nn on X.shape.length used) {Ys : List (NDArray ℝ)} {modes : List Int}
    (hm : ∀ m ∈ modes, ∃ k, IsMode m X.shape.length k) {arg : InitArg KruskalTensor} (hwhole : CP.Whole E c.cp arg X)
    (mi : Option Int) :
    (∀ v, CMTF.fit E c X Ys modes mi arg used = .ok () v →
      ∃ v', CMTF.fit E c X Ys modes mi arg (CMTF.newObject nn on used.maxIts used.loggers used.file) = .ok () v' ∧
        WRel CMTFSame v' v) ∧
    (∀ v', CMTF.fit E c X Ys modes mi arg (CMTF.newObject nn on used.maxIts used.loggers used.file) = .ok () v' →
      ∃ v, CMTF.fit E c X Ys modes mi arg used = .ok () v ∧ WRel CMTFSame v v') := by
  obtain ⟨h1, h2⟩ := hu.flags
  obtain ⟨p, it, B, L, F⟩ := used
  exact ⟨fun v e => cmtf_fit_again hp hm hwhole (s := p) (p := (CMTF.newObject nn on B L F).st) h1.symm h2.symm e,
    fun v e => cmtf_fit_again hp hm hwhole (p := p) (s := (CMTF.newObject nn on B L F).st) h1 h2 e⟩

/-- An object without orthonormality constraints that was fitted to a tensor cannot be fitted to a tensor with fewer modes. -/
theorem C124_lower_order {E : Ext} {c : CMTF.Config} {nn : Option (List Bool)} {X1 X2 : NDArray ℝ} {Ys1 Ys2 : List (NDArray ℝ)}
    {modes1 modes2 : List Int} {mi1 mi2 : Option Int} {arg1 arg2 : InitArg KruskalTensor} (hw1 : CP.Whole E c.cp arg1 X1)
    (hw2 : CP.Whole E c.cp arg2 X2) (hlt : X2.shape.length < X1.shape.length) {B : Int} {L : List Logger} {F : Option H5File}
    {used : World CMTFState} (e : CMTF.fit E c X1 Ys1 modes1 mi1 arg1 (CMTF.newObject nn none B L F) = .ok () used)
    (v : World CMTFState) : CMTF.fit E c X2 Ys2 modes2 mi2 arg2 used ≠ .ok () v := by
  intro e2
  obtain ⟨_, h2⟩ := cmtf_fit_flags hw1 e
  obtain ⟨w1, _, _, _, _, h3, _⟩ := cmtf_init_facts hw2 e2
  have := h3 _ h2
  rw [show ((CMTF.newObject nn none B L F).st.cp.orth.getD (List.replicate X1.shape.length false)).length
    = X1.shape.length from List.length_replicate ..] at this
  omega

theorem updateModes_needs {E : Ext} {o : CPOpts} {l : List Bool} : ∀ {ks : List ℕ} {s s1 : CMTFState},
    CMTF.updateModes E o ks s = .ok s1 → s.cp.nonNeg = some l → ∀ k ∈ ks, k < l.length
  | [], _, _, _, _, _, hk => by simp at hk
  | k :: ks, s, s1, e, hl, j, hj => by
    have e' := e
    unfold CMTF.updateModes at e
    rw [List.foldlM_cons, bind_eq_ok] at e
    obtain ⟨s2, e1, e2⟩ := e
    have h2 : s2.cp.nonNeg = some l := by
      rw [(cmtf_updateModes_flags (E := E) (o := o) (ks := [k]) (s := s) (s1 := s2) (by
        unfold CMTF.updateModes
        rw [List.foldlM_cons, e1]; rfl)).1, hl]
    rw [bind_eq_ok] at e1
    obtain ⟨b, e3, _⟩ := e1
    rcases List.mem_cons.1 hj with rfl | hj
    · by_contra hlt
      rw [hl, show CMTF.flagAt (some l) (j : Int) = pyGet l j from rfl, pyGet_nat_error (by omega)] at e3
      cases e3
    · exact updateModes_needs (show CMTF.updateModes E o ks s2 = .ok s1 from e2) h2 j hj

/-- An object without non-negativity constraints that was fitted to a tensor makes no iteration for a tensor with more modes: the
fit returns only if the start meets the stopping criterion. -/
theorem C124_higher_order {E : Ext} {c : CMTF.Config} {on : Option (List Bool)} {X1 X2 : NDArray ℝ} {Ys1 Ys2 : List (NDArray ℝ)}
    {modes1 modes2 : List Int} {mi1 mi2 : Option Int} {arg1 arg2 : InitArg KruskalTensor} (hw1 : CP.Whole E c.cp arg1 X1)
    (hi : c.cp.init.toLower ∈ ["random", "svd", "precomputed"])
    (ht : ∀ t, arg2 = .tensor t → t.factorMatrices.length = X2.shape.length) (hlt : X1.shape.length < X2.shape.length)
    {B : Int} {L : List Logger} {F : Option H5File} {used v : World CMTFState}
    (e : CMTF.fit E c X1 Ys1 modes1 mi1 arg1 (CMTF.newObject none on B L F) = .ok () used)
    (e2 : CMTF.fit E c X2 Ys2 modes2 mi2 arg2 used = .ok () v) : v.it = 0 := by
  obtain ⟨h1, _⟩ := cmtf_fit_flags hw1 e
  obtain ⟨w1, e3, h2, _, h4, _, u, u', hu, hu0, hu1, hu2⟩ := cmtf_init_facts (whole_plain hi ht) e2
  have hit : w1.it = 0 := by
    rw [hu2, ← hu0]
    exact (initComponents_plain hi (by rw [hu]; exact ht) hu1).2
  rw [h1] at h2
  have h2 : w1.st.cp.nonNeg = some (List.replicate X1.shape.length false) := h2
  unfold run at e3
  obtain ⟨_, w2, e4, e3⟩ := ok_of_bind e3
  rw [modifySt_ok (f := (CMTF.method E c).prepare) (s := w1.st) rfl] at e4
  injection e4 with _ e4
  obtain rfl : w1 = w2 := e4
  obtain ⟨w2, w3, e4, e3⟩ := ok_of_bind e3
  rw [get_def] at e4
  injection e4 with e4 e5
  subst e4 e5
  obtain ⟨last, w2, e4, e3⟩ := ok_of_bind e3
  obtain ⟨_, w3, e5, e6⟩ := ok_of_bind e3
  have h6 : v.it = w3.it := by
    cases hf : (CMTF.method E c).post w3.st with
    | error err => rw [modifySt_error hf] at e6; cases e6
    | ok s1 =>
      rw [modifySt_ok hf] at e6
      injection e6 with _ e6
      rw [← e6]
  have h5 : w3.it = w2.it := by
    have := final_same (CMTF.method E c) last w2
    rw [e5] at this
    exact this.2.1
  rw [h6, h5, ← hit]
  generalize (w1.maxIts - w1.it).toNat = n at e4
  cases n with
  | zero =>
    rw [loop, pure_def] at e4
    injection e4 with _ e4
    rw [e4]
  | succ n =>
    rw [loop] at e4
    obtain ⟨u1, w4, f1, e4⟩ := ok_of_bind e4
    rw [get_def] at f1
    injection f1 with f1 f2
    subst f1 f2
    obtain ⟨b, w4, f1, e4⟩ := ok_of_bind e4
    cases hs : (CMTF.method E c).stop w1.st with
    | error err => rw [lift_error hs] at f1; cases f1
    | ok b' =>
      rw [lift_ok hs] at f1
      injection f1 with f1 f2
      subst f1 f2
      cases b' with
      | true =>
        rw [if_pos rfl, pure_def] at e4
        injection e4 with _ e4
        rw [e4]
      | false =>
        rw [if_neg (by simp)] at e4
        obtain ⟨_, w4, f1, _⟩ := ok_of_bind e4
        cases hf : (CMTF.method E c).step w1.st with
        | error err => rw [modifySt_error hf] at f1; cases f1
        | ok s1 =>
          have hf : CMTF.iteration E c.cp.opts w1.st = .ok s1 := hf
          unfold CMTF.iteration CMTF.updateFactors at hf
          simp only [bind_assoc, bind_eq_ok] at hf
          obtain ⟨s2, g1, _⟩ := hf
          have := updateModes_needs g1 h2 X1.shape.length (by rw [h4]; exact List.mem_range.2 hlt)
          simp at this

/-- C124 is violated by `CMTF_ALS`: for all tensors `X1` and `X2` where `X2` has fewer modes, new objects can be fitted to both,
but an object that was fitted to `X1` cannot be fitted to `X2`. -/
theorem C124_fails {E : Ext} (hE : E.SVDOk) (hN : E.NNLSOk) (hQ : E.QROk) {c : CMTF.Config} {X1 X2 : NDArray ℝ}
    (hA1 : CP.Admissible c.cp.opts none none X1.shape) (hA2 : CP.Admissible c.cp.opts none none X2.shape)
    {Ys1 Ys2 : List (NDArray ℝ)} {modes1 modes2 : List Int} {ms1 qs1 ms2 qs2 : List ℕ}
    (hC1 : CMTF.Coupled X1.shape Ys1 modes1 ms1 qs1) (hC2 : CMTF.Coupled X2.shape Ys2 modes2 ms2 qs2)
    (hlog1 : c.Measurable ms1 qs1) (hlog2 : c.Measurable ms2 qs2) (hfreq : freqOption c.cp.freq ≠ 0)
    (hi : c.cp.init.toLower = "precomputed") {t1 t2 : KruskalTensor} (ht1 : t1.WF X1.shape c.cp.opts.rank)
    (ht2 : t2.WF X2.shape c.cp.opts.rank) (hlt : X2.shape.length < X1.shape.length) {n : Int} (hb : 0 < n) {B : Int}
    {L : List Logger} {F : Option H5File} (hS : Storing (CMTF.method E c) (CMTF.newObject none none B L F) []) :
    ∃ used v, CMTF.fit E c X1 Ys1 modes1 (some n) (.tensor t1) (CMTF.newObject none none B L F) = .ok () used ∧
      CMTF.fit E c X2 Ys2 modes2 (some n) (.tensor t2) (CMTF.newObject none none B L F) = .ok () v ∧
      ∀ v', CMTF.fit E c X2 Ys2 modes2 (some n) (.tensor t2) used ≠ .ok () v' := by
  obtain ⟨_, _, _, used, _, _, e1, _⟩ := C83_fit_completes hE hN hQ hA1 (by simp) hC1 hlog1 hfreq
    (startsFrom_precomputed hi ht1) ht1 (mi := some n) (budget := B) hb hS
  obtain ⟨_, _, _, v, _, _, e2, _⟩ := C83_fit_completes hE hN hQ hA2 (by simp) hC2 hlog2 hfreq
    (startsFrom_precomputed hi ht2) ht2 (mi := some n) (budget := B) hb hS
  refine ⟨used, v, e1, e2, fun v' => C124_lower_order (whole_plain (by simp [hi]) ?_) (whole_plain (by simp [hi]) ?_) hlt e1 v'⟩
  · rintro t ⟨⟩; exact ht1.factors.length_eq
  · rintro t ⟨⟩; exact ht2.factors.length_eq

/-- The hypotheses of `C124_fails` for every `2 × 2 × 2` tensor, every `2 × 2` matrix and every start. -/
example {E : Ext} (hE : E.SVDOk) (hN : E.NNLSOk) (hQ : E.QROk) (d : ℕ → ℕ → ℕ → ℝ) (x : List ℕ → ℝ) (y f g h : ℕ → ℕ → ℝ) :
    ∃ used v, CMTF.fit E (coupledConfig d) (ofFn [2, 2, 2] x) [] [] (some 5)
        (.tensor ⟨2, [ofMat 2 2 f, ofMat 2 2 g, ofMat 2 2 h], full [2] 1⟩) (CMTF.newObject none none 5 [] none) = .ok () used ∧
      CMTF.fit E (coupledConfig d) (ofMat 2 2 y) [ofMat 2 3 f] [0] (some 5)
        (.tensor ⟨2, [ofMat 2 2 f, ofMat 2 2 g], full [2] 1⟩) (CMTF.newObject none none 5 [] none) = .ok () v ∧
      ∀ v', CMTF.fit E (coupledConfig d) (ofMat 2 2 y) [ofMat 2 3 f] [0] (some 5)
        (.tensor ⟨2, [ofMat 2 2 f, ofMat 2 2 g], full [2] 1⟩) used ≠ .ok () v' := by
  refine C124_fails hE hN hQ (ms1 := []) (qs1 := []) (ms2 := [0]) (qs2 := [3]) ?_ (pair_admissible rfl) ?_ ?_ (coupled_measurable _ _ _)
    (coupled_measurable _ _ _) (show freqOption none ≠ 0 by decide) pair_init ?_ ?_
    (by show 2 < 3; decide) (by decide) (coupled_storing _ _ _)
  · show CP.Admissible _ _ _ [2, 2, 2]
    exact ⟨show 0 < 2 by decide, by simp, by simp, by simp, by simp, by simp [coupledConfig, pairConfig], by simp, by simp⟩
  · exact ⟨.nil, rfl, fun i hi => by simp at hi⟩
  · refine ⟨.cons ⟨show 0 < 2 by decide, Or.inl rfl⟩ .nil, rfl, fun i hi => ?_⟩
    have : i < 1 := hi
    interval_cases i
    rfl
  · exact ⟨rfl, .cons rfl (.cons rfl (.cons rfl .nil)), rfl⟩
  · exact ⟨rfl, .cons rfl (.cons rfl .nil), rfl⟩

/-- The hypotheses of `C124_cmtf_partial`: a fit to a `2 × 2` matrix with a coupled matrix, and a second one to another matrix
without. -/
example {E : Ext} (hE : E.SVDOk) (hN : E.NNLSOk) (hQ : E.QROk) (d : ℕ → ℕ → ℕ → ℝ) (x y f g : ℕ → ℕ → ℝ) :
    ∃ used v v', CMTF.fit E (coupledConfig d) (ofMat 2 2 x) [ofMat 2 3 f, ofMat 2 2 g] [0, -1] (some 5)
        (.tensor ⟨2, [ofMat 2 2 f, ofMat 2 2 g], full [2] 1⟩) (CMTF.newObject none none 5 [] none) = .ok () used ∧
      CMTF.fit E (coupledConfig d) (ofMat 2 2 y) [] [] (some 5)
        (.tensor ⟨2, [ofMat 2 2 f, ofMat 2 2 g], full [2] 1⟩) (CMTF.newObject none none used.maxIts used.loggers used.file)
        = .ok () v' ∧
      CMTF.fit E (coupledConfig d) (ofMat 2 2 y) [] [] (some 5)
        (.tensor ⟨2, [ofMat 2 2 f, ofMat 2 2 g], full [2] 1⟩) used = .ok () v ∧ WRel CMTFSame v v' := by
  have ht : ∀ z : ℕ → ℕ → ℝ, KruskalTensor.WF ⟨2, [ofMat 2 2 f, ofMat 2 2 g], full [2] 1⟩ (ofMat 2 2 z).shape 2 :=
    fun z => ⟨rfl, .cons rfl (.cons rfl .nil), rfl⟩
  have hw : ∀ z : ℕ → ℕ → ℝ, CP.Whole E (coupledConfig d).cp (.tensor ⟨2, [ofMat 2 2 f, ofMat 2 2 g], full [2] 1⟩) (ofMat 2 2 z) :=
    fun z => whole_plain (by rw [show (coupledConfig d).cp.init.toLower = _ from pair_init]; simp) (by rintro t ⟨⟩; rfl)
  obtain ⟨_, _, _, used, _, _, e1, _⟩ := C83_fit_completes hE hN hQ (c := coupledConfig d) (pair_admissible rfl) (by simp)
    (coupled_two x f g) (coupled_measurable _ _ _) (show freqOption none ≠ 0 by decide)
    (startsFrom_precomputed pair_init (ht x)) (ht x) (mi := some 5) (budget := 5) (loggers := []) (file := none) (by decide)
    (coupled_storing _ _ _)
  obtain ⟨_, _, _, v', _, _, e2, _⟩ := C83_fit_completes hE hN hQ (c := coupledConfig d) (X := ofMat 2 2 y) (pair_admissible rfl)
    (by simp) (Ys := []) (modes := []) (ms := []) (qs := []) ⟨.nil, rfl, fun i hi => by simp at hi⟩ (coupled_measurable _ _ _)
    (show freqOption none ≠ 0 by decide)
    (startsFrom_precomputed pair_init (ht y)) (ht y) (mi := some 5) (budget := used.maxIts) (loggers := used.loggers)
    (file := used.file) (show (0 : Int) < 5 by decide) (coupled_storing _ _ _)
  obtain ⟨v, e3, e4⟩ := (C124_cmtf_partial (E := E) (c := coupledConfig d) (fun l hl => by simp [coupledConfig] at hl) (X := ofMat 2 2 y)
    (.fit (X := ofMat 2 2 x) (.new 5 [] none) rfl (hw x) e1) (Ys := []) (modes := []) (by simp) (hw y) (some 5)).2 v' e2
  exact ⟨used, v, v', e1, e2, e3, e4⟩

/-- The hypotheses of `C124_higher_order`: first a `2 × 2` matrix, then a `2 × 2 × 2` tensor. -/
example {E : Ext} (hE : E.SVDOk) (hN : E.NNLSOk) (hQ : E.QROk) (d : ℕ → ℕ → ℕ → ℝ) (x f g h : ℕ → ℕ → ℝ) (y : List ℕ → ℝ) :
    ∃ used, CMTF.fit E (coupledConfig d) (ofMat 2 2 x) [ofMat 2 3 f, ofMat 2 2 g] [0, -1] (some 5)
        (.tensor ⟨2, [ofMat 2 2 f, ofMat 2 2 g], full [2] 1⟩) (CMTF.newObject none none 5 [] none) = .ok () used ∧
      ∀ v, CMTF.fit E (coupledConfig d) (ofFn [2, 2, 2] y) [] [] (some 5)
        (.tensor ⟨2, [ofMat 2 2 f, ofMat 2 2 g, ofMat 2 2 h], full [2] 1⟩) used = .ok () v → v.it = 0 := by
  have ht : KruskalTensor.WF ⟨2, [ofMat 2 2 f, ofMat 2 2 g], full [2] 1⟩ (ofMat 2 2 x).shape 2 :=
    ⟨rfl, .cons rfl (.cons rfl .nil), rfl⟩
  have hi : (coupledConfig d).cp.init.toLower ∈ ["random", "svd", "precomputed"] := by
    rw [show (coupledConfig d).cp.init.toLower = _ from pair_init]; simp
  obtain ⟨_, _, _, used, _, _, e1, _⟩ := C83_fit_completes hE hN hQ (c := coupledConfig d) (pair_admissible rfl) (by simp)
    (coupled_two x f g) (coupled_measurable _ _ _) (show freqOption none ≠ 0 by decide)
    (startsFrom_precomputed pair_init ht) ht (mi := some 5) (budget := 5) (loggers := []) (file := none) (by decide)
    (coupled_storing _ _ _)
  exact ⟨used, e1, fun v e2 => C124_higher_order (whole_plain hi (by rintro t ⟨⟩; rfl)) hi (by rintro t ⟨⟩; rfl)
    (by show 2 < 3; decide) e1 e2⟩

end
end TK
