import Verif.Props.ContinueP2Orth
import Verif.Props.Refit

/-!
# C125: which arrays a `Parafac2_ALS` fit changes

Source: parafac2.py:97-149 (the starts), 244-255 (projection matrices), 375-387 and 417-429 (the inner `CP_ALS` object).
-/

namespace TK
open NDArray Fit
open EStateM (Result)

noncomputable section

/-- Spec: the arrays of a decomposition. -/
def P2Obj.arrays (d : P2Obj) : List Addr := d.A :: d.blueprint :: d.C :: d.P

/-! ## Calls -/

section calls
variable {σ τ : Type}

/-- From a state with `P`, the call ends in a state with `Q` if it returns, and in one with `G` if it raises. -/
def Ends {α : Type} (P Q G : σ → Prop) (x : Fit σ α) : Prop :=
  ∀ w : World σ, P w.st → match x w with
    | .ok _ v => Q v.st
    | .error _ v => G v.st

variable {α β : Type} {P Q R G : σ → Prop}

theorem Ends.bind {x : Fit σ α} {f : α → Fit σ β} (hx : Ends P Q G x) (hf : ∀ a, Ends Q R G (f a)) : Ends P R G (x >>= f) := by
  intro w hw
  have h := hx w hw
  rw [bind_def]
  cases e : x w with
  | ok a v => rw [e] at h; exact hf a v h
  | error e' v => rw [e] at h; exact h

theorem Ends.keeps {x : Fit σ α} (hG : ∀ s, P s → G s) (h : ∀ w, (after (x w)).st = w.st) : Ends P P G x := by
  intro w hw
  have := h w
  cases e : x w with
  | ok a v => rw [e] at this; simp only [after] at this; simp only [this]; exact hw
  | error e' v => rw [e] at this; simp only [after] at this; simp only [this]; exact hG _ hw

theorem Ends.pure (a : α) : Ends P P G (Pure.pure a : Fit σ α) := fun _ h => h

theorem Ends.throw (hG : ∀ s, P s → G s) (e : PyErr) : Ends P Q G (MonadExcept.throw e : Fit σ α) := fun _ h => hG _ h

theorem Ends.lift (hG : ∀ s, P s → G s) (x : Py α) : Ends P P G (Fit.lift x : Fit σ α) :=
  Ends.keeps hG fun w => by cases x <;> rfl

theorem Ends.modifySt {f : σ → Py σ} (hG : ∀ s, P s → G s) (h : ∀ s s', P s → f s = .ok s' → Q s') :
    Ends P Q G (Fit.modifySt f) := by
  intro w hw
  cases e : f w.st with
  | ok s' => rw [modifySt_ok e]; exact h _ _ hw e
  | error e' => rw [modifySt_error e]; exact hG _ hw

theorem Ends.setMaxIts (mi : Option Int) : Ends P P G (Fit.setMaxIts mi : Fit σ Unit) := by
  cases mi <;> exact fun _ h => h

theorem iterM_keeps {step : σ → Py σ} (h : ∀ s s', P s → step s = .ok s' → P s') :
    ∀ (k : ℕ) (s s' : σ), P s → iterM step k s = .ok s' → P s'
  | 0, s, s', hs, e => by rw [iterM] at e; exact (Except.ok.inj e) ▸ hs
  | k + 1, s, s', hs, e => by
    rw [iterM] at e
    obtain ⟨s1, e1, e2⟩ := bind_eq_ok.1 e
    exact iterM_keeps h k s1 s' (h _ _ hs e1) e2

/-- `_fit`: a property that every iteration keeps. -/
theorem Ends.run {m : Method σ τ} (hprep : ∀ s s', P s → m.prepare s = .ok s' → Q s')
    (hstep : ∀ s s', Q s → m.step s = .ok s' → Q s') (hpost : ∀ s s', Q s → m.post s = .ok s' → R s') (hG : ∀ s, P s → G s)
    (hG' : ∀ s, Q s → G s) : Ends P R G (Fit.run m) := by
  unfold Fit.run
  refine (Ends.modifySt hG hprep).bind fun _ => ?_
  refine Ends.bind (Q := Q) (fun w h => h) fun w0 => ?_
  refine Ends.bind (Q := Q) (fun w h => ?_) fun last => (Ends.keeps hG' fun w => (final_same m last w).1).bind fun _ =>
    Ends.modifySt hG' hpost
  have hL := C41_loop m (w0.maxIts - w0.it).toNat 0 none w
  cases e : loop m (w0.maxIts - w0.it).toNat 0 none w with
  | ok r v =>
    rw [e] at hL
    obtain ⟨k, -, h1, -⟩ := hL
    exact iterM_keeps hstep k _ _ h h1
  | error r v =>
    rw [e] at hL
    obtain ⟨k, -, h1, -⟩ := hL
    exact hG' _ (iterM_keeps hstep k _ _ h h1)

/-- `fit`. -/
theorem Ends.fit {m : Method σ τ} {setTarget : σ → Py σ} {ic : Fit σ Unit} {mi : Option Int} {P' Q' : σ → Prop}
    (htarget : ∀ s s', P s → setTarget s = .ok s' → P' s') (hinit : Ends P' Q' G ic)
    (hrest : ∀ s s', Q' s → m.initRest s = .ok s' → Q s')
    (hG : ∀ s, P s → G s) (hG' : ∀ s, Q' s → G s) (hrun : Ends Q R G (Fit.run m)) :
    Ends P R G (Fit.fit m setTarget ic mi) := by
  unfold Fit.fit Fit.initFit
  refine Ends.bind ?_ fun _ => hrun
  refine Ends.bind (Q := P) (fun w h => h) fun _ => ?_
  refine (Ends.modifySt hG htarget).bind fun _ => ?_
  exact hinit.bind fun _ => (Ends.setMaxIts mi).bind fun _ => Ends.modifySt hG' hrest

/-- `load_checkpoint`. -/
theorem Ends.load {m : Method σ τ} (path : FileArg) (n : Option Int) (h : ∀ s d, P s → Q (m.setDec d s)) (hG : ∀ s, P s → G s) :
    Ends P Q G (Fit.loadCheckpoint m path n) := by
  unfold Fit.loadCheckpoint
  have thr : ∀ {γ : Type} (e : PyErr) (k : γ → Fit σ Unit), Ends P Q G (MonadExcept.throw e >>= k) := fun _ _ _ hw => hG _ hw
  have key : ∀ (f : H5File) (k : Int), Ends P Q G (do
      modify fun w => { w with it := k }
      if (!f.hasName (ckName k)) = true then MonadExcept.throw PyErr.valueError
      let g ← Fit.lift (f.groups.item (ckName k))
      let d ← Fit.lift (m.loadDec g)
      let w ← MonadState.get
      Fit.lift (m.check d w.st)
      set { w with st := m.setDec d w.st }) := by
    intro f k
    refine Ends.bind (Q := P) (fun w h => h) fun _ => ?_
    by_cases hn : (!f.hasName (ckName k)) = true
    · simp only [if_pos hn]
      exact thr _ _
    · simp only [if_neg hn]
      refine (Ends.lift hG _).bind fun g => (Ends.lift hG _).bind fun d => ?_
      intro w hw
      rw [bind_of_ok (get_def w)]
      cases e : m.check d w.st with
      | error e' => rw [bind_of_error (lift_error rfl _)]; exact hG _ hw
      | ok u => rw [bind_of_ok (lift_ok rfl _)]; exact h _ _ hw
  refine (Ends.lift hG _).bind fun f => ?_
  by_cases hk : (!f.root.attrs.has finalKey) = true
  · simp only [if_pos hk]
    exact thr _ _
  · simp only [if_neg hk]
    cases n with
    | some k => exact key f k
    | none => exact (Ends.lift hG _).bind fun k => key f k

end calls

/-! ## The arrays a decomposition does not have stay -/

/-- `omega` for addresses. -/
local macro "aomega" : tactic => `(tactic| (try dsimp only [Addr] at *) <;> omega)

/-- Arrays in `S` and new arrays (relative to the heap `h0`). -/
def Heap.Free (S : List Addr) (h0 : Heap) (a : Addr) : Prop := a ∈ S ∨ h0.next ≤ a

/-- The heap agrees with `h0` except for free arrays. -/
structure Heap.Frame (S : List Addr) (h0 h : Heap) : Prop where
  next : h0.next ≤ h.next
  old : ∀ a < h0.next, a ∉ S → h.mem a = h0.mem a

variable {S : List Addr} {h0 h : Heap}

theorem Heap.Frame.refl : Heap.Frame S h0 h0 := ⟨le_rfl, fun _ _ _ => rfl⟩

theorem Heap.Frame.write (hf : Heap.Frame S h0 h) {a : Addr} (ha : Heap.Free S h0 a) (v : NDArray ℝ) :
    Heap.Frame S h0 (h.write a v) := by
  refine ⟨hf.next, fun b hb hn => ?_⟩
  show Function.update h.mem a v b = _
  rw [Function.update_of_ne, hf.old b hb hn]
  rintro rfl
  rcases ha with ha | ha
  · exact hn ha
  · aomega

theorem Heap.Frame.alloc (hf : Heap.Frame S h0 h) (v : NDArray ℝ) :
    Heap.Frame S h0 (h.alloc v).2 ∧ Heap.Free S h0 (h.alloc v).1 := by
  have hn := hf.next
  refine ⟨⟨?_, fun b hb hS => ?_⟩, Or.inr hf.next⟩
  · show h0.next ≤ h.next + 1
    aomega
  · show Function.update h.mem h.next v b = _
    rw [Function.update_of_ne (by aomega), hf.old b hb hS]

theorem Heap.Frame.allocAll : ∀ (vs : List (NDArray ℝ)) {h : Heap}, Heap.Frame S h0 h →
    Heap.Frame S h0 (Heap.allocAll vs h).2 ∧ ∀ a ∈ (Heap.allocAll vs h).1, Heap.Free S h0 a
  | [], _, hf => ⟨hf, by simp [Heap.allocAll]⟩
  | v :: vs, h, hf => by
    obtain ⟨h1, h2⟩ := hf.alloc v
    obtain ⟨h3, h4⟩ := Heap.Frame.allocAll vs h1
    refine ⟨h3, fun a ha => ?_⟩
    rcases List.mem_cons.1 ha with rfl | ha
    · exact h2
    · exact h4 a ha

theorem Heap.Frame.rebind : ∀ (bs : List Bool) (Fs : List (NDArray ℝ)) (as : List Addr) {h : Heap}, Heap.Frame S h0 h →
    (∀ a ∈ as, Heap.Free S h0 a) →
    Heap.Frame S h0 (CPObj.rebind bs Fs as h).2 ∧ ∀ a ∈ (CPObj.rebind bs Fs as h).1, Heap.Free S h0 a
  | [], _, _, _, hf, ha => ⟨hf, ha⟩
  | _ :: _, [], _, _, hf, ha => ⟨hf, ha⟩
  | _ :: _, _ :: _, [], _, hf, ha => ⟨hf, ha⟩
  | b :: bs, F :: Fs, a :: as, h, hf, ha => by
    have hs : ∀ x ∈ as, Heap.Free S h0 x := fun x hx => ha x (List.mem_cons_of_mem _ hx)
    cases b with
    | true =>
      obtain ⟨h1, h2⟩ := hf.alloc F
      obtain ⟨h3, h4⟩ := Heap.Frame.rebind bs Fs as h1 hs
      refine ⟨h3, fun x hx => ?_⟩
      rcases List.mem_cons.1 hx with rfl | hx
      · exact h2
      · exact h4 x hx
    | false =>
      obtain ⟨h3, h4⟩ := Heap.Frame.rebind bs Fs as hf hs
      refine ⟨h3, fun x hx => ?_⟩
      rcases List.mem_cons.1 hx with rfl | hx
      · exact ha _ List.mem_cons_self
      · exact h4 x hx

/-- A decomposer that has its own decomposition: all of its arrays are free. -/
structure P2Own (S : List Addr) (h0 : Heap) (d : P2Obj) (s : P2State) : Prop where
  frame : Heap.Frame S h0 s.heap
  dec : s.dec = d
  free : ∀ a ∈ d.arrays, Heap.Free S h0 a

/-- The arrays of the inner object are free too. -/
structure P2Inner (S : List Addr) (h0 : Heap) (d : P2Obj) (s : P2State) : Prop extends P2Own S h0 d s where
  inner : ∀ c, s.inner = some c → ∀ a ∈ c.addrs, Heap.Free S h0 a

theorem pyGet_mem {α : Type} {l : List α} {i : Int} {a : α} (h : pyGet l i = .ok a) : a ∈ l := by
  unfold pyGet at h
  split at h
  · split at h
    · rename_i x hx
      rw [← Except.ok.inj h]
      exact List.mem_of_getElem? hx
    · cases h
  · cases h

variable {E : Ext} {o : P2Opts} {d : P2Obj} {s s' : P2State}

theorem updateProjection_own (hs : P2Own S h0 d s) {k : ℕ} (h : P2.updateProjection E s k = .ok s') :
    P2Own S h0 d s' ∧ s'.inner = s.inner := by
  unfold P2.updateProjection at h
  obtain ⟨_, -, h⟩ := bind_eq_ok.1 h
  obtain ⟨_, -, h⟩ := bind_eq_ok.1 h
  obtain ⟨_, -, h⟩ := bind_eq_ok.1 h
  obtain ⟨_, -, h⟩ := bind_eq_ok.1 h
  obtain ⟨_, -, h⟩ := bind_eq_ok.1 h
  obtain ⟨a, ha, h⟩ := bind_eq_ok.1 h
  obtain ⟨P, -, h⟩ := bind_eq_ok.1 h
  rw [← pure_eq_ok.1 h]
  refine ⟨⟨hs.frame.write (hs.free a ?_) P, hs.dec, hs.free⟩, rfl⟩
  have := pyGet_mem ha
  rw [hs.dec] at this
  simp [P2Obj.arrays, this]

theorem updateProjections_own (hs : P2Own S h0 d s) (h : P2.updateProjections E s = .ok s') :
    P2Own S h0 d s' ∧ s'.inner = s.inner := by
  unfold P2.updateProjections at h
  generalize List.range s.XShape.2.2 = l at h
  induction l generalizing s with
  | nil => rw [List.foldlM_nil] at h; rw [← pure_eq_ok.1 h]; exact ⟨hs, rfl⟩
  | cons k l ih =>
    rw [List.foldlM_cons] at h
    obtain ⟨s1, h1, h2⟩ := bind_eq_ok.1 h
    obtain ⟨a1, a2⟩ := updateProjection_own hs h1
    obtain ⟨b1, b2⟩ := ih a1 h2
    exact ⟨b1, b2.trans a2⟩

theorem updateFactor_free {o : CPOpts} {m : ℕ} {p p' : Heap × CPObj} (hp : Heap.Frame S h0 p.1 ∧ ∀ a ∈ p.2.addrs, Heap.Free S h0 a)
    (h : CPObj.updateFactor E o m p = .ok p') : Heap.Frame S h0 p'.1 ∧ ∀ a ∈ p'.2.addrs, Heap.Free S h0 a := by
  unfold CPObj.updateFactor at h
  obtain ⟨_, -, h⟩ := bind_eq_ok.1 h
  obtain ⟨a, ha, h⟩ := bind_eq_ok.1 h
  obtain ⟨F, -, h⟩ := bind_eq_ok.1 h
  rw [← pure_eq_ok.1 h]
  exact ⟨hp.1.write (hp.2 a (pyGet_mem ha)) F, hp.2⟩

theorem updateModes_free {o : CPOpts} : ∀ {l : List ℕ} {p p' : Heap × CPObj},
    (Heap.Frame S h0 p.1 ∧ ∀ a ∈ p.2.addrs, Heap.Free S h0 a) → CPObj.updateModes E o l p = .ok p' →
    Heap.Frame S h0 p'.1 ∧ ∀ a ∈ p'.2.addrs, Heap.Free S h0 a
  | [], p, p', hp, h => by
    rw [CPObj.updateModes, List.foldlM_nil] at h; rw [← pure_eq_ok.1 h]; exact hp
  | m :: l, p, p', hp, h => by
    rw [CPObj.updateModes, List.foldlM_cons] at h
    obtain ⟨p1, h1, h2⟩ := bind_eq_ok.1 h
    exact updateModes_free (updateFactor_free hp h1) h2

theorem repeatUpdates_free {o : CPOpts} : ∀ {n : ℕ} {p p' : Heap × CPObj},
    (Heap.Frame S h0 p.1 ∧ ∀ a ∈ p.2.addrs, Heap.Free S h0 a) → CPObj.repeatUpdates E o n p = .ok p' →
    Heap.Frame S h0 p'.1 ∧ ∀ a ∈ p'.2.addrs, Heap.Free S h0 a
  | 0, p, p', hp, h => by
    rw [CPObj.repeatUpdates] at h; rw [← Except.ok.inj h]; exact hp
  | n + 1, p, p', hp, h => by
    rw [CPObj.repeatUpdates] at h
    obtain ⟨p1, h1, h2⟩ := bind_eq_ok.1 h
    exact repeatUpdates_free (updateModes_free hp h1) h2

/-- An iteration only writes free arrays. -/
theorem p2_iteration_free (hs : P2Inner S h0 d s) (h : P2.iteration E o s = .ok s') : P2Inner S h0 d s' := by
  unfold P2.iteration P2.updateFactors at h
  obtain ⟨s3, h, h'⟩ := bind_eq_ok.1 h
  obtain ⟨s1, h1, h2⟩ := bind_eq_ok.1 h
  obtain ⟨a1, a2⟩ := updateProjections_own hs.toP2Own h1
  have key : P2Inner S h0 d s3 := by
    cases hc : s1.inner with
    | none => rw [hc] at h2; cases h2
    | some c =>
      rw [hc] at h2
      obtain ⟨X, -, h3⟩ := bind_eq_ok.1 h2
      obtain ⟨p, h4, h5⟩ := bind_eq_ok.1 h3
      obtain ⟨q, h6, h7⟩ := bind_eq_ok.1 h5
      obtain ⟨b1, b2⟩ := repeatUpdates_free (p := (s1.heap, c.setTarget X)) ⟨a1.frame, hs.inner c (a2 ▸ hc)⟩ h4
      unfold P2.absorbWeights at h6
      obtain ⟨B, -, h8⟩ := bind_eq_ok.1 h6
      rw [← pure_eq_ok.1 h7, ← pure_eq_ok.1 h8]
      refine ⟨⟨b1.write (hs.free _ ?_) B, a1.dec, hs.free⟩, fun c' hc' => ?_⟩
      · rw [a1.dec]; simp [P2Obj.arrays]
      · cases hc'
        exact b2
  unfold P2.updateConvergence at h'
  obtain ⟨l, -, h9⟩ := bind_eq_ok.1 h'
  rw [← pure_eq_ok.1 h9]
  exact ⟨⟨key.frame, key.dec, key.free⟩, key.inner⟩

theorem prepareCp_free (hs : P2Own S h0 d s) (h : P2.prepareCp E o s = .ok s') : P2Inner S h0 d s' := by
  unfold P2.prepareCp CPObj.initFit at h
  obtain ⟨X, -, h⟩ := bind_eq_ok.1 h
  obtain ⟨p, h1, h2⟩ := bind_eq_ok.1 h
  obtain ⟨t, -, h1⟩ := bind_eq_ok.1 h1
  obtain ⟨_, -, h1⟩ := bind_eq_ok.1 h1
  obtain ⟨t', -, h1⟩ := bind_eq_ok.1 h1
  have hr := Heap.Frame.rebind (S := S) (h0 := h0) (t'.orth.getD []) t'.dec.factorMatrices [s.dec.A, s.dec.blueprint, s.dec.C]
    hs.frame (fun a ha => hs.free a (by
      rw [hs.dec] at ha
      simp only [P2Obj.arrays, List.mem_cons, List.not_mem_nil, or_false] at ha ⊢
      tauto))
  rw [← pure_eq_ok.1 h2, ← pure_eq_ok.1 h1]
  refine ⟨⟨hr.1, hs.dec, hs.free⟩, fun c hc => ?_⟩
  cases hc
  exact hr.2

theorem setNew_own (t : Parafac2Tensor) (hf : Heap.Frame S h0 s.heap) : ∃ d, P2Own S h0 d (P2.setNew t s) := by
  obtain ⟨a1, a2⟩ := hf.alloc t.A
  obtain ⟨b1, b2⟩ := a1.alloc t.blueprint
  obtain ⟨c1, c2⟩ := b1.alloc t.C
  obtain ⟨p1, p2⟩ := Heap.Frame.allocAll t.P c1
  refine ⟨_, p1, rfl, fun a ha => ?_⟩
  simp only [P2Obj.arrays, List.mem_cons] at ha
  rcases ha with rfl | rfl | rfl | ha
  · exact a2
  · exact b2
  · exact c2
  · exact p2 a ha

theorem initCp_own {c : P2.Config} (hf : Heap.Frame S h0 s.heap) (h : P2.initCp E c s = .ok s') : ∃ d, P2Own S h0 d s' := by
  unfold P2.initCp at h
  obtain ⟨X, -, h⟩ := bind_eq_ok.1 h
  split at h
  · cases h
  · split at h
    · rename_i C A B _
      obtain ⟨t, -, h⟩ := bind_eq_ok.1 h
      obtain ⟨a1, a2⟩ := hf.alloc A
      obtain ⟨b1, b2⟩ := a1.alloc (E.qr B).2
      obtain ⟨c1, c2⟩ := b1.alloc C
      obtain ⟨p1, p2⟩ := c1.alloc (E.qr B).1
      rw [← pure_eq_ok.1 h]
      refine ⟨_, p1, rfl, fun a ha => ?_⟩
      simp only [P2Obj.arrays, List.mem_cons, List.mem_replicate] at ha
      rcases ha with rfl | rfl | rfl | ⟨-, rfl⟩
      · exact a2
      · exact b2
      · exact c2
      · exact p2
    · cases h

theorem initRandom_own {c : P2.Config} (hf : Heap.Frame S h0 s.heap) (h : P2.initRandom E c s = .ok s') :
    ∃ d, P2Own S h0 d s' := by
  unfold P2.initRandom at h
  obtain ⟨t, -, h⟩ := bind_eq_ok.1 h
  rw [← pure_eq_ok.1 h]
  exact setNew_own t hf

theorem initSvd_own {c : P2.Config} (hf : Heap.Frame S h0 s.heap) (h : P2.initSvd E c s = .ok s') :
    ∃ d, P2Own S h0 d s' := by
  unfold P2.initSvd at h
  obtain ⟨_, -, h⟩ := bind_eq_ok.1 h
  obtain ⟨_, -, h⟩ := bind_eq_ok.1 h
  obtain ⟨_, -, h⟩ := bind_eq_ok.1 h
  obtain ⟨_, -, h⟩ := bind_eq_ok.1 h
  obtain ⟨t, -, h⟩ := bind_eq_ok.1 h
  obtain ⟨d, hd⟩ := setNew_own (s := s) t hf
  exact ⟨d, (updateProjections_own hd h).1⟩

/-- Spec: the decomposition that the object of the caller is used for. -/
def P2.handed (c : P2.Config) (arg : InitArg P2Obj) : Option P2Obj :=
  if c.init.toLower = "precomputed" then
    match arg with
    | .tensor d => some d
    | _ => none
  else none

theorem P2.handed_some {c : P2.Config} {arg : InitArg P2Obj} {d : P2Obj} (h : P2.handed c arg = some d) :
    c.init.toLower = "precomputed" ∧ arg = .tensor d := by
  unfold P2.handed at h
  split_ifs at h with hi
  cases arg with
  | tensor d' => exact ⟨hi, by rw [Option.some.inj h]⟩
  | none => cases h
  | path p => cases h

/-- The initialisation: the object of the caller, or a new one. -/
theorem p2_initComponents_own {c : P2.Config} {arg : InitArg P2Obj} (hS : ∀ d, P2.handed c arg = some d → S = d.arrays) :
    Ends (fun s : P2State => Heap.Frame S h0 s.heap)
      (fun s => ∃ d, P2Own S h0 d s ∧ ∀ d', P2.handed c arg = some d' → d = d') (fun s => Heap.Frame S h0 s.heap)
      (P2.initComponents E c arg) := by
  have hG : ∀ s : P2State, Heap.Frame S h0 s.heap → Heap.Frame S h0 s.heap := fun _ h => h
  have none : c.init.toLower ≠ "precomputed" → ∀ d d', P2.handed c arg = some d' → d = d' := by
    exact fun h d d' hd => absurd (P2.handed_some hd).1 h
  have load : c.init.toLower ≠ "precomputed" → ∀ p : CkPath, Ends (fun s : P2State => Heap.Frame S h0 s.heap)
      (fun s => ∃ d, P2Own S h0 d s ∧ ∀ d', P2.handed c arg = some d' → d = d') (fun s => Heap.Frame S h0 s.heap)
      (do
        let w ← MonadState.get
        Fit.loadCheckpoint (P2.method E c) (p.resolve w) .none) := by
    intro hn p
    refine Ends.bind (Q := fun s : P2State => Heap.Frame S h0 s.heap) (fun w h => h) fun w0 => ?_
    refine Ends.load _ _ (fun s t hs => ?_) hG
    obtain ⟨d, hd⟩ := setNew_own (s := s) t hs
    exact ⟨d, hd, none hn d⟩
  unfold P2.initComponents
  dsimp only
  split_ifs with i1 i2 i3 i4 i5
  · exact Ends.modifySt hG fun s s' hs h =>
      let ⟨d, hd⟩ := initSvd_own hs h
      ⟨d, hd, none (by rw [i1]; decide) d⟩
  · exact Ends.modifySt hG fun s s' hs h =>
      let ⟨d, hd⟩ := initRandom_own hs h
      ⟨d, hd, none (by rw [i2]; decide) d⟩
  · exact Ends.modifySt hG fun s s' hs h =>
      let ⟨d, hd⟩ := initCp_own hs h
      ⟨d, hd, none (by rw [i3]; decide) d⟩
  · cases arg with
    | path p => exact load (by rw [i4]; decide) p
    | none => exact Ends.throw hG _
    | tensor d => exact Ends.throw hG _
  · cases arg with
    | path p => exact Ends.throw hG _
    | none => exact Ends.throw hG _
    | tensor d =>
      have hd : P2.handed c (.tensor d) = some d := by rw [P2.handed, if_pos i5]
      refine Ends.modifySt hG fun s s' hs h => ?_
      obtain ⟨_, -, h⟩ := bind_eq_ok.1 h
      rw [← pure_eq_ok.1 h]
      refine ⟨d, ⟨hs, rfl, fun a ha => Or.inl ?_⟩, fun d' hd' => ?_⟩
      · rw [hS d hd]; exact ha
      · rw [hd] at hd'; exact Option.some.inj hd'
  · cases hc : c.isFile c.init with
    | some p => exact load i5 p
    | none => exact Ends.throw hG _

theorem p2_run_free {c : P2.Config} {K : P2Obj → Prop} :
    Ends (fun s : P2State => ∃ d, P2Own S h0 d s ∧ K d) (fun s => ∃ d, P2Own S h0 d s ∧ K d)
      (fun s => Heap.Frame S h0 s.heap) (Fit.run (P2.method E c)) :=
  Ends.run (Q := fun s => ∃ d, P2Inner S h0 d s ∧ K d)
    (fun _ _ ⟨d, h, hk⟩ e => ⟨d, prepareCp_free h e, hk⟩)
    (fun _ _ ⟨d, h, hk⟩ e => ⟨d, p2_iteration_free h e, hk⟩)
    (fun _ _ ⟨d, h, hk⟩ e => ⟨d, (Except.ok.inj e) ▸ h.toP2Own, hk⟩)
    (fun _ ⟨_, h, _⟩ => h.frame) (fun _ ⟨_, h, _⟩ => h.frame)

theorem p2_fit_free {c : P2.Config} {D : P2Data} {mi : Option Int} {arg : InitArg P2Obj}
    (hS : ∀ d, P2.handed c arg = some d → S = d.arrays) :
    Ends (fun s : P2State => Heap.Frame S h0 s.heap) (fun s => ∃ d, P2Own S h0 d s ∧ ∀ d', P2.handed c arg = some d' → d = d')
      (fun s => Heap.Frame S h0 s.heap) (P2.fit E c D mi arg) := by
  refine Ends.fit (P' := fun s => Heap.Frame S h0 s.heap) (fun s s' hs h => ?_) (p2_initComponents_own hS) (fun s s' hs h => ?_)
    (fun _ h => h) (fun _ ⟨_, h, _⟩ => h.frame) p2_run_free
  · unfold P2.setTarget at h
    cases D <;>
    · obtain ⟨_, -, h⟩ := bind_eq_ok.1 h
      obtain ⟨_, -, h⟩ := bind_eq_ok.1 h
      obtain ⟨_, -, h⟩ := bind_eq_ok.1 h
      obtain ⟨_, -, h⟩ := bind_eq_ok.1 h
      rw [← pure_eq_ok.1 h]
      exact hs
  · obtain ⟨d, hd, hk⟩ := hs
    have h : P2.initRest c.opts s = .ok s' := h
    unfold P2.initRest at h
    obtain ⟨_, -, h⟩ := bind_eq_ok.1 h
    rw [← pure_eq_ok.1 h]
    exact ⟨d, ⟨hd.frame, hd.dec, hd.free⟩, hk⟩

/-! ## The property -/

theorem ends_after {α : Type} {P Q G : P2State → Prop} {x : Fit P2State α} (h : Ends P Q G x) (hQ : ∀ s, Q s → G s) {w : World P2State}
    (hw : P w.st) : G (after (x w)).st := by
  have := h w hw
  cases e : x w with
  | ok a v => rw [e] at this; exact hQ _ this
  | error a v => rw [e] at this; exact this

/-- **C125**, the part that holds: whether `Parafac2_ALS.fit` returns or raises, it changes no array that existed before, except for
those of a decomposition that is passed with `init='precomputed'`. -/
theorem C125_frame_partial {E : Ext} {c : P2.Config} {D : P2Data} {mi : Option Int} {arg : InitArg P2Obj} (w : World P2State)
    {a : Addr} (ha : a < w.st.heap.next)
    (hS : c.init.toLower = "precomputed" → ∀ d, arg = .tensor d → a ∉ d.arrays) :
    (after (P2.fit E c D mi arg w)).st.heap.mem a = w.st.heap.mem a := by
  cases hd : P2.handed c arg with
  | none =>
    have := ends_after (p2_fit_free (E := E) (c := c) (D := D) (mi := mi) (arg := arg) (S := []) (h0 := w.st.heap)
      (fun d h => by rw [hd] at h; cases h)) (fun _ ⟨_, h, _⟩ => h.frame) (w := w) Heap.Frame.refl
    exact this.old a ha (by simp)
  | some d =>
    have := ends_after (p2_fit_free (E := E) (c := c) (D := D) (mi := mi) (arg := arg) (S := d.arrays) (h0 := w.st.heap)
      (fun d' h => by rw [hd] at h; rw [Option.some.inj h])) (fun _ ⟨_, h, _⟩ => h.frame) (w := w) Heap.Frame.refl
    refine this.old a ha ?_
    exact hS (P2.handed_some hd).1 d (P2.handed_some hd).2

/-- **C125**, for decompositions: one whose arrays exist and are not those of a decomposition passed with `init='precomputed'`
looks the same after the fit. It can be the result of an earlier fit with the same object. -/
theorem C125_kept_partial {E : Ext} {c : P2.Config} {D : P2Data} {mi : Option Int} {arg : InitArg P2Obj} (w : World P2State)
    {t : P2Obj} (ht : ∀ a ∈ t.arrays, a < w.st.heap.next)
    (hS : c.init.toLower = "precomputed" → ∀ d, arg = .tensor d → ∀ a ∈ t.arrays, a ∉ d.arrays) :
    t.read (after (P2.fit E c D mi arg w)).st.heap = t.read w.st.heap := by
  have key : ∀ a ∈ t.arrays, (after (P2.fit E c D mi arg w)).st.heap.mem a = w.st.heap.mem a := fun a ha =>
    C125_frame_partial w (ht a ha) fun hi d hd => hS hi d hd a ha
  simp only [P2Obj.arrays, List.mem_cons, forall_eq_or_imp] at key
  obtain ⟨k1, k2, k3, k4⟩ := key
  simp only [P2Obj.read, k1, k2, k3, List.map_congr_left k4]

/-- All arrays of the decomposition exist. -/
def P2State.Exists (s : P2State) : Prop := ∀ a ∈ s.dec.arrays, a < s.heap.next

theorem setNew_exists (t : Parafac2Tensor) (s : P2State) : (P2.setNew t s).Exists := by
  obtain ⟨as, h', e, -, -, e3, -, e5⟩ := Heap.allocAll_spec t.P (((s.heap.alloc t.A).2.alloc t.blueprint).2.alloc t.C).2
  have e5 : s.heap.next + 1 + 1 + 1 ≤ h'.next := e5
  have hn : P2.setNew t s =
      { s with
        dec := ⟨t.rank, s.heap.next, s.heap.next + 1, s.heap.next + 1 + 1, as, t.warning, t.allSameSize, t.sliceShapes, t.numElements⟩
        heap := h' } := by
    show ({ s with
      dec := ⟨t.rank, s.heap.next, s.heap.next + 1, s.heap.next + 1 + 1,
        (Heap.allocAll t.P (((s.heap.alloc t.A).2.alloc t.blueprint).2.alloc t.C).2).1, t.warning, t.allSameSize, t.sliceShapes,
        t.numElements⟩
      heap := (Heap.allocAll t.P (((s.heap.alloc t.A).2.alloc t.blueprint).2.alloc t.C).2).2 } : P2State) = _
    rw [e]
  rw [hn]
  intro a ha
  simp only [P2Obj.arrays, List.mem_cons] at ha
  show a < h'.next
  rcases ha with rfl | rfl | rfl | ha
  · aomega
  · aomega
  · aomega
  · exact (e3 a ha).2

theorem updateProjections_exists (hs : s.Exists) (h : P2.updateProjections E s = .ok s') : s'.Exists := by
  obtain ⟨h1, -⟩ := updateProjections_own (S := s.dec.arrays) (h0 := s.heap) (d := s.dec)
    ⟨Heap.Frame.refl, rfl, fun a ha => Or.inl ha⟩ h
  intro a ha
  rw [h1.dec] at ha
  exact lt_of_lt_of_le (hs a ha) h1.frame.next

theorem p2_initComponents_exists {c : P2.Config} {arg : InitArg P2Obj} {n : Addr}
    (hS : c.init.toLower = "precomputed" → ∀ d, arg = .tensor d → ∀ a ∈ d.arrays, a < n) :
    Ends (fun s : P2State => n ≤ s.heap.next) P2State.Exists (fun _ => True) (P2.initComponents E c arg) := by
  have hG : ∀ s : P2State, n ≤ s.heap.next → True := fun _ _ => trivial
  have load : ∀ p : CkPath, Ends (fun s : P2State => n ≤ s.heap.next) P2State.Exists (fun _ => True)
      (do
        let w ← MonadState.get
        Fit.loadCheckpoint (P2.method E c) (p.resolve w) .none) := by
    intro p
    refine Ends.bind (Q := fun s : P2State => n ≤ s.heap.next) (fun w h => h) fun w0 => ?_
    exact Ends.load _ _ (fun s t _ => setNew_exists t s) hG
  unfold P2.initComponents
  dsimp only
  split_ifs with i1 i2 i3 i4 i5
  · refine Ends.modifySt hG fun s s' _ h => ?_
    unfold P2.initSvd at h
    obtain ⟨_, -, h⟩ := bind_eq_ok.1 h
    obtain ⟨_, -, h⟩ := bind_eq_ok.1 h
    obtain ⟨_, -, h⟩ := bind_eq_ok.1 h
    obtain ⟨_, -, h⟩ := bind_eq_ok.1 h
    obtain ⟨t, -, h⟩ := bind_eq_ok.1 h
    exact updateProjections_exists (setNew_exists t s) h
  · refine Ends.modifySt hG fun s s' _ h => ?_
    unfold P2.initRandom at h
    obtain ⟨t, -, h⟩ := bind_eq_ok.1 h
    rw [← pure_eq_ok.1 h]
    exact setNew_exists t s
  · refine Ends.modifySt hG fun s s' _ h => ?_
    unfold P2.initCp at h
    obtain ⟨X, -, h⟩ := bind_eq_ok.1 h
    split at h
    · cases h
    · split at h
      · obtain ⟨t, -, h⟩ := bind_eq_ok.1 h
        rw [← pure_eq_ok.1 h]
        intro a ha
        simp only [P2Obj.arrays, List.mem_cons, List.mem_replicate] at ha
        show a < s.heap.next + 1 + 1 + 1 + 1
        rcases ha with rfl | rfl | rfl | ⟨-, rfl⟩
        · show s.heap.next < _
          aomega
        · show s.heap.next + 1 < _
          aomega
        · show s.heap.next + 1 + 1 < _
          aomega
        · show s.heap.next + 1 + 1 + 1 < _
          aomega
      · cases h
  · cases arg with
    | path p => exact load p
    | none => exact Ends.throw hG _
    | tensor d => exact Ends.throw hG _
  · cases arg with
    | path p => exact Ends.throw hG _
    | none => exact Ends.throw hG _
    | tensor d =>
      refine Ends.modifySt hG fun s s' hs h => ?_
      obtain ⟨_, -, h⟩ := bind_eq_ok.1 h
      rw [← pure_eq_ok.1 h]
      exact fun a ha => lt_of_lt_of_le (hS i5 d rfl a ha) hs
  · cases hc : c.isFile c.init with
    | some p => exact load p
    | none => exact Ends.throw hG _

/-- The arrays of the result of a fit exist. -/
theorem p2_fit_exists {c : P2.Config} {D : P2Data} {mi : Option Int} {arg : InitArg P2Obj} {w v : World P2State}
    (h : P2.fit E c D mi arg w = .ok () v)
    (hS : c.init.toLower = "precomputed" → ∀ d, arg = .tensor d → ∀ a ∈ d.arrays, a < w.st.heap.next) : v.st.Exists := by
  have key : Ends (fun s : P2State => w.st.heap.next ≤ s.heap.next) P2State.Exists (fun _ => True) (P2.fit E c D mi arg) := by
    refine Ends.fit (Q := P2State.Exists) (P' := fun s => w.st.heap.next ≤ s.heap.next) (fun s s' hs h => ?_)
      (p2_initComponents_exists hS) (fun s s' hs h => ?_) (fun _ _ => trivial) (fun _ _ => trivial) (fun u hu => ?_)
    · unfold P2.setTarget at h
      cases D <;>
      · obtain ⟨_, -, h⟩ := bind_eq_ok.1 h
        obtain ⟨_, -, h⟩ := bind_eq_ok.1 h
        obtain ⟨_, -, h⟩ := bind_eq_ok.1 h
        obtain ⟨_, -, h⟩ := bind_eq_ok.1 h
        rw [← pure_eq_ok.1 h]
        exact hs
    · have h : P2.initRest c.opts s = .ok s' := h
      unfold P2.initRest at h
      obtain ⟨_, -, h⟩ := bind_eq_ok.1 h
      rw [← pure_eq_ok.1 h]
      exact hs
    · have := p2_run_free (E := E) (c := c) (S := u.st.dec.arrays) (h0 := u.st.heap) (K := fun d => d = u.st.dec) u
        ⟨u.st.dec, ⟨Heap.Frame.refl, rfl, fun a ha => Or.inl ha⟩, rfl⟩
      cases e : Fit.run (P2.method E c) u with
      | error e' u' => trivial
      | ok r u' =>
        rw [e] at this
        obtain ⟨d, h1, rfl⟩ := this
        intro a ha
        rw [h1.dec] at ha
        exact lt_of_lt_of_le (hu a ha) h1.frame.next
  have := key w le_rfl
  rw [h] at this
  exact this

/-- **C125**, for fits one after the other: the result of a fit looks the same after any further fit with this object that does not
start from one of its arrays (`init='precomputed'`), whether the further fit returns or raises. -/
theorem C125_earlier_result_partial {E : Ext} {c c' : P2.Config} {D D' : P2Data} {mi mi' : Option Int} {arg arg' : InitArg P2Obj}
    {w v : World P2State} (h : P2.fit E c D mi arg w = .ok () v)
    (hS : c.init.toLower = "precomputed" → ∀ d, arg = .tensor d → ∀ a ∈ d.arrays, a < w.st.heap.next)
    (hS' : c'.init.toLower = "precomputed" → ∀ d, arg' = .tensor d → ∀ a ∈ v.st.dec.arrays, a ∉ d.arrays) :
    v.st.dec.read (after (P2.fit E c' D' mi' arg' v)).st.heap = v.st.dec.read v.st.heap :=
  C125_kept_partial v (p2_fit_exists h hS) hS'

/-- Random starts: the decomposition of the first fit is still there after the second one. -/
example {E : Ext} (hE : E.SVDOk) (hN : E.NNLSOk) (hQ : E.QROk) {c : P2.Config} (hi : c.init.toLower = "random")
    {n : ℕ} {g : List ℕ → ℝ} (ho : c.opts = p2Plain 2 n g) (hlog : c.logs = []) (hfreq : c.freq = none) (h0 : Heap) (D : P2Data) :
    ∃ v, P2.fit E c (.list [full [2, 2] 1, full [2, 3] 5]) (some 7) .none (P2.newObject h0 100 [] none) = .ok () v ∧
      v.st.dec.read (after (P2.fit E c D none .none v)).st.heap = v.st.dec.read v.st.heap := by
  have hr : c.opts.rank = 2 := by rw [ho]; rfl
  have hX : List.Forall₂ (fun (Xk : NDArray ℝ) J => Xk.shape = [2, J]) [full [2, 2] 1, full [2, 3] 5] [2, 3] :=
    .cons rfl (.cons rfl .nil)
  obtain ⟨s, h1, h2, h3, h4, -, h6⟩ := p2_startsFrom_random (E := E) hQ (c := c) hi (by omega) hX (by simp) (by omega)
    (by rw [hr]; simp) h0
  have hA : P2.Admissible c.opts 2 [2, 3].length := by
    rw [ho]; exact p2Plain_admissible (by omega) (by omega) (by simp)
  obtain ⟨-, -, v, -, -, -, -, hv, -⟩ := C80_fit_completes hE hN hQ h1 h2 h3.distinct h4 hA
    (fun p hp => by rw [hlog] at hp; cases hp) (by rw [hfreq]; decide) (mi := some 7) (budget := 100) (p2_storing_none hfreq _ _)
  have hn : c.init.toLower ≠ "precomputed" := by rw [hi]; decide
  exact ⟨v, hv, C125_earlier_result_partial hv (fun h => absurd h hn) (fun h => absurd h hn)⟩

/-- **C125** for `continue_fit`: it changes no array that existed before, except for those of the decomposition of the object. -/
theorem C125_continue {E : Ext} {c : P2.Config} {mi : Option Int} (w : World P2State) {a : Addr} (ha : a < w.st.heap.next)
    (hS : a ∉ w.st.dec.arrays) : (after (continueFit (P2.method E c) mi w)).st.heap.mem a = w.st.heap.mem a := by
  have h : Ends (fun s : P2State => ∃ d, P2Own w.st.dec.arrays w.st.heap d s ∧ True) (fun s => ∃ d, P2Own w.st.dec.arrays w.st.heap d s ∧ True)
      (fun s => Heap.Frame w.st.dec.arrays w.st.heap s.heap) (continueFit (P2.method E c) mi) := by
    unfold continueFit
    exact (Ends.setMaxIts mi).bind fun _ => p2_run_free
  exact (ends_after h (fun _ ⟨_, h, _⟩ => h.frame) (w := w) ⟨w.st.dec, ⟨Heap.Frame.refl, rfl, fun a ha => Or.inl ha⟩, trivial⟩).old a
    ha hS

/-- **C125, refuted** for `init='precomputed'`: if the fit returns, the decomposition of the object is the object that was passed, so
that the caller finds the fitted model in it. -/
theorem C125_same_object {E : Ext} {c : P2.Config} (hi : c.init.toLower = "precomputed") {D : P2Data} {mi : Option Int} {d : P2Obj}
    {w v : World P2State} (h : P2.fit E c D mi (.tensor d) w = .ok () v) :
    v.st.dec = d ∧ d.read v.st.heap = v.st.dec.read v.st.heap := by
  have hd : P2.handed c (.tensor d) = some d := by rw [P2.handed, if_pos hi]
  have := p2_fit_free (E := E) (c := c) (D := D) (mi := mi) (arg := .tensor d) (S := d.arrays) (h0 := w.st.heap)
      (fun d' h => by rw [hd] at h; rw [Option.some.inj h]) w Heap.Frame.refl
  rw [h] at this
  obtain ⟨d', h1, h2⟩ := this
  have := h2 d hd
  subst this
  exact ⟨h1.dec, by rw [h1.dec]⟩

/-- **C125, refuted**: the slices `(3)` and `(4)`, started from `A = D = (1)`, `C = (1, 1)`. After two iterations the array that the
caller passed as `A` contains `±5`. -/
theorem C125_fails {E : Ext} (hE : E.SVDOk) (hN : E.NNLSOk) (hQ : E.QROk) {c : P2.Config}
    (hi : c.init.toLower = "precomputed") {g : List ℕ → ℝ} (ho : c.opts = o107 g) (hlog : c.logs = []) (hfreq : c.freq = none) :
    ∃ v, P2.fit E c (.list [one1 3, one1 4]) (some 2) (.tensor d107) (P2.newObject h107 100 [] none) = .ok () v ∧
      (d107.read h107).A.get [0, 0] = 1 ∧ ((d107.read v.st.heap).A.get [0, 0]) ^ 2 = 25 := by
  obtain ⟨-, -, v, -, -, h, -, -, -, h2⟩ := C107_parafac2_orthonormal_fails hE hN hQ hi ho hlog hfreq 100 [] none
  refine ⟨v, h, rfl, ?_⟩
  rw [(C125_same_object hi h).2]
  exact h2

/-- Such routines and such a configuration exist. -/
example : ∃ (E : Ext) (c : P2.Config) (v : World P2State), c.init.toLower = "precomputed" ∧
    P2.fit E c (.list [one1 3, one1 4]) (some 2) (.tensor d107) (P2.newObject h107 100 [] none) = .ok () v ∧
      (d107.read h107).A.get [0, 0] = 1 ∧ ((d107.read v.st.heap).A.get [0, 0]) ^ 2 = 25 := by
  obtain ⟨E, hE, hN, hQ⟩ := exists_ext
  have hi : ("precomputed" : String).toLower = "precomputed" := by
    rw [String.toLower, ← String.toList_inj, String.toList_map]; decide
  obtain ⟨v, h⟩ := C125_fails hE hN hQ
    (c := ⟨o107 (fun _ => 0), "precomputed", none, false, [], fun _ _ => 0, fun _ _ => 0, fun _ _ _ => 0, fun _ _ _ _ => 0,
      fun X => (X, X, X), fun _ => none⟩) hi rfl rfl rfl
  exact ⟨E, _, v, hi, h⟩

end
end TK
