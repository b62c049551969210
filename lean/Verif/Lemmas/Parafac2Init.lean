import Verif.Lemmas.Parafac2Prepare
import Verif.Props.Evolving
import Verif.Props.CPFit

/-! # The initialisation schemes of `Parafac2_ALS` -/

namespace TK
open NDArray Matrix Fit

noncomputable section

/-- `omega` for addresses. -/
local macro "aomega" : tactic => `(tactic| (try dsimp only [Addr] at *) <;> omega)

theorem Heap.allocAll_spec : ∀ (vs : List (NDArray ℝ)) (h : Heap),
    ∃ as h', Heap.allocAll vs h = (as, h') ∧ as.map h'.mem = vs ∧ as.Nodup ∧ (∀ a ∈ as, h.next ≤ a ∧ a < h'.next) ∧
      (∀ a < h.next, h'.mem a = h.mem a) ∧ h.next ≤ h'.next
  | [], h => ⟨[], h, rfl, rfl, .nil, by simp, fun _ _ => rfl, le_rfl⟩
  | v :: vs, h => by
    obtain ⟨as, h', e, e1, e2, e3, e4, e5⟩ := Heap.allocAll_spec vs (h.alloc v).2
    have e3 : ∀ a ∈ as, h.next + 1 ≤ a ∧ a < h'.next := e3
    have e4 : ∀ a < h.next + 1, h'.mem a = Function.update h.mem h.next v a := e4
    have e5 : h.next + 1 ≤ h'.next := e5
    refine ⟨h.next :: as, h', ?_, ?_, ?_, ?_, ?_, by aomega⟩
    · show ((h.next :: (Heap.allocAll vs (h.alloc v).2).1), (Heap.allocAll vs (h.alloc v).2).2) = _
      rw [e]
    · rw [List.map_cons, e1, e4 _ (Nat.lt_succ_self _), Function.update_self]
    · refine List.nodup_cons.2 ⟨fun hc => ?_, e2⟩
      have := e3 _ hc
      aomega
    · intro a ha
      rcases List.mem_cons.1 ha with rfl | ha
      · exact ⟨le_rfl, by aomega⟩
      · have := e3 a ha
        exact ⟨by aomega, this.2⟩
    · intro a ha
      rw [e4 a (by aomega), Function.update_of_ne (by aomega)]

namespace P2State

variable {s : P2State} {I R : ℕ} {Js : List ℕ}

/-- The data of the object: slices of size `I × Js[k]`, none of them empty. -/
structure Data (s : P2State) (I : ℕ) (Js : List ℕ) : Prop where
  posI : 0 < I
  posJ : ∀ J ∈ Js, 0 < J
  posK : 0 < Js.length
  X : List.Forall₂ (fun Xk J => Xk.shape = [I, J]) s.X Js
  xshape : s.XShape = (I, Js, Js.length)

/-- A newly created tensor consists of new, different arrays. -/
theorem setNew_spec (h : s.Data I Js) (hR : 0 < R) {t : Parafac2Tensor} (hA : t.A.shape = [I, R]) (hD : t.blueprint.shape = [R, R])
    (hC : t.C.shape = [Js.length, R]) (hP : Factors t.P Js R) :
    (P2.setNew t s).Sized I Js R ∧ (P2.setNew t s).Separate ∧ (P2.setNew t s).Allocated ∧
      (P2.setNew t s).dec.read (P2.setNew t s).heap = t ∧
      (∀ a < s.heap.next, (P2.setNew t s).heap.mem a = s.heap.mem a) ∧ s.heap.next ≤ (P2.setNew t s).heap.next := by
  obtain ⟨as, h', e, e1, e2, e3, e4, e5⟩ := Heap.allocAll_spec t.P (((s.heap.alloc t.A).2.alloc t.blueprint).2.alloc t.C).2
  have e3 : ∀ a ∈ as, s.heap.next + 1 + 1 + 1 ≤ a ∧ a < h'.next := e3
  have e4 : ∀ a < s.heap.next + 1 + 1 + 1, h'.mem a = Function.update (Function.update (Function.update s.heap.mem s.heap.next t.A)
    (s.heap.next + 1) t.blueprint) (s.heap.next + 1 + 1) t.C a := e4
  have e5 : s.heap.next + 1 + 1 + 1 ≤ h'.next := e5
  have hset : P2.setNew t s = { s with
      dec := ⟨t.rank, s.heap.next, s.heap.next + 1, s.heap.next + 1 + 1, as, t.warning, t.allSameSize, t.sliceShapes, t.numElements⟩
      heap := h' } := by
    unfold P2.setNew Heap.allocP2
    simp only [e]
    rfl
  have hmA : h'.mem s.heap.next = t.A := by
    rw [e4 _ (by aomega), Function.update_of_ne (by aomega), Function.update_of_ne (by aomega), Function.update_self]
  have hmD : h'.mem (s.heap.next + 1) = t.blueprint := by
    rw [e4 _ (by aomega), Function.update_of_ne (by aomega), Function.update_self]
  have hmC : h'.mem (s.heap.next + 1 + 1) = t.C := by
    rw [e4 _ (by aomega), Function.update_self]
  rw [hset]
  refine ⟨⟨h.posI, hR, h.posJ, h.posK, h.X, h.xshape, ?_, ?_, ?_, ?_⟩, ?_, ?_, ?_, ?_, by aomega⟩
  · show (h'.mem s.heap.next).shape = _
    rw [hmA]; exact hA
  · show (h'.mem (s.heap.next + 1)).shape = _
    rw [hmD]; exact hD
  · show (h'.mem (s.heap.next + 1 + 1)).shape = _
    rw [hmC]; exact hC
  · show Factors (as.map h'.mem) Js R
    rw [e1]; exact hP
  · show (s.heap.next :: (s.heap.next + 1) :: (s.heap.next + 1 + 1) :: as).Nodup
    have h1 : ∀ a, a < s.heap.next + 1 + 1 + 1 → a ∉ as := fun a ha hc => by have := e3 a hc; aomega
    simp only [List.nodup_cons, List.mem_cons, not_or]
    exact ⟨⟨by aomega, by aomega, h1 _ (by aomega)⟩, ⟨by aomega, h1 _ (by aomega)⟩, h1 _ (by aomega), e2⟩
  · show ∀ a ∈ s.heap.next :: (s.heap.next + 1) :: (s.heap.next + 1 + 1) :: as, a < h'.next
    intro a ha
    simp only [List.mem_cons] at ha
    rcases ha with rfl | rfl | rfl | ha
    · aomega
    · aomega
    · aomega
    · exact (e3 a ha).2
  · show (⟨t.rank, h'.mem s.heap.next, h'.mem (s.heap.next + 1), h'.mem (s.heap.next + 1 + 1), as.map h'.mem, t.warning,
      t.allSameSize, t.sliceShapes, t.numElements⟩ : Parafac2Tensor) = t
    rw [hmA, hmD, hmC, e1]
  · show ∀ a < s.heap.next, h'.mem a = s.heap.mem a
    intro a ha
    rw [e4 _ (by aomega), Function.update_of_ne (by aomega), Function.update_of_ne (by aomega), Function.update_of_ne (by aomega)]

theorem setNew_X (t : Parafac2Tensor) (s : P2State) : (P2.setNew t s).X = s.X := rfl

/-- The random start. -/
theorem initRandom_ok {E : Ext} (hQ : E.QROk) {c : P2.Config} (h : s.Data I Js) (hR : 0 < c.opts.rank)
    (hJ : ∀ J ∈ Js, c.opts.rank ≤ J) :
    ∃ t, P2.initRandom E c s = .ok (P2.setNew t s) ∧ t.A.shape = [I, c.opts.rank] ∧
      t.blueprint.shape = [c.opts.rank, c.opts.rank] ∧ t.C.shape = [Js.length, c.opts.rank] ∧ Factors t.P Js c.opts.rank ∧
      (∀ k (_ : k < t.P.length) (_ : k < Js.length), OrthoCols t.P[k] Js[k] c.opts.rank) := by
  have hne : Js ≠ [] := fun hc => by have := h.posK; simp [hc] at this
  obtain ⟨t, e, -, h1, h2, h3, h4, h5⟩ := C68_parafac2_random_init hQ c.drawA c.drawC c.drawP I Js.length c.opts.rank
    (J := .list Js) (Or.inl rfl) hne hJ
  refine ⟨t, ?_, h1, h3, h2, h4, h5⟩
  rw [P2.initRandom, h.xshape]
  simp only
  rw [e, bind_ok]; rfl

theorem orthonormal_of_read {t : Parafac2Tensor} (hr : s.dec.read s.heap = t) (hP : Factors t.P Js R)
    (ho : ∀ k (_ : k < t.P.length) (_ : k < Js.length), OrthoCols t.P[k] Js[k] R) : s.Orthonormal Js R := by
  intro k hk
  have hsP : s.P = t.P := congrArg Parafac2Tensor.P hr
  have hk' : k < t.P.length := by rw [hP.length_eq]; exact hk
  rw [hsP, nth_lt hk', getD_eq_getElem' _ hk]
  exact ho k hk' hk

end P2State

/-- `set_target` for a list of matrices with the same number of rows. -/
theorem p2_setTarget_list {Xs : List (NDArray ℝ)} {I : ℕ} {Js : List ℕ} (hX : List.Forall₂ (fun Xk J => Xk.shape = [I, J]) Xs Js)
    (hK : 0 < Js.length) (s : P2State) :
    P2.setTarget (.list Xs) s = .ok { s with
      X := Xs
      XShape := (I, Js, Js.length)
      XNorm := Real.sqrt ((Xs.map fun Xk => frobNorm Xk ^ 2).sum) } := by
  have hl := hX.length_eq
  have hg : pyGet Xs 0 = .ok (nth Xs 0) := pyGet_nth (k := 0) (by omega)
  have hr : rows (nth Xs 0) = .ok I := rows_ok (shape_nth hX hK)
  have hc : Xs.mapM cols = .ok Js := by
    rw [mapM_ok_iff]
    exact hX.imp fun Xk J h => cols_ok h
  unfold P2.setTarget
  simp only [bind_ok, hg, hr, hc, hl]
  rfl

/-- `set_target` for a three-dimensional array. -/
theorem p2_setTarget_tensor {X : NDArray ℝ} {I J K : ℕ} (hX : X.shape = [I, J, K]) (hK : 0 < K) (s : P2State) :
    P2.setTarget (.tensor X) s =
      P2.setTarget (.list ((List.range K).map fun k => ofMat I J fun i j => X.get [i, j, k])) s := by
  unfold P2.setTarget
  simp only [P2.frontalSlices, hX, bind_ok]

/-- The stacked slices: entry `(k, i, j)` is entry `(i, j)` of slice `k`. -/
def p2Stack (X : List (NDArray ℝ)) (I J : ℕ) : NDArray ℝ :=
  ofFn [X.length, I, J] fun idx => (nth X (idx.getD 0 0)).get [idx.getD 1 0, idx.getD 2 0]

theorem stackSlices_ok {X : List (NDArray ℝ)} {I J : ℕ} (h : ∀ Xk ∈ X, Xk.shape = [I, J]) (hne : X ≠ []) :
    P2.stackSlices X = .ok (p2Stack X I J) := by
  obtain ⟨X0, Xs, rfl⟩ := List.exists_cons_of_ne_nil hne
  have h0 := h X0 (by simp)
  rw [P2.stackSlices]
  simp only [h0]
  rw [if_pos (by simpa using ⟨h0, fun a ha => h a (List.mem_cons_of_mem _ ha)⟩)]
  refine congrArg Except.ok (ofFn_congr fun idx hidx => ?_)
  have hk : idx.getD 0 0 < (X0 :: Xs).length := by
    match idx, hidx with
    | k :: _, hidx => exact hidx.1
  rw [nth_lt hk, getD_eq_getElem' _ hk]

namespace P2State

/-- The state after `init_cp` with the results `C`, `A`, `B` of the CP fit. -/
def cpStart (s : P2State) (E : Ext) (C A B : NDArray ℝ) (t : Parafac2Tensor) : P2State :=
  { s with
    heap := ((((s.heap.alloc A).2.alloc (E.qr B).2).2.alloc C).2.alloc (E.qr B).1).2
    dec := ⟨t.rank, s.heap.next, s.heap.next + 1, s.heap.next + 1 + 1, List.replicate s.X.length (s.heap.next + 1 + 1 + 1),
      t.warning, t.allSameSize, t.sliceShapes, t.numElements⟩ }

variable {s : P2State} {I R : ℕ} {Js : List ℕ}

/-- The start computed by `init_cp`: a CP fit of the stacked slices that is not worse than its random start, and one array that
serves as the projection matrix of every slice. -/
theorem initCp_ok {E : Ext} (hE : E.SVDOk) (hN : E.NNLSOk) (hQ : E.QROk) {c : P2.Config} {K J : ℕ}
    (h : s.Data I (List.replicate K J)) (hR : 0 < c.opts.rank) (hJ : c.opts.rank ≤ J) :
    ∃ t0 C A B t, CP.initRandom c.cpDraw c.opts.rank none (p2Stack s.X I J) = .ok t0 ∧
      P2.initCp E c s = .ok (s.cpStart E C A B t) ∧
      Factors [C, A, B] [K, I, J] c.opts.rank ∧ (s.cpStart E C A B t).Sized I (List.replicate K J) c.opts.rank ∧
      (s.cpStart E C A B t).Apart ∧ (s.cpStart E C A B t).Allocated ∧ (s.cpStart E C A B t).A = A ∧
      (s.cpStart E C A B t).D = (E.qr B).2 ∧ (s.cpStart E C A B t).C = C ∧
      (s.cpStart E C A B t).P = List.replicate K (E.qr B).1 ∧
      (∀ a < s.heap.next, (s.cpStart E C A B t).heap.mem a = s.heap.mem a) ∧
      sqErr (p2Stack s.X I J) (fun _ => 1) [C, A, B] c.opts.rank
        ≤ sqErr (p2Stack s.X I J) (fun _ => 1) t0.factorMatrices c.opts.rank ∧
      ∃ w, CP.fit E (P2.cpConfig c) (p2Stack s.X I J) none .none (CP.newObject none none 20 [] none) = .ok () w ∧
        w.st.dec.factorMatrices = [C, A, B] := by
  set R := c.opts.rank with hRdef
  have hK : 0 < K := by simpa using h.posK
  have hlen : s.X.length = K := by have := h.X.length_eq; simpa using this
  have hJ0 : 0 < J := by omega
  have hXs : ∀ Xk ∈ s.X, Xk.shape = [I, J] := by
    intro Xk hXk
    obtain ⟨k, hk, rfl⟩ := List.getElem_of_mem hXk
    have hk' : k < K := by omega
    have := shape_nth h.X (k := k) (by simpa using hk')
    rw [nth_lt hk, getD_eq_getElem' _ (by simpa using hk'), List.getElem_replicate] at this
    exact this
  have hst := stackSlices_ok hXs (by intro hc; simp [hc] at hlen; omega)
  have hsh : (p2Stack s.X I J).shape = [K, I, J] := by rw [p2Stack, shape_ofFn, hlen]
  have hA : CP.Admissible (P2.cpConfig c).opts none none (p2Stack s.X I J).shape := by
    rw [hsh]
    refine ⟨hR, by simp, ?_, by simp, by simp, by simp [P2.cpConfig], by simp, by simp⟩
    have := h.posI
    simp; omega
  obtain ⟨t0, w', e, ht0, hfit, -, he, hX, hwf, hw, -, hle⟩ := C74_random_fit hE hN hQ (c := P2.cpConfig c) (mi := none)
    (budget := 20) (loggers := []) (file := none) hA rfl (by intro p hp; simp [P2.cpConfig] at hp) (show (-1 : Int) ≠ 0 by decide) (by
      show "random".toLower = _
      rw [String.toLower, ← String.toList_inj, String.toList_map]; decide) (by decide)
    ⟨fun h => absurd h (show ¬ (0 : Int) < -1 by decide), fun h => absurd h (show ¬ (0 : Int) < -1 by decide), fun h => absurd h (show ¬ (0 : Int) < -1 by decide)⟩
  have hfac := hwf.factors
  rw [hsh] at hfac
  obtain ⟨C, A, B, hCAB⟩ : ∃ C A B, w'.st.dec.factorMatrices = [C, A, B] := by
    have := hfac.length_eq
    match hm : w'.st.dec.factorMatrices with
    | [C, A, B] => exact ⟨C, A, B, rfl⟩
    | [] => simp [hm] at this
    | [_] => simp [hm] at this
    | [_, _] => simp [hm] at this
    | _ :: _ :: _ :: _ :: _ => simp [hm] at this
  rw [hCAB] at hfac
  have hfac' : Factors [C, A, B] [K, I, J] R := hfac
  have hCs : C.shape = [K, R] := hfac'.shape_get (k := 0) (by simp)
  have hAs : A.shape = [I, R] := hfac'.shape_get (k := 1) (by simp)
  have hBs : B.shape = [J, R] := hfac'.shape_get (k := 2) (by simp)
  have hqr := hQ B J R hBs
  have hmin : min J R = R := min_eq_right hJ
  have hq := hqr.shapeQ
  have hr := hqr.shapeR
  rw [hmin] at hq hr
  have hP : Factors (List.replicate K (E.qr B).1) (List.replicate K J) R := by
    refine List.forall₂_iff_get.2 ⟨by simp, fun k h1 h2 => ?_⟩
    simpa using hq
  have hne : List.replicate K J ≠ [] := by simp; omega
  obtain ⟨Bk, eB, hBJ, -⟩ := Bs_ok hr hP
  obtain ⟨t, et⟩ : ∃ t, Parafac2Tensor.init A (E.qr B).2 C (List.replicate s.X.length (E.qr B).1) = .ok t :=
    ⟨_, by rw [Parafac2Tensor.init, cols_ok hAs, bind_ok, hlen, checkAllSameSize_ok hP hne, bind_ok, eB, bind_ok,
      sliceShapesOf_ok hAs hBJ, bind_ok]; rfl⟩
  have m0 : (s.cpStart E C A B t).heap.mem = Function.update (Function.update (Function.update (Function.update s.heap.mem
    s.heap.next A) (s.heap.next + 1) (E.qr B).2) (s.heap.next + 1 + 1) C) (s.heap.next + 1 + 1 + 1) (E.qr B).1 := rfl
  have mA : (s.cpStart E C A B t).heap.mem s.heap.next = A := by
    rw [m0, Function.update_of_ne (by aomega), Function.update_of_ne (by aomega), Function.update_of_ne (by aomega),
      Function.update_self]
  have mD : (s.cpStart E C A B t).heap.mem (s.heap.next + 1) = (E.qr B).2 := by
    rw [m0, Function.update_of_ne (by aomega), Function.update_of_ne (by aomega), Function.update_self]
  have mC : (s.cpStart E C A B t).heap.mem (s.heap.next + 1 + 1) = C := by
    rw [m0, Function.update_of_ne (by aomega), Function.update_self]
  have mP : (s.cpStart E C A B t).heap.mem (s.heap.next + 1 + 1 + 1) = (E.qr B).1 := by
    rw [m0, Function.update_self]
  have hPeq : (s.cpStart E C A B t).P = List.replicate K (E.qr B).1 := by
    show (List.replicate s.X.length (s.heap.next + 1 + 1 + 1)).map _ = _
    rw [List.map_replicate, mP, hlen]
  refine ⟨t0, C, A, B, t, ht0, ?_, hfac', ⟨h.posI, hR, h.posJ, h.posK, h.X, h.xshape, ?_, ?_, ?_, ?_⟩, ?_, ?_, mA, mD, mC, hPeq,
    ?_, ?_, w', hfit, hCAB⟩
  · rw [P2.initCp, hst, bind_ok, hfit]
    simp only [hCAB, et, bind_ok]
    rfl
  · exact (congrArg NDArray.shape mA).trans hAs
  · exact (congrArg NDArray.shape mD).trans hr
  · show ((s.cpStart E C A B t).heap.mem (s.heap.next + 1 + 1)).shape = _
    rw [mC, hCs]; simp
  · rw [hPeq]; exact hP
  · have hmem : ∀ a, a ∈ (s.cpStart E C A B t).dec.P → a = s.heap.next + 1 + 1 + 1 := fun a ha => List.eq_of_mem_replicate ha
    refine ⟨fun hc => ?_, fun hc => ?_, fun hc => ?_⟩
    · have : s.heap.next = s.heap.next + 1 + 1 + 1 := hmem _ hc
      aomega
    · have : s.heap.next + 1 = s.heap.next + 1 + 1 + 1 := hmem _ hc
      aomega
    · have : s.heap.next + 1 + 1 = s.heap.next + 1 + 1 + 1 := hmem _ hc
      aomega
  · show ∀ a ∈ s.heap.next :: (s.heap.next + 1) :: (s.heap.next + 1 + 1) :: List.replicate s.X.length (s.heap.next + 1 + 1 + 1),
      a < s.heap.next + 1 + 1 + 1 + 1
    intro a ha
    simp only [List.mem_cons, List.mem_replicate] at ha
    rcases ha with rfl | rfl | rfl | ⟨-, rfl⟩ <;> aomega
  · intro a ha
    rw [m0, Function.update_of_ne (by aomega), Function.update_of_ne (by aomega), Function.update_of_ne (by aomega),
      Function.update_of_ne (by aomega)]
  · rw [he, CPState.trueSSE, hX, hCAB] at hle
    refine le_trans (le_of_eq ?_) hle
    exact sqErr_congr_weights fun r hr => (hw r hr).symm

end P2State

end
end TK
