import Verif.Lemmas.CMTF

/-! # Lemmas about the updates of coupled factorisations -/

namespace TK
open NDArray

noncomputable section

theorem matErr_resid {Y U V : NDArray ℝ} {n q R : ℕ} (hY : Y.shape = [n, q]) (hV : V.shape = [q, R]) :
    matErr Y U V R = resid U V.T Y n R q := by
  simp only [matErr, resid, hY, List.getD_cons_zero, List.getD_cons_succ]
  refine Finset.sum_congr rfl fun i hi => Finset.sum_congr rfl fun j hj => ?_
  have e : ∑ l ∈ Finset.range R, U.get [i, l] * V.T.get [l, j] = ∑ r ∈ Finset.range R, U.get [i, r] * V.get [j, r] :=
    Finset.sum_congr rfl fun r hr => by rw [get_T hV (by simpa using hr) (by simpa using hj)]
  rw [e]; ring

theorem matErr_residT {Y U V : NDArray ℝ} {n q R : ℕ} (hY : Y.shape = [n, q]) (hU : U.shape = [n, R]) :
    matErr Y U V R = resid V U.T Y.T q R n := by
  simp only [matErr, resid, hY, List.getD_cons_zero, List.getD_cons_succ]
  rw [Finset.sum_comm]
  refine Finset.sum_congr rfl fun j hj => Finset.sum_congr rfl fun i hi => ?_
  have hi : i < n := by simpa using hi
  have hj : j < q := by simpa using hj
  have e : ∑ l ∈ Finset.range R, V.get [j, l] * U.T.get [l, i] = ∑ r ∈ Finset.range R, U.get [i, r] * V.get [j, r] :=
    Finset.sum_congr rfl fun r hr => by rw [get_T hU (by simpa using hr) hi, mul_comm]
  rw [e, get_T hY hj hi]; ring

/-! ### the update of a factor matrix -/

/-- The state after the update of mode `m` with the right hand side `c` and the new factor `F`. -/
def CMTFState.upd (s : CMTFState) (m : ℕ) (c F : NDArray ℝ) : CMTFState :=
  { s with cp := { s.cp with
    lastMode := some m
    cache := some c
    dec := { s.cp.dec with factorMatrices := s.cp.dec.factorMatrices.set m F } } }

theorem CMTFState.Sized.upd {s : CMTFState} {R m : ℕ} {ms qs : List ℕ} {c F : NDArray ℝ} (h : s.Sized R ms qs)
    (hF : F.shape = [s.cp.X.shape.getD m 0, R]) : (s.upd m c F).Sized R ms qs :=
  ⟨⟨⟨h.cp.wf.rank, factors_set h.cp.wf.factors hF, h.cp.wf.weights⟩, h.cp.order, h.cp.nonempty⟩, h.modes, h.map, h.lenY,
    h.lenV, h.lenW, h.shapeY, h.shapeV⟩

/-- The other weights do not matter for the update of `CP_ALS`. -/
theorem cp_updateFactor_weights (E : Ext) (o : CPOpts) (m : ℕ) (s : CPState) (v : NDArray ℝ) :
    CP.updateFactor E o m { s with dec := { s.dec with weights := v } }
      = (CP.updateFactor E o m s).map fun t => { t with dec := { t.dec with weights := v } } := by
  have h1 : CP.alsRhs { s with dec := { s.dec with weights := v } } m = CP.alsRhs s m := rfl
  have h2 : CP.getSolve E o { s with dec := { s.dec with weights := v } } m = CP.getSolve E o s m := rfl
  unfold CP.updateFactor
  rw [h1, h2]
  simp only []
  rcases CP.alsLhs o.rank m s.dec.factorMatrices with _ | lhs
  · rfl
  rcases CP.alsRhs s m with _ | rhs
  · rfl
  rcases CP.getSolve E o s m with _ | solve
  · rfl
  simp only [bind_ok]
  rcases solve lhs rhs with _ | new
  · rfl
  simp only [bind_ok]
  rcases pyGet s.dec.factorMatrices (m : Int) with _ | F
  · rfl
  simp only [bind_ok]
  rcases assignAll F new with _ | F'
  · rfl
  rfl

/-- In a mode without coupled matrix the update is the one of `CP_ALS`. -/
theorem updateFactor_uncoupled {E : Ext} {o : CPOpts} {s : CMTFState} {m : ℕ} (hl : CMTF.lookup m s.map = none) :
    CMTF.updateFactor E o m s = (CP.updateFactor E o m s.cp).map fun c => { s with cp := c } := by
  unfold CMTF.updateFactor CP.updateFactor
  rw [CMTF.alsLhs, CMTF.alsRhs, hl]
  simp only []
  rcases CP.alsLhs o.rank m s.cp.dec.factorMatrices with _ | lhs
  · rfl
  rcases CP.alsRhs s.cp m with _ | rhs
  · rfl
  rcases CP.getSolve E o s.cp m with _ | solve
  · rfl
  simp only [bind_ok]
  rcases solve lhs rhs with _ | new
  · rfl
  simp only [bind_ok]
  rcases pyGet s.cp.dec.factorMatrices (m : Int) with _ | F
  · rfl
  simp only [bind_ok]
  rcases assignAll F new with _ | F'
  · rfl
  rfl

/-- The left hand side with a coupled matrix. -/
def coupledLhs (X : NDArray ℝ) (fs : List (NDArray ℝ)) (V : NDArray ℝ) (m q R : ℕ) : NDArray ℝ :=
  ofMat R ((X.shape.eraseIdx m).prod + q) fun i j =>
    if j < (X.shape.eraseIdx m).prod then (krMat (fs.eraseIdx m) (X.shape.eraseIdx m) R).T.get [i, j]
    else V.T.get [i, j - (X.shape.eraseIdx m).prod]

/-- The right hand side with a coupled matrix. -/
def coupledRhs (X Y : NDArray ℝ) (m q : ℕ) : NDArray ℝ :=
  ofMat (X.shape.getD m 0) ((X.shape.eraseIdx m).prod + q) fun i j =>
    if j < (X.shape.eraseIdx m).prod then (unfoldMat X m).get [i, j] else Y.get [i, j - (X.shape.eraseIdx m).prod]

theorem mapM_pyGet {l : List (NDArray ℝ)} {is : List ℕ} (h : ∀ i ∈ is, i < l.length) :
    (is.mapM fun (i : ℕ) => pyGet l i) = .ok (is.map fun i => l.getD i noArr) := by
  induction is with
  | nil => rfl
  | cons i is ih =>
    have hi := h i (by simp)
    rw [List.mapM_cons, pyGet_ok (norm_nat hi), bind_ok, ih (fun j hj => h j (by simp [hj])), bind_ok, List.map_cons,
      getD_of_lt hi]
    rfl

theorem pyGet_zero_cons {β : Type} (a : β) (l : List β) : pyGet (a :: l) 0 = .ok a := by
  rw [pyGet_ok (k := 0) (by simp [normIdx])]; rfl

theorem coupledLhs_ok {s : CMTFState} {R m i : ℕ} {ms qs t : List ℕ} (h : s.Sized R ms qs) (hm : m < s.cp.X.shape.length)
    (hl : CMTF.lookup m s.map = some (i :: t)) (hall : ∀ k ∈ i :: t, k < ms.length) :
    CMTF.alsLhs R m s = .ok (coupledLhs s.cp.X s.cp.dec.factorMatrices (s.V.getD i noArr) m (qs.getD i 0) R) := by
  have hlen := h.cp.wf.factors.length_eq
  have hV := h.shapeV i (hall i (by simp))
  rw [CMTF.alsLhs, hl]
  simp only
  rw [khatriRao_skip h.cp.wf.factors (norm_nat (by omega)) (by have := h.cp.order; omega), bind_ok,
    mapM_pyGet (fun k hk => by rw [h.lenV]; exact hall k hk), bind_ok, List.map_cons, pyGet_zero_cons, bind_ok]
  have hK : (krMat (s.cp.dec.factorMatrices.eraseIdx m) (s.cp.X.shape.eraseIdx m) R).shape
      = [(s.cp.X.shape.eraseIdx m).prod, R] := rfl
  rw [vcat_ok hK hV, bind_ok]
  refine congrArg Except.ok (ext_mat (m := R) (n := (s.cp.X.shape.eraseIdx m).prod + qs.getD i 0)
    (shape_T (shape_ofMat _ _ _)) (shape_ofMat _ _ _) fun a ha b hb => ?_)
  rw [get_T (shape_ofMat _ _ _) ha hb, get_ofMat hb ha, coupledLhs, get_ofMat ha hb]
  split
  · rename_i hb'
    rw [get_T hK ha hb']
  · rw [get_T hV ha (by omega)]

theorem coupledRhs_ok {s : CMTFState} {R m i : ℕ} {ms qs t : List ℕ} (h : s.Sized R ms qs) (hm : m < s.cp.X.shape.length)
    (hl : CMTF.lookup m s.map = some (i :: t)) (hall : ∀ k ∈ i :: t, k < ms.length) (hi : ms.getD i 0 = m) :
    CMTF.alsRhs m s = .ok (coupledRhs s.cp.X (s.Ys.getD i noArr) m (qs.getD i 0)) := by
  have hY := h.shapeY i (hall i (by simp))
  rw [hi] at hY
  rw [CMTF.alsRhs, hl]
  simp only
  rw [unfold_eq _ (norm_nat hm) (h.cp.dim hm), bind_ok, mapM_pyGet (fun k hk => by rw [h.lenY]; exact hall k hk), bind_ok,
    List.map_cons, pyGet_zero_cons, bind_ok]
  exact hcat_ok (A := unfoldMat s.cp.X m) (shape_ofMat _ _ _) hY

theorem updateFactor_coupled {E : Ext} {o : CPOpts} {s : CMTFState} {m i : ℕ} {ms qs t : List ℕ}
    (h : s.Sized o.rank ms qs) (hm : m < s.cp.X.shape.length) (hl : CMTF.lookup m s.map = some (i :: t))
    (hall : ∀ k ∈ i :: t, k < ms.length) (hi : ms.getD i 0 = m)
    {solve : NDArray ℝ → NDArray ℝ → Py (NDArray ℝ)} (hs : CP.getSolve E o s.cp m = .ok solve) {F : NDArray ℝ}
    (hF : solve (coupledLhs s.cp.X s.cp.dec.factorMatrices (s.V.getD i noArr) m (qs.getD i 0) o.rank)
      (coupledRhs s.cp.X (s.Ys.getD i noArr) m (qs.getD i 0)) = .ok F)
    (hFs : F.shape = [s.cp.X.shape.getD m 0, o.rank]) :
    CMTF.updateFactor E o m s = .ok (s.upd m (coupledRhs s.cp.X (s.Ys.getD i noArr) m (qs.getD i 0)) F) := by
  have hm' : m < s.cp.dec.factorMatrices.length := by rw [h.cp.wf.factors.length_eq]; exact hm
  rw [CMTF.updateFactor, coupledLhs_ok h hm hl hall, bind_ok, coupledRhs_ok h hm hl hall hi, bind_ok, hs, bind_ok, hF,
    bind_ok, pyGet_ok (norm_nat hm'), bind_ok, assignAll_same (hFs.trans (h.cp.wf.factors.shape_get hm').symm), bind_ok]
  rfl

/-- What the dictionary says about a mode. -/
theorem CMTFState.Sized.lookup {s : CMTFState} {R : ℕ} {ms qs : List ℕ} (h : s.Sized R ms qs) (m : ℕ) :
    (CMTF.lookup m s.map = none ∧ (m : Int) ∉ s.modes) ∨
    ∃ i t, CMTF.lookup m s.map = some (i :: t) ∧ s.modes[i]? = some (m : Int) ∧
      (∀ j < i, s.modes[j]? ≠ some (m : Int)) ∧ (∀ k ∈ i :: t, k < ms.length) ∧
      (m < s.cp.X.shape.length → ms.getD i 0 = m) := by
  have hD := mapOk s.modes
  rw [← h.map] at hD
  cases hl : CMTF.lookup m s.map with
  | none =>
    refine Or.inl ⟨rfl, fun hmem => ?_⟩
    obtain ⟨i, hi, e⟩ := List.getElem_of_mem hmem
    obtain ⟨l, hl'⟩ := hD.mem i hi m (by rw [List.getElem?_eq_getElem hi, e])
    exact lookup_none hl l hl'
  | some l =>
    obtain ⟨i, t, rfl, h1, h2, h3⟩ := hD.head (lookup_mem hl)
    refine Or.inr ⟨i, t, rfl, h1, h2, fun k hk => by rw [← h.lenM]; exact (h3 k hk).1, fun hm => ?_⟩
    have hi : i < ms.length := by rw [← h.lenM]; exact (h3 i (by simp)).1
    have hmode := h.mode hi
    have e : s.modes[i]'(by rw [h.lenM]; exact hi) = (m : Int) := by
      rw [List.getElem?_eq_getElem (by rw [h.lenM]; exact hi)] at h1
      simpa using h1
    rw [e] at hmode
    have h4 := hmode.norm
    rw [norm_nat hm] at h4
    simpa using h4.symm

/-- Updates of a mode that is not constrained in both ways always succeed. -/
theorem cmtf_updateFactor_total {E : Ext} (hE : E.SVDOk) (hN : E.NNLSOk) {o : CPOpts} {s : CMTFState} {m : ℕ} {ms qs : List ℕ}
    {nn on : Bool} {ridge : Option ℝ} (h : s.Sized o.rank ms qs) (hr : 0 < o.rank) (hm : m < s.cp.X.shape.length)
    (hc : s.cp.ModeConfig o m nn on ridge) (hb : ¬ (nn = true ∧ on = true)) :
    ∃ c F, F.shape = [s.cp.X.shape.getD m 0, o.rank] ∧ CMTF.updateFactor E o m s = .ok (s.upd m c F) := by
  rcases h.lookup m with ⟨hl, -⟩ | ⟨i, t, hl, -, -, hall, hi⟩
  · obtain ⟨F, -, hF, e⟩ := updateFactor_total hE hN h.cp hr hm hc hb
    refine ⟨mttkrpMat s.cp.X s.cp.dec.factorMatrices m o.rank, F, hF, ?_⟩
    rw [updateFactor_uncoupled hl, e]
    rfl
  · obtain ⟨F, e, hF⟩ := withRidge_total hE hN nn on ridge
      (A := coupledLhs s.cp.X s.cp.dec.factorMatrices (s.V.getD i noArr) m (qs.getD i 0) o.rank)
      (B := coupledRhs s.cp.X (s.Ys.getD i noArr) m (qs.getD i 0)) (shape_ofMat _ _ _) (shape_ofMat _ _ _) hr
      (Nat.pos_of_ne_zero (h.cp.dim hm))
    exact ⟨_, F, hF, updateFactor_coupled h hm hl hall (hi hm) (getSolve_ok hc hb) e hF⟩

theorem getD_set {β : Type} (l : List β) (m k : ℕ) (a d : β) :
    (l.set m a).getD k d = if m = k ∧ k < l.length then a else l.getD k d := by
  simp only [List.getD, List.getElem?_set]
  by_cases h : m = k
  · subst h
    by_cases h' : m < l.length <;> simp [h']
  · simp [h]

/-- The coupling modes are given as `0, 1, …`. -/
def CMTFState.Plain (s : CMTFState) (ms : List ℕ) : Prop := s.modes = ms.map fun m : ℕ => (m : Int)

/-- The unweighted error of the tensor as a function of one factor. -/
theorem sqErr_set {s : CPState} {R m : ℕ} (h : s.Sized R) (hm : m < s.X.shape.length) {Z : NDArray ℝ}
    (hZ : Z.shape = [s.X.shape.getD m 0, R]) :
    sqErr s.X (fun _ => 1) (s.dec.factorMatrices.set m Z) R
      = resid Z (krMat (s.dec.factorMatrices.eraseIdx m) (s.X.shape.eraseIdx m) R).T (unfoldMat s.X m)
        (s.X.shape.getD m 0) R (s.X.shape.eraseIdx m).prod := by
  have hm' : m < s.dec.factorMatrices.length := by rw [h.wf.factors.length_eq]; exact hm
  rw [sqErr_eq (factors_set h.wf.factors hZ) (k := m) (by simpa using hm')]
  simp only [List.getElem_set_self, eraseIdx_set_self]

/-- The errors of the first matrices, when the factor of a mode without coupled matrix changes. -/
theorem firstErr_set_none {fs Ys Vs : List (NDArray ℝ)} {ms : List ℕ} {R m : ℕ} {Z : NDArray ℝ} (hm : m ∉ ms) :
    firstErr (fs.set m Z) Ys Vs ms R = firstErr fs Ys Vs ms R := by
  refine Finset.sum_congr rfl fun i hi => ?_
  have hi : i < ms.length := by simp at hi; exact hi.1
  have : m ≠ ms.getD i 0 := by
    rintro rfl
    exact hm (by rw [getD_of_lt hi]; exact List.getElem_mem hi)
  rw [coupledErrAt, coupledErrAt, getD_set, if_neg (fun h => this h.1)]

/-- The errors of the first matrices, when the factor of a mode with coupled matrices changes. -/
theorem firstErr_set_some {fs Ys Vs : List (NDArray ℝ)} {ms : List ℕ} {R m i : ℕ} (hm : m < fs.length)
    (hi : i < ms.length) (hmi : ms.getD i 0 = m) (hf : IsFirst ms i) : ∃ c, ∀ Z : NDArray ℝ,
    firstErr (fs.set m Z) Ys Vs ms R = matErr (Ys.getD i noArr) Z (Vs.getD i noArr) R + c := by
  refine ⟨∑ j ∈ ((Finset.range ms.length).filter (IsFirst ms)).erase i, coupledErrAt fs Ys Vs ms R j, fun Z => ?_⟩
  rw [firstErr, ← Finset.add_sum_erase (a := i) _ _ (by simp [hi, hf])]
  congr 1
  · rw [coupledErrAt, hmi, getD_set, if_pos ⟨rfl, hm⟩]
  · refine Finset.sum_congr rfl fun j hj => ?_
    have hj' : j ≠ i ∧ j < ms.length ∧ IsFirst ms j := by simpa using hj
    have : m ≠ ms.getD j 0 := by
      intro e
      rcases Nat.lt_or_gt_of_ne hj'.1 with hlt | hgt
      · exact hf j hlt (by rw [hmi, ← e])
      · exact hj'.2.2 i hgt (by rw [hmi, ← e])
    rw [coupledErrAt, coupledErrAt, getD_set, if_neg (fun h => this h.1)]

/-- The unconstrained update of a mode minimises the loss over all values of the factor matrix. -/
theorem cmtf_update_core {E : Ext} (hE : E.SVDOk) {o : CPOpts} {s : CMTFState} {m : ℕ} {ms qs : List ℕ}
    (h : s.Sized o.rank ms qs) (hp : s.Plain ms) (hm : m < s.cp.X.shape.length)
    (hc : s.cp.ModeConfig o m false false none) :
    ∃ c F, F.shape = [s.cp.X.shape.getD m 0, o.rank] ∧ CMTF.updateFactor E o m s = .ok (s.upd m c F) ∧
      ∀ Y : NDArray ℝ, Y.shape = [s.cp.X.shape.getD m 0, o.rank] →
        (s.upd m c F).fitLoss o.rank ms ≤ (s.upd m c Y).fitLoss o.rank ms := by
  have hm' : m < s.cp.dec.factorMatrices.length := by rw [h.cp.wf.factors.length_eq]; exact hm
  rcases h.lookup m with ⟨hl, hmem⟩ | ⟨i, t, hl, hi1, hi2, hall, hi⟩
  · have hmem' : m ∉ ms := by
      intro hx
      exact hmem (by rw [hp]; exact List.mem_map_of_mem (f := fun m : ℕ => (m : Int)) hx)
    set s1 : CPState := { s.cp with dec := { s.cp.dec with weights := full [o.rank] 1 } } with hs1
    have hS1 : s1.Sized o.rank := ⟨⟨h.cp.wf.rank, h.cp.wf.factors, rfl⟩, h.cp.order, h.cp.nonempty⟩
    obtain ⟨F, hF, e, hopt⟩ := C34_update_core hE (s := s1) (m := m) hS1 hm
      (fun r hr => get_full ⟨hr, trivial⟩) ⟨hc.nonNeg, hc.orth, hc.ridge⟩
    rw [hs1, cp_updateFactor_weights] at e
    obtain ⟨F0, -, hF0, e0⟩ : ∃ F0, rightsolve E (ofMat o.rank o.rank fun a b =>
        gramProd (s.cp.dec.factorMatrices.eraseIdx m) a b) (mttkrpMat s.cp.X s.cp.dec.factorMatrices m o.rank) = .ok F0 ∧
        F0.shape = [s.cp.X.shape.getD m 0, o.rank] ∧
        CP.updateFactor E o m s.cp = .ok (s.cp.updated m o.rank F0) := by
      obtain ⟨F0, e1, hF0, -⟩ := C11_rightsolve hE (A := ofMat o.rank o.rank fun a b =>
        gramProd (s.cp.dec.factorMatrices.eraseIdx m) a b) (B := mttkrpMat s.cp.X s.cp.dec.factorMatrices m o.rank)
        (m := o.rank) (n := o.rank) (p := s.cp.X.shape.getD m 0) rfl rfl
      exact ⟨F0, e1, hF0, updateFactor_ok h.cp.wf.factors h.cp.order hm (h.cp.dim hm) (getSolve_ok hc (by simp)) e1 hF0⟩
    have hFF : s.cp.dec.factorMatrices.set m F0 = s.cp.dec.factorMatrices.set m F := by
      rw [e0] at e
      have := congrArg (fun q : Py CPState => q.map fun c => c.dec.factorMatrices) e
      simpa [Except.map, CPState.updated] using this
    refine ⟨mttkrpMat s.cp.X s.cp.dec.factorMatrices m o.rank, F0, hF0, ?_, fun Y hY => ?_⟩
    · rw [updateFactor_uncoupled hl, e0]; rfl
    · have h1 := hopt Y hY
      have h2 : ∀ Z : NDArray ℝ, (s1.updated m o.rank Z).trueSSE o.rank
          = sqErr s.cp.X (fun _ => 1) (s.cp.dec.factorMatrices.set m Z) o.rank := by
        intro Z
        rw [CPState.trueSSE]
        exact sqErr_congr_weights fun r hr => get_full ⟨hr, trivial⟩
      rw [h2, h2, ← hFF] at h1
      simp only [CMTFState.fitLoss, CMTFState.upd, firstErr_set_none hmem']
      linarith
  · have hi' := hi hm
    have hil := hall i (by simp)
    have hY := h.shapeY i hil
    have hV := h.shapeV i hil
    rw [hi'] at hY
    have hf : IsFirst ms i := by
      intro j hj e
      refine hi2 j hj ?_
      rw [hp, List.getElem?_map, List.getElem?_eq_getElem (by omega)]
      rw [getD_of_lt (by omega), hi'] at e
      rw [e]; rfl
    obtain ⟨F, e, hF, hopt, -⟩ := C11_rightsolve hE
      (A := coupledLhs s.cp.X s.cp.dec.factorMatrices (s.V.getD i noArr) m (qs.getD i 0) o.rank)
      (B := coupledRhs s.cp.X (s.Ys.getD i noArr) m (qs.getD i 0)) (shape_ofMat _ _ _) (shape_ofMat _ _ _)
    refine ⟨_, F, hF, updateFactor_coupled h hm hl hall hi' (getSolve_ok hc (by simp)) e hF, fun Y hYs => ?_⟩
    obtain ⟨c, hc'⟩ := firstErr_set_some (Ys := s.Ys) (Vs := s.V) (R := o.rank) hm' hil hi' hf
    have h1 := hopt Y
    rw [coupledLhs, coupledRhs, resid_hcat, resid_hcat] at h1
    simp only [CMTFState.fitLoss, CMTFState.upd, hc']
    rw [sqErr_set h.cp hm hF, sqErr_set h.cp hm hYs, matErr_resid hY hV, matErr_resid hY hV]
    linarith

/-! ### the update of the uncoupled factor matrices -/

/-- `V` is the best right factor of `Y` for the left factor `U`. -/
def BestV (Y U V : NDArray ℝ) (R : ℕ) : Prop := ∀ W : NDArray ℝ, matErr Y U V R ≤ matErr Y U W R

/-- Entries of the dictionary. -/
def EntryOk (modes : List Int) (p : Int × List ℕ) : Prop :=
  ∃ i t, p.2 = i :: t ∧ modes[i]? = some p.1

theorem updateUncoupled_ok {E : Ext} (hE : E.SVDOk) {R : ℕ} {s : CMTFState} {ms qs : List ℕ} (h : s.Sized R ms qs)
    (hnn : s.cp.nonNeg = some (List.replicate s.cp.X.shape.length false)) {m : Int} {i : ℕ} {t : List ℕ}
    (hi : s.modes[i]? = some m) :
    ∃ V', CMTF.updateUncoupled E s (m, i :: t) = .ok { s with V := s.V.set i V' } ∧ V'.shape = [qs.getD i 0, R] ∧
      i < ms.length ∧ BestV (s.Ys.getD i noArr) (s.cp.dec.factorMatrices.getD (ms.getD i 0) noArr) V' R := by
  have hil : i < ms.length := by rw [← h.lenM]; exact (List.getElem?_eq_some_iff.1 hi).1
  have e : s.modes[i]'(by rw [h.lenM]; exact hil) = m := (List.getElem?_eq_some_iff.1 hi).2
  have hg := h.getFactor hil
  rw [e] at hg
  have hmode := h.mode hil
  rw [e] at hmode
  have hU := h.shapeU hil
  have hY := h.shapeY i hil
  obtain ⟨V', e1, hV', hopt, -⟩ := C11_rightsolve hE (shape_T hU) (shape_T hY)
  refine ⟨V', ?_, hV', hil, fun W => ?_⟩
  · rw [CMTF.updateUncoupled]
    simp only
    rw [pyGet_zero_cons, bind_ok, hg, bind_ok, pyGet_ok (norm_nat (by rw [h.lenY]; exact hil)), bind_ok, hnn]
    simp only [CMTF.flagAt]
    rw [pyGet_ok (l := List.replicate s.cp.X.shape.length false) (by rw [List.length_replicate]; exact hmode.norm), bind_ok]
    simp only [List.getElem_replicate, Bool.false_eq_true, if_false]
    rw [getD_of_lt (l := s.Ys) (by rw [h.lenY]; exact hil)] at e1
    rw [e1, bind_ok, pyGet_ok (norm_nat (by rw [h.lenV]; exact hil)), bind_ok, assignAll_same, bind_ok]
    · rfl
    · have := h.shapeV i hil
      rw [getD_of_lt (by rw [h.lenV]; exact hil)] at this
      rw [hV', this]
  · rw [matErr_residT hY hU, matErr_residT hY hU]
    exact hopt W

theorem CMTFState.Sized.setV {s : CMTFState} {R i : ℕ} {ms qs : List ℕ} {V : NDArray ℝ} (h : s.Sized R ms qs)
    (hV : V.shape = [qs.getD i 0, R]) : ({ s with V := s.V.set i V } : CMTFState).Sized R ms qs := by
  refine ⟨h.cp, h.modes, h.map, h.lenY, by simpa using h.lenV, h.lenW, h.shapeY, fun j hj => ?_⟩
  simp only [getD_set]
  split
  · rename_i hh
    rw [hV, hh.1]
  · exact h.shapeV j hj

theorem uncoupled_fold {E : Ext} (hE : E.SVDOk) {R : ℕ} {ms qs : List ℕ} : ∀ (D : List (Int × List ℕ)) (s : CMTFState),
    s.Sized R ms qs → s.cp.nonNeg = some (List.replicate s.cp.X.shape.length false) → (∀ p ∈ D, EntryOk s.modes p) →
    (D.map Prod.fst).Nodup →
    ∃ V', D.foldlM (CMTF.updateUncoupled E) s = .ok { s with V := V' } ∧
      ({ s with V := V' } : CMTFState).Sized R ms qs ∧
      (∀ p ∈ D, ∀ i t, p.2 = i :: t → BestV (s.Ys.getD i noArr) (s.cp.dec.factorMatrices.getD (ms.getD i 0) noArr)
        (V'.getD i noArr) R) ∧
      (∀ i, (∀ p ∈ D, p.2.head? ≠ some i) → V'.getD i noArr = s.V.getD i noArr) := by
  intro D
  induction D with
  | nil => intro s h _ _ _; exact ⟨s.V, rfl, h, by simp, by simp⟩
  | cons p D ih =>
    intro s h hnn hD hnd
    obtain ⟨m, l⟩ := p
    obtain ⟨i, t, rfl, hi⟩ := hD (m, l) List.mem_cons_self
    obtain ⟨V1, e1, hV1, hil, hbest⟩ := updateUncoupled_ok hE h hnn hi (t := t)
    have hnd' : m ∉ D.map Prod.fst ∧ (D.map Prod.fst).Nodup := by simpa using hnd
    obtain ⟨V', e2, hS, hb, hrest⟩ := ih { s with V := s.V.set i V1 } (h.setV hV1) hnn
      (fun p hp => hD p (by simp [hp])) hnd'.2
    have hother : ∀ p ∈ D, p.2.head? ≠ some i := by
      intro p hp hh
      obtain ⟨j, t', hj1, hj2⟩ := hD p (by simp [hp])
      rw [hj1] at hh
      obtain rfl : j = i := by simpa using hh
      have hi' : s.modes[j]? = some m := hi
      rw [hi'] at hj2
      obtain rfl : m = p.1 := by simpa using hj2
      exact hnd'.1 (List.mem_map_of_mem (f := Prod.fst) hp)
    refine ⟨V', ?_, hS, fun p hp j t' hj => ?_, fun j hj => ?_⟩
    · rw [List.foldlM_cons, e1, bind_ok, e2]
    · rcases List.mem_cons.1 hp with rfl | hp
      · obtain ⟨rfl, rfl⟩ : i = j ∧ t = t' := by simpa using hj
        rw [hrest i hother]
        rw [getD_set, if_pos ⟨rfl, by rw [h.lenV]; exact hil⟩]
        exact hbest
      · exact hb p hp j t' hj
    · rw [hrest j (fun p hp => hj p (by simp [hp]))]
      simp only [getD_set]
      rw [if_neg]
      rintro ⟨rfl, -⟩
      exact hj (m, i :: t) List.mem_cons_self rfl

end
end TK
