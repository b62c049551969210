import Verif.Lemmas.Parafac2Init
import Mathlib.Tactic.IntervalCases

/-! # Initialisation of `Parafac2_ALS`: the PARAFAC2 parts of C56, C61, C62, C67, and C72 -/

namespace TK
open NDArray Matrix Fit

noncomputable section

variable {s : P2State} {I R : ℕ} {Js : List ℕ}

/-! ### C61 -/

/-- The names of the initialisation schemes of `Parafac2_ALS`. -/
def p2KnownInits : List String := ["svd", "random", "cp", "from_checkpoint", "precomputed"]

/-- C61 for `Parafac2_ALS`: only the lower-case form of a known `init` matters. -/
theorem C61_parafac2_case_insensitive (E : Ext) (c : P2.Config) (i : String) (hi : i.toLower = c.init.toLower)
    (hk : i.toLower ∈ p2KnownInits) (arg : InitArg P2Obj) (w : World P2State) :
    P2.initComponents E { c with init := i } arg w = P2.initComponents E c arg w := by
  have hk' : c.init.toLower ∈ p2KnownInits := hi ▸ hk
  simp only [p2KnownInits, List.mem_cons, List.not_mem_nil, or_false] at hk'
  unfold P2.initComponents
  simp only [hi]
  rcases hk' with h | h | h | h | h <;> simp only [h] <;> rfl

/-- C61 for `Parafac2_ALS`: `precomputed` uses exactly the decomposition supplied (the same arrays), after checking it. -/
theorem C61_parafac2_precomputed (E : Ext) (c : P2.Config) (hi : c.init.toLower = "precomputed") (d : P2Obj)
    (w : World P2State) :
    P2.initComponents E c (.tensor d) w =
      match P2.checkValid c.opts.rank w.st (d.read w.st.heap) with
      | .ok _ => .ok () { w with st := { w.st with dec := d } }
      | .error e => .error e w := by
  unfold P2.initComponents
  simp only [hi]
  cases h : P2.checkValid c.opts.rank w.st (d.read w.st.heap) with
  | ok u =>
    refine modifySt_ok (f := fun s => do P2.checkValid c.opts.rank s (d.read s.heap); pure { s with dec := d }) (w := w) ?_
    simp only [h]; rfl
  | error e =>
    refine modifySt_error (f := fun s => do P2.checkValid c.opts.rank s (d.read s.heap); pure { s with dec := d }) (w := w) ?_
    simp only [h]; rfl

/-- C61 for `Parafac2_ALS`: an `init` that is neither a scheme nor the path of a file raises `ValueError`. -/
theorem C61_parafac2_unknown (E : Ext) (c : P2.Config) (hk : c.init.toLower ∉ p2KnownInits) (hf : c.isFile c.init = none)
    (arg : InitArg P2Obj) (w : World P2State) : P2.initComponents E c arg w = .error .valueError w := by
  simp only [p2KnownInits, List.mem_cons, List.not_mem_nil, or_false, not_or] at hk
  unfold P2.initComponents
  simp only [if_false, hk.1, hk.2.1, hk.2.2.1, hk.2.2.2.1, hk.2.2.2.2, hf]
  rfl

/-- C61 for `Parafac2_ALS`: `from_checkpoint` without a path, and without a file at the decomposer's own path. -/
theorem C61_parafac2_no_checkpoint_file (E : Ext) (c : P2.Config) (hi : c.init.toLower = "from_checkpoint") (w : World P2State) :
    P2.initComponents E c .none w = .error .typeError w ∧
      (w.file = none → P2.initComponents E c (.path .own) w = .error .fileNotFound w) := by
  unfold P2.initComponents
  refine ⟨by simp only [hi]; rfl, fun hw => ?_⟩
  simp only [hi]
  show Fit.loadCheckpoint (P2.method E c) (CkPath.resolve w .own) none w = _
  rw [CkPath.resolve, hw]
  rfl

/-- **C61, refuted** for `Parafac2_ALS`: a decomposition that is passed along with another initialisation is silently ignored, for
every argument; no `Warning` is raised. -/
theorem C61_parafac2_no_warning (E : Ext) (c : P2.Config) (hi : c.init.toLower ∈ ["svd", "random", "cp"])
    (arg : InitArg P2Obj) (w : World P2State) : P2.initComponents E c arg w = P2.initComponents E c .none w := by
  simp only [List.mem_cons, List.not_mem_nil, or_false] at hi
  unfold P2.initComponents
  rcases hi with h | h | h <;> simp only [h] <;> rfl

/-- A random initialisation with a decomposition passed along succeeds, so there is a case without `Warning`. -/
example {E : Ext} (hQ : E.QROk) {c : P2.Config} (hi : c.init.toLower = "random") (h : s.Data I Js) (hR : 0 < c.opts.rank)
    (hJ : ∀ J ∈ Js, c.opts.rank ≤ J) (d : P2Obj) (it mx : Int) (ls : List Logger) (f : Option H5File) :
    ∃ w', P2.initComponents E c (.tensor d) ⟨s, it, mx, ls, f⟩ = .ok () w' := by
  obtain ⟨t, e, -⟩ := P2State.initRandom_ok hQ h hR hJ
  rw [C61_parafac2_no_warning E c (by simp [hi])]
  unfold P2.initComponents
  simp only [hi]
  exact ⟨_, modifySt_ok (w := ⟨s, it, mx, ls, f⟩) e⟩

/-! ### C62 -/

theorem checkFactor_iff {F : NDArray ℝ} {m r n rank : ℕ} (h : F.shape = [m, r]) :
    (P2.checkFactor F n rank = .ok () ↔ m = n ∧ r = rank) ∧ (¬ (m = n ∧ r = rank) → P2.checkFactor F n rank = .error .valueError) := by
  rw [P2.checkFactor, rows_ok h, bind_ok]
  by_cases h1 : m = n
  · rw [if_neg (by simpa using h1), cols_ok h, bind_ok]
    by_cases h2 : r = rank
    · rw [if_neg (by simpa using h2)]
      exact ⟨⟨fun _ => ⟨h1, h2⟩, fun _ => rfl⟩, fun h => absurd ⟨h1, h2⟩ h⟩
    · rw [if_pos h2]
      exact ⟨⟨fun h => (by cases h), fun h => absurd h.2 h2⟩, fun _ => rfl⟩
  · rw [if_pos h1]
    exact ⟨⟨fun h => (by cases h), fun h => absurd h.1 h1⟩, fun _ => rfl⟩

theorem checkSlices_iff {D : NDArray ℝ} {q r rank : ℕ} (hD : D.shape = [q, r]) : ∀ {P Xs : List (NDArray ℝ)} {Ls Js : List ℕ},
    Factors P Ls q → List.Forall₂ (fun Xk J => ∃ I, Xk.shape = [I, J]) Xs Js → Ls.length = Js.length →
    (P2.checkSlices rank D P Xs = .ok () ↔ Ls = Js ∧ (Js ≠ [] → r = rank)) ∧
      (¬ (Ls = Js ∧ (Js ≠ [] → r = rank)) → P2.checkSlices rank D P Xs = .error .valueError)
  | _, _, _, _, .nil, .nil, _ => by simp [P2.checkSlices]
  | _, _, _, _, .nil, .cons _ _, h => by simp at h
  | _, _, _, _, .cons _ _, .nil, h => by simp at h
  | Pk :: P, Xk :: Xs, L :: Ls, J :: Js, .cons hP hPs, .cons hX hXs, hl => by
    obtain ⟨I, hX⟩ := hX
    obtain ⟨ih1, ih2⟩ := checkSlices_iff hD hPs hXs (by simpa using hl)
    rw [P2.checkSlices, matmul_ok hP hD, bind_ok, rows_ok (shape_ofMat _ _ _), bind_ok, cols_ok hX, bind_ok]
    by_cases h1 : L = J
    · rw [if_neg (by simpa using h1), cols_ok (shape_ofMat _ _ _), bind_ok]
      by_cases h2 : r = rank
      · rw [if_neg (by simpa using h2)]
        subst h1 h2
        constructor
        · rw [ih1]; simp
        · intro h
          exact ih2 (by simpa using h)
      · rw [if_pos h2]
        refine ⟨⟨fun h => (by cases h), fun h => absurd (h.2 (by simp)) h2⟩, fun _ => rfl⟩
    · rw [if_pos h1]
      refine ⟨⟨fun h => (by cases h), fun h => ?_⟩, fun _ => rfl⟩
      have := h.1
      simp only [List.cons.injEq] at this
      exact absurd this.1 h1

/-- C62 for `Parafac2_ALS`, the part that holds: a tensor with one projection matrix per slice is accepted exactly if its matrices have
the sizes of the data and the rank of the model, and `ValueError` is raised otherwise. (The blueprint may have any number of rows.)
Missing: other numbers of projection matrices, see `C62_parafac2_fewer_accepted`. -/
theorem C62_parafac2_check_partial {t : Parafac2Tensor} (h : s.Data I Js) {a ra k rc q rd rank : ℕ} {Ls : List ℕ}
    (hA : t.A.shape = [a, ra]) (hC : t.C.shape = [k, rc]) (hD : t.blueprint.shape = [q, rd]) (hP : Factors t.P Ls q)
    (hn : Ls.length = Js.length) :
    (P2.checkValid rank s t = .ok () ↔ (a = I ∧ ra = rank) ∧ (k = Js.length ∧ rc = rank) ∧ Ls = Js ∧ rd = rank) ∧
    (¬ ((a = I ∧ ra = rank) ∧ (k = Js.length ∧ rc = rank) ∧ Ls = Js ∧ rd = rank) → P2.checkValid rank s t = .error .valueError) := by
  obtain ⟨f1, f2⟩ := checkFactor_iff (n := I) (rank := rank) hA
  obtain ⟨g1, g2⟩ := checkFactor_iff (n := Js.length) (rank := rank) hC
  obtain ⟨p1, p2⟩ := checkSlices_iff (rank := rank) hD hP (h.X.imp fun _ _ h => ⟨I, h⟩) hn
  have hne : Js ≠ [] := fun hc => by have := h.posK; simp [hc] at this
  simp only [hne, ne_eq, not_false_eq_true, true_implies] at p1 p2
  rw [P2.checkValid, h.xshape]
  simp only
  by_cases hf : a = I ∧ ra = rank
  · rw [f1.2 hf, bind_ok]
    by_cases hg : k = Js.length ∧ rc = rank
    · rw [g1.2 hg, bind_ok]
      exact ⟨p1.trans ⟨fun h => ⟨hf, hg, h⟩, fun h => h.2.2⟩, fun h' => p2 fun hc => h' ⟨hf, hg, hc⟩⟩
    · rw [g2 hg, bind_error]
      exact ⟨⟨fun h => (by cases h), fun h => absurd h.2.1 hg⟩, fun _ => rfl⟩
  · rw [f2 hf, bind_error]
    exact ⟨⟨fun h => (by cases h), fun h => absurd h.1 hf⟩, fun _ => rfl⟩

theorem checkSlices_take {rank : ℕ} {D : NDArray ℝ} : ∀ {P Xs : List (NDArray ℝ)} (n : ℕ),
    P2.checkSlices rank D P Xs = .ok () → P2.checkSlices rank D (P.take n) Xs = .ok ()
  | [], _, n, _ => by simp [P2.checkSlices]
  | _ :: _, _, 0, _ => by simp [P2.checkSlices]
  | Pk :: P, [], n + 1, h => by simpa [P2.checkSlices] using h
  | Pk :: P, Xk :: Xs, n + 1, h => by
    rw [List.take_succ_cons]
    rw [P2.checkSlices] at h ⊢
    obtain ⟨B, e1, h⟩ := bind_eq_ok.1 h
    obtain ⟨m, e2, h⟩ := bind_eq_ok.1 h
    obtain ⟨l, e3, h⟩ := bind_eq_ok.1 h
    rw [e1, bind_ok, e2, bind_ok, e3, bind_ok]
    by_cases hml : m ≠ l
    · rw [if_pos hml] at h; cases h
    · rw [if_neg hml] at h ⊢
      obtain ⟨r, e4, h⟩ := bind_eq_ok.1 h
      rw [e4, bind_ok]
      by_cases hr : r ≠ rank
      · rw [if_pos hr] at h; cases h
      · rw [if_neg hr] at h ⊢
        exact checkSlices_take n h

/-- **C62, refuted** for `Parafac2_ALS`: of an accepted tensor one can drop any number of projection matrices at the end, even all of
them; it is still accepted, although slices have no projection matrix. -/
theorem C62_parafac2_fewer_accepted {rank : ℕ} {t : Parafac2Tensor} (h : P2.checkValid rank s t = .ok ()) (n : ℕ) :
    P2.checkValid rank s { t with P := t.P.take n } = .ok () := by
  rw [P2.checkValid] at h ⊢
  obtain ⟨u, e1, h⟩ := bind_eq_ok.1 h
  obtain ⟨v, e2, h⟩ := bind_eq_ok.1 h
  rw [e1, bind_ok, e2, bind_ok]
  exact checkSlices_take n h

/-- Non-vacuity of C62: two slices of different widths; an accepted tensor, and one that is accepted without any projection matrix. -/
example : ∃ (s : P2State) (t : Parafac2Tensor), s.Data 2 [2, 3] ∧ P2.checkValid 1 s t = .ok () ∧
    P2.checkValid 1 s { t with P := [] } = .ok () := by
  set s : P2State := { P2.fresh ⟨fun _ => full [] 0, 0⟩ with X := [full [2, 2] 0, full [2, 3] 0], XShape := (2, [2, 3], 2) } with hs
  set t : Parafac2Tensor := ⟨1, full [2, 1] 0, full [1, 1] 0, full [2, 1] 0, [full [2, 1] 0, full [3, 1] 0], true, false,
    [(2, 2), (2, 3)], 5⟩ with ht
  have hd : s.Data 2 [2, 3] := ⟨by simp, by simp, by simp, .cons rfl (.cons rfl .nil), rfl⟩
  have hc := (C62_parafac2_check_partial (t := t) (rank := 1) hd (a := 2) (ra := 1) (k := 2) (rc := 1) (q := 1) (rd := 1) (Ls := [2, 3])
    rfl rfl rfl (.cons rfl (.cons rfl .nil)) rfl).1.2 (by simp)
  exact ⟨s, t, hd, hc, C62_parafac2_fewer_accepted hc 0⟩

/-! ### C72 -/

/-- **C72, refuted**: `init_svd` raises `TypeError` for every object and all data. (`X_shape[1]` is the list of the numbers of columns, also
for a regular tensor, and is passed to `np.zeros`.) -/
theorem C72_svd_raises (E : Ext) (c : P2.Config) (s : P2State) : P2.initSvd E c s = .error .typeError := rfl

/-- **C72, refuted**: a fit with `init="svd"` of any regular tensor with at least one slice raises `TypeError`. -/
theorem C72_fit_raises (E : Ext) (c : P2.Config) (hi : c.init.toLower = "svd") {X : NDArray ℝ} {I J K : ℕ} (hX : X.shape = [I, J, K])
    (hK : 0 < K) (mi : Option Int) (arg : InitArg P2Obj) (w : World P2State) :
    ∃ w', P2.fit E c (.tensor X) mi arg w = .error .typeError w' := by
  have e0 := p2_setTarget_tensor hX hK w.st
  rw [p2_setTarget_list (I := I) (Js := List.replicate K J) (List.forall₂_iff_get.2 ⟨by simp, fun k h1 h2 => by
    simp [shape_ofMat]⟩) (by simpa using hK)] at e0
  unfold P2.fit Fit.fit Fit.initFit
  simp only [bind_assoc]
  rw [bind_of_ok (modify_def _ _), bind_of_ok (modifySt_ok (w := ⟨w.st, 0, w.maxIts, w.loggers, w.file⟩) e0)]
  unfold P2.initComponents
  simp only [hi]
  exact ⟨_, by rw [bind_of_error]; exact modifySt_error (C72_svd_raises E c _)⟩

example : (full [2, 3, 4] (0 : ℝ)).shape = [2, 3, 4] ∧ "SVD".toLower = "svd" := by
  refine ⟨rfl, ?_⟩
  rw [String.toLower, ← String.toList_inj, String.toList_map]; decide

/-! ### C56 -/

/-- C56 for `Parafac2_ALS`, the part that holds: without optional arguments, `fit_transform` is `fit` followed by returning the
decomposition. Missing: the optional arguments (`C56_parafac2_ignored`, `C56_parafac2_fails`). -/
theorem C56_parafac2_fit_transform_partial (E : Ext) (c : P2.Config) (D : P2Data) (w : World P2State) :
    P2.fitTransform E c D none .none w =
      match P2.fit E c D none .none w with
      | .ok _ w' => .ok w'.st.dec w'
      | .error e w' => .error e w' := by
  unfold P2.fitTransform
  cases h : P2.fit E c D none .none w with
  | ok u w' => rw [bind_of_ok h]; rfl
  | error e w' => rw [bind_of_error h]

/-- **C56, refuted** for `Parafac2_ALS`: `fit_transform` ignores `max_its` and `initial_decomposition`. -/
theorem C56_parafac2_ignored (E : Ext) (c : P2.Config) (D : P2Data) (mi : Option Int) (arg : InitArg P2Obj) :
    P2.fitTransform E c D mi arg = P2.fitTransform E c D none .none := rfl

/-- **C56, refuted** for `Parafac2_ALS`: with `init="precomputed"`, `fit_transform` always raises `AttributeError`, whatever
decomposition is passed. -/
theorem C56_parafac2_precomputed_raises (E : Ext) (c : P2.Config) (hi : c.init.toLower = "precomputed") {Xs : List (NDArray ℝ)}
    (hX : List.Forall₂ (fun Xk J => Xk.shape = [I, J]) Xs Js) (hK : 0 < Js.length) (mi : Option Int) (arg : InitArg P2Obj)
    (w : World P2State) : ∃ w', P2.fitTransform E c (.list Xs) mi arg w = .error .attributeError w' := by
  have e0 := p2_setTarget_list hX hK w.st
  rw [C56_parafac2_ignored, C56_parafac2_fit_transform_partial]
  have : ∃ w', P2.fit E c (.list Xs) none .none w = .error .attributeError w' := by
    unfold P2.fit Fit.fit Fit.initFit
    simp only [bind_assoc]
    rw [bind_of_ok (modify_def _ _), bind_of_ok (modifySt_ok (w := ⟨w.st, 0, w.maxIts, w.loggers, w.file⟩) e0)]
    unfold P2.initComponents
    simp only [hi]
    exact ⟨_, by rw [bind_of_error]; rfl⟩
  obtain ⟨w', e⟩ := this
  exact ⟨w', by rw [e]⟩

/-! ### C67 -/

/-- The attribute `num_elements` set by the constructor is the sum of the numbers of columns of the slices, whatever `I` is. -/
theorem parafac2_numElements {A D C : NDArray ℝ} {P : List (NDArray ℝ)} {q : ℕ} (hA : A.shape = [I, R]) (hD : D.shape = [q, R])
    (hP : Factors P Js q) {w : Bool} {t : Parafac2Tensor} (e : Parafac2Tensor.init A D C P w = .ok t) : t.numElements = Js.sum := by
  obtain ⟨B, eB, hB, -⟩ := Bs_ok hD hP
  rw [Parafac2Tensor.init, cols_ok hA, bind_ok] at e
  obtain ⟨same, -, e⟩ := bind_eq_ok.1 e
  rw [eB, bind_ok, sliceShapesOf_ok hA hB, bind_ok, pure_eq_ok] at e
  subst e
  show ((Js.map fun j => (I, j)).map Prod.snd).sum = _
  rw [List.map_map]
  exact congrArg List.sum (List.map_id _)

/-- The state after a random start. -/
theorem C67_parafac2_start {E : Ext} (hQ : E.QROk) {c : P2.Config} (h : s.Data I Js) (hR : 0 < c.opts.rank)
    (hJ : ∀ J ∈ Js, c.opts.rank ≤ J) : ∃ s1, P2.initRandom E c s = .ok s1 ∧ s1.Sized I Js c.opts.rank ∧ s1.X = s.X ∧
      s1.A = ofMat I c.opts.rank c.drawA ∧ s1.dec.numElements = Js.sum := by
  have hne : Js ≠ [] := fun hc => by have := h.posK; simp [hc] at this
  obtain ⟨t, e, -, h1, h2, h3, h4, -⟩ := C68_parafac2_random_init hQ c.drawA c.drawC c.drawP I Js.length c.opts.rank
    (J := .list Js) (Or.inl rfl) hne hJ
  obtain ⟨g1, -, -, g4, -⟩ := P2State.setNew_spec h hR h1 h3 h2 h4
  have e0 := e
  rw [Parafac2Tensor.randomInit] at e
  have hP : t.P = ((List.range Js.length).map fun k =>
      Parafac2Tensor.takeCols (E.qr (ofMat (Js.getD k 0) c.opts.rank (c.drawP k))).1 c.opts.rank) ∧
      t.A = ofMat I c.opts.rank c.drawA := by
    have e' := e
    rw [Parafac2Tensor.init] at e'
    obtain ⟨_, -, e'⟩ := bind_eq_ok.1 e'
    obtain ⟨_, -, e'⟩ := bind_eq_ok.1 e'
    obtain ⟨_, -, e'⟩ := bind_eq_ok.1 e'
    obtain ⟨_, -, e'⟩ := bind_eq_ok.1 e'
    rw [pure_eq_ok] at e'
    subst e'
    exact ⟨rfl, rfl⟩
  refine ⟨P2.setNew t s, ?_, g1, rfl, ?_, ?_⟩
  · rw [P2.initRandom, h.xshape]
    simp only
    rw [e0, bind_ok]; rfl
  · exact (congrArg Parafac2Tensor.A g4).trans hP.2
  · exact (congrArg Parafac2Tensor.numElements g4).trans
      (parafac2_numElements (shape_ofMat _ _ _) (shape_ofMat _ _ _) (hP.1 ▸ h4) e)

/-- C67 for `Parafac2_ALS`: what `MSE` is. The sum of squared errors is divided by `Σ J_k` and not by the number of data entries
`I Σ J_k`; so it is the mean for `I = 1` only (`C67_parafac2_fails`). `hn` is what the constructor of `Parafac2Tensor` stores
(`parafac2_numElements`) and no update changes. -/
theorem C67_parafac2_partial (h : s.Sized I Js R) (hn : s.dec.numElements = Js.sum) :
    P2.mse s = .ok (.fin (s.err I Js R / Js.sum)) ∧ (I = 1 → P2.mse s = .ok (.fin (s.err I Js R / (I * Js.sum)))) := by
  have h0 : Js.sum ≠ 0 := by
    intro hc
    have hk := h.posK
    rw [List.sum_eq_zero_iff] at hc
    have := h.posJ _ (List.getElem_mem hk)
    rw [hc _ (List.getElem_mem hk)] at this
    omega
  have : P2.mse s = .ok (.fin (s.err I Js R / Js.sum)) := by
    rw [P2.mse, h.sse, bind_ok, hn, FV.div, if_pos (by exact_mod_cast h0)]
    rfl
  exact ⟨this, fun hI => by rw [this, hI, Nat.cast_one, one_mul]⟩

/-- **C67, refuted** for `Parafac2_ALS`: with at least two rows, `MSE` is not the mean of the squared errors unless the fit is perfect. -/
theorem C67_parafac2_wrong (h : s.Sized I Js R) (hn : s.dec.numElements = Js.sum) (hI : 2 ≤ I) (he : s.err I Js R ≠ 0) :
    P2.mse s ≠ .ok (.fin (s.err I Js R / (I * Js.sum))) := by
  have h0 : (Js.sum : ℝ) ≠ 0 := by
    intro hc
    have hc : Js.sum = 0 := by exact_mod_cast hc
    have hk := h.posK
    rw [List.sum_eq_zero_iff] at hc
    have := h.posJ _ (List.getElem_mem hk)
    rw [hc _ (List.getElem_mem hk)] at this
    omega
  have hI' : (2 : ℝ) ≤ I := by exact_mod_cast hI
  rw [(C67_parafac2_partial h hn).1]
  intro hc
  have hc : s.err I Js R / (Js.sum : ℝ) = s.err I Js R / (I * Js.sum) := by simpa using hc
  rw [div_eq_div_iff h0 (by positivity)] at hc
  have : s.err I Js R * Js.sum * ((I : ℝ) - 1) = 0 := by linear_combination hc
  rcases mul_eq_zero.1 this with h1 | h1
  · exact mul_ne_zero he h0 h1
  · linarith

/-- **C67, refuted** for `Parafac2_ALS`, a concrete case: the slices are the columns `(1, 1)`, the factor matrices of the start are zero.
The mean of the squared errors is `1`, `MSE` returns `2`. -/
theorem C67_parafac2_fails {E : Ext} (hQ : E.QROk) {c : P2.Config} (hR : c.opts.rank = 1) (hA : c.drawA = fun _ _ => 0) {s : P2State}
    (hX : s.X = [full [2, 1] 1, full [2, 1] 1]) (hXs : s.XShape = (2, [1, 1], 2)) :
    ∃ s1, P2.initRandom E c s = .ok s1 ∧ P2.sse s1 = .ok 4 ∧ P2.mse s1 = .ok (.fin 2) := by
  have hd : s.Data 2 [1, 1] := ⟨by simp, by simp, by simp, by rw [hX]; exact .cons rfl (.cons rfl .nil), hXs⟩
  obtain ⟨s1, e, h1, h2, h3, h4⟩ := C67_parafac2_start (E := E) hQ (c := c) hd (by omega) (by simp [hR])
  have herr : s1.err 2 [1, 1] c.opts.rank = 4 := by
    have hz : ∀ i r, i < 2 → r < c.opts.rank → s1.A.get [i, r] = 0 := by
      intro i r hi hr
      rw [h3, get_ofMat hi hr, hA]
    have hest : ∀ Pk k i j, i < 2 → p2Entry s1.A s1.D s1.C Pk c.opts.rank k i j = 0 := by
      intro Pk k i j hi
      exact Finset.sum_eq_zero fun r hr => by rw [hz i r hi (Finset.mem_range.1 hr)]; ring
    have hx : ∀ k i, k < 2 → i < 2 → (nth s1.X k).get [i, 0] = 1 := by
      intro k i hk hi
      rw [h2, hX]
      interval_cases k <;> exact get_full ⟨hi, Nat.zero_lt_one, trivial⟩
    show ∑ k ∈ Finset.range ([1, 1] : List ℕ).length, ∑ i ∈ Finset.range 2, ∑ j ∈ Finset.range (([1, 1] : List ℕ).getD k 0),
      ((nth s1.X k).get [i, j] - p2Entry s1.A s1.D s1.C (nth s1.P k) c.opts.rank k i j) ^ 2 = 4
    have hterm : ∀ k ∈ Finset.range ([1, 1] : List ℕ).length, ∀ i ∈ Finset.range 2, ∑ j ∈ Finset.range (([1, 1] : List ℕ).getD k 0),
        ((nth s1.X k).get [i, j] - p2Entry s1.A s1.D s1.C (nth s1.P k) c.opts.rank k i j) ^ 2 = 1 := by
      intro k hk i hi
      have hk : k < 2 := Finset.mem_range.1 hk
      have hi := Finset.mem_range.1 hi
      have : ([1, 1] : List ℕ).getD k 0 = 1 := by interval_cases k <;> rfl
      rw [this, Finset.sum_range_one, hest _ _ _ _ hi, hx k i hk hi]
      norm_num
    rw [Finset.sum_congr rfl fun k hk => Finset.sum_congr rfl (hterm k hk)]
    norm_num
  refine ⟨s1, e, ?_, ?_⟩
  · rw [h1.sse, herr]
  · rw [(C67_parafac2_partial h1 h4).1, herr]
    norm_num

end
end TK
