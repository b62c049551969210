import Verif.Spec.Layout
import Verif.Props.Serialize
import Verif.Props.Loggers
import Verif.Props.Checkpoints
import Verif.Model.CPFit
import Verif.Model.Parafac2Fit
import Verif.Model.CMTF

/-!
# C133: the layout of the files

Source: decompositions.py:33-50 (type of a group), 106, 185-206 (Kruskal tensors), 315, 420-443 (evolving tensors), 570, 658-686
(PARAFAC2 tensors); base_decomposer.py:178-191, cmtf.py:11-18 (checkpoints).
-/

namespace TK
open NDArray Fit

noncomputable section

/-! ### names -/

theorem digitChar_eq {d : ℕ} (h : d < 10) : digitChar d = Nat.digitChar d := by
  interval_cases d <;> decide

theorem decimal_eq (n : ℕ) : decimal n = (toString n).toList := by
  rw [show toString n = n.repr from rfl, Nat.toList_repr]
  induction n using Nat.strong_induction_on with
  | _ n ih =>
    by_cases h : n < 10
    · rw [Nat.toDigits_of_lt_base h, decimal]
      split
      · next h0 => subst h0; rfl
      · next h0 =>
        rw [Nat.digits_of_lt 10 n h0 h]
        simp [digitChar_eq h]
    · rw [Nat.toDigits_of_base_le (by decide) (by omega), ← ih (n / 10) (by omega), decimal, decimal, if_neg (by omega),
        if_neg (by omega), Nat.digits_def' (by decide) (by omega), List.reverse_cons, List.map_append]
      simp [digitChar_eq (Nat.mod_lt n (by decide : 0 < 10))]

theorem fmtNat_eq (w n : ℕ) : fmtNat w n = List.leftpad w '0' (toString n).toList := by
  rw [fmtNat, decimal_eq, List.leftpad]

/-- The number `7` of a factor matrix is written `007`, the number `1234` as it is. -/
example : paddedName "factor_matrix" 3 7 = "factor_matrix007".toList ∧ paddedName "B_" 3 1234 = "B_1234".toList := by decide

theorem hasSeries_numbered {g : Group} {pre : String} {As : List (NDArray ℝ)} {d d' : Dict DSet}
    (hd : g.dsets = d ++ numbered pre.toList 0 As ++ d') (h : ∀ j, d.find (pre.toList ++ fmtNat 3 j) = none) :
    g.HasSeries pre As := by
  intro k A hk
  obtain ⟨hlt, rfl⟩ := List.getElem?_eq_some_iff.1 hk
  rw [paddedName, ← fmtNat_eq, hd, Dict.find_append, Dict.find_append, h k, Option.none_or]
  have := find_numbered (pre := pre.toList) (As := As) (i := 0) hlt
  rw [Nat.zero_add] at this
  rw [this, Option.some_or]

theorem Group.HasSeries.get {g : Group} {pre : String} {As : List (NDArray ℝ)} (h : g.HasSeries pre As) :
    getNumbered pre.toList (As.length : ℕ) g = .ok As := by
  rw [getNumbered, Int.toNat_natCast]
  apply mapM_range_ok
  intro i hi
  have := h i As[i] (by simp [hi])
  rw [paddedName, ← fmtNat_eq] at this
  exact Group.arr_ok this

/-! ### decompositions -/

theorem has_numbered {pre : String} {n : Name} : ∀ {As : List (NDArray ℝ)} {i : ℕ}, (numbered pre.toList i As).has n = true →
    ∃ k < As.length, n = paddedName pre 3 (i + k)
  | [], _, h => by simp [numbered, Dict.has] at h
  | A :: As, i, h => by
    rw [numbered, Dict.has, List.any_cons, Bool.or_eq_true] at h
    rcases h with h | h
    · exact ⟨0, by simp, by rw [paddedName, ← fmtNat_eq]; exact (beq_iff_eq.1 h).symm⟩
    · obtain ⟨k, hk, e⟩ := has_numbered h
      exact ⟨k + 1, by simpa using hk, by rw [e]; congr 1; omega⟩

theorem has_append {β : Type} (d d' : Dict β) (n : Name) : Dict.has (d ++ d') n = (d.has n || d'.has n) := by
  simp [Dict.has]

theorem has_single {β : Type} {k n : Name} {v : β} : Dict.has [(k, v)] n = true ↔ n = k := by
  rw [Dict.has, List.any_cons, List.any_nil, Bool.or_false, beq_iff_eq, eq_comm]

/-- C133 for Kruskal tensors. Storing in a new group succeeds and gives a group with the documented names, and no other dataset. -/
theorem C133_kruskal (t : KruskalTensor) : ∃ g, t.storeIn Group.empty = .ok g ∧ KruskalLayout g t ∧
    g.HasAttr "rank" (.int t.rank) ∧ ∀ n, g.dsets.has n = true →
      n = "weights".toList ∨ ∃ k < t.factorMatrices.length, n = paddedName "factor_matrix" 3 k := by
  refine ⟨_, kruskal_storeIn_eq t, ⟨by rfl, by rfl, ?_, ?_⟩, by rfl, fun n hn => ?_⟩
  · exact hasSeries_numbered (d := []) (d' := [("weights".toList, .arr t.weights)]) (by rfl) (by simp)
  · rw [Group.HasData, Dict.find_append, find_numbered_none, Option.none_or]
    · rfl
    · intro j _; rw [fmPre_eq]; simp
  · rw [has_append, Bool.or_eq_true, has_single] at hn
    rcases hn with hn | hn
    · obtain ⟨k, hk, e⟩ := has_numbered (pre := "factor_matrix") hn
      exact .inr ⟨k, hk, by rw [e, Nat.zero_add]⟩
    · exact .inl hn

/-- C133 for evolving tensors. -/
theorem C133_evolving (t : EvolvingTensor) : ∃ g, t.storeIn Group.empty = .ok g ∧ EvolvingLayout g t ∧
    g.HasAttr "rank" (.int t.rank) ∧ ∀ n, g.dsets.has n = true →
      n = "A".toList ∨ n = "C".toList ∨ ∃ k < t.B.length, n = paddedName "B_" 3 k := by
  refine ⟨_, evolving_storeIn_eq t, ⟨by rfl, by rfl, by rfl, by rfl, by rfl, ?_, ?_⟩, by rfl, fun n hn => ?_⟩
  · exact hasSeries_numbered (d := [("A".toList, .arr t.A)]) (d' := [("C".toList, .arr t.C)]) (by rfl)
      (by intro j; simp [Dict.find_cons])
  · rw [Group.HasData, Dict.find_append, Dict.find_append, find_numbered_none]
    · rfl
    · intro j _; rw [bPre_eq]; simp
  · rw [has_append, has_append, Bool.or_eq_true, Bool.or_eq_true, has_single, has_single] at hn
    rcases hn with (hn | hn) | hn
    · exact .inl hn
    · obtain ⟨k, hk, e⟩ := has_numbered (pre := "B_") hn
      exact .inr (.inr ⟨k, hk, by rw [e, Nat.zero_add]⟩)
    · exact .inr (.inl hn)

/-- C133 for PARAFAC2 tensors. -/
theorem C133_parafac2 (t : Parafac2Tensor) : ∃ g, t.storeIn Group.empty = .ok g ∧ Parafac2Layout g t ∧
    g.HasAttr "rank" (.int t.rank) ∧ g.HasAttr "all_same_size" (.bool t.allSameSize) ∧ ∀ n, g.dsets.has n = true →
      n = "A".toList ∨ n = "blueprint_B".toList ∨ n = "C".toList ∨ ∃ k < t.P.length, n = paddedName "projection_matrix_" 3 k := by
  refine ⟨_, parafac2_storeIn_eq t, ⟨by rfl, by rfl, by rfl, by rfl, by rfl, by rfl, ?_⟩, by rfl, by rfl, fun n hn => ?_⟩
  · exact hasSeries_numbered (d := [("A".toList, .arr t.A), ("blueprint_B".toList, .arr t.blueprint), ("C".toList, .arr t.C)])
      (d' := []) (List.append_nil _).symm (by intro j; simp [Dict.find_cons])
  · rw [has_append, Bool.or_eq_true] at hn
    rcases hn with hn | hn
    · rw [← List.singleton_append, has_append, ← List.singleton_append (l := [("C".toList, DSet.arr t.C)]), has_append,
        Bool.or_eq_true, Bool.or_eq_true, has_single, has_single, has_single] at hn
      tauto
    · obtain ⟨k, hk, e⟩ := has_numbered (pre := "projection_matrix_") hn
      exact .inr (.inr (.inr ⟨k, hk, by rw [e, Nat.zero_add]⟩))

theorem checkGroup_type {g : Group} {cls : String} (h : g.HasAttr "type" (.str cls.toList)) : checkGroup cls.toList g = .ok () := by
  rw [checkGroup, Dict.item_ok h, bind_ok]
  simp [pure, Except.pure]

theorem checkCols_factors {R : ℕ} : ∀ {fs : List (NDArray ℝ)} {s : List ℕ}, Factors fs s R → KruskalTensor.checkCols R fs = .ok () := by
  intro fs s hfs
  unfold Factors at hfs
  induction hfs with
  | nil => rfl
  | cons h1 h2 ih => rw [KruskalTensor.checkCols, cols_ok h1, bind_ok, if_neg (by simp), ih]

/-- C133, reading. Every group with these names, whoever wrote it and whatever else it contains, is loaded as this tensor. -/
theorem C133_kruskal_read {g : Group} {t : KruskalTensor} {sizes : List ℕ} {R : ℕ} (ht : t.WF sizes R) (hne : sizes ≠ [])
    (h : KruskalLayout g t) : KruskalTensor.loadFrom g = .ok t := by
  rw [KruskalTensor.loadFrom, show kruskalName = "KruskalTensor".toList from rfl, checkGroup_type h.type, bind_ok,
    Group.intAttr_ok h.number, bind_ok, show fmPre = "factor_matrix".toList from rfl, h.factors.get, bind_ok,
    Group.arr_ok h.weights, bind_ok]
  obtain ⟨hr, hf, hw⟩ := ht
  obtain ⟨tr, tf, tw⟩ := t
  simp only at hr hf hw
  have hck := checkCols_factors hf
  cases hf with
  | nil => exact absurd rfl hne
  | cons h1 h2 =>
    rename_i F n fs s
    have hp : pyGet (F :: fs) 0 = .ok F := rfl
    rw [KruskalTensor.init, hp, bind_ok, cols_ok h1, bind_ok, hck, bind_ok]
    simp [hw, hr, pure, Except.pure]

theorem C133_parafac2_read {g : Group} {t : Parafac2Tensor} (ht : t.Constructed) (h : Parafac2Layout g t) :
    Parafac2Tensor.loadFrom g = .ok t := by
  rw [Parafac2Tensor.loadFrom, show parafac2Name = "Parafac2Tensor".toList from rfl, checkGroup_type h.type, bind_ok,
    Group.arr_ok h.A, bind_ok, Group.arr_ok h.blueprint, bind_ok, Group.arr_ok h.C, bind_ok, Group.boolAttr_ok h.warning, bind_ok,
    Group.intAttr_ok h.number, bind_ok, show pmPre = "projection_matrix_".toList from rfl, h.P.get, bind_ok]
  exact ht

/-- A group that another program has written, with an attribute and a dataset of its own. -/
example : KruskalTensor.loadFrom
    { attrs := [("author".toList, .str "me".toList), ("n_factor_matrices".toList, .int 1), ("type".toList, .str "KruskalTensor".toList)],
      dsets := [("weights".toList, .arr (full [2] 1)), ("notes".toList, .vseq [1]),
        ("factor_matrix000".toList, .arr (ofMat 3 2 fun i j => i + j))] }
    = .ok ⟨2, [ofMat 3 2 fun i j => i + j], full [2] 1⟩ :=
  C133_kruskal_read (sizes := [3]) (R := 2) ⟨rfl, .cons rfl .nil, rfl⟩ (by simp)
    ⟨by rfl, by rfl, fun k A hk => by
      match k, hk with
      | 0, hk => obtain rfl := Option.some.inj hk; rfl, by rfl⟩

/-! ### checkpoints -/

section Checkpoints
variable {σ τ : Type}

theorem storeAttrs_typed (m : Method σ τ) {it : Int} {g g' : Group} (h : storeAttrs m it g = .ok g') :
    g'.attrs.find finalKey = some (.int it) ∧ (m.writesIts = true → g'.attrs.find decTypeKey = some (.str m.typeName)) ∧
      (m.writesIts = false → g'.attrs.find decTypeKey = g.attrs.find decTypeKey) := by
  unfold storeAttrs at h
  obtain ⟨g1, h1, h2⟩ := bind_eq_ok.1 h
  rw [← pure_eq_ok.1 h2]
  by_cases hw : m.writesIts = true
  · simp only [hw, if_true]
    refine ⟨?_, fun _ => ?_, by simp⟩
    · simp only [Group.setAttr]
      rw [Dict.find_set_ne _ _ decTypeKey_ne_final, Dict.find_set_self]
    · simp only [Group.setAttr]
      rw [Dict.find_set_self]
  · simp only [hw] at h1 ⊢
    refine ⟨?_, by simp, fun _ => ?_⟩
    · simp only [Group.setAttr, Bool.false_eq_true, if_false]
      rw [Dict.find_set_self]
    · simp only [Group.setAttr, Bool.false_eq_true, if_false]
      rw [Dict.find_set_ne _ _ (Ne.symm decTypeKey_ne_final), ← pure_eq_ok.1 h1]

theorem writeLoggers_root : ∀ {names : List Name} {ls ls' : List Logger} {f f' : H5File},
    writeLoggers names ls f = .ok (ls', f') → f'.root = f.root
  | [], _, _, _, _, h => by
    rw [writeLoggers] at h
    · injection h with h; injection h with h1 h2; rw [h2]
    · simp
  | n :: ns, [], _, _, _, h => by
    rw [writeLoggers] at h
    · injection h with h; injection h with h1 h2; rw [h2]
    · simp
  | n :: ns, l :: ls, ls', f, f', h => by
    rw [writeLoggers] at h
    obtain ⟨q, h1, h⟩ := bind_eq_ok.1 h
    obtain ⟨q', h2, h⟩ := bind_eq_ok.1 h
    have h := pure_eq_ok.1 h
    injection h with h3 h4
    rw [← h4, writeLoggers_root h2]
    unfold Logger.writeTo at h1
    split at h1
    · cases h1
    · obtain ⟨g, -, h1⟩ := bind_eq_ok.1 h1
      rw [← pure_eq_ok.1 h1]

/-- What a checkpoint does to the attributes of the file, whether it succeeds or fails. -/
theorem storeCheckpoint_root (m : Method σ τ) (w : World σ) :
    ((after (storeCheckpoint m w)).file.getD H5File.empty).root = (w.file.getD H5File.empty).root ∨
      storeAttrs m w.it (w.file.getD H5File.empty).root = .ok ((after (storeCheckpoint m w)).file.getD H5File.empty).root := by
  unfold storeCheckpoint
  rw [bind_of_ok (get_def w)]
  by_cases hp : m.hasPath = true
  · rw [if_pos hp, bind_of_ok (set_def _ _)]
    cases h1 : storeAttrs m w.it (w.file.getD H5File.empty).root with
    | error e => rw [bind_of_error (lift_error rfl _)]; exact .inl rfl
    | ok root =>
      rw [bind_of_ok (lift_ok rfl _), bind_of_ok (set_def _ _)]
      cases h2 : ({ w.file.getD H5File.empty with root := root } : H5File).createGroup (ckName w.it) with
      | error e => rw [bind_of_error (lift_error rfl _)]; exact .inr rfl
      | ok f =>
        have c1 : f.root = root := (createGroup_spec h2).1
        rw [bind_of_ok (lift_ok rfl _), bind_of_ok (set_def _ _)]
        cases h3 : m.storeDec (m.dec w.st) Group.empty with
        | error e => rw [bind_of_error (lift_error rfl _)]; exact .inr (congrArg _ c1.symm)
        | ok g =>
          rw [bind_of_ok (lift_ok rfl _), bind_of_ok (set_def _ _)]
          cases h4 : writeLoggers (m.logs.map Prod.fst) w.loggers
              { f with groups := f.groups.set (ckName w.it) g } with
          | error e => rw [bind_of_error (lift_error rfl _)]; exact .inr (congrArg _ c1.symm)
          | ok q =>
            rw [bind_of_ok (lift_ok rfl _)]
            exact .inr (congrArg _ ((writeLoggers_root h4).trans c1).symm)
  · rw [if_neg hp]; exact .inl rfl

/-- A property of the attributes of the file. -/
def OfRoot (P : Group → Prop) (w : World σ) : Prop := P (w.file.getD H5File.empty).root

variable {m : Method σ τ} {P : Group → Prop}

theorem OfRoot.keeps_modifySt (f : σ → Py σ) : Keeps (OfRoot P) (modifySt f) := by
  intro w h
  cases hf : f w.st with
  | ok s => rw [modifySt_ok hf]; exact h
  | error e => rw [modifySt_error hf]; exact h

theorem OfRoot.keeps_store (hP : ∀ it g g', storeAttrs m it g = .ok g' → P g → P g') : Keeps (OfRoot P) (storeCheckpoint m) := by
  intro w h
  rcases storeCheckpoint_root m w with e | e
  · rw [OfRoot, e]; exact h
  · exact hP _ _ _ e h

theorem OfRoot.keeps_afterIteration (hP : ∀ it g g', storeAttrs m it g = .ok g' → P g → P g') :
    Keeps (OfRoot P) (afterIteration m) := by
  intro w h
  unfold afterIteration
  rw [bind_of_ok (get_def w)]
  cases h1 : logAll w.it w.st m.logs w.loggers with
  | error e => rw [bind_of_error (lift_error rfl _)]; exact h
  | ok ls =>
    rw [bind_of_ok (lift_ok rfl _), bind_of_ok (set_def _ _)]
    have h' : OfRoot P ({ w with loggers := ls } : World σ) := h
    revert h'
    generalize ({ w with loggers := ls } : World σ) = w'
    intro h'
    refine Keeps.bind (P := OfRoot P) (Keeps.lift _) (fun b => ?_) w' h'
    have hmod : Keeps (OfRoot P) (modify fun w => { w with it := w.it + 1 } : Fit σ PUnit) := fun w h => h
    by_cases hb : (b && decide (0 < m.freq)) = true
    · simp only [hb, if_true]
      exact Keeps.bind (keeps_store hP) fun _ => hmod
    · simp only [hb]
      exact hmod

theorem OfRoot.keeps_loop (hP : ∀ it g g', storeAttrs m it g = .ok g' → P g → P g') :
    ∀ (n i : ℕ) (last : Option ℕ), Keeps (OfRoot P) (loop m n i last)
  | 0, _, _ => Keeps.pure _
  | n + 1, i, last => by
    unfold loop
    refine Keeps.bind (fun w h => h) fun w => Keeps.bind (Keeps.lift _) fun b => ?_
    split
    · exact Keeps.pure _
    · exact Keeps.bind (keeps_modifySt _) fun _ => Keeps.bind (keeps_afterIteration hP) fun _ => keeps_loop hP n _ _

theorem OfRoot.keeps_run (hP : ∀ it g g', storeAttrs m it g = .ok g' → P g → P g') : Keeps (OfRoot P) (run m) := by
  refine Keeps.bind (keeps_modifySt _) fun _ => Keeps.bind (fun w h => h) fun w => Keeps.bind (keeps_loop hP _ _ _) fun last =>
    Keeps.bind ?_ fun _ => keeps_modifySt _
  unfold final
  refine Keeps.bind ?_ fun n => Keeps.bind (Keeps.lift _) fun b => ?_
  · split
    · split
      · exact Keeps.throw _
      · exact Keeps.pure _
    · exact Keeps.bind (fun w h => h) fun w => Keeps.pure _
  · split
    · exact keeps_store hP
    · exact Keeps.pure _

theorem OfRoot.keeps_fit (hP : ∀ it g g', storeAttrs m it g = .ok g' → P g → P g') {setTarget : σ → Py σ}
    {initComponents : Fit σ Unit} (hi : Keeps (OfRoot P) initComponents) (mi : Option Int) :
    Keeps (OfRoot P) (Fit.fit m setTarget initComponents mi) := by
  refine Keeps.bind ?_ fun _ => keeps_run hP
  refine Keeps.bind (fun w h => h) fun _ => Keeps.bind (keeps_modifySt _) fun _ => Keeps.bind hi fun _ =>
    Keeps.bind ?_ fun _ => keeps_modifySt _
  cases mi with
  | none => exact Keeps.pure _
  | some n => exact fun w h => h

theorem OfRoot.keeps_load (path : FileArg) (loadIt : Option Int) : Keeps (OfRoot P) (loadCheckpoint m path loadIt) := by
  unfold loadCheckpoint
  refine Keeps.bind (Keeps.lift _) fun f => ?_
  have h3 : ∀ n : Int, Keeps (OfRoot P) (do
      modify fun w => { w with it := n }
      if !f.hasName (ckName n) then throw .valueError
      let g ← Fit.lift (f.groups.item (ckName n))
      let d ← Fit.lift (m.loadDec g)
      let w ← get
      Fit.lift (m.check d w.st)
      set { w with st := m.setDec d w.st } : Fit σ Unit) := by
    intro n
    refine Keeps.bind (fun w h => h) fun _ => ?_
    have h4 : Keeps (OfRoot P) (do
        let g ← Fit.lift (f.groups.item (ckName n))
        let d ← Fit.lift (m.loadDec g)
        let w ← get
        Fit.lift (m.check d w.st)
        set { w with st := m.setDec d w.st } : Fit σ Unit) := by
      refine Keeps.bind (Keeps.lift _) fun g => Keeps.bind (Keeps.lift _) fun d => ?_
      intro w h
      rw [bind_of_ok (get_def w)]
      cases hc : m.check d w.st with
      | error e => rw [bind_of_error (lift_error rfl _)]; exact h
      | ok u => rw [bind_of_ok (lift_ok rfl _)]; exact h
    split
    · exact Keeps.bind (Keeps.throw _) fun _ => h4
    · exact h4
  cases loadIt with
  | none =>
    simp only
    split
    · exact Keeps.bind (Keeps.throw _) fun _ => Keeps.bind (Keeps.lift _) h3
    · exact Keeps.bind (Keeps.lift _) h3
  | some n =>
    simp only
    split
    · exact Keeps.bind (Keeps.throw _) fun _ => Keeps.bind (Keeps.pure _) h3
    · exact Keeps.bind (Keeps.pure _) h3

/-- A checkpoint of a method that names its class. -/
theorem typed_step (hw : m.writesIts = true) {cls : String} (hc : m.typeName = cls.toList) (it : Int) (g g' : Group)
    (h : storeAttrs m it g = .ok g') (_ : g.attrs.has finalKey = true → g.attrs.find decTypeKey = some (.str cls.toList)) :
    g'.attrs.has finalKey = true → g'.attrs.find decTypeKey = some (.str cls.toList) := fun _ => by
  rw [(storeAttrs_typed m h).2.1 hw, hc]

end Checkpoints

/-- The initialisations leave the file alone. -/
theorem cp_init_root {P : Group → Prop} (E : Ext) (c : CP.Config) (arg : InitArg KruskalTensor) :
    Keeps (OfRoot P) (CP.initComponents E c arg) := by
  have hrest : Keeps (OfRoot P) (do
      if c.init.toLower = "random" then
        Fit.modifySt fun s => do
          let t ← CP.initRandom c.draw c.opts.rank s.nonNeg s.X
          pure { s with dec := t }
      else if c.init.toLower = "svd" then
        Fit.modifySt fun s => do
          let t ← CP.initSvd c.U c.opts.rank s.X
          pure { s with dec := t }
      else if c.init.toLower = "from_checkpoint" then
        match arg with
        | .path p => do
          let w ← get
          Fit.loadCheckpoint (CP.method E c) (p.resolve w) none
        | _ => throw .typeError
      else if c.init.toLower = "precomputed" then
        match arg with
        | .tensor t => Fit.modifySt fun s => do
            CP.checkValid c.opts.rank s.X.shape t
            pure { s with dec := t }
        | _ => throw .attributeError
      else
        match c.isFile c.init with
        | some p => do
          let w ← get
          Fit.loadCheckpoint (CP.method E c) (p.resolve w) none
        | none => throw .valueError : Fit CPState Unit) := by
    split
    · exact OfRoot.keeps_modifySt _
    split
    · exact OfRoot.keeps_modifySt _
    split
    · split
      · exact Keeps.bind (fun w h => h) fun w => OfRoot.keeps_load _ _
      · exact Keeps.throw _
    split
    · split
      · exact OfRoot.keeps_modifySt _
      · exact Keeps.throw _
    split
    · exact Keeps.bind (fun w h => h) fun w => OfRoot.keeps_load _ _
    · exact Keeps.throw _
  unfold CP.initComponents
  simp only
  split
  · exact Keeps.bind (Keeps.throw _) fun _ => hrest
  · exact hrest

theorem p2_init_root {P : Group → Prop} (E : Ext) (c : P2.Config) (arg : InitArg P2Obj) :
    Keeps (OfRoot P) (P2.initComponents E c arg) := by
  unfold P2.initComponents
  simp only
  split
  · exact OfRoot.keeps_modifySt _
  split
  · exact OfRoot.keeps_modifySt _
  split
  · exact OfRoot.keeps_modifySt _
  split
  · split
    · exact Keeps.bind (fun w h => h) fun w => OfRoot.keeps_load _ _
    · exact Keeps.throw _
  split
  · split
    · exact OfRoot.keeps_modifySt _
    · exact Keeps.throw _
  split
  · exact Keeps.bind (fun w h => h) fun w => OfRoot.keeps_load _ _
  · exact Keeps.throw _

theorem cmtf_init_root {P : Group → Prop} (E : Ext) (c : CMTF.Config) (arg : InitArg KruskalTensor) :
    Keeps (OfRoot P) (CMTF.initComponents E c arg) := by
  refine Keeps.bind (fun w h => ?_) fun _ => OfRoot.keeps_modifySt _
  have := cp_init_root (P := P) E c.cp arg ⟨w.st.cp, w.it, w.maxIts, w.loggers, w.file⟩ h
  rw [CMTF.zoom]
  cases hz : CP.initComponents E c.cp arg ⟨w.st.cp, w.it, w.maxIts, w.loggers, w.file⟩ with
  | ok a v => rw [hz] at this; exact this
  | error e v => rw [hz] at this; exact this

/-- C133, checkpoint files (part). However a fit of `CP_ALS` ends, if the file contains a checkpoint afterwards, its attribute
`decomposition_type` is `CP_ALS`. -/
theorem C133_cp_typed_partial (E : Ext) (c : CP.Config) (X : NDArray ℝ) (mi : Option Int) (arg : InitArg KruskalTensor)
    (w : World CPState) (h : Typed "CP_ALS" w.file) :
    Typed "CP_ALS" (after (CP.fit E c X mi arg w)).file ∧
      Typed "CP_ALS" (after (Fit.continueFit (CP.method E c) mi w)).file := by
  have hs := typed_step (m := CP.method E c) rfl (cls := "CP_ALS") rfl
  refine ⟨OfRoot.keeps_fit hs (cp_init_root E c arg) mi w h, ?_⟩
  refine Keeps.bind ?_ (fun _ => OfRoot.keeps_run hs) w h
  cases mi with
  | none => exact Keeps.pure _
  | some n => exact fun w h => h

/-- C133, checkpoint files of `Parafac2_ALS` (part). -/
theorem C133_parafac2_typed_partial (E : Ext) (c : P2.Config) (D : P2Data) (mi : Option Int) (arg : InitArg P2Obj)
    (w : World P2State) (h : Typed "Parafac2_ALS" w.file) :
    Typed "Parafac2_ALS" (after (P2.fit E c D mi arg w)).file ∧
      Typed "Parafac2_ALS" (after (Fit.continueFit (P2.method E c) mi w)).file := by
  have hs := typed_step (m := P2.method E c) rfl (cls := "Parafac2_ALS") rfl
  refine ⟨OfRoot.keeps_fit hs (p2_init_root E c arg) mi w h, ?_⟩
  refine Keeps.bind ?_ (fun _ => OfRoot.keeps_run hs) w h
  cases mi with
  | none => exact Keeps.pure _
  | some n => exact fun w h => h

/-- A missing file is no exception. -/
example : Typed "CP_ALS" none := fun h => by cases h

/-- C133 fails for `CMTF_ALS`: its checkpoint files never name the class. -/
theorem C133_cmtf_untyped (E : Ext) (c : CMTF.Config) (X : NDArray ℝ) (Ys : List (NDArray ℝ)) (modes : List Int) (mi : Option Int)
    (arg : InitArg KruskalTensor) (w : World CMTFState)
    (h : (w.file.getD H5File.empty).root.attrs.find "decomposition_type".toList = none) :
    ((after (CMTF.fit E c X Ys modes mi arg w)).file.getD H5File.empty).root.attrs.find "decomposition_type".toList = none := by
  have hs : ∀ it g g', storeAttrs (CMTF.method E c) it g = .ok g' → g.attrs.find decTypeKey = none →
      g'.attrs.find decTypeKey = none := fun it g g' e hg => by
    rw [(storeAttrs_typed _ e).2.2 rfl, hg]
  exact Keeps.bind (P := OfRoot fun g => g.attrs.find decTypeKey = none) (OfRoot.keeps_modifySt _)
    (fun _ => OfRoot.keeps_fit hs (cmtf_init_root E c arg) mi) w h

/-- C133 fails for `CMTF_ALS`: a checkpoint in a new file succeeds, the file says which iteration is the last one, but not which
class has written it. -/
theorem C133_cmtf_fails (E : Ext) (c : CMTF.Config) {w : World CMTFState} (hp : c.cp.hasPath = true) (hf : w.file = none)
    (hl : ∀ n ∈ c.logs.map Prod.fst, ¬ "checkpoint".toList <+: n) :
    ∃ ls f, storeCheckpoint (CMTF.method E c) w = .ok () { w with file := some f, loggers := ls } ∧
      f.root.HasAttr "final_iteration" (.int w.it) ∧ f.root.attrs.find "decomposition_type".toList = none ∧
      ∀ cls, ¬ Typed cls (some f) := by
  have hc : CheckpointsAt KruskalTensor.storeIn false w.file [] := by
    rw [hf]
    exact ⟨by simp, by simp, by simp [H5File.empty, Dict.has], rfl, rfl, rfl, by simp [H5File.empty]⟩
  obtain ⟨ls, f, h1, h2, -⟩ := storeCheckpoint_ok (CMTF.method E c) (w := w) (L := []) hp hc
    (by rw [hf]; exact fun n hn => ⟨hl n hn, .inl rfl⟩) (by simp) (kruskal_storeIn_eq w.st.cp.dec)
  have h3 : f.root.HasAttr "final_iteration" (.int w.it) := by
    exact h2.final
  have h4 : f.root.attrs.find "decomposition_type".toList = none := by
    have hr := storeCheckpoint_root (CMTF.method E c) w
    rw [h1] at hr
    rcases hr with e | e
    · have e : f.root = (w.file.getD H5File.empty).root := e
      rw [e, hf]; rfl
    · have := (storeAttrs_typed _ e).2.2 rfl
      have this : f.root.attrs.find decTypeKey = (w.file.getD H5File.empty).root.attrs.find decTypeKey := this
      rw [hf] at this
      exact this
  refine ⟨ls, f, h1, h3, h4, fun cls ht => ?_⟩
  have := ht (by rw [Dict.has_eq_isSome]; show (f.root.attrs.find _).isSome = true; rw [h3]; rfl)
  rw [Group.HasAttr] at this
  have h4' : ((some f).getD H5File.empty).root.attrs.find "decomposition_type".toList = none := h4
  rw [h4'] at this
  cases this

end
end TK
