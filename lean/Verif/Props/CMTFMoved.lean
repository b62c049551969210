import Verif.Lemmas.CMTFMoved

/-!
# C117-C119: what a fit of `CMTF_ALS` does not depend on

Source: cmtf.py:41-59 (the error), 79-93 (start and normalisation), 146-187 (the updates); cp.py:400-423 (the loop).

A fit of `CMTF_ALS` without constraints and penalties commutes with moving the rows of the modes (in the tensor and in the
matrices coupled to the mode) and the columns of the coupled matrices, and with the order and the signs of the components; it
does not depend on which singular value decomposition the numerical library returns.
-/

namespace TK
open NDArray Fit Matrix
open EStateM (Result)

noncomputable section

/-- A rearrangement of a coupled problem with `R` components and `n` coupled matrices: `σ k` moves the rows of mode `k`, `τ i` the
columns of matrix `i` (which has `qs[i]` columns), `perm` the components; `α k r` is the sign that the column of component `r`
gets in mode `k`. -/
structure CMTF.Moving (R : ℕ) (perm : Equiv.Perm ℕ) (sizes qs : List ℕ) (n : ℕ) (σ τ : ℕ → Equiv.Perm ℕ) (α : ℕ → ℕ → ℝ) :
    Prop where
  rows : ∀ k < sizes.length, ∀ i, σ k i < sizes.getD k 0 ↔ i < sizes.getD k 0
  cols : ∀ i < n, ∀ j, τ i j < qs.getD i 0 ↔ j < qs.getD i 0
  comps : ∀ r, perm r < R ↔ r < R
  signs : ∀ k < sizes.length, ∀ r < R, α k r ^ 2 = 1
  prod : ∀ r < R, ∏ k ∈ Finset.range sizes.length, α k r = 1

theorem CMTF.Moving.change {R : ℕ} {perm : Equiv.Perm ℕ} {sizes qs : List ℕ} {n : ℕ} {σ τ : ℕ → Equiv.Perm ℕ} {α : ℕ → ℕ → ℝ}
    (h : CMTF.Moving R perm sizes qs n σ τ α) : Change R perm sizes (changes sizes.length σ α) 1 :=
  change_of rfl h.rows h.comps (fun k hk => ⟨1, one_pos, h.signs k hk⟩) h.prod

/-- Two states of `CMTF_ALS` whose data, factor matrices and weights correspond. -/
structure CMTFState.Moved (R : ℕ) (perm : Equiv.Perm ℕ) (ms qs : List ℕ) (σ τ : ℕ → Equiv.Perm ℕ) (α : ℕ → ℕ → ℝ)
    (s s' : CMTFState) : Prop where
  tensor : TensorMoved (changes s.cp.X.shape.length σ α) 1 s.cp.X s'.cp.X
  factors : FactorsMoved R perm (changes s.cp.X.shape.length σ α) s.cp.X.shape s.cp.dec.factorMatrices s'.cp.dec.factorMatrices
  weights : ∀ r < R, s'.cp.dec.weights.get [perm r] = s.cp.dec.weights.get [r]
  modes : s'.modes = s.modes
  Y : ∀ i < ms.length, ∀ a < s.cp.X.shape.getD (ms.getD i 0) 0, ∀ j < qs.getD i 0,
    (s'.Ys.getD i noArr).get [σ (ms.getD i 0) a, τ i j] = (s.Ys.getD i noArr).get [a, j]
  V : ∀ i < ms.length, ∀ j < qs.getD i 0, ∀ r < R,
    (s'.V.getD i noArr).get [τ i j, perm r] = α (ms.getD i 0) r * (s.V.getD i noArr).get [j, r]

section
variable {R : ℕ} {perm : Equiv.Perm ℕ} {ms qs : List ℕ} {σ τ : ℕ → Equiv.Perm ℕ} {α : ℕ → ℕ → ℝ} {s s' : CMTFState}

theorem getElem_changes {d : ℕ} {σ : ℕ → Equiv.Perm ℕ} {α : ℕ → ℕ → ℝ} {m : ℕ} (h : m < (changes d σ α).length) :
    (changes d σ α)[m] = ⟨σ m, α m⟩ := by
  simp [changes]

theorem CMTFState.Moved.U (hM : s.Moved R perm ms qs σ τ α s') {m : ℕ} (hm : m < s.cp.X.shape.length) {a r : ℕ}
    (ha : a < s.cp.X.shape.getD m 0) (hr : r < R) :
    (s'.cp.dec.factorMatrices.getD m noArr).get [σ m a, perm r] = α m r * (s.cp.dec.factorMatrices.getD m noArr).get [a, r] := by
  have h1 : m < s.cp.dec.factorMatrices.length := by rw [hM.factors.left.length_eq]; exact hm
  have h2 : m < s'.cp.dec.factorMatrices.length := by rw [hM.factors.right.length_eq]; exact hm
  rw [getD_of_lt h1, getD_of_lt h2]
  exact hM.factors.get (s := ⟨σ m, α m⟩) (by simp [changes, hm]) (List.getElem?_eq_getElem h1) (List.getElem?_eq_getElem h2) ha hr

/-- The sign of a column is the product of the other signs. -/
theorem CMTF.Moving.other {sizes : List ℕ} {n : ℕ} (h : CMTF.Moving R perm sizes qs n σ τ α) {m : ℕ} (hm : m < sizes.length)
    {r : ℕ} (hr : r < R) : coefProd ((changes sizes.length σ α).eraseIdx m) r = α m r := by
  have h1 := coefProd_eraseIdx (ss := changes sizes.length σ α) (m := m) (r := r) (by simpa using hm)
  rw [show coefProd (changes sizes.length σ α) r = 1 from h.change.prod r hr, getElem_changes] at h1
  have h2 := h.signs m hm r hr
  have : α m r * 1 = α m r * (α m r * coefProd ((changes sizes.length σ α).eraseIdx m) r) := by rw [← h1]
  rw [← mul_assoc, ← pow_two, h2] at this
  linarith

theorem extraGram_moved {n : ℕ} (hC : CMTF.Moving R perm s.cp.X.shape qs n σ τ α) (hn : n = ms.length)
    (hM : s.Moved R perm ms qs σ τ α s') {m : ℕ} {o : Option ℕ} (ho : ∀ i, o = some i → i < ms.length ∧ ms.getD i 0 = m) {a b : ℕ}
    (ha : a < R) (hb : b < R) : s'.extraGram qs o (perm a) (perm b) = α m a * α m b * s.extraGram qs o a b := by
  cases o with
  | none => simp [CMTFState.extraGram]
  | some i =>
    obtain ⟨hi, rfl⟩ := ho i rfl
    simp only [CMTFState.extraGram]
    rw [sum_move (hC.cols i (by omega)), Finset.mul_sum]
    refine Finset.sum_congr rfl fun j hj => ?_
    have hj : j < qs.getD i 0 := by simpa using hj
    rw [hM.V i hi j hj a ha, hM.V i hi j hj b hb]; ring

theorem extraRhs_moved {n : ℕ} (hC : CMTF.Moving R perm s.cp.X.shape qs n σ τ α) (hn : n = ms.length)
    (hM : s.Moved R perm ms qs σ τ α s') {m : ℕ} {o : Option ℕ} (ho : ∀ i, o = some i → i < ms.length ∧ ms.getD i 0 = m) {k b : ℕ}
    (hk : k < s.cp.X.shape.getD m 0) (hb : b < R) : s'.extraRhs qs o (σ m k) (perm b) = α m b * s.extraRhs qs o k b := by
  cases o with
  | none => simp [CMTFState.extraRhs]
  | some i =>
    obtain ⟨hi, rfl⟩ := ho i rfl
    simp only [CMTFState.extraRhs]
    rw [sum_move (hC.cols i (by omega)), Finset.mul_sum]
    refine Finset.sum_congr rfl fun j hj => ?_
    have hj : j < qs.getD i 0 := by simpa using hj
    rw [hM.V i hi j hj b hb, hM.Y i hi k hk j hj]; ring

theorem extraGram_comm (s : CMTFState) (qs : List ℕ) (o : Option ℕ) (a b : ℕ) : s.extraGram qs o a b = s.extraGram qs o b a := by
  cases o with
  | none => rfl
  | some i => exact Finset.sum_congr rfl fun j _ => mul_comm _ _

/-- One update of corresponding states. -/
theorem cmtf_update_moved {E E' : Ext} (hE : E.SVDOk) (hE' : E'.SVDOk) {o : CPOpts} (hr : 0 < o.rank) {s s' : CMTFState}
    (h : s.Sized o.rank ms qs) (h' : s'.Sized o.rank ms qs) (hC : CMTF.Moving o.rank perm s.cp.X.shape qs ms.length σ τ α)
    (hM : s.Moved o.rank perm ms qs σ τ α s') {m : ℕ} (hm : m < s.cp.X.shape.length)
    (hc : s.cp.ModeConfig o m false false none) (hc' : s'.cp.ModeConfig o m false false none) :
    ∃ c c' F F', F.shape = [s.cp.X.shape.getD m 0, o.rank] ∧ F'.shape = [s'.cp.X.shape.getD m 0, o.rank] ∧
      CMTF.updateFactor E o m s = .ok (s.upd m c F) ∧ CMTF.updateFactor E' o m s' = .ok (s'.upd m c' F') ∧
      (s.upd m c F).Moved o.rank perm ms qs σ τ α (s'.upd m c' F') := by
  have hT := hM.tensor
  have hX := hT.shape
  have hCh := hC.change
  have hm' : m < s'.cp.X.shape.length := by rw [hX]; exact hm
  have hms : m < (changes s.cp.X.shape.length σ α).length := by simpa using hm
  have hmap : s'.map = s.map := by rw [h.map, h'.map, hM.modes]
  obtain ⟨c, F, hF, e, hfc, hrow⟩ := cmtf_update_rows hE h hm hc
  obtain ⟨c', F', hF', e', -, hrow'⟩ := cmtf_update_rows hE' h' hm' hc'
  rw [hmap] at hrow'
  set fc := firstCoupled s.map m with hfcd
  have hMe := hM.factors.eraseIdx m
  refine ⟨c, c', F, F', hF, hF', e, e', hT, ?_, hM.weights, hM.modes, hM.Y, hM.V⟩
  refine FactorsMoved.set_of_eraseIdx hms (by simp) hMe h.cp.wf.factors.length_eq
    (by rw [h'.cp.wf.factors.length_eq, hX]) hF (by rw [hF', hX]) fun i hi r hr' => ?_
  have hβ : ∀ r < o.rank, coefProd ((changes s.cp.X.shape.length σ α).eraseIdx m) r = α m r := fun r hr => hC.other hm hr
  rw [getElem_changes]
  have hi' : σ m i < s'.cp.X.shape.getD m 0 := by rw [hX]; exact (hC.rows m hm i).2 hi
  obtain ⟨p1, p2⟩ := hrow i hi
  obtain ⟨p1', p2'⟩ := hrow' _ hi'
  have hmt : ∀ b < o.rank, mttkrpEntry s'.cp.X s'.cp.dec.factorMatrices m (σ m i) (perm b)
      = α m b * mttkrpEntry s.cp.X s.cp.dec.factorMatrices m i b := by
    intro b hb
    have := mttkrpEntry_moved hCh hT hms (by simp) hMe hi hb
    rwa [getElem_changes, hβ b hb, one_mul] at this
  exact row_moved hr hC.comps (V := fun a b => gramProd (s.cp.dec.factorMatrices.eraseIdx m) a b + s.extraGram qs fc a b)
    (V' := fun a b => gramProd (s'.cp.dec.factorMatrices.eraseIdx m) a b + s'.extraGram qs fc a b)
    (fun a b => by rw [gramProd_comm, extraGram_comm]) (f := fun r => F.get [i, r]) (f' := fun r => F'.get [σ m i, r])
    (α := α m) (β := α m) (B := 1) (c := 1)
    (M := fun b => mttkrpEntry s.cp.X s.cp.dec.factorMatrices m i b + s.extraRhs qs fc i b)
    (M' := fun b => mttkrpEntry s'.cp.X s'.cp.dec.factorMatrices m (σ m i) b + s'.extraRhs qs fc (σ m i) b) one_pos
    (hC.signs m hm) (fun r hr => by rw [← pow_two]; exact hC.signs m hm r hr)
    (fun x hx y hy => by
      rw [hMe.gramProd (rows_eraseIdx hCh.rows m) hx hy, hβ x hx, hβ y hy, extraGram_moved hC rfl hM hfc hx hy]; ring)
    (fun b hb => by rw [hmt b hb, extraRhs_moved hC rfl hM hfc hi hb]; ring) p1 p1' p2 p2' r hr'

/-! ### the right factors -/

theorem updateUncoupled_rows {E : Ext} (hE : E.SVDOk) {R : ℕ} {s : CMTFState} {ms qs : List ℕ} (h : s.Sized R ms qs)
    (hnn : s.cp.nonNeg = some (List.replicate s.cp.X.shape.length false)) {m : Int} {i : ℕ} {t : List ℕ}
    (hi : s.modes[i]? = some m) :
    ∃ V', CMTF.updateUncoupled E s (m, i :: t) = .ok { s with V := s.V.set i V' } ∧ V'.shape = [qs.getD i 0, R] ∧
      i < ms.length ∧ ∀ j < qs.getD i 0,
        (∀ b < R, ∑ a ∈ Finset.range R, V'.get [j, a] * (∑ k ∈ Finset.range (s.cp.X.shape.getD (ms.getD i 0) 0),
            (s.cp.dec.factorMatrices.getD (ms.getD i 0) noArr).get [k, a] *
            (s.cp.dec.factorMatrices.getD (ms.getD i 0) noArr).get [k, b]) =
          ∑ k ∈ Finset.range (s.cp.X.shape.getD (ms.getD i 0) 0), (s.Ys.getD i noArr).get [k, j] *
            (s.cp.dec.factorMatrices.getD (ms.getD i 0) noArr).get [k, b]) ∧
        ∃ W : ℕ → ℝ, ∀ a < R, V'.get [j, a] = ∑ b ∈ Finset.range R, W b *
          ∑ k ∈ Finset.range (s.cp.X.shape.getD (ms.getD i 0) 0),
            (s.cp.dec.factorMatrices.getD (ms.getD i 0) noArr).get [k, b] *
            (s.cp.dec.factorMatrices.getD (ms.getD i 0) noArr).get [k, a] := by
  have hil : i < ms.length := by rw [← h.lenM]; exact (List.getElem?_eq_some_iff.1 hi).1
  have e : s.modes[i]'(by rw [h.lenM]; exact hil) = m := (List.getElem?_eq_some_iff.1 hi).2
  have hg := h.getFactor hil
  rw [e] at hg
  have hmode := h.mode hil
  rw [e] at hmode
  have hU := h.shapeU hil
  have hY := h.shapeY i hil
  obtain ⟨V', e1, hV', hrow⟩ := rightsolve_rows hE (shape_T hU) (shape_T hY)
  refine ⟨V', ?_, hV', hil, fun j hj => ?_⟩
  · rw [CMTF.updateUncoupled]
    simp only
    rw [pyGet_zero_cons, bind_ok, hg, bind_ok, pyGet_ok (norm_nat (by rw [h.lenY]; exact hil)), bind_ok, hnn]
    simp only [CMTF.flagAt]
    rw [pyGet_ok (l := List.replicate s.cp.X.shape.length false) (by rw [List.length_replicate]; exact hmode.norm), bind_ok]
    simp only [List.getElem_replicate, Bool.false_eq_true, if_false]
    rw [getD_of_lt (l := s.Ys) (by rw [h.lenY]; exact hil)] at e1
    rw [e1, bind_ok, pyGet_ok (norm_nat (by rw [h.lenV]; exact hil)), bind_ok, assignAll_same, bind_ok]
    · rfl
    · have := h.shapeV i hil
      rw [getD_of_lt (by rw [h.lenV]; exact hil)] at this
      rw [hV', this]
  · obtain ⟨h1, W, h2⟩ := hrow j hj
    have hG : ∀ a < R, ∀ b < R, (∑ k ∈ Finset.range (s.cp.X.shape.getD (ms.getD i 0) 0),
          (s.cp.dec.factorMatrices.getD (ms.getD i 0) noArr).T.get [a, k] *
          (s.cp.dec.factorMatrices.getD (ms.getD i 0) noArr).T.get [b, k])
        = ∑ k ∈ Finset.range (s.cp.X.shape.getD (ms.getD i 0) 0),
          (s.cp.dec.factorMatrices.getD (ms.getD i 0) noArr).get [k, a] *
          (s.cp.dec.factorMatrices.getD (ms.getD i 0) noArr).get [k, b] := by
      intro a ha b hb
      refine Finset.sum_congr rfl fun k hk => ?_
      rw [get_T hU ha (by simpa using hk), get_T hU hb (by simpa using hk)]
    refine ⟨fun b hb => ?_, W, fun a ha => ?_⟩
    · refine Eq.trans (Finset.sum_congr rfl fun a ha => ?_) ((h1 b hb).trans (Finset.sum_congr rfl fun k hk => ?_))
      · rw [hG a (by simpa using ha) b hb]
      · rw [get_T hY hj (by simpa using hk), get_T hU hb (by simpa using hk)]
    · rw [h2 a ha]
      refine Finset.sum_congr rfl fun b hb => ?_
      rw [hG b (by simpa using hb) a ha]

theorem uncoupled_moved {E E' : Ext} (hE : E.SVDOk) (hE' : E'.SVDOk) {R : ℕ} (hR : 0 < R) {s s' : CMTFState}
    (h : s.Sized R ms qs) (h' : s'.Sized R ms qs) (hC : CMTF.Moving R perm s.cp.X.shape qs ms.length σ τ α)
    (hM : s.Moved R perm ms qs σ τ α s') (hnn : s.cp.nonNeg = some (List.replicate s.cp.X.shape.length false))
    (hnn' : s'.cp.nonNeg = some (List.replicate s'.cp.X.shape.length false)) {m : Int} {i : ℕ} {t : List ℕ}
    (hi : s.modes[i]? = some m) :
    ∃ V V', CMTF.updateUncoupled E s (m, i :: t) = .ok { s with V := s.V.set i V } ∧
      CMTF.updateUncoupled E' s' (m, i :: t) = .ok { s' with V := s'.V.set i V' } ∧
      V.shape = [qs.getD i 0, R] ∧ V'.shape = [qs.getD i 0, R] ∧
      ({ s with V := s.V.set i V } : CMTFState).Moved R perm ms qs σ τ α { s' with V := s'.V.set i V' } := by
  have hX := hM.tensor.shape
  obtain ⟨V, e, hV, hil, hrow⟩ := updateUncoupled_rows hE h hnn hi (t := t)
  obtain ⟨V', e', hV', -, hrow'⟩ := updateUncoupled_rows hE' h' hnn' (by rw [hM.modes]; exact hi) (t := t)
  have hmode := (h.mode hil).1
  rw [hX] at hrow'
  refine ⟨V, V', e, e', hV, hV', hM.tensor, hM.factors, hM.weights, hM.modes, hM.Y, fun k hk j hj r hr => ?_⟩
  simp only [getD_set]
  by_cases hki : i = k
  · subst hki
    rw [if_pos ⟨rfl, by rw [h'.lenV]; exact hil⟩, if_pos ⟨rfl, by rw [h.lenV]; exact hil⟩]
    obtain ⟨p1, p2⟩ := hrow j hj
    obtain ⟨p1', p2'⟩ := hrow' (τ i j) ((hC.cols i hil j).2 hj)
    exact row_moved hR hC.comps (fun a b => Finset.sum_congr rfl fun k _ => mul_comm _ _) (f := fun r => V.get [j, r])
      (f' := fun r => V'.get [τ i j, r]) (α := α (ms.getD i 0)) (β := α (ms.getD i 0)) (B := 1) (c := 1) one_pos
      (hC.signs _ hmode) (fun r hr => by rw [← pow_two]; exact hC.signs _ hmode r hr)
      (fun x hx y hy => by
        rw [sum_move (hC.rows _ hmode), Finset.mul_sum]
        refine Finset.sum_congr rfl fun k hk => ?_
        have hk : k < s.cp.X.shape.getD (ms.getD i 0) 0 := by simpa using hk
        rw [hM.U hmode hk hx, hM.U hmode hk hy]; ring)
      (fun b hb => by
        rw [sum_move (hC.rows _ hmode), Finset.mul_sum]
        refine Finset.sum_congr rfl fun k hk => ?_
        have hk : k < s.cp.X.shape.getD (ms.getD i 0) 0 := by simpa using hk
        rw [hM.U hmode hk hb, hM.Y i hil k hk j hj]; ring) p1 p1' p2 p2' r hr
  · rw [if_neg (fun hh => hki hh.1), if_neg (fun hh => hki hh.1)]
    exact hM.V k hk j hj r hr

theorem uncoupled_fold_moved {E E' : Ext} (hE : E.SVDOk) (hE' : E'.SVDOk) {R : ℕ} (hR : 0 < R) :
    ∀ (D : List (Int × List ℕ)) {s s' : CMTFState}, s.Sized R ms qs → s'.Sized R ms qs →
    CMTF.Moving R perm s.cp.X.shape qs ms.length σ τ α → s.Moved R perm ms qs σ τ α s' →
    s.cp.nonNeg = some (List.replicate s.cp.X.shape.length false) →
    s'.cp.nonNeg = some (List.replicate s'.cp.X.shape.length false) → (∀ p ∈ D, EntryOk s.modes p) →
    ∀ {t t'}, D.foldlM (CMTF.updateUncoupled E) s = .ok t → D.foldlM (CMTF.updateUncoupled E') s' = .ok t' →
    t.Moved R perm ms qs σ τ α t' := by
  intro D
  induction D with
  | nil =>
    intro s s' _ _ _ hM _ _ _ t t' e e'
    obtain rfl : s = t := by simpa [pure, Except.pure] using e
    obtain rfl : s' = t' := by simpa [pure, Except.pure] using e'
    exact hM
  | cons p D ih =>
    intro s s' h h' hC hM hnn hnn' hD t t' e e'
    obtain ⟨m, l⟩ := p
    obtain ⟨i, t0, rfl, hi⟩ := hD (m, l) List.mem_cons_self
    obtain ⟨V, V', u, u', hV, hV', hM1⟩ := uncoupled_moved hE hE' hR h h' hC hM hnn hnn' hi (t := t0)
    rw [List.foldlM_cons, u, bind_ok] at e
    rw [List.foldlM_cons, u', bind_ok] at e'
    exact ih (h.setV hV) (h'.setV hV') hC hM1 hnn hnn' (fun p hp => hD p (by simp [hp])) e e'

/-! ### an iteration -/

/-- No constraints and penalties. -/
structure CMTFState.Uncon (s : CMTFState) (o : CPOpts) : Prop where
  nonNeg : s.cp.nonNeg = some (List.replicate s.cp.X.shape.length false)
  conf : ∀ m < s.cp.X.shape.length, s.cp.ModeConfig o m false false none

theorem CMTFState.Uncon.cfg {s : CMTFState} {o : CPOpts} (h : s.Uncon o) : s.Cfg o :=
  ⟨h.nonNeg, fun m hm => ⟨false, none, h.conf m hm⟩⟩

theorem CMTFState.Uncon.same {s t : CMTFState} {o : CPOpts} (h : s.Uncon o) (hX : t.cp.X = s.cp.X)
    (hn : t.cp.nonNeg = s.cp.nonNeg) (ho : t.cp.orth = s.cp.orth) : t.Uncon o := by
  refine ⟨by rw [hn, hX]; exact h.nonNeg, fun m hm => ?_⟩
  rw [hX] at hm
  have hc := h.conf m hm
  exact ⟨by rw [hn]; exact hc.nonNeg, by rw [ho]; exact hc.orth, hc.ridge⟩

theorem cmtf_updates_moved {E E' : Ext} (hE : E.SVDOk) (hE' : E'.SVDOk) {o : CPOpts} (hr : 0 < o.rank) :
    ∀ (modes : List ℕ) {s s' : CMTFState}, s.Sized o.rank ms qs → s'.Sized o.rank ms qs →
    CMTF.Moving o.rank perm s.cp.X.shape qs ms.length σ τ α → s.Moved o.rank perm ms qs σ τ α s' → s.Uncon o → s'.Uncon o →
    (∀ m ∈ modes, m < s.cp.X.shape.length) → ∀ {t t'}, CMTF.updateModes E o modes s = .ok t →
    CMTF.updateModes E' o modes s' = .ok t' → t.Moved o.rank perm ms qs σ τ α t' := by
  intro modes
  induction modes with
  | nil =>
    intro s s' _ _ _ hM _ _ _ t t' e e'
    obtain rfl : s = t := by simpa [CMTF.updateModes, pure, Except.pure] using e
    obtain rfl : s' = t' := by simpa [CMTF.updateModes, pure, Except.pure] using e'
    exact hM
  | cons m modes ih =>
    intro s s' h h' hC hM hU hU' hm t t' e e'
    have hm0 := hm m (by simp)
    have hm0' : m < s'.cp.X.shape.length := by rw [hM.tensor.shape]; exact hm0
    obtain ⟨c, c', F, F', hF, hF', u, u', hM1⟩ := cmtf_update_moved hE hE' hr h h' hC hM hm0 (hU.conf m hm0) (hU'.conf m hm0')
    rw [CMTF.updateModes, List.foldlM_cons, cmtf_flag hU.cfg hm0, bind_ok] at e
    rw [CMTF.updateModes, List.foldlM_cons, cmtf_flag hU'.cfg hm0', bind_ok] at e'
    simp only [Bool.false_eq_true, if_false] at e e'
    rw [u, bind_ok] at e
    rw [u', bind_ok] at e'
    exact ih (h.upd hF) (h'.upd hF') hC hM1 (hU.same rfl rfl rfl) (hU'.same rfl rfl rfl) (fun k hk => hm k (by simp [hk])) e e'

theorem cpEntry_weights_moved {R : ℕ} {ss : List ModeChange} {sizes : List ℕ} {fs fs' : List (NDArray ℝ)} {w w' : ℕ → ℝ}
    (hC : Change R perm sizes ss 1) (h : FactorsMoved R perm ss sizes fs fs') (hw : ∀ r < R, w' (perm r) = w r)
    {idx : List ℕ} (hv : Valid sizes idx) : cpEntry w' fs' R (moveIdx ss idx) = cpEntry w fs R idx := by
  rw [cpEntry, cpEntry, sum_move hC.comps]
  refine Finset.sum_congr rfl fun r hr => ?_
  have hr : r < R := by simpa using hr
  rw [h.rankOne hr hv, show coefProd ss r = 1 from hC.prod r hr, hw r hr, one_mul]

theorem sqErr_weights_moved {R : ℕ} {ss : List ModeChange} {X X' : NDArray ℝ} {fs fs' : List (NDArray ℝ)} {w w' : ℕ → ℝ}
    (hC : Change R perm X.shape ss 1) (hX : TensorMoved ss 1 X X') (h : FactorsMoved R perm ss X.shape fs fs')
    (hw : ∀ r < R, w' (perm r) = w r) : sqErr X' w' fs' R = sqErr X w fs R := by
  rw [sqErr, sqErr, hX.shape, sumIdx_move hC.rows]
  refine sumIdx_congr fun idx hv => ?_
  rw [hX.get idx hv, cpEntry_weights_moved hC h hw hv, one_mul]

theorem coupledErr_moved {R : ℕ} {sizes : List ℕ} {fs fs' Ys Ys' Vs Vs' : List (NDArray ℝ)}
    (hC : CMTF.Moving R perm sizes qs ms.length σ τ α) (hms : ∀ i < ms.length, ms.getD i 0 < sizes.length)
    (hS : ∀ i < ms.length, (Ys.getD i noArr).shape = [sizes.getD (ms.getD i 0) 0, qs.getD i 0])
    (hS' : ∀ i < ms.length, (Ys'.getD i noArr).shape = [sizes.getD (ms.getD i 0) 0, qs.getD i 0])
    (hU : ∀ m < sizes.length, ∀ a < sizes.getD m 0, ∀ r < R,
      (fs'.getD m noArr).get [σ m a, perm r] = α m r * (fs.getD m noArr).get [a, r])
    (hY : ∀ i < ms.length, ∀ a < sizes.getD (ms.getD i 0) 0, ∀ j < qs.getD i 0,
      (Ys'.getD i noArr).get [σ (ms.getD i 0) a, τ i j] = (Ys.getD i noArr).get [a, j])
    (hV : ∀ i < ms.length, ∀ j < qs.getD i 0, ∀ r < R,
      (Vs'.getD i noArr).get [τ i j, perm r] = α (ms.getD i 0) r * (Vs.getD i noArr).get [j, r]) :
    coupledErr fs' Ys' Vs' ms R = coupledErr fs Ys Vs ms R := by
  refine Finset.sum_congr rfl fun i hi => ?_
  have hi : i < ms.length := by simpa using hi
  have hm := hms i hi
  simp only [coupledErrAt, matErr, hS i hi, hS' i hi, List.getD_cons_zero, List.getD_cons_succ]
  rw [sum_move (hC.rows _ hm)]
  refine Finset.sum_congr rfl fun a ha => ?_
  have ha : a < sizes.getD (ms.getD i 0) 0 := by simpa using ha
  rw [sum_move (hC.cols i hi)]
  refine Finset.sum_congr rfl fun j hj => ?_
  have hj : j < qs.getD i 0 := by simpa using hj
  rw [hY i hi a ha j hj, sum_move hC.comps]
  congr 2
  refine Finset.sum_congr rfl fun r hr => ?_
  have hr : r < R := by simpa using hr
  rw [hU _ hm a ha r hr, hV i hi j hj r hr]
  linear_combination ((fs.getD (ms.getD i 0) noArr).get [a, r] * (Vs.getD i noArr).get [j, r]) * hC.signs _ hm r hr

theorem trueLoss_moved (h : s.Sized R ms qs) (h' : s'.Sized R ms qs) (hC : CMTF.Moving R perm s.cp.X.shape qs ms.length σ τ α)
    (hM : s.Moved R perm ms qs σ τ α s') : s'.trueLoss R ms = s.trueLoss R ms := by
  have hX := hM.tensor.shape
  rw [CMTFState.trueLoss, CMTFState.trueLoss, CPState.trueSSE, CPState.trueSSE,
    sqErr_weights_moved hC.change hM.tensor hM.factors hM.weights,
    coupledErr_moved hC (fun i hi => (h.mode hi).1) h.shapeY (by rw [← hX]; exact h'.shapeY)
      (fun m hm a ha r hr => hM.U hm ha hr) hM.Y hM.V]

theorem cmtf_iteration_moved {E E' : Ext} (hE : E.SVDOk) (hN : E.NNLSOk) (hE' : E'.SVDOk) (hN' : E'.NNLSOk) {o : CPOpts}
    (hr : 0 < o.rank) {s s' : CMTFState} (h : s.Sized o.rank ms qs) (h' : s'.Sized o.rank ms qs)
    (hC : CMTF.Moving o.rank perm s.cp.X.shape qs ms.length σ τ α) (hM : s.Moved o.rank perm ms qs σ τ α s')
    (hU : s.Uncon o) (hU' : s'.Uncon o) (hp : s'.cp.prevSSE = s.cp.prevSSE) {t t' : CMTFState}
    (e : CMTF.iteration E o s = .ok t) (e' : CMTF.iteration E' o s' = .ok t') :
    t.Moved o.rank perm ms qs σ τ α t' ∧ t'.cp.prevSSE = t.cp.prevSSE ∧ t'.cp.relChange = t.cp.relChange := by
  have hX := hM.tensor.shape
  obtain ⟨s1, e1, h1, hs1, -⟩ := cmtf_updateModes_ok hE hN hr (List.range s.cp.X.shape.length) s h hU.cfg (by simp)
  obtain ⟨s1', e1', h1', hs1', -⟩ := cmtf_updateModes_ok hE' hN' hr (List.range s'.cp.X.shape.length) s' h' hU'.cfg (by simp)
  have hM1 := cmtf_updates_moved hE hE' hr _ h h' hC hM hU hU' (by simp) e1 (by rw [← hX]; exact e1')
  have hU1 : s1.Uncon o := hU.same hs1.X hs1.nonNeg hs1.orth
  have hU1' : s1'.Uncon o := hU'.same hs1'.X hs1'.nonNeg hs1'.orth
  obtain ⟨V, e2, h2, -⟩ := cmtf_uncoupled_ok hE h1 hU1.cfg
  obtain ⟨V', e2', h2', -⟩ := cmtf_uncoupled_ok hE' h1' hU1'.cfg
  have hmap : s1'.map = s1.map := by rw [h1.map, h1'.map, hM1.modes]
  have hD := mapOk s1.modes
  rw [← h1.map] at hD
  have hC1 : CMTF.Moving o.rank perm s1.cp.X.shape qs ms.length σ τ α := by rw [hs1.X]; exact hC
  have hM2 := uncoupled_fold_moved hE hE' hr s1.map h1 h1' hC1 hM1 hU1.nonNeg hU1'.nonNeg
    (fun p hp => by
      obtain ⟨i, t, e, hi, -⟩ := hD.head hp
      exact ⟨i, t, e, hi⟩) e2 (by rw [← hmap]; exact e2')
  rw [CMTF.iteration, CMTF.updateFactors, e1, bind_ok, e2, bind_ok, CMTF.updateConvergence, cmtf_sse_ok h2, bind_ok] at e
  rw [CMTF.iteration, CMTF.updateFactors, e1', bind_ok, e2', bind_ok, CMTF.updateConvergence, cmtf_sse_ok h2', bind_ok] at e'
  have hl := trueLoss_moved h2 h2' hC1 hM2
  rw [hl] at e'
  obtain rfl := Except.ok.inj e
  obtain rfl := Except.ok.inj e'
  refine ⟨⟨hM2.tensor, hM2.factors, hM2.weights, hM2.modes, hM2.Y, hM2.V⟩, rfl, ?_⟩
  show FV.div (s1'.cp.prevSSE - _) s1'.cp.prevSSE = FV.div (s1.cp.prevSSE - _) s1.cp.prevSSE
  rw [hs1.prev, hs1'.prev, hp]

theorem cmtf_orbit_moved {E E' : Ext} (hE : E.SVDOk) (hN : E.NNLSOk) (hE' : E'.SVDOk) (hN' : E'.NNLSOk) {o : CPOpts}
    (hr : 0 < o.rank) {s s' : CMTFState} (h : s.Sized o.rank ms qs) (h' : s'.Sized o.rank ms qs)
    (hC : CMTF.Moving o.rank perm s.cp.X.shape qs ms.length σ τ α) (hM : s.Moved o.rank perm ms qs σ τ α s')
    (hU : s.Uncon o) (hU' : s'.Uncon o) (hp : s'.cp.prevSSE = s.cp.prevSSE) (hc : s'.cp.relChange = s.cp.relChange) (j : ℕ) :
    (CMTF.orbit E o s j).Moved o.rank perm ms qs σ τ α (CMTF.orbit E' o s' j) ∧
      (CMTF.orbit E' o s' j).cp.prevSSE = (CMTF.orbit E o s j).cp.prevSSE ∧
      (CMTF.orbit E' o s' j).cp.relChange = (CMTF.orbit E o s j).cp.relChange := by
  induction j with
  | zero => exact ⟨hM, hp, hc⟩
  | succ j ih =>
    obtain ⟨g1, -, g3, g4, -⟩ := cmtf_orbit_good hE hN hr h hU.cfg j
    obtain ⟨g1', -, g3', g4', -⟩ := cmtf_orbit_good hE' hN' hr h' hU'.cfg j
    exact cmtf_iteration_moved hE hN hE' hN' hr g1 g1' (by rw [g3.X]; exact hC) ih.1 (hU.same g3.X g3.nonNeg g3.orth)
      (hU'.same g3'.X g3'.nonNeg g3'.orth) ih.2.1 g4 g4'

/-! ### normalisation -/

theorem colLen_moved {R n : ℕ} {m : ModeChange} {F F' : NDArray ℝ} (hrow : ∀ i, m.row i < n ↔ i < n)
    (h : ∀ i < n, ∀ r < R, F'.get [m.row i, perm r] = m.coef r * F.get [i, r]) {r : ℕ} (hr : r < R) (h1 : m.coef r ^ 2 = 1) :
    colLen F' n (perm r) = colLen F n r := by
  rw [colLen, colLen, sum_move hrow]
  congr 1
  refine Finset.sum_congr rfl fun i hi => ?_
  rw [h i (by simpa using hi) r hr, mul_pow, h1, one_mul]

theorem normalised_moved {R : ℕ} {ss : List ModeChange} {sizes : List ℕ} {fs fs' : List (NDArray ℝ)} (hp : ∀ r, perm r < R ↔ r < R)
    (hrows : List.Forall₂ (fun (s : ModeChange) n => ∀ i, s.row i < n ↔ i < n) ss sizes)
    (hsign : ∀ s ∈ ss, ∀ r < R, s.coef r ^ 2 = 1) (h : FactorsMoved R perm ss sizes fs fs') (eps : ℝ) :
    FactorsMoved R perm ss sizes (List.zipWith (fun F m => normMat F m R eps) fs sizes)
        (List.zipWith (fun F m => normMat F m R eps) fs' sizes) ∧
      ∀ r < R, modeProd (fun F m => colLen F m (perm r)) fs' sizes = modeProd (fun F m => colLen F m r) fs sizes := by
  induction h with
  | nil => exact ⟨.nil, fun _ _ => rfl⟩
  | @cons s n F F' ss ns fs fs' h1 h2 h3 h4 ih =>
    cases hrows with
    | cons hr0 hrs =>
    obtain ⟨i1, i2⟩ := ih hrs fun s hs => hsign s (by simp [hs])
    have hc : ∀ r < R, colLen F' n (perm r) = colLen F n r := fun r hr => colLen_moved hr0 h3 hr (hsign s (by simp) r hr)
    refine ⟨.cons rfl rfl (fun i hi r hr => ?_) i1, fun r hr => ?_⟩
    · show (normMat F' n R eps).get _ = s.coef r * (normMat F n R eps).get _
      rw [normMat, normMat, get_ofMat ((hr0 i).2 hi) ((hp r).2 hr), get_ofMat hi hr, h3 i hi r hr, hc r hr]; ring
    · simp only [modeProd, hc r hr, i2 r hr]

theorem mem_changes_sq {sizes : List ℕ} {n : ℕ} (hC : CMTF.Moving R perm sizes qs n σ τ α) :
    ∀ s ∈ changes sizes.length σ α, ∀ r < R, s.coef r ^ 2 = 1 := by
  intro s hs r hr
  simp only [changes, List.mem_map, List.mem_range] at hs
  obtain ⟨k, hk, rfl⟩ := hs
  exact hC.signs k hk r hr

theorem cmtf_normalize_moved (h : s.Sized R ms qs) (h' : s'.Sized R ms qs)
    (hC : CMTF.Moving R perm s.cp.X.shape qs ms.length σ τ α) (hM : s.Moved R perm ms qs σ τ α s') {eps : ℝ} {t t' : CMTFState}
    (e : CMTF.normalizeComponents s eps = .ok t) (e' : CMTF.normalizeComponents s' eps = .ok t') :
    t.Moved R perm ms qs σ τ α t' ∧ t.cp.relChange = s.cp.relChange ∧ t'.cp.relChange = s'.cp.relChange ∧
      t.cp.XNorm = s.cp.XNorm ∧ t'.cp.XNorm = s'.cp.XNorm := by
  have hX := hM.tensor.shape
  obtain ⟨x, ex, -, hXt, hYt, hmt, hd, hf, hV⟩ := cmtf_normalize_ok h eps
  rw [e] at ex
  obtain rfl := Except.ok.inj ex
  obtain ⟨x, ex, -, hXt', hYt', hmt', hd', hf', hV'⟩ := cmtf_normalize_ok h' eps
  rw [e'] at ex
  obtain rfl := Except.ok.inj ex
  obtain ⟨v, ev, -, -, hw⟩ := normalizeComponents_ok h.cp.wf true eps
  rw [hd] at ev
  obtain rfl := Except.ok.inj ev
  obtain ⟨v, ev, -, -, hw'⟩ := normalizeComponents_ok h'.cp.wf true eps
  rw [hd'] at ev
  obtain rfl := Except.ok.inj ev
  obtain ⟨n1, n2⟩ := normalised_moved hC.comps hC.change.rows (mem_changes_sq hC) hM.factors eps
  have keep : ∀ {s t : CMTFState}, CMTF.normalizeComponents s eps = .ok t →
      t.cp.relChange = s.cp.relChange ∧ t.cp.XNorm = s.cp.XNorm := by
    intro s t e
    rw [CMTF.normalizeComponents] at e
    obtain ⟨Vs, -, e⟩ := bind_eq_ok.1 e
    obtain ⟨dec, -, e⟩ := bind_eq_ok.1 e
    rw [← pure_eq_ok.1 e]
    exact ⟨rfl, rfl⟩
  refine ⟨⟨by rw [hXt, hXt']; exact hM.tensor, by rw [hXt, hf, hf', hX]; exact n1, fun r hr => ?_, by rw [hmt, hmt', hM.modes],
    by rw [hXt, hYt, hYt']; exact hM.Y, fun i hi j hj r hr => ?_⟩, (keep e).1, (keep e').1, (keep e).2, (keep e').2⟩
  · rw [hw r hr, hw' _ ((hC.comps r).2 hr), hM.weights r hr, if_pos rfl, if_pos rfl, hX, n2 r hr]
  · have hm := (h.mode hi).1
    rw [hV i hi, hV' i hi, scaledBy, scaledBy, get_ofMat hj hr, get_ofMat ((hC.cols i hi j).2 hj) ((hC.comps r).2 hr),
      hM.V i hi j hj r hr, hX]
    rw [colLen_moved (m := ⟨σ (ms.getD i 0), α (ms.getD i 0)⟩) (perm := perm) (R := R) (hC.rows _ hm)
      (fun a ha r hr => hM.U hm ha hr) hr (hC.signs _ hm r hr)]
    ring

end

/-! ### whole fits -/

theorem CMTF.Started.uncon {c : CMTF.Config} {X : NDArray ℝ} {Ys : List (NDArray ℝ)} {modes : List Int} {ms qs : List ℕ}
    {t u : KruskalTensor} {s : CMTFState} (h : CMTF.Started c none none X Ys modes ms qs t u s)
    (hA : CP.Admissible c.cp.opts none none X.shape) (hr : c.cp.opts.ridgePenalties = none) : s.Uncon c.cp.opts := by
  refine ⟨by rw [h.eqNonNeg, h.eqX]; rfl, fun m hm => ?_⟩
  rw [h.eqX] at hm
  obtain ⟨on, ridge, hc, h1, h2⟩ := h.conf hA m hm
  rw [h1 rfl, h2 hr] at hc
  exact hc

/-- C117-C119 in one statement. Let the second problem be a rearrangement of the first: the rows of the modes are moved, in the
tensor, in the coupled matrices and in the initial factor matrices; the columns of the coupled matrices, and the rows of the drawn
right factors, are moved; the components of the initial decomposition and the columns of the drawn right factors are moved and
change their signs. Then both fits make the same number of iterations, end with the same error, the same relative change and the
same verdict of the stopping test, and the results, right factors and weights included, correspond in the same way. The fits may
use different numerical libraries. -/
theorem cmtf_fit_moved {E E' : Ext} (hE : E.SVDOk) (hN : E.NNLSOk) (hQ : E.QROk) (hE' : E'.SVDOk) (hN' : E'.NNLSOk)
    (hQ' : E'.QROk) {c c' : CMTF.Config} (hopts : c'.cp.opts = c.cp.opts) {X X' : NDArray ℝ}
    (hA : CP.Admissible c.cp.opts none none X.shape) (hridge : c.cp.opts.ridgePenalties = none)
    {Ys Ys' : List (NDArray ℝ)} {modes : List Int} {ms qs : List ℕ}
    (hY : CMTF.Coupled X.shape Ys modes ms qs) (hY' : CMTF.Coupled X.shape Ys' modes ms qs)
    (hlog : c.Measurable ms qs) (hlog' : c'.Measurable ms qs) (hfreq : freqOption c.cp.freq ≠ 0)
    (hfreq' : freqOption c'.cp.freq ≠ 0) {arg arg' : InitArg KruskalTensor} {t t' : KruskalTensor}
    (hi : CP.StartsFrom E c.cp none none arg X t) (hi' : CP.StartsFrom E' c'.cp none none arg' X' t')
    (ht : t.WF X.shape c.cp.opts.rank) (ht' : t'.WF X.shape c.cp.opts.rank)
    {perm : Equiv.Perm ℕ} {σ τ : ℕ → Equiv.Perm ℕ} {α : ℕ → ℕ → ℝ}
    (hC : CMTF.Moving c.cp.opts.rank perm X.shape qs ms.length σ τ α)
    (hX : TensorMoved (changes X.shape.length σ α) 1 X X')
    (hF : FactorsMoved c.cp.opts.rank perm (changes X.shape.length σ α) X.shape t.factorMatrices t'.factorMatrices)
    (hYm : ∀ i < ms.length, ∀ a < X.shape.getD (ms.getD i 0) 0, ∀ j < qs.getD i 0,
      (Ys'.getD i noArr).get [σ (ms.getD i 0) a, τ i j] = (Ys.getD i noArr).get [a, j])
    (hdraw : ∀ i < ms.length, ∀ j < qs.getD i 0, ∀ r < c.cp.opts.rank,
      c'.drawN i (τ i j) (perm r) = α (ms.getD i 0) r * c.drawN i j r)
    {budget budget' : Int} {mi mi' : Option Int} (hb : 0 < mi.getD budget) (hbb : mi'.getD budget' = mi.getD budget)
    {loggers loggers' : List Logger} {file file' : Option H5File}
    (hS : Storing (CMTF.method E c) (CMTF.newObject none none budget loggers file) [])
    (hS' : Storing (CMTF.method E' c') (CMTF.newObject none none budget' loggers' file') []) :
    ∃ w w', CMTF.fit E c X Ys modes mi arg (CMTF.newObject none none budget loggers file) = .ok () w ∧
      CMTF.fit E' c' X' Ys' modes mi' arg' (CMTF.newObject none none budget' loggers' file') = .ok () w' ∧
      w'.it = w.it ∧ CMTF.sse w'.st = CMTF.sse w.st ∧ w'.st.cp.relChange = w.st.cp.relChange ∧
      CMTF.shouldStop c'.cp.opts w'.st = CMTF.shouldStop c.cp.opts w.st ∧
      w.st.Moved c.cp.opts.rank perm ms qs σ τ α w'.st ∧ w.st.cp.X = X ∧ w.st.Sized c.cp.opts.rank ms qs ∧
      w'.st.Sized c.cp.opts.rank ms qs := by
  have hXs := hX.shape
  have hA' : CP.Admissible c'.cp.opts none none X'.shape := by rw [hopts, hXs]; exact hA
  obtain ⟨u, s, sk, w, k, h0, h1, h2, h3, h4, h5, h6, h7, h8, h9, h10, h11, -, h13, -⟩ :=
    C83_fit_completes hE hN hQ hA (by simp) hY hlog hfreq hi ht hb hS
  obtain ⟨u', s', sk', w', k', h0', h1', h2', h3', h4', h5', h6', h7', h8', h9', h10', h11', -, h13', -⟩ :=
    C83_fit_completes hE' hN' hQ' hA' (by simp) (by rw [hXs]; exact hY') hlog' hfreq' hi' (by rw [hopts, hXs]; exact ht')
      (by rw [hbb]; exact hb) hS'
  have hr := hA.rank
  have hU := h0.uncon hA hridge
  have hU' := h0'.uncon hA' (by rw [hopts]; exact hridge)
  have hsz := h0.sized
  have hsz' := h0'.sized
  have hwf' := h0'.wf
  have hV' := h0'.V
  have hp' := h0'.prev
  have hw1' := h0'.weights
  have hN1' := h0'.normalised
  have hX0 := h0.eqX
  have hX0' := h0'.eqX
  rw [hopts] at hU' hsz' hwf' hV' hp' hw1' h4' h6' h7' h8' h9' h13' ⊢
  rw [hXs] at hwf'
  have hCs : CMTF.Moving c.cp.opts.rank perm s.cp.X.shape qs ms.length σ τ α := by rw [hX0]; exact hC
  -- the start
  have hFu : FactorsMoved c.cp.opts.rank perm (changes X.shape.length σ α) X.shape u.factorMatrices u'.factorMatrices := by
    rw [h0.same rfl, h0'.same rfl]; exact hF
  obtain ⟨n1, n2⟩ := normalised_moved hC.comps hC.change.rows (mem_changes_sq hC) hFu 1e-15
  obtain ⟨v, ev, -, hfv, hwv⟩ := normalizeComponents_ok h0.wf true 1e-15
  rw [h0.normalised] at ev
  have ev := Except.ok.inj ev
  subst ev
  obtain ⟨v, ev, -, hfv', hwv'⟩ := normalizeComponents_ok hwf' true 1e-15
  rw [hN1'] at ev
  have ev := Except.ok.inj ev
  subst ev
  have hVm : ∀ i < ms.length, ∀ j < qs.getD i 0, ∀ r < c.cp.opts.rank,
      (s'.V.getD i noArr).get [τ i j, perm r] = α (ms.getD i 0) r * (s.V.getD i noArr).get [j, r] := by
    intro i hi j hj r hr
    have hm : ms.getD i 0 < X.shape.length := by rw [← hX0]; exact (hsz.mode hi).1
    have hfl : ∀ m, flagOf none m = false := fun _ => rfl
    have hcl := colLen_moved (perm := perm) (R := c.cp.opts.rank) (n := qs.getD i 0) (m := ⟨τ i, α (ms.getD i 0)⟩)
      (F := ofMat (qs.getD i 0) c.cp.opts.rank (c.drawN i)) (F' := ofMat (qs.getD i 0) c.cp.opts.rank (c'.drawN i))
      (hC.cols i hi) (fun a ha r hr => by
        rw [get_ofMat ((hC.cols i hi a).2 ha) ((hC.comps r).2 hr), get_ofMat ha hr, hdraw i hi a ha r hr]) hr
      (hC.signs _ hm r hr)
    rw [hV' i hi, h0.V i hi, hfl]
    simp only [Bool.false_eq_true, if_false]
    rw [drawnV, drawnV, get_ofMat hj hr, get_ofMat ((hC.cols i hi j).2 hj) ((hC.comps r).2 hr), hcl, hdraw i hi j hj r hr]
    ring
  have hM : s.Moved c.cp.opts.rank perm ms qs σ τ α s' := by
    refine ⟨by rw [hX0, hX0']; exact hX, by rw [hX0, hfv, hfv']; exact n1, fun r hr => ?_, by rw [h0.eqModes, h0'.eqModes],
      by rw [hX0, h0.eqYs, h0'.eqYs]; exact hYm, hVm⟩
    rw [hwv r hr, hwv' _ ((hC.comps r).2 hr), h0.weights r hr, hw1' _ ((hC.comps r).2 hr), if_pos rfl, if_pos rfl, n2 r hr]
  have hprev : s'.cp.prevSSE = s.cp.prevSSE := by
    rw [h0.prev, hp']
    congr 1
    · exact sqErr_weights_moved hC.change hX hFu fun _ _ => rfl
    · refine coupledErr_moved hC (fun i hi => by rw [← hX0]; exact (hsz.mode hi).1) hY.shapeY hY'.shapeY
        (fun m hm a ha r hr => ?_) hYm hVm
      have l1 : m < u.factorMatrices.length := by rw [hFu.left.length_eq]; exact hm
      have l2 : m < u'.factorMatrices.length := by rw [hFu.right.length_eq]; exact hm
      rw [getD_of_lt l1, getD_of_lt l2]
      exact hFu.get (s := ⟨σ m, α m⟩) (by simp [changes, hm]) (List.getElem?_eq_getElem l1) (List.getElem?_eq_getElem l2) ha hr
  have hrel : s'.cp.relChange = s.cp.relChange := by rw [h0.rel, h0'.rel]
  have hnorm : s'.cp.XNorm ^ 2 = s.cp.XNorm ^ 2 := by
    rw [h0.eqNorm, h0'.eqNorm, frobNorm_sq, frobNorm_sq]
    have := sqNorm_moved hC.change hX
    rwa [one_pow, one_mul] at this
  -- the iterations
  have horb := cmtf_orbit_moved hE hN hE' hN' hr hsz hsz' hCs hM hU hU' hprev hrel
  have hgood := cmtf_orbit_good hE hN hr hsz hU.cfg
  have hgood' := cmtf_orbit_good hE' hN' hr hsz' hU'.cfg
  have hCj : ∀ j, CMTF.Moving c.cp.opts.rank perm (CMTF.orbit E c.cp.opts s j).cp.X.shape qs ms.length σ τ α := fun j => by
    rw [(hgood j).2.2.1.X]; exact hCs
  have hstop : ∀ j, CMTF.shouldStop c.cp.opts (CMTF.orbit E' c.cp.opts s' j)
      = CMTF.shouldStop c.cp.opts (CMTF.orbit E c.cp.opts s j) := by
    intro j
    rw [CMTF.shouldStop, CMTF.shouldStop, cmtf_sse_ok (hgood j).1, cmtf_sse_ok (hgood' j).1, bind_ok, bind_ok, (horb j).2.2,
      trueLoss_moved (hgood j).1 (hgood' j).1 (hCj j) (horb j).1, (hgood j).2.2.1.XNorm, (hgood' j).2.2.1.XNorm, hnorm]
  have hit := fun j => cmtf_orbit_iterate hE hN hr j hsz hU.cfg
  have hit' := fun j => cmtf_orbit_iterate hE' hN' hr j hsz' hU'.cfg
  have hgo : ∀ j < k, CMTF.shouldStop c.cp.opts (CMTF.orbit E c.cp.opts s j) = .ok false := by
    intro j hj
    obtain ⟨x, r1, r2⟩ := h6 j hj
    rw [hit j] at r1
    rw [Except.ok.inj r1]; exact r2
  have hgo' : ∀ j < k', CMTF.shouldStop c.cp.opts (CMTF.orbit E' c.cp.opts s' j) = .ok false := by
    intro j hj
    obtain ⟨x, r1, r2⟩ := h6' j hj
    rw [hit' j] at r1
    rw [Except.ok.inj r1]; exact r2
  have hsk : sk = CMTF.orbit E c.cp.opts s k := by rw [hit k] at h4; exact (Except.ok.inj h4).symm
  have hsk' : sk' = CMTF.orbit E' c.cp.opts s' k' := by rw [hit' k'] at h4'; exact (Except.ok.inj h4').symm
  obtain rfl : k' = k := by
    rcases lt_trichotomy k' k with hlt | heq | hlt
    · have := h7' (by omega)
      rw [hsk', hstop, hgo k' hlt] at this
      cases this
    · exact heq
    · have := h7 (by omega)
      rw [hsk, ← hstop, hgo' k hlt] at this
      cases this
  -- the final normalisation
  have hMk : sk.Moved c.cp.opts.rank perm ms qs σ τ α sk' := by rw [hsk, hsk']; exact (horb k').1
  have hCk : CMTF.Moving c.cp.opts.rank perm sk.cp.X.shape qs ms.length σ τ α := by rw [hsk]; exact hCj k'
  obtain ⟨m1, m2, m3, m4, m5⟩ := cmtf_normalize_moved h8 h8' hCk hMk h5 h5'
  have hCw : CMTF.Moving c.cp.opts.rank perm w.st.cp.X.shape qs ms.length σ τ α := by rw [h10]; exact hC
  have hloss := trueLoss_moved h9 h9' hCw m1
  have hrc : w'.st.cp.relChange = w.st.cp.relChange := by rw [m2, m3, hsk, hsk', (horb k').2.2]
  refine ⟨w, w', h1, h1', by rw [h3, h3'], by rw [h13, h13', hloss], hrc, ?_, m1, h10, h9, h9'⟩
  rw [CMTF.shouldStop, CMTF.shouldStop, h13, h13', bind_ok, bind_ok, hloss, hrc, m4, m5, hsk, hsk', (hgood k').2.2.1.XNorm,
    (hgood' k').2.2.1.XNorm, hnorm]

/-! ## C117: order of the rows and columns -/

/-- C117. Moving the rows of the modes of the data tensor, of the coupled matrices and of the initial factor matrices in the same
way, and the columns of the coupled matrices together with the rows of the drawn right factors, moves the rows of the factor
matrices and of the right factors of the result in the same way; weights, error, number of iterations and verdict of the stopping
test are the same. -/
theorem C117_cmtf_rows {E : Ext} (hE : E.SVDOk) (hN : E.NNLSOk) (hQ : E.QROk) {c c' : CMTF.Config}
    (hopts : c'.cp.opts = c.cp.opts) {X X' : NDArray ℝ} (hA : CP.Admissible c.cp.opts none none X.shape)
    (hridge : c.cp.opts.ridgePenalties = none) {Ys Ys' : List (NDArray ℝ)} {modes : List Int} {ms qs : List ℕ}
    (hY : CMTF.Coupled X.shape Ys modes ms qs) (hY' : CMTF.Coupled X.shape Ys' modes ms qs)
    (hlog : c.Measurable ms qs) (hlog' : c'.Measurable ms qs) (hfreq : freqOption c.cp.freq ≠ 0)
    (hfreq' : freqOption c'.cp.freq ≠ 0) {arg arg' : InitArg KruskalTensor} {t t' : KruskalTensor}
    (hi : CP.StartsFrom E c.cp none none arg X t) (hi' : CP.StartsFrom E c'.cp none none arg' X' t')
    (ht : t.WF X.shape c.cp.opts.rank) (ht' : t'.WF X.shape c.cp.opts.rank) (hshape : X'.shape = X.shape)
    {σ τ : ℕ → Equiv.Perm ℕ} (hσ : ∀ k < X.shape.length, ∀ i, σ k i < X.shape.getD k 0 ↔ i < X.shape.getD k 0)
    (hτ : ∀ i < ms.length, ∀ j, τ i j < qs.getD i 0 ↔ j < qs.getD i 0)
    (hX : ∀ idx, Valid X.shape idx → X'.get (idx.mapIdx fun k i => σ k i) = X.get idx)
    (hYm : ∀ i < ms.length, ∀ a < X.shape.getD (ms.getD i 0) 0, ∀ j < qs.getD i 0,
      (Ys'.getD i noArr).get [σ (ms.getD i 0) a, τ i j] = (Ys.getD i noArr).get [a, j])
    (hstart : ∀ k F F', t.factorMatrices[k]? = some F → t'.factorMatrices[k]? = some F' →
      ∀ i < X.shape.getD k 0, ∀ r < c.cp.opts.rank, F'.get [σ k i, r] = F.get [i, r])
    (hdraw : ∀ i < ms.length, ∀ j < qs.getD i 0, ∀ r < c.cp.opts.rank, c'.drawN i (τ i j) r = c.drawN i j r)
    {budget : Int} {mi : Option Int} (hb : 0 < mi.getD budget) {loggers : List Logger} {file : Option H5File}
    (hS : Storing (CMTF.method E c) (CMTF.newObject none none budget loggers file) [])
    (hS' : Storing (CMTF.method E c') (CMTF.newObject none none budget loggers file) []) :
    ∃ w w', CMTF.fit E c X Ys modes mi arg (CMTF.newObject none none budget loggers file) = .ok () w ∧
      CMTF.fit E c' X' Ys' modes mi arg' (CMTF.newObject none none budget loggers file) = .ok () w' ∧
      (∀ k < X.shape.length, ∀ i < X.shape.getD k 0, ∀ r < c.cp.opts.rank,
        (w'.st.cp.dec.factorMatrices.getD k noArr).get [σ k i, r] = (w.st.cp.dec.factorMatrices.getD k noArr).get [i, r]) ∧
      (∀ i < ms.length, ∀ j < qs.getD i 0, ∀ r < c.cp.opts.rank,
        (w'.st.V.getD i noArr).get [τ i j, r] = (w.st.V.getD i noArr).get [j, r]) ∧
      (∀ r < c.cp.opts.rank, w'.st.cp.dec.weights.get [r] = w.st.cp.dec.weights.get [r]) ∧
      w'.it = w.it ∧ CMTF.sse w'.st = CMTF.sse w.st ∧
      CMTF.shouldStop c'.cp.opts w'.st = CMTF.shouldStop c.cp.opts w.st := by
  have hC : CMTF.Moving c.cp.opts.rank (Equiv.refl ℕ) X.shape qs ms.length σ τ (fun _ _ => 1) :=
    ⟨hσ, hτ, by simp, by simp, by simp⟩
  obtain ⟨w, w', h1, h2, h3, h4, h5, h6, h7, h8, h9, h10⟩ := cmtf_fit_moved hE hN hQ hE hN hQ hopts hA hridge hY hY' hlog hlog'
    hfreq hfreq' hi hi' ht ht' hC
    ⟨hshape, fun idx hv => by rw [moveIdx_changes hv.length_eq, hX idx hv, one_mul]⟩
    (FactorsMoved.of_get (by simp) ht.factors ht'.factors fun m s F F' hs hF hF' i hi r hr => by
      obtain ⟨-, rfl⟩ := getElem?_changes hs
      exact (hstart m F F' hF hF' i hi r hr).trans (one_mul _).symm) hYm
    (fun i hi j hj r hr => (hdraw i hi j hj r hr).trans (one_mul _).symm) hb rfl hS hS'
  refine ⟨w, w', h1, h2, fun k hk i hi r hr => ?_, fun i hi j hj r hr => (h7.V i hi j hj r hr).trans (one_mul _),
    fun r hr => h7.weights r hr, h3, h4, h6⟩
  exact (h7.U (by rw [h8]; exact hk) (by rw [h8]; exact hi) hr).trans (one_mul _)

/-! ## C118: order and signs of the components -/

/-- C118. When the components of the initial decomposition are given in another order, and their columns with other signs whose
product is `1` for every component, and the columns of the drawn right factors are in that order and have the signs of their mode,
the result is the same decomposition in that order and with those signs, and so are the right factors; the modelled tensor, the
modelled coupled matrices, the error, the number of iterations and the verdict of the stopping test are the same. -/
theorem C118_cmtf_components {E : Ext} (hE : E.SVDOk) (hN : E.NNLSOk) (hQ : E.QROk) {c c' : CMTF.Config}
    (hopts : c'.cp.opts = c.cp.opts) {X : NDArray ℝ} (hA : CP.Admissible c.cp.opts none none X.shape)
    (hridge : c.cp.opts.ridgePenalties = none) {Ys : List (NDArray ℝ)} {modes : List Int} {ms qs : List ℕ}
    (hY : CMTF.Coupled X.shape Ys modes ms qs)
    (hlog : c.Measurable ms qs) (hlog' : c'.Measurable ms qs) (hfreq : freqOption c.cp.freq ≠ 0)
    (hfreq' : freqOption c'.cp.freq ≠ 0) {arg arg' : InitArg KruskalTensor} {t t' : KruskalTensor}
    (hi : CP.StartsFrom E c.cp none none arg X t) (hi' : CP.StartsFrom E c'.cp none none arg' X t')
    (ht : t.WF X.shape c.cp.opts.rank) (ht' : t'.WF X.shape c.cp.opts.rank)
    {perm : Equiv.Perm ℕ} (hperm : ∀ r, perm r < c.cp.opts.rank ↔ r < c.cp.opts.rank) {sign : ℕ → ℕ → ℝ}
    (hsign : ∀ k < X.shape.length, ∀ r < c.cp.opts.rank, sign k r = 1 ∨ sign k r = -1)
    (hprod : ∀ r < c.cp.opts.rank, ∏ k ∈ Finset.range X.shape.length, sign k r = 1)
    (hstart : ∀ k F F', t.factorMatrices[k]? = some F → t'.factorMatrices[k]? = some F' →
      ∀ i < X.shape.getD k 0, ∀ r < c.cp.opts.rank, F'.get [i, perm r] = sign k r * F.get [i, r])
    (hdraw : ∀ i < ms.length, ∀ j < qs.getD i 0, ∀ r < c.cp.opts.rank,
      c'.drawN i j (perm r) = sign (ms.getD i 0) r * c.drawN i j r)
    {budget : Int} {mi : Option Int} (hb : 0 < mi.getD budget) {loggers : List Logger} {file : Option H5File}
    (hS : Storing (CMTF.method E c) (CMTF.newObject none none budget loggers file) [])
    (hS' : Storing (CMTF.method E c') (CMTF.newObject none none budget loggers file) []) :
    ∃ w w', CMTF.fit E c X Ys modes mi arg (CMTF.newObject none none budget loggers file) = .ok () w ∧
      CMTF.fit E c' X Ys modes mi arg' (CMTF.newObject none none budget loggers file) = .ok () w' ∧
      (∀ k < X.shape.length, ∀ i < X.shape.getD k 0, ∀ r < c.cp.opts.rank,
        (w'.st.cp.dec.factorMatrices.getD k noArr).get [i, perm r]
          = sign k r * (w.st.cp.dec.factorMatrices.getD k noArr).get [i, r]) ∧
      (∀ i < ms.length, ∀ j < qs.getD i 0, ∀ r < c.cp.opts.rank,
        (w'.st.V.getD i noArr).get [j, perm r] = sign (ms.getD i 0) r * (w.st.V.getD i noArr).get [j, r]) ∧
      (∀ r < c.cp.opts.rank, w'.st.cp.dec.weights.get [perm r] = w.st.cp.dec.weights.get [r]) ∧
      w'.st.cp.dec.constructTensor = w.st.cp.dec.constructTensor ∧
      CMTF.reconstructed w'.st = CMTF.reconstructed w.st ∧
      w'.it = w.it ∧ CMTF.sse w'.st = CMTF.sse w.st ∧
      CMTF.shouldStop c'.cp.opts w'.st = CMTF.shouldStop c.cp.opts w.st := by
  have hC : CMTF.Moving c.cp.opts.rank perm X.shape qs ms.length (fun _ => Equiv.refl ℕ) (fun _ => Equiv.refl ℕ) sign :=
    ⟨by simp, by simp, hperm, fun k hk r hr => by rcases hsign k hk r hr with h | h <;> rw [h] <;> norm_num, hprod⟩
  have hmv : ∀ idx, Valid X.shape idx → moveIdx (changes X.shape.length (fun _ => Equiv.refl ℕ) sign) idx = idx :=
    fun idx hv => by rw [moveIdx_changes hv.length_eq, mapIdx_refl]
  obtain ⟨w, w', h1, h2, h3, h4, h5, h6, h7, h8, h9, h10⟩ := cmtf_fit_moved hE hN hQ hE hN hQ hopts hA hridge hY hY hlog hlog'
    hfreq hfreq' hi hi' ht ht' hC ⟨rfl, fun idx hv => by rw [hmv idx hv, one_mul]⟩
    (FactorsMoved.of_get (by simp) ht.factors ht'.factors fun m s F F' hs hF hF' i hi r hr => by
      obtain ⟨-, rfl⟩ := getElem?_changes hs
      exact hstart m F F' hF hF' i hi r hr) (fun _ _ _ _ _ _ => rfl) hdraw hb rfl hS hS'
  have hX' : w'.st.cp.X.shape = X.shape := by rw [h7.tensor.shape, h8]
  have hUm : ∀ k < X.shape.length, ∀ i < X.shape.getD k 0, ∀ r < c.cp.opts.rank,
      (w'.st.cp.dec.factorMatrices.getD k noArr).get [i, perm r]
        = sign k r * (w.st.cp.dec.factorMatrices.getD k noArr).get [i, r] := fun k hk i hi r hr =>
    h7.U (by rw [h8]; exact hk) (by rw [h8]; exact hi) hr
  refine ⟨w, w', h1, h2, hUm, fun i hi j hj r hr => h7.V i hi j hj r hr, h7.weights, ?_, ?_, h3, h4, h6⟩
  · have hw9 := h9.cp.wf
    have hw10 := h10.cp.wf
    rw [h8] at hw9
    rw [hX'] at hw10
    rw [constructTensor_eq hw9 hA.order, constructTensor_eq hw10 hA.order]
    refine congrArg Except.ok (ofFn_congr fun idx hv => ?_)
    have hF7 := h7.factors
    rw [h8] at hF7
    have := cpEntry_weights_moved (w := fun r => w.st.cp.dec.weights.get [r]) (w' := fun r => w'.st.cp.dec.weights.get [r])
      hC.change hF7 h7.weights hv
    rwa [hmv idx hv] at this
  · obtain ⟨Zs, e, hl, hZ⟩ := reconstructed_ok h9
    obtain ⟨Zs', e', hl', hZ'⟩ := reconstructed_ok h10
    rw [e, e']
    refine congrArg Except.ok (List.ext_getElem (by rw [hl, hl']) fun i i1 i2 => ?_)
    have hi : i < ms.length := by rw [← hl']; exact i1
    have hm : ms.getD i 0 < X.shape.length := by rw [← h8]; exact (h9.mode hi).1
    rw [← getD_of_lt i1 noArr, ← getD_of_lt i2 noArr, hZ i hi, hZ' i hi, hX', h8]
    refine ofMat_congr fun a ha j hj => ?_
    rw [sum_move hperm]
    refine Finset.sum_congr rfl fun r hr => ?_
    have hr : r < c.cp.opts.rank := by simpa using hr
    have hV := h7.V i hi j hj r hr
    simp only [Equiv.refl_apply] at hV
    rw [hUm _ hm a ha r hr, hV]
    linear_combination ((w.st.cp.dec.factorMatrices.getD (ms.getD i 0) noArr).get [a, r] * (w.st.V.getD i noArr).get [j, r]) *
      hC.signs _ hm r hr

/-! ## C119: the numerical library -/

/-- C119. The decomposition and the right factors that a fit without constraints and penalties returns, the error, the number of
iterations and the verdict of the stopping test do not depend on which singular value decomposition the numerical library returns
where there is a choice, nor on what it does for non-negative least squares and the QR factorisation. -/
theorem C119_cmtf_library {E E' : Ext} (hE : E.SVDOk) (hN : E.NNLSOk) (hQ : E.QROk) (hE' : E'.SVDOk) (hN' : E'.NNLSOk)
    (hQ' : E'.QROk) {c : CMTF.Config} {X : NDArray ℝ} (hA : CP.Admissible c.cp.opts none none X.shape)
    (hridge : c.cp.opts.ridgePenalties = none) {Ys : List (NDArray ℝ)} {modes : List Int} {ms qs : List ℕ}
    (hY : CMTF.Coupled X.shape Ys modes ms qs) (hlog : c.Measurable ms qs) (hfreq : freqOption c.cp.freq ≠ 0)
    {arg : InitArg KruskalTensor} {t : KruskalTensor}
    (hi : CP.StartsFrom E c.cp none none arg X t) (hi' : CP.StartsFrom E' c.cp none none arg X t)
    (ht : t.WF X.shape c.cp.opts.rank) {budget : Int} {mi : Option Int} (hb : 0 < mi.getD budget)
    {loggers : List Logger} {file : Option H5File}
    (hS : Storing (CMTF.method E c) (CMTF.newObject none none budget loggers file) [])
    (hS' : Storing (CMTF.method E' c) (CMTF.newObject none none budget loggers file) []) :
    ∃ w w', CMTF.fit E c X Ys modes mi arg (CMTF.newObject none none budget loggers file) = .ok () w ∧
      CMTF.fit E' c X Ys modes mi arg (CMTF.newObject none none budget loggers file) = .ok () w' ∧
      w'.st.cp.dec = w.st.cp.dec ∧ w'.st.V = w.st.V ∧ w'.it = w.it ∧ CMTF.sse w'.st = CMTF.sse w.st ∧
      w'.st.cp.relChange = w.st.cp.relChange ∧
      CMTF.shouldStop c.cp.opts w'.st = CMTF.shouldStop c.cp.opts w.st := by
  have hC : CMTF.Moving c.cp.opts.rank (Equiv.refl ℕ) X.shape qs ms.length (fun _ => Equiv.refl ℕ) (fun _ => Equiv.refl ℕ)
    (fun _ _ => 1) := ⟨by simp, by simp, by simp, by simp, by simp⟩
  have hmv : ∀ idx, Valid X.shape idx →
      moveIdx (changes X.shape.length (fun _ => Equiv.refl ℕ) fun _ _ => 1) idx = idx := fun idx hv => by
    rw [moveIdx_changes hv.length_eq, mapIdx_refl]
  obtain ⟨w, w', h1, h2, h3, h4, h5, h6, h7, h8, h9, h10⟩ := cmtf_fit_moved hE hN hQ hE' hN' hQ' rfl hA hridge hY hY hlog hlog
    hfreq hfreq hi hi' ht ht hC ⟨rfl, fun idx hv => by rw [hmv idx hv, one_mul]⟩
    (FactorsMoved.of_get (by simp) ht.factors ht.factors fun m s F F' hs hF hF' i _ r _ => by
      obtain ⟨-, rfl⟩ := getElem?_changes hs
      rw [hF] at hF'
      obtain rfl := Option.some.inj hF'
      exact (one_mul _).symm) (fun _ _ _ _ _ _ => rfl) (fun _ _ _ _ _ _ => (one_mul _).symm) hb rfl hS hS'
  have hX' : w'.st.cp.X.shape = X.shape := by rw [h7.tensor.shape, h8]
  have hw9 := h9.cp.wf
  have hw10 := h10.cp.wf
  rw [h8] at hw9
  rw [hX'] at hw10
  refine ⟨w, w', h1, h2, ?_, ?_, h3, h4, h5, h6⟩
  · have hf : w'.st.cp.dec.factorMatrices = w.st.cp.dec.factorMatrices := by
      refine h7.factors.eq fun s hs => ?_
      simp only [changes, List.mem_map, List.mem_range] at hs
      obtain ⟨k, -, rfl⟩ := hs
      exact ⟨rfl, fun _ => rfl⟩
    have hw : w'.st.cp.dec.weights = w.st.cp.dec.weights := by
      apply ext_get (by rw [hw9.weights, hw10.weights])
      intro idx hv
      rw [hw10.weights] at hv
      match idx, hv with
      | [r], hv => exact h7.weights r hv.1
    have hrk : w'.st.cp.dec.rank = w.st.cp.dec.rank := by rw [hw9.rank, hw10.rank]
    generalize w'.st.cp.dec = a at hf hw hrk
    generalize w.st.cp.dec = b at hf hw hrk
    cases a; cases b
    simp only at hf hw hrk
    subst hf hw hrk
    rfl
  · refine List.ext_getElem (by rw [h9.lenV, h10.lenV]) fun i i1 i2 => ?_
    have hi : i < ms.length := by rw [← h9.lenV]; exact i2
    rw [← getD_of_lt i1 noArr, ← getD_of_lt i2 noArr]
    apply ext_get (by rw [h9.shapeV i hi, h10.shapeV i hi])
    intro idx hv
    rw [h10.shapeV i hi] at hv
    match idx, hv with
    | [j, r], hv => exact (h7.V i hi j hv.1 r hv.2.1).trans (one_mul _)

/-! ## Examples -/

/-- Rank 2, a given start, and draws `d` for the right factors. -/
def coupledConfig (d : ℕ → ℕ → ℕ → ℝ) : CMTF.Config := { cp := pairConfig, logs := [], drawU := fun _ _ _ => 0, drawN := d }

theorem coupled_storing (E : Ext) (d : ℕ → ℕ → ℕ → ℝ) (w : World CMTFState) :
    Storing (CMTF.method E (coupledConfig d)) w [] := by
  have hneg : ¬ 0 < (CMTF.method E (coupledConfig d)).freq := by
    show ¬ (0 : Int) < -1
    decide
  exact ⟨fun h => absurd h hneg, fun h => absurd h hneg, fun h => absurd h hneg⟩

theorem coupled_measurable (d : ℕ → ℕ → ℕ → ℝ) (ms qs : List ℕ) : (coupledConfig d).Measurable ms qs := by
  intro p hp; simp [coupledConfig] at hp

theorem coupled_two (x y z : ℕ → ℕ → ℝ) : CMTF.Coupled (ofMat 2 2 x).shape [ofMat 2 3 y, ofMat 2 2 z] [0, -1] [0, 1] [3, 2] := by
  refine ⟨.cons ⟨show 0 < 2 by decide, Or.inl rfl⟩ (.cons ⟨show 1 < 2 by decide, Or.inr rfl⟩ .nil), rfl, fun i hi => ?_⟩
  have : i < 2 := hi
  interval_cases i <;> rfl

/-- Any `2 × 2` tensor with a `2 × 3` matrix coupled to its first and a `2 × 2` matrix coupled to its second mode (given as `-1`):
the rows of the first mode and the columns of the second matrix are exchanged. -/
example {E : Ext} (hE : E.SVDOk) (hN : E.NNLSOk) (hQ : E.QROk) (x y z f g : ℕ → ℕ → ℝ) (d : ℕ → ℕ → ℕ → ℝ) (budget : Int)
    (hb : 0 < budget) :
    ∃ w w', CMTF.fit E (coupledConfig d) (ofMat 2 2 x) [ofMat 2 3 y, ofMat 2 2 z] [0, -1] (some budget)
        (.tensor ⟨2, [ofMat 2 2 f, ofMat 2 2 g], full [2] 1⟩) (CMTF.newObject none none budget [] none) = .ok () w ∧
      CMTF.fit E (coupledConfig fun i j r => if i = 1 then d i (Equiv.swap 0 1 j) r else d i j r)
        (ofMat 2 2 fun i j => x (Equiv.swap 0 1 i) j)
        [ofMat 2 3 fun i j => y (Equiv.swap 0 1 i) j, ofMat 2 2 fun i j => z i (Equiv.swap 0 1 j)] [0, -1] (some budget)
        (.tensor ⟨2, [ofMat 2 2 fun i r => f (Equiv.swap 0 1 i) r, ofMat 2 2 g], full [2] 1⟩)
        (CMTF.newObject none none budget [] none) = .ok () w' ∧
      CMTF.sse w'.st = CMTF.sse w.st ∧ w'.it = w.it := by
  have ht : KruskalTensor.WF ⟨2, [ofMat 2 2 f, ofMat 2 2 g], full [2] 1⟩ (ofMat 2 2 x).shape 2 :=
    ⟨rfl, .cons rfl (.cons rfl .nil), rfl⟩
  have ht' : KruskalTensor.WF ⟨2, [ofMat 2 2 fun i r => f (Equiv.swap 0 1 i) r, ofMat 2 2 g], full [2] 1⟩ (ofMat 2 2 x).shape 2 :=
    ⟨rfl, .cons rfl (.cons rfl .nil), rfl⟩
  have hc : ∀ k, k < 2 → k = 0 ∨ k = 1 := fun k hk => by omega
  obtain ⟨w, w', h1, h2, -, -, -, h6, h7, -⟩ := C117_cmtf_rows hE hN hQ (c := coupledConfig d)
    (c' := coupledConfig fun i j r => if i = 1 then d i (Equiv.swap 0 1 j) r else d i j r) rfl (X := ofMat 2 2 x)
    (X' := ofMat 2 2 fun i j => x (Equiv.swap 0 1 i) j) (pair_admissible rfl) rfl (coupled_two x y z)
    (coupled_two x (fun i j => y (Equiv.swap 0 1 i) j) fun i j => z i (Equiv.swap 0 1 j)) (coupled_measurable _ _ _)
    (coupled_measurable _ _ _) (show freqOption none ≠ 0 by decide) (show freqOption none ≠ 0 by decide)
    (startsFrom_precomputed pair_init ht) (startsFrom_precomputed pair_init ht') ht ht' rfl
    (σ := fun k => if k = 0 then Equiv.swap 0 1 else Equiv.refl ℕ) (τ := fun i => if i = 1 then Equiv.swap 0 1 else Equiv.refl ℕ)
    (by
      intro k hk i
      obtain rfl | rfl := hc k hk
      · exact swap_lt i
      · exact Iff.rfl)
    (by
      intro k hk i
      obtain rfl | rfl := hc k hk
      · exact Iff.rfl
      · exact swap_lt i)
    (by
      intro idx hv
      match idx, hv with
      | [i, j], hv =>
        show (ofMat 2 2 fun i j => x (Equiv.swap 0 1 i) j).get [Equiv.swap 0 1 i, j] = _
        rw [get_ofMat ((swap_lt i).2 hv.1) hv.2.1, get_ofMat hv.1 hv.2.1, Equiv.swap_apply_self])
    (by
      intro i hi a ha j hj
      obtain rfl | rfl := hc i hi
      · show (ofMat 2 3 fun i j => y (Equiv.swap 0 1 i) j).get [Equiv.swap 0 1 a, j] = (ofMat 2 3 y).get [a, j]
        have ha : a < 2 := ha
        have hj : j < 3 := hj
        rw [get_ofMat ((swap_lt a).2 ha) hj, get_ofMat ha hj, Equiv.swap_apply_self]
      · show (ofMat 2 2 fun i j => z i (Equiv.swap 0 1 j)).get [a, Equiv.swap 0 1 j] = (ofMat 2 2 z).get [a, j]
        have ha : a < 2 := ha
        have hj : j < 2 := hj
        rw [get_ofMat ha ((swap_lt j).2 hj), get_ofMat ha hj, Equiv.swap_apply_self])
    (by
      intro k F F' hF hF' i hi r hr
      match k, hF, hF' with
      | 0, hF, hF' =>
        obtain rfl := Option.some.inj hF
        obtain rfl := Option.some.inj hF'
        have hi : i < 2 := hi
        have hr : r < 2 := hr
        show (ofMat 2 2 fun i r => f (Equiv.swap 0 1 i) r).get [Equiv.swap 0 1 i, r] = (ofMat 2 2 f).get [i, r]
        rw [get_ofMat ((swap_lt i).2 hi) hr, get_ofMat hi hr, Equiv.swap_apply_self]
      | 1, hF, hF' =>
        obtain rfl := Option.some.inj hF
        obtain rfl := Option.some.inj hF'
        rfl)
    (by
      intro i hi j hj r hr
      obtain rfl | rfl := hc i hi
      · rfl
      · show d 1 (Equiv.swap 0 1 (Equiv.swap 0 1 j)) r = d 1 j r
        rw [Equiv.swap_apply_self])
    (mi := some budget) (budget := budget) (loggers := []) (file := none) hb (coupled_storing _ _ _) (coupled_storing _ _ _)
  exact ⟨w, w', h1, h2, h7, h6⟩

/-- The same problem with the two components exchanged, the first of them with the opposite sign in both modes. -/
example {E : Ext} (hE : E.SVDOk) (hN : E.NNLSOk) (hQ : E.QROk) (x y z f g : ℕ → ℕ → ℝ) (d : ℕ → ℕ → ℕ → ℝ) (budget : Int)
    (hb : 0 < budget) :
    ∃ w w', CMTF.fit E (coupledConfig d) (ofMat 2 2 x) [ofMat 2 3 y, ofMat 2 2 z] [0, -1] (some budget)
        (.tensor ⟨2, [ofMat 2 2 f, ofMat 2 2 g], full [2] 1⟩) (CMTF.newObject none none budget [] none) = .ok () w ∧
      CMTF.fit E (coupledConfig fun i j r => (if r = 1 then -1 else 1) * d i j (Equiv.swap 0 1 r)) (ofMat 2 2 x)
        [ofMat 2 3 y, ofMat 2 2 z] [0, -1] (some budget)
        (.tensor ⟨2, [ofMat 2 2 fun i r => (if r = 1 then -1 else 1) * f i (Equiv.swap 0 1 r),
          ofMat 2 2 fun i r => (if r = 1 then -1 else 1) * g i (Equiv.swap 0 1 r)], full [2] 1⟩)
        (CMTF.newObject none none budget [] none) = .ok () w' ∧
      CMTF.reconstructed w'.st = CMTF.reconstructed w.st ∧ w'.it = w.it := by
  have ht : KruskalTensor.WF ⟨2, [ofMat 2 2 f, ofMat 2 2 g], full [2] 1⟩ (ofMat 2 2 x).shape 2 :=
    ⟨rfl, .cons rfl (.cons rfl .nil), rfl⟩
  have ht' : KruskalTensor.WF ⟨2, [ofMat 2 2 fun i r => (if r = 1 then -1 else 1) * f i (Equiv.swap 0 1 r),
      ofMat 2 2 fun i r => (if r = 1 then -1 else 1) * g i (Equiv.swap 0 1 r)], full [2] 1⟩ (ofMat 2 2 x).shape 2 :=
    ⟨rfl, .cons rfl (.cons rfl .nil), rfl⟩
  have hs : ∀ r < 2, (if Equiv.swap 0 1 r = 1 then (-1 : ℝ) else 1) = if r = 0 then -1 else 1 := by
    intro r hr
    obtain rfl | rfl : r = 0 ∨ r = 1 := by omega
    · rw [Equiv.swap_apply_left]; simp
    · rw [Equiv.swap_apply_right]; simp
  have hm : ∀ (f : ℕ → ℕ → ℝ) (i r : ℕ), i < 2 → r < 2 →
      (ofMat 2 2 fun i r => (if r = 1 then -1 else 1) * f i (Equiv.swap 0 1 r)).get [i, Equiv.swap 0 1 r]
        = (if r = 0 then -1 else 1) * (ofMat 2 2 f).get [i, r] := by
    intro f i r hi hr
    rw [get_ofMat hi ((swap_lt r).2 hr), get_ofMat hi hr, Equiv.swap_apply_self, hs r hr]
  obtain ⟨w, w', h1, h2, -, -, -, -, h7, h8, -⟩ := C118_cmtf_components hE hN hQ (c := coupledConfig d)
    (c' := coupledConfig fun i j r => (if r = 1 then -1 else 1) * d i j (Equiv.swap 0 1 r)) rfl (X := ofMat 2 2 x)
    (pair_admissible rfl) rfl (coupled_two x y z) (coupled_measurable _ _ _)
    (coupled_measurable _ _ _) (show freqOption none ≠ 0 by decide) (show freqOption none ≠ 0 by decide)
    (startsFrom_precomputed pair_init ht) (startsFrom_precomputed pair_init ht') ht ht'
    (perm := Equiv.swap 0 1) swap_lt
    (sign := fun _ r => if r = 0 then -1 else 1) (by intro k _ r _; split <;> simp)
    (by
      intro r _
      show ∏ k ∈ Finset.range 2, (if r = 0 then (-1 : ℝ) else 1) = 1
      by_cases h : r = 0 <;> simp [Finset.prod_range_succ, h])
    (by
      intro k F F' hF hF' i hi r hr
      match k, hF, hF' with
      | 0, hF, hF' =>
        obtain rfl := Option.some.inj hF
        obtain rfl := Option.some.inj hF'
        exact hm f i r hi hr
      | 1, hF, hF' =>
        obtain rfl := Option.some.inj hF
        obtain rfl := Option.some.inj hF'
        exact hm g i r hi hr)
    (by
      intro i hi j hj r hr
      show (if Equiv.swap 0 1 r = 1 then (-1 : ℝ) else 1) * d i j (Equiv.swap 0 1 (Equiv.swap 0 1 r)) = _
      rw [Equiv.swap_apply_self, hs r hr]
      rfl)
    (mi := some budget) (budget := budget) (loggers := []) (file := none) hb (coupled_storing _ _ _) (coupled_storing _ _ _)
  exact ⟨w, w', h1, h2, h7, h8⟩

/-- Two libraries for the same problem. -/
example {E E' : Ext} (hE : E.SVDOk) (hN : E.NNLSOk) (hQ : E.QROk) (hE' : E'.SVDOk) (hN' : E'.NNLSOk) (hQ' : E'.QROk)
    (x y z f g : ℕ → ℕ → ℝ) (d : ℕ → ℕ → ℕ → ℝ) (budget : Int) (hb : 0 < budget) :
    ∃ w w', CMTF.fit E (coupledConfig d) (ofMat 2 2 x) [ofMat 2 3 y, ofMat 2 2 z] [0, -1] (some budget)
        (.tensor ⟨2, [ofMat 2 2 f, ofMat 2 2 g], full [2] 1⟩) (CMTF.newObject none none budget [] none) = .ok () w ∧
      CMTF.fit E' (coupledConfig d) (ofMat 2 2 x) [ofMat 2 3 y, ofMat 2 2 z] [0, -1] (some budget)
        (.tensor ⟨2, [ofMat 2 2 f, ofMat 2 2 g], full [2] 1⟩) (CMTF.newObject none none budget [] none) = .ok () w' ∧
      w'.st.cp.dec = w.st.cp.dec ∧ w'.st.V = w.st.V := by
  have ht : KruskalTensor.WF ⟨2, [ofMat 2 2 f, ofMat 2 2 g], full [2] 1⟩ (ofMat 2 2 x).shape 2 :=
    ⟨rfl, .cons rfl (.cons rfl .nil), rfl⟩
  obtain ⟨w, w', h1, h2, h3, h4, -⟩ := C119_cmtf_library hE hN hQ hE' hN' hQ' (c := coupledConfig d) (X := ofMat 2 2 x)
    (pair_admissible rfl) rfl (coupled_two x y z) (coupled_measurable _ _ _) (show freqOption none ≠ 0 by decide)
    (startsFrom_precomputed pair_init ht) (startsFrom_precomputed pair_init ht) ht (mi := some budget) (budget := budget)
    (loggers := []) (file := none) hb (coupled_storing _ _ _) (coupled_storing _ _ _)
  exact ⟨w, w', h1, h2, h3, h4⟩

end
end TK
