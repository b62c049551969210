import Verif.Props.Compression
import Verif.Props.CMTFMoved

/-!
# C132: fits of compressed data, coupled problems

Source: cmtf.py:41-59 (the error), 79-93 (start and normalisation), 146-187 (the updates); cp.py:400-423 (the loop).

A mode of a coupled problem without constraints and penalties may be compressed if the matrices coupled to this mode are compressed
alike.
-/

namespace TK
open NDArray Matrix

noncomputable section

/-- The solution of the normal equations depends linearly on the right hand side. -/
theorem row_linear {R n : ℕ} {G : ℕ → ℕ → ℝ} (hG : ∀ a < R, ∀ b < R, G a b = G b a) {f' M' u : ℕ → ℝ} {f M : ℕ → ℕ → ℝ}
    (hM : ∀ b < R, M' b = ∑ l ∈ Finset.range n, u l * M l b)
    (h1 : ∀ l < n, ∀ b < R, ∑ a ∈ Finset.range R, f l a * G a b = M l b)
    (h1' : ∀ b < R, ∑ a ∈ Finset.range R, f' a * G a b = M' b)
    (h2 : ∀ l < n, ∃ W : ℕ → ℝ, ∀ a < R, f l a = ∑ b ∈ Finset.range R, W b * G b a)
    (h2' : ∃ W : ℕ → ℝ, ∀ a < R, f' a = ∑ b ∈ Finset.range R, W b * G b a) :
    ∀ r < R, f' r = ∑ l ∈ Finset.range n, u l * f l r := by
  obtain ⟨W', hW'⟩ := h2'
  choose W hW using h2
  intro r hr
  refine sub_eq_zero.1 (row_unique (R := R) (U := G) hG (d := fun r => f' r - ∑ l ∈ Finset.range n, u l * f l r)
    (W := fun b => W' b - ∑ l ∈ Finset.range n, u l * if h : l < n then W l h b else 0) (fun b hb => ?_) (fun a ha => ?_) r hr)
  · simp only [sub_mul, Finset.sum_sub_distrib, Finset.sum_mul]
    rw [h1' b hb, hM b hb, Finset.sum_comm, sub_eq_zero]
    refine Finset.sum_congr rfl fun l hl => ?_
    rw [← h1 l (Finset.mem_range.1 hl) b hb, Finset.mul_sum]
    exact Finset.sum_congr rfl fun a _ => by ring
  · simp only [sub_mul, Finset.sum_sub_distrib, Finset.sum_mul]
    rw [hW' a ha, Finset.sum_comm]
    congr 1
    refine Finset.sum_congr rfl fun l hl => ?_
    rw [hW l (Finset.mem_range.1 hl) a ha, Finset.mul_sum]
    refine Finset.sum_congr rfl fun b _ => ?_
    rw [dif_pos (Finset.mem_range.1 hl)]
    ring

theorem row_same {R : ℕ} {G : ℕ → ℕ → ℝ} (hG : ∀ a < R, ∀ b < R, G a b = G b a) {f f' M : ℕ → ℝ}
    (h1 : ∀ b < R, ∑ a ∈ Finset.range R, f a * G a b = M b)
    (h1' : ∀ b < R, ∑ a ∈ Finset.range R, f' a * G a b = M b)
    (h2 : ∃ W : ℕ → ℝ, ∀ a < R, f a = ∑ b ∈ Finset.range R, W b * G b a)
    (h2' : ∃ W : ℕ → ℝ, ∀ a < R, f' a = ∑ b ∈ Finset.range R, W b * G b a) : ∀ r < R, f' r = f r := by
  intro r hr
  have := row_linear hG (n := 1) (u := fun _ => 1) (f := fun _ => f) (M := fun _ => M) (M' := M) (fun b _ => by simp)
    (fun _ _ => h1) h1' (fun _ _ => h2) h2' r hr
  simpa using this

variable {U : NDArray ℝ} {n' m R : ℕ} {ms qs : List ℕ} {s s' : CMTFState}

/-- `s'` is `s` with the tensor, the matrices coupled to mode `m` and the factor matrix of mode `m` multiplied by `U`. -/
structure CMTFState.Expanded (U : NDArray ℝ) (n' m R : ℕ) (ms qs : List ℕ) (s s' : CMTFState) : Prop where
  tensor : TK.Expanded U n' m s.cp.X s'.cp.X
  factors : FactorsExpanded U n' (s.cp.X.shape.getD m 0) m R s.cp.dec.factorMatrices s'.cp.dec.factorMatrices
  weights : ∀ r < R, s'.cp.dec.weights.get [r] = s.cp.dec.weights.get [r]
  modes : s'.modes = s.modes
  V : s'.V = s.V
  Y : ∀ i < ms.length, ms.getD i 0 = m →
    RowsExpanded U n' (s.cp.X.shape.getD m 0) (qs.getD i 0) (s.Ys.getD i noArr) (s'.Ys.getD i noArr)
  Yrest : ∀ i < ms.length, ms.getD i 0 ≠ m → s'.Ys.getD i noArr = s.Ys.getD i noArr

theorem getD_of_getElem? {fs fs' : List (NDArray ℝ)} {k : ℕ} (h : fs'[k]? = fs[k]?) : fs'.getD k noArr = fs.getD k noArr := by
  rw [List.getD, List.getD, h]

theorem FactorsExpanded.getD {fs fs' : List (NDArray ℝ)} {n : ℕ} (h : FactorsExpanded U n' n m R fs fs') (hm : m < fs.length)
    (hm' : m < fs'.length) : RowsExpanded U n' n R (fs.getD m noArr) (fs'.getD m noArr) := by
  rw [getD_of_lt hm, getD_of_lt hm']
  exact h.factor _ _ (by simp) (by simp)

/-- The right hand side of the update of another mode. -/
theorem mttkrp_expanded_ne {X X' : NDArray ℝ} {fs fs' : List (NDArray ℝ)} (hX : Expanded U n' m X X') (hm : m < X.shape.length)
    (hU : OrthoCols U n' (X.shape.getD m 0)) (hl : fs.length = X.shape.length) (hl' : fs'.length = X.shape.length)
    (h : FactorsExpanded U n' (X.shape.getD m 0) m R fs fs') {k i r : ℕ} (hk : k < X.shape.length) (hkm : k ≠ m)
    (hi : i < X.shape.getD k 0) (hr : r < R) : mttkrpEntry X' fs' k i r = mttkrpEntry X fs k i r := by
  rw [mttkrp_inner (R := R) hl hk hi hr,
    mttkrp_inner (R := R) (by rw [hl', hX.length]) (by rw [hX.length]; exact hk) (by rw [hX.getD_ne hkm]; exact hi) hr,
    hX.getD_ne hkm]
  exact hX.inner hm hU (by simpa using hl) (by simpa using hl') (h.set_ne (by omega) hkm _) hr

theorem extraRhs_ne (hM : s.Expanded U n' m R ms qs s') {k : ℕ} (hkm : k ≠ m) {o : Option ℕ}
    (ho : ∀ i, o = some i → i < ms.length ∧ ms.getD i 0 = k) (i b : ℕ) : s'.extraRhs qs o i b = s.extraRhs qs o i b := by
  cases o with
  | none => rfl
  | some j =>
    obtain ⟨hj, rfl⟩ := ho j rfl
    simp only [CMTFState.extraRhs]
    rw [hM.V, hM.Yrest j hj hkm]

theorem extraRhs_self (hM : s.Expanded U n' m R ms qs s') {o : Option ℕ}
    (ho : ∀ i, o = some i → i < ms.length ∧ ms.getD i 0 = m) {i : ℕ} (hi : i < n') (b : ℕ) :
    s'.extraRhs qs o i b = ∑ l ∈ Finset.range (s.cp.X.shape.getD m 0), U.get [i, l] * s.extraRhs qs o l b := by
  cases o with
  | none => simp [CMTFState.extraRhs]
  | some j =>
    obtain ⟨hj, e⟩ := ho j rfl
    simp only [CMTFState.extraRhs]
    rw [hM.V, Finset.sum_congr rfl fun a ha => by rw [hM.Y j hj e i hi a (Finset.mem_range.1 ha), Finset.sum_mul],
      Finset.sum_comm]
    refine Finset.sum_congr rfl fun l _ => ?_
    rw [Finset.mul_sum]
    exact Finset.sum_congr rfl fun a _ => by ring

theorem extraGram_same (hM : s.Expanded U n' m R ms qs s') (o : Option ℕ) (a b : ℕ) :
    s'.extraGram qs o a b = s.extraGram qs o a b := by
  cases o with
  | none => rfl
  | some j => simp only [CMTFState.extraGram]; rw [hM.V]

/-- One update of a coupled problem. -/
theorem C132_cmtf_update {E : Ext} (hE : E.SVDOk) {o : CPOpts} {s s' : CMTFState} (h : s.Sized o.rank ms qs)
    (h' : s'.Sized o.rank ms qs) (hm : m < s.cp.X.shape.length) (hU : OrthoCols U n' (s.cp.X.shape.getD m 0))
    (hM : s.Expanded U n' m o.rank ms qs s') {k : ℕ} (hk : k < s.cp.X.shape.length)
    (hc : s.cp.ModeConfig o k false false none) (hc' : s'.cp.ModeConfig o k false false none) :
    ∃ c c' F F', F.shape = [s.cp.X.shape.getD k 0, o.rank] ∧ F'.shape = [s'.cp.X.shape.getD k 0, o.rank] ∧
      CMTF.updateFactor E o k s = .ok (s.upd k c F) ∧ CMTF.updateFactor E o k s' = .ok (s'.upd k c' F') ∧
      (s.upd k c F).Expanded U n' m o.rank ms qs (s'.upd k c' F') := by
  have hX := hM.tensor
  have hk' : k < s'.cp.X.shape.length := by rw [hX.length]; exact hk
  have hmap : s'.map = s.map := by rw [h.map, h'.map, hM.modes]
  obtain ⟨c, F, hF, e, hfc, hrow⟩ := cmtf_update_rows hE h hk hc
  obtain ⟨c', F', hF', e', -, hrow'⟩ := cmtf_update_rows hE h' hk' hc'
  rw [hmap] at hrow'
  have hl := h.cp.wf.factors.length_eq
  have hl' := h'.cp.wf.factors.length_eq
  rw [hX.length] at hl'
  set fc := firstCoupled s.map k with hfcd
  have hG : ∀ a < o.rank, ∀ b < o.rank, gramProd (s'.cp.dec.factorMatrices.eraseIdx k) a b + s'.extraGram qs fc a b
      = gramProd (s.cp.dec.factorMatrices.eraseIdx k) a b + s.extraGram qs fc a b := fun a ha b hb => by
    rw [hM.factors.gram hU h.cp.wf.factors (hX.shape ▸ h'.cp.wf.factors) rfl k ha hb, extraGram_same hM]
  have hsym : ∀ a < o.rank, ∀ b < o.rank, gramProd (s.cp.dec.factorMatrices.eraseIdx k) a b + s.extraGram qs fc a b
      = gramProd (s.cp.dec.factorMatrices.eraseIdx k) b a + s.extraGram qs fc b a := fun a _ b _ => by
    rw [gramProd_comm, extraGram_comm]
  have hrow'' : ∀ i < s'.cp.X.shape.getD k 0,
      (∀ b < o.rank, ∑ a ∈ Finset.range o.rank, F'.get [i, a] * (gramProd (s.cp.dec.factorMatrices.eraseIdx k) a b +
          s.extraGram qs fc a b) = mttkrpEntry s'.cp.X s'.cp.dec.factorMatrices k i b + s'.extraRhs qs fc i b) ∧
      ∃ W : ℕ → ℝ, ∀ a < o.rank, F'.get [i, a] = ∑ b ∈ Finset.range o.rank, W b *
        (gramProd (s.cp.dec.factorMatrices.eraseIdx k) b a + s.extraGram qs fc b a) := by
    intro i hi
    obtain ⟨p1, W, p2⟩ := hrow' i hi
    refine ⟨fun b hb => ?_, W, fun a ha => ?_⟩
    · rw [← p1 b hb]
      exact Finset.sum_congr rfl fun a ha => by rw [hG a (Finset.mem_range.1 ha) b hb]
    · rw [p2 a ha]
      exact Finset.sum_congr rfl fun b hb => by rw [hG b (Finset.mem_range.1 hb) a ha]
  refine ⟨c, c', F, F', hF, hF', e, e', hX, ?_, hM.weights, hM.modes, hM.V, hM.Y, hM.Yrest⟩
  by_cases hkm : k = m
  · subst hkm
    refine hM.factors.set_self fun i hi r hr => ?_
    obtain ⟨p1, p2⟩ := hrow'' i (by rw [hX.getD hk]; exact hi)
    refine row_linear (f := fun l r => F.get [l, r]) (f' := fun r => F'.get [i, r]) (u := fun l => U.get [i, l])
      (M := fun l b => mttkrpEntry s.cp.X s.cp.dec.factorMatrices k l b + s.extraRhs qs fc l b) hsym (fun b _ => ?_)
      (fun l hl => (hrow l hl).1) p1 (fun l hl => (hrow l hl).2) p2 r hr
    rw [hX.mttkrp hM.factors.erase hi, extraRhs_self hM hfc hi, ← Finset.sum_add_distrib]
    exact Finset.sum_congr rfl fun l _ => by ring
  · obtain rfl : F' = F := by
      refine ext_mat (by rw [hF', hX.getD_ne hkm]) hF fun i hi r hr => ?_
      obtain ⟨p1, p2⟩ := hrow'' i (by rw [hX.getD_ne hkm]; exact hi)
      obtain ⟨q1, q2⟩ := hrow i hi
      refine row_same (f := fun r => F.get [i, r]) (f' := fun r => F'.get [i, r]) hsym q1 (fun b hb => ?_) q2 p2 r hr
      rw [p1 b hb, mttkrp_expanded_ne hX hm hU hl hl' hM.factors hk hkm hi hb, extraRhs_ne hM hkm hfc]
    exact hM.factors.set_ne (by omega) hkm F'

/-- Inner products of columns of a factor matrix and of a coupled matrix. -/
theorem CMTFState.Expanded.products (h : s.Sized R ms qs) (h' : s'.Sized R ms qs) (hm : m < s.cp.X.shape.length)
    (hU : OrthoCols U n' (s.cp.X.shape.getD m 0)) (hM : s.Expanded U n' m R ms qs s') {i : ℕ} (hi : i < ms.length) :
    (∀ a < R, ∀ b < R, ∑ k ∈ Finset.range (s'.cp.X.shape.getD (ms.getD i 0) 0),
        (s'.cp.dec.factorMatrices.getD (ms.getD i 0) noArr).get [k, a] * (s'.cp.dec.factorMatrices.getD (ms.getD i 0) noArr).get [k, b]
      = ∑ k ∈ Finset.range (s.cp.X.shape.getD (ms.getD i 0) 0),
        (s.cp.dec.factorMatrices.getD (ms.getD i 0) noArr).get [k, a] * (s.cp.dec.factorMatrices.getD (ms.getD i 0) noArr).get [k, b]) ∧
    ∀ j < qs.getD i 0, ∀ b < R, ∑ k ∈ Finset.range (s'.cp.X.shape.getD (ms.getD i 0) 0),
        (s'.Ys.getD i noArr).get [k, j] * (s'.cp.dec.factorMatrices.getD (ms.getD i 0) noArr).get [k, b]
      = ∑ k ∈ Finset.range (s.cp.X.shape.getD (ms.getD i 0) 0),
        (s.Ys.getD i noArr).get [k, j] * (s.cp.dec.factorMatrices.getD (ms.getD i 0) noArr).get [k, b] := by
  have hX := hM.tensor
  have hl := h.cp.wf.factors.length_eq
  have hl' := h'.cp.wf.factors.length_eq
  rw [hX.length] at hl'
  by_cases e : ms.getD i 0 = m
  · have hF := hM.factors.getD (by rw [hl]; exact hm) (by rw [hl']; exact hm)
    rw [e, hX.getD hm]
    refine ⟨fun a ha b hb => ?_, fun j hj b hb => ?_⟩
    · rw [← hU.inner]
      exact Finset.sum_congr rfl fun k hk => by rw [hF k (Finset.mem_range.1 hk) a ha, hF k (Finset.mem_range.1 hk) b hb]
    · rw [← hU.inner]
      exact Finset.sum_congr rfl fun k hk => by
        rw [hM.Y i hi e k (Finset.mem_range.1 hk) j hj, hF k (Finset.mem_range.1 hk) b hb]
  · rw [hX.getD_ne e, getD_of_getElem? (hM.factors.rest _ e), hM.Yrest i hi e]
    exact ⟨fun _ _ _ _ => rfl, fun _ _ _ _ => rfl⟩

theorem uncoupled_expanded {E : Ext} (hE : E.SVDOk) {s s' : CMTFState} (h : s.Sized R ms qs) (h' : s'.Sized R ms qs)
    (hm : m < s.cp.X.shape.length) (hU : OrthoCols U n' (s.cp.X.shape.getD m 0)) (hM : s.Expanded U n' m R ms qs s')
    (hnn : s.cp.nonNeg = some (List.replicate s.cp.X.shape.length false))
    (hnn' : s'.cp.nonNeg = some (List.replicate s'.cp.X.shape.length false)) {md : Int} {i : ℕ} {t : List ℕ}
    (hi : s.modes[i]? = some md) :
    ∃ V, CMTF.updateUncoupled E s (md, i :: t) = .ok { s with V := s.V.set i V } ∧
      CMTF.updateUncoupled E s' (md, i :: t) = .ok { s' with V := s'.V.set i V } ∧ V.shape = [qs.getD i 0, R] := by
  obtain ⟨V, e, hV, hil, hrow⟩ := updateUncoupled_rows hE h hnn hi (t := t)
  obtain ⟨V', e', hV', -, hrow'⟩ := updateUncoupled_rows hE h' hnn' (by rw [hM.modes]; exact hi) (t := t)
  obtain ⟨hG, hB⟩ := hM.products h h' hm hU hil
  obtain rfl : V' = V := by
    refine ext_mat hV' hV fun j hj r hr => ?_
    obtain ⟨p1, p2⟩ := hrow j hj
    obtain ⟨p1', W, p2'⟩ := hrow' j hj
    refine row_same (f := fun r => V.get [j, r]) (f' := fun r => V'.get [j, r])
      (fun a _ b _ => Finset.sum_congr rfl fun k _ => mul_comm _ _) p1 (fun b hb => ?_) p2 ⟨W, fun a ha => ?_⟩ r hr
    · rw [← hB j hj b hb, ← p1' b hb]
      exact Finset.sum_congr rfl fun a ha => by rw [hG a (Finset.mem_range.1 ha) b hb]
    · rw [p2' a ha]
      exact Finset.sum_congr rfl fun b hb => by rw [hG b (Finset.mem_range.1 hb) a ha]
  exact ⟨V', e, e', hV⟩

theorem uncoupled_fold_expanded {E : Ext} (hE : E.SVDOk) :
    ∀ (D : List (Int × List ℕ)) {s s' : CMTFState}, s.Sized R ms qs → s'.Sized R ms qs →
    m < s.cp.X.shape.length → OrthoCols U n' (s.cp.X.shape.getD m 0) → s.Expanded U n' m R ms qs s' →
    s.cp.nonNeg = some (List.replicate s.cp.X.shape.length false) →
    s'.cp.nonNeg = some (List.replicate s'.cp.X.shape.length false) → (∀ p ∈ D, EntryOk s.modes p) →
    ∀ {t t'}, D.foldlM (CMTF.updateUncoupled E) s = .ok t → D.foldlM (CMTF.updateUncoupled E) s' = .ok t' →
    t.Expanded U n' m R ms qs t' := by
  intro D
  induction D with
  | nil =>
    intro s s' _ _ _ _ hM _ _ _ t t' e e'
    obtain rfl : s = t := by simpa [pure, Except.pure] using e
    obtain rfl : s' = t' := by simpa [pure, Except.pure] using e'
    exact hM
  | cons p D ih =>
    intro s s' h h' hm hU hM hnn hnn' hD t t' e e'
    obtain ⟨md, l⟩ := p
    obtain ⟨i, t0, rfl, hi⟩ := hD (md, l) List.mem_cons_self
    obtain ⟨V, u, u', hV⟩ := uncoupled_expanded hE h h' hm hU hM hnn hnn' hi (t := t0)
    rw [List.foldlM_cons, u, bind_ok] at e
    rw [List.foldlM_cons, u', bind_ok] at e'
    exact ih (h.setV hV) (h'.setV hV) hm hU ⟨hM.tensor, hM.factors, hM.weights, hM.modes,
      show s'.V.set i V = s.V.set i V by rw [hM.V], hM.Y, hM.Yrest⟩ hnn hnn'
      (fun p hp => hD p (by simp [hp])) e e'

theorem cmtf_updates_expanded {E : Ext} (hE : E.SVDOk) {o : CPOpts} :
    ∀ (modes : List ℕ) {s s' : CMTFState}, s.Sized o.rank ms qs → s'.Sized o.rank ms qs →
    m < s.cp.X.shape.length → OrthoCols U n' (s.cp.X.shape.getD m 0) → s.Expanded U n' m o.rank ms qs s' → s.Uncon o → s'.Uncon o →
    (∀ k ∈ modes, k < s.cp.X.shape.length) → ∀ {t t'}, CMTF.updateModes E o modes s = .ok t →
    CMTF.updateModes E o modes s' = .ok t' → t.Expanded U n' m o.rank ms qs t' := by
  intro modes
  induction modes with
  | nil =>
    intro s s' _ _ _ _ hM _ _ _ t t' e e'
    obtain rfl : s = t := by simpa [CMTF.updateModes, pure, Except.pure] using e
    obtain rfl : s' = t' := by simpa [CMTF.updateModes, pure, Except.pure] using e'
    exact hM
  | cons k modes ih =>
    intro s s' h h' hm hO hM hU hU' hk t t' e e'
    have hk0 := hk k (by simp)
    have hk0' : k < s'.cp.X.shape.length := by rw [hM.tensor.length]; exact hk0
    obtain ⟨c, c', F, F', hF, hF', u, u', hM1⟩ := C132_cmtf_update hE h h' hm hO hM hk0 (hU.conf k hk0) (hU'.conf k hk0')
    rw [CMTF.updateModes, List.foldlM_cons, cmtf_flag hU.cfg hk0, bind_ok] at e
    rw [CMTF.updateModes, List.foldlM_cons, cmtf_flag hU'.cfg hk0', bind_ok] at e'
    simp only [Bool.false_eq_true, if_false] at e e'
    rw [u, bind_ok] at e
    rw [u', bind_ok] at e'
    exact ih (h.upd hF) (h'.upd hF') hm hO hM1 (hU.same rfl rfl rfl) (hU'.same rfl rfl rfl) (fun j hj => hk j (by simp [hj])) e e'

/-- The errors of the coupled matrices. -/
theorem coupledErr_expanded {sizes sizes' : List ℕ} {fs fs' Ys Ys' Vs : List (NDArray ℝ)} (hl : fs.length = sizes.length)
    (hl' : fs'.length = sizes.length) (hm : m < sizes.length) (hU : OrthoCols U n' (sizes.getD m 0))
    (hsz : sizes' = sizes.set m n')
    (hS : ∀ i < ms.length, (Ys.getD i noArr).shape = [sizes.getD (ms.getD i 0) 0, qs.getD i 0])
    (hS' : ∀ i < ms.length, (Ys'.getD i noArr).shape = [sizes'.getD (ms.getD i 0) 0, qs.getD i 0])
    (hF : FactorsExpanded U n' (sizes.getD m 0) m R fs fs')
    (hY : ∀ i < ms.length, ms.getD i 0 = m → RowsExpanded U n' (sizes.getD m 0) (qs.getD i 0) (Ys.getD i noArr) (Ys'.getD i noArr))
    (hYr : ∀ i < ms.length, ms.getD i 0 ≠ m → Ys'.getD i noArr = Ys.getD i noArr) :
    coupledErr fs' Ys' Vs ms R = coupledErr fs Ys Vs ms R := by
  refine Finset.sum_congr rfl fun i hi => ?_
  have hi : i < ms.length := by simpa using hi
  by_cases e : ms.getD i 0 = m
  · have hFm := hF.getD (by rw [hl]; exact hm) (by rw [hl']; exact hm)
    have s1 := hS i hi
    have s2 := hS' i hi
    rw [e] at s1 s2
    have hgm : sizes'.getD m 0 = n' := by rw [hsz]; simp [List.getD, hm]
    simp only [coupledErrAt, matErr, e, s1, s2, List.getD_cons_zero, List.getD_cons_succ, hgm]
    rw [Finset.sum_comm, Finset.sum_comm (s := Finset.range (sizes.getD m 0))]
    refine Finset.sum_congr rfl fun j hj => ?_
    simp only [sq]
    rw [← hU.inner]
    refine Finset.sum_congr rfl fun a ha => ?_
    have ha := Finset.mem_range.1 ha
    have key : (Ys'.getD i noArr).get [a, j] - ∑ r ∈ Finset.range R, (fs'.getD m noArr).get [a, r] * (Vs.getD i noArr).get [j, r]
        = ∑ l ∈ Finset.range (sizes.getD m 0), U.get [a, l] * ((Ys.getD i noArr).get [l, j] -
          ∑ r ∈ Finset.range R, (fs.getD m noArr).get [l, r] * (Vs.getD i noArr).get [j, r]) := by
      simp only [mul_sub, Finset.sum_sub_distrib]
      rw [hY i hi e a ha j (Finset.mem_range.1 hj)]
      congr 1
      rw [Finset.sum_congr rfl fun r hr => by rw [hFm a ha r (Finset.mem_range.1 hr), Finset.sum_mul], Finset.sum_comm]
      refine Finset.sum_congr rfl fun l _ => ?_
      rw [Finset.mul_sum]
      exact Finset.sum_congr rfl fun r _ => by ring
    rw [key]
  · simp only [coupledErrAt]
    rw [hYr i hi e, getD_of_getElem? (hF.rest _ e)]

theorem trueLoss_expanded (h : s.Sized R ms qs) (h' : s'.Sized R ms qs) (hm : m < s.cp.X.shape.length)
    (hU : OrthoCols U n' (s.cp.X.shape.getD m 0)) (hM : s.Expanded U n' m R ms qs s') : s'.trueLoss R ms = s.trueLoss R ms := by
  have hl := h.cp.wf.factors.length_eq
  have hl' := h'.cp.wf.factors.length_eq
  rw [hM.tensor.length] at hl'
  rw [CMTFState.trueLoss, CMTFState.trueLoss, CPState.trueSSE, CPState.trueSSE, hM.V,
    coupledErr_expanded hl hl' hm hU hM.tensor.shape h.shapeY h'.shapeY hM.factors hM.Y hM.Yrest,
    sqErr_congr_weights (w' := fun r => s.cp.dec.weights.get [r]) hM.weights, C132_error hM.tensor hm hU hl hl' hM.factors]

theorem cmtf_iteration_expanded {E : Ext} (hE : E.SVDOk) (hN : E.NNLSOk) {o : CPOpts}
    (hr : 0 < o.rank) {s s' : CMTFState} (h : s.Sized o.rank ms qs) (h' : s'.Sized o.rank ms qs)
    (hm : m < s.cp.X.shape.length) (hO : OrthoCols U n' (s.cp.X.shape.getD m 0)) (hM : s.Expanded U n' m o.rank ms qs s')
    (hU : s.Uncon o) (hU' : s'.Uncon o) (hp : s'.cp.prevSSE = s.cp.prevSSE) {t t' : CMTFState}
    (e : CMTF.iteration E o s = .ok t) (e' : CMTF.iteration E o s' = .ok t') :
    t.Expanded U n' m o.rank ms qs t' ∧ t'.cp.prevSSE = t.cp.prevSSE ∧ t'.cp.relChange = t.cp.relChange := by
  obtain ⟨s1, e1, h1, hs1, -⟩ := cmtf_updateModes_ok hE hN hr (List.range s.cp.X.shape.length) s h hU.cfg (by simp)
  obtain ⟨s1', e1', h1', hs1', -⟩ := cmtf_updateModes_ok hE hN hr (List.range s'.cp.X.shape.length) s' h' hU'.cfg (by simp)
  have hM1 := cmtf_updates_expanded hE _ h h' hm hO hM hU hU' (by simp) e1 (by rw [← hM.tensor.length]; exact e1')
  have hU1 : s1.Uncon o := hU.same hs1.X hs1.nonNeg hs1.orth
  have hU1' : s1'.Uncon o := hU'.same hs1'.X hs1'.nonNeg hs1'.orth
  obtain ⟨V, e2, h2, -⟩ := cmtf_uncoupled_ok hE h1 hU1.cfg
  obtain ⟨V', e2', h2', -⟩ := cmtf_uncoupled_ok hE h1' hU1'.cfg
  have hmap : s1'.map = s1.map := by rw [h1.map, h1'.map, hM1.modes]
  have hD := mapOk s1.modes
  rw [← h1.map] at hD
  have hm1 : m < s1.cp.X.shape.length := by rw [hs1.X]; exact hm
  have hO1 : OrthoCols U n' (s1.cp.X.shape.getD m 0) := by rw [hs1.X]; exact hO
  have hM2 := uncoupled_fold_expanded hE s1.map h1 h1' hm1 hO1 hM1 hU1.nonNeg hU1'.nonNeg
    (fun p hp => by
      obtain ⟨i, t, e, hi, -⟩ := hD.head hp
      exact ⟨i, t, e, hi⟩) e2 (by rw [← hmap]; exact e2')
  rw [CMTF.iteration, CMTF.updateFactors, e1, bind_ok, e2, bind_ok, CMTF.updateConvergence, cmtf_sse_ok h2, bind_ok] at e
  rw [CMTF.iteration, CMTF.updateFactors, e1', bind_ok, e2', bind_ok, CMTF.updateConvergence, cmtf_sse_ok h2', bind_ok] at e'
  have hl := trueLoss_expanded h2 h2' hm1 hO1 hM2
  rw [hl] at e'
  obtain rfl := Except.ok.inj e
  obtain rfl := Except.ok.inj e'
  refine ⟨⟨hM2.tensor, hM2.factors, hM2.weights, hM2.modes, hM2.V, hM2.Y, hM2.Yrest⟩, rfl, ?_⟩
  show FV.div (s1'.cp.prevSSE - _) s1'.cp.prevSSE = FV.div (s1.cp.prevSSE - _) s1.cp.prevSSE
  rw [hs1.prev, hs1'.prev, hp]

theorem cmtf_orbit_expanded {E : Ext} (hE : E.SVDOk) (hN : E.NNLSOk) {o : CPOpts}
    (hr : 0 < o.rank) {s s' : CMTFState} (h : s.Sized o.rank ms qs) (h' : s'.Sized o.rank ms qs)
    (hm : m < s.cp.X.shape.length) (hO : OrthoCols U n' (s.cp.X.shape.getD m 0)) (hM : s.Expanded U n' m o.rank ms qs s')
    (hU : s.Uncon o) (hU' : s'.Uncon o) (hp : s'.cp.prevSSE = s.cp.prevSSE) (hc : s'.cp.relChange = s.cp.relChange) (j : ℕ) :
    (CMTF.orbit E o s j).Expanded U n' m o.rank ms qs (CMTF.orbit E o s' j) ∧
      (CMTF.orbit E o s' j).cp.prevSSE = (CMTF.orbit E o s j).cp.prevSSE ∧
      (CMTF.orbit E o s' j).cp.relChange = (CMTF.orbit E o s j).cp.relChange := by
  induction j with
  | zero => exact ⟨hM, hp, hc⟩
  | succ j ih =>
    obtain ⟨g1, -, g3, g4, -⟩ := cmtf_orbit_good hE hN hr h hU.cfg j
    obtain ⟨g1', -, g3', g4', -⟩ := cmtf_orbit_good hE hN hr h' hU'.cfg j
    exact cmtf_iteration_expanded hE hN hr g1 g1' (by rw [g3.X]; exact hm) (by rw [g3.X]; exact hO) ih.1
      (hU.same g3.X g3.nonNeg g3.orth) (hU'.same g3'.X g3'.nonNeg g3'.orth) ih.2.1 g4 g4'

/-! ### normalisation -/

theorem colLen_expanded {F F' : NDArray ℝ} {n : ℕ} (hU : OrthoCols U n' n) (h : RowsExpanded U n' n R F F') {r : ℕ} (hr : r < R) :
    colLen F' n' r = colLen F n r := by
  rw [colLen, colLen]
  congr 1
  simp only [sq]
  rw [← hU.inner]
  exact Finset.sum_congr rfl fun i hi => by rw [h i (Finset.mem_range.1 hi) r hr]

theorem modeProd_agree {g : NDArray ℝ → ℕ → ℝ} : ∀ {fs fs' : List (NDArray ℝ)} {ns ns' : List ℕ}, fs'.length = fs.length →
    ns'.length = ns.length → (∀ (k : ℕ) F F' n n', fs[k]? = some F → fs'[k]? = some F' → ns[k]? = some n → ns'[k]? = some n' →
      g F' n' = g F n) → modeProd g fs' ns' = modeProd g fs ns
  | [], [], _, _, _, _, _ => rfl
  | f :: fs, f' :: fs', [], [], _, _, _ => rfl
  | f :: fs, f' :: fs', n :: ns, n' :: ns', h1, h2, h => by
    simp only [modeProd]
    rw [h 0 f f' n n' rfl rfl rfl rfl, modeProd_agree (by simpa using h1) (by simpa using h2)
      fun k F F' a a' e1 e2 e3 e4 => h (k + 1) F F' a a' e1 e2 e3 e4]

theorem normalised_expanded {sizes : List ℕ} {fs fs' : List (NDArray ℝ)} (hl : fs.length = sizes.length)
    (hl' : fs'.length = sizes.length) (hU : OrthoCols U n' (sizes.getD m 0)) (hm : m < sizes.length)
    (h : FactorsExpanded U n' (sizes.getD m 0) m R fs fs') (eps : ℝ) :
    FactorsExpanded U n' (sizes.getD m 0) m R (List.zipWith (fun F m => normMat F m R eps) fs sizes)
        (List.zipWith (fun F m => normMat F m R eps) fs' (sizes.set m n')) ∧
      ∀ r < R, modeProd (fun F m => colLen F m r) fs' (sizes.set m n') = modeProd (fun F m => colLen F m r) fs sizes := by
  have hFm := h.getD (by rw [hl]; exact hm) (by rw [hl']; exact hm)
  refine ⟨⟨fun k hk => ?_, fun F F' hF hF' => ?_⟩, fun r hr => ?_⟩
  · rw [List.getElem?_zipWith, List.getElem?_zipWith, h.rest k hk, List.getElem?_set, if_neg (Ne.symm hk)]
  · rw [List.getElem?_zipWith, List.getElem?_eq_getElem (by omega), List.getElem?_eq_getElem (by omega)] at hF
    rw [List.getElem?_zipWith, List.getElem?_eq_getElem (by omega), List.getElem?_set, if_pos rfl, if_pos hm] at hF'
    have hF := Option.some.inj hF
    have hF' := Option.some.inj hF'
    have e1 : sizes[m] = sizes.getD m 0 := by simp [List.getD, hm]
    have e2 : fs[m]'(by omega) = fs.getD m noArr := (getD_of_lt (by omega) noArr).symm
    have e3 : fs'[m]'(by omega) = fs'.getD m noArr := (getD_of_lt (by omega) noArr).symm
    rw [e1, e2] at hF
    rw [e3] at hF'
    subst hF hF'
    intro i hi r hr
    rw [normMat, normMat, get_ofMat hi hr, colLen_expanded hU hFm hr, hFm i hi r hr, Finset.sum_div]
    exact Finset.sum_congr rfl fun j hj => by rw [get_ofMat (Finset.mem_range.1 hj) hr, mul_div_assoc]
  · refine modeProd_agree (by omega) (by simp) fun k F F' n n'' e1 e2 e3 e4 => ?_
    by_cases hk : k = m
    · subst hk
      rw [List.getElem?_set, if_pos rfl, if_pos hm] at e4
      obtain rfl := Option.some.inj e4
      have : n = sizes.getD k 0 := by simp [List.getD, e3]
      rw [this]
      exact colLen_expanded hU (h.factor F F' e1 e2) hr
    · rw [h.rest k hk, e1] at e2
      rw [List.getElem?_set, if_neg (Ne.symm hk), e3] at e4
      rw [Option.some.inj e2, Option.some.inj e4]

theorem cmtf_normalize_expanded (h : s.Sized R ms qs) (h' : s'.Sized R ms qs) (hm : m < s.cp.X.shape.length)
    (hO : OrthoCols U n' (s.cp.X.shape.getD m 0)) (hM : s.Expanded U n' m R ms qs s') {eps : ℝ} {t t' : CMTFState}
    (e : CMTF.normalizeComponents s eps = .ok t) (e' : CMTF.normalizeComponents s' eps = .ok t') :
    t.Expanded U n' m R ms qs t' ∧ t.cp.relChange = s.cp.relChange ∧ t'.cp.relChange = s'.cp.relChange ∧
      t.cp.XNorm = s.cp.XNorm ∧ t'.cp.XNorm = s'.cp.XNorm := by
  have hX := hM.tensor
  have hl := h.cp.wf.factors.length_eq
  have hl' := h'.cp.wf.factors.length_eq
  rw [hX.length] at hl'
  obtain ⟨x, ex, hst, hXt, hYt, hmt, hd, hf, hV⟩ := cmtf_normalize_ok h eps
  rw [e] at ex
  obtain rfl := Except.ok.inj ex
  obtain ⟨x, ex, hst', hXt', hYt', hmt', hd', hf', hV'⟩ := cmtf_normalize_ok h' eps
  rw [e'] at ex
  obtain rfl := Except.ok.inj ex
  obtain ⟨v, ev, -, -, hw⟩ := normalizeComponents_ok h.cp.wf true eps
  rw [hd] at ev
  obtain rfl := Except.ok.inj ev
  obtain ⟨v, ev, -, -, hw'⟩ := normalizeComponents_ok h'.cp.wf true eps
  rw [hd'] at ev
  obtain rfl := Except.ok.inj ev
  obtain ⟨n1, n2⟩ := normalised_expanded hl hl' hO hm hM.factors eps
  have keep : ∀ {s t : CMTFState}, CMTF.normalizeComponents s eps = .ok t →
      t.cp.relChange = s.cp.relChange ∧ t.cp.XNorm = s.cp.XNorm := by
    intro s t e
    rw [CMTF.normalizeComponents] at e
    obtain ⟨Vs, -, e⟩ := bind_eq_ok.1 e
    obtain ⟨dec, -, e⟩ := bind_eq_ok.1 e
    rw [← pure_eq_ok.1 e]
    exact ⟨rfl, rfl⟩
  refine ⟨⟨by rw [hXt, hXt']; exact hX, by rw [hXt, hf, hf', hX.shape]; exact n1, fun r hr => ?_, by rw [hmt, hmt', hM.modes], ?_,
    by rw [hXt, hYt, hYt']; exact hM.Y, by rw [hYt, hYt']; exact hM.Yrest⟩, (keep e).1, (keep e').1, (keep e).2, (keep e').2⟩
  · rw [hw r hr, hw' r hr, hM.weights r hr, if_pos rfl, if_pos rfl, hX.shape, n2 r hr]
  · refine List.ext_getElem (by rw [hst.lenV, hst'.lenV]) fun i i1 i2 => ?_
    have hi : i < ms.length := by rw [← hst.lenV]; exact i2
    rw [← getD_of_lt i1 noArr, ← getD_of_lt i2 noArr, hV i hi, hV' i hi, hM.V, scaledBy, scaledBy]
    refine ofMat_congr fun j hj r hr => ?_
    congr 1
    by_cases ei : ms.getD i 0 = m
    · rw [ei, hX.getD hm]
      exact colLen_expanded hO (hM.factors.getD (by rw [hl]; exact hm) (by rw [hl']; exact hm)) hr
    · rw [hX.getD_ne ei, getD_of_getElem? (hM.factors.rest _ ei)]

/-! ### whole fits -/

/-- C132 for coupled problems without constraints and penalties. The matrix `U` has orthonormal columns; the second problem is the
first one with mode `m` of the tensor, the matrices coupled to mode `m` and the initial factor matrix of mode `m` multiplied by `U`.
Both fits make the same number of iterations, end with the same error, the same relative change and the same verdict of the stopping
test, with the same right factors, weights and factor matrices of the other modes, and the factor matrix of mode `m` of the second
is `U` times that of the first. -/
theorem C132_cmtf {E : Ext} (hE : E.SVDOk) (hN : E.NNLSOk) (hQ : E.QROk) {c : CMTF.Config} {X X' : NDArray ℝ}
    (hA : CP.Admissible c.cp.opts none none X.shape) (hridge : c.cp.opts.ridgePenalties = none)
    {Ys Ys' : List (NDArray ℝ)} {modes : List Int} {ms qs : List ℕ}
    (hY : CMTF.Coupled X.shape Ys modes ms qs) (hY' : CMTF.Coupled X'.shape Ys' modes ms qs)
    (hlog : c.Measurable ms qs) (hfreq : freqOption c.cp.freq ≠ 0) {arg arg' : InitArg KruskalTensor} {t t' : KruskalTensor}
    (hi : CP.StartsFrom E c.cp none none arg X t) (hi' : CP.StartsFrom E c.cp none none arg' X' t')
    (ht : t.WF X.shape c.cp.opts.rank) (ht' : t'.WF X'.shape c.cp.opts.rank)
    (hm : m < X.shape.length) (hU : OrthoCols U n' (X.shape.getD m 0)) (hX : Expanded U n' m X X')
    (hF : FactorsExpanded U n' (X.shape.getD m 0) m c.cp.opts.rank t.factorMatrices t'.factorMatrices)
    (hYm : ∀ i < ms.length, ms.getD i 0 = m →
      RowsExpanded U n' (X.shape.getD m 0) (qs.getD i 0) (Ys.getD i noArr) (Ys'.getD i noArr))
    (hYr : ∀ i < ms.length, ms.getD i 0 ≠ m → Ys'.getD i noArr = Ys.getD i noArr)
    {budget : Int} {mi : Option Int} (hb : 0 < mi.getD budget) {loggers : List Logger} {file : Option H5File}
    (hS : Storing (CMTF.method E c) (CMTF.newObject none none budget loggers file) []) :
    ∃ w w', CMTF.fit E c X Ys modes mi arg (CMTF.newObject none none budget loggers file) = .ok () w ∧
      CMTF.fit E c X' Ys' modes mi arg' (CMTF.newObject none none budget loggers file) = .ok () w' ∧
      FactorsExpanded U n' (X.shape.getD m 0) m c.cp.opts.rank w.st.cp.dec.factorMatrices w'.st.cp.dec.factorMatrices ∧
      w'.st.V = w.st.V ∧ (∀ r < c.cp.opts.rank, w'.st.cp.dec.weights.get [r] = w.st.cp.dec.weights.get [r]) ∧
      w'.it = w.it ∧ CMTF.sse w'.st = CMTF.sse w.st ∧ w'.st.cp.relChange = w.st.cp.relChange ∧
      CMTF.shouldStop c.cp.opts w'.st = CMTF.shouldStop c.cp.opts w.st := by
  have hA' : CP.Admissible c.cp.opts none none X'.shape := by rw [hX.shape]; exact hA.expanded hm hU rfl
  obtain ⟨u, s, sk, w, k, h0, h1, h2, h3, h4, h5, h6, h7, h8, h9, h10, h11, -, h13, -⟩ :=
    C83_fit_completes hE hN hQ hA (by simp) hY hlog hfreq hi ht hb hS
  obtain ⟨u', s', sk', w', k', h0', h1', h2', h3', h4', h5', h6', h7', h8', h9', h10', h11', -, h13', -⟩ :=
    C83_fit_completes hE hN hQ hA' (by simp) hY' hlog hfreq hi' ht' hb hS
  have hr := hA.rank
  have hUn := h0.uncon hA hridge
  have hUn' := h0'.uncon hA' hridge
  have hsz := h0.sized
  have hsz' := h0'.sized
  have hX0 := h0.eqX
  have hX0' := h0'.eqX
  have hms : m < s.cp.X.shape.length := by rw [hX0]; exact hm
  have hUs : OrthoCols U n' (s.cp.X.shape.getD m 0) := by rw [hX0]; exact hU
  -- the start
  have hFu : FactorsExpanded U n' (X.shape.getD m 0) m c.cp.opts.rank u.factorMatrices u'.factorMatrices := by
    rw [h0.same rfl, h0'.same rfl]; exact hF
  have hl := h0.wf.factors.length_eq
  have hl' := h0'.wf.factors.length_eq
  rw [hX.length] at hl'
  obtain ⟨n1, n2⟩ := normalised_expanded hl hl' hU hm hFu 1e-15
  obtain ⟨v, ev, -, hfv, hwv⟩ := normalizeComponents_ok h0.wf true 1e-15
  rw [h0.normalised] at ev
  have ev := Except.ok.inj ev
  subst ev
  obtain ⟨v, ev, -, hfv', hwv'⟩ := normalizeComponents_ok h0'.wf true 1e-15
  rw [h0'.normalised] at ev
  have ev := Except.ok.inj ev
  subst ev
  have hV : s'.V = s.V := by
    refine List.ext_getElem (by rw [hsz.lenV, hsz'.lenV]) fun i i1 i2 => ?_
    have hi : i < ms.length := by rw [← hsz.lenV]; exact i2
    rw [← getD_of_lt i1 noArr, ← getD_of_lt i2 noArr, h0.V i hi, h0'.V i hi]
  have hM : s.Expanded U n' m c.cp.opts.rank ms qs s' := by
    refine ⟨by rw [hX0, hX0']; exact hX, by rw [hX0, hfv, hfv', hX.shape]; exact n1, fun r hr => ?_,
      by rw [h0.eqModes, h0'.eqModes], hV, by rw [hX0, h0.eqYs, h0'.eqYs]; exact hYm, by rw [h0.eqYs, h0'.eqYs]; exact hYr⟩
    rw [hwv r hr, hwv' r hr, h0.weights r hr, h0'.weights r hr, if_pos rfl, if_pos rfl, hX.shape, n2 r hr]
  have hprev : s'.cp.prevSSE = s.cp.prevSSE := by
    rw [h0.prev, h0'.prev, hV, C132_error hX hm hU hl hl' hFu,
      coupledErr_expanded hl hl' hm hU hX.shape hY.shapeY hY'.shapeY hFu hYm hYr]
  have hrel : s'.cp.relChange = s.cp.relChange := by rw [h0.rel, h0'.rel]
  have hnorm : s'.cp.XNorm ^ 2 = s.cp.XNorm ^ 2 := by
    rw [h0.eqNorm, h0'.eqNorm, frobNorm_sq, frobNorm_sq, hX.sumSq hm hU]
  -- the iterations
  have horb := cmtf_orbit_expanded hE hN hr hsz hsz' hms hUs hM hUn hUn' hprev hrel
  have hgood := cmtf_orbit_good hE hN hr hsz hUn.cfg
  have hgood' := cmtf_orbit_good hE hN hr hsz' hUn'.cfg
  have hmj : ∀ j, m < (CMTF.orbit E c.cp.opts s j).cp.X.shape.length := fun j => by rw [(hgood j).2.2.1.X]; exact hms
  have hUj : ∀ j, OrthoCols U n' ((CMTF.orbit E c.cp.opts s j).cp.X.shape.getD m 0) := fun j => by
    rw [(hgood j).2.2.1.X]; exact hUs
  have hstop : ∀ j, CMTF.shouldStop c.cp.opts (CMTF.orbit E c.cp.opts s' j)
      = CMTF.shouldStop c.cp.opts (CMTF.orbit E c.cp.opts s j) := by
    intro j
    rw [CMTF.shouldStop, CMTF.shouldStop, cmtf_sse_ok (hgood j).1, cmtf_sse_ok (hgood' j).1, bind_ok, bind_ok, (horb j).2.2,
      trueLoss_expanded (hgood j).1 (hgood' j).1 (hmj j) (hUj j) (horb j).1, (hgood j).2.2.1.XNorm, (hgood' j).2.2.1.XNorm, hnorm]
  have hit := fun j => cmtf_orbit_iterate hE hN hr j hsz hUn.cfg
  have hit' := fun j => cmtf_orbit_iterate hE hN hr j hsz' hUn'.cfg
  have hgo : ∀ j < k, CMTF.shouldStop c.cp.opts (CMTF.orbit E c.cp.opts s j) = .ok false := by
    intro j hj
    obtain ⟨x, r1, r2⟩ := h6 j hj
    rw [hit j] at r1
    rw [Except.ok.inj r1]; exact r2
  have hgo' : ∀ j < k', CMTF.shouldStop c.cp.opts (CMTF.orbit E c.cp.opts s' j) = .ok false := by
    intro j hj
    obtain ⟨x, r1, r2⟩ := h6' j hj
    rw [hit' j] at r1
    rw [Except.ok.inj r1]; exact r2
  have hsk : sk = CMTF.orbit E c.cp.opts s k := by rw [hit k] at h4; exact (Except.ok.inj h4).symm
  have hsk' : sk' = CMTF.orbit E c.cp.opts s' k' := by rw [hit' k'] at h4'; exact (Except.ok.inj h4').symm
  obtain rfl : k' = k := by
    rcases lt_trichotomy k' k with hlt | heq | hlt
    · have := h7' (by omega)
      rw [hsk', hstop, hgo k' hlt] at this
      cases this
    · exact heq
    · have := h7 (by omega)
      rw [hsk, ← hstop, hgo' k hlt] at this
      cases this
  -- the final normalisation
  have hMk : sk.Expanded U n' m c.cp.opts.rank ms qs sk' := by rw [hsk, hsk']; exact (horb k').1
  obtain ⟨m1, m2, m3, m4, m5⟩ := cmtf_normalize_expanded h8 h8' (by rw [hsk]; exact hmj k') (by rw [hsk]; exact hUj k') hMk h5 h5'
  have hloss := trueLoss_expanded h9 h9' (by rw [h10]; exact hm) (by rw [h10]; exact hU) m1
  have hrc : w'.st.cp.relChange = w.st.cp.relChange := by rw [m2, m3, hsk, hsk', (horb k').2.2]
  refine ⟨w, w', h1, h1', by have := m1.factors; rwa [h10] at this, m1.V, m1.weights, by rw [h3, h3'], by rw [h13, h13', hloss],
    hrc, ?_⟩
  rw [CMTF.shouldStop, CMTF.shouldStop, h13, h13', bind_ok, bind_ok, hloss, hrc, m4, m5, hsk, hsk', (hgood k').2.2.1.XNorm,
    (hgood' k').2.2.1.XNorm, hnorm]

/-- The hypotheses of `C132_cmtf` for a tensor with one row `x`, a matrix with one row `y` coupled to its first mode and a matrix `z`
coupled to its second mode (given as `-1`); the rows of the expanded problem are `3/5` and `4/5` times those rows. -/
example {E : Ext} (hE : E.SVDOk) (hN : E.NNLSOk) (hQ : E.QROk) (x y f : ℕ → ℝ) (z g : ℕ → ℕ → ℝ) (d : ℕ → ℕ → ℕ → ℝ) (budget : Int)
    (hb : 0 < budget) :
    ∃ w w', CMTF.fit E (coupledConfig d) (ofMat 1 2 fun _ j => x j) [ofMat 1 3 fun _ j => y j, ofMat 2 2 z] [0, -1] (some budget)
        (.tensor ⟨2, [ofMat 1 2 fun _ r => f r, ofMat 2 2 g], full [2] 1⟩) (CMTF.newObject none none budget [] none) = .ok () w ∧
      CMTF.fit E (coupledConfig d) (ofMat 2 2 fun i j => (if i = 0 then 3 / 5 else 4 / 5) * x j)
        [ofMat 2 3 fun i j => (if i = 0 then 3 / 5 else 4 / 5) * y j, ofMat 2 2 z] [0, -1] (some budget)
        (.tensor ⟨2, [ofMat 2 2 fun i r => (if i = 0 then 3 / 5 else 4 / 5) * f r, ofMat 2 2 g], full [2] 1⟩)
        (CMTF.newObject none none budget [] none) = .ok () w' ∧
      w'.st.V = w.st.V ∧ CMTF.sse w'.st = CMTF.sse w.st ∧ w'.it = w.it := by
  have ht : KruskalTensor.WF ⟨2, [ofMat 1 2 fun _ r => f r, ofMat 2 2 g], full [2] 1⟩ [1, 2] 2 :=
    ⟨rfl, .cons rfl (.cons rfl .nil), rfl⟩
  have ht' : KruskalTensor.WF ⟨2, [ofMat 2 2 fun i r => (if i = 0 then 3 / 5 else 4 / 5) * f r, ofMat 2 2 g], full [2] 1⟩ [2, 2] 2 :=
    ⟨rfl, .cons rfl (.cons rfl .nil), rfl⟩
  have hrow : ∀ (q : ℕ) (v : ℕ → ℝ), RowsExpanded unitCol 2 1 q (ofMat 1 q fun _ j => v j)
      (ofMat 2 q fun i j => (if i = 0 then 3 / 5 else 4 / 5) * v j) := by
    intro q v i hi j hj
    rw [Finset.sum_range_one, get_ofMat hi hj, get_ofMat (by omega) hj, unitCol, get_ofMat hi (by omega)]
  have hc : CMTF.Coupled [1, 2] [ofMat 1 3 fun _ j => y j, ofMat 2 2 z] [0, -1] [0, 1] [3, 2] := by
    refine ⟨.cons ⟨show 0 < 2 by decide, Or.inl rfl⟩ (.cons ⟨show 1 < 2 by decide, Or.inr rfl⟩ .nil), rfl, fun i hi => ?_⟩
    have : i < 2 := hi
    interval_cases i <;> rfl
  obtain ⟨w, w', h1, h2, -, h4, -, h6, h7, -⟩ := C132_cmtf hE hN hQ (c := coupledConfig d) (X := ofMat 1 2 fun _ j => x j)
    (X' := ofMat 2 2 fun i j => (if i = 0 then 3 / 5 else 4 / 5) * x j) (U := unitCol) (n' := 2) (m := 0)
    ⟨show 0 < 2 by decide, by simp, by simp, by simp, by simp, by simp [coupledConfig, pairConfig], by simp, by simp⟩ rfl hc
    (coupled_two _ (fun i j => (if i = 0 then 3 / 5 else 4 / 5) * y j) z) (coupled_measurable _ _ _)
    (show freqOption none ≠ 0 by decide) (startsFrom_precomputed pair_init ht) (startsFrom_precomputed pair_init ht') ht ht'
    (by simp) orthoCols_unitCol
    ⟨rfl, fun idx hv i hi => by
      have hv : Valid [2] idx := hv
      match idx, hv with
      | [j], hv => exact hrow 2 x i hi j hv.1⟩
    ⟨fun k hk => by
      match k, hk with
      | 1, _ => rfl
      | k + 2, _ => rfl,
     fun F F' hF hF' => by
      obtain rfl := Option.some.inj hF
      obtain rfl := Option.some.inj hF'
      exact hrow 2 f⟩
    (fun i hi e => by
      have hi : i < 2 := hi
      interval_cases i
      · exact hrow 3 y
      · exact absurd e (by decide))
    (fun i hi e => by
      have hi : i < 2 := hi
      interval_cases i
      · exact absurd rfl e
      · rfl) (mi := some budget) hb (coupled_storing E d _)
  exact ⟨w, w', h1, h2, h4, h7, h6⟩

end
end TK
