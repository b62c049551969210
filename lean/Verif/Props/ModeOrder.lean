import Verif.Props.CoupledOrder
import Verif.Props.CoreInvariance
import Verif.Props.Stopping
import Verif.Props.Reload
import Verif.Props.Fms
import Verif.Props.Scores

/-!
# The order of the modes (C130)
-/

namespace TK
open NDArray

noncomputable section

/-! ### products and sums over the modes -/

theorem prod_move {β : Type*} [CommMonoid β] {σ : Equiv.Perm ℕ} {n : ℕ} (h : ∀ i, σ i < n ↔ i < n) (f : ℕ → β) :
    ∏ i ∈ Finset.range n, f (σ i) = ∏ i ∈ Finset.range n, f i :=
  Finset.prod_equiv σ (fun i => by simp [h]) fun _ _ => rfl

theorem rankOne_prod_modes {fs : List (NDArray ℝ)} {idx : List ℕ} (r : ℕ) (h : idx.length = fs.length) :
    rankOne fs idx r = ∏ k ∈ Finset.range fs.length, (fs.getD k noArr).get [idx.getD k 0, r] := by
  induction fs generalizing idx with
  | nil => cases idx with
    | nil => rfl
    | cons => simp at h
  | cons F fs ih => cases idx with
    | nil => simp at h
    | cons i idx =>
      rw [rankOne, ih (by simpa using h), List.length_cons, Finset.prod_range_succ', mul_comm]
      rfl

theorem modeProd_eq_prod (g : NDArray ℝ → ℕ → ℝ) {fs : List (NDArray ℝ)} {sizes : List ℕ} (h : sizes.length = fs.length) :
    modeProd g fs sizes = ∏ k ∈ Finset.range fs.length, g (fs.getD k noArr) (sizes.getD k 0) := by
  induction fs generalizing sizes with
  | nil => cases sizes with
    | nil => rfl
    | cons => simp at h
  | cons F fs ih => cases sizes with
    | nil => simp at h
    | cons n sizes =>
      rw [modeProd, ih (by simpa using h), List.length_cons, Finset.prod_range_succ', mul_comm]
      rfl

theorem congruenceProd_eq_prod (eps : ℝ) (r s : ℕ) {a b : List (NDArray ℝ)} {sizes : List ℕ} (ha : a.length = sizes.length)
    (hb : b.length = sizes.length) :
    congruenceProd eps r s a b sizes
      = ∏ k ∈ Finset.range sizes.length, congruence eps (a.getD k noArr) (b.getD k noArr) (sizes.getD k 0) r s := by
  induction sizes generalizing a b with
  | nil =>
    obtain rfl := List.length_eq_zero_iff.1 ha
    obtain rfl := List.length_eq_zero_iff.1 hb
    rfl
  | cons n sizes ih =>
    obtain ⟨F, a, rfl⟩ := List.exists_cons_of_length_eq_add_one ha
    obtain ⟨G, b, rfl⟩ := List.exists_cons_of_length_eq_add_one hb
    rw [congruenceProd, ih (by simpa using ha) (by simpa using hb), List.length_cons, Finset.prod_range_succ', mul_comm]
    rfl

variable {τ : Equiv.Perm ℕ}

theorem rankOne_listed {fs' fs : List (NDArray ℝ)} {idx' idx : List ℕ} (hf : Listed τ fs' fs) (hl : fs'.length = fs.length)
    (hi : Listed τ idx' idx) (hidx : idx.length = fs.length) (r : ℕ) : rankOne fs' idx' r = rankOne fs idx r := by
  have hp := listed_lt hf hl
  have hidx' : idx'.length = fs'.length := by rw [hi.length (by rwa [hidx]), hidx, hl]
  rw [rankOne_prod_modes r hidx', rankOne_prod_modes r hidx, hl]
  refine Eq.trans ?_ (prod_move hp _)
  exact Finset.prod_congr rfl fun k _ => by rw [hf.getD, hi.getD]

theorem modeProd_listed (g : NDArray ℝ → ℕ → ℝ) {fs' fs : List (NDArray ℝ)} {sizes' sizes : List ℕ} (hf : Listed τ fs' fs)
    (hl : fs'.length = fs.length) (hi : Listed τ sizes' sizes) (hs : sizes.length = fs.length) :
    modeProd g fs' sizes' = modeProd g fs sizes := by
  have hp := listed_lt hf hl
  have hs' : sizes'.length = fs'.length := by rw [hi.length (by rwa [hs]), hs, hl]
  rw [modeProd_eq_prod g hs', modeProd_eq_prod g hs, hl]
  refine Eq.trans ?_ (prod_move hp _)
  exact Finset.prod_congr rfl fun k _ => by rw [hf.getD, hi.getD]

theorem congruenceProd_listed (eps : ℝ) (r s : ℕ) {a' a b' b : List (NDArray ℝ)} {sizes' sizes : List ℕ}
    (hs : Listed τ sizes' sizes) (hl : sizes'.length = sizes.length) (ha : Listed τ a' a) (hb : Listed τ b' b)
    (hal : a.length = sizes.length) (hbl : b.length = sizes.length) :
    congruenceProd eps r s a' b' sizes' = congruenceProd eps r s a b sizes := by
  have hp := listed_lt hs hl
  have ha' : a'.length = sizes'.length := by rw [ha.length (by rwa [hal]), hal, hl]
  have hb' : b'.length = sizes'.length := by rw [hb.length (by rwa [hbl]), hbl, hl]
  rw [congruenceProd_eq_prod eps r s ha' hb', congruenceProd_eq_prod eps r s hal hbl, hl]
  refine Eq.trans ?_ (prod_move hp _)
  exact Finset.prod_congr rfl fun k _ => by rw [ha.getD, hb.getD, hs.getD]

theorem valid_iff_getD {s idx : List ℕ} : Valid s idx ↔ idx.length = s.length ∧ ∀ k < s.length, idx.getD k 0 < s.getD k 0 := by
  induction s generalizing idx with
  | nil => cases idx <;> simp [Valid]
  | cons n s ih => cases idx with
    | nil => simp [Valid]
    | cons i idx =>
      constructor
      · rintro ⟨h1, h2⟩
        obtain ⟨h3, h4⟩ := ih.1 h2
        refine ⟨by simp [h3], fun k hk => ?_⟩
        cases k with
        | zero => exact h1
        | succ k => exact h4 k (by simpa using hk)
      · rintro ⟨h1, h2⟩
        exact ⟨h2 0 (by simp), ih.2 ⟨by simpa using h1, fun k hk => h2 (k + 1) (by simpa using hk)⟩⟩

theorem listed_reorder {β : Type} {d : β} {l : List β} {n : ℕ} (h : l.length = n) (hp : ∀ i, τ i < n ↔ i < n) :
    Listed τ (reorder τ n d l) l := listed_of_getD length_reorder h hp fun _ hi => getD_reorder hi

theorem Listed.symm {β : Type} {l' l : List β} (h : Listed τ l' l) : Listed τ.symm l l' := fun i => by
  rw [h, Equiv.apply_symm_apply]

theorem Listed.eq {β : Type} {l₁ l₂ l : List β} (h₁ : Listed τ l₁ l) (h₂ : Listed τ l₂ l) : l₁ = l₂ :=
  List.ext_getElem? fun i => by rw [h₁, h₂]

theorem valid_listed {s' s idx' idx : List ℕ} (hs : Listed τ s' s) (hl : s'.length = s.length) (hi : Listed τ idx' idx)
    (hv : Valid s idx) : Valid s' idx' := by
  have hp := listed_lt hs hl
  rw [valid_iff_getD] at hv ⊢
  refine ⟨by rw [hi.length (by rwa [hv.1]), hv.1, hl], fun k hk => ?_⟩
  rw [hi.getD, hs.getD]
  exact hv.2 _ ((hp k).2 (hl ▸ hk))

/-- A sum over the indices of a shape may be taken over the indices of the shape in another order. -/
theorem sumIdx_listed {s' s : List ℕ} (hs : Listed τ s' s) (hl : s'.length = s.length) {f' f : List ℕ → ℝ}
    (hf : ∀ idx idx', Valid s idx → Listed τ idx' idx → f' idx' = f idx) : sumIdx s' f' = sumIdx s f := by
  have hp := listed_lt hs hl
  have hp' : ∀ i, τ.symm i < s.length ↔ i < s.length := fun i => by rw [← hp, Equiv.apply_symm_apply]
  have e' := sum_range_prod s' fun p => f' (unravel s' p)
  have e := sum_range_prod s fun p => f (unravel s p)
  rw [sumIdx_congr fun idx hv => by rw [unravel_ravel hv]] at e' e
  rw [← e', ← e]
  have fwd : ∀ {idx}, Valid s idx → Valid s' (reorder τ s.length 0 idx) := fun {idx} hv =>
    valid_listed hs hl (listed_reorder hv.length_eq hp) hv
  have bwd : ∀ {idx}, Valid s' idx → Valid s (reorder τ.symm s.length 0 idx) := fun {idx} hv =>
    valid_listed hs.symm hl.symm (listed_reorder (hv.length_eq.trans hl) hp') hv
  refine (Finset.sum_bij' (fun p _ => ravel s' (reorder τ s.length 0 (unravel s p)))
    (fun p _ => ravel s (reorder τ.symm s.length 0 (unravel s' p))) ?_ ?_ ?_ ?_ ?_).symm
  · intro p h
    exact Finset.mem_range.2 (ravel_lt (fwd (unravel_valid (Finset.mem_range.1 h))))
  · intro p h
    exact Finset.mem_range.2 (ravel_lt (bwd (unravel_valid (Finset.mem_range.1 h))))
  · intro p h
    have hv := unravel_valid (Finset.mem_range.1 h)
    have hL := listed_reorder (d := 0) hv.length_eq hp
    rw [unravel_ravel (fwd hv), Listed.eq (listed_reorder (length_reorder) hp') hL.symm, ravel_unravel (Finset.mem_range.1 h)]
  · intro p h
    have hv := unravel_valid (Finset.mem_range.1 h)
    have hL := listed_reorder (d := 0) (hv.length_eq.trans hl) hp'
    rw [unravel_ravel (bwd hv)]
    have := hL.symm
    rw [Equiv.symm_symm] at this
    rw [Listed.eq (listed_reorder (length_reorder) hp) this, ravel_unravel (Finset.mem_range.1 h)]
  · intro p h
    have hv := unravel_valid (Finset.mem_range.1 h)
    rw [unravel_ravel (fwd hv)]
    exact (hf _ _ hv (listed_reorder hv.length_eq hp)).symm

theorem cpEntry_listed (w : ℕ → ℝ) {fs' fs : List (NDArray ℝ)} {idx' idx : List ℕ} (hf : Listed τ fs' fs)
    (hl : fs'.length = fs.length) (hi : Listed τ idx' idx) (hidx : idx.length = fs.length) (R : ℕ) :
    cpEntry w fs' R idx' = cpEntry w fs R idx :=
  Finset.sum_congr rfl fun r _ => by rw [rankOne_listed hf hl hi hidx]

/-! ### what the properties say -/

/-- `X'` is the array `X` with its modes in the order `τ`. -/
structure Transposed (τ : Equiv.Perm ℕ) (X' X : NDArray ℝ) : Prop where
  length : X'.shape.length = X.shape.length
  shape : Listed τ X'.shape X.shape
  entry : ∀ idx idx', Valid X.shape idx → Listed τ idx' idx → X'.get idx' = X.get idx

/-- **C130.** The tensor of a model whose factor matrices are listed in another order is the tensor of the model with its modes in
that order. Missing: the models of two fits (`C130_fails`). -/
theorem C130_tensor_partial {t' t : KruskalTensor} {sizes' sizes : List ℕ} {R : ℕ} (h' : t'.WF sizes' R) (h : t.WF sizes R)
    (h2 : 2 ≤ sizes.length) (hl : sizes'.length = sizes.length) (hf : Listed τ t'.factorMatrices t.factorMatrices)
    (hs : Listed τ sizes' sizes) (hw : t'.weights = t.weights) :
    ∃ X' X, t'.constructTensor = .ok X' ∧ t.constructTensor = .ok X ∧ X.shape = sizes ∧ Transposed τ X' X := by
  have n' := h'.factors.length_eq
  have n := h.factors.length_eq
  refine ⟨_, _, constructTensor_eq h' (by omega), constructTensor_eq h h2, rfl, hl, hs, fun idx idx' hv hi => ?_⟩
  have hv : Valid sizes idx := hv
  rw [get_ofFn (valid_listed hs hl hi hv), get_ofFn hv, hw]
  exact cpEntry_listed _ hf (by omega) hi (by rw [hv.length_eq, n]) R

/-- **C130.** The squared error of a model of data with the modes in another order. -/
theorem C130_error {X' X : NDArray ℝ} (hX : Transposed τ X' X) {fs' fs : List (NDArray ℝ)} (hf : Listed τ fs' fs)
    (hl : fs'.length = fs.length) (hn : fs.length = X.shape.length) (w : ℕ → ℝ) (R : ℕ) :
    sqErr X' w fs' R = sqErr X w fs R ∧ sumSq X' = sumSq X := by
  constructor
  · refine sumIdx_listed hX.shape hX.length fun idx idx' hv hi => ?_
    rw [hX.entry idx idx' hv hi, cpEntry_listed w hf hl hi (by rw [hv.length_eq, hn])]
  · exact sumIdx_listed hX.shape hX.length fun idx idx' hv hi => by rw [hX.entry idx idx' hv hi]

/-- **C130.** The factor match score, the best assignment included, does not depend on the order of the modes. -/
theorem C130_fms {eps : ℝ} (he : 0 < eps) {a' a b' b : List (NDArray ℝ)} {sizes' sizes : List ℕ} {R R' : ℕ} (hR : 0 < R)
    (ha' : Factors a' sizes' R) (hb' : Factors b' sizes' R') (ha : Factors a sizes R) (hb : Factors b sizes R')
    (hne : sizes ≠ []) (hl : sizes'.length = sizes.length) (hs : Listed τ sizes' sizes) (hla : Listed τ a' a)
    (hlb : Listed τ b' b) (useMin penalty : Bool) :
    factorMatchScore a' b' penalty (redName useMin) eps = factorMatchScore a b penalty (redName useMin) eps := by
  have hne' : sizes' ≠ [] := by
    rintro rfl
    exact hne (List.length_eq_zero_iff.1 hl.symm)
  have na := ha.length_eq
  have nb := hb.length_eq
  have na' := ha'.length_eq
  have nb' := hb'.length_eq
  have ca : ∀ r, compSize a' sizes' r = compSize a sizes r := fun r => modeProd_listed _ hla (by omega) hs na.symm
  have cb : ∀ r, compSize b' sizes' r = compSize b sizes r := fun r => modeProd_listed _ hlb (by omega) hs nb.symm
  have cc : ∀ r s, congruenceProd eps r s a' b' sizes' = congruenceProd eps r s a b sizes := fun r s =>
    congruenceProd_listed eps r s hs hl hla hlb na nb
  rw [factorMatchScore_eq he hR ha hb hne, factorMatchScore_eq he hR ha' hb' hne']
  refine bestPerm_congr fun π _ => congrArg Except.ok ?_
  have h1 : ∀ r s, nanMatch penalty a' b' sizes' r s = nanMatch penalty a b sizes r s := fun r s => by
    rw [nanMatch, nanMatch, ca, cb]
  have h2 : assignScore useMin penalty eps a' b' sizes' R π = assignScore useMin penalty eps a b sizes R π := by
    refine redVal_congr fun r _ => ?_
    rw [compMatch, compMatch, ca, cb, cc]
  have h3 : (∃ r < R, nanMatch penalty a' b' sizes' r (π.getD r 0)) ↔ ∃ r < R, nanMatch penalty a b sizes r (π.getD r 0) := by
    simp only [h1]
  by_cases hn : ∃ r < R, nanMatch penalty a b sizes r (π.getD r 0)
  · rw [assignScoreO, assignScoreO, if_pos hn, if_pos (h3.2 hn)]
  · rw [assignScoreO, assignScoreO, if_neg hn, if_neg (fun k => hn (h3.1 k)), h2]

/-- **C130.** The degeneracy scores do not depend on the order of the modes. -/
theorem C130_degeneracy {t' t : KruskalTensor} {sizes' sizes : List ℕ} {R : ℕ} (h' : t'.WF sizes' R) (h : t.WF sizes R)
    (h0' : NoZeroColumn t'.factorMatrices sizes' R) (h0 : NoZeroColumn t.factorMatrices sizes R)
    (hl : sizes'.length = sizes.length) (hf : Listed τ t'.factorMatrices t.factorMatrices) (hs : Listed τ sizes' sizes) :
    ∃ D' D, t'.degeneracy = .ok D' ∧ t.degeneracy = .ok D ∧ D'.shape = D.shape ∧
      ∀ r < R, ∀ s < R, D'.get [r, s] = D.get [r, s] := by
  have n' := h'.factors.length_eq
  have n := h.factors.length_eq
  obtain ⟨D', e', k'⟩ := C65_kruskal h' h0'
  obtain ⟨D, e, k⟩ := C65_kruskal h h0
  refine ⟨D', D, e', e, by rw [k'.shape, k.shape], fun r hr s hs' => ?_⟩
  rw [k'.entry r hr s hs', k.entry r hr s hs']
  congr 1
  exact modeProd_listed _ hf (by omega) hs n.symm

/-! ### updates -/

theorem gramProd_eraseIdx_eq (a b : ℕ) (fs : List (NDArray ℝ)) (m : ℕ) :
    gramProd (fs.eraseIdx m) a b = ∏ k ∈ Finset.range fs.length, if k = m then 1 else gramEntry (fs.getD k noArr) a b := by
  induction fs generalizing m with
  | nil => simp [gramProd]
  | cons F fs ih =>
    rw [List.length_cons, Finset.prod_range_succ']
    cases m with
    | zero =>
      rw [List.eraseIdx_cons_zero, if_pos rfl, mul_one]
      clear ih
      induction fs with
      | nil => simp [gramProd]
      | cons G fs ih =>
        have e : gramProd (G :: fs) a b = gramEntry G a b * gramProd fs a b := by simp [gramProd]
        rw [e, ih, List.length_cons, Finset.prod_range_succ', mul_comm]
        simp
    | succ m =>
      have e : gramProd (F :: fs.eraseIdx m) a b = gramEntry F a b * gramProd (fs.eraseIdx m) a b := by simp [gramProd]
      rw [List.eraseIdx_cons_succ, e, ih, mul_comm]
      simp

theorem rankOne_eraseIdx_eq (r : ℕ) {fs : List (NDArray ℝ)} {idx : List ℕ} (h : idx.length = fs.length) (m : ℕ) :
    rankOne (fs.eraseIdx m) (idx.eraseIdx m) r
      = ∏ k ∈ Finset.range fs.length, if k = m then 1 else (fs.getD k noArr).get [idx.getD k 0, r] := by
  induction fs generalizing idx m with
  | nil => cases idx with
    | nil => rfl
    | cons => simp at h
  | cons F fs ih => cases idx with
    | nil => simp at h
    | cons i idx =>
      have h : idx.length = fs.length := by simpa using h
      rw [List.length_cons, Finset.prod_range_succ']
      cases m with
      | zero =>
        rw [List.eraseIdx_cons_zero, List.eraseIdx_cons_zero, rankOne_prod_modes r h, if_pos rfl, mul_one]
        simp
      | succ m =>
        rw [List.eraseIdx_cons_succ, List.eraseIdx_cons_succ, rankOne, ih h, mul_comm]
        simp

/-- An entry of the right-hand side as a sum over all indices. -/
theorem mttkrpEntry_eq_full {X : NDArray ℝ} {fs : List (NDArray ℝ)} {m i r : ℕ} (hl : fs.length = X.shape.length)
    (hm : m < X.shape.length) (hi : i < X.shape.getD m 0) :
    mttkrpEntry X fs m i r = sumIdx X.shape fun idx => if idx.getD m 0 = i then X.get idx *
      ∏ k ∈ Finset.range fs.length, (if k = m then 1 else (fs.getD k noArr).get [idx.getD k 0, r]) else 0 := by
  rw [sumIdx_split hm, Finset.sum_eq_single_of_mem i (Finset.mem_range.2 hi)]
  · rw [mttkrpEntry]
    refine sumIdx_congr fun is his => ?_
    have hlen : is.length + 1 = X.shape.length := by rw [his.length_eq, List.length_eraseIdx_of_lt hm]; omega
    have hk : m ≤ is.length := by omega
    rw [if_pos (getD_insertIdx hk), ← rankOne_eraseIdx_eq r (by rw [List.length_insertIdx_of_le_length hk]; omega),
      eraseIdx_insertIdx']
  · intro j _ hj
    refine Eq.trans ?_ (sumIdx_zero (α := ℝ) (X.shape.eraseIdx m))
    refine sumIdx_congr fun is his => ?_
    have hlen : is.length + 1 = X.shape.length := by rw [his.length_eq, List.length_eraseIdx_of_lt hm]; omega
    rw [if_neg]
    rwa [getD_insertIdx (by omega)]

/-- The objects of two fits, of which the first one has its modes in the order `τ`. -/
structure CPState.Exchanged (τ : Equiv.Perm ℕ) (s' s : CPState) : Prop where
  X : Transposed τ s'.X s.X
  rank : s'.dec.rank = s.dec.rank
  weights : s'.dec.weights = s.dec.weights
  length : s'.dec.factorMatrices.length = s.dec.factorMatrices.length
  factors : Listed τ s'.dec.factorMatrices s.dec.factorMatrices
  nonNeg : ∃ l' l, s'.nonNeg = some l' ∧ s.nonNeg = some l ∧ Listed τ l' l
  orth : ∃ l' l, s'.orth = some l' ∧ s.orth = some l ∧ Listed τ l' l
  lastMode : s'.lastMode.map τ = s.lastMode
  cache : s'.cache = s.cache
  XNorm : s'.XNorm = s.XNorm
  relChange : s'.relChange = s.relChange
  prevSSE : s'.prevSSE = s.prevSSE

/-- The options of two fits, of which the first one has its modes in the order `τ`. -/
structure CPOpts.Exchanged (τ : Equiv.Perm ℕ) (o' o : CPOpts) : Prop where
  rank : o'.rank = o.rank
  convergenceTol : o'.convergenceTol = o.convergenceTol
  relLossTol : o'.relLossTol = o.relLossTol
  ridge : (o'.ridgePenalties = none ∧ o.ridgePenalties = none) ∨
    ∃ l' l, o'.ridgePenalties = some l' ∧ o.ridgePenalties = some l ∧ Listed τ l' l

theorem pyGet_getElem? {β : Type} (l : List β) (m : ℕ) : pyGet l (m : Int) = (match l[m]? with
    | some x => .ok x
    | none => .error .indexError) := by
  by_cases h : m < l.length
  · rw [pyGet_ok (norm_nat h), List.getElem?_eq_getElem h]
  · rw [List.getElem?_eq_none (by omega)]
    refine pyGet_error ?_
    simp [normIdx]
    omega

theorem Listed.pyGet {β : Type} {l' l : List β} (h : Listed τ l' l) (m : ℕ) : TK.pyGet l' (m : Int) = TK.pyGet l (τ m : ℕ) := by
  rw [pyGet_getElem?, pyGet_getElem?, h]

theorem getSolve_exchanged {E : Ext} {o' o : CPOpts} (ho : o'.Exchanged τ o) {s' s : CPState} (h : s'.Exchanged τ s) (m : ℕ) :
    CP.getSolve E o' s' m = CP.getSolve E o s (τ m) := by
  obtain ⟨l1', l1, a1, a2, a3⟩ := h.nonNeg
  obtain ⟨l2', l2, b1, b2, b3⟩ := h.orth
  unfold CP.getSolve CP.flagAt
  simp only [a1, a2, b1, b2, a3.pyGet, b3.pyGet]
  rcases ho.ridge with ⟨c1, c2⟩ | ⟨l3', l3, c1, c2, c3⟩
  · simp only [c1, c2]
  · simp only [c1, c2, c3.pyGet]

theorem gramProd_exchanged {fs' fs : List (NDArray ℝ)} (hf : Listed τ fs' fs) (hl : fs'.length = fs.length) (m a b : ℕ) :
    gramProd (fs'.eraseIdx m) a b = gramProd (fs.eraseIdx (τ m)) a b := by
  rw [gramProd_eraseIdx_eq, gramProd_eraseIdx_eq, hl]
  refine Eq.trans ?_ (prod_move (listed_lt hf hl) _)
  refine Finset.prod_congr rfl fun k _ => ?_
  simp only [EmbeddingLike.apply_eq_iff_eq, hf.getD]

theorem mttkrp_exchanged {X' X : NDArray ℝ} (hX : Transposed τ X' X) {fs' fs : List (NDArray ℝ)} (hf : Listed τ fs' fs)
    (hl : fs'.length = fs.length) (hn : fs.length = X.shape.length) {m : ℕ} (hm : m < X.shape.length) (R : ℕ) :
    mttkrpMat X' fs' m R = mttkrpMat X fs (τ m) R := by
  have hp := listed_lt hX.shape hX.length
  rw [mttkrpMat, mttkrpMat, hX.shape.getD]
  refine ofMat_congr fun i hi r hr => ?_
  rw [mttkrpEntry_eq_full (by rw [hl, hn, hX.length]) (by rw [hX.length]; exact hm) (by rw [hX.shape.getD]; exact hi),
    mttkrpEntry_eq_full hn ((hp m).2 hm) hi]
  refine sumIdx_listed hX.shape hX.length fun idx idx' hv hidx => ?_
  rw [hidx.getD, hX.entry idx idx' hv hidx, hl]
  refine if_congr Iff.rfl (congrArg _ ?_) rfl
  refine Eq.trans ?_ (prod_move (listed_lt hf hl) _)
  refine Finset.prod_congr rfl fun k _ => ?_
  simp only [EmbeddingLike.apply_eq_iff_eq, hf.getD, hidx.getD]

theorem Listed.set {β : Type} {l' l : List β} (h : Listed τ l' l) (hl : l'.length = l.length) (m : ℕ) (x : β) :
    Listed τ (l'.set m x) (l.set (τ m) x) := by
  have hp := listed_lt h hl
  intro i
  rw [List.getElem?_set, List.getElem?_set, h, hl]
  simp only [EmbeddingLike.apply_eq_iff_eq, hp]

theorem CPState.Exchanged.updated {s' s : CPState} (h : s'.Exchanged τ s) (hn : s.dec.factorMatrices.length = s.X.shape.length)
    {m : ℕ} (hm : m < s.X.shape.length) (R : ℕ) (F : NDArray ℝ) : (s'.updated m R F).Exchanged τ (s.updated (τ m) R F) where
  X := h.X
  rank := h.rank
  weights := h.weights
  length := by simpa [CPState.updated] using h.length
  factors := h.factors.set h.length m F
  nonNeg := h.nonNeg
  orth := h.orth
  lastMode := rfl
  cache := congrArg some (mttkrp_exchanged h.X h.factors h.length hn hm R)
  XNorm := h.XNorm
  relChange := h.relChange
  prevSSE := h.prevSSE

theorem CPState.Exchanged.sized {s' s : CPState} (h : s'.Exchanged τ s) {R : ℕ} (hs : s.Sized R) : s'.Sized R := by
  have hp := listed_lt h.X.shape h.X.length
  have hn := hs.wf.factors.length_eq
  refine ⟨⟨h.rank.trans hs.wf.rank, ?_, by rw [h.weights]; exact hs.wf.weights⟩, by rw [h.X.length]; exact hs.order, ?_⟩
  · refine List.forall₂_iff_get.2 ⟨by rw [h.length, hn, h.X.length], fun i h1 h2 => ?_⟩
    have h3 : i < s.dec.factorMatrices.length := h.length ▸ h1
    have h4 : τ i < s.dec.factorMatrices.length := by rw [hn, hp, ← hn]; exact h3
    have e := hs.wf.factors.shape_get h4
    have e1 := h.factors i
    rw [List.getElem?_eq_getElem h1, List.getElem?_eq_getElem h4] at e1
    have e2 : s'.X.shape[i] = s.X.shape.getD (τ i) 0 := by rw [← h.X.shape.getD, getD_of_lt h2]
    simp only [List.get_eq_getElem]
    rw [Option.some.inj e1, e, e2]
  · intro n hmem
    obtain ⟨i, hi, rfl⟩ := List.getElem_of_mem hmem
    rw [← getD_of_lt (d := 0) hi, h.X.shape.getD]
    exact hs.dim ((hp i).2 (h.X.length ▸ hi))

/-- **C130.** The update of a mode, with any constraint and any penalty, is the update of that mode wherever the mode is listed:
it returns in one order if and only if it does in the other (apply the theorem to the inverse permutation). -/
theorem C130_update {E : Ext} {o' o : CPOpts} (ho : o'.Exchanged τ o) {s' s : CPState} (h : s'.Exchanged τ s) (hs : s.Sized o.rank)
    {m : ℕ} (hm : m < s.X.shape.length) {z : CPState} (hz : CP.updateFactor E o (τ m) s = .ok z) :
    ∃ z', CP.updateFactor E o' m s' = .ok z' ∧ z'.Exchanged τ z ∧ z.Sized o.rank := by
  obtain ⟨R', a', b', c'⟩ := o'
  obtain rfl : R' = o.rank := ho.rank
  have hp := listed_lt h.X.shape h.X.length
  have hs' := h.sized hs
  have hn := hs.wf.factors.length_eq
  have hm' : m < s'.X.shape.length := by rw [h.X.length]; exact hm
  obtain ⟨solve, new, F', e1, e2, e3, e4, rfl⟩ := updateFactor_inv hs.wf.factors hs.order ((hp m).2 hm) (hs.dim ((hp m).2 hm)) hz
  refine ⟨s'.updated m o.rank F', ?_, h.updated hn hm _ _, hs.updated e4⟩
  rw [updateFactor_eq (o := ⟨o.rank, a', b', c'⟩) hs'.wf.factors hs'.order hm' (hs'.dim hm'), getSolve_exchanged ho h, e1, bind_ok,
    mttkrp_exchanged h.X h.factors h.length hn hm]
  simp only [gramProd_exchanged h.factors h.length]
  rw [e2, bind_ok]
  have h3 : m < s'.dec.factorMatrices.length := by rw [h.length, hn]; exact hm
  have h4 : τ m < s.dec.factorMatrices.length := by rw [hn]; exact (hp m).2 hm
  have e := h.factors m
  rw [List.getElem?_eq_getElem h3, List.getElem?_eq_getElem h4] at e
  rw [Option.some.inj e, e3, bind_ok]
  rfl

theorem CPState.Exchanged.cached {s' s : CPState} (h : s'.Exchanged τ s) {R : ℕ} (hs : s.Sized R) (hc : s.Cached R) :
    s'.Cached R := by
  have hp := listed_lt h.X.shape h.X.length
  have hn := hs.wf.factors.length_eq
  refine ⟨?_, fun m hm => ?_⟩
  · rw [h.XNorm, hc.norm]
    congr 1
    exact (sumIdx_listed h.X.shape h.X.length fun idx idx' hv hi => by rw [h.X.entry idx idx' hv hi]).symm
  · have h1 := h.lastMode
    rw [hm] at h1
    obtain ⟨h2, c, h3, h4, h5⟩ := hc.cache (τ m) h1.symm
    have hm' := (hp m).1 h2
    have e := mttkrp_exchanged h.X h.factors h.length hn hm' R
    refine ⟨by rw [h.X.length]; exact hm', c, by rw [h.cache, h3], by rw [h.X.shape.getD]; exact h4, fun i hi r hr => ?_⟩
    rw [h.X.shape.getD] at hi
    rw [h5 i hi r hr]
    have := congrArg (fun A => NDArray.get A [i, r]) e
    simp only [mttkrpMat] at this
    rw [get_ofMat (by rw [h.X.shape.getD]; exact hi) hr, get_ofMat hi hr] at this
    exact this.symm

/-- **C130.** The reported error and the explained variance do not depend on the order of the modes. -/
theorem C130_sse {s' s : CPState} (h : s'.Exchanged τ s) {R : ℕ} (hs : s.Sized R) (hc : s.Cached R) :
    CP.sse s' = CP.sse s ∧ CP.explainedVariance s' = CP.explainedVariance s := by
  have e : CP.sse s' = CP.sse s := by
    rw [C35_sse (h.sized hs) (h.cached hs hc), C35_sse hs hc, CPState.trueSSE, CPState.trueSSE, h.weights,
      (C130_error h.X h.factors h.length hs.wf.factors.length_eq _ R).1]
  refine ⟨e, ?_⟩
  unfold CP.explainedVariance
  rw [e, h.XNorm]

/-- **C130.** Any sequence of updates followed by the computation of the error, for the modes wherever they are listed. What
remains different between two fits is only the order in which they update the modes. -/
theorem C130_sweep_partial {E : Ext} {o' o : CPOpts} (ho : o'.Exchanged τ o) {s' s : CPState} (h : s'.Exchanged τ s)
    (hs : s.Sized o.rank) (hc : s.Cached o.rank) {ms : List ℕ} (hms : ∀ m ∈ ms, m < s.X.shape.length) {z : CPState}
    (hz : (do CP.updateConvergence (← CP.updateModes E o (ms.map τ) s)) = .ok z) :
    ∃ z', (do CP.updateConvergence (← CP.updateModes E o' ms s')) = .ok z' ∧ z'.Exchanged τ z ∧
      CP.shouldStop o' z' = CP.shouldStop o z := by
  have key : ∀ (ms : List ℕ) {s' s z : CPState}, s'.Exchanged τ s → s.Sized o.rank → s.Cached o.rank →
      (∀ m ∈ ms, m < s.X.shape.length) → CP.updateModes E o (ms.map τ) s = .ok z →
      ∃ z', CP.updateModes E o' ms s' = .ok z' ∧ z'.Exchanged τ z ∧ z.Sized o.rank ∧ z.Cached o.rank := by
    intro ms
    induction ms with
    | nil =>
      intro s' s z h hs hc _ hz
      obtain rfl : s = z := by simpa [CP.updateModes, pure, Except.pure] using hz
      exact ⟨s', rfl, h, hs, hc⟩
    | cons m ms ih =>
      intro s' s z h hs hc hms hz
      rw [List.map_cons, CP.updateModes, List.foldlM_cons, bind_eq_ok] at hz
      obtain ⟨y, h1, h2⟩ := hz
      have hm := hms m (by simp)
      obtain ⟨y', g1, g2, g3⟩ := C130_update ho h hs hm h1
      obtain ⟨-, hcy⟩ := C35_update hs hc ((listed_lt h.X.shape h.X.length m).2 hm) h1
      have hX : y.X = s.X := by
        obtain ⟨_, _, _, -, -, -, -, rfl⟩ := updateFactor_inv hs.wf.factors hs.order
          ((listed_lt h.X.shape h.X.length m).2 hm) (hs.dim ((listed_lt h.X.shape h.X.length m).2 hm)) h1
        rfl
      obtain ⟨z', k1, k2, k3, k4⟩ := ih g2 g3 hcy (fun k hk => by rw [hX]; exact hms k (by simp [hk])) h2
      refine ⟨z', ?_, k2, k3, k4⟩
      rw [CP.updateModes, List.foldlM_cons, g1, bind_ok]
      exact k1
  rw [bind_eq_ok] at hz
  obtain ⟨y, h1, h2⟩ := hz
  obtain ⟨y', g1, g2, g3, g4⟩ := key ms h hs hc hms h1
  obtain ⟨e1, -⟩ := C130_sse g2 g3 g4
  rw [CP.updateConvergence, bind_eq_ok] at h2
  obtain ⟨e, e2, e3⟩ := h2
  obtain rfl := (pure_eq_ok.1 e3)
  refine ⟨_, by rw [g1, bind_ok, CP.updateConvergence, e1, e2, bind_ok]; rfl, ?_, ?_⟩
  · exact ⟨g2.X, g2.rank, g2.weights, g2.length, g2.factors, g2.nonNeg, g2.orth, g2.lastMode, g2.cache, g2.XNorm,
      by rw [g2.prevSSE], rfl⟩
  · have e4 : ∀ (o : CPOpts) (y : CPState) (a : FV) (b : ℝ), CP.shouldStop o { y with relChange := a, prevSSE := b }
        = (do
          let e ← CP.sse y
          pure (a.absLt o.convergenceTol || (FV.div e (y.XNorm ^ 2)).lt o.relLossTol)) := fun _ _ _ _ => rfl
    rw [e4 o' y', e4 o y, e1, g2.XNorm, ho.convergenceTol, ho.relLossTol, g2.prevSSE]

/-- A matrix with its modes exchanged. -/
theorem transposed_ofMat (m n : ℕ) (f : ℕ → ℕ → ℝ) : Transposed (Equiv.swap 0 1) (ofMat n m fun i j => f j i) (ofMat m n f) := by
  have hp : ∀ i, Equiv.swap 0 1 i < 2 ↔ i < 2 := fun i => by rcases i with _ | _ | i <;> simp [Equiv.swap_apply_def]
  refine ⟨rfl, listed_of_getD (n := 2) (d := 0) rfl rfl hp fun i hi => by interval_cases i <;> rfl, fun idx idx' h hi => ?_⟩
  match idx, h with
  | [i, j], h =>
    have : idx' = [j, i] := Listed.eq hi (listed_of_getD (n := 2) (d := 0) rfl rfl hp
      fun k hk => by interval_cases k <;> rfl)
    rw [this, get_ofMat h.2.1 h.1, get_ofMat h.1 h.2.1]

/-- `diag(2, 1)` with its modes exchanged is the same matrix. -/
theorem transposed_diag21 : Transposed (Equiv.swap 0 1) diag21 diag21 := by
  have := transposed_ofMat 2 2 fun i j => if i = j then (if i = 0 then 2 else 1) else 0
  have e : (ofMat 2 2 fun i j => if j = i then (if j = 0 then (2 : ℝ) else 1) else 0) = diag21 := by
    rw [diag21]
    congr 1
    funext i j
    by_cases e : i = j
    · rw [e]
    · rw [if_neg e, if_neg (Ne.symm e)]
  rwa [e] at this

/-- C130 is false of fits: `diag(2, 1)` is its own transpose, and the start with both factor matrices equal is its own
exchange, yet the tensor fitted with one iteration is not its own transpose, because mode 0 is updated first. -/
theorem C130_fails {E : Ext} (hE : E.SVDOk) (hN : E.NNLSOk) (hQ : E.QROk) :
    Transposed (Equiv.swap 0 1) diag21 diag21 ∧
    Listed (Equiv.swap 0 1) onesKT.factorMatrices onesKT.factorMatrices ∧
    ∃ w' T, CP.fit E (plainConfig "precomputed" none) diag21 (some 1) (.tensor onesKT) (CP.newObject none none 1 [] none)
        = .ok () w' ∧ w'.st.dec.constructTensor = .ok T ∧ T.shape = [2, 2] ∧ ¬ Transposed (Equiv.swap 0 1) T T := by
  have hp : ∀ i, Equiv.swap 0 1 i < 2 ↔ i < 2 := fun i => by rcases i with _ | _ | i <;> simp [Equiv.swap_apply_def]
  refine ⟨transposed_diag21, listed_of_getD (n := 2) (d := noArr) rfl rfl hp fun i hi => by interval_cases i <;> rfl, ?_⟩
  have hA : CP.Admissible (plainConfig "precomputed" none).opts none none diag21.shape :=
    ⟨by decide, by simp [diag21], by simp [diag21], by simp, by simp, by simp [plainConfig], by simp, by simp⟩
  have ht : onesKT.WF diag21.shape 1 := ⟨rfl, by simp [Factors, onesKT, diag21], rfl⟩
  have hneg : ¬ 0 < (CP.method E (plainConfig "precomputed" none)).freq := by
    show ¬ (0 : Int) < -1
    decide
  obtain ⟨s0, w', k, e0, h1, h2, h3, h4, h5, h6, hWF, -, hX, hw1, -⟩ := C74_fit_completes hE hN hQ
    (c := plainConfig "precomputed" none) (mi := some 1) (budget := 1) (loggers := []) (file := none) hA
    (by intro p hp; simp [plainConfig] at hp) (by decide) (startsFrom_precomputed (by
      show "precomputed".toLower = _
      rw [String.toLower, ← String.toList_inj, String.toList_map]; decide) ht) ht
    (by decide) ⟨fun h => absurd h hneg, fun h => absurd h hneg, fun h => absurd h hneg⟩
  obtain ⟨s0', e0', hG, hXs, -, hrel0, hw, hnn, hon, hdec⟩ := initFit_good (E := E) hQ (old := CP.fresh none none)
    (o := (plainConfig "precomputed" none).opts) rfl hA ht
  rw [e0] at e0'
  obtain rfl : s0 = s0' := Except.ok.inj e0'
  have hU : s0.Unconstrained := by
    refine ⟨⟨_, hnn, fun m hm => ?_⟩, ⟨_, hon, fun m hm => ?_⟩⟩ <;>
      simpa [CP.fresh, List.getElem?_replicate] using hXs ▸ hm
  have hk : k = 1 := by
    have h2 : (k : Int) ≤ 1 := h2
    rcases Nat.lt_or_ge k 1 with hlt | hge
    · obtain rfl : k = 0 := by omega
      have := h6 (by decide)
      rw [← Except.ok.inj h4, never_stops le_rfl le_rfl hG] at this
      cases this
    · omega
  subst hk
  obtain ⟨s1, F, G, e1, f1, -, hF, hGe⟩ := iteration22_values hE (o := (plainConfig "precomputed" none).opts) rfl rfl hG
    (by rw [hXs]; rfl) hU (hdec rfl)
  have hst : w'.st = s1 := by
    rw [CP.iterate, e1, bind_ok] at h4
    exact (Except.ok.inj h4).symm
  rw [hst] at hWF hw1
  refine ⟨w', _, h1, by rw [hst]; exact constructTensor_eq hWF (by decide), rfl, fun hT => ?_⟩
  have := hT.entry [0, 1] [1, 0] ⟨by decide, by decide, trivial⟩
    (listed_of_getD (n := 2) (d := 0) rfl rfl hp fun k hk => by interval_cases k <;> rfl)
  have v10 : Valid diag21.shape [1, 0] := ⟨by decide, by decide, trivial⟩
  have v01 : Valid diag21.shape [0, 1] := ⟨by decide, by decide, trivial⟩
  rw [get_ofFn v10, get_ofFn v01, f1] at this
  have w0 := hw1 0 (by decide)
  have ho : ∀ i < 2, (ofMat 2 1 fun _ _ => (1 : ℝ)).get [i, 0] = 1 := fun i hi => get_ofMat hi (by omega)
  have F0 := hF 0 (by decide)
  have F1 := hF 1 (by decide)
  have G0 := hGe 0 (by decide)
  have G1 := hGe 1 (by decide)
  have hx : ∀ i < 2, ∀ j < 2, s0.X.get [i, j] = if i = j then (if i = 0 then 2 else 1) else 0 := by
    intro i hi j hj
    rw [hXs, diag21, get_ofMat hi hj]
  rw [hx _ (by decide) _ (by decide), hx _ (by decide) _ (by decide), ho 0 (by decide), ho 1 (by decide)] at F0 F1
  rw [hx _ (by decide) _ (by decide), hx _ (by decide) _ (by decide)] at G0 G1
  have this : F.get [1, 0] * G.get [0, 0] = F.get [0, 0] * G.get [1, 0] := by
    simpa [cpEntry, rankOne, plainConfig, w0] using this
  norm_num at F0 F1 G0 G1
  have a0 : F.get [0, 0] = 1 := by linarith
  have a1 : F.get [1, 0] = 1 / 2 := by linarith
  rw [a0, a1] at this G0 G1
  norm_num at G0 G1
  linarith

/-! ### concrete cases -/

/-- The first two modes of three modes exchanged: a model of a `2 × 3 × 2` tensor and the model of the `3 × 2 × 2` tensor. -/
example : ∃ (t' t : KruskalTensor) (X' X : NDArray ℝ), t.WF [2, 3, 2] 1 ∧ t'.WF [3, 2, 2] 1 ∧ t'.constructTensor = .ok X' ∧
    t.constructTensor = .ok X ∧ Transposed (Equiv.swap 0 1) X' X ∧ NoZeroColumn t.factorMatrices [2, 3, 2] 1 ∧
    NoZeroColumn t'.factorMatrices [3, 2, 2] 1 := by
  have hp : ∀ i, Equiv.swap 0 1 i < 3 ↔ i < 3 := fun i => by rcases i with _ | _ | i <;> simp [Equiv.swap_apply_def]
  have hz : ∀ (f : ℕ → ℝ) n, 0 < n → f 0 ≠ 0 → ∀ r < 1, ∃ i < n, (ofMat n 1 fun i _ => f i).get [i, r] ≠ 0 := by
    intro f n hn h0 r hr
    refine ⟨0, hn, ?_⟩
    rw [get_ofMat hn hr]
    exact h0
  have h : (⟨1, [ofMat 2 1 fun i _ => (i : ℝ) + 1, ofMat 3 1 fun i _ => 2 - (i : ℝ), ofMat 2 1 fun _ _ => 1],
    full [1] 3⟩ : KruskalTensor).WF [2, 3, 2] 1 := ⟨rfl, by simp [Factors], rfl⟩
  have h' : (⟨1, [ofMat 3 1 fun i _ => 2 - (i : ℝ), ofMat 2 1 fun i _ => (i : ℝ) + 1, ofMat 2 1 fun _ _ => 1],
    full [1] 3⟩ : KruskalTensor).WF [3, 2, 2] 1 := ⟨rfl, by simp [Factors], rfl⟩
  obtain ⟨X', X, e', e, -, k⟩ := C130_tensor_partial h' h (by decide) rfl
    (listed_of_getD (n := 3) (d := noArr) rfl rfl hp fun i hi => by interval_cases i <;> rfl)
    (listed_of_getD (n := 3) (d := 0) rfl rfl hp fun i hi => by interval_cases i <;> rfl) rfl
  refine ⟨_, _, X', X, h, h', e', e, k, ?_, ?_⟩
  · exact .cons (hz (fun i => (i : ℝ) + 1) 2 (by decide) (by norm_num)) (.cons (hz (fun i => 2 - (i : ℝ)) 3 (by decide) (by norm_num))
      (.cons (hz (fun _ => 1) 2 (by decide) (by norm_num)) .nil))
  · exact .cons (hz (fun i => 2 - (i : ℝ)) 3 (by decide) (by norm_num)) (.cons (hz (fun i => (i : ℝ) + 1) 2 (by decide) (by norm_num))
      (.cons (hz (fun _ => 1) 2 (by decide) (by norm_num)) .nil))

/-- `C130_fms` for two models of a `2 × 3` matrix and the same two models of the `3 × 2` matrix. -/
example {eps : ℝ} (he : 0 < eps) : factorMatchScore [ofMat 3 1 fun _ _ => 1, ofMat 2 1 fun i _ => (i : ℝ)]
      [ofMat 3 1 fun i _ => (i : ℝ) - 1, ofMat 2 1 fun _ _ => 2] true (redName true) eps
    = factorMatchScore [ofMat 2 1 fun i _ => (i : ℝ), ofMat 3 1 fun _ _ => 1]
      [ofMat 2 1 fun _ _ => 2, ofMat 3 1 fun i _ => (i : ℝ) - 1] true (redName true) eps := by
  have hp : ∀ i, Equiv.swap 0 1 i < 2 ↔ i < 2 := fun i => by rcases i with _ | _ | i <;> simp [Equiv.swap_apply_def]
  exact C130_fms (τ := Equiv.swap 0 1) he (R := 1) (R' := 1) (sizes' := [3, 2]) (sizes := [2, 3]) (by decide)
    (by simp [Factors]) (by simp [Factors]) (by simp [Factors]) (by simp [Factors]) (by decide) rfl
    (listed_of_getD (n := 2) (d := 0) rfl rfl hp fun i hi => by interval_cases i <;> rfl)
    (listed_of_getD (n := 2) (d := noArr) rfl rfl hp fun i hi => by interval_cases i <;> rfl)
    (listed_of_getD (n := 2) (d := noArr) rfl rfl hp fun i hi => by interval_cases i <;> rfl) true true

/-- `C130_error` for a `2 × 3` matrix and a model of it. -/
example (f : ℕ → ℕ → ℝ) : sqErr (ofMat 3 2 fun i j => f j i) (fun _ => 2) [ofMat 3 1 fun _ _ => 1, ofMat 2 1 fun i _ => (i : ℝ)] 1
    = sqErr (ofMat 2 3 f) (fun _ => 2) [ofMat 2 1 fun i _ => (i : ℝ), ofMat 3 1 fun _ _ => 1] 1 := by
  have hp : ∀ i, Equiv.swap 0 1 i < 2 ↔ i < 2 := fun i => by rcases i with _ | _ | i <;> simp [Equiv.swap_apply_def]
  exact (C130_error (transposed_ofMat 2 3 f) (fs' := [ofMat 3 1 fun _ _ => 1, ofMat 2 1 fun i _ => (i : ℝ)])
    (fs := [ofMat 2 1 fun i _ => (i : ℝ), ofMat 3 1 fun _ _ => 1]) (listed_of_getD (n := 2) (d := noArr) rfl rfl hp fun i hi => by interval_cases i <;> rfl) rfl rfl _ 1).1

/-- The objects of two fits, of a `2 × 3` matrix and of the `3 × 2` matrix, at their starts, with a constraint on one mode. -/
example (f : ℕ → ℕ → ℝ) : ∃ s' s : CPState, s'.Exchanged (Equiv.swap 0 1) s ∧ s.Sized 1 ∧ s.Cached 1 ∧ s.X = ofMat 2 3 f ∧
    s.nonNeg = some [true, false] ∧ s'.nonNeg = some [false, true] := by
  have hp : ∀ i, Equiv.swap 0 1 i < 2 ↔ i < 2 := fun i => by rcases i with _ | _ | i <;> simp [Equiv.swap_apply_def]
  refine ⟨⟨ofMat 3 2 fun i j => f j i, Real.sqrt (sumIdx [2, 3] fun idx => (ofMat 2 3 f).get idx ^ 2),
      ⟨1, [ofMat 3 1 fun _ _ => 1, ofMat 2 1 fun i _ => (i : ℝ)], full [1] 1⟩, some [false, true], some [false, false], none, none,
      .pinf, 0⟩,
    ⟨ofMat 2 3 f, Real.sqrt (sumIdx [2, 3] fun idx => (ofMat 2 3 f).get idx ^ 2),
      ⟨1, [ofMat 2 1 fun i _ => (i : ℝ), ofMat 3 1 fun _ _ => 1], full [1] 1⟩, some [true, false], some [false, false], none, none,
      .pinf, 0⟩, ⟨transposed_ofMat 2 3 f, rfl, rfl, rfl, ?_, ⟨_, _, rfl, rfl, ?_⟩, ⟨_, _, rfl, rfl, ?_⟩, rfl, rfl, rfl, rfl, rfl⟩,
      ⟨⟨rfl, by simp [Factors], rfl⟩, by simp, by simp⟩, ⟨rfl, fun m hm => by cases hm⟩, rfl, rfl, rfl⟩
  · exact listed_of_getD (n := 2) (d := noArr) rfl rfl hp fun i hi => by interval_cases i <;> rfl
  · exact listed_of_getD (n := 2) (d := false) rfl rfl hp fun i hi => by interval_cases i <;> rfl
  · exact listed_of_getD (n := 2) (d := false) rfl rfl hp fun i hi => by interval_cases i <;> rfl

end
end TK
