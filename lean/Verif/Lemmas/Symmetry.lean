import Verif.Spec.Symmetry
import Verif.Props.CP

/-! # Lemmas about changes of names and scales -/

namespace TK
open NDArray Matrix

noncomputable section

theorem sum_move {β : Type*} [AddCommMonoid β] {σ : Equiv.Perm ℕ} {n : ℕ} (h : ∀ i, σ i < n ↔ i < n) (f : ℕ → β) :
    ∑ i ∈ Finset.range n, f i = ∑ i ∈ Finset.range n, f (σ i) :=
  (Finset.sum_equiv σ (fun i => by simp [h]) fun _ _ => rfl).symm

theorem sumIdx_move {ss : List ModeChange} {sizes : List ℕ}
    (h : List.Forall₂ (fun (s : ModeChange) n => ∀ i, s.row i < n ↔ i < n) ss sizes) (f : List ℕ → ℝ) :
    sumIdx sizes f = sumIdx sizes fun idx => f (moveIdx ss idx) := by
  induction h generalizing f with
  | nil => rfl
  | cons h1 _ ih =>
    simp only [sumIdx_cons]
    rw [sum_move h1]
    refine Finset.sum_congr rfl fun i _ => ?_
    rw [ih]
    rfl

theorem valid_move {ss : List ModeChange} {sizes : List ℕ}
    (h : List.Forall₂ (fun (s : ModeChange) n => ∀ i, s.row i < n ↔ i < n) ss sizes) :
    ∀ {idx}, Valid sizes idx → Valid sizes (moveIdx ss idx) := by
  induction h with
  | nil => intro idx hv; cases idx <;> simpa [moveIdx] using hv
  | cons h1 _ ih =>
    intro idx hv
    cases idx with
    | nil => simp at hv
    | cons i is => exact ⟨(h1 i).2 hv.1, ih hv.2⟩

theorem rows_eraseIdx {ss : List ModeChange} {sizes : List ℕ}
    (h : List.Forall₂ (fun (s : ModeChange) n => ∀ i, s.row i < n ↔ i < n) ss sizes) (m : ℕ) :
    List.Forall₂ (fun (s : ModeChange) n => ∀ i, s.row i < n ↔ i < n) (ss.eraseIdx m) (sizes.eraseIdx m) := by
  induction h generalizing m with
  | nil => simp
  | cons h1 h2 ih => cases m with
    | zero => simpa using h2
    | succ m => simpa using ⟨h1, ih m⟩

theorem rows_get {ss : List ModeChange} {sizes : List ℕ}
    (h : List.Forall₂ (fun (s : ModeChange) n => ∀ i, s.row i < n ↔ i < n) ss sizes) {m : ℕ} (hm : m < ss.length) :
    ∀ i, (ss[m]).row i < sizes.getD m 0 ↔ i < sizes.getD m 0 := by
  induction h generalizing m with
  | nil => simp at hm
  | cons h1 h2 ih => cases m with
    | zero => simpa using h1
    | succ m => simpa using ih (m := m) (by simpa using hm)

theorem moveIdx_insertIdx {ss : List ModeChange} {idx : List ℕ} {m i : ℕ} (hm : m < ss.length)
    (hl : idx.length + 1 = ss.length) :
    moveIdx ss (idx.insertIdx m i) = (moveIdx (ss.eraseIdx m) idx).insertIdx m ((ss[m]).row i) := by
  induction m generalizing ss idx with
  | zero => cases ss with
    | nil => simp at hm
    | cons s ss => simp [moveIdx]
  | succ m ih => cases ss with
    | nil => simp at hm
    | cons s ss => cases idx with
      | nil => simp at hl; subst hl; simp at hm
      | cons j js =>
        have := ih (ss := ss) (idx := js) (by simpa using hm) (by simpa using hl)
        simpa [moveIdx] using this

/-- The product of the coefficients of a component. -/
def coefProd (ss : List ModeChange) (r : ℕ) : ℝ := (ss.map fun s => s.coef r).prod

theorem coefProd_eraseIdx {ss : List ModeChange} {m r : ℕ} (hm : m < ss.length) :
    coefProd ss r = (ss[m]).coef r * coefProd (ss.eraseIdx m) r := by
  induction ss generalizing m with
  | nil => simp at hm
  | cons s ss ih => cases m with
    | zero => simp [coefProd]
    | succ m =>
      have := ih (m := m) (by simpa using hm)
      simp only [coefProd, List.map_cons, List.prod_cons, List.eraseIdx_cons_succ, List.getElem_cons_succ] at this ⊢
      rw [this]; ring

theorem coefProd_sq {ss : List ModeChange} {R : ℕ} (h : ∀ s ∈ ss, ∃ b : ℝ, 0 < b ∧ ∀ r < R, s.coef r ^ 2 = b) :
    ∃ B : ℝ, 0 < B ∧ ∀ r < R, coefProd ss r ^ 2 = B := by
  induction ss with
  | nil => exact ⟨1, one_pos, fun _ _ => by simp [coefProd]⟩
  | cons s ss ih =>
    obtain ⟨b, hb, e⟩ := h s (by simp)
    obtain ⟨B, hB, e'⟩ := ih fun s' hs' => h s' (by simp [hs'])
    refine ⟨b * B, mul_pos hb hB, fun r hr => ?_⟩
    have := e' r hr
    simp only [coefProd, List.map_cons, List.prod_cons, mul_pow] at this ⊢
    rw [e r hr, this]

namespace FactorsMoved
variable {R : ℕ} {perm : Equiv.Perm ℕ} {ss : List ModeChange} {sizes : List ℕ} {fs fs' : List (NDArray ℝ)}

theorem left (h : FactorsMoved R perm ss sizes fs fs') : Factors fs sizes R := by
  unfold Factors
  induction h with
  | nil => exact .nil
  | cons h1 _ _ _ ih => exact .cons h1 ih

theorem right (h : FactorsMoved R perm ss sizes fs fs') : Factors fs' sizes R := by
  unfold Factors
  induction h with
  | nil => exact .nil
  | cons _ h1 _ _ ih => exact .cons h1 ih

theorem length_ss (h : FactorsMoved R perm ss sizes fs fs') : ss.length = sizes.length := by
  induction h with
  | nil => rfl
  | cons _ _ _ _ ih => simp [ih]

theorem eraseIdx (h : FactorsMoved R perm ss sizes fs fs') (m : ℕ) :
    FactorsMoved R perm (ss.eraseIdx m) (sizes.eraseIdx m) (fs.eraseIdx m) (fs'.eraseIdx m) := by
  induction h generalizing m with
  | nil => exact .nil
  | cons h1 h2 h3 h4 ih => cases m with
    | zero => simpa using h4
    | succ m => simpa using .cons h1 h2 h3 (ih m)

/-- Only the factor matrices of the other modes need correspond when that of mode `m` is replaced. -/
theorem set_of_eraseIdx {m : ℕ} (hm : m < ss.length) (hs : ss.length = sizes.length)
    (h : FactorsMoved R perm (ss.eraseIdx m) (sizes.eraseIdx m) (fs.eraseIdx m) (fs'.eraseIdx m))
    (hl : fs.length = sizes.length) (hl' : fs'.length = sizes.length) {F F' : NDArray ℝ}
    (h1 : F.shape = [sizes.getD m 0, R]) (h2 : F'.shape = [sizes.getD m 0, R])
    (h3 : ∀ i < sizes.getD m 0, ∀ r < R, F'.get [(ss[m]).row i, perm r] = (ss[m]).coef r * F.get [i, r]) :
    FactorsMoved R perm ss sizes (fs.set m F) (fs'.set m F') := by
  induction m generalizing ss sizes fs fs' with
  | zero =>
    cases ss with
    | nil => simp at hm
    | cons s ss => cases sizes with
      | nil => simp at hs
      | cons n ns => cases fs with
        | nil => simp at hl
        | cons G fs => cases fs' with
          | nil => simp at hl'
          | cons G' fs' => exact .cons h1 h2 h3 (by simpa using h)
  | succ m ih =>
    cases ss with
    | nil => simp at hm
    | cons s ss => cases sizes with
      | nil => simp at hs
      | cons n ns => cases fs with
        | nil => simp at hl
        | cons G fs => cases fs' with
          | nil => simp at hl'
          | cons G' fs' =>
            simp only [List.eraseIdx_cons_succ] at h
            cases h with
            | cons a1 a2 a3 a4 =>
              exact .cons a1 a2 a3 (ih (by simpa using hm) (by simpa using hs) a4 (by simpa using hl) (by simpa using hl')
                (by simpa using h1) (by simpa using h2) (by simpa using h3))

theorem rankOne (h : FactorsMoved R perm ss sizes fs fs') {r : ℕ} (hr : r < R) :
    ∀ {idx}, Valid sizes idx → rankOne fs' (moveIdx ss idx) (perm r) = coefProd ss r * TK.rankOne fs idx r := by
  induction h with
  | nil => intro idx _; cases idx <;> simp [moveIdx, TK.rankOne, coefProd]
  | cons _ _ h3 _ ih =>
    intro idx hv
    cases idx with
    | nil => simp at hv
    | cons i is =>
      have := ih hv.2
      simp only [moveIdx, TK.rankOne, coefProd, List.map_cons, List.prod_cons] at this ⊢
      rw [h3 i hv.1 r hr, this]; ring

theorem gramProd (h : FactorsMoved R perm ss sizes fs fs')
    (hs : List.Forall₂ (fun (s : ModeChange) n => ∀ i, s.row i < n ↔ i < n) ss sizes) {a b : ℕ} (ha : a < R) (hb : b < R) :
    gramProd fs' (perm a) (perm b) = coefProd ss a * coefProd ss b * TK.gramProd fs a b := by
  rw [← sumIdx_rankOne_mul h.right, ← sumIdx_rankOne_mul h.left, sumIdx_move hs, mul_sumIdx]
  refine sumIdx_congr fun idx hv => ?_
  rw [h.rankOne ha hv, h.rankOne hb hv]; ring

end FactorsMoved

theorem mttkrpEntry_moved {R : ℕ} {perm : Equiv.Perm ℕ} {ss : List ModeChange} {c : ℝ} {X X' : NDArray ℝ}
    {fs fs' : List (NDArray ℝ)} (hC : Change R perm X.shape ss c) (hX : TensorMoved ss c X X')
    {m i r : ℕ} (hm : m < ss.length) (hs : ss.length = X.shape.length)
    (h : FactorsMoved R perm (ss.eraseIdx m) (X.shape.eraseIdx m) (fs.eraseIdx m) (fs'.eraseIdx m))
    (hi : i < X.shape.getD m 0) (hr : r < R) :
    mttkrpEntry X' fs' m ((ss[m]).row i) (perm r) = c * coefProd (ss.eraseIdx m) r * mttkrpEntry X fs m i r := by
  have hm' : m < X.shape.length := by rw [← hs]; exact hm
  rw [mttkrpEntry, mttkrpEntry, hX.shape, sumIdx_move (rows_eraseIdx hC.rows m), mul_sumIdx]
  refine sumIdx_congr fun idx hv => ?_
  have hl : idx.length + 1 = ss.length := by
    rw [hv.length_eq, List.length_eraseIdx_of_lt hm', hs]; omega
  rw [h.rankOne hr hv, ← moveIdx_insertIdx hm hl, hX.get]
  · ring
  · have := hv.insertIdx (n := m) (i := i) (m := X.shape.getD m 0) (by rw [List.length_eraseIdx_of_lt hm']; omega) hi
    rwa [insertIdx_eraseIdx_getD hm'] at this

theorem cpEntry_congr_weights {w w' : ℕ → ℝ} {fs : List (NDArray ℝ)} {R : ℕ} {idx : List ℕ} (h : ∀ r < R, w r = w' r) :
    cpEntry w fs R idx = cpEntry w' fs R idx :=
  Finset.sum_congr rfl fun r hr => by rw [h r (by simpa using hr)]

theorem cpEntry_moved {R : ℕ} {perm : Equiv.Perm ℕ} {ss : List ModeChange} {c : ℝ} {sizes : List ℕ}
    {fs fs' : List (NDArray ℝ)} (hC : Change R perm sizes ss c) (h : FactorsMoved R perm ss sizes fs fs')
    {idx : List ℕ} (hv : Valid sizes idx) :
    cpEntry (fun _ => 1) fs' R (moveIdx ss idx) = c * cpEntry (fun _ => 1) fs R idx := by
  rw [cpEntry, cpEntry, sum_move hC.comps, Finset.mul_sum]
  refine Finset.sum_congr rfl fun r hr => ?_
  have hr : r < R := by simpa using hr
  rw [h.rankOne hr hv, show coefProd ss r = c from hC.prod r hr]; ring

theorem sqErr_moved {R : ℕ} {perm : Equiv.Perm ℕ} {ss : List ModeChange} {c : ℝ} {X X' : NDArray ℝ}
    {fs fs' : List (NDArray ℝ)} (hC : Change R perm X.shape ss c) (hX : TensorMoved ss c X X')
    (h : FactorsMoved R perm ss X.shape fs fs') :
    sqErr X' (fun _ => 1) fs' R = c ^ 2 * sqErr X (fun _ => 1) fs R := by
  rw [sqErr, sqErr, hX.shape, sumIdx_move hC.rows, mul_sumIdx]
  refine sumIdx_congr fun idx hv => ?_
  rw [hX.get idx hv, cpEntry_moved hC h hv]; ring

theorem sqNorm_moved {R : ℕ} {perm : Equiv.Perm ℕ} {ss : List ModeChange} {c : ℝ} {X X' : NDArray ℝ}
    (hC : Change R perm X.shape ss c) (hX : TensorMoved ss c X X') :
    (sumIdx X'.shape fun idx => X'.get idx ^ 2) = c ^ 2 * sumIdx X.shape fun idx => X.get idx ^ 2 := by
  rw [hX.shape, sumIdx_move hC.rows, mul_sumIdx]
  refine sumIdx_congr fun idx hv => ?_
  rw [hX.get idx hv]; ring

theorem Change.ne_zero {R : ℕ} {perm : Equiv.Perm ℕ} {ss : List ModeChange} {c : ℝ} {sizes : List ℕ}
    (h : Change R perm sizes ss c) (hR : 0 < R) : c ≠ 0 := by
  obtain ⟨B, hB, e⟩ := coefProd_sq h.abs
  have := e 0 hR
  rw [show coefProd ss 0 = c from h.prod 0 hR] at this
  intro h0
  rw [h0] at this
  norm_num at this
  exact hB.ne this

/-! ## reading and building corresponding factor matrices -/

theorem FactorsMoved.get {R : ℕ} {perm : Equiv.Perm ℕ} {ss : List ModeChange} {sizes : List ℕ} {fs fs' : List (NDArray ℝ)}
    (h : FactorsMoved R perm ss sizes fs fs') {m : ℕ} {s : ModeChange} {F F' : NDArray ℝ} (hs : ss[m]? = some s)
    (hF : fs[m]? = some F) (hF' : fs'[m]? = some F') {i r : ℕ} (hi : i < sizes.getD m 0) (hr : r < R) :
    F'.get [s.row i, perm r] = s.coef r * F.get [i, r] := by
  induction h generalizing m with
  | nil => simp at hs
  | cons h1 h2 h3 h4 ih => cases m with
    | zero =>
      simp only [List.getElem?_cons_zero, Option.some.injEq] at hs hF hF'
      subst hs hF hF'
      exact h3 i hi r hr
    | succ m => exact ih (by simpa using hs) (by simpa using hF) (by simpa using hF') (by simpa using hi)

theorem FactorsMoved.of_get {R : ℕ} {perm : Equiv.Perm ℕ} {ss : List ModeChange} {sizes : List ℕ}
    {fs fs' : List (NDArray ℝ)} (hl : ss.length = sizes.length) (hf : Factors fs sizes R) (hf' : Factors fs' sizes R)
    (h : ∀ (m : ℕ) (s : ModeChange) (F F' : NDArray ℝ), ss[m]? = some s → fs[m]? = some F → fs'[m]? = some F' →
      ∀ i < sizes.getD m 0, ∀ r < R, F'.get [s.row i, perm r] = s.coef r * F.get [i, r]) :
    FactorsMoved R perm ss sizes fs fs' := by
  unfold Factors at hf hf'
  induction hf generalizing ss fs' with
  | nil => cases hf'; cases ss with
    | nil => exact .nil
    | cons => simp at hl
  | cons h1 h2 ih =>
    cases hf' with
    | cons h1' h2' => cases ss with
      | nil => simp at hl
      | cons s ss =>
        refine .cons h1 h1' (fun i hi r hr => h 0 s _ _ rfl rfl rfl i (by simpa using hi) r hr)
          (ih (by simpa using hl) h2' fun m s F F' a b c i hi r hr => h (m + 1) s F F' a b c i (by simpa using hi) r hr)

/-- The changes of the modes `0, …, d - 1` given as functions of the mode. -/
def changes (d : ℕ) (σ : ℕ → Equiv.Perm ℕ) (α : ℕ → ℕ → ℝ) : List ModeChange :=
  (List.range d).map fun k => ⟨σ k, α k⟩

@[simp] theorem length_changes (d : ℕ) (σ : ℕ → Equiv.Perm ℕ) (α : ℕ → ℕ → ℝ) : (changes d σ α).length = d := by
  simp [changes]

theorem getElem?_changes {d : ℕ} {σ : ℕ → Equiv.Perm ℕ} {α : ℕ → ℕ → ℝ} {m : ℕ} {s : ModeChange}
    (h : (changes d σ α)[m]? = some s) : m < d ∧ s = ⟨σ m, α m⟩ := by
  simp only [changes, List.getElem?_map, Option.map_eq_some_iff] at h
  obtain ⟨k, hk, rfl⟩ := h
  obtain ⟨h1, h2⟩ := List.getElem?_eq_some_iff.1 hk
  simp at h1 h2
  subst h2
  exact ⟨h1, rfl⟩

theorem coefProd_changes (d : ℕ) (σ : ℕ → Equiv.Perm ℕ) (α : ℕ → ℕ → ℝ) (r : ℕ) :
    ((changes d σ α).map fun s => s.coef r).prod = ∏ k ∈ Finset.range d, α k r := by
  rw [changes, List.map_map, Finset.prod_range, ← List.prod_ofFn]
  congr 1
  apply List.ext_getElem <;> simp

theorem moveIdx_append_range {σ : ℕ → Equiv.Perm ℕ} {α : ℕ → ℕ → ℝ} : ∀ (idx : List ℕ) (k : ℕ),
    moveIdx ((List.range' k idx.length).map fun k => ⟨σ k, α k⟩) idx = idx.mapIdx fun j i => σ (k + j) i
  | [], _ => rfl
  | i :: is, k => by
    simp only [List.length_cons, List.range'_succ, List.map_cons, moveIdx, List.mapIdx_cons, Nat.add_zero]
    rw [moveIdx_append_range is (k + 1)]
    congr 1
    refine congrArg (fun f => List.mapIdx f is) (funext fun j => ?_)
    rw [show k + 1 + j = k + (j + 1) by omega]

theorem moveIdx_changes {σ : ℕ → Equiv.Perm ℕ} {α : ℕ → ℕ → ℝ} {idx : List ℕ} {d : ℕ} (h : idx.length = d) :
    moveIdx (changes d σ α) idx = idx.mapIdx fun j i => σ j i := by
  subst h
  have := moveIdx_append_range (σ := σ) (α := α) idx 0
  simpa [changes, List.range_eq_range'] using this

theorem mapIdx_refl (idx : List ℕ) : (idx.mapIdx fun _ i => (Equiv.refl ℕ) i) = idx := by
  apply List.ext_getElem <;> simp

/-- The changes are admissible when rows stay in their mode, components among themselves, and the coefficients are as
required. -/
theorem change_of {R d : ℕ} {perm : Equiv.Perm ℕ} {sizes : List ℕ} (hd : sizes.length = d) {σ : ℕ → Equiv.Perm ℕ}
    {α : ℕ → ℕ → ℝ} {c : ℝ} (h1 : ∀ k < d, ∀ i, σ k i < sizes.getD k 0 ↔ i < sizes.getD k 0)
    (h2 : ∀ r, perm r < R ↔ r < R) (h3 : ∀ k < d, ∃ b : ℝ, 0 < b ∧ ∀ r < R, α k r ^ 2 = b)
    (h4 : ∀ r < R, ∏ k ∈ Finset.range d, α k r = c) : Change R perm sizes (changes d σ α) c := by
  refine ⟨?_, h2, ?_, fun r hr => (coefProd_changes d σ α r).trans (h4 r hr)⟩
  · rw [List.forall₂_iff_get]
    refine ⟨by simp [hd], fun k a b i => ?_⟩
    have hk : k < d := by simpa using a
    have := h1 k hk i
    simpa [changes, List.getD, List.getElem?_eq_getElem b] using this
  · intro s hs
    simp only [changes, List.mem_map, List.mem_range] at hs
    obtain ⟨k, hk, rfl⟩ := hs
    exact h3 k hk

/-! ## the update -/

/-- A combination of the rows of a symmetric matrix that the matrix sends to zero is zero. -/
theorem row_unique {R : ℕ} {U : ℕ → ℕ → ℝ} (hU : ∀ a < R, ∀ b < R, U a b = U b a) {d W : ℕ → ℝ}
    (h0 : ∀ b < R, ∑ a ∈ Finset.range R, d a * U a b = 0)
    (hW : ∀ a < R, d a = ∑ b ∈ Finset.range R, W b * U b a) : ∀ a < R, d a = 0 := by
  have hs : ∑ a ∈ Finset.range R, d a ^ 2 = 0 := by
    have : ∀ a ∈ Finset.range R, d a ^ 2 = ∑ b ∈ Finset.range R, W b * (d a * U a b) := by
      intro a ha
      have ha : a < R := by simpa using ha
      rw [pow_two]
      nth_rewrite 2 [hW a ha]
      rw [Finset.mul_sum]
      refine Finset.sum_congr rfl fun b hb => ?_
      rw [hU a ha b (by simpa using hb)]; ring
    rw [Finset.sum_congr rfl this, Finset.sum_comm]
    refine Finset.sum_eq_zero fun b hb => ?_
    rw [← Finset.mul_sum, h0 b (by simpa using hb), mul_zero]
  intro a ha
  have := (Finset.sum_eq_zero_iff_of_nonneg fun a _ => sq_nonneg (d a)).1 hs a (by simpa using ha)
  exact pow_eq_zero_iff (two_ne_zero) |>.1 this

theorem gramProd_comm (fs : List (NDArray ℝ)) (a b : ℕ) : gramProd fs a b = gramProd fs b a := by
  unfold gramProd gramEntry
  congr 1
  refine List.map_congr_left fun F _ => Finset.sum_congr rfl fun i _ => mul_comm _ _

/-- The two properties that determine the factor matrix computed by an update without constraints: it solves the
normal equations, and its rows are combinations of the rows of their matrix. -/
theorem update_rows {E : Ext} (hE : E.SVDOk) {o : CPOpts} {s : CPState} {m : ℕ} (h : s.Sized o.rank)
    (hm : m < s.X.shape.length) (hc : s.ModeConfig o m false false none) :
    ∃ F, F.shape = [s.X.shape.getD m 0, o.rank] ∧ CP.updateFactor E o m s = .ok (s.updated m o.rank F) ∧
      ∀ i < s.X.shape.getD m 0,
        (∀ b < o.rank, ∑ a ∈ Finset.range o.rank, F.get [i, a] * gramProd (s.dec.factorMatrices.eraseIdx m) a b =
          mttkrpEntry s.X s.dec.factorMatrices m i b) ∧
        ∃ W : ℕ → ℝ, ∀ a < o.rank, F.get [i, a] =
          ∑ b ∈ Finset.range o.rank, W b * gramProd (s.dec.factorMatrices.eraseIdx m) b a := by
  set R := o.rank
  set n := s.X.shape.getD m 0 with hn
  set q := (s.X.shape.eraseIdx m).prod with hq
  set fs := s.dec.factorMatrices with hfs
  have hf := h.wf.factors
  have hl := hf.length_eq
  set K := krMat (fs.eraseIdx m) (s.X.shape.eraseIdx m) R with hK
  set U := unfoldMat s.X m with hU
  set V := ofMat R R fun a b => gramProd (fs.eraseIdx m) a b with hV
  set M := mttkrpMat s.X fs m R with hM
  have hKs : K.shape = [q, R] := rfl
  have hUs : U.shape = [n, q] := rfl
  have hVK : mat V R R = (mat K q R)ᵀ * mat K q R := by
    apply mat_gram
    intro a ha b hb
    rw [hV, get_ofMat ha hb, ← krMat_gram (hf.eraseIdx m) ha hb]
  have hMK : mat M n R = mat U n q * mat K q R := mat_mttkrp _ _ _ _
  obtain ⟨F, e, hF, -, -, hexact⟩ := C11_rightsolve hE (A := V) (B := M) (m := R) (n := R) (p := n) rfl rfl
  obtain ⟨Y0, hY0s, hY0⟩ := gram_solvable hE hKs hUs
  have hY0' : resid Y0 V M n R R = 0 := by
    rw [resid_eq, LA.fsq_eq_zero_iff, hVK, hMK, hY0, sub_self]
  have hFV : mat F n R * mat V R R = mat M n R := by
    have h1 := hexact Y0 hY0'
    obtain ⟨C, e1, -, hC⟩ := matmul_mat hF (B := V) (n := R) rfl
    rw [h1] at e1
    injection e1 with e1
    rw [← hC, e1]
  have hVT : (mat V R R)ᵀ = mat V R R := by rw [hVK, transpose_mul, transpose_transpose]
  obtain ⟨F', e', -, hF'⟩ := rightsolve_mat hE (A := V) (B := M) (m := R) (n := R) (p := n) rfl rfl
  rw [e] at e'
  obtain rfl : F = F' := Except.ok.inj e'
  have hsvd := (hE V R R rfl).svd
  rw [LA.pinv_eq hsvd, hVT, ← Matrix.mul_assoc] at hF'
  refine ⟨F, hF, updateFactor_ok hf h.order hm (h.dim hm) (getSolve_ok hc (by simp)) e hF, fun i hi => ⟨fun b hb => ?_, ?_⟩⟩
  · have := congrFun (congrFun hFV ⟨i, hi⟩) ⟨b, hb⟩
    rw [mul_apply] at this
    simp only [mat] at this
    rw [Finset.sum_range]
    calc _ = ∑ a : Fin R, F.get [i, a] * V.get [(a : ℕ), b] :=
          Finset.sum_congr rfl fun a _ => by rw [hV, get_ofMat a.2 hb]
      _ = M.get [i, b] := this
      _ = _ := by rw [hM, mttkrpMat, get_ofMat hi hb]
  · set G := mat M n R * ((mat (E.svd V).2.2 (min R R) R)ᵀ * diagonal (fun i => LA.sInv (vec (E.svd V).2.1 (min R R)) i *
      LA.sInv (vec (E.svd V).2.1 (min R R)) i) * mat (E.svd V).2.2 (min R R) R) with hG
    refine ⟨fun b => if hb : b < R then G ⟨i, hi⟩ ⟨b, hb⟩ else 0, fun a ha => ?_⟩
    have := congrFun (congrFun hF' ⟨i, hi⟩) ⟨a, ha⟩
    rw [mul_apply] at this
    rw [Finset.sum_range]
    refine (show F.get [i, a] = _ from this).trans (Finset.sum_congr rfl fun b _ => ?_)
    beta_reduce
    rw [dif_pos b.2]
    show _ * V.get [(b : ℕ), a] = _
    rw [hV, get_ofMat b.2 ha]

/-- The rows of the two updates correspond. -/
theorem row_moved {R : ℕ} (hR : 0 < R) {perm : Equiv.Perm ℕ} (hp : ∀ r, perm r < R ↔ r < R) {V V' : ℕ → ℕ → ℝ}
    (hsym : ∀ a b, V' a b = V' b a) {f f' α β M M' : ℕ → ℝ} {B c : ℝ} (hB : 0 < B)
    (hβ : ∀ r < R, β r ^ 2 = B) (hαβ : ∀ r < R, α r * β r = c)
    (hV : ∀ a < R, ∀ b < R, V' (perm a) (perm b) = β a * β b * V a b)
    (hM : ∀ b < R, M' (perm b) = c * β b * M b)
    (h1 : ∀ b < R, ∑ a ∈ Finset.range R, f a * V a b = M b)
    (h1' : ∀ b < R, ∑ a ∈ Finset.range R, f' a * V' a b = M' b)
    (h2 : ∃ W : ℕ → ℝ, ∀ a < R, f a = ∑ b ∈ Finset.range R, W b * V b a)
    (h2' : ∃ W : ℕ → ℝ, ∀ a < R, f' a = ∑ b ∈ Finset.range R, W b * V' b a) :
    ∀ r < R, f' (perm r) = α r * f r := by
  obtain ⟨W, hW⟩ := h2
  obtain ⟨W', hW'⟩ := h2'
  have hβ0 : ∀ r < R, β r ≠ 0 := fun r hr h0 => by
    have := hβ r hr; rw [h0] at this; norm_num at this; exact hB.ne this
  have key := row_unique (R := R) (U := fun a b => V' (perm a) (perm b)) (fun a _ b _ => hsym _ _)
    (d := fun r => f' (perm r) - α r * f r) (W := fun b => W' (perm b) - c / B * (W b / β b)) ?_ ?_
  · intro r hr
    exact sub_eq_zero.1 (key r hr)
  · intro b hb
    have e1 : ∑ a ∈ Finset.range R, f' (perm a) * V' (perm a) (perm b) = c * β b * M b := by
      rw [← hM b hb, ← h1' _ ((hp b).2 hb), sum_move hp fun a => f' a * V' a (perm b)]
    have e2 : ∑ a ∈ Finset.range R, α a * f a * V' (perm a) (perm b) = c * β b * M b := by
      rw [← h1 b hb, Finset.mul_sum]
      refine Finset.sum_congr rfl fun a ha => ?_
      have ha : a < R := by simpa using ha
      rw [hV a ha b hb, ← hαβ a ha]; ring
    simp only [sub_mul, Finset.sum_sub_distrib]
    rw [e1, e2, sub_self]
  · intro a ha
    have e1 : f' (perm a) = ∑ b ∈ Finset.range R, W' (perm b) * V' (perm b) (perm a) := by
      rw [hW' _ ((hp a).2 ha), sum_move hp]
    have e2 : α a * f a = ∑ b ∈ Finset.range R, c / B * (W b / β b) * V' (perm b) (perm a) := by
      rw [hW a ha, Finset.mul_sum]
      refine Finset.sum_congr rfl fun b hb => ?_
      have hb : b < R := by simpa using hb
      have := hβ0 b hb
      rw [hV b hb a ha, ← hβ a ha, ← hαβ a ha]
      have := hβ0 a ha
      field_simp
    simp only [sub_mul, Finset.sum_sub_distrib]
    rw [e1, e2]

end
end TK
