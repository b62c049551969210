import Verif.Lemmas.Refine
import Verif.Props.CMTFFitMore
import Verif.Props.Refit

/-!
# Property C128 (the order of the coupled matrices)
-/

namespace TK
open NDArray

noncomputable section

/-- `l'` is the list `l` in another order: item `i` of `l'` is item `π i` of `l`. -/
def Listed {β : Type} (π : Equiv.Perm ℕ) (l' l : List β) : Prop := ∀ i, l'[i]? = l[π i]?

theorem Listed.getD {β : Type} {π : Equiv.Perm ℕ} {l' l : List β} (h : Listed π l' l) (i : ℕ) (d : β) :
    l'.getD i d = l.getD (π i) d := by
  rw [List.getD_eq_getElem?_getD, List.getD_eq_getElem?_getD, h i]

theorem Listed.length {β : Type} {π : Equiv.Perm ℕ} {l' l : List β} (h : Listed π l' l)
    (hp : ∀ i, π i < l.length ↔ i < l.length) : l'.length = l.length := by
  have key : ∀ i, i < l'.length ↔ i < l.length := by
    intro i
    rw [← hp i, ← not_iff_not, not_lt, not_lt, ← List.getElem?_eq_none_iff, ← List.getElem?_eq_none_iff, h i]
  refine le_antisymm (le_of_not_gt fun hc => ?_) (le_of_not_gt fun hc => ?_)
  · exact absurd ((key _).1 hc) (lt_irrefl _)
  · exact absurd ((key _).2 hc) (lt_irrefl _)

theorem listed_of_getD {β : Type} {π : Equiv.Perm ℕ} {l' l : List β} {n : ℕ} (h' : l'.length = n) (h : l.length = n)
    (hp : ∀ i, π i < n ↔ i < n) {d : β} (hd : ∀ i < n, l'.getD i d = l.getD (π i) d) : Listed π l' l := by
  intro i
  by_cases hi : i < n
  · have hi2 := (hp i).2 hi
    have := hd i hi
    rw [getD_of_lt (by omega), getD_of_lt (by omega)] at this
    rw [List.getElem?_eq_getElem (by omega), List.getElem?_eq_getElem (by omega), this]
  · have hi2 : ¬ π i < n := fun h => hi ((hp i).1 h)
    rw [List.getElem?_eq_none (by omega), List.getElem?_eq_none (by omega)]

/-- The list `l` of length `n` in the order `π`. -/
def reorder {β : Type} (π : Equiv.Perm ℕ) (n : ℕ) (d : β) (l : List β) : List β := (List.range n).map fun i => l.getD (π i) d

theorem getD_reorder {β : Type} {π : Equiv.Perm ℕ} {n : ℕ} {d : β} {l : List β} {i : ℕ} (hi : i < n) :
    (reorder π n d l).getD i d = l.getD (π i) d := by
  rw [reorder, getD_of_lt (by simpa using hi)]; simp

theorem length_reorder {β : Type} {π : Equiv.Perm ℕ} {n : ℕ} {d : β} {l : List β} : (reorder π n d l).length = n := by
  simp [reorder]

/-! ### the loops, matrix by matrix -/

theorem reconstructLoop_iff : ∀ {Us Vs ws Zs : List (NDArray ℝ)} {n : ℕ}, Us.length = n → Vs.length = n → ws.length = n →
    (CMTF.reconstructLoop Us Vs ws = .ok Zs ↔ Zs.length = n ∧
      ∀ i < n, matmul (Us.getD i noArr) (Vs.getD i noArr).T = .ok (Zs.getD i noArr)) := by
  intro Us
  induction Us with
  | nil =>
    intro Vs ws Zs n h1 h2 h3
    simp only [List.length_nil] at h1
    subst h1
    obtain rfl := List.eq_nil_of_length_eq_zero h2
    rw [CMTF.reconstructLoop]
    · constructor
      · intro h; obtain rfl := Except.ok.inj h; simp
      · rintro ⟨h, -⟩; rw [List.eq_nil_of_length_eq_zero h]
    · simp
  | cons U Us ih =>
    intro Vs ws Zs n h1 h2 h3
    rcases Vs with _ | ⟨V, Vs⟩
    · simp at h1 h2; omega
    rcases ws with _ | ⟨w, ws⟩
    · simp at h1 h3; omega
    rcases n with _ | n
    · simp at h1
    simp only [List.length_cons, Nat.add_right_cancel_iff] at h1 h2 h3
    rw [CMTF.reconstructLoop]
    constructor
    · intro h
      rw [bind_eq_ok] at h
      obtain ⟨Y, hY, h⟩ := h
      rw [bind_eq_ok] at h
      obtain ⟨Ys, hYs, h⟩ := h
      obtain rfl := Except.ok.inj h
      obtain ⟨g1, g2⟩ := (ih h1 h2 h3).1 hYs
      refine ⟨by simp [g1], fun i hi => ?_⟩
      rcases i with _ | i
      · simpa using hY
      · simpa using g2 i (by omega)
    · rintro ⟨g1, g2⟩
      rcases Zs with _ | ⟨Z, Zs⟩
      · simp at g1
      have h0 : matmul U V.T = .ok Z := by simpa using g2 0 (by omega)
      have hr := (ih (Zs := Zs) h1 h2 h3).2 ⟨by simpa using g1, fun i hi => by simpa using g2 (i + 1) (by omega)⟩
      rw [h0, bind_ok, hr, bind_ok]; rfl

/-- `‖Y - Z‖²`, and 0 for shapes that do not fit. -/
def diffSq (Y Z : NDArray ℝ) : ℝ :=
  match zipB (· - ·) Y Z with
  | .ok D => frobNorm D ^ 2
  | .error _ => 0

theorem coupledLoop_iff : ∀ {Ys Zs : List (NDArray ℝ)} {n : ℕ} {e v : ℝ}, Ys.length = n → Zs.length = n →
    (CMTF.coupledLoop Ys Zs e = .ok v ↔ (∀ i < n, ∃ D, zipB (· - ·) (Ys.getD i noArr) (Zs.getD i noArr) = .ok D) ∧
      v = e + ∑ i ∈ Finset.range n, diffSq (Ys.getD i noArr) (Zs.getD i noArr)) := by
  intro Ys
  induction Ys with
  | nil =>
    intro Zs n e v h1 h2
    simp only [List.length_nil] at h1
    subst h1
    rw [CMTF.coupledLoop]
    · simp [eq_comm]
    · simp
  | cons Y Ys ih =>
    intro Zs n e v h1 h2
    rcases Zs with _ | ⟨Z, Zs⟩
    · simp at h1 h2; omega
    rcases n with _ | n
    · simp at h1
    simp only [List.length_cons, Nat.add_right_cancel_iff] at h1 h2
    rw [CMTF.coupledLoop]
    constructor
    · intro h
      rw [bind_eq_ok] at h
      obtain ⟨D, hD, h⟩ := h
      obtain ⟨g1, g2⟩ := (ih h1 h2).1 h
      refine ⟨fun i hi => ?_, ?_⟩
      · rcases i with _ | i
        · exact ⟨D, by simpa using hD⟩
        · simpa using g1 i (by omega)
      · rw [g2, Finset.sum_range_succ']
        have : diffSq Y Z = frobNorm D ^ 2 := by rw [diffSq, hD]
        simp only [List.getD_cons_succ, List.getD_cons_zero, this]
        ring
    · rintro ⟨g1, g2⟩
      obtain ⟨D, hD⟩ := g1 0 (by omega)
      have hD : zipB (· - ·) Y Z = .ok D := by simpa using hD
      rw [hD, bind_ok]
      refine (ih h1 h2).2 ⟨fun i hi => by simpa using g1 (i + 1) (by omega), ?_⟩
      rw [g2, Finset.sum_range_succ']
      have : diffSq Y Z = frobNorm D ^ 2 := by rw [diffSq, hD]
      simp only [List.getD_cons_succ, List.getD_cons_zero, this]
      ring

/-- One pass of the loop of `_normalize_components`. -/
def scaleOne (fs : List (NDArray ℝ)) (V : NDArray ℝ) (m : Int) : Py (NDArray ℝ) := do
  let F ← pyGet fs m
  let P ← zipB (· * ·) V (newaxis0 (colNorms F))
  assignAll V P

theorem scaleLoop_iff {fs : List (NDArray ℝ)} : ∀ {Vs : List (NDArray ℝ)} {ms : List Int} {Ws : List (NDArray ℝ)} {n : ℕ},
    Vs.length = n → ms.length = n → (CMTF.scaleLoop fs Vs ms = .ok Ws ↔ Ws.length = n ∧
      ∀ i < n, scaleOne fs (Vs.getD i noArr) (ms.getD i 0) = .ok (Ws.getD i noArr)) := by
  intro Vs
  induction Vs with
  | nil =>
    intro ms Ws n h1 h2
    simp only [List.length_nil] at h1
    subst h1
    rw [CMTF.scaleLoop]
    · constructor
      · intro h; obtain rfl := Except.ok.inj h; simp
      · rintro ⟨h, -⟩; rw [List.eq_nil_of_length_eq_zero h]
    · simp
  | cons V Vs ih =>
    intro ms Ws n h1 h2
    rcases ms with _ | ⟨m, ms⟩
    · simp at h1 h2; omega
    rcases n with _ | n
    · simp at h1
    simp only [List.length_cons, Nat.add_right_cancel_iff] at h1 h2
    have hu : CMTF.scaleLoop fs (V :: Vs) (m :: ms) = (do
        let V' ← scaleOne fs V m
        let Vs' ← CMTF.scaleLoop fs Vs ms
        pure (V' :: Vs')) := by
      rw [CMTF.scaleLoop, scaleOne]
      simp only [bind_assoc]
    rw [hu]
    constructor
    · intro h
      rw [bind_eq_ok] at h
      obtain ⟨V', hV', h⟩ := h
      rw [bind_eq_ok] at h
      obtain ⟨Vs', hVs', h⟩ := h
      obtain rfl := Except.ok.inj h
      obtain ⟨g1, g2⟩ := (ih h1 h2).1 hVs'
      refine ⟨by simp [g1], fun i hi => ?_⟩
      rcases i with _ | i
      · simpa using hV'
      · simpa using g2 i (by omega)
    · rintro ⟨g1, g2⟩
      rcases Ws with _ | ⟨W, Ws⟩
      · simp at g1
      have h0 : scaleOne fs V m = .ok W := by simpa using g2 0 (by omega)
      have hr := (ih (Ws := Ws) h1 h2).2 ⟨by simpa using g1, fun i hi => by simpa using g2 (i + 1) (by omega)⟩
      rw [h0, bind_ok, hr, bind_ok]; rfl

/-- One pass of the loop of `_init_coupled_matrices`. -/
def drawOne (R : ℕ) (dU dN : ℕ → ℕ → ℝ) (nonNeg : Option (List Bool)) (Y : Option (NDArray ℝ)) (mode : Int) :
    Py (NDArray ℝ) := do
  let n ← cols (← match Y with | some Y => .ok Y | none => .error .indexError)
  let nn ← CMTF.initFlag nonNeg mode
  let V := ofMat n R (if nn then dU else dN)
  let Q ← zipB (· / ·) V (colNorms V)
  assignAll V Q

theorem pyGet_nat {β : Type} (l : List β) (i : ℕ) :
    pyGet l (i : Int) = match l[i]? with | some x => .ok x | none => .error .indexError := by
  by_cases h : i < l.length
  · rw [pyGet_ok (norm_nat h), List.getElem?_eq_getElem h]
  · rw [pyGet_error (normIdx_eq_none_iff.2 (by omega)), List.getElem?_eq_none (by omega)]

theorem initCoupledLoop_iff {c : CMTF.Config} {nonNeg : Option (List Bool)} {Ys : List (NDArray ℝ)} :
    ∀ {ms : List Int} {Ws : List (NDArray ℝ)} {n k : ℕ}, ms.length = n →
    (CMTF.initCoupledLoop c nonNeg Ys k ms = .ok Ws ↔ Ws.length = n ∧ ∀ i < n,
      drawOne c.cp.opts.rank (c.drawU (k + i)) (c.drawN (k + i)) nonNeg Ys[k + i]? (ms.getD i 0) = .ok (Ws.getD i noArr)) := by
  intro ms
  induction ms with
  | nil =>
    intro Ws n k h2
    simp only [List.length_nil] at h2
    subst h2
    rw [CMTF.initCoupledLoop]
    constructor
    · intro h; obtain rfl := Except.ok.inj h; simp
    · rintro ⟨h, -⟩; rw [List.eq_nil_of_length_eq_zero h]
  | cons m ms ih =>
    intro Ws n k h2
    rcases n with _ | n
    · simp at h2
    simp only [List.length_cons, Nat.add_right_cancel_iff] at h2
    have hu : CMTF.initCoupledLoop c nonNeg Ys k (m :: ms) = (do
        let V' ← drawOne c.cp.opts.rank (c.drawU k) (c.drawN k) nonNeg Ys[k]? m
        let Vs' ← CMTF.initCoupledLoop c nonNeg Ys (k + 1) ms
        pure (V' :: Vs')) := by
      rw [CMTF.initCoupledLoop, pyGet_nat]
      unfold drawOne
      cases Ys[k]? with
      | none => rfl
      | some Y => simp only [bind_assoc]
    rw [hu]
    constructor
    · intro h
      rw [bind_eq_ok] at h
      obtain ⟨V', hV', h⟩ := h
      rw [bind_eq_ok] at h
      obtain ⟨Vs', hVs', h⟩ := h
      obtain rfl := Except.ok.inj h
      obtain ⟨g1, g2⟩ := (ih (k := k + 1) h2).1 hVs'
      refine ⟨by simp [g1], fun i hi => ?_⟩
      rcases i with _ | i
      · simpa using hV'
      · have := g2 i (by omega)
        rw [show k + 1 + i = k + (i + 1) by omega] at this
        simpa using this
    · rintro ⟨g1, g2⟩
      rcases Ws with _ | ⟨W, Ws⟩
      · simp at g1
      have h0 := g2 0 (by omega)
      simp only [Nat.add_zero, List.getD_cons_zero] at h0
      have hr := (ih (Ws := Ws) (k := k + 1) h2).2 ⟨by simpa using g1, fun i hi => by
        have := g2 (i + 1) (by omega)
        rw [show k + (i + 1) = k + 1 + i by omega] at this
        simpa using this⟩
      rw [h0, bind_ok, hr, bind_ok]; rfl

/-! ### the updates of the right factors -/

/-- One pass of the loop of `_update_uncoupled_matrix_factors`: the new right factor of matrix `i` of mode `m`. -/
def solveOne (E : Ext) (s : CMTFState) (m : Int) (i : ℕ) : Py (NDArray ℝ) := do
  let U ← pyGet s.cp.dec.factorMatrices m
  let Y ← pyGet s.Ys i
  let nn ← CMTF.flagAt s.cp.nonNeg m
  let new ← (if nn then nonNegativeRightsolve E U.T Y.T else rightsolve E U.T Y.T)
  let V ← pyGet s.V i
  assignAll V new

theorem updateUncoupled_eq {E : Ext} {s : CMTFState} {m : Int} {i : ℕ} {t : List ℕ} :
    CMTF.updateUncoupled E s (m, i :: t) = (do
      let V' ← solveOne E s m i
      pure { s with V := s.V.set i V' }) := by
  rw [CMTF.updateUncoupled, solveOne]
  simp only [pyGet_zero_cons, bind_ok, bind_assoc]

theorem solveOne_lt {E : Ext} {s : CMTFState} {m : Int} {i : ℕ} {W : NDArray ℝ} (h : solveOne E s m i = .ok W) :
    i < s.V.length := by
  by_contra hc
  unfold solveOne at h
  obtain ⟨U, -, h⟩ := bind_eq_ok.1 h
  obtain ⟨Y, -, h⟩ := bind_eq_ok.1 h
  obtain ⟨nn, -, h⟩ := bind_eq_ok.1 h
  obtain ⟨new, -, h⟩ := bind_eq_ok.1 h
  obtain ⟨V, hV, -⟩ := bind_eq_ok.1 h
  rw [pyGet_nat, List.getElem?_eq_none (by omega)] at hV
  cases hV

/-- The result only depends on the matrix and the right factor with number `i`. -/
theorem solveOne_congr {E : Ext} {s s' : CMTFState} {m : Int} {i i' : ℕ} (hcp : s'.cp = s.cp) (hY : s'.Ys[i']? = s.Ys[i]?)
    (hV : s'.V[i']? = s.V[i]?) : solveOne E s' m i' = solveOne E s m i := by
  simp only [solveOne, hcp, pyGet_nat, hY, hV]

/-- The numbers of the matrices whose right factors are updated. -/
def heads (D : List (Int × List ℕ)) : List ℕ := D.map fun p => p.2.headD 0

theorem uncoupled_forward {E : Ext} : ∀ {D : List (Int × List ℕ)} {s s1 : CMTFState}, (heads D).Nodup → (∀ p ∈ D, p.2 ≠ []) →
    D.foldlM (CMTF.updateUncoupled E) s = .ok s1 → s1 = { s with V := s1.V } ∧ s1.V.length = s.V.length ∧
      (∀ p ∈ D, solveOne E s p.1 (p.2.headD 0) = .ok (s1.V.getD (p.2.headD 0) noArr)) ∧
      ∀ i, i ∉ heads D → s1.V[i]? = s.V[i]? := by
  intro D
  induction D with
  | nil =>
    intro s s1 _ _ h
    obtain rfl := Except.ok.inj h
    exact ⟨rfl, rfl, by simp, fun _ _ => rfl⟩
  | cons p D ih =>
    intro s s1 hn hne h
    obtain ⟨m, l⟩ := p
    obtain ⟨i, t, rfl⟩ := List.exists_cons_of_ne_nil (hne (m, l) (by simp))
    rw [List.foldlM_cons, bind_eq_ok] at h
    obtain ⟨s0, h0, h⟩ := h
    rw [updateUncoupled_eq, bind_eq_ok] at h0
    obtain ⟨V', hV', h0⟩ := h0
    obtain rfl := Except.ok.inj h0
    have hni : i ∉ heads D ∧ (heads D).Nodup := by simpa [heads] using hn
    obtain ⟨g1, g2, g3, g4⟩ := ih hni.2 (fun p hp => hne p (by simp [hp])) h
    have hlt := solveOne_lt hV'
    refine ⟨g1, by rw [g2]; simp, fun p hp => ?_, fun j hj => ?_⟩
    · rcases List.mem_cons.1 hp with rfl | hq
      · show solveOne E s m i = .ok (s1.V.getD i noArr)
        rw [hV', List.getD_eq_getElem?_getD, g4 i hni.1]
        simp [hlt]
      · rw [← g3 p hq]
        symm
        refine solveOne_congr (s := s) rfl rfl ?_
        have hne' : i ≠ p.2.headD 0 := by
          rintro rfl
          exact hni.1 (List.mem_map_of_mem (f := fun p : Int × List ℕ => p.2.headD 0) hq)
        show (s.V.set i V')[p.2.headD 0]? = _
        rw [List.getElem?_set_ne hne']
    · have hj' : j ≠ i ∧ j ∉ heads D := by simpa [heads] using hj
      rw [g4 j hj'.2]
      show (s.V.set i V')[j]? = _
      rw [List.getElem?_set_ne (Ne.symm hj'.1)]

theorem uncoupled_backward {E : Ext} : ∀ {D : List (Int × List ℕ)} {s : CMTFState}, (heads D).Nodup → (∀ p ∈ D, p.2 ≠ []) →
    (∀ p ∈ D, ∃ W, solveOne E s p.1 (p.2.headD 0) = .ok W) → ∃ s1, D.foldlM (CMTF.updateUncoupled E) s = .ok s1 := by
  intro D
  induction D with
  | nil => intro s _ _ _; exact ⟨s, rfl⟩
  | cons p D ih =>
    intro s hn hne h
    obtain ⟨m, l⟩ := p
    obtain ⟨i, t, rfl⟩ := List.exists_cons_of_ne_nil (hne (m, l) (by simp))
    obtain ⟨W, hW⟩ := h (m, i :: t) (by simp)
    have hW : solveOne E s m i = .ok W := hW
    have hni : i ∉ heads D ∧ (heads D).Nodup := by simpa [heads] using hn
    obtain ⟨s1, h1⟩ := ih (s := { s with V := s.V.set i W }) hni.2 (fun p hp => hne p (by simp [hp])) (fun p hp => by
      obtain ⟨W', hW'⟩ := h p (by simp [hp])
      refine ⟨W', Eq.trans (solveOne_congr (s := s) rfl rfl ?_) hW'⟩
      have hne' : i ≠ p.2.headD 0 := by
        rintro rfl
        exact hni.1 (List.mem_map_of_mem (f := fun p : Int × List ℕ => p.2.headD 0) hp)
      show (s.V.set i W)[p.2.headD 0]? = _
      rw [List.getElem?_set_ne hne'])
    refine ⟨s1, ?_⟩
    rw [List.foldlM_cons, updateUncoupled_eq, hW, bind_ok]
    exact h1

/-! ### the dictionary of the coupling modes -/

theorem mem_heads {modes : List Int} {D : List (Int × List ℕ)} (h : MapOk modes modes.length D) (i : ℕ) :
    i ∈ heads D ↔ FirstOf modes i := by
  constructor
  · intro hi
    obtain ⟨⟨m, l⟩, hp, rfl⟩ := List.mem_map.1 hi
    obtain ⟨k, t, rfl, hk, hkf, hall⟩ := h.head hp
    exact ⟨(hall k (by simp)).1, fun j hj => by rw [List.headD_cons, hk]; exact hkf j hj⟩
  · rintro ⟨hi, hf⟩
    obtain ⟨l, hl⟩ := h.mem i hi _ (List.getElem?_eq_getElem hi)
    obtain ⟨k, t, rfl, hk, hkf, hall⟩ := h.head hl
    have : k = i := by
      rcases Nat.lt_trichotomy k i with hlt | heq | hgt
      · exact absurd (hk.trans (List.getElem?_eq_getElem hi).symm) (hf k hlt)
      · exact heq
      · exact absurd (List.getElem?_eq_getElem hi) (hkf i hgt)
    subst this
    exact List.mem_map.2 ⟨_, hl, rfl⟩

theorem heads_nodup {modes : List Int} {D : List (Int × List ℕ)} (h : MapOk modes modes.length D) : (heads D).Nodup := by
  have hD : D.Nodup := List.Nodup.of_map _ h.nodup
  refine List.Nodup.map_on ?_ hD
  rintro ⟨m, l⟩ hp ⟨m', l'⟩ hp' he
  obtain ⟨k, t, rfl, hk, -⟩ := h.head hp
  obtain ⟨k', t', rfl, hk', -⟩ := h.head hp'
  obtain rfl : k = k' := he
  obtain rfl : m = m' := by rw [hk] at hk'; simpa using hk'
  rw [(h.entry _ _ hp).2, (h.entry _ _ hp').2]

/-- The first matrix of a mode is determined by the mode. -/
theorem firstOf_unique {modes : List Int} {i j : ℕ} (hi : FirstOf modes i) (hj : FirstOf modes j) (h : modes[i]? = modes[j]?) :
    i = j := by
  rcases Nat.lt_trichotomy i j with hlt | heq | hgt
  · exact absurd h (hj.2 i hlt)
  · exact heq
  · exact absurd h.symm (hi.2 j hgt)

/-! ### two objects with the coupled matrices in another order -/

/-- The coupled matrices and coupling modes of `s'` are those of `s` in another order, in which the first matrix of every mode is
still the first one; everything that does not concern coupled matrices is the same. -/
structure CMTFState.Arranged (π : Equiv.Perm ℕ) (n : ℕ) (s' s : CMTFState) : Prop where
  cp : s'.cp = s.cp
  perm : ∀ i, π i < n ↔ i < n
  first : ∀ i, FirstOf s'.modes i ↔ FirstOf s.modes (π i)
  modes : Listed π s'.modes s.modes
  Ys : Listed π s'.Ys s.Ys
  map' : s'.map = CMTF.mapFrom 0 s'.modes []
  map : s.map = CMTF.mapFrom 0 s.modes []
  lenM : s.modes.length = n
  lenY : s.Ys.length = n

/-- The right factors are in the new order, too. -/
structure CMTFState.Reordered (π : Equiv.Perm ℕ) (n : ℕ) (s' s : CMTFState) : Prop extends s'.Arranged π n s where
  V : Listed π s'.V s.V
  lenV : s.V.length = n
  lenW : s.coupledWeights.length = n
  lenW' : s'.coupledWeights.length = n

variable {π : Equiv.Perm ℕ} {n : ℕ} {s' s : CMTFState}

theorem CMTFState.Arranged.lenM' (h : s'.Arranged π n s) : s'.modes.length = n :=
  (h.modes.length (by rw [h.lenM]; exact h.perm)).trans h.lenM

theorem CMTFState.Arranged.lenY' (h : s'.Arranged π n s) : s'.Ys.length = n :=
  (h.Ys.length (by rw [h.lenY]; exact h.perm)).trans h.lenY

theorem CMTFState.Reordered.lenV' (h : s'.Reordered π n s) : s'.V.length = n :=
  (h.V.length (by rw [h.lenV]; exact h.perm)).trans h.lenV

theorem CMTFState.Arranged.mapOk (h : s'.Arranged π n s) : MapOk s.modes s.modes.length s.map := by
  rw [h.map]; exact TK.mapOk _

theorem CMTFState.Arranged.mapOk' (h : s'.Arranged π n s) : MapOk s'.modes s'.modes.length s'.map := by
  rw [h.map']; exact TK.mapOk _

/-- Sums over all matrices do not depend on the order. -/
theorem sum_reordered (hp : ∀ i, π i < n ↔ i < n) (f : ℕ → ℝ) :
    ∑ i ∈ Finset.range n, f (π i) = ∑ i ∈ Finset.range n, f i :=
  Finset.sum_equiv π (by simpa using fun i => (hp i).symm) (by simp)

theorem coupledFactors_iff {s : CMTFState} {Us : List (NDArray ℝ)} (hm : s.modes.length = n) :
    CMTF.coupledFactors s = .ok Us ↔ Us.length = n ∧
      ∀ i < n, pyGet s.cp.dec.factorMatrices (s.modes.getD i 0) = .ok (Us.getD i noArr) := by
  rw [CMTF.coupledFactors, mapM_ok_iff, List.forall₂_iff_get]
  constructor
  · rintro ⟨h1, h2⟩
    refine ⟨by omega, fun i hi => ?_⟩
    have := h2 i (by omega) (by omega)
    rw [getD_of_lt (by omega), getD_of_lt (by omega)]
    simpa using this
  · rintro ⟨h1, h2⟩
    refine ⟨by omega, fun i hi hi' => ?_⟩
    have := h2 i (by omega)
    rw [getD_of_lt (by omega), getD_of_lt (by omega)] at this
    simpa using this

/-- The errors of the coupled matrices add up to the same sum. -/
theorem coupledSSE_reordered (h : s'.Reordered π n s) {v : ℝ} (hv : CMTF.coupledSSE s = .ok v) : CMTF.coupledSSE s' = .ok v := by
  rw [CMTF.coupledSSE, bind_eq_ok] at hv
  obtain ⟨Zs, hZ, hv⟩ := hv
  rw [CMTF.reconstructed, bind_eq_ok] at hZ
  obtain ⟨Us, hU, hZ⟩ := hZ
  obtain ⟨u1, u2⟩ := (coupledFactors_iff h.lenM).1 hU
  obtain ⟨z1, z2⟩ := (reconstructLoop_iff u1 h.lenV h.lenW).1 hZ
  obtain ⟨g1, g2⟩ := (coupledLoop_iff h.lenY z1).1 hv
  have hU' : CMTF.coupledFactors s' = .ok (reorder π n noArr Us) := by
    refine (coupledFactors_iff h.lenM').2 ⟨length_reorder, fun i hi => ?_⟩
    rw [getD_reorder hi, h.cp, h.modes.getD]
    exact u2 _ ((h.perm i).2 hi)
  have hZ' : CMTF.reconstructLoop (reorder π n noArr Us) s'.V s'.coupledWeights = .ok (reorder π n noArr Zs) := by
    refine (reconstructLoop_iff length_reorder h.lenV' h.lenW').2 ⟨length_reorder, fun i hi => ?_⟩
    rw [getD_reorder hi, getD_reorder hi, h.V.getD]
    exact z2 _ ((h.perm i).2 hi)
  rw [CMTF.coupledSSE, CMTF.reconstructed, hU', bind_ok, hZ', bind_ok, coupledLoop_iff h.lenY' length_reorder]
  refine ⟨fun i hi => ?_, ?_⟩
  · rw [getD_reorder hi, h.Ys.getD]
    exact g1 _ ((h.perm i).2 hi)
  · rw [g2, ← sum_reordered h.perm]
    congr 1
    refine Finset.sum_congr rfl fun i hi => ?_
    rw [getD_reorder (by simpa using hi), h.Ys.getD]

/-- The SSE is the same. -/
theorem sse_reordered (h : s'.Reordered π n s) {v : ℝ} (hv : CMTF.sse s = .ok v) : CMTF.sse s' = .ok v := by
  rw [CMTF.sse, bind_eq_ok] at hv
  obtain ⟨Y, hY, hv⟩ := hv
  rw [bind_eq_ok] at hv
  obtain ⟨D, hD, hv⟩ := hv
  rw [bind_eq_ok] at hv
  obtain ⟨e, he, hv⟩ := hv
  rw [CMTF.sse, h.cp, hY, bind_ok, hD, bind_ok, coupledSSE_reordered h he, bind_ok]
  exact hv

/-- The dictionaries have entries for the same modes, with the corresponding first matrices. -/
theorem lookup_reordered (h : s'.Arranged π n s) (m : Int) :
    (CMTF.lookup m s.map = none ∧ CMTF.lookup m s'.map = none) ∨
      ∃ i i' t t', CMTF.lookup m s.map = some (i :: t) ∧ CMTF.lookup m s'.map = some (i' :: t') ∧ i = π i' ∧
        (∀ k ∈ i :: t, k < n) ∧ ∀ k ∈ i' :: t', k < n := by
  have key : ∀ k, s.modes[k]? = some m ↔ s'.modes[π.symm k]? = some m := by
    intro k; rw [h.modes, Equiv.apply_symm_apply]
  cases hl : CMTF.lookup m s.map with
  | none =>
    left
    refine ⟨rfl, ?_⟩
    cases hl' : CMTF.lookup m s'.map with
    | none => rfl
    | some l =>
      exfalso
      obtain ⟨i, t, rfl, hi, -, hall⟩ := h.mapOk'.head (lookup_mem hl')
      have : s.modes[π i]? = some m := by rw [← h.modes]; exact hi
      obtain ⟨l, hl2⟩ := h.mapOk.mem (π i) (List.getElem?_eq_some_iff.1 this).1 m this
      exact lookup_none hl _ hl2
  | some l =>
    right
    obtain ⟨i, t, rfl, hi, hf, hall⟩ := h.mapOk.head (lookup_mem hl)
    cases hl' : CMTF.lookup m s'.map with
    | none =>
      exfalso
      have := (key i).1 hi
      obtain ⟨l, hl2⟩ := h.mapOk'.mem _ (List.getElem?_eq_some_iff.1 this).1 m this
      exact lookup_none hl' _ hl2
    | some l' =>
      obtain ⟨i', t', rfl, hi', hf', hall'⟩ := h.mapOk'.head (lookup_mem hl')
      refine ⟨i, i', t, t', rfl, rfl, ?_, fun k hk => by rw [← h.lenM]; exact (hall k hk).1,
        fun k hk => by rw [← h.lenM']; exact (hall' k hk).1⟩
      have f' : FirstOf s'.modes i' := ⟨(hall' i' (by simp)).1, fun j hj => by rw [hi']; exact hf' j hj⟩
      have f : FirstOf s.modes i := ⟨(hall i (by simp)).1, fun j hj => by rw [hi]; exact hf j hj⟩
      refine firstOf_unique f ((h.first i').1 f') ?_
      rw [hi, ← h.modes, hi']

theorem alsLhs_reordered (h : s'.Reordered π n s) (rank m : ℕ) : CMTF.alsLhs rank m s' = CMTF.alsLhs rank m s := by
  unfold CMTF.alsLhs
  rcases lookup_reordered h.toArranged m with ⟨e1, e2⟩ | ⟨i, i', t, t', e1, e2, rfl, h1, h2⟩
  · simp only [e1, e2, h.cp]
  · simp only [e1, e2, h.cp]
    rw [mapM_pyGet (l := s'.V) (by rw [h.lenV']; exact h2), mapM_pyGet (l := s.V) (by rw [h.lenV]; exact h1)]
    simp only [bind_ok, List.map_cons, pyGet_zero_cons, h.V.getD]

theorem alsRhs_reordered (h : s'.Reordered π n s) (m : ℕ) : CMTF.alsRhs m s' = CMTF.alsRhs m s := by
  unfold CMTF.alsRhs
  rcases lookup_reordered h.toArranged m with ⟨e1, e2⟩ | ⟨i, i', t, t', e1, e2, rfl, h1, h2⟩
  · simp only [e1, e2, h.cp]
  · simp only [e1, e2, h.cp]
    rw [mapM_pyGet (l := s'.Ys) (by rw [h.lenY']; exact h2), mapM_pyGet (l := s.Ys) (by rw [h.lenY]; exact h1)]
    simp only [bind_ok, List.map_cons, pyGet_zero_cons, h.Ys.getD]

theorem CMTFState.Reordered.withCp (h : s'.Reordered π n s) (z : CPState) :
    ({ s' with cp := z } : CMTFState).Reordered π n { s with cp := z } :=
  ⟨⟨rfl, h.perm, h.first, h.modes, h.Ys, h.map', h.map, h.lenM, h.lenY⟩, h.V, h.lenV, h.lenW, h.lenW'⟩

theorem updateFactor_reordered {E : Ext} {o : CPOpts} {m : ℕ} (h : s'.Reordered π n s) {s1 : CMTFState}
    (h1 : CMTF.updateFactor E o m s = .ok s1) : ∃ t, CMTF.updateFactor E o m s' = .ok t ∧ t.Reordered π n s1 := by
  unfold CMTF.updateFactor at h1 ⊢
  rw [alsLhs_reordered h, alsRhs_reordered h, h.cp]
  obtain ⟨lhs, e1, h1⟩ := bind_eq_ok.1 h1
  obtain ⟨rhs, e2, h1⟩ := bind_eq_ok.1 h1
  obtain ⟨solve, e3, h1⟩ := bind_eq_ok.1 h1
  obtain ⟨new, e4, h1⟩ := bind_eq_ok.1 h1
  obtain ⟨F, e5, h1⟩ := bind_eq_ok.1 h1
  obtain ⟨F', e6, h1⟩ := bind_eq_ok.1 h1
  obtain rfl := Except.ok.inj h1
  rw [e1, bind_ok, e2, bind_ok, e3, bind_ok, e4, bind_ok, e5, bind_ok, e6, bind_ok]
  exact ⟨_, rfl, h.withCp _⟩

theorem updateModes_reordered {E : Ext} {o : CPOpts} : ∀ (l : List ℕ) {s' s s1 : CMTFState}, s'.Reordered π n s →
    CMTF.updateModes E o l s = .ok s1 → ∃ t, CMTF.updateModes E o l s' = .ok t ∧ t.Reordered π n s1
  | [], _, _, _, h, h1 => by
    obtain rfl := Except.ok.inj h1
    exact ⟨_, rfl, h⟩
  | m :: l, s', s, s1, h, h1 => by
    unfold CMTF.updateModes at h1 ⊢
    rw [List.foldlM_cons] at h1 ⊢
    obtain ⟨s0, h0, h1⟩ := bind_eq_ok.1 h1
    obtain ⟨b, hb, h0⟩ := bind_eq_ok.1 h0
    rw [h.cp, hb, bind_ok]
    cases b with
    | true => cases h0
    | false =>
      simp only [Bool.false_eq_true, if_false] at h0 ⊢
      obtain ⟨t0, e0, r0⟩ := updateFactor_reordered h h0
      rw [e0, bind_ok]
      exact updateModes_reordered l r0 h1

theorem uncoupled_reordered {E : Ext} (h : s'.Reordered π n s) {s1 : CMTFState}
    (h1 : s.map.foldlM (CMTF.updateUncoupled E) s = .ok s1) :
    ∃ t, s'.map.foldlM (CMTF.updateUncoupled E) s' = .ok t ∧ t.Reordered π n s1 := by
  have hne : ∀ p ∈ s.map, p.2 ≠ [] := fun p hp => (h.mapOk.entry p.1 p.2 hp).1
  have hne' : ∀ p ∈ s'.map, p.2 ≠ [] := fun p hp => (h.mapOk'.entry p.1 p.2 hp).1
  obtain ⟨a1, a2, a3, a4⟩ := uncoupled_forward (heads_nodup h.mapOk) hne h1
  -- the entry of `s` that belongs to an entry of `s'`
  have hpair : ∀ p ∈ s'.map, ∃ q ∈ s.map, q.1 = p.1 ∧ q.2.headD 0 = π (p.2.headD 0) := by
    rintro ⟨m, l⟩ hp
    obtain ⟨k, t, rfl, hk, hkf, hall⟩ := h.mapOk'.head hp
    have fk : FirstOf s'.modes k := ⟨(hall k (by simp)).1, fun j hj => by rw [hk]; exact hkf j hj⟩
    have f2 := (h.first k).1 fk
    have hm : s.modes[π k]? = some m := by rw [← h.modes]; exact hk
    obtain ⟨l, hl⟩ := h.mapOk.mem _ f2.1 m hm
    obtain ⟨k2, t2, rfl, hk2, hkf2, hall2⟩ := h.mapOk.head hl
    refine ⟨_, hl, rfl, ?_⟩
    have f1 : FirstOf s.modes k2 := ⟨(hall2 k2 (by simp)).1, fun j hj => by rw [hk2]; exact hkf2 j hj⟩
    exact firstOf_unique f1 f2 (hk2.trans hm.symm)
  have hsolve : ∀ p ∈ s'.map, solveOne E s' p.1 (p.2.headD 0) = .ok (s1.V.getD (π (p.2.headD 0)) noArr) := by
    intro p hp
    obtain ⟨q, hq, e1, e2⟩ := hpair p hp
    rw [← e2, ← a3 q hq, e1]
    refine solveOne_congr h.cp ?_ ?_
    · rw [e2]; exact h.Ys _
    · rw [e2]; exact h.V _
  obtain ⟨t, ht⟩ := uncoupled_backward (E := E) (heads_nodup h.mapOk') hne' fun p hp => ⟨_, hsolve p hp⟩
  obtain ⟨b1, b2, b3, b4⟩ := uncoupled_forward (heads_nodup h.mapOk') hne' ht
  refine ⟨t, ht, ?_⟩
  have hV : Listed π t.V s1.V := by
    refine listed_of_getD (n := n) (d := noArr) (b2.trans h.lenV') (a2.trans h.lenV) h.perm fun i hi => ?_
    by_cases hf : FirstOf s'.modes i
    · obtain ⟨p, hp, rfl⟩ := List.mem_map.1 ((mem_heads h.mapOk' i).2 hf)
      exact Except.ok.inj ((b3 p hp).symm.trans (hsolve p hp))
    · have hf2 : ¬ FirstOf s.modes (π i) := fun hx => hf ((h.first i).2 hx)
      rw [List.getD_eq_getElem?_getD, List.getD_eq_getElem?_getD, b4 i (fun hx => hf ((mem_heads h.mapOk' i).1 hx)),
        a4 _ (fun hx => hf2 ((mem_heads h.mapOk _).1 hx)), h.V]
  rw [a1, b1]
  exact ⟨⟨h.cp, h.perm, h.first, h.modes, h.Ys, h.map', h.map, h.lenM, h.lenY⟩, hV, a2.trans h.lenV, h.lenW, h.lenW'⟩

theorem updateFactors_reordered {E : Ext} {o : CPOpts} (h : s'.Reordered π n s) {s1 : CMTFState}
    (h1 : CMTF.updateFactors E o s = .ok s1) : ∃ t, CMTF.updateFactors E o s' = .ok t ∧ t.Reordered π n s1 := by
  unfold CMTF.updateFactors at h1 ⊢
  obtain ⟨s0, h0, h1⟩ := bind_eq_ok.1 h1
  obtain ⟨t0, e0, r0⟩ := updateModes_reordered _ h h0
  rw [h.cp, e0, bind_ok]
  exact uncoupled_reordered r0 h1

theorem iteration_reordered {E : Ext} {o : CPOpts} (h : s'.Reordered π n s) {s1 : CMTFState}
    (h1 : CMTF.iteration E o s = .ok s1) : ∃ t, CMTF.iteration E o s' = .ok t ∧ t.Reordered π n s1 := by
  unfold CMTF.iteration at h1 ⊢
  obtain ⟨s0, h0, h1⟩ := bind_eq_ok.1 h1
  obtain ⟨t0, e0, r0⟩ := updateFactors_reordered h h0
  rw [e0, bind_ok]
  unfold CMTF.updateConvergence at h1 ⊢
  obtain ⟨e, he, h1⟩ := bind_eq_ok.1 h1
  obtain rfl := Except.ok.inj h1
  rw [sse_reordered r0 he, bind_ok, r0.cp]
  exact ⟨_, rfl, r0.withCp _⟩

theorem normalize_reordered {eps : ℝ} (h : s'.Reordered π n s) {s1 : CMTFState}
    (h1 : CMTF.normalizeComponents s eps = .ok s1) : ∃ t, CMTF.normalizeComponents s' eps = .ok t ∧ t.Reordered π n s1 := by
  unfold CMTF.normalizeComponents at h1 ⊢
  obtain ⟨Vs, hVs, h1⟩ := bind_eq_ok.1 h1
  obtain ⟨dec, hd, h1⟩ := bind_eq_ok.1 h1
  obtain rfl := Except.ok.inj h1
  obtain ⟨g1, g2⟩ := (scaleLoop_iff h.lenV h.lenM).1 hVs
  have hVs' : CMTF.scaleLoop s'.cp.dec.factorMatrices s'.V s'.modes = .ok (reorder π n noArr Vs) := by
    refine (scaleLoop_iff h.lenV' h.lenM').2 ⟨length_reorder, fun i hi => ?_⟩
    rw [getD_reorder hi, h.cp, h.V.getD, h.modes.getD]
    exact g2 _ ((h.perm i).2 hi)
  rw [hVs', bind_ok, h.cp, hd, bind_ok]
  refine ⟨_, rfl, ⟨rfl, h.perm, h.first, h.modes, h.Ys, h.map', h.map, h.lenM, h.lenY⟩, ?_, g1, h.lenW, h.lenW'⟩
  exact listed_of_getD length_reorder g1 h.perm fun i hi => getD_reorder hi

theorem initRest_reordered {E : Ext} {eps : ℝ} (h : s'.Reordered π n s) {s1 : CMTFState}
    (h1 : CMTF.initRest E s eps = .ok s1) : ∃ t, CMTF.initRest E s' eps = .ok t ∧ t.Reordered π n s1 := by
  unfold CMTF.initRest at h1 ⊢
  rw [h.cp]
  dsimp only at h1 ⊢
  obtain ⟨fs, hfs, h1⟩ := bind_eq_ok.1 h1
  obtain ⟨e, he, h1⟩ := bind_eq_ok.1 h1
  obtain ⟨dec, hd, h1⟩ := bind_eq_ok.1 h1
  obtain rfl := Except.ok.inj h1
  have := sse_reordered (h.withCp _) he
  rw [hfs, bind_ok, this, bind_ok, hd, bind_ok]
  exact ⟨_, rfl, h.withCp _⟩

theorem initCoupled_reordered {c' c : CMTF.Config} (hcp : c'.cp = c.cp) (hN : ∀ i, c'.drawN i = c.drawN (π i))
    (hU : ∀ i, c'.drawU i = c.drawU (π i)) (h : s'.Arranged π n s) {s1 : CMTFState} (h1 : CMTF.initCoupled c s = .ok s1) :
    ∃ t, CMTF.initCoupled c' s' = .ok t ∧ t.Reordered π n s1 := by
  unfold CMTF.initCoupled at h1 ⊢
  obtain ⟨Vs, hVs, h1⟩ := bind_eq_ok.1 h1
  obtain rfl := Except.ok.inj h1
  obtain ⟨g1, g2⟩ := (initCoupledLoop_iff h.lenM).1 hVs
  have hVs' : CMTF.initCoupledLoop c' s'.cp.nonNeg s'.Ys 0 s'.modes = .ok (reorder π n noArr Vs) := by
    refine (initCoupledLoop_iff h.lenM').2 ⟨length_reorder, fun i hi => ?_⟩
    have := g2 _ ((h.perm i).2 hi)
    rw [Nat.zero_add] at this ⊢
    rw [getD_reorder hi, h.cp, hcp, hN, hU, h.Ys i, h.modes.getD, this]
  rw [hVs', bind_ok]
  refine ⟨_, rfl, ⟨h.cp, h.perm, h.first, h.modes, h.Ys, h.map', h.map, h.lenM, h.lenY⟩, ?_, g1, ?_, ?_⟩
  · exact listed_of_getD length_reorder g1 h.perm fun i hi => getD_reorder hi
  · simpa using h.lenM
  · simpa using h.lenM'

/-! ### whole fits -/

/-- A method of `CP_ALS` does the same to both objects. -/
theorem zoom_arranged (f : Fit CPState Unit) : Fit.Sim (CMTFState.Arranged π n) (CMTFState.Arranged π n) (fun _ _ => True)
    (CMTF.zoom f) (CMTF.zoom f) := by
  intro w' w hw a v e
  unfold CMTF.zoom at e ⊢
  rw [hw.st.cp, hw.it, hw.maxIts, hw.loggers, hw.file]
  cases hf : f ⟨w.st.cp, w.it, w.maxIts, w.loggers, w.file⟩ with
  | error err u => rw [hf] at e; cases e
  | ok b u =>
    rw [hf] at e
    injection e with e1 e2
    subst e2
    have h := hw.st
    exact ⟨(), _, rfl, ⟨⟨rfl, h.perm, h.first, h.modes, h.Ys, h.map', h.map, h.lenM, h.lenY⟩, rfl, rfl, rfl, rfl⟩, trivial⟩

/-- Loggers that do not see the order of the coupled matrices. -/
def CMTF.Config.Unordered (c : CMTF.Config) : Prop :=
  ∀ l ∈ c.logs, ∀ (π : Equiv.Perm ℕ) (n : ℕ) (s' s : CMTFState) (v : ℝ), s'.Reordered π n s → l.2 s = .ok v → l.2 s' = .ok v

theorem forall₂_self {β : Type} {P : β → β → Prop} : ∀ {l : List β}, (∀ a ∈ l, P a a) → List.Forall₂ P l l
  | [], _ => .nil
  | a :: l, h => .cons (h a (by simp)) (forall₂_self fun b hb => h b (by simp [hb]))

theorem method_reordered {E : Ext} {c' c : CMTF.Config} (hcp : c'.cp = c.cp) (hl : c'.logs = c.logs) (hu : c.Unordered) :
    Fit.Refines (CMTFState.Reordered π n) (CMTF.method E c') (CMTF.method E c) where
  dec := fun h => by show _ = _; exact congrArg CPState.dec h.cp
  stop := by
    intro p s b h hb
    show CMTF.shouldStop c'.cp.opts p = .ok b
    rw [hcp]
    have hb : CMTF.shouldStop c.cp.opts s = .ok b := hb
    unfold CMTF.shouldStop at hb ⊢
    obtain ⟨e, he, hb⟩ := bind_eq_ok.1 hb
    rw [sse_reordered h he, bind_ok, h.cp]
    exact hb
  prepare := by
    intro p s s1 h h1
    obtain rfl := Except.ok.inj h1
    exact ⟨p, rfl, h⟩
  step := by
    intro p s s1 h h1
    show ∃ t, CMTF.iteration E c'.cp.opts p = .ok t ∧ _
    rw [hcp]
    exact iteration_reordered h h1
  post := fun h h1 => normalize_reordered h h1
  initRest := fun h h1 => initRest_reordered h h1
  logs := by
    show List.Forall₂ _ c'.logs c.logs
    rw [hl]
    exact forall₂_self fun l hm => ⟨rfl, fun p s v h hv => hu l hm π n p s v h hv⟩
  storeDec := rfl
  freq := by show freqOption c'.cp.freq = freqOption c.cp.freq; rw [hcp]
  hasPath := by show c'.cp.hasPath = c.cp.hasPath; rw [hcp]
  typeName := rfl
  usesLoopVar := rfl
  writesIts := rfl

theorem listed_lt {β : Type} {l' l : List β} (h : Listed π l' l) (hl : l'.length = l.length) (i : ℕ) :
    π i < l.length ↔ i < l.length := by
  have := h i
  constructor
  · intro hi
    rw [List.getElem?_eq_getElem hi] at this
    rw [← hl]
    exact (List.getElem?_eq_some_iff.1 this).1
  · intro hi
    rw [List.getElem?_eq_getElem (hl ▸ hi)] at this
    exact (List.getElem?_eq_some_iff.1 this.symm).1

/-- **C128, what holds.** Fits of the same object to the same data with the coupled matrices, their coupling modes and the numbers
drawn for their right factors in another order, in which the first matrix of every mode is still the first one: if one fit
returns, so does the other one, with the same decomposition, the same right factor for every matrix, and the same iteration
number, logged values and checkpoint file. Missing: other orders (`C128_fails`). -/
theorem C128_order_partial {E : Ext} {c' c : CMTF.Config} {π : Equiv.Perm ℕ} (hcp : c'.cp = c.cp) (hlogs : c'.logs = c.logs)
    (hu : c.Unordered) (hN : ∀ i, c'.drawN i = c.drawN (π i)) (hU : ∀ i, c'.drawU i = c.drawU (π i)) {X : NDArray ℝ}
    {Ys Ys' : List (NDArray ℝ)} {modes modes' : List Int} (hY : ∀ i, Ys'[i]? = Ys[π i]?) (hm : ∀ i, modes'[i]? = modes[π i]?)
    (hlY : Ys'.length = Ys.length) (hlm : modes.length = Ys.length) (hfirst : ∀ i, FirstOf modes' i ↔ FirstOf modes (π i))
    {maxIts : Option Int} {arg : InitArg KruskalTensor} {w v : World CMTFState}
    (hv : CMTF.fit E c X Ys modes maxIts arg w = .ok () v) :
    ∃ v', CMTF.fit E c' X Ys' modes' maxIts arg w = .ok () v' ∧ v'.st.cp = v.st.cp ∧ v.st.V.length = Ys.length ∧
      (∀ i, v'.st.V[i]? = v.st.V[π i]?) ∧ v'.it = v.it ∧ v'.maxIts = v.maxIts ∧ v'.loggers = v.loggers ∧ v'.file = v.file := by
  have hp : ∀ i, π i < Ys.length ↔ i < Ys.length := listed_lt hY hlY
  have hlm' : modes'.length = Ys.length :=
    (Listed.length (π := π) (l' := modes') hm (by rw [hlm]; exact hp)).trans hlm
  have hA : (CMTF.setCoupled Ys' modes' w.st).Arranged π Ys.length (CMTF.setCoupled Ys modes w.st) :=
    ⟨rfl, hp, hfirst, hm, hY, rfl, rfl, hlm, rfl⟩
  have hsim := Fit.fit_sim (R00 := CMTFState.Arranged π Ys.length) (R0 := CMTFState.Arranged π Ys.length)
    (method_reordered (E := E) hcp hlogs hu) (t' := CMTF.setTarget X) (t := CMTF.setTarget X)
    (i' := CMTF.initComponents E c' arg) (i := CMTF.initComponents E c arg)
    (fun {p s s1} h h1 => by
      obtain rfl := Except.ok.inj h1
      refine ⟨_, rfl, ⟨?_, h.perm, h.first, h.modes, h.Ys, h.map', h.map, h.lenM, h.lenY⟩⟩
      rw [h.cp])
    (by
      unfold CMTF.initComponents
      rw [hcp]
      exact Fit.Sim.bind (zoom_arranged _) fun _ _ _ => Fit.Sim.modifySt fun h h1 => initCoupled_reordered hcp hN hU h h1)
    maxIts
  unfold CMTF.fit at hv ⊢
  rw [Fit.bind_of_ok (modifySt_ok (f := fun s => .ok (CMTF.setCoupled Ys modes s)) rfl)] at hv
  obtain ⟨_, v', e, hr, -⟩ := hsim ⟨CMTF.setCoupled Ys' modes' w.st, w.it, w.maxIts, w.loggers, w.file⟩
    ⟨CMTF.setCoupled Ys modes w.st, w.it, w.maxIts, w.loggers, w.file⟩ ⟨hA, rfl, rfl, rfl, rfl⟩ _ _ hv
  refine ⟨v', ?_, hr.st.cp, hr.st.lenV, hr.st.V, hr.it, hr.maxIts, hr.loggers, hr.file⟩
  rw [Fit.bind_of_ok (modifySt_ok (f := fun s => .ok (CMTF.setCoupled Ys' modes' s)) rfl)]
  exact e

/-- In particular, the order does not matter if every mode is coupled to at most one matrix. -/
theorem C128_order_distinct {E : Ext} {c' c : CMTF.Config} {π : Equiv.Perm ℕ} (hcp : c'.cp = c.cp) (hlogs : c'.logs = c.logs)
    (hu : c.Unordered) (hN : ∀ i, c'.drawN i = c.drawN (π i)) (hU : ∀ i, c'.drawU i = c.drawU (π i)) {X : NDArray ℝ}
    {Ys Ys' : List (NDArray ℝ)} {modes modes' : List Int} (hY : ∀ i, Ys'[i]? = Ys[π i]?) (hm : ∀ i, modes'[i]? = modes[π i]?)
    (hlY : Ys'.length = Ys.length) (hlm : modes.length = Ys.length) (hd : modes.Nodup)
    {maxIts : Option Int} {arg : InitArg KruskalTensor} {w v : World CMTFState}
    (hv : CMTF.fit E c X Ys modes maxIts arg w = .ok () v) :
    ∃ v', CMTF.fit E c' X Ys' modes' maxIts arg w = .ok () v' ∧ v'.st.cp = v.st.cp ∧ v.st.V.length = Ys.length ∧
      (∀ i, v'.st.V[i]? = v.st.V[π i]?) ∧ v'.it = v.it ∧ v'.maxIts = v.maxIts ∧ v'.loggers = v.loggers ∧ v'.file = v.file := by
  have hp : ∀ i, π i < modes.length ↔ i < modes.length := by
    intro i
    rw [hlm]; exact listed_lt hY hlY i
  have hlm' : modes'.length = modes.length := Listed.length (π := π) (l' := modes') hm hp
  have hd' : ∀ i j, i < modes.length → modes[i]? = modes[j]? → i = j := fun i j hi h => (List.getElem?_inj hi hd).1 h
  refine C128_order_partial hcp hlogs hu hN hU hY hm hlY hlm (fun i => ?_) hv
  constructor
  · rintro ⟨h1, -⟩
    have h1 : π i < modes.length := (hp i).2 (hlm' ▸ h1)
    exact ⟨h1, fun j hj h => absurd (hd' j (π i) (by omega) h) (by omega)⟩
  · rintro ⟨h1, -⟩
    have h2 : i < modes.length := (hp i).1 h1
    refine ⟨by omega, fun j hj h => ?_⟩
    rw [hm, hm] at h
    have := π.injective (hd' _ _ ((hp j).2 (by omega)) h)
    omega

/-- The SSE, the loss and everything computed from the decomposition alone can be logged. -/
theorem C128_loggers (l : List (Name × (CMTFState → Py ℝ)))
    (h : ∀ a ∈ l, a.2 = CMTF.sse ∨ ∃ g : CPState → Py ℝ, a.2 = fun s => g s.cp) (cp : CP.Config) (dN dU : ℕ → ℕ → ℕ → ℝ) :
    CMTF.Config.Unordered ⟨cp, l, dN, dU⟩ := by
  intro a ha π n s' s v hr hv
  rcases h a ha with e | ⟨g, e⟩
  · rw [e] at hv ⊢; exact sse_reordered hr hv
  · rw [e] at hv ⊢
    show g s'.cp = .ok v
    rw [hr.cp]; exact hv

/-- The hypotheses of `C128_order_partial` and `C128_order_distinct` hold for every `2 × 2` matrix, every start, every two matrices
that are coupled to its two modes, and all numbers drawn. -/
example {E : Ext} (hE : E.SVDOk) (hN : E.NNLSOk) (hQ : E.QROk) (d : ℕ → ℕ → ℕ → ℝ) (x f g : ℕ → ℕ → ℝ) :
    ∃ v v', CMTF.fit E (coupledConfig d) (ofMat 2 2 x) [ofMat 2 3 f, ofMat 2 2 g] [0, -1] (some 5)
        (.tensor ⟨2, [ofMat 2 2 f, ofMat 2 2 g], full [2] 1⟩) (CMTF.newObject none none 5 [] none) = .ok () v ∧
      CMTF.fit E (coupledConfig fun i => d (Equiv.swap 0 1 i)) (ofMat 2 2 x) [ofMat 2 2 g, ofMat 2 3 f] [-1, 0] (some 5)
        (.tensor ⟨2, [ofMat 2 2 f, ofMat 2 2 g], full [2] 1⟩) (CMTF.newObject none none 5 [] none) = .ok () v' ∧
      v'.st.cp = v.st.cp ∧ v'.st.V[0]? = v.st.V[1]? ∧ v'.st.V[1]? = v.st.V[0]? := by
  have ht : KruskalTensor.WF ⟨2, [ofMat 2 2 f, ofMat 2 2 g], full [2] 1⟩ (ofMat 2 2 x).shape 2 :=
    ⟨rfl, .cons rfl (.cons rfl .nil), rfl⟩
  obtain ⟨_, _, _, v, _, _, e1, _⟩ := C83_fit_completes hE hN hQ (c := coupledConfig d) (pair_admissible rfl) (by simp)
    (coupled_two x f g) (coupled_measurable _ _ _) (show freqOption none ≠ 0 by decide)
    (startsFrom_precomputed pair_init ht) ht (mi := some 5) (budget := 5) (loggers := []) (file := none) (by decide)
    (coupled_storing _ _ _)
  clear hE hN hQ
  have hsw : ∀ {β : Type} (a b : β) (i : ℕ), [b, a][i]? = [a, b][Equiv.swap 0 1 i]? := by
    intro β a b i
    match i with
    | 0 => rfl
    | 1 => rfl
    | i + 2 => rw [Equiv.swap_apply_of_ne_of_ne (by omega) (by omega)]; simp
  obtain ⟨v', e2, h1, -, h2, -⟩ := C128_order_distinct (π := Equiv.swap 0 1) (c' := coupledConfig fun i => d (Equiv.swap 0 1 i)) (c := coupledConfig d)
    (by unfold coupledConfig; rfl) (by unfold coupledConfig; rfl) (fun l hl => by simp [coupledConfig] at hl)
    (fun i => by unfold coupledConfig; rfl) (fun i => by unfold coupledConfig; rfl) (hsw (ofMat 2 3 f) (ofMat 2 2 g))
    (hsw (0 : Int) (-1)) rfl rfl (by decide) e1
  exact ⟨v, v', e1, e2, h1, h2 0, h2 1⟩

/-- **C128, refuted** for two matrices that are coupled to the same mode. The matrix `X = 1` and the coupled matrices 1 and 0,
both coupled to mode 0, of rank 1; all factors are 1 at the start. In this order the second coupled matrix is never taken into
account, and its error stays positive. In the other order its error is zero after any positive number of iterations. -/
theorem C128_fails : ∃ s' s : CMTFState, ∃ o : CPOpts, s.Sized o.rank [0, 0] [1, 1] ∧ s'.Sized o.rank [0, 0] [1, 1] ∧ s.Cfg o ∧
    s'.Cfg o ∧ s'.cp = s.cp ∧ (∀ i, s'.Ys[i]? = s.Ys[Equiv.swap 0 1 i]?) ∧ (∀ i, s'.V[i]? = s.V[Equiv.swap 0 1 i]?) ∧
    (∀ i, s'.modes[i]? = s.modes[Equiv.swap 0 1 i]?) ∧
    ∀ E : Ext, E.SVDOk → E.NNLSOk → ∀ n, 0 < n → ∃ t' t, CMTF.iterate E o n s' = .ok t' ∧ CMTF.iterate E o n s = .ok t ∧
      coupledErrAt t'.cp.dec.factorMatrices t'.Ys t'.V [0, 0] o.rank 0 = 0 ∧
      0 < coupledErrAt t.cp.dec.factorMatrices t.Ys t.V [0, 0] o.rank 1 := by
  have hsz : ∀ a b : ℝ, (cmtfPair (one1 1) (one1 1) (one1 1) (full [1] 1) 1 [one1 a, one1 b] [one1 1, one1 1] [0, 0]).Sized 1
      [0, 0] [1, 1] := by
    intro a b
    refine cmtfPair_sized (n := 1) (k := 1) (by norm_num) (by norm_num) rfl rfl rfl rfl
      (.cons (isMode_nat (by norm_num)) (.cons (isMode_nat (by norm_num)) .nil)) rfl rfl ?_ ?_
    all_goals
      intro i hi
      match i with
      | 0 => rfl
      | 1 => rfl
      | _ + 2 => simp at hi
  have hc : ∀ a b : ℝ, (cmtfPair (one1 1) (one1 1) (one1 1) (full [1] 1) 1 [one1 a, one1 b] [one1 1, one1 1] [0, 0]).Cfg
      ⟨1, 0, 0, none⟩ := fun a b => cmtfPair_cfg (n := 1) (k := 1) rfl rfl
  have hsw : ∀ {β : Type} (a b : β) (i : ℕ), [b, a][i]? = [a, b][Equiv.swap 0 1 i]? := by
    intro β a b i
    match i with
    | 0 => rfl
    | 1 => rfl
    | i + 2 => rw [Equiv.swap_apply_of_ne_of_ne (by omega) (by omega)]; simp
  refine ⟨cmtfPair (one1 1) (one1 1) (one1 1) (full [1] 1) 1 [one1 0, one1 1] [one1 1, one1 1] [0, 0],
    cmtfPair (one1 1) (one1 1) (one1 1) (full [1] 1) 1 [one1 1, one1 0] [one1 1, one1 1] [0, 0], ⟨1, 0, 0, none⟩, hsz 1 0, hsz 0 1,
    hc 1 0, hc 0 1, rfl, hsw _ _, hsw _ _, hsw _ _, fun E hE hN n hn => ?_⟩
  obtain ⟨t', e', -, -, hs', hb', -⟩ := C58_partial hE hN (o := ⟨1, 0, 0, none⟩) (by norm_num) n (hsz 0 1) (hc 0 1)
  have e := cmtf_orbit_iterate hE hN (o := ⟨1, 0, 0, none⟩) (by norm_num) n (hsz 1 0) (hc 1 0)
  obtain ⟨g1, g2, g3, -, g5, g6⟩ := cmtf_orbit_good hE hN (o := ⟨1, 0, 0, none⟩) (by norm_num) (hsz 1 0) (hc 1 0) n
  refine ⟨t', _, e', e, ?_, ?_⟩
  · have h := hb' hn 0 ⟨by simp [cmtfPair], fun j hj => absurd hj (by omega)⟩ (one1 0)
    refine le_antisymm ?_ (matErr_nonneg _ _ _ _)
    rw [coupledErrAt, hs'.Ys]
    refine h.trans (le_of_eq ?_)
    rw [matErr_one rfl, get_one1, mul_zero]
    simp [cmtfPair]
  · generalize CMTF.orbit E ⟨1, 0, 0, none⟩
      (cmtfPair (one1 1) (one1 1) (one1 1) (full [1] 1) 1 [one1 1, one1 0] [one1 1, one1 1] [0, 0]) n = t at *
    have hl := g6 ⟨rfl, cmtfPair_conf (n := 1) (k := 1) rfl rfl⟩
    have hfil : (Finset.range [0, 0].length).filter (IsFirst [0, 0]) = {0} := by decide
    have hloss : (cmtfPair (one1 1) (one1 1) (one1 1) (full [1] 1) 1 [one1 1, one1 0] [one1 1, one1 1] [0, 0]).fitLoss 1 [0, 0]
        = 0 := by
      rw [CMTFState.fitLoss, firstErr, hfil, Finset.sum_singleton, coupledErrAt]
      simp only [cmtfPair]
      rw [sqErr_one rfl, matErr_one rfl]
      simp
    have hX : 0 ≤ sqErr t.cp.X (fun _ => 1) t.cp.dec.factorMatrices 1 := sumIdx_nonneg fun _ _ => sq_nonneg _
    have hl : t.fitLoss 1 [0, 0] ≤ 0 := hl.trans (le_of_eq hloss)
    rw [CMTFState.fitLoss, firstErr, hfil, Finset.sum_singleton, coupledErrAt, g3.Ys, matErr_one rfl] at hl
    have hV : t.V.getD 1 noArr = one1 1 := by
      rw [g5 1 (fun hx => hx.2 0 (by norm_num) rfl)]; rfl
    show 0 < coupledErrAt t.cp.dec.factorMatrices t.Ys t.V [0, 0] 1 1
    rw [coupledErrAt, hV, g3.Ys, matErr_one rfl, get_one1, mul_one]
    have hY0 : (((cmtfPair (one1 1) (one1 1) (one1 1) (full [1] 1) 1 [one1 1, one1 0] [one1 1, one1 1] [0, 0]).Ys.getD 0
      noArr)).get [0, 0] = 1 := by simp [cmtfPair]
    have hY1 : (((cmtfPair (one1 1) (one1 1) (one1 1) (full [1] 1) 1 [one1 1, one1 0] [one1 1, one1 1] [0, 0]).Ys.getD 1
      noArr)).get [0, 0] = 0 := by simp [cmtfPair]
    rw [hY0] at hl
    rw [hY1]
    have h0 : [0, 0].getD 1 0 = [0, 0].getD 0 0 := rfl
    rw [h0]
    have : (t.cp.dec.factorMatrices.getD ([0, 0].getD 0 0) noArr).get [0, 0] ≠ 0 := by
      intro h
      rw [h, zero_mul] at hl
      linarith
    positivity

end
end TK
