import Verif.Lemmas.Parafac2Inner
import Verif.Props.CPInit

/-! # How `Parafac2_ALS` sets up its inner CP decomposer -/

namespace TK
open NDArray Matrix

noncomputable section

/-- `omega` for addresses. -/
local macro "aomega" : tactic => `(tactic| (try dsimp only [Addr] at *) <;> omega)

/-- The list entries of the modes with an orthonormality constraint refer to new arrays, the others stay. -/
theorem rebind_spec : ∀ {bs : List Bool} {Fs : List (NDArray ℝ)} {as : List Addr} {h : Heap},
    bs.length = as.length → Fs.length = as.length → as.Nodup → (∀ j : ℕ, bs[j]? = some false →
      ∀ F a, Fs[j]? = some F → as[j]? = some a → F = h.mem a) → ((∃ j : ℕ, bs[j]? = some true) → ∀ a ∈ as, a < h.next) →
    ∃ as' h', CPObj.rebind bs Fs as h = (as', h') ∧ as'.map h'.mem = Fs ∧ as'.length = as.length ∧ as'.Nodup ∧
      (∀ a < h.next, h'.mem a = h.mem a) ∧ h.next ≤ h'.next ∧ (∀ a ∈ as', a ∈ as ∨ h.next ≤ a) ∧
      (∀ j : ℕ, bs[j]? = some true → ∀ a, as'[j]? = some a → h.next ≤ a) ∧
      (∀ j : ℕ, bs[j]? = some false → as'[j]? = as[j]?) ∧
      ((∀ j : ℕ, bs[j]? ≠ some true) → h' = h)
  | [], Fs, [], h, _, h2, _, _, _ => by
    obtain rfl : Fs = [] := by simpa using h2
    exact ⟨[], h, rfl, rfl, rfl, .nil, fun _ _ => rfl, le_rfl, by simp, by simp, by simp, fun _ => rfl⟩
  | [], _, _ :: _, _, h1, _, _, _, _ => by simp at h1
  | _ :: _, _, [], _, h1, _, _, _, _ => by simp at h1
  | _ :: _, [], _ :: _, _, _, h2, _, _, _ => by simp at h2
  | true :: bs, F :: Fs, a :: as, h, h1, h2, hn, hF, hlt => by
    have hlt := hlt ⟨0, rfl⟩
    have hn' := List.nodup_cons.1 hn
    obtain ⟨as', h', e, e1, e2, e3, e4, e5, e6, e7, e8, -⟩ := rebind_spec (bs := bs) (Fs := Fs) (as := as)
      (h := (h.alloc F).2) (by simpa using h1) (by simpa using h2) hn'.2
      (fun j hj G b hG hb => by
        have hb' : b < h.next := hlt b (List.mem_cons_of_mem _ (List.mem_of_getElem? hb))
        rw [hF (j + 1) (by simpa using hj) G b (by simpa using hG) (by simpa using hb)]
        show _ = Function.update h.mem h.next F b
        rw [Function.update_of_ne (by aomega)])
      (fun _ b hb => lt_of_lt_of_le (hlt b (List.mem_cons_of_mem _ hb)) (Nat.le_succ _))
    have e5 : h.next + 1 ≤ h'.next := e5
    have e6 : ∀ b ∈ as', b ∈ as ∨ h.next + 1 ≤ b := e6
    have e7 : ∀ j : ℕ, bs[j]? = some true → ∀ b, as'[j]? = some b → h.next + 1 ≤ b := e7
    have e4 : ∀ b < h.next + 1, h'.mem b = Function.update h.mem h.next F b := e4
    refine ⟨h.next :: as', h', ?_, ?_, by simp [e2], ?_, ?_, by aomega, ?_, ?_, ?_, ?_⟩
    · simp only [CPObj.rebind, if_true]
      show (h.next :: (CPObj.rebind bs Fs as (h.alloc F).2).1, (CPObj.rebind bs Fs as (h.alloc F).2).2) = _
      rw [e]
    · rw [List.map_cons, e1, e4 _ (Nat.lt_succ_self _), Function.update_self]
    · refine List.nodup_cons.2 ⟨fun hc => ?_, e3⟩
      rcases e6 _ hc with h3 | h3
      · exact lt_irrefl _ (hlt _ (List.mem_cons_of_mem _ h3))
      · aomega
    · intro b hb
      rw [e4 b (by aomega), Function.update_of_ne (by aomega)]
    · intro b hb
      rcases List.mem_cons.1 hb with rfl | hb
      · exact Or.inr le_rfl
      · rcases e6 b hb with h3 | h3
        · exact Or.inl (List.mem_cons_of_mem _ h3)
        · exact Or.inr (by aomega)
    · intro j hj b hb
      cases j with
      | zero =>
        have : h.next = b := by simpa using hb
        aomega
      | succ j =>
        have := e7 j (by simpa using hj) b (by simpa using hb)
        aomega
    · intro j hj
      cases j with
      | zero => simp at hj
      | succ j => simpa using e8 j (by simpa using hj)
    · intro hc
      exact absurd rfl (hc 0)
  | false :: bs, F :: Fs, a :: as, h, h1, h2, hn, hF, hlt => by
    have hn' := List.nodup_cons.1 hn
    obtain ⟨as', h', e, e1, e2, e3, e4, e5, e6, e7, e8, e9⟩ := rebind_spec (bs := bs) (Fs := Fs) (as := as)
      (h := h) (by simpa using h1) (by simpa using h2) hn'.2
      (fun j hj G b hG hb => hF (j + 1) (by simpa using hj) G b (by simpa using hG) (by simpa using hb))
      (fun ⟨j, hj⟩ b hb => hlt ⟨j + 1, by simpa using hj⟩ b (List.mem_cons_of_mem _ hb))
    have hFa : F = h.mem a := hF 0 rfl F a rfl rfl
    have hsame : h'.mem a = h.mem a := by
      by_cases hc : ∃ j : ℕ, bs[j]? = some true
      · obtain ⟨j, hj⟩ := hc
        exact e4 a (hlt ⟨j + 1, by simpa using hj⟩ a (by simp))
      · rw [e9 fun j hj => hc ⟨j, hj⟩]
    refine ⟨a :: as', h', ?_, ?_, by simp [e2], ?_, e4, e5, ?_, ?_, ?_, ?_⟩
    · simp only [CPObj.rebind]
      show (a :: (CPObj.rebind bs Fs as h).1, (CPObj.rebind bs Fs as h).2) = _
      rw [e]
    · rw [List.map_cons, e1, hsame, hFa]
    · refine List.nodup_cons.2 ⟨fun hc => ?_, e3⟩
      rcases e6 _ hc with h3 | h3
      · exact hn'.1 h3
      · by_cases hc' : ∃ j : ℕ, bs[j]? = some true
        · obtain ⟨j, hj⟩ := hc'
          have := hlt ⟨j + 1, by simpa using hj⟩ a (by simp)
          aomega
        · -- no new array: the list is the old one
          have : as' = as := by
            apply List.ext_getElem? fun j => ?_
            by_cases hjl : j < bs.length
            · have hb : bs[j]? = some false := by
                rw [List.getElem?_eq_getElem hjl]
                rcases hq : bs[j] with _ | _
                · rfl
                · exact absurd ⟨j, by rw [List.getElem?_eq_getElem hjl, hq]⟩ hc'
              exact e8 j hb
            · have h3 : bs.length = as.length := by simpa using h1
              rw [List.getElem?_eq_none (by aomega), List.getElem?_eq_none (by aomega)]
          exact hn'.1 (this ▸ hc)
    · intro b hb
      rcases List.mem_cons.1 hb with rfl | hb
      · exact Or.inl (by simp)
      · rcases e6 b hb with h3 | h3
        · exact Or.inl (List.mem_cons_of_mem _ h3)
        · exact Or.inr h3
    · intro j hj b hb
      cases j with
      | zero => simp at hj
      | succ j => exact e7 j (by simpa using hj) b (by simpa using hb)
    · intro j hj
      cases j with
      | zero => rfl
      | succ j => simpa using e8 j (by simpa using hj)
    · intro hc
      exact e9 fun j hj => hc (j + 1) (by simpa using hj)

theorem cp_initFit_inv {E : Ext} {old : CPState} {X : NDArray ℝ} {dec : KruskalTensor} {s : CPState}
    (e : CP.initFit E old X dec = .ok s) :
    CP.orthonormalise E 0 (old.orth.getD (List.replicate dec.factorMatrices.length false)) dec.factorMatrices
      = .ok s.dec.factorMatrices := by
  unfold CP.initFit at e
  simp only [bind_eq_ok, pure_eq_ok] at e
  obtain ⟨fs, h1, v, -, rfl⟩ := e
  exact h1

namespace P2State

variable {s : P2State} {I R : ℕ} {Js : List ℕ}

/-- Everything that an iteration needs: the sizes fit, the factor matrices and the projection matrices are different objects, and
the inner decomposer is ready. -/
structure Working (s : P2State) (o : P2Opts) (I : ℕ) (Js : List ℕ) (c : CPObj) : Prop where
  sized : s.Sized I Js o.rank
  apart : s.Apart
  ready : s.Ready o I Js c

theorem Separate.apart (h : s.Separate) : s.Apart := by
  unfold Separate at h
  simp only [List.nodup_cons, List.mem_cons, not_or] at h
  exact ⟨h.1.2.2, h.2.1.2, h.2.2.1⟩

theorem Separate.nodup (h : s.Separate) : s.dec.P.Nodup := by
  unfold Separate at h
  simp only [List.nodup_cons] at h
  exact h.2.2.2

theorem Separate.addrs (h : s.Separate) : [s.dec.A, s.dec.blueprint, s.dec.C].Nodup := by
  unfold Separate at h
  simp only [List.nodup_cons, List.mem_cons, not_or, List.not_mem_nil, not_false_eq_true, List.nodup_nil, and_true] at h ⊢
  tauto

theorem Distinct.of_dec {t : P2State} (h : s.Distinct) (e : t.dec = s.dec) : t.Distinct :=
  ⟨e ▸ h.addrs, e ▸ h.apart.A, e ▸ h.apart.D, e ▸ h.apart.C⟩

theorem Separate.distinct (h : s.Separate) : s.Distinct := ⟨h.addrs, h.apart⟩

/-- All arrays of the decomposition exist. -/
def Allocated (s : P2State) : Prop := ∀ a ∈ s.dec.A :: s.dec.blueprint :: s.dec.C :: s.dec.P, a < s.heap.next

/-- The flags of the orthonormality constraints as the inner decomposer sees them. -/
def orthFlags (o : P2Opts) : List Bool := o.orth.getD [false, false, false]

/-- The set-up of the inner decomposer. Its factor matrices are the arrays of the decomposition, except for the modes with an
orthonormality constraint, which get new arrays. -/
theorem prepareCp_ok {E : Ext} (hQ : E.QROk) {o : P2Opts} (h : s.Sized I Js o.rank) (hs : s.Distinct)
    (hA : CP.Admissible (P2.innerOpts o) (some (P2.nonNegOption o)) o.orth [I, o.rank, Js.length])
    (hal : (∃ j : ℕ, (orthFlags o)[j]? = some true) → s.Allocated) :
    ∃ h' c, P2.prepareCp E o s = .ok (s.withInner h' c) ∧ (s.withInner h' c).Working o I Js c ∧
      (∀ a < s.heap.next, h'.mem a = s.heap.mem a) ∧ s.heap.next ≤ h'.next ∧
      c.st.nonNeg = some (P2.nonNegOption o) ∧ c.st.orth = some (orthFlags o) ∧
      (∀ j : ℕ, (orthFlags o)[j]? = some true → ∀ a, c.addrs[j]? = some a → s.heap.next ≤ a) ∧
      (∀ j : ℕ, (orthFlags o)[j]? = some false → c.addrs[j]? = [s.dec.A, s.dec.blueprint, s.dec.C][j]?) ∧
      ((∀ j : ℕ, (orthFlags o)[j]? ≠ some true) → h' = s.heap ∧ s.Shares c) ∧
      (∀ j : ℕ, (orthFlags o)[j]? = some true → ∀ a, c.addrs[j]? = some a →
        OrthoCols (h'.mem a) ([I, o.rank, Js.length].getD j 0) o.rank) ∧
      CP.orthonormalise E 0 (orthFlags o) ([s.dec.A, s.dec.blueprint, s.dec.C].map s.heap.mem) = .ok (c.addrs.map h'.mem) := by
  have hfac : Factors ([s.dec.A, s.dec.blueprint, s.dec.C].map s.heap.mem) [I, o.rank, Js.length] o.rank :=
    .cons h.A (.cons h.D (.cons h.C .nil))
  have hm2 : ∀ f ∈ [s.dec.A, s.dec.blueprint, s.dec.C].map s.heap.mem, ∃ m n, f.shape = [m, n] := by
    intro f hf
    simp only [List.map_cons, List.map_nil, List.mem_cons, List.not_mem_nil, or_false] at hf
    rcases hf with rfl | rfl | rfl
    · exact ⟨_, _, h.A⟩
    · exact ⟨_, _, h.D⟩
    · exact ⟨_, _, h.C⟩
  have hka : KruskalArgs ([s.dec.A, s.dec.blueprint, s.dec.C].map s.heap.mem) none o.rank := by
    refine ⟨fun f hf => ?_, by simp⟩
    simp only [List.map_cons, List.map_nil, List.mem_cons, List.not_mem_nil, or_false] at hf
    have hA' : (s.heap.mem s.dec.A).shape = _ := h.A
    have hD' : (s.heap.mem s.dec.blueprint).shape = _ := h.D
    have hC' : (s.heap.mem s.dec.C).shape = _ := h.C
    rcases hf with rfl | rfl | rfl
    · simp [hA']
    · simp [hD']
    · simp [hC']
  obtain ⟨t, et, t1, t2, t3, -, t4⟩ := C15_init_ok (w := none) (by simp) hm2 hka
  have hsh : (p2Projected s.X s.P I Js o.rank).shape = [I, o.rank, Js.length] := shape_ofFn _ _
  have hwf : t.WF (p2Projected s.X s.P I Js o.rank).shape (P2.innerOpts o).rank := by
    rw [hsh]; exact ⟨t1, by rw [t2]; exact hfac, t3⟩
  obtain ⟨f, ef, hg, hX, hl, -, hw, hnn, hon, -⟩ := initFit_good (E := E) hQ (o := P2.innerOpts o)
    (old := CP.fresh (some (P2.nonNegOption o)) o.orth) (X := p2Projected s.X s.P I Js o.rank) (t := t) rfl
    (by rw [hsh]; exact hA) hwf
  have hnn : f.nonNeg = some (P2.nonNegOption o) := hnn
  have hon : f.orth = some (orthFlags o) := by rw [hon, hsh]; rfl
  have hol : (orthFlags o).length = 3 := by
    unfold orthFlags
    cases hq : o.orth with
    | none => rfl
    | some l => exact hA.orthLen l hq
  have hinv := cp_initFit_inv ef
  rw [t2] at hinv
  have hinv : CP.orthonormalise E 0 (orthFlags o) ([s.dec.A, s.dec.blueprint, s.dec.C].map s.heap.mem)
    = .ok f.dec.factorMatrices := hinv
  obtain ⟨fs', eo, hfs, hort, hkeep⟩ := orthonormalise_ok (E := E) hQ (bs := orthFlags o) (mode := 0) hfac
    (by simp [hol]) (fun k hk => by
      rw [Nat.zero_add]
      cases hq : o.orth with
      | none =>
        exfalso
        rw [orthFlags, hq] at hk
        have h3 : k < 3 := by
          rcases List.getElem?_eq_some_iff.1 hk with ⟨hk3, -⟩; simpa using hk3
        interval_cases k <;> simp at hk
      | some l =>
        rw [orthFlags, hq] at hk
        exact hA.orthRows l hq k hk)
  rw [hinv] at eo
  obtain rfl : f.dec.factorMatrices = fs' := by injection eo
  have hlen3 : f.dec.factorMatrices.length = 3 := hfs.length_eq
  obtain ⟨as', h', er, r1, r2, r3, r4, r5, r6, r7, r8, r9⟩ := rebind_spec (bs := orthFlags o) (Fs := f.dec.factorMatrices)
    (as := [s.dec.A, s.dec.blueprint, s.dec.C]) (h := s.heap) (by simp [hol]) (by simp [hlen3]) hs.addrs
    (fun j hj F a hF ha => by
      have := hkeep j (fun k hk => by
        rw [Nat.zero_add] at hk; subst hk; rw [hj]; simp)
      rw [hF, List.getElem?_map, ha] at this
      simpa using this)
    (fun hex a ha => hal hex a (by
      simp only [List.mem_cons, List.not_mem_nil, or_false] at ha
      rcases ha with rfl | rfl | rfl <;> simp))
  have hshare : (∀ j : ℕ, (orthFlags o)[j]? ≠ some true) → h' = s.heap ∧ as' = [s.dec.A, s.dec.blueprint, s.dec.C] := by
    intro hno
    refine ⟨r9 hno, ?_⟩
    apply List.ext_getElem? fun j => ?_
    by_cases hj : j < 3
    · have hb : (orthFlags o)[j]? = some false := by
        rw [List.getElem?_eq_getElem (by aomega)]
        rcases hq : (orthFlags o)[j]'(by aomega) with _ | _
        · rfl
        · exact absurd (by rw [List.getElem?_eq_getElem (by aomega), hq]) (hno j)
      exact r8 j hb
    · rw [List.getElem?_eq_none (by rw [r2]; simp; aomega), List.getElem?_eq_none (by simp; aomega)]
  have hmem : ∀ a, a < s.heap.next ∨ h' = s.heap → h'.mem a = s.heap.mem a := by
    rintro a (ha | ha)
    · exact r4 a ha
    · rw [ha]
  have hold : ∀ a ∈ s.dec.A :: s.dec.blueprint :: s.dec.C :: s.dec.P, h'.mem a = s.heap.mem a := by
    intro a ha
    by_cases hex : ∃ j : ℕ, (orthFlags o)[j]? = some true
    · exact r4 a (hal hex a ha)
    · rw [(hshare fun j hj => hex ⟨j, hj⟩).1]
  have hsz : (s.withInner h' ⟨f, as'⟩).Sized I Js o.rank := by
    refine h.of_heap rfl rfl rfl ?_ ?_ ?_ ?_
    · show (h'.mem s.dec.A).shape = _
      rw [hold _ (by simp)]; exact h.A
    · show (h'.mem s.dec.blueprint).shape = _
      rw [hold _ (by simp)]; exact h.D
    · show (h'.mem s.dec.C).shape = _
      rw [hold _ (by simp)]; exact h.C
    · intro a ha
      exact hold a (by simp [ha])
  -- an address of the decomposition is used in its own mode or not at all
  have hpos : ∀ (j : ℕ) (a : Addr), [s.dec.A, s.dec.blueprint, s.dec.C][j]? = some a → as'[j]? = some a ∨ a ∉ as' := by
    intro j a hja
    have hj : j < 3 := by
      rcases List.getElem?_eq_some_iff.1 hja with ⟨h3, -⟩; simpa using h3
    rcases hq : (orthFlags o)[j]'(by aomega) with _ | _
    · left
      rw [r8 j (by rw [List.getElem?_eq_getElem (by aomega), hq]), hja]
    · right
      have hjt : (orthFlags o)[j]? = some true := by rw [List.getElem?_eq_getElem (by aomega), hq]
      have halt := hal ⟨j, hjt⟩
      have hain : a ∈ s.dec.A :: s.dec.blueprint :: s.dec.C :: s.dec.P := by
        have := List.mem_of_getElem? hja
        simp only [List.mem_cons, List.not_mem_nil, or_false] at this
        rcases this with rfl | rfl | rfl <;> simp
      intro hc
      obtain ⟨i, hi⟩ := List.mem_iff_getElem?.1 hc
      have hi3 : i < 3 := by
        rcases List.getElem?_eq_some_iff.1 hi with ⟨h3, -⟩; rw [r2] at h3; simpa using h3
      rcases hq' : (orthFlags o)[i]'(by aomega) with _ | _
      · have := r8 i (by rw [List.getElem?_eq_getElem (by aomega), hq'])
        rw [hi] at this
        have hne : i ≠ j := by
          rintro rfl
          rw [hq] at hq'; cases hq'
        exact hne ((List.getElem?_inj (by simpa using hi3) hs.addrs).1 (this.symm.trans hja.symm))
      · have := r7 i (by rw [List.getElem?_eq_getElem (by aomega), hq']) a hi
        have := halt a hain
        aomega
  have hrd : (s.withInner h' ⟨f, as'⟩).Ready o I Js ⟨f, as'⟩ := by
    refine ⟨rfl, r3, ?_, ?_, hg.sized.wf.rank, hg.sized.wf.weights, hw, ?_, hpos 0 _ rfl, hpos 1 _ rfl, hpos 2 _ rfl⟩
    · show ∀ a ∈ as', a ∉ s.dec.P
      intro a ha hP
      rcases r6 a ha with h3 | h3
      · have := hs.apart
        simp only [List.mem_cons, List.not_mem_nil, or_false] at h3
        rcases h3 with rfl | rfl | rfl
        · exact this.A hP
        · exact this.D hP
        · exact this.C hP
      · by_cases hex : ∃ j : ℕ, (orthFlags o)[j]? = some true
        · have := hal hex a (by simp [hP])
          aomega
        · have := (hshare fun j hj => hex ⟨j, hj⟩).2
          rw [this] at ha
          have h4 := hs.apart
          simp only [List.mem_cons, List.not_mem_nil, or_false] at ha
          rcases ha with rfl | rfl | rfl
          · exact h4.A hP
          · exact h4.D hP
          · exact h4.C hP
    · show Factors (as'.map h'.mem) _ _
      rw [r1]; exact hfs
    · intro m hm
      exact hg.config m (by rw [hX, hsh]; exact hm)
  refine ⟨h', ⟨f, as'⟩, ?_, ⟨hsz, ⟨hs.apart.A, hs.apart.D, hs.apart.C⟩, hrd⟩, r4, r5, hnn, hon, r7, r8, ?_, ?_, ?_⟩
  · rw [P2.prepareCp, h.projectedX rfl, bind_ok, CPObj.initFit, et, bind_ok]
    have hchk : CP.checkValid (P2.innerOpts o).rank (p2Projected s.X s.P I Js o.rank).shape t = .ok () := by
      refine ((C62_check_partial ?_).1).2 ?_
      · rw [t2, hsh]; rfl
      · rw [t2, hsh]; exact hfac
    rw [hchk, bind_ok, ef, bind_ok, hon]
    simp only [Option.getD_some]
    rw [er]
    rfl
  · intro hno
    exact hshare hno
  · intro j hj a ha
    have := hort j hj (h'.mem a) (by
      rw [Nat.zero_add, ← r1, List.getElem?_map, ha]; rfl)
    rw [Nat.zero_add] at this
    exact this
  · show _ = Except.ok (as'.map h'.mem)
    rw [r1]; exact hinv

end P2State
end
end TK
