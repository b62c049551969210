import Verif.Props.Symmetry
import Verif.Props.P2Units
import Verif.Props.CMTFMoved

/-!
# C146: components that start equal or zero

Alternating least squares does not separate components that are equal (up to signs) at the start, and does not bring a component
to life whose columns are zero in two modes: exchanging the equal components, or changing two signs of the zero component, does
not change the start, so it does not change the result (C96, C115, C118).
-/

namespace TK
open NDArray Fit
open EStateM (Result)

noncomputable section

theorem swap_lt_iff {R p q : ℕ} (hp : p < R) (hq : q < R) (r : ℕ) : Equiv.swap p q r < R ↔ r < R := by
  by_cases h1 : r = p
  · rw [h1, Equiv.swap_apply_left]; exact ⟨fun _ => hp, fun _ => hq⟩
  · by_cases h2 : r = q
    · rw [h2, Equiv.swap_apply_right]; exact ⟨fun _ => hq, fun _ => hp⟩
    · rw [Equiv.swap_apply_of_ne_of_ne h1 h2]

/-- The signs of two components that are exchanged. -/
theorem swap_signs {f : ℕ → ℝ} {p q : ℕ} {s : ℝ} (hs : s = 1 ∨ s = -1) (h : f q = s * f p) (r : ℕ) :
    f (Equiv.swap p q r) = (if r = p ∨ r = q then s else 1) * f r := by
  by_cases h1 : r = p
  · rw [h1, Equiv.swap_apply_left, if_pos (Or.inl rfl), h]
  · by_cases h2 : r = q
    · rw [h2, Equiv.swap_apply_right, if_pos (Or.inr rfl), h, ← mul_assoc]
      rcases hs with rfl | rfl <;> norm_num
    · rw [Equiv.swap_apply_of_ne_of_ne h1 h2, if_neg (by tauto), one_mul]

/-- Two changes of sign multiply to one. -/
theorem prod_two_signs {n k l : ℕ} (hk : k < n) (hl : l < n) (hkl : k ≠ l) (b : Prop) [Decidable b] :
    ∏ m ∈ Finset.range n, (if b ∧ (m = k ∨ m = l) then (-1 : ℝ) else 1) = 1 := by
  by_cases hb : b
  · rw [Finset.prod_eq_mul k l hkl (fun m _ h => by simp [h.1, h.2]) (fun h => absurd (Finset.mem_range.2 hk) h)
      (fun h => absurd (Finset.mem_range.2 hl) h)]
    simp [hb]
  · simp [hb]

section CP
variable {E : Ext} {c : CP.Config} {X : NDArray ℝ} {arg : InitArg KruskalTensor} {t : KruskalTensor} {budget : Int}
  {mi : Option Int} {loggers : List Logger} {file : Option H5File}

/-- **C146** for `CP_ALS`: two components that are equal at the start up to signs of their columns (that multiply to one) are equal
in the result, up to the same signs. -/
theorem C146_equal (hE : E.SVDOk) (hN : E.NNLSOk) (hQ : E.QROk) (hA : CP.Admissible c.opts none none X.shape)
    (hridge : c.opts.ridgePenalties = none) (hlog : c.Measurable) (hfreq : freqOption c.freq ≠ 0)
    (hi : CP.StartsFrom E c none none arg X t) (ht : t.WF X.shape c.opts.rank) {p q : ℕ} (hp : p < c.opts.rank)
    (hq : q < c.opts.rank) {s : ℕ → ℝ} (hs : ∀ k, s k = 1 ∨ s k = -1) (hprod : ∏ k ∈ Finset.range X.shape.length, s k = 1)
    (hstart : ∀ k F, t.factorMatrices[k]? = some F → ∀ i < X.shape.getD k 0, F.get [i, q] = s k * F.get [i, p])
    (hb : 0 < mi.getD budget) (hS : Storing (CP.method E c) (CP.newObject none none budget loggers file) []) :
    ∃ w, CP.fit E c X mi arg (CP.newObject none none budget loggers file) = .ok () w ∧
      ∀ k F, w.st.dec.factorMatrices[k]? = some F → ∀ i < X.shape.getD k 0, F.get [i, q] = s k * F.get [i, p] := by
  obtain ⟨w, w', h1, h2, h3, -⟩ := C96_components hE hN hQ hA hridge hlog hfreq hi hi ht ht (perm := Equiv.swap p q)
    (swap_lt_iff hp hq) (sign := fun k r => if r = p ∨ r = q then s k else 1)
    (fun k _ r _ => by split; exacts [hs k, Or.inl rfl])
    (fun r _ => by
      split
      · exact hprod
      · exact Finset.prod_const_one)
    (fun k F F' hF hF' i hi r _ => by
      obtain rfl : F = F' := by rw [hF] at hF'; exact Option.some.inj hF'
      exact swap_signs (f := fun r => F.get [i, r]) (hs k) (hstart k F hF i hi) r) hb hS
  obtain rfl : w = w' := by rw [h1] at h2; injection h2
  refine ⟨w, h1, fun k F hF i hi => ?_⟩
  have := h3 k F F hF hF i hi p hp
  rwa [Equiv.swap_apply_left, if_pos (Or.inl rfl)] at this

/-- **C146** for `CP_ALS`: columns of a component that are zero in two modes at the start are zero in the result. -/
theorem C146_zero (hE : E.SVDOk) (hN : E.NNLSOk) (hQ : E.QROk) (hA : CP.Admissible c.opts none none X.shape)
    (hridge : c.opts.ridgePenalties = none) (hlog : c.Measurable) (hfreq : freqOption c.freq ≠ 0)
    (hi : CP.StartsFrom E c none none arg X t) (ht : t.WF X.shape c.opts.rank) {p : ℕ} (hp : p < c.opts.rank) {k l : ℕ}
    (hk : k < X.shape.length) (hl : l < X.shape.length) (hkl : k ≠ l)
    (hstart : ∀ m F, m = k ∨ m = l → t.factorMatrices[m]? = some F → ∀ i < X.shape.getD m 0, F.get [i, p] = 0)
    (hb : 0 < mi.getD budget) (hS : Storing (CP.method E c) (CP.newObject none none budget loggers file) []) :
    ∃ w, CP.fit E c X mi arg (CP.newObject none none budget loggers file) = .ok () w ∧
      ∀ m F, m = k ∨ m = l → w.st.dec.factorMatrices[m]? = some F → ∀ i < X.shape.getD m 0, F.get [i, p] = 0 := by
  obtain ⟨w, w', h1, h2, h3, -⟩ := C96_components hE hN hQ hA hridge hlog hfreq hi hi ht ht (perm := Equiv.refl ℕ)
    (fun _ => Iff.rfl) (sign := fun m r => if r = p ∧ (m = k ∨ m = l) then -1 else 1)
    (fun m _ r _ => by split; exacts [Or.inr rfl, Or.inl rfl])
    (fun r _ => prod_two_signs hk hl hkl _)
    (fun m F F' hF hF' i hi r _ => by
      obtain rfl : F = F' := by rw [hF] at hF'; exact Option.some.inj hF'
      dsimp only [Equiv.refl_apply]
      split
      · rename_i h
        rw [h.1, hstart m F h.2 hF i hi, mul_zero]
      · rw [one_mul]) hb hS
  obtain rfl : w = w' := by rw [h1] at h2; injection h2
  refine ⟨w, h1, fun m F hm hF i hi => ?_⟩
  have := h3 m F F hF hF i hi p hp
  rw [Equiv.refl_apply, if_pos ⟨rfl, hm⟩] at this
  linarith

end CP

section P2
variable {E : Ext} {c : P2.Config} {D : P2Data} {arg : InitArg P2Obj} {h0 : Heap} {s : P2State} {I : ℕ} {Js : List ℕ}
  {budget : Int} {mi : Option Int} {loggers : List Logger} {file : Option H5File}

/-- **C146** for `Parafac2_ALS`: two components that are equal at the start up to signs are equal in the result. -/
theorem C146_parafac2_equal (hE : E.SVDOk) (hN : E.NNLSOk) (hQR : E.QROk)
    (hnn : c.opts.nonNeg = none) (hon : c.opts.orth = none) (hridge : c.opts.ridgePenalties = none)
    (hi : P2.StartsFrom E c D arg h0 s) (h : s.Sized I Js c.opts.rank) (hs : s.Separate) (hal : s.Allocated)
    {p q : ℕ} (hp : p < c.opts.rank) (hq : q < c.opts.rank) {x y z : ℝ} (hx : x = 1 ∨ x = -1) (hy : y = 1 ∨ y = -1)
    (hz : x * y * z = 1)
    (eA : ∀ i < I, s.A.get [i, q] = x * s.A.get [i, p]) (eD : ∀ i < c.opts.rank, s.D.get [i, q] = y * s.D.get [i, p])
    (eC : ∀ k < Js.length, s.C.get [k, q] = z * s.C.get [k, p])
    (hA : P2.Admissible c.opts I Js.length) (hlog : c.Measurable I Js) (hfreq : freqOption c.freq ≠ 0)
    (hS : Storing (P2.method E c) (P2.newObject h0 budget loggers file) []) :
    ∃ w, P2.fit E c D mi arg (P2.newObject h0 budget loggers file) = .ok () w ∧
      (∀ i < I, w.st.A.get [i, q] = x * w.st.A.get [i, p]) ∧
      (∀ i < c.opts.rank, w.st.D.get [i, q] = y * w.st.D.get [i, p]) ∧
      ∀ k < Js.length, w.st.C.get [k, q] = z * w.st.C.get [k, p] := by
  have hz' : z = 1 ∨ z = -1 := by
    rcases hx with rfl | rfl <;> rcases hy with rfl | rfl <;> norm_num at hz ⊢ <;> first | exact Or.inl hz | (right; linarith) | (left; linarith)
  obtain ⟨w, w', h1, h2, -, hA', hD', hC', -⟩ := C115_components hE hN hQR hnn hon hridge (π := Equiv.swap p q) (swap_lt_iff hp hq)
    (ε := fun r => if r = p ∨ r = q then x else 1) (δ := fun r => if r = p ∨ r = q then y else 1)
    (γ := fun r => if r = p ∨ r = q then z else 1)
    (fun r => by split; exacts [hx, Or.inl rfl]) (fun r => by split; exacts [hy, Or.inl rfl])
    (fun r _ => by split; exacts [hz, by norm_num]) hi hi h h hs hs hal hal
    (fun i hi r _ => swap_signs (f := fun r => s.A.get [i, r]) hx (eA i hi) r)
    (fun i hi r _ => swap_signs (f := fun r => s.D.get [i, r]) hy (eD i hi) r)
    (fun i hi r _ => swap_signs (f := fun r => s.C.get [i, r]) hz' (eC i hi) r) (fun _ _ => rfl) (fun _ _ => rfl) hA hlog hfreq
    (mi := mi) hS hS
  obtain rfl : w = w' := by rw [h1] at h2; injection h2
  refine ⟨w, h1, fun i hi => ?_, fun i hi => ?_, fun i hi => ?_⟩
  · have := hA' i hi p hp
    rwa [Equiv.swap_apply_left, if_pos (Or.inl rfl)] at this
  · have := hD' i hi p hp
    rwa [Equiv.swap_apply_left, if_pos (Or.inl rfl)] at this
  · have := hC' i hi p hp
    rwa [Equiv.swap_apply_left, if_pos (Or.inl rfl)] at this

/-- The signs of a component two of whose columns are zero: `a` is the sign of the columns of one factor matrix, which is `-1` only
if that column is zero. -/
theorem zero_sign {f : ℕ → ℝ} {p : ℕ} {a : ℝ} (h : a = 1 ∨ f p = 0) (r : ℕ) :
    f r = (if r = p then a else 1) * f r := by
  split
  · rename_i hr
    rcases h with rfl | h
    · rw [one_mul]
    · rw [hr, h, mul_zero]
  · rw [one_mul]

/-- **C146** for `Parafac2_ALS`: if the columns of a component are zero at the start in two of the three matrices `A`, blueprint and
`C`, they are zero in the result. -/
theorem C146_parafac2_zero (hE : E.SVDOk) (hN : E.NNLSOk) (hQR : E.QROk)
    (hnn : c.opts.nonNeg = none) (hon : c.opts.orth = none) (hridge : c.opts.ridgePenalties = none)
    (hi : P2.StartsFrom E c D arg h0 s) (h : s.Sized I Js c.opts.rank) (hs : s.Separate) (hal : s.Allocated)
    {p : ℕ} (hp : p < c.opts.rank)
    (hA : P2.Admissible c.opts I Js.length) (hlog : c.Measurable I Js) (hfreq : freqOption c.freq ≠ 0)
    (hS : Storing (P2.method E c) (P2.newObject h0 budget loggers file) []) :
    ∃ w, P2.fit E c D mi arg (P2.newObject h0 budget loggers file) = .ok () w ∧
      ((∀ i < I, s.A.get [i, p] = 0) → (∀ i < c.opts.rank, s.D.get [i, p] = 0) →
        (∀ i < I, w.st.A.get [i, p] = 0) ∧ ∀ i < c.opts.rank, w.st.D.get [i, p] = 0) ∧
      ((∀ i < I, s.A.get [i, p] = 0) → (∀ k < Js.length, s.C.get [k, p] = 0) →
        (∀ i < I, w.st.A.get [i, p] = 0) ∧ ∀ k < Js.length, w.st.C.get [k, p] = 0) ∧
      ((∀ i < c.opts.rank, s.D.get [i, p] = 0) → (∀ k < Js.length, s.C.get [k, p] = 0) →
        (∀ i < c.opts.rank, w.st.D.get [i, p] = 0) ∧ ∀ k < Js.length, w.st.C.get [k, p] = 0) := by
  have key : ∀ x y z : ℝ, (x = 1 ∨ x = -1) → (y = 1 ∨ y = -1) → x * y * z = 1 →
      (∀ i < I, x = 1 ∨ s.A.get [i, p] = 0) → (∀ i < c.opts.rank, y = 1 ∨ s.D.get [i, p] = 0) →
      (∀ k < Js.length, z = 1 ∨ s.C.get [k, p] = 0) →
      ∃ w, P2.fit E c D mi arg (P2.newObject h0 budget loggers file) = .ok () w ∧
        (∀ i < I, w.st.A.get [i, p] = x * w.st.A.get [i, p]) ∧
        (∀ i < c.opts.rank, w.st.D.get [i, p] = y * w.st.D.get [i, p]) ∧
        ∀ k < Js.length, w.st.C.get [k, p] = z * w.st.C.get [k, p] := by
    intro x y z hx hy hz eA eD eC
    obtain ⟨w, w', h1, h2, -, hA', hD', hC', -⟩ := C115_components hE hN hQR hnn hon hridge (π := Equiv.refl ℕ) (fun _ => Iff.rfl)
      (ε := fun r => if r = p then x else 1) (δ := fun r => if r = p then y else 1) (γ := fun r => if r = p then z else 1)
      (fun r => by split; exacts [hx, Or.inl rfl]) (fun r => by split; exacts [hy, Or.inl rfl])
      (fun r _ => by split; exacts [hz, by norm_num]) hi hi h h hs hs hal hal
      (fun i hi r _ => zero_sign (f := fun r => s.A.get [i, r]) (eA i hi) r)
      (fun i hi r _ => zero_sign (f := fun r => s.D.get [i, r]) (eD i hi) r)
      (fun i hi r _ => zero_sign (f := fun r => s.C.get [i, r]) (eC i hi) r) (fun _ _ => rfl) (fun _ _ => rfl) hA hlog hfreq
      (mi := mi) hS hS
    obtain rfl : w = w' := by rw [h1] at h2; injection h2
    refine ⟨w, h1, fun i hi => ?_, fun i hi => ?_, fun i hi => ?_⟩
    · have := hA' i hi p hp
      rwa [Equiv.refl_apply, if_pos rfl] at this
    · have := hD' i hi p hp
      rwa [Equiv.refl_apply, if_pos rfl] at this
    · have := hC' i hi p hp
      rwa [Equiv.refl_apply, if_pos rfl] at this
  obtain ⟨w, hw, -⟩ := key 1 1 1 (.inl rfl) (.inl rfl) (by norm_num) (fun _ _ => .inl rfl) (fun _ _ => .inl rfl) fun _ _ => .inl rfl
  have neg : ∀ {a : ℝ}, a = -1 * a → a = 0 := fun h => by linarith
  refine ⟨w, hw, fun e1 e2 => ?_, fun e1 e2 => ?_, fun e1 e2 => ?_⟩
  · obtain ⟨w', hw', f1, f2, -⟩ := key (-1) (-1) 1 (.inr rfl) (.inr rfl) (by norm_num) (fun i hi => .inr (e1 i hi))
      (fun i hi => .inr (e2 i hi)) fun _ _ => .inl rfl
    obtain rfl : w = w' := by rw [hw] at hw'; injection hw'
    exact ⟨fun i hi => neg (f1 i hi), fun i hi => neg (f2 i hi)⟩
  · obtain ⟨w', hw', f1, -, f2⟩ := key (-1) 1 (-1) (.inr rfl) (.inl rfl) (by norm_num) (fun i hi => .inr (e1 i hi))
      (fun _ _ => .inl rfl) fun i hi => .inr (e2 i hi)
    obtain rfl : w = w' := by rw [hw] at hw'; injection hw'
    exact ⟨fun i hi => neg (f1 i hi), fun i hi => neg (f2 i hi)⟩
  · obtain ⟨w', hw', -, f1, f2⟩ := key 1 (-1) (-1) (.inl rfl) (.inr rfl) (by norm_num) (fun _ _ => .inl rfl)
      (fun i hi => .inr (e1 i hi)) fun i hi => .inr (e2 i hi)
    obtain rfl : w = w' := by rw [hw] at hw'; injection hw'
    exact ⟨fun i hi => neg (f1 i hi), fun i hi => neg (f2 i hi)⟩

end P2

section CMTF
variable {E : Ext} {c : CMTF.Config} {X : NDArray ℝ} {Ys : List (NDArray ℝ)} {modes : List Int} {ms qs : List ℕ}
  {arg : InitArg KruskalTensor} {t : KruskalTensor} {budget : Int} {mi : Option Int} {loggers : List Logger} {file : Option H5File}

/-- **C146** for `CMTF_ALS`: columns of a component that are zero at the start in two modes without coupled matrices are zero in the
result. (The uncoupled factor matrices are drawn, so components are not equal at the start if there are coupled matrices.) -/
theorem C146_coupled_zero (hE : E.SVDOk) (hN : E.NNLSOk) (hQ : E.QROk) (hA : CP.Admissible c.cp.opts none none X.shape)
    (hridge : c.cp.opts.ridgePenalties = none) (hY : CMTF.Coupled X.shape Ys modes ms qs) (hlog : c.Measurable ms qs)
    (hfreq : freqOption c.cp.freq ≠ 0) (hi : CP.StartsFrom E c.cp none none arg X t) (ht : t.WF X.shape c.cp.opts.rank)
    {p : ℕ} (hp : p < c.cp.opts.rank) {k l : ℕ} (hk : k < X.shape.length) (hl : l < X.shape.length) (hkl : k ≠ l)
    (hkm : k ∉ ms) (hlm : l ∉ ms)
    (hstart : ∀ m F, m = k ∨ m = l → t.factorMatrices[m]? = some F → ∀ i < X.shape.getD m 0, F.get [i, p] = 0)
    (hb : 0 < mi.getD budget) (hS : Storing (CMTF.method E c) (CMTF.newObject none none budget loggers file) []) :
    ∃ w, CMTF.fit E c X Ys modes mi arg (CMTF.newObject none none budget loggers file) = .ok () w ∧
      ∀ m, m = k ∨ m = l → ∀ i < X.shape.getD m 0, (w.st.cp.dec.factorMatrices.getD m noArr).get [i, p] = 0 := by
  obtain ⟨w, w', h1, h2, h3, -⟩ := C118_cmtf_components hE hN hQ (c := c) (c' := c) rfl hA hridge hY hlog hlog hfreq hfreq hi hi ht ht
    (perm := Equiv.refl ℕ) (fun _ => Iff.rfl) (sign := fun m r => if r = p ∧ (m = k ∨ m = l) then -1 else 1)
    (fun m _ r _ => by split; exacts [Or.inr rfl, Or.inl rfl])
    (fun r _ => prod_two_signs hk hl hkl _)
    (fun m F F' hF hF' i hi r _ => by
      obtain rfl : F = F' := by rw [hF] at hF'; exact Option.some.inj hF'
      dsimp only [Equiv.refl_apply]
      split
      · rename_i h
        rw [h.1, hstart m F h.2 hF i hi, mul_zero]
      · rw [one_mul])
    (fun i hi j hj r hr => by
      have hm : ms.getD i 0 ∈ ms := by rw [getD_of_lt hi]; exact List.getElem_mem hi
      rw [Equiv.refl_apply, if_neg, one_mul]
      rintro ⟨-, h | h⟩
      · exact hkm (h ▸ hm)
      · exact hlm (h ▸ hm)) hb hS hS
  obtain rfl : w = w' := by rw [h1] at h2; injection h2
  refine ⟨w, h1, fun m hm i hi => ?_⟩
  have hml : m < X.shape.length := by rcases hm with rfl | rfl <;> assumption
  have := h3 m hml i hi p hp
  rw [Equiv.refl_apply, if_pos ⟨rfl, hm⟩] at this
  linarith

end CMTF

/-- The hypotheses hold for a fit of `diag21` with two equal components (up to signs), and for one whose second component is
zero. -/
example {E : Ext} (hE : E.SVDOk) (hN : E.NNLSOk) (hQ : E.QROk) (budget : Int) (hb : 0 < budget) :
    (∃ w, CP.fit E pairConfig diag21 (some budget)
        (.tensor ⟨2, [ofMat 2 2 fun i r => if r = 0 then 1 + i else -(1 + i), ofMat 2 2 fun _ r => if r = 0 then 1 else -1], full [2] 1⟩)
        (CP.newObject none none budget [] none) = .ok () w ∧
      ∀ k F, w.st.dec.factorMatrices[k]? = some F → ∀ i < diag21.shape.getD k 0, F.get [i, 1] = -1 * F.get [i, 0]) ∧
    ∃ w, CP.fit E pairConfig diag21 (some budget)
        (.tensor ⟨2, [ofMat 2 2 fun i r => if r = 0 then 1 + i else 0, ofMat 2 2 fun _ r => if r = 0 then 1 else 0], full [2] 1⟩)
        (CP.newObject none none budget [] none) = .ok () w ∧
      ∀ m F, m = 0 ∨ m = 1 → w.st.dec.factorMatrices[m]? = some F → ∀ i < diag21.shape.getD m 0, F.get [i, 1] = 0 := by
  have ht : ∀ f g : ℕ → ℕ → ℝ, KruskalTensor.WF ⟨2, [ofMat 2 2 f, ofMat 2 2 g], full [2] 1⟩ diag21.shape 2 := fun f g =>
    ⟨rfl, .cons rfl (.cons rfl .nil), rfl⟩
  have hno : ¬ 0 < (CP.method E pairConfig).freq := by show ¬ (0 : Int) < -1; decide
  constructor
  · refine C146_equal hE hN hQ (c := pairConfig) (X := diag21) (pair_admissible rfl) rfl (by intro p hp; simp [pairConfig] at hp)
      (by decide) (startsFrom_precomputed pair_init (ht _ _)) (ht _ _) (p := 0) (q := 1) (by decide) (by decide)
      (s := fun _ => -1) (fun _ => .inr rfl) (by simp [diag21]) ?_ hb
      ⟨fun h => absurd h hno, fun h => absurd h hno, fun h => absurd h hno⟩
    intro k F hF i hi
    match k, hF with
    | 0, hF =>
      obtain rfl := Option.some.inj hF
      have hi : i < 2 := hi
      rw [get_ofMat hi (by norm_num), get_ofMat hi (by norm_num)]; simp
    | 1, hF =>
      obtain rfl := Option.some.inj hF
      have hi : i < 2 := hi
      rw [get_ofMat hi (by norm_num), get_ofMat hi (by norm_num)]; simp
  · refine C146_zero hE hN hQ (c := pairConfig) (X := diag21) (pair_admissible rfl) rfl (by intro p hp; simp [pairConfig] at hp)
      (by decide) (startsFrom_precomputed pair_init (ht _ _)) (ht _ _) (p := 1) (by decide) (k := 0) (l := 1) (by decide) (by decide)
      (by decide) ?_ hb ⟨fun h => absurd h hno, fun h => absurd h hno, fun h => absurd h hno⟩
    intro k F _ hF i hi
    match k, hF with
    | 0, hF =>
      obtain rfl := Option.some.inj hF
      have hi : i < 2 := hi
      rw [get_ofMat hi (by norm_num)]; simp
    | 1, hF =>
      obtain rfl := Option.some.inj hF
      have hi : i < 2 := hi
      rw [get_ofMat hi (by norm_num)]; simp

/-- The same for a Parafac2 model of two slices, whose second component equals the first one, or is zero. -/
example {E : Ext} (hE : E.SVDOk) (hN : E.NNLSOk) (hQR : E.QROk) {c : P2.Config} (hinit : c.init.toLower = "precomputed")
    (hfreq : c.freq = none) (hnn : c.opts.nonNeg = none) (hon : c.opts.orth = none) (hridge : c.opts.ridgePenalties = none)
    (hR : c.opts.rank = 2) (hlog : c.logs = []) (budget : Int) (x : ℝ) (hx : x = 0 ∨ x = 1) :
    ∃ w, P2.fit E c (.list duoSlices) none (.tensor duoObj)
        (P2.newObject ⟨fun a => [ofMat 2 2 fun i r => if r = 0 then (i : ℝ) + 1 else x * (i + 1),
          ofMat 2 2 fun q r => if r = 0 then (q : ℝ) + 2 else x * (q + 2), ofMat 2 2 fun k r => if r = 0 then (k : ℝ) + 3 else x * (k + 3),
          ofMat 2 2 fun j q => if j = q then 1 else 0, ofMat 3 2 fun j q => if j = q then 1 else 0].getD a (full [] 0), 5⟩
          budget [] none) = .ok () w ∧
      ∀ i < 2, w.st.A.get [i, 1] = x * w.st.A.get [i, 0] := by
  set h0 : Heap := ⟨fun a => [ofMat 2 2 fun i r => if r = 0 then (i : ℝ) + 1 else x * (i + 1),
          ofMat 2 2 fun q r => if r = 0 then (q : ℝ) + 2 else x * (q + 2), ofMat 2 2 fun k r => if r = 0 then (k : ℝ) + 3 else x * (k + 3),
          ofMat 2 2 fun j q => if j = q then 1 else 0, ofMat 3 2 fun j q => if j = q then 1 else 0].getD a (full [] 0), 5⟩ with hh0
  obtain ⟨s, g1, g2, g3, g4, g5⟩ := p2_startsFrom_precomputed (E := E) (c := c) hinit (I := 2) (Js := [2, 3]) (Xs := duoSlices)
    (h0 := h0) (d := duoObj) (by norm_num) (.cons rfl (.cons rfl .nil)) (by norm_num) (by rw [hR]; norm_num) (by simp)
    (by rw [hR]; rfl) (by rw [hR]; rfl) (by rw [hR]; rfl) (by rw [hR]; exact .cons rfl (.cons rfl .nil))
  have hA : P2.Admissible c.opts 2 [2, 3].length := P2.admissible_free hnn hon hridge (by rw [hR]; norm_num) (by norm_num) (by norm_num)
  have e1 : ∀ i < 2, s.A.get [i, 1] = x * s.A.get [i, 0] := by
    intro i hi
    rw [P2State.A, g3, g4]
    simp [hh0, duoObj, get_ofMat hi]
  have e2 : ∀ i < 2, s.D.get [i, 1] = x * s.D.get [i, 0] := by
    intro i hi
    rw [P2State.D, g3, g4]
    simp [hh0, duoObj, get_ofMat hi]
  have e3 : ∀ i < 2, s.C.get [i, 1] = x * s.C.get [i, 0] := by
    intro i hi
    rw [P2State.C, g3, g4]
    simp [hh0, duoObj, get_ofMat hi]
  have hsep : s.Separate := by rw [P2State.Separate, g3]; decide
  have hal : s.Allocated := by
    rw [P2State.Allocated, g3, g4]
    show ∀ a ∈ duoObj.A :: duoObj.blueprint :: duoObj.C :: duoObj.P, a < 5
    decide
  have hlog' : c.Measurable 2 [2, 3] := by intro p hp; rw [hlog] at hp; simp at hp
  rcases hx with rfl | rfl
  · obtain ⟨w, h1, h2, -⟩ := C146_parafac2_zero hE hN hQR hnn hon hridge g1 g2 hsep hal (p := 1) (by rw [hR]; norm_num) hA hlog'
      (by rw [hfreq]; decide) (mi := none) (p2_storing_none hfreq (P2.newObject h0 budget [] none) _)
    exact ⟨w, h1, fun i hi => by
      rw [zero_mul]
      exact (h2 (fun i hi => by rw [e1 i hi, zero_mul]) (fun i hi => by rw [e2 i (by rwa [hR] at hi), zero_mul])).1 i hi⟩
  · obtain ⟨w, h1, h2, -⟩ := C146_parafac2_equal hE hN hQR hnn hon hridge g1 g2 hsep hal (p := 0) (q := 1) (by rw [hR]; norm_num)
      (by rw [hR]; norm_num) (x := 1) (y := 1) (z := 1) (.inl rfl) (.inl rfl) (by norm_num) e1 (by rw [hR]; exact e2) e3 hA hlog'
      (by rw [hfreq]; decide) (mi := none) (p2_storing_none hfreq (P2.newObject h0 budget [] none) _)
    exact ⟨w, h1, h2⟩

/-- The same for a tensor with a matrix coupled to its first mode. -/
example {E : Ext} (hE : E.SVDOk) (hN : E.NNLSOk) (hQ : E.QROk) (x : List ℕ → ℝ) (y f : ℕ → ℕ → ℝ) (d : ℕ → ℕ → ℕ → ℝ)
    (budget : Int) (hb : 0 < budget) :
    ∃ w, CMTF.fit E (coupledConfig d) (ofFn [2, 2, 2] x) [ofMat 2 3 y] [0] (some budget)
        (.tensor ⟨2, [ofMat 2 2 f, ofMat 2 2 fun i r => if r = 0 then 1 + i else 0, ofMat 2 2 fun _ r => if r = 0 then 1 else 0],
          full [2] 1⟩) (CMTF.newObject none none budget [] none) = .ok () w ∧
      ∀ m, m = 1 ∨ m = 2 → ∀ i < 2, (w.st.cp.dec.factorMatrices.getD m noArr).get [i, 1] = 0 := by
  have ht : KruskalTensor.WF ⟨2, [ofMat 2 2 f, ofMat 2 2 fun i r => if r = 0 then 1 + i else 0, ofMat 2 2 fun _ r => if r = 0 then 1 else 0],
      full [2] 1⟩ (ofFn [2, 2, 2] x).shape 2 := ⟨rfl, .cons rfl (.cons rfl (.cons rfl .nil)), rfl⟩
  obtain ⟨w, h1, h2⟩ := C146_coupled_zero hE hN hQ (c := coupledConfig d) (X := ofFn [2, 2, 2] x) (Ys := [ofMat 2 3 y]) (modes := [0])
    (ms := [0]) (qs := [3]) ⟨show 0 < 2 by decide, by simp, by simp, by simp, by simp, by simp [coupledConfig, pairConfig], by simp, by simp⟩ rfl
    ⟨.cons (isMode_nat (by norm_num)) .nil, rfl, by simp⟩ (coupled_measurable _ _ _) (show freqOption none ≠ 0 by decide)
    (startsFrom_precomputed pair_init ht) ht (p := 1) (show 1 < 2 by decide) (k := 1) (l := 2) (by simp) (by simp) (by decide)
    (by decide) (by decide) (by
      intro m F hm hF i hi
      rcases hm with rfl | rfl
      · obtain rfl := Option.some.inj hF
        have hi : i < 2 := hi
        rw [get_ofMat hi (by norm_num)]; simp
      · obtain rfl := Option.some.inj hF
        have hi : i < 2 := hi
        rw [get_ofMat hi (by norm_num)]; simp) (mi := some budget) (budget := budget) (loggers := []) (file := none) hb
    (coupled_storing _ _ _)
  exact ⟨w, h1, fun m hm i hi => h2 m hm i (by rcases hm with rfl | rfl <;> exact hi)⟩

end
end TK
