import Verif.Lemmas.RowOrder

/-!
# C112: the order of the rows in fits with constraints and penalties

Source: cp.py:336-402, base.py:7-60.

C97 is about fits without constraints and penalties. Every solver works on the rows of the right hand side one at a time,
or, for orthonormal factor matrices, rotates with them; so the same holds for all constraints and penalties, except that
the modes that are orthonormalised at the start have to keep their order.
-/

namespace TK
open NDArray Fit Matrix
open EStateM (Result)

noncomputable section

variable {σ : ℕ → Equiv.Perm ℕ}

theorem orbit_rowsMoved {E : Ext} (hE : E.SVDOk) (hN : E.NNLSOk) {o : CPOpts} (hr : 0 < o.rank) {s s' : CPState}
    (h : s.Good o) (h' : s'.Good o)
    (hσ : ∀ k < s.X.shape.length, ∀ i, σ k i < s.X.shape.getD k 0 ↔ i < s.X.shape.getD k 0)
    (hM : s.RowsMoved o.rank σ s') (j : ℕ) : (CP.orbit E o s j).RowsMoved o.rank σ (CP.orbit E o s' j) := by
  induction j with
  | zero => exact hM
  | succ j ih =>
    obtain ⟨g, p⟩ := orbit_good hE hN hr h j
    obtain ⟨g', p'⟩ := orbit_good hE hN hr h' j
    obtain ⟨t, e, q1, -, q3⟩ := iteration_inv (orbit_step hE hN hr h j)
    obtain ⟨t', e', q1', -, q3'⟩ := iteration_inv (orbit_step hE hN hr h' j)
    rw [ih.moved.tensor.shape] at q1'
    obtain ⟨u, u', f, f', m, -⟩ := updates_rowsMoved hE hr (σ := σ) (List.range (CP.orbit E o s j).X.shape.length) g.sized
      g'.sized (by rw [p.X]; exact hσ) g.config ih (fun m hm => by simpa using hm)
    rw [q1] at f
    rw [q1'] at f'
    obtain rfl := Except.ok.inj f
    obtain rfl := Except.ok.inj f'
    rw [q3, q3']
    exact ⟨⟨m.moved.tensor, m.moved.factors⟩, m.nonNeg, m.orth⟩

/-- C112. Let `X'` be `X` with the rows of each mode `k` moved by `σ k`, and let the factor matrices of the initial
decomposition `t'` be those of `t` with their rows moved in the same way. Modes with an orthonormality constraint are not
moved. Whatever the non-negativity and orthonormality constraints and the ridge penalties are, the fit of `X'` makes the
same number of iterations as the fit of `X`, its factor matrices are those of the latter with the rows moved, and its
error, the recorded change and the verdict of the stopping test are the same. -/
theorem C112_rows {E : Ext} (hE : E.SVDOk) (hN : E.NNLSOk) (hQ : E.QROk) {c : CP.Config}
    {nonNeg orth : Option (List Bool)} {X X' : NDArray ℝ} (hA : CP.Admissible c.opts nonNeg orth X.shape)
    (hlog : c.Measurable) (hfreq : freqOption c.freq ≠ 0) {arg arg' : InitArg KruskalTensor} {t t' : KruskalTensor}
    (hi : CP.StartsFrom E c nonNeg orth arg X t) (hi' : CP.StartsFrom E c nonNeg orth arg' X' t')
    (ht : t.WF X.shape c.opts.rank) (ht' : t'.WF X.shape c.opts.rank) (hshape : X'.shape = X.shape)
    (hσ : ∀ k < X.shape.length, ∀ i, σ k i < X.shape.getD k 0 ↔ i < X.shape.getD k 0)
    (hfix : ∀ l, orth = some l → ∀ k : ℕ, l[k]? = some true → σ k = Equiv.refl ℕ)
    (hX : ∀ idx, Valid X.shape idx → X'.get (idx.mapIdx fun k i => σ k i) = X.get idx)
    (hstart : ∀ k F F', t.factorMatrices[k]? = some F → t'.factorMatrices[k]? = some F' →
      ∀ i < X.shape.getD k 0, ∀ r < c.opts.rank, F'.get [σ k i, r] = F.get [i, r])
    {budget : Int} {mi : Option Int} (hb : 0 < mi.getD budget) {loggers : List Logger} {file : Option H5File}
    (hS : Storing (CP.method E c) (CP.newObject nonNeg orth budget loggers file) []) :
    ∃ w w', CP.fit E c X mi arg (CP.newObject nonNeg orth budget loggers file) = .ok () w ∧
      CP.fit E c X' mi arg' (CP.newObject nonNeg orth budget loggers file) = .ok () w' ∧
      (∀ k F F', w.st.dec.factorMatrices[k]? = some F → w'.st.dec.factorMatrices[k]? = some F' →
        ∀ i < X.shape.getD k 0, ∀ r < c.opts.rank, F'.get [σ k i, r] = F.get [i, r]) ∧
      w'.it = w.it ∧ CP.sse w'.st = CP.sse w.st ∧ w'.st.relChange = w.st.relChange ∧
      CP.shouldStop c.opts w'.st = CP.shouldStop c.opts w.st := by
  have hA' : CP.Admissible c.opts nonNeg orth X'.shape := by rw [hshape]; exact hA
  have ht'' : t'.WF X'.shape c.opts.rank := by rw [hshape]; exact ht'
  obtain ⟨s, w, k, e0, h1, h2, h3, h4, h5, h6, hwf, -⟩ := C74_fit_completes hE hN hQ hA hlog hfreq hi ht hb hS
  obtain ⟨s', w', k', e0', h1', h2', h3', h4', h5', h6', hwf', -⟩ := C74_fit_completes hE hN hQ hA' hlog hfreq hi' ht'' hb hS
  obtain ⟨z, ez, hG, hXs, -, hrel, hw, hnn, hon, -⟩ := initFit_good (E := E) hQ (old := CP.fresh nonNeg orth) rfl hA ht
  rw [e0] at ez
  obtain rfl : s = z := Except.ok.inj ez
  obtain ⟨z, ez, hG', hXs', -, hrel', hw', hnn', hon', -⟩ :=
    initFit_good (E := E) hQ (old := CP.fresh nonNeg orth) rfl hA' ht''
  rw [e0'] at ez
  obtain rfl : s' = z := Except.ok.inj ez
  have hr := hA.rank
  have hT : TensorMoved (rowMoves X.shape.length σ) 1 X X' :=
    ⟨hshape, fun idx hv => by rw [moveIdx_changes hv.length_eq, hX idx hv, one_mul]⟩
  have hF : FactorsMoved c.opts.rank (Equiv.refl ℕ) (rowMoves X.shape.length σ) X.shape t.factorMatrices t'.factorMatrices :=
    FactorsMoved.of_get (by simp) ht.factors ht'.factors fun m s F F' hs hF hF' i hi r hr => by
      obtain ⟨-, rfl⟩ := getElem?_changes hs
      exact (hstart m F F' hF hF' i hi r hr).trans (one_mul _).symm
  have hM : s.RowsMoved c.opts.rank σ s' := by
    refine ⟨⟨by rw [hXs, hXs']; exact hT, ?_⟩, by rw [hnn, hnn', hshape], by rw [hon, hon', hshape]⟩
    have f := initFit_factors e0
    have f' := initFit_factors e0'
    rw [ht.factors.length_eq] at f
    rw [ht'.factors.length_eq] at f'
    have hlen : (orth.getD (List.replicate X.shape.length false)).length = X.shape.length := by
      cases orth with
      | none => simp
      | some l => simpa using hA.orthLen l rfl
    obtain ⟨gs, gs', g, g', hm⟩ := orthonormalise_moved (E := E) hQ (σ := σ)
      (bs := orth.getD (List.replicate X.shape.length false)) (mode := 0) hF (by omega)
      (fun k hk => by
        cases orth with
        | none => simp [List.getElem?_replicate] at hk
        | some l => simpa using hA.orthRows l rfl k hk)
      (fun k hk => by
        cases orth with
        | none => simp [List.getElem?_replicate] at hk
        | some l => simpa using hfix l rfl k hk)
    obtain rfl : gs = s.dec.factorMatrices := Except.ok.inj (g.symm.trans f)
    obtain rfl : gs' = s'.dec.factorMatrices := Except.ok.inj (g'.symm.trans f')
    rw [hXs]; exact hm
  have hσs : ∀ k < s.X.shape.length, ∀ i, σ k i < s.X.shape.getD k 0 ↔ i < s.X.shape.getD k 0 := by rw [hXs]; exact hσ
  have hC := rowMoves_change c.opts.rank hσs
  have horb := orbit_rowsMoved hE hN hr hG hG' hσs hM
  have hW : ∀ j, ∀ r < c.opts.rank, (CP.orbit E c.opts s j).dec.weights.get [r] = 1 := fun j => by
    rw [(orbit_good hE hN hr hG j).2.weights]; exact hw
  have hW' : ∀ j, ∀ r < c.opts.rank, (CP.orbit E c.opts s' j).dec.weights.get [r] = 1 := fun j => by
    rw [(orbit_good hE hN hr hG' j).2.weights]; exact hw'
  have hsse : ∀ j, (CP.orbit E c.opts s' j).trueSSE c.opts.rank = (CP.orbit E c.opts s j).trueSSE c.opts.rank := fun j => by
    have hp := (orbit_good hE hN hr hG j).2.X
    have := trueSSE_moved (hW j) (hW' j) (by rw [hp]; rw [← hp] at hC; rw [hp] at hC; exact hC)
      (by have := (horb j).moved; rw [hp] at this; exact this)
    simpa using this
  have hnorm : s'.XNorm ^ 2 = s.XNorm ^ 2 := by
    rw [hG.cached.norm, hG'.cached.norm, Real.sq_sqrt (sumIdx_nonneg fun _ _ => sq_nonneg _),
      Real.sq_sqrt (sumIdx_nonneg fun _ _ => sq_nonneg _)]
    have := sqNorm_moved hC hM.moved.tensor
    simpa using this
  have hrc : ∀ j, (CP.orbit E c.opts s' j).relChange = (CP.orbit E c.opts s j).relChange := by
    intro j
    cases j with
    | zero => show s'.relChange = s.relChange; rw [hrel, hrel']
    | succ j => rw [orbit_relChange hE hN hr hG j, orbit_relChange hE hN hr hG' j, hsse, hsse]
  have hstop : ∀ j, CP.shouldStop c.opts (CP.orbit E c.opts s' j) = CP.shouldStop c.opts (CP.orbit E c.opts s j) := by
    intro j
    obtain ⟨g, p⟩ := orbit_good hE hN hr hG j
    obtain ⟨g', p'⟩ := orbit_good hE hN hr hG' j
    rw [CP.shouldStop, CP.shouldStop, C35_sse g.sized g.cached, C35_sse g'.sized g'.cached, bind_ok, bind_ok, hrc,
      hsse, p.XNorm, p'.XNorm, hnorm]
  have hst : w.st = CP.orbit E c.opts s k := by
    rw [orbit_iterate hE hN hr k hG] at h4; exact (Except.ok.inj h4).symm
  have hst' : w'.st = CP.orbit E c.opts s' k' := by
    rw [orbit_iterate hE hN hr k' hG'] at h4'; exact (Except.ok.inj h4').symm
  have hgo : ∀ j < k, CP.shouldStop c.opts (CP.orbit E c.opts s j) = .ok false := by
    intro j hj
    obtain ⟨x, r1, r2⟩ := h5 j hj
    rw [orbit_iterate hE hN hr j hG] at r1
    rw [Except.ok.inj r1]; exact r2
  have hgo' : ∀ j < k', CP.shouldStop c.opts (CP.orbit E c.opts s' j) = .ok false := by
    intro j hj
    obtain ⟨x, r1, r2⟩ := h5' j hj
    rw [orbit_iterate hE hN hr j hG'] at r1
    rw [Except.ok.inj r1]; exact r2
  obtain rfl : k' = k := by
    rcases lt_trichotomy k' k with hlt | heq | hlt
    · have := h6' (by omega)
      rw [hst', hstop, hgo k' hlt] at this
      cases this
    · exact heq
    · have := h6 (by omega)
      rw [hst, ← hstop, hgo' k hlt] at this
      cases this
  obtain ⟨g, p⟩ := orbit_good hE hN hr hG k'
  obtain ⟨g', p'⟩ := orbit_good hE hN hr hG' k'
  refine ⟨w, w', h1, h1', fun k F F' hF hF' i hi r hr => ?_, by rw [h3, h3'], ?_, by rw [hst, hst', hrc],
    by rw [hst, hst', hstop]⟩
  · have hk : k < X.shape.length := by
      rw [← hwf.factors.length_eq]
      exact (List.getElem?_eq_some_iff.1 hF).1
    have := (horb k').moved.factors
    rw [p.X, hXs, ← hst, ← hst'] at this
    have := this.get (m := k) (s := ⟨σ k, fun _ => 1⟩) (by simp [rowMoves, changes, hk]) hF hF' hi hr
    simpa using this
  · rw [hst, hst', C35_sse g'.sized g'.cached, C35_sse g.sized g.cached, hsse]

/-- `pairConfig` with ridge penalties 1 and 2. -/
def ridgedPair : CP.Config := { pairConfig with opts := { pairConfig.opts with ridgePenalties := some [1, 2] } }

/-- The hypotheses of `C112_rows` for `diag(2, 1)` with its rows exchanged, a first factor matrix that is not negative, a second one that
is orthonormal, and ridge penalties. -/
example {E : Ext} (hE : E.SVDOk) (hN : E.NNLSOk) (hQ : E.QROk) (budget : Int) (hb : 0 < budget) :
    ∃ w w', CP.fit E ridgedPair diag21 (some budget) (.tensor pairKT)
        (CP.newObject (some [true, false]) (some [false, true]) budget [] none) = .ok () w ∧
      CP.fit E ridgedPair (ofMat 2 2 fun i j => if i = j then 0 else (if i = 0 then 1 else 2)) (some budget)
        (.tensor pairKTrows) (CP.newObject (some [true, false]) (some [false, true]) budget [] none) = .ok () w' ∧
      CP.sse w'.st = CP.sse w.st ∧ w'.it = w.it := by
  have ht : pairKT.WF diag21.shape 2 := ⟨rfl, by simp [Factors, pairKT, diag21], rfl⟩
  have ht' : pairKTrows.WF diag21.shape 2 := ⟨rfl, by simp [Factors, pairKTrows, diag21], rfl⟩
  have hi : ridgedPair.init.toLower = "precomputed" := pair_init
  have hA : CP.Admissible ridgedPair.opts (some [true, false]) (some [false, true]) diag21.shape := by
    refine ⟨by decide, by simp [diag21], by simp [diag21], by simp [diag21], by simp [diag21], ?_, ?_, ?_⟩
    · intro l hl
      obtain rfl := Option.some.inj hl
      rfl
    · intro l hl k hk
      obtain rfl := Option.some.inj hl
      match k, hk with
      | 1, _ => exact le_rfl
    · intro l l' hl hl' k hk
      obtain rfl := Option.some.inj hl
      obtain rfl := Option.some.inj hl'
      match k, hk with
      | 0, hk => simp at hk
      | 1, hk => simp at hk
      | k + 2, hk => simp at hk
  have hS : Storing (CP.method E ridgedPair) (CP.newObject (some [true, false]) (some [false, true]) budget [] none) [] := by
    have hneg : ¬ 0 < (CP.method E ridgedPair).freq := by
      show ¬ (0 : Int) < -1
      decide
    exact ⟨fun h => absurd h hneg, fun h => absurd h hneg, fun h => absurd h hneg⟩
  obtain ⟨w, w', h1, h2, -, h4, h5, -⟩ := C112_rows hE hN hQ (c := ridgedPair) (X := diag21)
    (X' := ofMat 2 2 fun i j => if i = j then 0 else (if i = 0 then 1 else 2))
    hA (by intro p hp; simp [ridgedPair, pairConfig] at hp) (by decide) (startsFrom_precomputed hi ht)
    (startsFrom_precomputed hi ht') ht ht' rfl
    (σ := fun k => if k = 0 then Equiv.swap 0 1 else Equiv.refl ℕ)
    (by
      intro k hk i
      have hk : k < 2 := hk
      obtain rfl | rfl : k = 0 ∨ k = 1 := by omega
      · exact swap_lt i
      · exact Iff.rfl)
    (by
      intro l hl k hk
      obtain rfl := Option.some.inj hl
      match k, hk with
      | 1, _ => rfl)
    (by
      intro idx hv
      match idx, hv with
      | [i, j], hv =>
        have hi : i < 2 := hv.1
        have hj : j < 2 := hv.2.1
        show (ofMat 2 2 fun i j => if i = j then (0 : ℝ) else (if i = 0 then 1 else 2)).get [Equiv.swap 0 1 i, j] = _
        rw [diag21, get_ofMat ((swap_lt i).2 hi) hj, get_ofMat hi hj]
        obtain rfl | rfl : i = 0 ∨ i = 1 := by omega
        · rw [Equiv.swap_apply_left]
          obtain rfl | rfl : j = 0 ∨ j = 1 := by omega
          · norm_num
          · norm_num
        · rw [Equiv.swap_apply_right]
          obtain rfl | rfl : j = 0 ∨ j = 1 := by omega
          · norm_num
          · norm_num)
    (by
      intro k F F' hF hF' i hi r hr
      match k, hF, hF' with
      | 0, hF, hF' =>
        obtain rfl := Option.some.inj hF
        obtain rfl := Option.some.inj hF'
        have hi : i < 2 := hi
        have hr : r < 2 := hr
        show (ofMat 2 2 _).get [Equiv.swap 0 1 i, r] = _
        rw [get_ofMat ((swap_lt i).2 hi) hr, get_ofMat hi hr]
        obtain rfl | rfl : i = 0 ∨ i = 1 := by omega
        · rw [Equiv.swap_apply_left]; simp; ring
        · rw [Equiv.swap_apply_right]; simp; ring
      | 1, hF, hF' =>
        obtain rfl := Option.some.inj hF
        obtain rfl := Option.some.inj hF'
        rfl)
    (mi := some budget) (budget := budget) (loggers := []) (file := none) hb hS
  exact ⟨w, w', h1, h2, h5, h4⟩

end
end TK
