import Verif.Props.SliceOrder

/-!
# C114, C115: the unit of the data, and the order and the signs of the components, in Parafac2 fits

Source: parafac2.py:393-470, cp.py:144-190, base.py:7-60.

A fit of `Parafac2_ALS` without constraints and penalties commutes with multiplying all slices by a constant, with the order of the
slices and of their rows, and with the order and the signs of the components of the start.
-/

namespace TK
open NDArray Matrix

noncomputable section

theorem LA.ThinSVD.smul {m n k : ℕ} {A : Matrix (Fin m) (Fin n) ℝ} {U : Matrix (Fin m) (Fin k) ℝ} {s : Fin k → ℝ}
    {Vh : Matrix (Fin k) (Fin n) ℝ} (h : LA.ThinSVD A U s Vh) {b : ℝ} (hb : 0 ≤ b) :
    LA.ThinSVD (b • A) U (fun i => b * s i) Vh := by
  refine ⟨h.left, h.right, ?_, fun i => mul_nonneg hb (h.nonneg i)⟩
  have : (diagonal fun i => b * s i) = b • diagonal s := by
    ext i j
    by_cases hij : i = j
    · subst hij; simp
    · simp [hij]
  rw [this, Matrix.mul_smul, Matrix.smul_mul, ← h.eq]

/-- `orthogonal_solve` does not depend on the order of the equations, nor on the unit. -/
theorem orthogonalSolve_units {E : Ext} (hE : E.SVDOk) {A A' B B' : NDArray ℝ} {n r m : ℕ} (hA : A.shape = [n, r])
    (hB : B.shape = [n, m]) (hA' : A'.shape = [n, r]) (hB' : B'.shape = [n, m]) (hr : 0 < r) (hm : 0 < m) {α : Equiv.Perm ℕ}
    (hα : ∀ i, α i < n ↔ i < n) {x y : ℝ} (hb : 0 < x * y) (mA : ∀ i < n, ∀ q < r, A'.get [α i, q] = x * A.get [i, q])
    (mB : ∀ i < n, ∀ j < m, B'.get [α i, j] = y * B.get [i, j]) :
    orthogonalSolve E A' B' = orthogonalSolve E A B := by
  obtain ⟨C, U, S, Vh, X, -, -, c1, d1, x1, x2, x3⟩ := orthogonalSolve_mat hE hA hB hr hm
  obtain ⟨C', U', S', Vh', X', -, -, c1', d1', x1', x2', x3'⟩ := orthogonalSolve_mat hE hA' hB' hr hm
  have hk : 0 < min m r := by omega
  have hC : mat C' m r = (x * y) • mat C m r := by
    rw [c1, c1']
    ext i j
    rw [Matrix.smul_apply, mul_apply, mul_apply, ← Equiv.sum_comp (finPerm α hα), smul_eq_mul, Finset.mul_sum]
    refine Finset.sum_congr rfl fun l _ => ?_
    show B'.get [α l, i] * A'.get [α l, j] = (x * y) * (B.get [(l : ℕ), i] * A.get [(l : ℕ), j])
    rw [mA l l.2 j j.2, mB l l.2 i i.2]; ring
  have t := d1.svd.smul hb.le
  have t' := d1'.svd
  rw [hC] at t'
  have hsort : Antitone fun i => (x * y) * vec S (min m r) i := fun i j hij => mul_le_mul_of_nonneg_left (d1.sorted hij) hb.le
  have h0 : S'.get [0] = (x * y) * S.get [0] := le_antisymm (t'.first_le t hsort hk) (t.first_le t' d1'.sorted hk)
  have htol : orthTol U' S' = (x * y) * orthTol U S := by rw [orthTol, orthTol, d1.shapeU, d1'.shapeU, h0]; ring
  have hpos : 0 ≤ orthTol U S := by
    have : 0 ≤ S.get [0] := d1.svd.nonneg ⟨0, hk⟩
    rw [orthTol]; positivity
  have := t'.spectral_unique t (fun z => if z > (x * y) * orthTol U S then 1 else 0) (by simp [mul_nonneg hb.le hpos])
  have e : X' = X := by
    refine mat_inj x2' x2 ?_
    rw [x3, x3']
    unfold LA.procrustes keepVec
    rw [htol]
    refine Eq.trans this ?_
    congr 3
    funext i
    exact if_congr (mul_lt_mul_iff_of_pos_left hb) rfl rfl
  rw [x1, x1', e]

theorem iterM_moved {E : Ext} (hE : E.SVDOk) (hN : E.NNLSOk) {o : CPOpts} (hr : 0 < o.rank) (hridge : o.ridgePenalties = none)
    {perm : Equiv.Perm ℕ} {ss : List ModeChange} {a : ℝ} :
    ∀ (n : ℕ) {s s' t t' : CPState}, s.Sized o.rank → s'.Sized o.rank → s.Unconstrained → s'.Unconstrained →
    Change o.rank perm s.X.shape ss a → s.Moved o.rank perm ss a s' →
    iterM (CP.updateFactors E o) n s = .ok t → iterM (CP.updateFactors E o) n s' = .ok t' →
    t.X = s.X ∧ t.Moved o.rank perm ss a t'
  | 0, s, s', t, t', _, _, _, _, _, hM, e, e' => by
    obtain rfl := Except.ok.inj e
    obtain rfl := Except.ok.inj e'
    exact ⟨rfl, hM⟩
  | n + 1, s, s', t, t', h, h', hU, hU', hC, hM, e, e' => by
    have cfg : ∀ {z : CPState}, z.Unconstrained → ∀ m < z.X.shape.length, ∃ nn on ridge, z.ModeConfig o m nn on ridge ∧
        ¬ (nn = true ∧ on = true) := by
      intro z hz m hm
      obtain ⟨l1, a1, b1⟩ := hz.nonNeg
      obtain ⟨l2, a2, b2⟩ := hz.orth
      exact ⟨false, false, none, ⟨⟨l1, a1, b1 m hm⟩, ⟨l2, a2, b2 m hm⟩, Or.inl ⟨hridge, rfl⟩⟩, by simp⟩
    have keep : ∀ {z y : CPState}, z.SameProblem y → z.Unconstrained → y.Unconstrained := by
      intro z y hzy hz
      refine ⟨?_, ?_⟩
      · rw [hzy.X, hzy.nonNeg]; exact hz.nonNeg
      · rw [hzy.X, hzy.orth]; exact hz.orth
    obtain ⟨s1, e1, p1, z1⟩ := cp_updateModes_total hE hN hr (List.range s.X.shape.length) s h (cfg hU) (by simp)
    obtain ⟨s1', e1', p1', z1'⟩ := cp_updateModes_total hE hN hr (List.range s'.X.shape.length) s' h' (cfg hU') (by simp)
    unfold iterM CP.updateFactors at e e'
    rw [e1, bind_ok] at e
    rw [e1', bind_ok] at e'
    have hM1 := updates_moved hE hE hr hridge (List.range s.X.shape.length) h h' hU hU' hC hM (by simp) e1
      (by rw [← hM.tensor.shape]; exact e1')
    obtain ⟨q1, q2⟩ := iterM_moved hE hN hr hridge n z1 z1' (keep p1 hU) (keep p1' hU') (by rw [p1.X]; exact hC) hM1 e e'
    exact ⟨by rw [q1, p1.X], q2⟩

/-- The changes of the three modes of the inner problem. -/
def p2Changes (α τ : Equiv.Perm ℕ) (β : ℕ → ℕ → ℝ) : List ModeChange := changes 3 (p2Moves α τ) β

namespace P2State

variable {s t : P2State} {I R : ℕ} {Js Js' : List ℕ} {α τ π : Equiv.Perm ℕ} {β : ℕ → ℕ → ℝ} {a : ℝ}

/-- `F'` is `F` with its rows moved by `σ`, its columns by `π`, and column `r` multiplied by `b r`. -/
def MatChanged (σ π : Equiv.Perm ℕ) (b : ℕ → ℝ) (n R : ℕ) (F F' : NDArray ℝ) : Prop :=
  ∀ i < n, ∀ r < R, F'.get [σ i, π r] = b r * F.get [i, r]

/-- The moves and the coefficients fit the sizes. -/
structure UnitChange (α τ π : Equiv.Perm ℕ) (β : ℕ → ℕ → ℝ) (a : ℝ) (I : ℕ) (Js Js' : List ℕ) (R : ℕ) : Prop where
  len : Js'.length = Js.length
  rows : ∀ i, α i < I ↔ i < I
  slices : ∀ k, τ k < Js.length ↔ k < Js.length
  comps : ∀ r, π r < R ↔ r < R
  sizes : ∀ k < Js.length, Js'.getD (τ k) 0 = Js.getD k 0
  abs : ∀ k < 3, ∃ b : ℝ, 0 < b ∧ ∀ r < R, β k r ^ 2 = b
  prod : ∀ r < R, β 0 r * β 1 r * β 2 r = a

/-- The data of `t` are those of `s` with slices and rows moved and multiplied by `a`; the decomposition corresponds. -/
structure Changed (α τ π : Equiv.Perm ℕ) (β : ℕ → ℕ → ℝ) (a : ℝ) (I : ℕ) (Js : List ℕ) (R : ℕ) (s t : P2State) : Prop where
  A : MatChanged α π (β 0) I R s.A t.A
  D : MatChanged (Equiv.refl ℕ) π (β 1) R R s.D t.D
  C : MatChanged τ π (β 2) Js.length R s.C t.C
  X : ∀ k < Js.length, ∀ i < I, ∀ j < Js.getD k 0, (nth t.X (τ k)).get [α i, j] = a * (nth s.X k).get [i, j]
  P : ∀ k < Js.length, MatMoved (Equiv.refl ℕ) (Js.getD k 0) R (nth s.P k) (nth t.P (τ k))

theorem UnitChange.change (u : UnitChange α τ π β a I Js Js' R) : Change R π [I, R, Js.length] (p2Changes α τ β) a := by
  refine change_of rfl (fun k hk i => ?_) u.comps u.abs fun r hr => ?_
  · have hk : k < 3 := hk
    interval_cases k
    · exact u.rows i
    · exact Iff.rfl
    · exact u.slices i
  · rw [← u.prod r hr]; simp [Finset.prod_range_succ]

theorem UnitChange.ne_zero (u : UnitChange α τ π β a I Js Js' R) (hR : 0 < R) : a ≠ 0 := u.change.ne_zero hR

theorem Changed.err (u : UnitChange α τ π β a I Js Js' R) (h : Changed α τ π β a I Js R s t) :
    t.err I Js' R = a ^ 2 * s.err I Js R := by
  unfold P2State.err p2Err
  rw [u.len, sum_move u.slices, Finset.mul_sum]
  refine Finset.sum_congr rfl fun k hk => ?_
  have hk := Finset.mem_range.1 hk
  rw [sum_move u.rows, u.sizes k hk, Finset.mul_sum]
  refine Finset.sum_congr rfl fun i hi => ?_
  rw [Finset.mul_sum]
  refine Finset.sum_congr rfl fun j hj => ?_
  have hi := Finset.mem_range.1 hi
  have hj := Finset.mem_range.1 hj
  have : p2Entry t.A t.D t.C (nth t.P (τ k)) R (τ k) (α i) j = a * p2Entry s.A s.D s.C (nth s.P k) R k i j := by
    unfold p2Entry
    rw [sum_move u.comps, Finset.mul_sum]
    refine Finset.sum_congr rfl fun r hr => ?_
    have hr := Finset.mem_range.1 hr
    have hin : (∑ q ∈ Finset.range R, (nth t.P (τ k)).get [j, q] * t.D.get [q, π r])
        = β 1 r * ∑ q ∈ Finset.range R, (nth s.P k).get [j, q] * s.D.get [q, r] := by
      rw [Finset.mul_sum]
      refine Finset.sum_congr rfl fun q hq => ?_
      have hq := Finset.mem_range.1 hq
      rw [show (nth t.P (τ k)).get [j, q] = (nth s.P k).get [j, q] from h.P k hk j hj q hq,
        show t.D.get [q, π r] = β 1 r * s.D.get [q, r] from h.D q hq r hr]
      ring
    rw [hin, h.A i hi r hr, h.C k hk r hr, ← u.prod r hr]
    ring
  rw [h.X k hk i hi j hj, this]
  ring

theorem Changed.loss {o : P2Opts} (hridge : o.ridgePenalties = none) (u : UnitChange α τ π β a I Js Js' o.rank)
    (h : Changed α τ π β a I Js o.rank s t) (hs : s.Sized I Js o.rank)
    (ht : t.Sized I Js' o.rank) {l l' : ℝ} (e : P2.loss o s = .ok l) (e' : P2.loss o t = .ok l') : l' = a ^ 2 * l := by
  rw [C81_loss hs, hridge] at e
  rw [C81_loss ht, hridge] at e'
  have e := Except.ok.inj e
  have e' := Except.ok.inj e'
  simp only [add_zero] at e e'
  rw [← e, ← e', h.err u]

/-- The projected data. -/
theorem projected_changed (u : UnitChange α τ π β a I Js Js' R) {X X' P P' : List (NDArray ℝ)}
    (hX : ∀ k < Js.length, ∀ i < I, ∀ j < Js.getD k 0, (nth X' (τ k)).get [α i, j] = a * (nth X k).get [i, j])
    (hP : ∀ k < Js.length, MatMoved (Equiv.refl ℕ) (Js.getD k 0) R (nth P k) (nth P' (τ k))) :
    TensorMoved (p2Changes α τ β) a (p2Projected X P I Js R) (p2Projected X' P' I Js' R) := by
  refine ⟨by simp [p2Projected, u.len], fun idx hv => ?_⟩
  obtain ⟨i, q, k, rfl, hi, hq, hk⟩ : ∃ i q k, idx = [i, q, k] ∧ i < I ∧ q < R ∧ k < Js.length := by
    match idx, hv with
    | [i, q, k], hv => exact ⟨i, q, k, rfl, hv.1, hv.2.1, hv.2.2.1⟩
  unfold p2Changes
  rw [moveIdx_changes (d := 3) rfl]
  show (p2Projected X' P' I Js' R).get [α i, q, τ k] = _
  unfold p2Projected
  rw [get_ofFn (show Valid [I, R, Js'.length] [α i, q, τ k] from
      ⟨(u.rows i).2 hi, hq, by rw [u.len]; exact (u.slices k).2 hk, trivial⟩), get_ofFn (show Valid [I, R, Js.length] [i, q, k] from ⟨hi, hq, hk, trivial⟩)]
  show (∑ j ∈ Finset.range (Js'.getD (τ k) 0), (nth X' (τ k)).get [α i, j] * (nth P' (τ k)).get [j, q])
    = a * ∑ j ∈ Finset.range (Js.getD k 0), (nth X k).get [i, j] * (nth P k).get [j, q]
  rw [u.sizes k hk, Finset.mul_sum]
  refine Finset.sum_congr rfl fun j hj => ?_
  have hj := Finset.mem_range.1 hj
  rw [hX k hk i hi j hj, show (nth P' (τ k)).get [j, q] = (nth P k).get [j, q] from hP k hk j hj q hq]
  ring

/-- The projection matrices after an update. -/
theorem newP_changed {E : Ext} (hE : E.SVDOk) (u : UnitChange α τ π β a I Js Js' R) (h : Changed α τ π β a I Js R s t)
    (hs : s.Sized I Js R) (ht : t.Sized I Js' R) {k : ℕ}
    (hk : k < Js.length) {v v' : NDArray ℝ} (hv : NewP E s I Js R k v) (hv' : NewP E t I Js' R (τ k) v') : v' = v := by
  obtain ⟨-, Y, e, rfl⟩ := hv
  obtain ⟨-, Y', e', rfl⟩ := hv'
  have h1 := shape_nth ht.X (k := τ k) (by rw [u.len]; exact (u.slices k).2 hk)
  rw [u.sizes k hk] at h1
  have := orthogonalSolve_units hE (A := p2Score s.A s.D s.C I R k) (A' := p2Score t.A t.D t.C I R (τ k)) (shape_ofMat I R _)
    (shape_nth hs.X hk) (shape_ofMat I R _) h1 hs.posR (hs.posJk hk) u.rows (x := a) (y := a)
    (mul_self_pos.2 (u.ne_zero hs.posR)) (fun i hi q hq => by
      unfold p2Score
      rw [get_ofMat ((u.rows i).2 hi) hq, get_ofMat hi hq, sum_move u.comps, Finset.mul_sum]
      refine Finset.sum_congr rfl fun r hr => ?_
      have hr := Finset.mem_range.1 hr
      rw [h.A i hi r hr, h.C k hk r hr, show t.D.get [q, π r] = β 1 r * s.D.get [q, r] from h.D q hq r hr, ← u.prod r hr]
      ring) (h.X k hk)
  rw [e, e'] at this
  rw [Except.ok.inj this]

/-- Corresponding states with corresponding inner problems. -/
structure Scaled (α τ π : Equiv.Perm ℕ) (β : ℕ → ℕ → ℝ) (a : ℝ) (o : P2Opts) (I : ℕ) (Js Js' : List ℕ) (s t : P2State)
    (c d : CPObj) : Prop where
  left : s.Working o I Js c
  right : t.Working o I Js' d
  nodupL : s.dec.P.Nodup
  nodupR : t.dec.P.Nodup
  changed : Changed α τ π β a I Js o.rank s t
  prevLoss : t.prevLoss = a ^ 2 * s.prevLoss
  addrL : c.addrs = [s.dec.A, s.dec.blueprint, s.dec.C]
  addrR : d.addrs = [t.dec.A, t.dec.blueprint, t.dec.C]
  nonNegL : c.st.nonNeg = some [false, false, false]
  nonNegR : d.st.nonNeg = some [false, false, false]
  orthL : c.st.orth = some [false, false, false]
  orthR : d.st.orth = some [false, false, false]

theorem Changed.factors (h : Changed α τ π β a I Js R s t) (hs : s.Sized I Js R) (ht : t.Sized I Js' R)
    (hlen : Js'.length = Js.length) :
    FactorsMoved R π (p2Changes α τ β) [I, R, Js.length] [s.A, s.D, s.C] [t.A, t.D, t.C] :=
  .cons hs.A ht.A h.A (.cons hs.D ht.D h.D (.cons hs.C (by rw [← hlen]; exact ht.C) h.C .nil))

theorem three_false : ∀ m < 3, [false, false, false][m]? = some false := by decide

/-- One iteration. -/
theorem Scaled.step {E : Ext} (hE : E.SVDOk) (hN : E.NNLSOk) {o : P2Opts} (hridge : o.ridgePenalties = none)
    (u : UnitChange α τ π β a I Js Js' o.rank) {c d : CPObj} (h : Scaled α τ π β a o I Js Js' s t c d) :
    ∃ s' t' c' d', P2.iteration E o s = .ok s' ∧ P2.iteration E o t = .ok t' ∧ Scaled α τ π β a o I Js Js' s' t' c' d' ∧
      t'.relChange = s'.relChange := by
  obtain ⟨s', c', f, e, hw, ha, hnn, hon, hd, hX, -, -, hl, hrc, hP, ⟨ef, hf⟩, -, -⟩ := iteration_ok hE hN h.left
  obtain ⟨t', d', g, e', hw', ha', hnn', hon', hd', hX', -, -, hl', hrc', hP', ⟨eg, hg⟩, -, -⟩ := iteration_ok hE hN h.right
  have sh := h.changed
  have hR := h.left.sized.posR
  have hXm : ∀ k < Js.length, ∀ i < I, ∀ j < Js.getD k 0, (nth t'.X (τ k)).get [α i, j] = a * (nth s'.X k).get [i, j] := by
    rw [hX, hX']; exact sh.X
  have hYm : ∀ k < Js.length, MatMoved (Equiv.refl ℕ) (Js.getD k 0) o.rank (nth s'.P k) (nth t'.P (τ k)) := by
    intro k hk
    obtain ⟨k1, l1, n1⟩ := hP k hk
    have hk' : τ k < Js'.length := by rw [u.len]; exact (u.slices k).2 hk
    obtain ⟨k2, l2, n2⟩ := hP' (τ k) hk'
    obtain rfl := l1.eq_of_nodup h.nodupL h.left.sized.lenP hk
    obtain rfl := l2.eq_of_nodup h.nodupR h.right.sized.lenP hk'
    rw [newP_changed hE u sh h.left.sized h.right.sized hk n1 n2]
    exact fun _ _ _ _ => rfl
  have hT := projected_changed u sh.X hYm
  have hM : ((c.setTarget (p2Projected s.X s'.P I Js o.rank)).read s.heap).Moved o.rank π (p2Changes α τ β) a
      ((d.setTarget (p2Projected t.X t'.P I Js' o.rank)).read t.heap) := by
    refine ⟨hT, ?_⟩
    show FactorsMoved o.rank π (p2Changes α τ β) [I, o.rank, Js.length] (c.addrs.map s.heap.mem) (d.addrs.map t.heap.mem)
    rw [h.addrL, h.addrR]
    exact sh.factors h.left.sized h.right.sized u.len
  obtain ⟨hfX, hmv⟩ := iterM_moved hE hN (o := P2.innerOpts o) hR hridge o.cpUpdates
    (h.left.ready.sized h.left.sized s'.P) (h.right.ready.sized h.right.sized t'.P)
    ⟨⟨_, h.nonNegL, three_false⟩, ⟨_, h.orthL, three_false⟩⟩ ⟨⟨_, h.nonNegR, three_false⟩, ⟨_, h.orthR, three_false⟩⟩
    u.change hM ef eg
  have hfac : FactorsMoved o.rank π (p2Changes α τ β) [I, o.rank, Js.length] [s'.A, s'.D, s'.C] [t'.A, t'.D, t'.C] := by
    have := hmv.factors
    rw [hfX, ← hf, ← hg, ha, ha', h.addrL, h.addrR, ← hd, ← hd'] at this
    exact this
  have hsh : Changed α τ π β a I Js o.rank s' t' := by
    refine ⟨?_, ?_, ?_, hXm, hYm⟩
    · intro i hi r hr
      exact hfac.get (m := 0) (s := ⟨α, β 0⟩) rfl rfl rfl hi hr
    · intro i hi r hr
      exact hfac.get (m := 1) (s := ⟨Equiv.refl ℕ, β 1⟩) rfl rfl rfl hi hr
    · intro i hi r hr
      exact hfac.get (m := 2) (s := ⟨τ, β 2⟩) rfl rfl rfl hi hr
  have hloss := hsh.loss hridge u hw.sized hw'.sized hl hl'
  have ha2 : 0 < a ^ 2 := by have := u.ne_zero hR; positivity
  refine ⟨s', t', c', d', e, e', ⟨hw, hw', by rw [hd]; exact h.nodupL, by rw [hd']; exact h.nodupR, hsh, hloss,
    by rw [ha, hd, h.addrL], by rw [ha', hd', h.addrR], by rw [hnn, h.nonNegL], by rw [hnn', h.nonNegR], by rw [hon, h.orthL],
    by rw [hon', h.orthR]⟩, ?_⟩
  rw [hrc, hrc', hloss, h.prevLoss, ← mul_sub, div_scale ha2]

theorem Scaled.orbit {E : Ext} (hE : E.SVDOk) (hN : E.NNLSOk) {o : P2Opts} (hridge : o.ridgePenalties = none)
    (u : UnitChange α τ π β a I Js Js' o.rank) {c d : CPObj} (h : Scaled α τ π β a o I Js Js' s t c d) :
    ∀ j, ∃ c' d', Scaled α τ π β a o I Js Js' (P2.orbit E o s j) (P2.orbit E o t j) c' d' ∧
      (t.relChange = s.relChange → (P2.orbit E o t j).relChange = (P2.orbit E o s j).relChange)
  | 0 => ⟨c, d, h, id⟩
  | j + 1 => by
    obtain ⟨c1, d1, h1, -⟩ := Scaled.orbit hE hN hridge u h j
    obtain ⟨s', t', c', d', e, e', h2, h3⟩ := h1.step hE hN hridge u
    refine ⟨c', d', ?_⟩
    rw [P2.orbit, P2.orbit, e, e']
    exact ⟨h2, fun _ => h3⟩

end P2State

/-! ### The theorem -/

variable {s t : P2State} {I : ℕ} {Js Js' : List ℕ} {α τ π : Equiv.Perm ℕ} {β : ℕ → ℕ → ℝ} {a : ℝ}

/-- The states after the inner decomposer is set up. -/
theorem P2State.scaled_start {E : Ext} {o : P2Opts} (hnn : o.nonNeg = none) (hon : o.orth = none)
    (hs : s.Separate) (hs' : t.Separate) (hal : s.Allocated) (hal' : t.Allocated)
    (hch : P2State.Changed α τ π β a I Js o.rank s t) {l l' : ℝ} (hll : l' = a ^ 2 * l) {g g' : Heap} {ci ci' : CPObj}
    (hw : ((s.withLoss .pinf l).withInner g ci).Working o I Js ci) (hw' : ((t.withLoss .pinf l').withInner g' ci').Working o I Js' ci')
    (hold : ∀ a < s.heap.next, g.mem a = s.heap.mem a) (hold' : ∀ a < t.heap.next, g'.mem a = t.heap.mem a)
    (hn1 : ci.st.nonNeg = some (P2.nonNegOption o)) (hn1' : ci'.st.nonNeg = some (P2.nonNegOption o))
    (ho1 : ci.st.orth = some (P2State.orthFlags o)) (ho1' : ci'.st.orth = some (P2State.orthFlags o))
    (hke : ∀ j : ℕ, (P2State.orthFlags o)[j]? = some false → ci.addrs[j]? = [s.dec.A, s.dec.blueprint, s.dec.C][j]?)
    (hke' : ∀ j : ℕ, (P2State.orthFlags o)[j]? = some false → ci'.addrs[j]? = [t.dec.A, t.dec.blueprint, t.dec.C][j]?) :
    P2State.Scaled α τ π β a o I Js Js' ((s.withLoss .pinf l).withInner g ci) ((t.withLoss .pinf l').withInner g' ci') ci ci' := by
  have hm : ∀ a ∈ s.dec.A :: s.dec.blueprint :: s.dec.C :: s.dec.P, g.mem a = s.heap.mem a := fun a ha => hold a (hal a ha)
  have hm' : ∀ a ∈ t.dec.A :: t.dec.blueprint :: t.dec.C :: t.dec.P, g'.mem a = t.heap.mem a := fun a ha => hold' a (hal' a ha)
  have hPs : ((s.withLoss .pinf l).withInner g ci).P = s.P := List.map_congr_left fun a ha => hm a (List.mem_cons_of_mem _ (List.mem_cons_of_mem _ (List.mem_cons_of_mem _ ha)))
  have hPt : ((t.withLoss .pinf l').withInner g' ci').P = t.P := List.map_congr_left fun a ha => hm' a (List.mem_cons_of_mem _ (List.mem_cons_of_mem _ (List.mem_cons_of_mem _ ha)))
  have hfl : P2State.orthFlags o = [false, false, false] := by unfold P2State.orthFlags; rw [hon]; rfl
  have hno : P2.nonNegOption o = [false, false, false] := by unfold P2.nonNegOption; rw [hnn]; rfl
  have hadd : ∀ {cj : CPObj} {x y z : Addr}, cj.addrs.length = 3 → (∀ j : ℕ, (P2State.orthFlags o)[j]? = some false → cj.addrs[j]? = [x, y, z][j]?) →
      cj.addrs = [x, y, z] := by
    intro cj x y z hl hk
    refine List.ext_getElem? fun j => ?_
    by_cases hj : j < 3
    · exact hk j (by rw [hfl]; exact P2State.three_false j hj)
    · rw [List.getElem?_eq_none (by omega), List.getElem?_eq_none (by simp; omega)]
  have l1 : ci.addrs.length = 3 := by simpa using hw.ready.factors.length_eq
  have l2 : ci'.addrs.length = 3 := by simpa using hw'.ready.factors.length_eq
  refine ⟨hw, hw', hs.nodup, hs'.nodup, ⟨?_, ?_, ?_, hch.X, ?_⟩, hll, hadd l1 hke, hadd l2 hke', by rw [hn1, hno], by rw [hn1', hno],
    by rw [ho1, hfl], by rw [ho1', hfl]⟩
  · show P2State.MatChanged α π (β 0) I o.rank (g.mem s.dec.A) (g'.mem t.dec.A)
    rw [hm _ (by simp), hm' _ (by simp)]; exact hch.A
  · show P2State.MatChanged (Equiv.refl ℕ) π (β 1) o.rank o.rank (g.mem s.dec.blueprint) (g'.mem t.dec.blueprint)
    rw [hm _ (by simp), hm' _ (by simp)]; exact hch.D
  · show P2State.MatChanged τ π (β 2) Js.length o.rank (g.mem s.dec.C) (g'.mem t.dec.C)
    rw [hm _ (by simp), hm' _ (by simp)]; exact hch.C
  · rw [hPs, hPt]; exact hch.P

/-- C114 and C115 in one statement: two fits without constraints and penalties whose data and starts correspond. -/
theorem p2_fit_changed {E : Ext} (hE : E.SVDOk) (hN : E.NNLSOk) (hQR : E.QROk) {c : P2.Config}
    (hnn : c.opts.nonNeg = none) (hon : c.opts.orth = none) (hridge : c.opts.ridgePenalties = none)
    (u : P2State.UnitChange α τ π β a I Js Js' c.opts.rank)
    {D D' : P2Data} {arg arg' : InitArg P2Obj} {h0 h0' : Heap}
    (hi : P2.StartsFrom E c D arg h0 s) (hi' : P2.StartsFrom E c D' arg' h0' t)
    (h : s.Sized I Js c.opts.rank) (h' : t.Sized I Js' c.opts.rank) (hs : s.Separate) (hs' : t.Separate)
    (hal : s.Allocated) (hal' : t.Allocated) (hch : P2State.Changed α τ π β a I Js c.opts.rank s t)
    (hA : P2.Admissible c.opts I Js.length) (hlog : c.Measurable I Js) (hlog' : c.Measurable I Js') (hfreq : freqOption c.freq ≠ 0)
    {budget : Int} {mi : Option Int} {loggers loggers' : List Logger} {file file' : Option H5File}
    (hS : Storing (P2.method E c) (P2.newObject h0 budget loggers file) [])
    (hS' : Storing (P2.method E c) (P2.newObject h0' budget loggers' file') []) :
    ∃ w w' x, P2.fit E c D mi arg (P2.newObject h0 budget loggers file) = .ok () w ∧
      P2.fit E c D' mi arg' (P2.newObject h0' budget loggers' file') = .ok () w' ∧
      w'.it = w.it ∧ w.st.Sized I Js c.opts.rank ∧ w'.st.Sized I Js' c.opts.rank ∧
      P2State.Changed α τ π β a I Js c.opts.rank w.st w'.st ∧
      P2.sse w.st = .ok x ∧ P2.sse w'.st = .ok (a ^ 2 * x) ∧ P2.loss c.opts w.st = .ok x ∧ P2.loss c.opts w'.st = .ok (a ^ 2 * x) ∧
      w'.st.relChange = w.st.relChange := by
  obtain ⟨l, sp, w, k, el, ep, -, hfit, hk, hit, hst, hgo, hstop, -⟩ := C80_fit_completes hE hN hQR hi h hs.distinct hal hA hlog hfreq
    (mi := mi) hS
  have hA' : P2.Admissible c.opts I Js'.length := by rw [u.len]; exact hA
  obtain ⟨l', tp, w', k', el', ep', -, hfit', hk', hit', hst', hgo', hstop', -⟩ :=
    C80_fit_completes hE hN hQR hi' h' hs'.distinct hal' hA' hlog' hfreq (mi := mi) hS'
  have hll := hch.loss hridge u h h' el el'
  obtain ⟨g, ci, fp, hw, hold, -, hn1, ho1, hfr, hke, -, -, hv⟩ := P2State.prepareCp_ok (E := E) hQR (o := c.opts) (h.withLoss .pinf l)
    (hs.distinct.loss .pinf l) hA (fun _ => hal)
  obtain ⟨g', ci', fp', hw', hold', -, hn1', ho1', hfr', hke', -, -, hv'⟩ := P2State.prepareCp_ok (E := E) hQR (o := c.opts)
    (h'.withLoss .pinf l') (hs'.distinct.loss .pinf l') hA' (fun _ => hal')
  rw [ep] at fp
  rw [ep'] at fp'
  obtain rfl := Except.ok.inj fp
  obtain rfl := Except.ok.inj fp'
  have hp := P2State.scaled_start (E := E) hnn hon hs hs' hal hal' hch hll hw hw' hold hold' hn1 hn1' ho1 ho1' hke hke'
  have hall := hp.orbit hE hN hridge u
  have hsame : ∀ j, P2.shouldStop c.opts (P2.orbit E c.opts ((t.withLoss .pinf l').withInner g' ci') j)
      = P2.shouldStop c.opts (P2.orbit E c.opts ((s.withLoss .pinf l).withInner g ci) j) := by
    intro j
    obtain ⟨_, _, -, hj⟩ := hall j
    unfold P2.shouldStop
    rw [hj rfl]
  obtain rfl : k' = k := by
    rcases lt_trichotomy k' k with hlt | heq | hlt
    · have h1 := (hgo k' hlt).2
      have h2 := hstop' (by omega)
      rw [hst', hsame, h1] at h2
      exact absurd h2 (by simp)
    · exact heq
    · have h1 := (hgo' k hlt).2
      have h2 := hstop (by omega)
      rw [hst, ← hsame, h1] at h2
      exact absurd h2 (by simp)
  obtain ⟨_, _, hk, hrc⟩ := hall k'
  rw [← hst, ← hst'] at hk hrc
  have sh := hk.changed
  refine ⟨w, w', w.st.err I Js c.opts.rank, hfit, hfit', by rw [hit, hit'], hk.left.sized, hk.right.sized, sh, hk.left.sized.sse,
    by rw [hk.right.sized.sse, sh.err u], ?_, ?_, hrc rfl⟩
  · rw [P2State.C81_loss hk.left.sized, hridge]; simp
  · rw [P2State.C81_loss hk.right.sized, hridge, sh.err u]; simp

/-- **C114.** Two fits without constraints and penalties, with the same options. The slices of the second are those of the first times
`a`; the start of the second is that of the first with `A`, the blueprint matrix and `C` multiplied by numbers whose product is `a` and with
the same projection matrices. Then both fits complete after the same number of iterations with the same relative change; the SSE of the second
is `a²` times that of the first, and its decomposition is that of the first with `A`, the blueprint matrix and `C` multiplied by these numbers. -/
theorem C114_units {E : Ext} (hE : E.SVDOk) (hN : E.NNLSOk) (hQR : E.QROk) {c : P2.Config}
    (hnn : c.opts.nonNeg = none) (hon : c.opts.orth = none) (hridge : c.opts.ridgePenalties = none)
    {a bA bD bC : ℝ} (ha : a ≠ 0) (hb : bA * bD * bC = a)
    {D D' : P2Data} {arg arg' : InitArg P2Obj} {h0 h0' : Heap}
    (hi : P2.StartsFrom E c D arg h0 s) (hi' : P2.StartsFrom E c D' arg' h0' t)
    (h : s.Sized I Js c.opts.rank) (h' : t.Sized I Js c.opts.rank) (hs : s.Separate) (hs' : t.Separate)
    (hal : s.Allocated) (hal' : t.Allocated)
    (eA : ∀ i < I, ∀ r < c.opts.rank, t.A.get [i, r] = bA * s.A.get [i, r])
    (eD : ∀ q < c.opts.rank, ∀ r < c.opts.rank, t.D.get [q, r] = bD * s.D.get [q, r])
    (eC : ∀ k < Js.length, ∀ r < c.opts.rank, t.C.get [k, r] = bC * s.C.get [k, r])
    (eX : ∀ k < Js.length, ∀ i < I, ∀ j < Js.getD k 0, (nth t.X k).get [i, j] = a * (nth s.X k).get [i, j])
    (eP : ∀ k < Js.length, nth t.P k = nth s.P k)
    (hA : P2.Admissible c.opts I Js.length) (hlog : c.Measurable I Js) (hfreq : freqOption c.freq ≠ 0)
    {budget : Int} {mi : Option Int} {loggers loggers' : List Logger} {file file' : Option H5File}
    (hS : Storing (P2.method E c) (P2.newObject h0 budget loggers file) [])
    (hS' : Storing (P2.method E c) (P2.newObject h0' budget loggers' file') []) :
    ∃ w w' x, P2.fit E c D mi arg (P2.newObject h0 budget loggers file) = .ok () w ∧
      P2.fit E c D' mi arg' (P2.newObject h0' budget loggers' file') = .ok () w' ∧
      w'.it = w.it ∧ (∀ i < I, ∀ r < c.opts.rank, w'.st.A.get [i, r] = bA * w.st.A.get [i, r]) ∧
      (∀ q < c.opts.rank, ∀ r < c.opts.rank, w'.st.D.get [q, r] = bD * w.st.D.get [q, r]) ∧
      (∀ k < Js.length, ∀ r < c.opts.rank, w'.st.C.get [k, r] = bC * w.st.C.get [k, r]) ∧
      (∀ k < Js.length, nth w'.st.P k = nth w.st.P k) ∧
      P2.sse w.st = .ok x ∧ P2.sse w'.st = .ok (a ^ 2 * x) ∧ w'.st.relChange = w.st.relChange := by
  have hne : bA ≠ 0 ∧ bD ≠ 0 ∧ bC ≠ 0 := by
    refine ⟨?_, ?_, ?_⟩ <;> rintro rfl <;> simp at hb <;> exact ha hb.symm
  have u : P2State.UnitChange (Equiv.refl ℕ) (Equiv.refl ℕ) (Equiv.refl ℕ)
      (fun k _ => if k = 0 then bA else if k = 1 then bD else bC) a I Js Js c.opts.rank := by
    refine ⟨rfl, fun _ => Iff.rfl, fun _ => Iff.rfl, fun _ => Iff.rfl, fun _ _ => rfl, fun k _ => ⟨_, ?_, fun _ _ => rfl⟩,
      fun _ _ => by simpa using hb⟩
    split
    · have := hne.1; positivity
    · split
      · have := hne.2.1; positivity
      · have := hne.2.2; positivity
  obtain ⟨w, w', x, h1, h2, h3, z, z', hc, h4, h5, -, -, h6⟩ := p2_fit_changed hE hN hQR hnn hon hridge u hi hi' h h' hs hs' hal hal'
    ⟨eA, eD, eC, eX, fun k hk => by
      rw [show nth t.P ((Equiv.refl ℕ) k) = nth s.P k from eP k hk]; exact fun _ _ _ _ => rfl⟩ hA hlog hlog hfreq (mi := mi) hS hS'
  exact ⟨w, w', x, h1, h2, h3, hc.A, hc.D, hc.C, fun k hk => ext_mat (z'.P.shape_nth hk) (z.P.shape_nth hk) (hc.P k hk), h4, h5, h6⟩

/-- **C115.** Two fits of the same slices without constraints and penalties, with the same options. The start of the second has the
components of the first in another order (`π`), and with signs `ε`, `δ`, `γ` of the columns of `A`, of the blueprint matrix and of
`C` that multiply to one for every component; the projection matrices are the same. Then both fits complete after the same number of
iterations with the same SSE and relative change and the same projection matrices, and the components of the second are those of the first in
the new order with these signs. -/
theorem C115_components {E : Ext} (hE : E.SVDOk) (hN : E.NNLSOk) (hQR : E.QROk) {c : P2.Config}
    (hnn : c.opts.nonNeg = none) (hon : c.opts.orth = none) (hridge : c.opts.ridgePenalties = none)
    (hπ : ∀ r, π r < c.opts.rank ↔ r < c.opts.rank) {ε δ γ : ℕ → ℝ} (hε : ∀ r, ε r = 1 ∨ ε r = -1) (hδ : ∀ r, δ r = 1 ∨ δ r = -1)
    (hγ : ∀ r < c.opts.rank, ε r * δ r * γ r = 1)
    {D D' : P2Data} {arg arg' : InitArg P2Obj} {h0 h0' : Heap}
    (hi : P2.StartsFrom E c D arg h0 s) (hi' : P2.StartsFrom E c D' arg' h0' t)
    (h : s.Sized I Js c.opts.rank) (h' : t.Sized I Js c.opts.rank) (hs : s.Separate) (hs' : t.Separate)
    (hal : s.Allocated) (hal' : t.Allocated)
    (eA : ∀ i < I, ∀ r < c.opts.rank, t.A.get [i, π r] = ε r * s.A.get [i, r])
    (eD : ∀ q < c.opts.rank, ∀ r < c.opts.rank, t.D.get [q, π r] = δ r * s.D.get [q, r])
    (eC : ∀ k < Js.length, ∀ r < c.opts.rank, t.C.get [k, π r] = γ r * s.C.get [k, r])
    (eX : ∀ k < Js.length, nth t.X k = nth s.X k) (eP : ∀ k < Js.length, nth t.P k = nth s.P k)
    (hA : P2.Admissible c.opts I Js.length) (hlog : c.Measurable I Js) (hfreq : freqOption c.freq ≠ 0)
    {budget : Int} {mi : Option Int} {loggers loggers' : List Logger} {file file' : Option H5File}
    (hS : Storing (P2.method E c) (P2.newObject h0 budget loggers file) [])
    (hS' : Storing (P2.method E c) (P2.newObject h0' budget loggers' file') []) :
    ∃ w w', P2.fit E c D mi arg (P2.newObject h0 budget loggers file) = .ok () w ∧
      P2.fit E c D' mi arg' (P2.newObject h0' budget loggers' file') = .ok () w' ∧
      w'.it = w.it ∧ (∀ i < I, ∀ r < c.opts.rank, w'.st.A.get [i, π r] = ε r * w.st.A.get [i, r]) ∧
      (∀ q < c.opts.rank, ∀ r < c.opts.rank, w'.st.D.get [q, π r] = δ r * w.st.D.get [q, r]) ∧
      (∀ k < Js.length, ∀ r < c.opts.rank, w'.st.C.get [k, π r] = γ r * w.st.C.get [k, r]) ∧
      (∀ k < Js.length, nth w'.st.P k = nth w.st.P k) ∧
      P2.sse w'.st = P2.sse w.st ∧ w'.st.relChange = w.st.relChange := by
  have one : ∀ {x : ℝ}, x = 1 ∨ x = -1 → x ^ 2 = 1 := by rintro x (rfl | rfl) <;> norm_num
  have u : P2State.UnitChange (Equiv.refl ℕ) (Equiv.refl ℕ) π
      (fun k => if k = 0 then ε else if k = 1 then δ else γ) 1 I Js Js c.opts.rank := by
    refine ⟨rfl, fun _ => Iff.rfl, fun _ => Iff.rfl, hπ, fun _ _ => rfl, fun k _ => ⟨1, one_pos, fun r hr => ?_⟩,
      fun r hr => by simpa using hγ r hr⟩
    split
    · exact one (hε r)
    · split
      · exact one (hδ r)
      · have h1 : (ε r * δ r * γ r) ^ 2 = 1 := by rw [hγ r hr]; norm_num
        rw [mul_pow, mul_pow, one (hε r), one (hδ r)] at h1
        linarith
  obtain ⟨w, w', x, h1, h2, h3, z, z', hc, h4, h5, -, -, h6⟩ := p2_fit_changed hE hN hQR hnn hon hridge u hi hi' h h' hs hs' hal hal'
    ⟨eA, eD, eC, fun k hk i _ j _ => by
      rw [show nth t.X ((Equiv.refl ℕ) k) = nth s.X k from eX k hk, one_mul]; rfl, fun k hk => by
      rw [show nth t.P ((Equiv.refl ℕ) k) = nth s.P k from eP k hk]; exact fun _ _ _ _ => rfl⟩ hA hlog hlog hfreq (mi := mi) hS hS'
  exact ⟨w, w', h1, h2, h3, hc.A, hc.D, hc.C, fun k hk => ext_mat (z'.P.shape_nth hk) (z.P.shape_nth hk) (hc.P k hk),
    by rw [h4, h5]; norm_num, h6⟩

/-- Without constraints and penalties the options are admissible. -/
theorem P2.admissible_free {o : P2Opts} (hnn : o.nonNeg = none) (hon : o.orth = none) (hridge : o.ridgePenalties = none)
    {I K : ℕ} (hR : 0 < o.rank) (hI : 0 < I) (hK : 0 < K) : P2.Admissible o I K where
  rank := hR
  order := by simp
  nonempty := by simp; omega
  nonNegLen := by simp [P2.nonNegOption, hnn]
  orthLen := by simp [hon]
  ridgeLen := by simp [P2.innerOpts, hridge]
  orthRows := by simp [hon]
  notBoth := by simp [hon]

/-- **C114_units** for `init="precomputed"`, with all hypotheses about the start discharged. -/
theorem C114_units_precomputed {E : Ext} (hE : E.SVDOk) (hN : E.NNLSOk) (hQR : E.QROk) {c : P2.Config}
    (hinit : c.init.toLower = "precomputed") (hfreq : c.freq = none)
    (hnn : c.opts.nonNeg = none) (hon : c.opts.orth = none) (hridge : c.opts.ridgePenalties = none)
    {a bA bD bC : ℝ} (ha : a ≠ 0) (hb : bA * bD * bC = a)
    {Xs Xs' : List (NDArray ℝ)} (hI : 0 < I) (hX : List.Forall₂ (fun Xk J => Xk.shape = [I, J]) Xs Js)
    (hX' : List.Forall₂ (fun Xk J => Xk.shape = [I, J]) Xs' Js) (hK : 0 < Js.length)
    (hR : 0 < c.opts.rank) (hJ : ∀ J ∈ Js, 0 < J) {h0 h0' : Heap} {d d' : P2Obj}
    (sA : (h0.mem d.A).shape = [I, c.opts.rank]) (sD : (h0.mem d.blueprint).shape = [c.opts.rank, c.opts.rank])
    (sC : (h0.mem d.C).shape = [Js.length, c.opts.rank]) (sP : Factors (d.P.map h0.mem) Js c.opts.rank)
    (sA' : (h0'.mem d'.A).shape = [I, c.opts.rank]) (sD' : (h0'.mem d'.blueprint).shape = [c.opts.rank, c.opts.rank])
    (sC' : (h0'.mem d'.C).shape = [Js.length, c.opts.rank]) (sP' : Factors (d'.P.map h0'.mem) Js c.opts.rank)
    (hnd : (d.A :: d.blueprint :: d.C :: d.P).Nodup) (hal : ∀ a ∈ d.A :: d.blueprint :: d.C :: d.P, a < h0.next)
    (hnd' : (d'.A :: d'.blueprint :: d'.C :: d'.P).Nodup) (hal' : ∀ a ∈ d'.A :: d'.blueprint :: d'.C :: d'.P, a < h0'.next)
    (eA : ∀ i < I, ∀ r < c.opts.rank, (h0'.mem d'.A).get [i, r] = bA * (h0.mem d.A).get [i, r])
    (eD : ∀ q < c.opts.rank, ∀ r < c.opts.rank, (h0'.mem d'.blueprint).get [q, r] = bD * (h0.mem d.blueprint).get [q, r])
    (eC : ∀ k < Js.length, ∀ r < c.opts.rank, (h0'.mem d'.C).get [k, r] = bC * (h0.mem d.C).get [k, r])
    (eX : ∀ k < Js.length, ∀ i < I, ∀ j < Js.getD k 0, (nth Xs' k).get [i, j] = a * (nth Xs k).get [i, j])
    (eP : ∀ k < Js.length, nth (d'.P.map h0'.mem) k = nth (d.P.map h0.mem) k)
    (hlog : c.Measurable I Js) (budget : Int) (mi : Option Int)
    (loggers loggers' : List Logger) (file file' : Option H5File) :
    ∃ w w' x, P2.fit E c (.list Xs) mi (.tensor d) (P2.newObject h0 budget loggers file) = .ok () w ∧
      P2.fit E c (.list Xs') mi (.tensor d') (P2.newObject h0' budget loggers' file') = .ok () w' ∧
      w'.it = w.it ∧ (∀ i < I, ∀ r < c.opts.rank, w'.st.A.get [i, r] = bA * w.st.A.get [i, r]) ∧
      (∀ q < c.opts.rank, ∀ r < c.opts.rank, w'.st.D.get [q, r] = bD * w.st.D.get [q, r]) ∧
      (∀ k < Js.length, ∀ r < c.opts.rank, w'.st.C.get [k, r] = bC * w.st.C.get [k, r]) ∧
      (∀ k < Js.length, nth w'.st.P k = nth w.st.P k) ∧
      P2.sse w.st = .ok x ∧ P2.sse w'.st = .ok (a ^ 2 * x) ∧ w'.st.relChange = w.st.relChange := by
  have hA : P2.Admissible c.opts I Js.length := P2.admissible_free hnn hon hridge hR hI hK
  obtain ⟨s, g1, g2, g3, g4, g5⟩ := p2_startsFrom_precomputed (E := E) hinit hI hX hK hR hJ sA sD sC sP
  obtain ⟨t, f1, f2, f3, f4, f5⟩ := p2_startsFrom_precomputed (E := E) hinit hI hX' hK hR hJ (h0 := h0') (d := d') sA' sD' sC' sP'
  have hsP : s.P = d.P.map h0.mem := by rw [P2State.P, g3, g4]
  have htP : t.P = d'.P.map h0'.mem := by rw [P2State.P, f3, f4]
  refine C114_units hE hN hQR hnn hon hridge ha hb g1 f1 g2 f2 (by rw [P2State.Separate, g3]; exact hnd)
    (by rw [P2State.Separate, f3]; exact hnd') (by rw [P2State.Allocated, g3, g4]; exact hal)
    (by rw [P2State.Allocated, f3, f4]; exact hal')
    (by rw [P2State.A, P2State.A, g3, g4, f3, f4]; exact eA) (by rw [P2State.D, P2State.D, g3, g4, f3, f4]; exact eD)
    (by rw [P2State.C, P2State.C, g3, g4, f3, f4]; exact eC) (by rw [f5, g5]; exact eX) (by rw [hsP, htP]; exact eP) hA hlog
    (by rw [hfreq]; decide) (p2_storing_none hfreq _ _) (p2_storing_none hfreq _ _)

/-- **C115_components** for `init="precomputed"`, with all hypotheses about the start discharged. -/
theorem C115_components_precomputed {E : Ext} (hE : E.SVDOk) (hN : E.NNLSOk) (hQR : E.QROk) {c : P2.Config}
    (hinit : c.init.toLower = "precomputed") (hfreq : c.freq = none)
    (hnn : c.opts.nonNeg = none) (hon : c.opts.orth = none) (hridge : c.opts.ridgePenalties = none)
    (hπ : ∀ r, π r < c.opts.rank ↔ r < c.opts.rank) {ε δ γ : ℕ → ℝ} (hε : ∀ r, ε r = 1 ∨ ε r = -1) (hδ : ∀ r, δ r = 1 ∨ δ r = -1)
    (hγ : ∀ r < c.opts.rank, ε r * δ r * γ r = 1)
    {Xs : List (NDArray ℝ)} (hI : 0 < I) (hX : List.Forall₂ (fun Xk J => Xk.shape = [I, J]) Xs Js)
    (hK : 0 < Js.length)
    (hR : 0 < c.opts.rank) (hJ : ∀ J ∈ Js, 0 < J) {h0 h0' : Heap} {d d' : P2Obj}
    (sA : (h0.mem d.A).shape = [I, c.opts.rank]) (sD : (h0.mem d.blueprint).shape = [c.opts.rank, c.opts.rank])
    (sC : (h0.mem d.C).shape = [Js.length, c.opts.rank]) (sP : Factors (d.P.map h0.mem) Js c.opts.rank)
    (sA' : (h0'.mem d'.A).shape = [I, c.opts.rank]) (sD' : (h0'.mem d'.blueprint).shape = [c.opts.rank, c.opts.rank])
    (sC' : (h0'.mem d'.C).shape = [Js.length, c.opts.rank]) (sP' : Factors (d'.P.map h0'.mem) Js c.opts.rank)
    (hnd : (d.A :: d.blueprint :: d.C :: d.P).Nodup) (hal : ∀ a ∈ d.A :: d.blueprint :: d.C :: d.P, a < h0.next)
    (hnd' : (d'.A :: d'.blueprint :: d'.C :: d'.P).Nodup) (hal' : ∀ a ∈ d'.A :: d'.blueprint :: d'.C :: d'.P, a < h0'.next)
    (eA : ∀ i < I, ∀ r < c.opts.rank, (h0'.mem d'.A).get [i, π r] = ε r * (h0.mem d.A).get [i, r])
    (eD : ∀ q < c.opts.rank, ∀ r < c.opts.rank, (h0'.mem d'.blueprint).get [q, π r] = δ r * (h0.mem d.blueprint).get [q, r])
    (eC : ∀ k < Js.length, ∀ r < c.opts.rank, (h0'.mem d'.C).get [k, π r] = γ r * (h0.mem d.C).get [k, r])
    (eP : ∀ k < Js.length, nth (d'.P.map h0'.mem) k = nth (d.P.map h0.mem) k)
    (hlog : c.Measurable I Js) (budget : Int) (mi : Option Int)
    (loggers loggers' : List Logger) (file file' : Option H5File) :
    ∃ w w', P2.fit E c (.list Xs) mi (.tensor d) (P2.newObject h0 budget loggers file) = .ok () w ∧
      P2.fit E c (.list Xs) mi (.tensor d') (P2.newObject h0' budget loggers' file') = .ok () w' ∧
      w'.it = w.it ∧ (∀ i < I, ∀ r < c.opts.rank, w'.st.A.get [i, π r] = ε r * w.st.A.get [i, r]) ∧
      (∀ q < c.opts.rank, ∀ r < c.opts.rank, w'.st.D.get [q, π r] = δ r * w.st.D.get [q, r]) ∧
      (∀ k < Js.length, ∀ r < c.opts.rank, w'.st.C.get [k, π r] = γ r * w.st.C.get [k, r]) ∧
      (∀ k < Js.length, nth w'.st.P k = nth w.st.P k) ∧
      P2.sse w'.st = P2.sse w.st ∧ w'.st.relChange = w.st.relChange := by
  have hA : P2.Admissible c.opts I Js.length := P2.admissible_free hnn hon hridge hR hI hK
  obtain ⟨s, g1, g2, g3, g4, g5⟩ := p2_startsFrom_precomputed (E := E) hinit hI hX hK hR hJ sA sD sC sP
  obtain ⟨t, f1, f2, f3, f4, f5⟩ := p2_startsFrom_precomputed (E := E) hinit hI hX hK hR hJ (h0 := h0') (d := d') sA' sD' sC' sP'
  have hsP : s.P = d.P.map h0.mem := by rw [P2State.P, g3, g4]
  have htP : t.P = d'.P.map h0'.mem := by rw [P2State.P, f3, f4]
  refine C115_components hE hN hQR hnn hon hridge hπ hε hδ hγ g1 f1 g2 f2 (by rw [P2State.Separate, g3]; exact hnd)
    (by rw [P2State.Separate, f3]; exact hnd') (by rw [P2State.Allocated, g3, g4]; exact hal)
    (by rw [P2State.Allocated, f3, f4]; exact hal')
    (by rw [P2State.A, P2State.A, g3, g4, f3, f4]; exact eA) (by rw [P2State.D, P2State.D, g3, g4, f3, f4]; exact eD)
    (by rw [P2State.C, P2State.C, g3, g4, f3, f4]; exact eC) (by rw [f5, g5]; exact fun _ _ => rfl) (by rw [hsP, htP]; exact eP) hA hlog
    (by rw [hfreq]; decide) (p2_storing_none hfreq _ _) (p2_storing_none hfreq _ _)

/-- Two components and two slices of two and three columns, in one heap: the start of the first fit. -/
def duoHeap : Heap :=
  ⟨fun a => [ofMat 2 2 fun i r => (i : ℝ) + 2 * r, ofMat 2 2 fun q r => (q : ℝ) - r, ofMat 2 2 fun k r => (k : ℝ) * r + 1,
    ofMat 2 2 fun j q => if j = q then 1 else 0, ofMat 3 2 fun j q => if j = q then 1 else 0].getD a (full [] 0), 5⟩

/-- The start of the second fit: `A` times ten, `C` times minus one. -/
def duoHeapScaled : Heap :=
  ⟨fun a => [ofMat 2 2 fun i r => 10 * ((i : ℝ) + 2 * r), ofMat 2 2 fun q r => (q : ℝ) - r, ofMat 2 2 fun k r => -((k : ℝ) * r + 1),
    ofMat 2 2 fun j q => if j = q then 1 else 0, ofMat 3 2 fun j q => if j = q then 1 else 0].getD a (full [] 0), 5⟩

/-- The start with the components exchanged and the signs of the first component changed in `A` and in the blueprint matrix. -/
def duoHeapSwapped : Heap :=
  ⟨fun a => [ofMat 2 2 fun i r => if r = 1 then -(i : ℝ) else i + 2, ofMat 2 2 fun q r => if r = 1 then -(q : ℝ) else q - 1,
    ofMat 2 2 fun k r => if r = 1 then 1 else (k : ℝ) + 1,
    ofMat 2 2 fun j q => if j = q then 1 else 0, ofMat 3 2 fun j q => if j = q then 1 else 0].getD a (full [] 0), 5⟩

def duoObj : P2Obj := ⟨2, 0, 1, 2, [3, 4], false, false, [], 0⟩

def duoSlices : List (NDArray ℝ) := [ofMat 2 2 fun i j => (i : ℝ) + 2 * j, ofMat 2 3 fun i j => 5 * (i : ℝ) + j]

def duoSlicesScaled : List (NDArray ℝ) := [ofMat 2 2 fun i j => -10 * ((i : ℝ) + 2 * j), ofMat 2 3 fun i j => -10 * (5 * (i : ℝ) + j)]

/-- `C114_units_precomputed` for these slices times minus ten. -/
example {E : Ext} (hE : E.SVDOk) (hN : E.NNLSOk) (hQR : E.QROk) {c : P2.Config} (hinit : c.init.toLower = "precomputed")
    (hfreq : c.freq = none) (hnn : c.opts.nonNeg = none) (hon : c.opts.orth = none) (hridge : c.opts.ridgePenalties = none)
    (hR : c.opts.rank = 2) (hlog : c.logs = []) (budget : Int) :
    ∃ w w' x, P2.fit E c (.list duoSlices) none (.tensor duoObj) (P2.newObject duoHeap budget [] none) = .ok () w ∧
      P2.fit E c (.list duoSlicesScaled) none (.tensor duoObj) (P2.newObject duoHeapScaled budget [] none) = .ok () w' ∧
      w'.it = w.it ∧ P2.sse w.st = .ok x ∧ P2.sse w'.st = .ok (100 * x) ∧
      ∀ i < 2, ∀ r < 2, w'.st.A.get [i, r] = 10 * w.st.A.get [i, r] := by
  obtain ⟨w, w', x, h1, h2, h3, h4, -, -, -, h5, h6, -⟩ := C114_units_precomputed hE hN hQR hinit hfreq hnn hon hridge (a := -10) (bA := 10)
    (bD := 1) (bC := -1) (by norm_num) (by norm_num) (I := 2) (Js := [2, 3]) (Xs := duoSlices) (Xs' := duoSlicesScaled) (h0 := duoHeap)
    (h0' := duoHeapScaled) (d := duoObj) (d' := duoObj) (by norm_num) (.cons rfl (.cons rfl .nil)) (.cons rfl (.cons rfl .nil)) (by norm_num)
    (by rw [hR]; norm_num) (by simp) (by rw [hR]; rfl) (by rw [hR]; rfl) (by rw [hR]; rfl) (by rw [hR]; exact .cons rfl (.cons rfl .nil))
    (by rw [hR]; rfl) (by rw [hR]; rfl) (by rw [hR]; rfl) (by rw [hR]; exact .cons rfl (.cons rfl .nil)) (by decide) (by decide) (by decide) (by decide)
    (by
      rw [hR]; intro i hi r hr
      interval_cases i <;> interval_cases r <;> simp [duoHeap, duoHeapScaled, duoObj, get_ofMat])
    (by
      rw [hR]; intro i hi r hr
      interval_cases i <;> interval_cases r <;> simp [duoHeap, duoHeapScaled, duoObj, get_ofMat])
    (by
      rw [hR]; intro i hi r hr
      have hi : i < 2 := hi
      interval_cases i <;> interval_cases r <;> simp [duoHeap, duoHeapScaled, duoObj, get_ofMat])
    (by
      intro k hk i hi j hj
      have hk : k < 2 := hk
      interval_cases k <;> interval_cases i <;> simp at hj <;> interval_cases j <;>
        simp [nth, duoSlices, duoSlicesScaled, get_ofMat])
    (by
      intro k hk
      have hk : k < 2 := hk
      interval_cases k <;> rfl)
    (by intro p hp; rw [hlog] at hp; simp at hp) budget none [] [] none none
  refine ⟨w, w', x, h1, h2, h3, h5, ?_, fun i hi r hr => h4 i hi r (by rw [hR]; exact hr)⟩
  rw [h6]; norm_num

/-- `C115_components_precomputed` for these slices. -/
example {E : Ext} (hE : E.SVDOk) (hN : E.NNLSOk) (hQR : E.QROk) {c : P2.Config} (hinit : c.init.toLower = "precomputed")
    (hfreq : c.freq = none) (hnn : c.opts.nonNeg = none) (hon : c.opts.orth = none) (hridge : c.opts.ridgePenalties = none)
    (hR : c.opts.rank = 2) (hlog : c.logs = []) (budget : Int) :
    ∃ w w', P2.fit E c (.list duoSlices) none (.tensor duoObj) (P2.newObject duoHeap budget [] none) = .ok () w ∧
      P2.fit E c (.list duoSlices) none (.tensor duoObj) (P2.newObject duoHeapSwapped budget [] none) = .ok () w' ∧
      w'.it = w.it ∧ P2.sse w'.st = P2.sse w.st ∧ ∀ i < 2, w'.st.A.get [i, 1] = -w.st.A.get [i, 0] := by
  obtain ⟨w, w', h1, h2, h3, h4, -, -, -, h5, -⟩ := C115_components_precomputed hE hN hQR hinit hfreq hnn hon hridge (π := Equiv.swap 0 1)
    (ε := fun r => if r = 0 then -1 else 1) (δ := fun r => if r = 0 then -1 else 1) (γ := fun _ => 1)
    (by rw [hR]; exact swap_lt) (by intro r; by_cases h : r = 0 <;> simp [h]) (by intro r; by_cases h : r = 0 <;> simp [h])
    (by intro r _; by_cases h : r = 0 <;> simp [h]) (I := 2) (Js := [2, 3]) (Xs := duoSlices) (h0 := duoHeap)
    (h0' := duoHeapSwapped) (d := duoObj) (d' := duoObj) (by norm_num) (.cons rfl (.cons rfl .nil)) (by norm_num)
    (by rw [hR]; norm_num) (by simp) (by rw [hR]; rfl) (by rw [hR]; rfl) (by rw [hR]; rfl) (by rw [hR]; exact .cons rfl (.cons rfl .nil))
    (by rw [hR]; rfl) (by rw [hR]; rfl) (by rw [hR]; rfl) (by rw [hR]; exact .cons rfl (.cons rfl .nil)) (by decide) (by decide) (by decide) (by decide)
    (by
      rw [hR]; intro i hi r hr
      interval_cases i <;> interval_cases r <;> simp [duoHeap, duoHeapSwapped, duoObj, get_ofMat])
    (by
      rw [hR]; intro i hi r hr
      interval_cases i <;> interval_cases r <;> simp [duoHeap, duoHeapSwapped, duoObj, get_ofMat])
    (by
      rw [hR]; intro i hi r hr
      have hi : i < 2 := hi
      interval_cases i <;> interval_cases r <;> simp [duoHeap, duoHeapSwapped, duoObj, get_ofMat])
    (by
      intro k hk
      have hk : k < 2 := hk
      interval_cases k <;> rfl)
    (by intro p hp; rw [hlog] at hp; simp at hp) budget none [] [] none none
  refine ⟨w, w', h1, h2, h3, h5, fun i hi => ?_⟩
  have := h4 i hi 0 (by rw [hR]; norm_num)
  simpa using this

end
end TK
