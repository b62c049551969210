import Verif.Props.RowOrder

/-!
# C113: the order of the slices and of their rows in Parafac2 fits

Source: parafac2.py:393-470, cp.py:354-402, base.py:7-60.

The slices of a Parafac2 fit can be put in another order, and so can their rows, if the rows of `C`, the projection matrices and
the rows of `A` of the start are put in the same order: the fit gives the same result in the new order.
-/

namespace TK
open NDArray Matrix

noncomputable section

/-- `orthogonal_solve` does not depend on the order of the equations. -/
theorem orthogonalSolve_rows {E : Ext} {A A' B B' : NDArray ℝ} {n r m : ℕ} (hA : A.shape = [n, r])
    (hB : B.shape = [n, m]) (hA' : A'.shape = [n, r]) (hB' : B'.shape = [n, m]) {α : Equiv.Perm ℕ}
    (hα : ∀ i, α i < n ↔ i < n) (mA : MatMoved α n r A A') (mB : MatMoved α n m B B') :
    orthogonalSolve E A' B' = orthogonalSolve E A B := by
  obtain ⟨C, e, s, h⟩ := matmul_mat (shape_T hB) hA
  obtain ⟨C', e', s', h'⟩ := matmul_mat (shape_T hB') hA'
  have : C' = C := by
    refine mat_inj s' s ?_
    rw [h, h', mat_T hB, mat_T hB']
    ext i j
    rw [mul_apply, mul_apply, ← Equiv.sum_comp (finPerm α hα)]
    refine Finset.sum_congr rfl fun l _ => ?_
    show B'.get [α l, i] * A'.get [α l, j] = B.get [(l : ℕ), i] * A.get [(l : ℕ), j]
    rw [mA l l.2 j j.2, mB l l.2 i i.2]
  unfold orthogonalSolve
  rw [e, e', this]

/-- The moves of the three modes of the inner problem. -/
def p2Moves (α τ : Equiv.Perm ℕ) (m : ℕ) : Equiv.Perm ℕ := if m = 0 then α else if m = 2 then τ else Equiv.refl ℕ

namespace P2State

variable {s t : P2State} {I R : ℕ} {Js Js' : List ℕ} {α τ : Equiv.Perm ℕ}

/-- Slice `τ k` of `t` is slice `k` of `s` with its rows moved by `α`; the decomposition corresponds. -/
structure Shuffled (α τ : Equiv.Perm ℕ) (I : ℕ) (Js Js' : List ℕ) (R : ℕ) (s t : P2State) : Prop where
  len : Js'.length = Js.length
  rows : ∀ i, α i < I ↔ i < I
  slices : ∀ k, τ k < Js.length ↔ k < Js.length
  sizes : ∀ k < Js.length, Js'.getD (τ k) 0 = Js.getD k 0
  A : MatMoved α I R s.A t.A
  D : MatMoved (Equiv.refl ℕ) R R s.D t.D
  C : MatMoved τ Js.length R s.C t.C
  X : ∀ k < Js.length, MatMoved α I (Js.getD k 0) (nth s.X k) (nth t.X (τ k))
  P : ∀ k < Js.length, MatMoved (Equiv.refl ℕ) (Js.getD k 0) R (nth s.P k) (nth t.P (τ k))

theorem Shuffled.err (h : Shuffled α τ I Js Js' R s t) : t.err I Js' R = s.err I Js R := by
  unfold P2State.err p2Err
  rw [h.len, sum_move h.slices]
  refine Finset.sum_congr rfl fun k hk => ?_
  have hk := Finset.mem_range.1 hk
  rw [sum_move h.rows, h.sizes k hk]
  refine Finset.sum_congr rfl fun i hi => Finset.sum_congr rfl fun j hj => ?_
  have hi := Finset.mem_range.1 hi
  have hj := Finset.mem_range.1 hj
  rw [h.X k hk i hi j hj]
  congr 2
  unfold p2Entry
  refine Finset.sum_congr rfl fun r hr => ?_
  have hr := Finset.mem_range.1 hr
  rw [h.A i hi r hr, h.C k hk r hr]
  congr 1
  refine Finset.sum_congr rfl fun q hq => ?_
  have hq := Finset.mem_range.1 hq
  rw [show (nth t.P (τ k)).get [j, q] = (nth s.P k).get [j, q] from h.P k hk j hj q hq,
    show t.D.get [q, r] = s.D.get [q, r] from h.D q hq r hr]

theorem normSq_moved {σ : Equiv.Perm ℕ} {n m : ℕ} (hσ : ∀ i, σ i < n ↔ i < n) {B B' : NDArray ℝ} (h : MatMoved σ n m B B') :
    normSq B' n m = normSq B n m := by
  unfold normSq
  rw [sum_move hσ]
  refine Finset.sum_congr rfl fun i hi => Finset.sum_congr rfl fun j hj => ?_
  rw [h i (Finset.mem_range.1 hi) j (Finset.mem_range.1 hj)]

theorem Shuffled.loss {o : P2Opts} (h : Shuffled α τ I Js Js' o.rank s t) (hs : s.Sized I Js o.rank)
    (ht : t.Sized I Js' o.rank) : P2.loss o t = P2.loss o s := by
  rw [C81_loss hs, C81_loss ht, h.err, normSq_moved h.rows h.A, normSq_moved (σ := Equiv.refl ℕ) (fun _ => Iff.rfl) h.D, h.len,
    normSq_moved h.slices h.C]

theorem Shuffled.sigma (h : Shuffled α τ I Js Js' R s t) : ∀ k < 3, ∀ i,
    p2Moves α τ k i < [I, R, Js.length].getD k 0 ↔ i < [I, R, Js.length].getD k 0 := by
  intro k hk i
  interval_cases k
  · exact h.rows i
  · exact Iff.rfl
  · exact h.slices i

/-- The projected data have their rows moved in the first and the last mode. -/
theorem projected_moved {X X' P P' : List (NDArray ℝ)} (hlen : Js'.length = Js.length) (hα : ∀ i, α i < I ↔ i < I)
    (hτ : ∀ k, τ k < Js.length ↔ k < Js.length) (hJ : ∀ k < Js.length, Js'.getD (τ k) 0 = Js.getD k 0)
    (hX : ∀ k < Js.length, MatMoved α I (Js.getD k 0) (nth X k) (nth X' (τ k)))
    (hP : ∀ k < Js.length, MatMoved (Equiv.refl ℕ) (Js.getD k 0) R (nth P k) (nth P' (τ k))) :
    TensorMoved (rowMoves 3 (p2Moves α τ)) 1 (p2Projected X P I Js R) (p2Projected X' P' I Js' R) := by
  refine ⟨by simp [p2Projected, hlen], fun idx hv => ?_⟩
  obtain ⟨i, q, k, rfl, hi, hq, hk⟩ : ∃ i q k, idx = [i, q, k] ∧ i < I ∧ q < R ∧ k < Js.length := by
    match idx, hv with
    | [i, q, k], hv => exact ⟨i, q, k, rfl, hv.1, hv.2.1, hv.2.2.1⟩
  rw [moveIdx_changes (d := 3) rfl, one_mul]
  show (p2Projected X' P' I Js' R).get [α i, q, τ k] = _
  unfold p2Projected
  rw [get_ofFn (show Valid [I, R, Js'.length] [α i, q, τ k] from
      ⟨(hα i).2 hi, hq, by rw [hlen]; exact (hτ k).2 hk, trivial⟩), get_ofFn (show Valid [I, R, Js.length] [i, q, k] from ⟨hi, hq, hk, trivial⟩)]
  show (∑ j ∈ Finset.range (Js'.getD (τ k) 0), (nth X' (τ k)).get [α i, j] * (nth P' (τ k)).get [j, q])
    = ∑ j ∈ Finset.range (Js.getD k 0), (nth X k).get [i, j] * (nth P k).get [j, q]
  rw [hJ k hk]
  refine Finset.sum_congr rfl fun j hj => ?_
  have hj := Finset.mem_range.1 hj
  rw [hX k hk i hi j hj, show (nth P' (τ k)).get [j, q] = (nth P k).get [j, q] from hP k hk j hj q hq]

/-- The projection matrices after an update. -/
theorem newP_moved {E : Ext} (h : Shuffled α τ I Js Js' R s t) (hs : s.Sized I Js R) (ht : t.Sized I Js' R) {k : ℕ}
    (hk : k < Js.length) {v v' : NDArray ℝ} (hv : NewP E s I Js R k v) (hv' : NewP E t I Js' R (τ k) v') : v' = v := by
  obtain ⟨-, Y, e, rfl⟩ := hv
  obtain ⟨-, Y', e', rfl⟩ := hv'
  have h1 := shape_nth ht.X (k := τ k) (by rw [h.len]; exact (h.slices k).2 hk)
  rw [h.sizes k hk] at h1
  have := orthogonalSolve_rows (E := E) (A := p2Score s.A s.D s.C I R k) (A' := p2Score t.A t.D t.C I R (τ k)) (shape_ofMat I R _)
    (shape_nth hs.X hk) (shape_ofMat I R _) h1 h.rows (fun i hi q hq => by
      unfold p2Score
      rw [get_ofMat ((h.rows i).2 hi) hq, get_ofMat hi hq]
      refine Finset.sum_congr rfl fun r hr => ?_
      have hr := Finset.mem_range.1 hr
      rw [h.A i hi r hr, h.C k hk r hr, show t.D.get [q, r] = s.D.get [q, r] from h.D q hq r hr]) (h.X k hk)
  rw [e, e'] at this
  rw [Except.ok.inj this]

/-- Shuffled states with corresponding inner problems and the same losses. -/
structure Paired (α τ : Equiv.Perm ℕ) (o : P2Opts) (I : ℕ) (Js Js' : List ℕ) (s t : P2State) (c d : CPObj) : Prop where
  left : s.Working o I Js c
  right : t.Working o I Js' d
  nodupL : s.dec.P.Nodup
  nodupR : t.dec.P.Nodup
  shuffled : Shuffled α τ I Js Js' o.rank s t
  prevLoss : t.prevLoss = s.prevLoss
  relChange : t.relChange = s.relChange
  factors : FactorsMoved o.rank (Equiv.refl ℕ) (rowMoves 3 (p2Moves α τ)) [I, o.rank, Js.length] (c.addrs.map s.heap.mem)
    (d.addrs.map t.heap.mem)
  nonNeg : d.st.nonNeg = c.st.nonNeg
  orth : d.st.orth = c.st.orth
  A : Alike 0 s.dec.A t.dec.A c d
  D : Alike 1 s.dec.blueprint t.dec.blueprint c d
  C : Alike 2 s.dec.C t.dec.C c d

theorem Alike.moved {j : ℕ} {a b : Addr} {c d : CPObj} (h : Alike j a b c d) (hj : j < 3) {m m' n n' : Addr → NDArray ℝ} {R K : ℕ}
    (hl : n a = m a ∨ a ∈ c.addrs) (hr : n' b = m' b ∨ b ∈ d.addrs)
    (hm : MatMoved (p2Moves α τ j) ([I, R, K].getD j 0) R (m a) (m' b))
    (hf : FactorsMoved R (Equiv.refl ℕ) (rowMoves 3 (p2Moves α τ)) [I, R, K] (c.addrs.map n) (d.addrs.map n')) :
    MatMoved (p2Moves α τ j) ([I, R, K].getD j 0) R (n a) (n' b) := by
  rcases h with ⟨h1, h2⟩ | ⟨h1, h2⟩
  · intro i hi r hr
    have := hf.get (m := j) (s := ⟨p2Moves α τ j, fun _ => 1⟩) (F := n a) (F' := n' b) (by simp [rowMoves, changes, hj])
      (by simp [h1]) (by simp [h2]) hi hr
    simpa using this
  · rcases hl with hl | hl
    · rcases hr with hr | hr
      · rw [hl, hr]; exact hm
      · exact absurd hr h2
    · exact absurd hl h1

/-- One iteration. -/
theorem Paired.step {E : Ext} (hE : E.SVDOk) (hN : E.NNLSOk) {o : P2Opts} {c d : CPObj} (h : Paired α τ o I Js Js' s t c d) :
    ∃ s' t' c' d', P2.iteration E o s = .ok s' ∧ P2.iteration E o t = .ok t' ∧ Paired α τ o I Js Js' s' t' c' d' := by
  obtain ⟨s', c', f, e, hw, ha, hnn, hon, hd, hX, -, -, hl, hrc, hP, ⟨ef, hf⟩, hm, -⟩ := iteration_ok hE hN h.left
  obtain ⟨t', d', g, e', hw', ha', hnn', hon', hd', hX', -, -, hl', hrc', hP', ⟨eg, hg⟩, hm', -⟩ := iteration_ok hE hN h.right
  have sh := h.shuffled
  have hXm : ∀ k < Js.length, MatMoved α I (Js.getD k 0) (nth s'.X k) (nth t'.X (τ k)) := by
    rw [hX, hX']; exact sh.X
  have hYm : ∀ k < Js.length, MatMoved (Equiv.refl ℕ) (Js.getD k 0) o.rank (nth s'.P k) (nth t'.P (τ k)) := by
    intro k hk
    obtain ⟨k1, l1, n1⟩ := hP k hk
    have hk' : τ k < Js'.length := by rw [sh.len]; exact (sh.slices k).2 hk
    obtain ⟨k2, l2, n2⟩ := hP' (τ k) hk'
    obtain rfl := l1.eq_of_nodup h.nodupL h.left.sized.lenP hk
    obtain rfl := l2.eq_of_nodup h.nodupR h.right.sized.lenP hk'
    rw [newP_moved sh h.left.sized h.right.sized hk n1 n2]
    exact fun _ _ _ _ => rfl
  have hT := projected_moved (R := o.rank) sh.len sh.rows sh.slices sh.sizes sh.X hYm
  have hcore : ((c.setTarget (p2Projected s.X s'.P I Js o.rank)).read s.heap).RowsMoved o.rank (p2Moves α τ)
      ((d.setTarget (p2Projected t.X t'.P I Js' o.rank)).read t.heap) :=
    ⟨⟨hT, h.factors⟩, h.nonNeg, h.orth⟩
  obtain ⟨f1, g1, ef1, eg1, hfX, hmv⟩ := iterM_rowsMoved hE (o := P2.innerOpts o) h.left.sized.posR o.cpUpdates
    (h.left.ready.sized h.left.sized s'.P) (h.right.ready.sized h.right.sized t'.P) sh.sigma
    (fun m hm => by
      obtain ⟨nn, on, ridge, c1, c2⟩ := h.left.ready.config m hm
      exact ⟨nn, on, ridge, ⟨c1.nonNeg, c1.orth, c1.ridge⟩, c2⟩) hcore
  rw [ef] at ef1
  obtain rfl := Except.ok.inj ef1
  rw [eg] at eg1
  obtain rfl := Except.ok.inj eg1
  have hfac : FactorsMoved o.rank (Equiv.refl ℕ) (rowMoves 3 (p2Moves α τ)) [I, o.rank, Js.length] (c'.addrs.map s'.heap.mem)
      (d'.addrs.map t'.heap.mem) := by
    have := hmv.moved.factors
    rw [hfX] at this
    rw [hf, hg]; exact this
  have hfac0 : FactorsMoved o.rank (Equiv.refl ℕ) (rowMoves 3 (p2Moves α τ)) [I, o.rank, Js.length] (c.addrs.map s'.heap.mem)
      (d.addrs.map t'.heap.mem) := by rw [← ha, ← ha']; exact hfac
  have hstay : ∀ a, a ∉ s.dec.P → s'.heap.mem a = s.heap.mem a ∨ a ∈ c.addrs := fun a hp => by
    by_cases hc : a ∈ c.addrs
    · exact .inr hc
    · exact .inl (hm a hc hp)
  have hstay' : ∀ a, a ∉ t.dec.P → t'.heap.mem a = t.heap.mem a ∨ a ∈ d.addrs := fun a hp => by
    by_cases hc : a ∈ d.addrs
    · exact .inr hc
    · exact .inl (hm' a hc hp)
  have hA : MatMoved α I o.rank s'.A t'.A := by
    unfold P2State.A
    rw [hd, hd']
    exact h.A.moved (j := 0) (by omega) (hstay _ h.left.apart.A) (hstay' _ h.right.apart.A) sh.A hfac0
  have hD : MatMoved (Equiv.refl ℕ) o.rank o.rank s'.D t'.D := by
    unfold P2State.D
    rw [hd, hd']
    exact h.D.moved (j := 1) (by omega) (hstay _ h.left.apart.D) (hstay' _ h.right.apart.D) sh.D hfac0
  have hC : MatMoved τ Js.length o.rank s'.C t'.C := by
    unfold P2State.C
    rw [hd, hd']
    exact h.C.moved (j := 2) (by omega) (hstay _ h.left.apart.C) (hstay' _ h.right.apart.C) sh.C hfac0
  have hsh : Shuffled α τ I Js Js' o.rank s' t' := ⟨sh.len, sh.rows, sh.slices, sh.sizes, hA, hD, hC, hXm, hYm⟩
  have hloss : t'.prevLoss = s'.prevLoss := by
    have := hsh.loss hw.sized hw'.sized
    rw [hl, hl'] at this
    exact Except.ok.inj this
  have hal : ∀ {j : ℕ} {a b : Addr}, Alike j a b c d → Alike j a b c' d' := by
    intro j a b hh
    unfold Alike
    rw [ha, ha']; exact hh
  refine ⟨s', t', c', d', e, e', hw, hw', by rw [hd]; exact h.nodupL, by rw [hd']; exact h.nodupR, hsh, hloss, ?_, hfac,
    by rw [hnn, hnn', h.nonNeg], by rw [hon, hon', h.orth], ?_, ?_, ?_⟩
  · rw [hrc, hrc', hloss, h.prevLoss]
  · rw [hd, hd']; exact hal h.A
  · rw [hd, hd']; exact hal h.D
  · rw [hd, hd']; exact hal h.C

theorem Paired.orbit {E : Ext} (hE : E.SVDOk) (hN : E.NNLSOk) {o : P2Opts} {c d : CPObj} (h : Paired α τ o I Js Js' s t c d) :
    ∀ j, ∃ c' d', Paired α τ o I Js Js' (P2.orbit E o s j) (P2.orbit E o t j) c' d'
  | 0 => ⟨c, d, h⟩
  | j + 1 => by
    obtain ⟨c1, d1, h1⟩ := Paired.orbit hE hN h j
    obtain ⟨s', t', c', d', e, e', h2⟩ := h1.step hE hN
    refine ⟨c', d', ?_⟩
    rw [P2.orbit, P2.orbit, e, e']
    exact h2

end P2State

/-! ### The theorem -/

variable {s t : P2State} {I : ℕ} {Js Js' : List ℕ} {α τ : Equiv.Perm ℕ}

theorem P2State.orthFlags_true {o : P2Opts} {k : ℕ} (h : (P2State.orthFlags o)[k]? = some true) :
    ∃ l, o.orth = some l ∧ l[k]? = some true := by
  unfold P2State.orthFlags at h
  cases hq : o.orth with
  | none =>
    rw [hq] at h
    match k, h with
    | 0, h => simp at h
    | 1, h => simp at h
    | 2, h => simp at h
    | k + 3, h => simp at h
  | some l => rw [hq] at h; exact ⟨l, rfl, h⟩

/-- The states after the inner decomposer is set up. -/
theorem P2State.paired_start {E : Ext} {o : P2Opts} (hQR : E.QROk)
    (hA : P2.Admissible o I Js.length) (hs : s.Separate) (hs' : t.Separate)
    (zs : s.Sized I Js o.rank) (zt : t.Sized I Js' o.rank)
    (hal : s.Allocated) (hal' : t.Allocated) (hrot : P2State.Shuffled α τ I Js Js' o.rank s t)
    (hfix : ∀ k : ℕ, (P2State.orthFlags o)[k]? = some true → p2Moves α τ k = Equiv.refl ℕ) {l l' : ℝ} (hll : l' = l) {g g' : Heap} {ci ci' : CPObj}
    (hw : ((s.withLoss .pinf l).withInner g ci).Working o I Js ci) (hw' : ((t.withLoss .pinf l').withInner g' ci').Working o I Js' ci')
    (hold : ∀ a < s.heap.next, g.mem a = s.heap.mem a) (hold' : ∀ a < t.heap.next, g'.mem a = t.heap.mem a)
    (hn1 : ci.st.nonNeg = some (P2.nonNegOption o)) (hn1' : ci'.st.nonNeg = some (P2.nonNegOption o))
    (ho1 : ci.st.orth = some (P2State.orthFlags o)) (ho1' : ci'.st.orth = some (P2State.orthFlags o))
    (hfr : ∀ j : ℕ, (P2State.orthFlags o)[j]? = some true → ∀ a, ci.addrs[j]? = some a → s.heap.next ≤ a)
    (hfr' : ∀ j : ℕ, (P2State.orthFlags o)[j]? = some true → ∀ a, ci'.addrs[j]? = some a → t.heap.next ≤ a)
    (hke : ∀ j : ℕ, (P2State.orthFlags o)[j]? = some false → ci.addrs[j]? = [s.dec.A, s.dec.blueprint, s.dec.C][j]?)
    (hke' : ∀ j : ℕ, (P2State.orthFlags o)[j]? = some false → ci'.addrs[j]? = [t.dec.A, t.dec.blueprint, t.dec.C][j]?)
    (hv : CP.orthonormalise E 0 (P2State.orthFlags o) ([s.dec.A, s.dec.blueprint, s.dec.C].map s.heap.mem) = .ok (ci.addrs.map g.mem))
    (hv' : CP.orthonormalise E 0 (P2State.orthFlags o) ([t.dec.A, t.dec.blueprint, t.dec.C].map t.heap.mem) = .ok (ci'.addrs.map g'.mem)) :
    P2State.Paired α τ o I Js Js' ((s.withLoss .pinf l).withInner g ci) ((t.withLoss .pinf l').withInner g' ci') ci ci' := by
  have hm : ∀ a ∈ s.dec.A :: s.dec.blueprint :: s.dec.C :: s.dec.P, g.mem a = s.heap.mem a := fun a ha => hold a (hal a ha)
  have hm' : ∀ a ∈ t.dec.A :: t.dec.blueprint :: t.dec.C :: t.dec.P, g'.mem a = t.heap.mem a := fun a ha => hold' a (hal' a ha)
  have hPs : ((s.withLoss .pinf l).withInner g ci).P = s.P := List.map_congr_left fun a ha => hm a (List.mem_cons_of_mem _ (List.mem_cons_of_mem _ (List.mem_cons_of_mem _ ha)))
  have hPt : ((t.withLoss .pinf l').withInner g' ci').P = t.P := List.map_congr_left fun a ha => hm' a (List.mem_cons_of_mem _ (List.mem_cons_of_mem _ (List.mem_cons_of_mem _ ha)))
  have hol : (P2State.orthFlags o).length = 3 := by
    unfold P2State.orthFlags
    cases hq : o.orth with
    | none => rfl
    | some l => exact hA.orthLen l hq
  have hadd : FactorsMoved o.rank (Equiv.refl ℕ) (rowMoves 3 (p2Moves α τ)) [I, o.rank, Js.length] (ci.addrs.map g.mem)
      (ci'.addrs.map g'.mem) := by
    have hF : FactorsMoved o.rank (Equiv.refl ℕ) (rowMoves 3 (p2Moves α τ)) [I, o.rank, Js.length] [s.A, s.D, s.C]
        [t.A, t.D, t.C] := by
      refine .cons zs.A zt.A (fun i hi r hr => ?_) (.cons zs.D zt.D (fun i hi r hr => ?_) (.cons zs.C (by rw [← hrot.len]; exact zt.C)
        (fun i hi r hr => ?_) .nil))
      · simpa [p2Moves] using hrot.A i hi r hr
      · simpa [p2Moves] using hrot.D i hi r hr
      · simpa [p2Moves] using hrot.C i hi r hr
    obtain ⟨gs, gs', e1, e2, hm⟩ := orthonormalise_moved hQR (σ := p2Moves α τ) (sizes := [I, o.rank, Js.length])
      (bs := P2State.orthFlags o) (mode := 0) hF (by simp [hol])
      (fun k hk => by
        rw [Nat.zero_add]
        obtain ⟨l, hq, hk⟩ := P2State.orthFlags_true hk
        exact hA.orthRows l hq k hk)
      (fun k hk => by rw [Nat.zero_add]; exact hfix k hk)
    rw [show [s.A, s.D, s.C] = [s.dec.A, s.dec.blueprint, s.dec.C].map s.heap.mem from rfl, hv] at e1
    rw [show [t.A, t.D, t.C] = [t.dec.A, t.dec.blueprint, t.dec.C].map t.heap.mem from rfl, hv'] at e2
    rw [Except.ok.inj e1, Except.ok.inj e2]
    exact hm
  have hAl : ∀ (j : ℕ) (a b : Addr), j < 3 → [s.dec.A, s.dec.blueprint, s.dec.C][j]? = some a →
      [t.dec.A, t.dec.blueprint, t.dec.C][j]? = some b → (ci.addrs[j]? = some a ∨ a ∉ ci.addrs) →
      (ci'.addrs[j]? = some b ∨ b ∉ ci'.addrs) → P2State.Alike j a b ci ci' := by
    intro j a b hj ha hb h1 h2
    rcases hfl : (P2State.orthFlags o)[j]'(by omega) with _ | _
    · have hfl : (P2State.orthFlags o)[j]? = some false := by rw [List.getElem?_eq_getElem (by omega), hfl]
      exact .inl ⟨(hke j hfl).trans ha, (hke' j hfl).trans hb⟩
    · have hfl : (P2State.orthFlags o)[j]? = some true := by rw [List.getElem?_eq_getElem (by omega), hfl]
      have ha' : a ∈ s.dec.A :: s.dec.blueprint :: s.dec.C :: s.dec.P := by
        have := List.mem_of_getElem? ha
        simp only [List.mem_cons, List.not_mem_nil, or_false] at this ⊢
        tauto
      have hb' : b ∈ t.dec.A :: t.dec.blueprint :: t.dec.C :: t.dec.P := by
        have := List.mem_of_getElem? hb
        simp only [List.mem_cons, List.not_mem_nil, or_false] at this ⊢
        tauto
      refine .inr ⟨?_, ?_⟩
      · rcases h1 with h1 | h1
        · exact absurd (hal a ha') (Nat.not_lt.2 (hfr j hfl a h1))
        · exact h1
      · rcases h2 with h2 | h2
        · exact absurd (hal' b hb') (Nat.not_lt.2 (hfr' j hfl b h2))
        · exact h2
  refine ⟨hw, hw', hs.nodup, hs'.nodup, ⟨hrot.len, hrot.rows, hrot.slices, hrot.sizes, ?_, ?_, ?_, hrot.X, ?_⟩, hll, rfl, hadd,
    by rw [hn1, hn1'], by rw [ho1, ho1'], ?_, ?_, ?_⟩
  · show MatMoved α I o.rank (g.mem s.dec.A) (g'.mem t.dec.A)
    rw [hm _ (by simp), hm' _ (by simp)]; exact hrot.A
  · show MatMoved (Equiv.refl ℕ) o.rank o.rank (g.mem s.dec.blueprint) (g'.mem t.dec.blueprint)
    rw [hm _ (by simp), hm' _ (by simp)]; exact hrot.D
  · show MatMoved τ Js.length o.rank (g.mem s.dec.C) (g'.mem t.dec.C)
    rw [hm _ (by simp), hm' _ (by simp)]; exact hrot.C
  · rw [hPs, hPt]; exact hrot.P
  · exact hAl 0 _ _ (by omega) rfl rfl hw.ready.A hw'.ready.A
  · exact hAl 1 _ _ (by omega) rfl rfl hw.ready.D hw'.ready.D
  · exact hAl 2 _ _ (by omega) rfl rfl hw.ready.C hw'.ready.C

/-- **C113.** Two fits with the same options. Slice `τ k` of the second is slice `k` of the first with its rows moved by `α`, and its
start is the start of the first in the new order: the rows of `A` moved by `α`, the rows of `C` and the projection matrices by `τ`, the
same blueprint matrix. A factor matrix with an orthonormality constraint is not moved. Then, whatever the constraints and penalties are,
both fits complete after the same number of iterations with the same loss, SSE and relative change, and the second gives the
decomposition of the first in the new order. -/
theorem C113_parafac2 {E : Ext} (hE : E.SVDOk) (hN : E.NNLSOk) (hQR : E.QROk) {c : P2.Config}
    (hα : ∀ i, α i < I ↔ i < I) (hτ : ∀ k, τ k < Js.length ↔ k < Js.length) (hlen : Js'.length = Js.length)
    (hJs : ∀ k < Js.length, Js'.getD (τ k) 0 = Js.getD k 0)
    (hfixA : ∀ l, c.opts.orth = some l → l[0]? = some true → α = Equiv.refl ℕ)
    (hfixC : ∀ l, c.opts.orth = some l → l[2]? = some true → τ = Equiv.refl ℕ)
    {D D' : P2Data} {arg arg' : InitArg P2Obj} {h0 h0' : Heap}
    (hi : P2.StartsFrom E c D arg h0 s) (hi' : P2.StartsFrom E c D' arg' h0' t)
    (h : s.Sized I Js c.opts.rank) (h' : t.Sized I Js' c.opts.rank) (hs : s.Separate) (hs' : t.Separate)
    (hal : s.Allocated) (hal' : t.Allocated)
    (eA : ∀ i < I, ∀ r < c.opts.rank, t.A.get [α i, r] = s.A.get [i, r]) (eD : t.D = s.D)
    (eC : ∀ k < Js.length, ∀ r < c.opts.rank, t.C.get [τ k, r] = s.C.get [k, r])
    (eX : ∀ k < Js.length, ∀ i < I, ∀ j < Js.getD k 0, (nth t.X (τ k)).get [α i, j] = (nth s.X k).get [i, j])
    (eP : ∀ k < Js.length, nth t.P (τ k) = nth s.P k)
    (hA : P2.Admissible c.opts I Js.length) (hlog : c.Measurable I Js) (hlog' : c.Measurable I Js') (hfreq : freqOption c.freq ≠ 0)
    {budget : Int} {mi : Option Int} {loggers loggers' : List Logger} {file file' : Option H5File}
    (hS : Storing (P2.method E c) (P2.newObject h0 budget loggers file) [])
    (hS' : Storing (P2.method E c) (P2.newObject h0' budget loggers' file') []) :
    ∃ w w', P2.fit E c D mi arg (P2.newObject h0 budget loggers file) = .ok () w ∧
      P2.fit E c D' mi arg' (P2.newObject h0' budget loggers' file') = .ok () w' ∧
      w'.it = w.it ∧ (∀ i < I, ∀ r < c.opts.rank, w'.st.A.get [α i, r] = w.st.A.get [i, r]) ∧ w'.st.D = w.st.D ∧
      (∀ k < Js.length, ∀ r < c.opts.rank, w'.st.C.get [τ k, r] = w.st.C.get [k, r]) ∧
      (∀ k < Js.length, nth w'.st.P (τ k) = nth w.st.P k) ∧
      P2.sse w'.st = P2.sse w.st ∧ P2.loss c.opts w'.st = P2.loss c.opts w.st ∧ w'.st.relChange = w.st.relChange := by
  obtain ⟨l, sp, w, k, el, ep, -, hfit, hk, hit, hst, hgo, hstop, -⟩ := C80_fit_completes hE hN hQR hi h hs.distinct hal hA hlog hfreq
    (mi := mi) hS
  have hA' : P2.Admissible c.opts I Js'.length := by rw [hlen]; exact hA
  obtain ⟨l', tp, w', k', el', ep', -, hfit', hk', hit', hst', hgo', hstop', -⟩ :=
    C80_fit_completes hE hN hQR hi' h' hs'.distinct hal' hA' hlog' hfreq (mi := mi) hS'
  have hrot : P2State.Shuffled α τ I Js Js' c.opts.rank s t := by
    refine ⟨hlen, hα, hτ, hJs, eA, by rw [eD]; exact fun _ _ _ _ => rfl, eC, eX, fun k hk => ?_⟩
    rw [eP k hk]; exact fun _ _ _ _ => rfl
  have hll : l' = l := by
    have := hrot.loss h h'
    rw [el, el'] at this
    exact Except.ok.inj this
  obtain ⟨g, ci, fp, hw, hold, -, hn1, ho1, hfr, hke, -, -, hv⟩ := P2State.prepareCp_ok (E := E) hQR (o := c.opts) (h.withLoss .pinf l)
    (hs.distinct.loss .pinf l) hA (fun _ => hal)
  obtain ⟨g', ci', fp', hw', hold', -, hn1', ho1', hfr', hke', -, -, hv'⟩ := P2State.prepareCp_ok (E := E) hQR (o := c.opts)
    (h'.withLoss .pinf l') (hs'.distinct.loss .pinf l') hA' (fun _ => hal')
  rw [ep] at fp
  rw [ep'] at fp'
  obtain rfl := Except.ok.inj fp
  obtain rfl := Except.ok.inj fp'
  have hfix : ∀ k : ℕ, (P2State.orthFlags c.opts)[k]? = some true → p2Moves α τ k = Equiv.refl ℕ := by
    intro k hk
    obtain ⟨l, hq, hk⟩ := P2State.orthFlags_true hk
    unfold p2Moves
    split
    · next h0 => subst h0; exact hfixA l hq hk
    · split
      · next h2 => subst h2; exact hfixC l hq hk
      · rfl
  have hp := P2State.paired_start hQR hA hs hs' h h' hal hal' hrot hfix hll hw hw' hold hold' hn1 hn1' ho1 ho1' hfr hfr' hke hke' hv hv'
  have hall := hp.orbit hE hN
  have hsame : ∀ j, P2.shouldStop c.opts (P2.orbit E c.opts ((t.withLoss .pinf l').withInner g' ci') j)
      = P2.shouldStop c.opts (P2.orbit E c.opts ((s.withLoss .pinf l).withInner g ci) j) := by
    intro j
    obtain ⟨_, _, hj⟩ := hall j
    unfold P2.shouldStop
    rw [hj.relChange]
  obtain rfl : k' = k := by
    rcases lt_trichotomy k' k with hlt | heq | hlt
    · have h1 := (hgo k' hlt).2
      have h2 := hstop' (by omega)
      rw [hst', hsame, h1] at h2
      exact absurd h2 (by simp)
    · exact heq
    · have h1 := (hgo' k hlt).2
      have h2 := hstop (by omega)
      rw [hst, ← hsame, h1] at h2
      exact absurd h2 (by simp)
  obtain ⟨_, _, hk⟩ := hall k'
  rw [← hst, ← hst'] at hk
  have sh := hk.shuffled
  refine ⟨w, w', hfit, hfit', by rw [hit, hit'], sh.A, ext_mat hk.right.sized.D hk.left.sized.D sh.D, sh.C, fun m hm => ?_, ?_,
    sh.loss hk.left.sized hk.right.sized, hk.relChange⟩
  · have hm' : τ m < Js'.length := by rw [hlen]; exact (hτ m).2 hm
    have s1 := hk.left.sized.P.shape_nth hm
    have s2 := hk.right.sized.P.shape_nth hm'
    rw [hJs m hm] at s2
    exact ext_mat s2 s1 (sh.P m hm)
  · rw [hk.left.sized.sse, hk.right.sized.sse, sh.err]

/-- **C113** for `init="precomputed"`, with all hypotheses about the start discharged: the fits of two lists of slices from two
decompositions that differ in the order of the slices and of their rows. -/
theorem C113_precomputed {E : Ext} (hE : E.SVDOk) (hN : E.NNLSOk) (hQR : E.QROk) {c : P2.Config}
    (hinit : c.init.toLower = "precomputed") (hfreq : c.freq = none)
    (hα : ∀ i, α i < I ↔ i < I) (hτ : ∀ k, τ k < Js.length ↔ k < Js.length) (hlen : Js'.length = Js.length)
    (hJs : ∀ k < Js.length, Js'.getD (τ k) 0 = Js.getD k 0)
    (hfixA : ∀ l, c.opts.orth = some l → l[0]? = some true → α = Equiv.refl ℕ)
    (hfixC : ∀ l, c.opts.orth = some l → l[2]? = some true → τ = Equiv.refl ℕ)
    {Xs Xs' : List (NDArray ℝ)} (hI : 0 < I) (hX : List.Forall₂ (fun Xk J => Xk.shape = [I, J]) Xs Js)
    (hX' : List.Forall₂ (fun Xk J => Xk.shape = [I, J]) Xs' Js') (hK : 0 < Js.length)
    (hR : 0 < c.opts.rank) (hJ : ∀ J ∈ Js, 0 < J) (hJ' : ∀ J ∈ Js', 0 < J) {h0 h0' : Heap} {d d' : P2Obj}
    (sA : (h0.mem d.A).shape = [I, c.opts.rank]) (sD : (h0.mem d.blueprint).shape = [c.opts.rank, c.opts.rank])
    (sC : (h0.mem d.C).shape = [Js.length, c.opts.rank]) (sP : Factors (d.P.map h0.mem) Js c.opts.rank)
    (sA' : (h0'.mem d'.A).shape = [I, c.opts.rank]) (sC' : (h0'.mem d'.C).shape = [Js'.length, c.opts.rank])
    (sP' : Factors (d'.P.map h0'.mem) Js' c.opts.rank)
    (hnd : (d.A :: d.blueprint :: d.C :: d.P).Nodup) (hal : ∀ a ∈ d.A :: d.blueprint :: d.C :: d.P, a < h0.next)
    (hnd' : (d'.A :: d'.blueprint :: d'.C :: d'.P).Nodup) (hal' : ∀ a ∈ d'.A :: d'.blueprint :: d'.C :: d'.P, a < h0'.next)
    (eA : ∀ i < I, ∀ r < c.opts.rank, (h0'.mem d'.A).get [α i, r] = (h0.mem d.A).get [i, r])
    (eD : h0'.mem d'.blueprint = h0.mem d.blueprint)
    (eC : ∀ k < Js.length, ∀ r < c.opts.rank, (h0'.mem d'.C).get [τ k, r] = (h0.mem d.C).get [k, r])
    (eX : ∀ k < Js.length, ∀ i < I, ∀ j < Js.getD k 0, (nth Xs' (τ k)).get [α i, j] = (nth Xs k).get [i, j])
    (eP : ∀ k < Js.length, nth (d'.P.map h0'.mem) (τ k) = nth (d.P.map h0.mem) k)
    (hA : P2.Admissible c.opts I Js.length) (hlog : c.Measurable I Js) (hlog' : c.Measurable I Js') (budget : Int) (mi : Option Int)
    (loggers loggers' : List Logger) (file file' : Option H5File) :
    ∃ w w', P2.fit E c (.list Xs) mi (.tensor d) (P2.newObject h0 budget loggers file) = .ok () w ∧
      P2.fit E c (.list Xs') mi (.tensor d') (P2.newObject h0' budget loggers' file') = .ok () w' ∧
      w'.it = w.it ∧ (∀ i < I, ∀ r < c.opts.rank, w'.st.A.get [α i, r] = w.st.A.get [i, r]) ∧ w'.st.D = w.st.D ∧
      (∀ k < Js.length, ∀ r < c.opts.rank, w'.st.C.get [τ k, r] = w.st.C.get [k, r]) ∧
      (∀ k < Js.length, nth w'.st.P (τ k) = nth w.st.P k) ∧
      P2.sse w'.st = P2.sse w.st ∧ P2.loss c.opts w'.st = P2.loss c.opts w.st ∧ w'.st.relChange = w.st.relChange := by
  obtain ⟨s, g1, g2, g3, g4, g5⟩ := p2_startsFrom_precomputed (E := E) hinit hI hX hK hR hJ sA sD sC sP
  obtain ⟨t, f1, f2, f3, f4, f5⟩ := p2_startsFrom_precomputed (E := E) hinit hI hX' (by rw [hlen]; exact hK) hR hJ' (h0 := h0')
    (d := d') sA' (by rw [eD]; exact sD) sC' sP'
  have hsP : s.P = d.P.map h0.mem := by rw [P2State.P, g3, g4]
  have htP : t.P = d'.P.map h0'.mem := by rw [P2State.P, f3, f4]
  refine C113_parafac2 hE hN hQR hα hτ hlen hJs hfixA hfixC g1 f1 g2 f2 (by rw [P2State.Separate, g3]; exact hnd)
    (by rw [P2State.Separate, f3]; exact hnd') (by rw [P2State.Allocated, g3, g4]; exact hal)
    (by rw [P2State.Allocated, f3, f4]; exact hal')
    (by rw [P2State.A, P2State.A, g3, g4, f3, f4]; exact eA) (by rw [P2State.D, P2State.D, g3, g4, f3, f4, eD])
    (by rw [P2State.C, P2State.C, g3, g4, f3, f4]; exact eC) (by rw [f5, g5]; exact eX) (by rw [hsP, htP]; exact eP) hA hlog hlog'
    (by rw [hfreq]; decide) (p2_storing_none hfreq _ _) (p2_storing_none hfreq _ _)

/-- The hypotheses of `C113_precomputed` on the data and the start hold for two slices of two and three columns that are exchanged,
with their rows exchanged as well. -/
example : ∃ (Xs Xs' : List (NDArray ℝ)) (h0 h0' : Heap) (d d' : P2Obj) (α τ : Equiv.Perm ℕ), α ≠ Equiv.refl ℕ ∧ τ ≠ Equiv.refl ℕ ∧
    (∀ i, α i < 2 ↔ i < 2) ∧ (∀ k, τ k < 2 ↔ k < 2) ∧ (∀ k < 2, [3, 2].getD (τ k) 0 = [2, 3].getD k 0) ∧
    List.Forall₂ (fun (Xk : NDArray ℝ) J => Xk.shape = [2, J]) Xs [2, 3] ∧ List.Forall₂ (fun (Xk : NDArray ℝ) J => Xk.shape = [2, J]) Xs' [3, 2] ∧
    (h0.mem d.A).shape = [2, 1] ∧ (h0.mem d.blueprint).shape = [1, 1] ∧ (h0.mem d.C).shape = [2, 1] ∧
    Factors (d.P.map h0.mem) [2, 3] 1 ∧ (h0'.mem d'.A).shape = [2, 1] ∧ (h0'.mem d'.C).shape = [2, 1] ∧
    Factors (d'.P.map h0'.mem) [3, 2] 1 ∧
    (d.A :: d.blueprint :: d.C :: d.P).Nodup ∧ (∀ a ∈ d.A :: d.blueprint :: d.C :: d.P, a < h0.next) ∧
    (d'.A :: d'.blueprint :: d'.C :: d'.P).Nodup ∧ (∀ a ∈ d'.A :: d'.blueprint :: d'.C :: d'.P, a < h0'.next) ∧
    (∀ i < 2, ∀ r < 1, (h0'.mem d'.A).get [α i, r] = (h0.mem d.A).get [i, r]) ∧
    h0'.mem d'.blueprint = h0.mem d.blueprint ∧ (∀ k < 2, ∀ r < 1, (h0'.mem d'.C).get [τ k, r] = (h0.mem d.C).get [k, r]) ∧
    (∀ k < 2, ∀ i < 2, ∀ j < [2, 3].getD k 0, (nth Xs' (τ k)).get [α i, j] = (nth Xs k).get [i, j]) ∧
    (∀ k < 2, nth (d'.P.map h0'.mem) (τ k) = nth (d.P.map h0.mem) k) := by
  refine ⟨[ofMat 2 2 fun i j => (i : ℝ) + 2 * j, ofMat 2 3 fun i j => 5 * (i : ℝ) + j],
    [ofMat 2 3 fun i j => 5 * (1 - (i : ℝ)) + j, ofMat 2 2 fun i j => (1 - (i : ℝ)) + 2 * j],
    ⟨fun a => [ofMat 2 1 fun i _ => (i : ℝ), full [1, 1] 2, ofMat 2 1 fun i _ => (i : ℝ) + 3, ofMat 2 1 fun j _ => (j : ℝ), ofMat 3 1 fun j _ => (j : ℝ)].getD a (full [] 0), 5⟩,
    ⟨fun a => [ofMat 2 1 fun i _ => 1 - (i : ℝ), full [1, 1] 2, ofMat 2 1 fun i _ => (1 - (i : ℝ)) + 3, ofMat 3 1 fun j _ => (j : ℝ), ofMat 2 1 fun j _ => (j : ℝ)].getD a (full [] 0), 5⟩,
    ⟨1, 0, 1, 2, [3, 4], false, false, [], 0⟩, ⟨1, 0, 1, 2, [3, 4], false, false, [], 0⟩, Equiv.swap 0 1, Equiv.swap 0 1, ?_, ?_,
    swap_lt, swap_lt, ?_, .cons rfl (.cons rfl .nil), .cons rfl (.cons rfl .nil), rfl, rfl, rfl, .cons rfl (.cons rfl .nil), rfl, rfl,
    .cons rfl (.cons rfl .nil), by decide, by decide, by decide, by decide, ?_, rfl, ?_, ?_, ?_⟩
  · intro h; have := congrArg (fun e : Equiv.Perm ℕ => e 0) h; simp at this
  · intro h; have := congrArg (fun e : Equiv.Perm ℕ => e 0) h; simp at this
  · intro k hk
    interval_cases k <;> simp
  · intro i hi r hr
    obtain rfl : r = 0 := by omega
    interval_cases i <;> simp [get_ofMat]
  · intro k hk r hr
    obtain rfl : r = 0 := by omega
    interval_cases k <;> simp [get_ofMat]
  · intro k hk i hi j hj
    interval_cases k <;> interval_cases i <;> simp at hj <;> interval_cases j <;> simp [nth, get_ofMat]
  · intro k hk
    interval_cases k <;> simp [nth]

end
end TK
