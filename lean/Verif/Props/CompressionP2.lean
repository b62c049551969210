import Verif.Props.Compression
import Verif.Props.Rotation

/-!
# C132: fits of compressed data, PARAFAC2

Source: parafac2.py:316-470, base.py:36-43.

The common mode of the slices of PARAFAC2 data may be compressed: if the slices are `U X_k` for a matrix `U` with orthonormal
columns, then the fit has the projection matrices of the fit of the slices `X_k`, and its matrix `A` is multiplied by `U`.
-/

namespace TK
open NDArray Matrix

noncomputable section

/-- `orthogonal_solve` depends on `Bᵀ A` only. -/
theorem orthogonalSolve_expanded {E : Ext} {A A' B B' U : NDArray ℝ} {n' n r q : ℕ} (hU : OrthoCols U n' n)
    (hA : A.shape = [n, r]) (hA' : A'.shape = [n', r]) (hB : B.shape = [n, q]) (hB' : B'.shape = [n', q])
    (h : RowsExpanded U n' n r A A') (h' : RowsExpanded U n' n q B B') :
    orthogonalSolve E A' B' = orthogonalSolve E A B := by
  have : matmul B'.T A' = matmul B.T A := by
    rw [matmul_ok (shape_T hB) hA, matmul_ok (shape_T hB') hA']
    refine congrArg _ (ofMat_congr fun i hi j hj => ?_)
    rw [Finset.sum_congr rfl fun l hl => by
      rw [get_T hB' hi (Finset.mem_range.1 hl), h' l (Finset.mem_range.1 hl) i hi, h l (Finset.mem_range.1 hl) j hj], hU.inner]
    exact Finset.sum_congr rfl fun l hl => by rw [get_T hB hi (Finset.mem_range.1 hl)]
  unfold orthogonalSolve
  rw [this]

theorem normSq_expanded {U F F' : NDArray ℝ} {n' n R : ℕ} (hU : OrthoCols U n' n) (h : RowsExpanded U n' n R F F') :
    normSq F' n' R = normSq F n R := by
  rw [normSq, normSq, Finset.sum_comm, Finset.sum_comm (s := Finset.range n)]
  refine Finset.sum_congr rfl fun r hr => ?_
  simp only [sq]
  rw [← hU.inner]
  exact Finset.sum_congr rfl fun i hi => by rw [h i (Finset.mem_range.1 hi) r (Finset.mem_range.1 hr)]

namespace P2State

variable {s t : P2State} {I I' R : ℕ} {Js : List ℕ} {U : NDArray ℝ}

/-- The slices and the matrix `A` of `t` are those of `s`, multiplied by `U`; everything else that a fit reports is equal. -/
structure Spread (U : NDArray ℝ) (I' I : ℕ) (Js : List ℕ) (R : ℕ) (s t : P2State) : Prop where
  A : RowsExpanded U I' I R s.A t.A
  D : t.D = s.D
  C : t.C = s.C
  X : ∀ k < Js.length, RowsExpanded U I' I (Js.getD k 0) (nth s.X k) (nth t.X k)
  P : t.P = s.P

theorem score_spread {A A' D C : NDArray ℝ} (h : RowsExpanded U I' I R A A') (k : ℕ) :
    RowsExpanded U I' I R (p2Score A D C I R k) (p2Score A' D C I' R k) := by
  intro i hi q hq
  rw [p2Score, p2Score, get_ofMat hi hq]
  rw [Finset.sum_congr rfl fun r hr => by rw [h i hi r (Finset.mem_range.1 hr), Finset.mul_sum, Finset.sum_mul], Finset.sum_comm]
  refine Finset.sum_congr rfl fun j hj => ?_
  rw [get_ofMat (Finset.mem_range.1 hj) hq, Finset.mul_sum]
  exact Finset.sum_congr rfl fun r _ => by ring

theorem Spread.err (hU : OrthoCols U I' I) (h : Spread U I' I Js R s t) : t.err I' Js R = s.err I Js R := by
  rw [err_eq, err_eq]
  refine Finset.sum_congr rfl fun k hk => ?_
  have hk := Finset.mem_range.1 hk
  have hM : t.Mm I' R k = mat U I' I * s.Mm I R k := by
    unfold Mm; rw [h.D, h.C]
    exact rowsExpanded_iff.1 (score_spread h.A k)
  have hX : t.Xm I' Js k = mat U I' I * s.Xm I Js k := rowsExpanded_iff.1 (h.X k hk)
  have hY : t.Ym Js R k = s.Ym Js R k := by unfold Ym; rw [h.P]
  have hUU : (mat U I' I)ᵀ * ((mat U I' I)ᵀ)ᵀ = 1 := by
    ext i j
    have := hU i i.2 j j.2
    rw [Finset.sum_range] at this
    rw [Matrix.mul_apply, Matrix.one_apply]
    simp only [Fin.val_inj] at this
    exact this
  rw [hM, hX, hY, Matrix.mul_assoc, ← Matrix.mul_sub, ← LA.fsq_transpose, Matrix.transpose_mul, LA.fsq_mul_orth _ hUU,
    LA.fsq_transpose]

theorem Spread.loss {o : P2Opts} (hU : OrthoCols U I' I) (h : Spread U I' I Js o.rank s t)
    (hs : s.Sized I Js o.rank) (ht : t.Sized I' Js o.rank) : P2.loss o t = P2.loss o s := by
  rw [C81_loss hs, C81_loss ht, h.err hU, h.D, h.C, normSq_expanded hU h.A]

/-- The projected data. -/
theorem projected_spread {X X' P : List (NDArray ℝ)}
    (hX : ∀ k < Js.length, RowsExpanded U I' I (Js.getD k 0) (nth X k) (nth X' k)) :
    Expanded U I' 0 (p2Projected X P I Js R) (p2Projected X' P I' Js R) := by
  refine ⟨rfl, fun idx hv i hi => ?_⟩
  obtain ⟨q, k, rfl, hq, hk⟩ : ∃ q k, idx = [q, k] ∧ q < R ∧ k < Js.length := by
    match idx, hv with
    | [q, k], hv => exact ⟨q, k, rfl, by simpa [p2Projected] using hv⟩
  show (p2Projected X' P I' Js R).get [i, q, k] = ∑ j ∈ Finset.range I, U.get [i, j] * (p2Projected X P I Js R).get [j, q, k]
  have key : ∀ (Y : List (NDArray ℝ)) (n a : ℕ), a < n → (p2Projected Y P n Js R).get [a, q, k]
      = ∑ j ∈ Finset.range (Js.getD k 0), (nth Y k).get [a, j] * (nth P k).get [j, q] := by
    intro Y n a ha
    rw [p2Projected, get_ofFn (by simp [ha, hq, hk])]
    rfl
  rw [key _ _ _ hi, Finset.sum_congr rfl fun j hj => by rw [hX k hk i hi j (Finset.mem_range.1 hj), Finset.sum_mul], Finset.sum_comm]
  refine Finset.sum_congr rfl fun l hl => ?_
  rw [key _ _ _ (Finset.mem_range.1 hl), Finset.mul_sum]
  exact Finset.sum_congr rfl fun j _ => by ring

/-- The projection matrices after an update. -/
theorem newP_spread {E : Ext} (hU : OrthoCols U I' I) (h : Spread U I' I Js R s t)
    (hs : s.Sized I Js R) (ht : t.Sized I' Js R) {k : ℕ} (hk : k < Js.length) {v v' : NDArray ℝ} (hv : NewP E s I Js R k v)
    (hv' : NewP E t I' Js R k v') : v' = v := by
  obtain ⟨-, Y, e, rfl⟩ := hv
  obtain ⟨-, Y', e', rfl⟩ := hv'
  rw [h.D, h.C, orthogonalSolve_expanded hU (A := p2Score s.A s.D s.C I R k) (A' := p2Score t.A s.D s.C I' R k) (shape_ofMat I R _)
    (shape_ofMat I' R _) (shape_nth hs.X hk) (shape_nth ht.X hk)
    (score_spread h.A k) (h.X k hk), e] at e'
  rw [Except.ok.inj e']

/-- States with related inner problems and the same losses. -/
structure SpreadTwin (U : NDArray ℝ) (o : P2Opts) (I' I : ℕ) (Js : List ℕ) (s t : P2State) (c d : CPObj) : Prop where
  left : s.Working o I Js c
  right : t.Working o I' Js d
  nodupL : s.dec.P.Nodup
  nodupR : t.dec.P.Nodup
  spread : Spread U I' I Js o.rank s t
  prevLoss : t.prevLoss = s.prevLoss
  relChange : t.relChange = s.relChange
  factors : FactorsExpanded U I' I 0 o.rank (c.addrs.map s.heap.mem) (d.addrs.map t.heap.mem)
  nonNeg : d.st.nonNeg = c.st.nonNeg
  orth : d.st.orth = c.st.orth
  free : c.st.FreeMode 0
  AL : c.addrs[0]? = some s.dec.A
  AR : d.addrs[0]? = some t.dec.A
  D : Alike 1 s.dec.blueprint t.dec.blueprint c d
  C : Alike 2 s.dec.C t.dec.C c d

theorem Alike.mem_rest {j : ℕ} {a b : Addr} {c d : CPObj} (h : Alike j a b c d) {m m' n n' : Addr → NDArray ℝ}
    (hl : n a = m a ∨ a ∈ c.addrs) (hr : n' b = m' b ∨ b ∈ d.addrs) (hm : m' b = m a)
    (hf : (d.addrs.map n')[j]? = (c.addrs.map n)[j]?) : n' b = n a := by
  rcases h with ⟨h1, h2⟩ | ⟨h1, h2⟩
  · simpa [List.getElem?_map, h1, h2] using hf
  · rcases hl with hl | hl
    · rcases hr with hr | hr
      · rw [hl, hr, hm]
      · exact absurd hr h2
    · exact absurd hl h1

/-- One iteration. -/
theorem SpreadTwin.step {E : Ext} (hE : E.SVDOk) (hN : E.NNLSOk) {o : P2Opts} {c d : CPObj}
    (hU : OrthoCols U I' I) (h : SpreadTwin U o I' I Js s t c d) :
    ∃ s' t' c' d', P2.iteration E o s = .ok s' ∧ P2.iteration E o t = .ok t' ∧ SpreadTwin U o I' I Js s' t' c' d' := by
  obtain ⟨s', c', f, e, hw, ha, hnn, hon, hd, hX, -, -, hl, hrc, hP, ⟨ef, hf⟩, hm, -⟩ := iteration_ok hE hN h.left
  obtain ⟨t', d', g, e', hw', ha', hnn', hon', hd', hX', -, -, hl', hrc', hP', ⟨eg, hg⟩, hm', -⟩ := iteration_ok hE hN h.right
  have hXe : ∀ k < Js.length, RowsExpanded U I' I (Js.getD k 0) (nth s'.X k) (nth t'.X k) := by
    rw [hX, hX']; exact h.spread.X
  have hPe : t'.P = s'.P := by
    have l1 := hw.sized.P.length_eq
    have l2 := hw'.sized.P.length_eq
    refine List.ext_getElem (by rw [l1, l2]) fun k h1 h2 => ?_
    have hk : k < Js.length := by omega
    obtain ⟨k1, u1, n1⟩ := hP k hk
    obtain ⟨k2, u2, n2⟩ := hP' k hk
    obtain rfl := u1.eq_of_nodup h.nodupL h.left.sized.lenP hk
    obtain rfl := u2.eq_of_nodup h.nodupR h.right.sized.lenP hk
    have := newP_spread hU h.spread h.left.sized h.right.sized hk n1 n2
    rwa [nth_lt h1, nth_lt h2] at this
  -- the inner problems are related
  have hproj : Expanded U I' 0 (p2Projected s.X s'.P I Js o.rank) (p2Projected t.X t'.P I' Js o.rank) := by
    rw [hPe]; exact projected_spread h.spread.X
  have hcore : ((c.setTarget (p2Projected s.X s'.P I Js o.rank)).read s.heap).Expanded U I' 0 o.rank
      ((d.setTarget (p2Projected t.X t'.P I' Js o.rank)).read t.heap) :=
    ⟨hproj, h.factors, h.nonNeg, h.orth⟩
  obtain ⟨f1, g1, ef1, eg1, hgc, -⟩ := iterM_expanded hE hN (o := P2.innerOpts o) (show 0 < o.rank from h.left.sized.posR)
    o.cpUpdates (h.left.ready.sized h.left.sized s'.P) (h.right.ready.sized h.right.sized t'.P)
    (show 0 < [I, o.rank, Js.length].length by simp) hU h.free
    (fun k hk => by
      obtain ⟨nn, on, ridge, hc, hb⟩ := h.left.ready.config k hk
      exact ⟨nn, on, ridge, ⟨hc.nonNeg, hc.orth, hc.ridge⟩, hb⟩) hcore
  rw [ef] at ef1
  rw [eg] at eg1
  obtain rfl := Except.ok.inj ef1
  obtain rfl := Except.ok.inj eg1
  have hfX : f.X.shape.getD 0 0 = I := by
    have := iterM_expanded hE hN (o := P2.innerOpts o) (show 0 < o.rank from h.left.sized.posR)
      o.cpUpdates (h.left.ready.sized h.left.sized s'.P) (h.right.ready.sized h.right.sized t'.P)
      (show 0 < [I, o.rank, Js.length].length by simp) hU h.free
      (fun k hk => by
        obtain ⟨nn, on, ridge, hc, hb⟩ := h.left.ready.config k hk
        exact ⟨nn, on, ridge, ⟨hc.nonNeg, hc.orth, hc.ridge⟩, hb⟩) hcore
    obtain ⟨f2, -, ef2, -, -, hx⟩ := this
    rw [ef] at ef2
    obtain rfl := Except.ok.inj ef2
    rw [hx]; rfl
  have hfac : FactorsExpanded U I' I 0 o.rank (c'.addrs.map s'.heap.mem) (d'.addrs.map t'.heap.mem) := by
    rw [hf, hg]
    have := hgc.factors
    rw [hfX] at this
    exact this
  have hfac0 : FactorsExpanded U I' I 0 o.rank (c.addrs.map s'.heap.mem) (d.addrs.map t'.heap.mem) := by rw [← ha, ← ha']; exact hfac
  have hstay : ∀ a, a ∉ s.dec.P → s'.heap.mem a = s.heap.mem a ∨ a ∈ c.addrs := fun a hp => by
    by_cases hc : a ∈ c.addrs
    · exact .inr hc
    · exact .inl (hm a hc hp)
  have hstay' : ∀ a, a ∉ t.dec.P → t'.heap.mem a = t.heap.mem a ∨ a ∈ d.addrs := fun a hp => by
    by_cases hc : a ∈ d.addrs
    · exact .inr hc
    · exact .inl (hm' a hc hp)
  have hA : RowsExpanded U I' I o.rank s'.A t'.A := by
    unfold P2State.A
    rw [hd, hd']
    exact hfac0.factor _ _ (by simp [List.getElem?_map, h.AL]) (by simp [List.getElem?_map, h.AR])
  have hD : t'.D = s'.D := by
    unfold P2State.D
    rw [hd, hd']
    exact h.D.mem_rest (hstay _ h.left.apart.D) (hstay' _ h.right.apart.D) h.spread.D (hfac0.rest 1 (by omega))
  have hC : t'.C = s'.C := by
    unfold P2State.C
    rw [hd, hd']
    exact h.C.mem_rest (hstay _ h.left.apart.C) (hstay' _ h.right.apart.C) h.spread.C (hfac0.rest 2 (by omega))
  have hspr : Spread U I' I Js o.rank s' t' := ⟨hA, hD, hC, hXe, hPe⟩
  have hloss : t'.prevLoss = s'.prevLoss := by
    have := hspr.loss hU hw.sized hw'.sized
    rw [hl, hl'] at this
    exact Except.ok.inj this
  have hal : ∀ {j : ℕ} {a b : Addr}, Alike j a b c d → Alike j a b c' d' := by
    intro j a b hh
    unfold Alike
    rw [ha, ha']; exact hh
  refine ⟨s', t', c', d', e, e', hw, hw', by rw [hd]; exact h.nodupL, by rw [hd']; exact h.nodupR, hspr, hloss, ?_, hfac,
    by rw [hnn, hnn', h.nonNeg], by rw [hon, hon', h.orth], ?_, by rw [ha, hd]; exact h.AL, by rw [ha', hd']; exact h.AR, ?_, ?_⟩
  · rw [hrc, hrc', hloss, h.prevLoss]
  · unfold CPState.FreeMode; rw [hnn, hon]; exact h.free
  · rw [hd, hd']; exact hal h.D
  · rw [hd, hd']; exact hal h.C

theorem SpreadTwin.orbit {E : Ext} (hE : E.SVDOk) (hN : E.NNLSOk) {o : P2Opts} {c d : CPObj}
    (hU : OrthoCols U I' I) (h : SpreadTwin U o I' I Js s t c d) :
    ∀ j, ∃ c' d', SpreadTwin U o I' I Js (P2.orbit E o s j) (P2.orbit E o t j) c' d'
  | 0 => ⟨c, d, h⟩
  | j + 1 => by
    obtain ⟨c1, d1, h1⟩ := SpreadTwin.orbit hE hN hU h j
    obtain ⟨s', t', c', d', e, e', h2⟩ := h1.step hE hN hU
    refine ⟨c', d', ?_⟩
    rw [P2.orbit, P2.orbit, e, e']
    exact h2

end P2State

/-! ### The theorem -/

variable {s t : P2State} {I I' : ℕ} {Js : List ℕ} {U : NDArray ℝ}

/-- The states after the inner decomposer is set up. -/
theorem P2State.spread_start {E : Ext} {o : P2Opts}
    (hA : P2.Admissible o I Js.length) (hnn : (P2.nonNegOption o)[0]? = some false) (hon : (P2State.orthFlags o)[0]? = some false)
    (hs : s.Separate) (hs' : t.Separate)
    (hal : s.Allocated) (hal' : t.Allocated) (hspr : P2State.Spread U I' I Js o.rank s t) {l l' : ℝ} (hll : l' = l) {g g' : Heap}
    {ci ci' : CPObj}
    (hw : ((s.withLoss .pinf l).withInner g ci).Working o I Js ci) (hw' : ((t.withLoss .pinf l').withInner g' ci').Working o I' Js ci')
    (hold : ∀ a < s.heap.next, g.mem a = s.heap.mem a) (hold' : ∀ a < t.heap.next, g'.mem a = t.heap.mem a)
    (hn1 : ci.st.nonNeg = some (P2.nonNegOption o)) (hn1' : ci'.st.nonNeg = some (P2.nonNegOption o))
    (ho1 : ci.st.orth = some (P2State.orthFlags o)) (ho1' : ci'.st.orth = some (P2State.orthFlags o))
    (hfr : ∀ j : ℕ, (P2State.orthFlags o)[j]? = some true → ∀ a, ci.addrs[j]? = some a → s.heap.next ≤ a)
    (hfr' : ∀ j : ℕ, (P2State.orthFlags o)[j]? = some true → ∀ a, ci'.addrs[j]? = some a → t.heap.next ≤ a)
    (hke : ∀ j : ℕ, (P2State.orthFlags o)[j]? = some false → ci.addrs[j]? = [s.dec.A, s.dec.blueprint, s.dec.C][j]?)
    (hke' : ∀ j : ℕ, (P2State.orthFlags o)[j]? = some false → ci'.addrs[j]? = [t.dec.A, t.dec.blueprint, t.dec.C][j]?)
    (hv : CP.orthonormalise E 0 (P2State.orthFlags o) ([s.dec.A, s.dec.blueprint, s.dec.C].map s.heap.mem) = .ok (ci.addrs.map g.mem))
    (hv' : CP.orthonormalise E 0 (P2State.orthFlags o) ([t.dec.A, t.dec.blueprint, t.dec.C].map t.heap.mem) = .ok (ci'.addrs.map g'.mem)) :
    P2State.SpreadTwin U o I' I Js ((s.withLoss .pinf l).withInner g ci) ((t.withLoss .pinf l').withInner g' ci') ci ci' := by
  have hm : ∀ a ∈ s.dec.A :: s.dec.blueprint :: s.dec.C :: s.dec.P, g.mem a = s.heap.mem a := fun a ha => hold a (hal a ha)
  have hm' : ∀ a ∈ t.dec.A :: t.dec.blueprint :: t.dec.C :: t.dec.P, g'.mem a = t.heap.mem a := fun a ha => hold' a (hal' a ha)
  have hPs : ((s.withLoss .pinf l).withInner g ci).P = s.P := List.map_congr_left fun a ha => hm a (List.mem_cons_of_mem _ (List.mem_cons_of_mem _ (List.mem_cons_of_mem _ ha)))
  have hPt : ((t.withLoss .pinf l').withInner g' ci').P = t.P := List.map_congr_left fun a ha => hm' a (List.mem_cons_of_mem _ (List.mem_cons_of_mem _ (List.mem_cons_of_mem _ ha)))
  have hadd : FactorsExpanded U I' I 0 o.rank (ci.addrs.map g.mem) (ci'.addrs.map g'.mem) := by
    have e : FactorsExpanded U I' I 0 o.rank ([s.dec.A, s.dec.blueprint, s.dec.C].map s.heap.mem)
        ([t.dec.A, t.dec.blueprint, t.dec.C].map t.heap.mem) := by
      show FactorsExpanded U I' I 0 o.rank [s.A, s.D, s.C] [t.A, t.D, t.C]
      rw [hspr.D, hspr.C]
      refine ⟨fun k hk => ?_, fun F F' hF hF' => ?_⟩
      · match k, hk with
        | k + 1, _ => rfl
      · obtain rfl := Option.some.inj hF
        obtain rfl := Option.some.inj hF'
        exact hspr.A
    refine orthonormalise_expanded e rfl (fun k hk h0 => ?_) hv hv'
    obtain rfl : k = 0 := by omega
    rw [hk] at hon
    cases hon
  have hAl : ∀ (j : ℕ) (a b : Addr), j < 3 → [s.dec.A, s.dec.blueprint, s.dec.C][j]? = some a →
      [t.dec.A, t.dec.blueprint, t.dec.C][j]? = some b → (ci.addrs[j]? = some a ∨ a ∉ ci.addrs) →
      (ci'.addrs[j]? = some b ∨ b ∉ ci'.addrs) → P2State.Alike j a b ci ci' := by
    intro j a b hj ha hb h1 h2
    have hol : (P2State.orthFlags o).length = 3 := by
      unfold P2State.orthFlags
      cases hq : o.orth with
      | none => rfl
      | some l => exact hA.orthLen l hq
    rcases hfl : (P2State.orthFlags o)[j]'(by omega) with _ | _
    · have hfl : (P2State.orthFlags o)[j]? = some false := by rw [List.getElem?_eq_getElem (by omega), hfl]
      exact .inl ⟨(hke j hfl).trans ha, (hke' j hfl).trans hb⟩
    · have hfl : (P2State.orthFlags o)[j]? = some true := by rw [List.getElem?_eq_getElem (by omega), hfl]
      have ha' : a ∈ s.dec.A :: s.dec.blueprint :: s.dec.C :: s.dec.P := by
        have := List.mem_of_getElem? ha
        simp only [List.mem_cons, List.not_mem_nil, or_false] at this ⊢
        tauto
      have hb' : b ∈ t.dec.A :: t.dec.blueprint :: t.dec.C :: t.dec.P := by
        have := List.mem_of_getElem? hb
        simp only [List.mem_cons, List.not_mem_nil, or_false] at this ⊢
        tauto
      refine .inr ⟨?_, ?_⟩
      · rcases h1 with h1 | h1
        · exact absurd (hal a ha') (Nat.not_lt.2 (hfr j hfl a h1))
        · exact h1
      · rcases h2 with h2 | h2
        · exact absurd (hal' b hb') (Nat.not_lt.2 (hfr' j hfl b h2))
        · exact h2
  refine ⟨hw, hw', hs.nodup, hs'.nodup, ⟨?_, ?_, ?_, hspr.X, by rw [hPs, hPt]; exact hspr.P⟩, hll, rfl, hadd, by rw [hn1, hn1'],
    by rw [ho1, ho1'], ⟨⟨_, hn1, hnn⟩, ⟨_, ho1, hon⟩⟩, hke 0 hon, hke' 0 hon, ?_, ?_⟩
  · show RowsExpanded U I' I o.rank (g.mem s.dec.A) (g'.mem t.dec.A)
    rw [hm _ (by simp), hm' _ (by simp)]; exact hspr.A
  · show g'.mem t.dec.blueprint = g.mem s.dec.blueprint
    rw [hm _ (by simp), hm' _ (by simp)]; exact hspr.D
  · show g'.mem t.dec.C = g.mem s.dec.C
    rw [hm _ (by simp), hm' _ (by simp)]; exact hspr.C
  · exact hAl 1 _ _ (by omega) rfl rfl hw.ready.D hw'.ready.D
  · exact hAl 2 _ _ (by omega) rfl rfl hw.ready.C hw'.ready.C

/-- **C132**, `Parafac2_ALS`: two fits with the same options, the slices of the second being those of the first multiplied from the
left by a matrix `U` with orthonormal columns, and the matrix `A` of its start being `U` times that of the first. Mode `A` has no
constraint; it may have a penalty, and the other modes may have constraints and penalties. Then both fits complete after the same
number of iterations with the same projection matrices, blueprint matrix, `C`, loss, SSE and relative change, and the matrix `A` of
the second is `U` times that of the first. -/
theorem C132_parafac2 {E : Ext} (hE : E.SVDOk) (hN : E.NNLSOk) (hQR : E.QROk) {c : P2.Config} (hU : OrthoCols U I' I)
    {D D' : P2Data} {arg arg' : InitArg P2Obj} {h0 h0' : Heap}
    (hi : P2.StartsFrom E c D arg h0 s) (hi' : P2.StartsFrom E c D' arg' h0' t)
    (h : s.Sized I Js c.opts.rank) (h' : t.Sized I' Js c.opts.rank) (hs : s.Separate) (hs' : t.Separate)
    (hal : s.Allocated) (hal' : t.Allocated) (hspr : P2State.Spread U I' I Js c.opts.rank s t)
    (hA : P2.Admissible c.opts I Js.length) (hnn : flagOf c.opts.nonNeg 0 = false) (hon : flagOf c.opts.orth 0 = false)
    (hlog : c.Measurable I Js) (hlog' : c.Measurable I' Js) (hfreq : freqOption c.freq ≠ 0)
    {budget : Int} {mi : Option Int} {loggers loggers' : List Logger} {file file' : Option H5File}
    (hS : Storing (P2.method E c) (P2.newObject h0 budget loggers file) [])
    (hS' : Storing (P2.method E c) (P2.newObject h0' budget loggers' file') []) :
    ∃ w w', P2.fit E c D mi arg (P2.newObject h0 budget loggers file) = .ok () w ∧
      P2.fit E c D' mi arg' (P2.newObject h0' budget loggers' file') = .ok () w' ∧
      w'.it = w.it ∧ RowsExpanded U I' I c.opts.rank w.st.A w'.st.A ∧ w'.st.D = w.st.D ∧ w'.st.C = w.st.C ∧ w'.st.P = w.st.P ∧
      P2.sse w'.st = P2.sse w.st ∧ P2.loss c.opts w'.st = P2.loss c.opts w.st ∧ w'.st.relChange = w.st.relChange := by
  have hA' : P2.Admissible c.opts I' Js.length := CP.Admissible.expanded (m := 0) hA (by simp) hU hon
  have hnn0 : (P2.nonNegOption c.opts)[0]? = some false := by
    have hl := hA.nonNegLen _ rfl
    unfold P2.nonNegOption at hl ⊢
    cases hq : c.opts.nonNeg with
    | none => rfl
    | some l =>
      rw [hq] at hl hnn
      simp only [Option.getD_some] at hl ⊢
      rw [List.getElem?_eq_getElem (by simp at hl; omega)]
      simpa [flagOf, List.getElem?_eq_getElem (show 0 < l.length by simp at hl; omega)] using hnn
  have hon0 : (P2State.orthFlags c.opts)[0]? = some false := by
    unfold P2State.orthFlags
    cases hq : c.opts.orth with
    | none => rfl
    | some l =>
      have hl := hA.orthLen l hq
      rw [hq] at hon
      simp only [Option.getD_some]
      rw [List.getElem?_eq_getElem (by simp at hl; omega)]
      simpa [flagOf, List.getElem?_eq_getElem (show 0 < l.length by simp at hl; omega)] using hon
  obtain ⟨l, sp, w, k, el, ep, -, hfit, hk, hit, hst, hgo, hstop, -⟩ := C80_fit_completes hE hN hQR hi h hs.distinct hal hA hlog hfreq
    (mi := mi) hS
  obtain ⟨l', tp, w', k', el', ep', -, hfit', hk', hit', hst', hgo', hstop', -⟩ :=
    C80_fit_completes hE hN hQR hi' h' hs'.distinct hal' hA' hlog' hfreq (mi := mi) hS'
  have hll : l' = l := by
    have := hspr.loss hU h h'
    rw [el, el'] at this
    exact Except.ok.inj this
  obtain ⟨g, ci, fp, hw, hold, -, hn1, ho1, hfr, hke, -, -, hv⟩ := P2State.prepareCp_ok (E := E) hQR (o := c.opts) (h.withLoss .pinf l)
    (hs.distinct.loss .pinf l) hA (fun _ => hal)
  obtain ⟨g', ci', fp', hw', hold', -, hn1', ho1', hfr', hke', -, -, hv'⟩ := P2State.prepareCp_ok (E := E) hQR (o := c.opts)
    (h'.withLoss .pinf l') (hs'.distinct.loss .pinf l') hA' (fun _ => hal')
  rw [ep] at fp
  rw [ep'] at fp'
  obtain rfl := Except.ok.inj fp
  obtain rfl := Except.ok.inj fp'
  have htwin := P2State.spread_start hA hnn0 hon0 hs hs' hal hal' hspr hll hw hw' hold hold' hn1 hn1' ho1 ho1' hfr hfr' hke hke' hv hv'
  have hall := htwin.orbit hE hN hU
  have hsame : ∀ j, P2.shouldStop c.opts (P2.orbit E c.opts ((t.withLoss .pinf l').withInner g' ci') j)
      = P2.shouldStop c.opts (P2.orbit E c.opts ((s.withLoss .pinf l).withInner g ci) j) := by
    intro j
    obtain ⟨_, _, hj⟩ := hall j
    unfold P2.shouldStop
    rw [hj.relChange]
  obtain rfl : k' = k := by
    rcases lt_trichotomy k' k with hlt | heq | hlt
    · have h1 := (hgo k' hlt).2
      have h2 := hstop' (by omega)
      rw [hst', hsame, h1] at h2
      exact absurd h2 (by simp)
    · exact heq
    · have h1 := (hgo' k hlt).2
      have h2 := hstop (by omega)
      rw [hst, ← hsame, h1] at h2
      exact absurd h2 (by simp)
  obtain ⟨_, _, hk⟩ := hall k'
  rw [← hst, ← hst'] at hk
  refine ⟨w, w', hfit, hfit', by rw [hit, hit'], hk.spread.A, hk.spread.D, hk.spread.C, hk.spread.P, ?_, hk.spread.loss hU
    hk.left.sized hk.right.sized, hk.relChange⟩
  rw [hk.left.sized.sse, hk.right.sized.sse, hk.spread.err hU]

/-- The slices `Xs` multiplied from the left by the matrix `U`. -/
def expandRows (U : NDArray ℝ) (I' I : ℕ) (Js : List ℕ) (Xs : List (NDArray ℝ)) : List (NDArray ℝ) :=
  (List.range Js.length).map fun k =>
    ofMat I' (Js.getD k 0) fun i j => ∑ l ∈ Finset.range I, U.get [i, l] * (nth Xs k).get [l, j]

/-- **C132** for `Parafac2_ALS` with `init="precomputed"`, with all hypotheses about the start discharged: the fit of the expanded
slices from a decomposition with the expanded matrix `A` and the other arrays as before. -/
theorem C132_parafac2_precomputed {E : Ext} (hE : E.SVDOk) (hN : E.NNLSOk) (hQR : E.QROk) {c : P2.Config} (hU : OrthoCols U I' I)
    (hinit : c.init.toLower = "precomputed") (hfreq : c.freq = none)
    {Xs : List (NDArray ℝ)} (hI : 0 < I) (hX : List.Forall₂ (fun Xk J => Xk.shape = [I, J]) Xs Js) (hK : 0 < Js.length)
    (hR : 0 < c.opts.rank) (hJ : ∀ J ∈ Js, 0 < J) {h0 h0' : Heap} {d : P2Obj}
    (sA : (h0.mem d.A).shape = [I, c.opts.rank]) (sA' : (h0'.mem d.A).shape = [I', c.opts.rank])
    (sD : (h0.mem d.blueprint).shape = [c.opts.rank, c.opts.rank])
    (sC : (h0.mem d.C).shape = [Js.length, c.opts.rank]) (sP : Factors (d.P.map h0.mem) Js c.opts.rank)
    (hnd : (d.A :: d.blueprint :: d.C :: d.P).Nodup) (hal : ∀ a ∈ d.A :: d.blueprint :: d.C :: d.P, a < h0.next ∧ a < h0'.next)
    (eA : RowsExpanded U I' I c.opts.rank (h0.mem d.A) (h0'.mem d.A))
    (eD : h0'.mem d.blueprint = h0.mem d.blueprint) (eC : h0'.mem d.C = h0.mem d.C) (eP : d.P.map h0'.mem = d.P.map h0.mem)
    (hA : P2.Admissible c.opts I Js.length) (hnn : flagOf c.opts.nonNeg 0 = false) (hon : flagOf c.opts.orth 0 = false)
    (hlog : c.Measurable I Js) (hlog' : c.Measurable I' Js) (budget : Int) (mi : Option Int) (loggers loggers' : List Logger)
    (file file' : Option H5File) :
    ∃ w w', P2.fit E c (.list Xs) mi (.tensor d) (P2.newObject h0 budget loggers file) = .ok () w ∧
      P2.fit E c (.list (expandRows U I' I Js Xs)) mi (.tensor d) (P2.newObject h0' budget loggers' file') = .ok () w' ∧
      w'.it = w.it ∧ RowsExpanded U I' I c.opts.rank w.st.A w'.st.A ∧ w'.st.D = w.st.D ∧ w'.st.C = w.st.C ∧ w'.st.P = w.st.P ∧
      P2.sse w'.st = P2.sse w.st ∧ P2.loss c.opts w'.st = P2.loss c.opts w.st ∧ w'.st.relChange = w.st.relChange := by
  have hI' : 0 < I' := Nat.pos_of_ne_zero (hU.pos (by omega))
  have hX' : List.Forall₂ (fun (Xk : NDArray ℝ) J => Xk.shape = [I', J]) (expandRows U I' I Js Xs) Js := by
    rw [List.forall₂_iff_get]
    refine ⟨by simp [expandRows], fun k h1 h2 => ?_⟩
    simp only [expandRows, List.get_eq_getElem, List.getElem_map, List.getElem_range]
    rw [shape_ofMat, getD_eq_getElem' _ h2]
  obtain ⟨s, g1, g2, g3, g4, g5⟩ := p2_startsFrom_precomputed (E := E) hinit hI hX hK hR hJ sA sD sC sP
  obtain ⟨t, f1, f2, f3, f4, f5⟩ := p2_startsFrom_precomputed (E := E) hinit hI' hX' hK hR hJ (h0 := h0') (d := d)
    sA' (by rw [eD]; exact sD) (by rw [eC]; exact sC) (by rw [eP]; exact sP)
  refine C132_parafac2 hE hN hQR hU g1 f1 g2 f2 (by rw [P2State.Separate, g3]; exact hnd) (by rw [P2State.Separate, f3]; exact hnd)
    (by rw [P2State.Allocated, g3, g4]; exact fun a ha => (hal a ha).1) (by rw [P2State.Allocated, f3, f4]; exact fun a ha => (hal a ha).2)
    ⟨by rw [P2State.A, P2State.A, g3, g4, f3, f4]; exact eA, by rw [P2State.D, P2State.D, g3, g4, f3, f4, eD],
      by rw [P2State.C, P2State.C, g3, g4, f3, f4, eC], ?_, by rw [P2State.P, P2State.P, g3, g4, f3, f4, eP]⟩ hA hnn hon hlog hlog'
    (by rw [hfreq]; decide) (p2_storing_none hfreq _ _) (p2_storing_none hfreq _ _)
  intro k hk i hi j hj
  rw [f5, g5, nth_lt (by simpa [expandRows] using hk)]
  simp only [expandRows, List.getElem_map, List.getElem_range]
  rw [get_ofMat hi hj]

/-- The hypotheses of `C132_parafac2_precomputed` on the start hold for slices of one row, expanded to two rows by the column
`(3/5, 4/5)`. -/
example : ∃ (h0 h0' : Heap) (d : P2Obj), OrthoCols unitCol 2 1 ∧ (h0.mem d.A).shape = [1, 1] ∧ (h0'.mem d.A).shape = [2, 1] ∧
    (h0.mem d.blueprint).shape = [1, 1] ∧
    (h0.mem d.C).shape = [2, 1] ∧ Factors (d.P.map h0.mem) [2, 3] 1 ∧
    (d.A :: d.blueprint :: d.C :: d.P).Nodup ∧ (∀ a ∈ d.A :: d.blueprint :: d.C :: d.P, a < h0.next ∧ a < h0'.next) ∧
    RowsExpanded unitCol 2 1 1 (h0.mem d.A) (h0'.mem d.A) ∧
    h0'.mem d.blueprint = h0.mem d.blueprint ∧ h0'.mem d.C = h0.mem d.C ∧ d.P.map h0'.mem = d.P.map h0.mem := by
  refine ⟨⟨fun a => [full [1, 1] 5, full [1, 1] 2, full [2, 1] 3, ofMat 2 1 fun j _ => (j : ℝ), ofMat 3 1 fun j _ => (j : ℝ)].getD a (full [] 0), 5⟩,
    ⟨fun a => [ofMat 2 1 fun i _ => if i = 0 then 3 else 4, full [1, 1] 2, full [2, 1] 3, ofMat 2 1 fun j _ => (j : ℝ), ofMat 3 1 fun j _ => (j : ℝ)].getD a (full [] 0), 5⟩,
    ⟨1, 0, 1, 2, [3, 4], false, false, [], 0⟩, orthoCols_unitCol, rfl, rfl, rfl, rfl, .cons rfl (.cons rfl .nil), by decide, by decide, ?_,
    rfl, rfl, rfl⟩
  intro i hi r hr
  obtain rfl : r = 0 := by omega
  interval_cases i <;> simp [unitCol, get_ofMat, get_full]

end
end TK
