import Verif.Props.Library
import Verif.Props.Parafac2Fit

/-!
# C110: the columns of the slices are only relevant up to rotation

Source: parafac2.py:393-438, base.py:36-43.

If every slice `X_k` is multiplied from the right by an orthogonal matrix `Q_k`, and the start's projection matrices `P_k` are
replaced by `Q_kᵀ P_k`, then a fit runs through the same factor matrices and losses, and its projection matrices are
the rotated ones.
-/

namespace TK
open NDArray Matrix

noncomputable section

/-- The first of sorted singular values does not depend on the decomposition. -/
theorem LA.ThinSVD.first_le {m n k : ℕ} {A : Matrix (Fin m) (Fin n) ℝ} {U U' : Matrix (Fin m) (Fin k) ℝ} {s s' : Fin k → ℝ}
    {Vh Vh' : Matrix (Fin k) (Fin n) ℝ} (h : LA.ThinSVD A U s Vh) (h' : LA.ThinSVD A U' s' Vh') (hs : Antitone s') (hk : 0 < k) :
    s ⟨0, hk⟩ ≤ s' ⟨0, hk⟩ := by
  by_cases h0 : s ⟨0, hk⟩ = 0
  · rw [h0]
    exact h'.nonneg _
  · obtain ⟨j, hj⟩ := h.value_mem h' h0
    rw [← hj]
    exact hs (Fin.mk_le_of_le_val (Nat.zero_le _))

/-- A decomposition of a rotated matrix. -/
theorem LA.ThinSVD.rotate {m n k : ℕ} {A : Matrix (Fin m) (Fin n) ℝ} {U : Matrix (Fin m) (Fin k) ℝ} {s : Fin k → ℝ}
    {Vh : Matrix (Fin k) (Fin n) ℝ} (h : LA.ThinSVD A U s Vh) {Q : Matrix (Fin m) (Fin m) ℝ} (hQ : Q * Qᵀ = 1) :
    LA.ThinSVD (Qᵀ * A) (Qᵀ * U) s Vh := by
  refine ⟨?_, h.right, ?_, h.nonneg⟩
  · rw [Matrix.transpose_mul, Matrix.transpose_transpose, Matrix.mul_assoc, ← Matrix.mul_assoc Q, hQ, Matrix.one_mul, h.left]
  · rw [h.eq]; simp only [Matrix.mul_assoc]

/-- `orthogonal_solve` for a rotated right hand side. -/
theorem orthogonalSolve_rotate {E : Ext} (hE : E.SVDOk) {A B B' : NDArray ℝ} {n r m : ℕ} (hA : A.shape = [n, r])
    (hB : B.shape = [n, m]) (hB' : B'.shape = [n, m]) (hr : 0 < r) (hm : 0 < m) {Q : Matrix (Fin m) (Fin m) ℝ}
    (hQ : Q * Qᵀ = 1) (e : mat B' n m = mat B n m * Q) :
    ∃ X X', orthogonalSolve E A B = .ok X ∧ orthogonalSolve E A B' = .ok X' ∧ X.shape = [r, m] ∧ X'.shape = [r, m] ∧
      mat X' r m = mat X r m * Q := by
  obtain ⟨C, U, S, Vh, X, -, -, c1, d1, x1, x2, x3⟩ := orthogonalSolve_mat hE hA hB hr hm
  obtain ⟨C', U', S', Vh', X', -, -, c1', d1', x1', x2', x3'⟩ := orthogonalSolve_mat hE hA hB' hr hm
  refine ⟨X, X', x1, x1', x2, x2', ?_⟩
  have hk : 0 < min m r := by omega
  have hC : mat C' m r = Qᵀ * mat C m r := by
    rw [c1, c1', e, Matrix.transpose_mul, Matrix.mul_assoc]
  have t := d1.svd.rotate hQ
  have t' := d1'.svd
  rw [hC] at t'
  have h0 : S'.get [0] = S.get [0] := le_antisymm (t'.first_le t d1.sorted hk) (t.first_le t' d1'.sorted hk)
  have htol : orthTol U' S' = orthTol U S := by rw [orthTol, orthTol, d1.shapeU, d1'.shapeU, h0]
  have hpos : 0 ≤ orthTol U S := by
    have : 0 ≤ S.get [0] := d1.svd.nonneg ⟨0, hk⟩
    rw [orthTol]; positivity
  have := t'.spectral_unique t (fun x => if x > orthTol U S then 1 else 0) (by simp [hpos])
  rw [x3, x3']
  unfold LA.procrustes keepVec
  rw [htol]
  refine Eq.trans this ?_
  rw [Matrix.transpose_mul, Matrix.transpose_transpose, ← Matrix.mul_assoc]

/-! ### The inner decomposer -/

/-- What the factor updates depend on. -/
structure CPState.SameCore (s t : CPState) : Prop where
  X : t.X = s.X
  factors : t.dec.factorMatrices = s.dec.factorMatrices
  nonNeg : t.nonNeg = s.nonNeg
  orth : t.orth = s.orth

theorem updateFactor_core {E : Ext} {o : CPOpts} {m : ℕ} {s t s' : CPState} (h : s.SameCore t)
    (e : CP.updateFactor E o m s = .ok s') : ∃ t', CP.updateFactor E o m t = .ok t' ∧ s'.SameCore t' := by
  have h1 : CP.getSolve E o t m = CP.getSolve E o s m := by
    unfold CP.getSolve
    rw [h.nonNeg, h.orth]
  have h2 : CP.alsRhs t m = CP.alsRhs s m := by
    rw [CP.alsRhs, CP.alsRhs, h.X, h.factors]
  unfold CP.updateFactor at e ⊢
  rw [h.factors, h1, h2]
  simp only [bind_eq_ok, pure_eq_ok] at e
  obtain ⟨a, ea, b, eb, f, ef, n, en, F, eF, F', eF', rfl⟩ := e
  rw [ea, bind_ok, eb, bind_ok, ef, bind_ok, en, bind_ok, eF, bind_ok, eF', bind_ok]
  exact ⟨_, rfl, h.X, rfl, h.nonNeg, h.orth⟩

theorem updateModes_core {E : Ext} {o : CPOpts} : ∀ (modes : List ℕ) {s t s' : CPState}, s.SameCore t →
    CP.updateModes E o modes s = .ok s' → ∃ t', CP.updateModes E o modes t = .ok t' ∧ s'.SameCore t'
  | [], s, t, s', h, e => by
    obtain rfl := Except.ok.inj e
    exact ⟨t, rfl, h⟩
  | m :: ms, s, t, s', h, e => by
    unfold CP.updateModes at e ⊢
    rw [List.foldlM_cons] at e ⊢
    obtain ⟨s1, e1, e2⟩ := bind_eq_ok.1 e
    obtain ⟨t1, f1, h1⟩ := updateFactor_core h e1
    obtain ⟨t', f2, h2⟩ := updateModes_core ms h1 e2
    refine ⟨t', ?_, h2⟩
    rw [f1, bind_ok]; exact f2

theorem iterM_core {E : Ext} {o : CPOpts} : ∀ (n : ℕ) {s t s' : CPState}, s.SameCore t →
    iterM (CP.updateFactors E o) n s = .ok s' → ∃ t', iterM (CP.updateFactors E o) n t = .ok t' ∧ s'.SameCore t'
  | 0, s, t, s', h, e => by
    obtain rfl := Except.ok.inj e
    exact ⟨t, rfl, h⟩
  | n + 1, s, t, s', h, e => by
    unfold iterM at e ⊢
    obtain ⟨s1, e1, e2⟩ := bind_eq_ok.1 e
    unfold CP.updateFactors at e1
    obtain ⟨t1, f1, h1⟩ := updateModes_core _ h e1
    obtain ⟨t', f2, h2⟩ := iterM_core n h1 e2
    refine ⟨t', ?_, h2⟩
    unfold CP.updateFactors
    rw [h.X, f1, bind_ok]; exact f2

/-! ### Rotated states -/

namespace P2State

variable {s t : P2State} {I R : ℕ} {Js : List ℕ} {Q : (k : ℕ) → Matrix (Fin (Js.getD k 0)) (Fin (Js.getD k 0)) ℝ}

/-- The data of `t` and its projection matrices are those of `s`, rotated; everything else that a fit reports is equal. -/
structure Rotated (Q : (k : ℕ) → Matrix (Fin (Js.getD k 0)) (Fin (Js.getD k 0)) ℝ) (I R : ℕ) (s t : P2State) : Prop where
  A : t.A = s.A
  D : t.D = s.D
  C : t.C = s.C
  X : ∀ k < Js.length, t.Xm I Js k = s.Xm I Js k * Q k
  P : ∀ k < Js.length, t.Ym Js R k = s.Ym Js R k * Q k

theorem Rotated.err (hQ : ∀ k < Js.length, Q k * (Q k)ᵀ = 1) (h : Rotated Q I R s t) : t.err I Js R = s.err I Js R := by
  rw [err_eq, err_eq]
  refine Finset.sum_congr rfl fun k hk => ?_
  have hk := Finset.mem_range.1 hk
  have hM : t.Mm I R k = s.Mm I R k := by unfold Mm; rw [h.A, h.D, h.C]
  rw [hM, h.X k hk, h.P k hk, ← Matrix.mul_assoc, ← Matrix.sub_mul, LA.fsq_mul_orth _ (hQ k hk)]

theorem Rotated.loss {o : P2Opts} (hQ : ∀ k < Js.length, Q k * (Q k)ᵀ = 1) (h : Rotated Q I o.rank s t)
    (hs : s.Sized I Js o.rank) (ht : t.Sized I Js o.rank) : P2.loss o t = P2.loss o s := by
  rw [C81_loss hs, C81_loss ht, h.err hQ, h.A, h.D, h.C]

/-- The projected data are the same. -/
theorem projected_rotate {X X' P P' : List (NDArray ℝ)} (hQ : ∀ k < Js.length, Q k * (Q k)ᵀ = 1)
    (hX : ∀ k < Js.length, mat (nth X' k) I (Js.getD k 0) = mat (nth X k) I (Js.getD k 0) * Q k)
    (hP : ∀ k < Js.length, (mat (nth P' k) (Js.getD k 0) R)ᵀ = (mat (nth P k) (Js.getD k 0) R)ᵀ * Q k) :
    p2Projected X' P' I Js R = p2Projected X P I Js R := by
  unfold p2Projected
  refine ofFn_congr fun idx hv => ?_
  obtain ⟨i, q, k, rfl, hi, hq, hk⟩ : ∃ i q k, idx = [i, q, k] ∧ i < I ∧ q < R ∧ k < Js.length := by
    match idx, hv with
    | [i, q, k], hv => exact ⟨i, q, k, rfl, by simpa using hv⟩
  have key : ∀ Y S : List (NDArray ℝ), (∑ j ∈ Finset.range (Js.getD k 0), (nth Y k).get [i, j] * (nth S k).get [j, q])
      = (mat (nth Y k) I (Js.getD k 0) * ((mat (nth S k) (Js.getD k 0) R)ᵀ)ᵀ) ⟨i, hi⟩ ⟨q, hq⟩ := by
    intro Y S
    rw [Finset.sum_range, Matrix.mul_apply]
    rfl
  show (∑ j ∈ Finset.range (Js.getD k 0), (nth X' k).get [i, j] * (nth P' k).get [j, q])
    = ∑ j ∈ Finset.range (Js.getD k 0), (nth X k).get [i, j] * (nth P k).get [j, q]
  rw [key, key, hX k hk, hP k hk, Matrix.transpose_mul (_ᵀ), Matrix.mul_assoc, ← Matrix.mul_assoc (Q k), hQ k hk, Matrix.one_mul]

/-- The projection matrices after an update. -/
theorem newP_rotate {E : Ext} (hE : E.SVDOk) (hQ : ∀ k < Js.length, Q k * (Q k)ᵀ = 1) (h : Rotated Q I R s t)
    (hs : s.Sized I Js R) (ht : t.Sized I Js R) {k : ℕ} (hk : k < Js.length) {v v' : NDArray ℝ} (hv : NewP E s I Js R k v)
    (hv' : NewP E t I Js R k v') : (TK.mat v' (Js.getD k 0) R)ᵀ = (TK.mat v (Js.getD k 0) R)ᵀ * Q k := by
  obtain ⟨-, Y, e, rfl⟩ := hv
  obtain ⟨-, Y', e', rfl⟩ := hv'
  rw [h.A, h.D, h.C] at e'
  obtain ⟨Z, Z', f, f', z, z', g⟩ := orthogonalSolve_rotate hE (A := p2Score s.A s.D s.C I R k) (shape_ofMat I R _)
    (shape_nth hs.X hk) (shape_nth ht.X hk) hs.posR (hs.posJk hk) (hQ k hk) (h.X k hk)
  rw [e] at f
  rw [e'] at f'
  obtain rfl := Except.ok.inj f
  obtain rfl := Except.ok.inj f'
  rw [mat_T z, mat_T z', Matrix.transpose_transpose, Matrix.transpose_transpose, g]

/-- An array of the decomposition is the inner factor matrix of its mode in both states, or in none of them. -/
def Alike (j : ℕ) (a b : Addr) (c d : CPObj) : Prop :=
  (c.addrs[j]? = some a ∧ d.addrs[j]? = some b) ∨ (a ∉ c.addrs ∧ b ∉ d.addrs)

/-- Rotated states with the same inner problem and the same losses. -/
structure Twin (Q : (k : ℕ) → Matrix (Fin (Js.getD k 0)) (Fin (Js.getD k 0)) ℝ) (o : P2Opts) (I : ℕ) (s t : P2State)
    (c d : CPObj) : Prop where
  left : s.Working o I Js c
  right : t.Working o I Js d
  nodupL : s.dec.P.Nodup
  nodupR : t.dec.P.Nodup
  rotated : Rotated Q I o.rank s t
  prevLoss : t.prevLoss = s.prevLoss
  relChange : t.relChange = s.relChange
  factors : d.addrs.map t.heap.mem = c.addrs.map s.heap.mem
  nonNeg : d.st.nonNeg = c.st.nonNeg
  orth : d.st.orth = c.st.orth
  A : Alike 0 s.dec.A t.dec.A c d
  D : Alike 1 s.dec.blueprint t.dec.blueprint c d
  C : Alike 2 s.dec.C t.dec.C c d

theorem Alike.mem {j : ℕ} {a b : Addr} {c d : CPObj} (h : Alike j a b c d) {m m' n n' : Addr → NDArray ℝ}
    (hl : n a = m a ∨ a ∈ c.addrs) (hr : n' b = m' b ∨ b ∈ d.addrs) (hm : m' b = m a)
    (hf : d.addrs.map n' = c.addrs.map n) : n' b = n a := by
  rcases h with ⟨h1, h2⟩ | ⟨h1, h2⟩
  · have := congrArg (fun l => l[j]?) hf
    simpa [List.getElem?_map, h1, h2] using this
  · rcases hl with hl | hl
    · rcases hr with hr | hr
      · rw [hl, hr, hm]
      · exact absurd hr h2
    · exact absurd hl h1

/-- One iteration. -/
theorem Twin.step {E : Ext} (hE : E.SVDOk) (hN : E.NNLSOk) {o : P2Opts} {c d : CPObj}
    (hQ : ∀ k < Js.length, Q k * (Q k)ᵀ = 1) (h : Twin Q o I s t c d) :
    ∃ s' t' c' d', P2.iteration E o s = .ok s' ∧ P2.iteration E o t = .ok t' ∧ Twin Q o I s' t' c' d' := by
  obtain ⟨s', c', f, e, hw, ha, hnn, hon, hd, hX, -, -, hl, hrc, hP, ⟨ef, hf⟩, hm, -⟩ := iteration_ok hE hN h.left
  obtain ⟨t', d', g, e', hw', ha', hnn', hon', hd', hX', -, -, hl', hrc', hP', ⟨eg, hg⟩, hm', -⟩ := iteration_ok hE hN h.right
  have hXm : ∀ k < Js.length, t'.Xm I Js k = s'.Xm I Js k * Q k := by
    intro k hk
    unfold Xm
    rw [hX, hX']
    exact h.rotated.X k hk
  have hYm : ∀ k < Js.length, t'.Ym Js o.rank k = s'.Ym Js o.rank k * Q k := by
    intro k hk
    obtain ⟨k1, l1, n1⟩ := hP k hk
    obtain ⟨k2, l2, n2⟩ := hP' k hk
    obtain rfl := l1.eq_of_nodup h.nodupL h.left.sized.lenP hk
    obtain rfl := l2.eq_of_nodup h.nodupR h.right.sized.lenP hk
    exact newP_rotate hE hQ h.rotated h.left.sized h.right.sized hk n1 n2
  -- the inner problems are equal
  have hproj : p2Projected t.X t'.P I Js o.rank = p2Projected s.X s'.P I Js o.rank :=
    projected_rotate hQ h.rotated.X hYm
  have hcore : ((c.setTarget (p2Projected s.X s'.P I Js o.rank)).read s.heap).SameCore
      ((d.setTarget (p2Projected t.X t'.P I Js o.rank)).read t.heap) :=
    ⟨hproj, h.factors, h.nonNeg, h.orth⟩
  obtain ⟨g', eg', hgc⟩ := iterM_core o.cpUpdates hcore ef
  rw [eg] at eg'
  obtain rfl := Except.ok.inj eg'
  have hfac : d'.addrs.map t'.heap.mem = c'.addrs.map s'.heap.mem := by rw [hf, hg, hgc.factors]
  have hfac0 : d.addrs.map t'.heap.mem = c.addrs.map s'.heap.mem := by rw [← ha, ← ha', hfac]
  have hstay : ∀ a, a ∉ s.dec.P → s'.heap.mem a = s.heap.mem a ∨ a ∈ c.addrs := fun a hp => by
    by_cases hc : a ∈ c.addrs
    · exact .inr hc
    · exact .inl (hm a hc hp)
  have hstay' : ∀ a, a ∉ t.dec.P → t'.heap.mem a = t.heap.mem a ∨ a ∈ d.addrs := fun a hp => by
    by_cases hc : a ∈ d.addrs
    · exact .inr hc
    · exact .inl (hm' a hc hp)
  have hA : t'.A = s'.A := by
    unfold P2State.A
    rw [hd, hd']
    exact h.A.mem (hstay _ h.left.apart.A) (hstay' _ h.right.apart.A) h.rotated.A hfac0
  have hD : t'.D = s'.D := by
    unfold P2State.D
    rw [hd, hd']
    exact h.D.mem (hstay _ h.left.apart.D) (hstay' _ h.right.apart.D) h.rotated.D hfac0
  have hC : t'.C = s'.C := by
    unfold P2State.C
    rw [hd, hd']
    exact h.C.mem (hstay _ h.left.apart.C) (hstay' _ h.right.apart.C) h.rotated.C hfac0
  have hrot : Rotated Q I o.rank s' t' := ⟨hA, hD, hC, hXm, hYm⟩
  have hloss : t'.prevLoss = s'.prevLoss := by
    have := hrot.loss hQ hw.sized hw'.sized
    rw [hl, hl'] at this
    exact Except.ok.inj this
  have hal : ∀ {j : ℕ} {a b : Addr}, Alike j a b c d → Alike j a b c' d' := by
    intro j a b hh
    unfold Alike
    rw [ha, ha']; exact hh
  refine ⟨s', t', c', d', e, e', hw, hw', by rw [hd]; exact h.nodupL, by rw [hd']; exact h.nodupR, hrot, hloss, ?_, hfac,
    by rw [hnn, hnn', h.nonNeg], by rw [hon, hon', h.orth], ?_, ?_, ?_⟩
  · rw [hrc, hrc', hloss, h.prevLoss]
  · rw [hd, hd']; exact hal h.A
  · rw [hd, hd']; exact hal h.D
  · rw [hd, hd']; exact hal h.C

theorem Twin.orbit {E : Ext} (hE : E.SVDOk) (hN : E.NNLSOk) {o : P2Opts} {c d : CPObj}
    (hQ : ∀ k < Js.length, Q k * (Q k)ᵀ = 1) (h : Twin Q o I s t c d) :
    ∀ j, ∃ c' d', Twin Q o I (P2.orbit E o s j) (P2.orbit E o t j) c' d'
  | 0 => ⟨c, d, h⟩
  | j + 1 => by
    obtain ⟨c1, d1, h1⟩ := Twin.orbit hE hN hQ h j
    obtain ⟨s', t', c', d', e, e', h2⟩ := h1.step hE hN hQ
    refine ⟨c', d', ?_⟩
    rw [P2.orbit, P2.orbit, e, e']
    exact h2

end P2State

/-! ### The theorem -/

variable {s t : P2State} {I : ℕ} {Js : List ℕ}

/-- The states after the inner decomposer is set up. -/
theorem P2State.twin_start {E : Ext} {o : P2Opts} {Q : (k : ℕ) → Matrix (Fin (Js.getD k 0)) (Fin (Js.getD k 0)) ℝ}
    (hA : P2.Admissible o I Js.length) (hs : s.Separate) (hs' : t.Separate)
    (hal : s.Allocated) (hal' : t.Allocated) (hrot : P2State.Rotated Q I o.rank s t) {l l' : ℝ} (hll : l' = l) {g g' : Heap} {ci ci' : CPObj}
    (hw : ((s.withLoss .pinf l).withInner g ci).Working o I Js ci) (hw' : ((t.withLoss .pinf l').withInner g' ci').Working o I Js ci')
    (hold : ∀ a < s.heap.next, g.mem a = s.heap.mem a) (hold' : ∀ a < t.heap.next, g'.mem a = t.heap.mem a)
    (hn1 : ci.st.nonNeg = some (P2.nonNegOption o)) (hn1' : ci'.st.nonNeg = some (P2.nonNegOption o))
    (ho1 : ci.st.orth = some (P2State.orthFlags o)) (ho1' : ci'.st.orth = some (P2State.orthFlags o))
    (hfr : ∀ j : ℕ, (P2State.orthFlags o)[j]? = some true → ∀ a, ci.addrs[j]? = some a → s.heap.next ≤ a)
    (hfr' : ∀ j : ℕ, (P2State.orthFlags o)[j]? = some true → ∀ a, ci'.addrs[j]? = some a → t.heap.next ≤ a)
    (hke : ∀ j : ℕ, (P2State.orthFlags o)[j]? = some false → ci.addrs[j]? = [s.dec.A, s.dec.blueprint, s.dec.C][j]?)
    (hke' : ∀ j : ℕ, (P2State.orthFlags o)[j]? = some false → ci'.addrs[j]? = [t.dec.A, t.dec.blueprint, t.dec.C][j]?)
    (hv : CP.orthonormalise E 0 (P2State.orthFlags o) ([s.dec.A, s.dec.blueprint, s.dec.C].map s.heap.mem) = .ok (ci.addrs.map g.mem))
    (hv' : CP.orthonormalise E 0 (P2State.orthFlags o) ([t.dec.A, t.dec.blueprint, t.dec.C].map t.heap.mem) = .ok (ci'.addrs.map g'.mem)) :
    P2State.Twin Q o I ((s.withLoss .pinf l).withInner g ci) ((t.withLoss .pinf l').withInner g' ci') ci ci' := by
  have hm : ∀ a ∈ s.dec.A :: s.dec.blueprint :: s.dec.C :: s.dec.P, g.mem a = s.heap.mem a := fun a ha => hold a (hal a ha)
  have hm' : ∀ a ∈ t.dec.A :: t.dec.blueprint :: t.dec.C :: t.dec.P, g'.mem a = t.heap.mem a := fun a ha => hold' a (hal' a ha)
  have hPs : ((s.withLoss .pinf l).withInner g ci).P = s.P := List.map_congr_left fun a ha => hm a (List.mem_cons_of_mem _ (List.mem_cons_of_mem _ (List.mem_cons_of_mem _ ha)))
  have hPt : ((t.withLoss .pinf l').withInner g' ci').P = t.P := List.map_congr_left fun a ha => hm' a (List.mem_cons_of_mem _ (List.mem_cons_of_mem _ (List.mem_cons_of_mem _ ha)))
  have hadd : ci'.addrs.map g'.mem = ci.addrs.map g.mem := by
    have e : [t.dec.A, t.dec.blueprint, t.dec.C].map t.heap.mem = [s.dec.A, s.dec.blueprint, s.dec.C].map s.heap.mem := by
      show [t.A, t.D, t.C] = [s.A, s.D, s.C]
      rw [hrot.A, hrot.D, hrot.C]
    rw [e, hv] at hv'
    exact (Except.ok.inj hv').symm
  have hAl : ∀ (j : ℕ) (a b : Addr), j < 3 → [s.dec.A, s.dec.blueprint, s.dec.C][j]? = some a →
      [t.dec.A, t.dec.blueprint, t.dec.C][j]? = some b → (ci.addrs[j]? = some a ∨ a ∉ ci.addrs) →
      (ci'.addrs[j]? = some b ∨ b ∉ ci'.addrs) → P2State.Alike j a b ci ci' := by
    intro j a b hj ha hb h1 h2
    have hol : (P2State.orthFlags o).length = 3 := by
      unfold P2State.orthFlags
      cases hq : o.orth with
      | none => rfl
      | some l => exact hA.orthLen l hq
    rcases hfl : (P2State.orthFlags o)[j]'(by omega) with _ | _
    · have hfl : (P2State.orthFlags o)[j]? = some false := by rw [List.getElem?_eq_getElem (by omega), hfl]
      exact .inl ⟨(hke j hfl).trans ha, (hke' j hfl).trans hb⟩
    · have hfl : (P2State.orthFlags o)[j]? = some true := by rw [List.getElem?_eq_getElem (by omega), hfl]
      have ha' : a ∈ s.dec.A :: s.dec.blueprint :: s.dec.C :: s.dec.P := by
        have := List.mem_of_getElem? ha
        simp only [List.mem_cons, List.not_mem_nil, or_false] at this ⊢
        tauto
      have hb' : b ∈ t.dec.A :: t.dec.blueprint :: t.dec.C :: t.dec.P := by
        have := List.mem_of_getElem? hb
        simp only [List.mem_cons, List.not_mem_nil, or_false] at this ⊢
        tauto
      refine .inr ⟨?_, ?_⟩
      · rcases h1 with h1 | h1
        · exact absurd (hal a ha') (Nat.not_lt.2 (hfr j hfl a h1))
        · exact h1
      · rcases h2 with h2 | h2
        · exact absurd (hal' b hb') (Nat.not_lt.2 (hfr' j hfl b h2))
        · exact h2
  refine ⟨hw, hw', hs.nodup, hs'.nodup, ⟨?_, ?_, ?_, hrot.X, ?_⟩, hll, rfl, hadd, by rw [hn1, hn1'], by rw [ho1, ho1'], ?_, ?_, ?_⟩
  · show g'.mem t.dec.A = g.mem s.dec.A
    rw [hm _ (by simp), hm' _ (by simp)]; exact hrot.A
  · show g'.mem t.dec.blueprint = g.mem s.dec.blueprint
    rw [hm _ (by simp), hm' _ (by simp)]; exact hrot.D
  · show g'.mem t.dec.C = g.mem s.dec.C
    rw [hm _ (by simp), hm' _ (by simp)]; exact hrot.C
  · intro k hk
    have := hrot.P k hk
    unfold P2State.Ym at this ⊢
    rw [hPs, hPt]; exact this
  · exact hAl 0 _ _ (by omega) rfl rfl hw.ready.A hw'.ready.A
  · exact hAl 1 _ _ (by omega) rfl rfl hw.ready.D hw'.ready.D
  · exact hAl 2 _ _ (by omega) rfl rfl hw.ready.C hw'.ready.C

/-- **C110.** Two fits with the same options, the slices of the second being those of the first multiplied from the right by
orthogonal matrices `q k`, and the projection matrices of its start being the correspondingly rotated ones: both fits complete after the
same number of iterations with the same `A`, blueprint matrix, `C`, loss, SSE and relative change, and the projection matrices of the
second are the rotated ones. This holds with any constraints and penalties. -/
theorem C110_parafac2 {E : Ext} (hE : E.SVDOk) (hN : E.NNLSOk) (hQR : E.QROk) {c : P2.Config} {q : ℕ → ℕ → ℕ → ℝ}
    (hq : ∀ k < Js.length, ∀ i < Js.getD k 0, ∀ j < Js.getD k 0,
      ∑ l ∈ Finset.range (Js.getD k 0), q k l i * q k l j = if i = j then 1 else 0)
    {D D' : P2Data} {arg arg' : InitArg P2Obj} {h0 h0' : Heap}
    (hi : P2.StartsFrom E c D arg h0 s) (hi' : P2.StartsFrom E c D' arg' h0' t)
    (h : s.Sized I Js c.opts.rank) (h' : t.Sized I Js c.opts.rank) (hs : s.Separate) (hs' : t.Separate)
    (hal : s.Allocated) (hal' : t.Allocated)
    (eA : t.A = s.A) (eD : t.D = s.D) (eC : t.C = s.C)
    (eX : ∀ k < Js.length, ∀ i < I, ∀ j < Js.getD k 0,
      (nth t.X k).get [i, j] = ∑ l ∈ Finset.range (Js.getD k 0), (nth s.X k).get [i, l] * q k l j)
    (eP : ∀ k < Js.length, ∀ j < Js.getD k 0, ∀ r < c.opts.rank,
      (nth t.P k).get [j, r] = ∑ l ∈ Finset.range (Js.getD k 0), q k l j * (nth s.P k).get [l, r])
    (hA : P2.Admissible c.opts I Js.length) (hlog : c.Measurable I Js) (hfreq : freqOption c.freq ≠ 0)
    {budget : Int} {mi : Option Int} {loggers loggers' : List Logger} {file file' : Option H5File}
    (hS : Storing (P2.method E c) (P2.newObject h0 budget loggers file) [])
    (hS' : Storing (P2.method E c) (P2.newObject h0' budget loggers' file') []) :
    ∃ w w', P2.fit E c D mi arg (P2.newObject h0 budget loggers file) = .ok () w ∧
      P2.fit E c D' mi arg' (P2.newObject h0' budget loggers' file') = .ok () w' ∧
      w'.it = w.it ∧ w'.st.A = w.st.A ∧ w'.st.D = w.st.D ∧ w'.st.C = w.st.C ∧
      (∀ k < Js.length, ∀ j < Js.getD k 0, ∀ r < c.opts.rank,
        (nth w'.st.P k).get [j, r] = ∑ l ∈ Finset.range (Js.getD k 0), q k l j * (nth w.st.P k).get [l, r]) ∧
      P2.sse w'.st = P2.sse w.st ∧ P2.loss c.opts w'.st = P2.loss c.opts w.st ∧ w'.st.relChange = w.st.relChange := by
  set Q : (k : ℕ) → Matrix (Fin (Js.getD k 0)) (Fin (Js.getD k 0)) ℝ := fun k => Matrix.of fun l j => q k l j with hQdef
  have hQ : ∀ k < Js.length, Q k * (Q k)ᵀ = 1 := by
    intro k hk
    refine mul_eq_one_comm.1 ?_
    ext i j
    rw [Matrix.mul_apply, Matrix.one_apply]
    have := hq k hk i i.2 j j.2
    rw [Finset.sum_range] at this
    simp only [Fin.val_inj] at this
    exact this
  obtain ⟨l, sp, w, k, el, ep, -, hfit, hk, hit, hst, hgo, hstop, -⟩ := C80_fit_completes hE hN hQR hi h hs.distinct hal hA hlog hfreq
    (mi := mi) hS
  obtain ⟨l', tp, w', k', el', ep', -, hfit', hk', hit', hst', hgo', hstop', -⟩ :=
    C80_fit_completes hE hN hQR hi' h' hs'.distinct hal' hA hlog hfreq (mi := mi) hS'
  have hrot : P2State.Rotated Q I c.opts.rank s t := by
    refine ⟨eA, eD, eC, fun k hk => ?_, fun k hk => ?_⟩
    · ext i j
      rw [Matrix.mul_apply]
      have := eX k hk i i.2 j j.2
      rw [Finset.sum_range] at this
      exact this
    · ext r j
      rw [Matrix.mul_apply]
      have := eP k hk j j.2 r r.2
      rw [Finset.sum_range] at this
      refine Eq.trans this (Finset.sum_congr rfl fun l _ => mul_comm _ _)
  have hll : l' = l := by
    have := hrot.loss hQ h h'
    rw [el, el'] at this
    exact Except.ok.inj this
  obtain ⟨g, ci, fp, hw, hold, -, hn1, ho1, hfr, hke, -, -, hv⟩ := P2State.prepareCp_ok (E := E) hQR (o := c.opts) (h.withLoss .pinf l)
    (hs.distinct.loss .pinf l) hA (fun _ => hal)
  obtain ⟨g', ci', fp', hw', hold', -, hn1', ho1', hfr', hke', -, -, hv'⟩ := P2State.prepareCp_ok (E := E) hQR (o := c.opts)
    (h'.withLoss .pinf l') (hs'.distinct.loss .pinf l') hA (fun _ => hal')
  rw [ep] at fp
  rw [ep'] at fp'
  obtain rfl := Except.ok.inj fp
  obtain rfl := Except.ok.inj fp'
  have htwin := P2State.twin_start hA hs hs' hal hal' hrot hll hw hw' hold hold' hn1 hn1' ho1 ho1' hfr hfr' hke hke' hv hv'
  have hall := htwin.orbit hE hN hQ
  have hsame : ∀ j, P2.shouldStop c.opts (P2.orbit E c.opts ((t.withLoss .pinf l').withInner g' ci') j)
      = P2.shouldStop c.opts (P2.orbit E c.opts ((s.withLoss .pinf l).withInner g ci) j) := by
    intro j
    obtain ⟨_, _, hj⟩ := hall j
    unfold P2.shouldStop
    rw [hj.relChange]
  obtain rfl : k' = k := by
    rcases lt_trichotomy k' k with hlt | heq | hlt
    · have h1 := (hgo k' hlt).2
      have h2 := hstop' (by omega)
      rw [hst', hsame, h1] at h2
      exact absurd h2 (by simp)
    · exact heq
    · have h1 := (hgo' k hlt).2
      have h2 := hstop (by omega)
      rw [hst, ← hsame, h1] at h2
      exact absurd h2 (by simp)
  obtain ⟨_, _, hk⟩ := hall k'
  rw [← hst, ← hst'] at hk
  refine ⟨w, w', hfit, hfit', by rw [hit, hit'], hk.rotated.A, hk.rotated.D, hk.rotated.C, ?_, ?_, hk.rotated.loss hQ hk.left.sized
    hk.right.sized, hk.relChange⟩
  · intro m hm j hj r hr
    have := congrFun (congrFun (hk.rotated.P m hm) ⟨r, hr⟩) ⟨j, hj⟩
    rw [Matrix.mul_apply] at this
    rw [Finset.sum_range]
    exact this.trans (Finset.sum_congr rfl fun l _ => mul_comm _ _)
  · rw [hk.left.sized.sse, hk.right.sized.sse, hk.rotated.err hQ]

/-- The slices `Xs` multiplied from the right by the matrices `q k`. -/
def turnColumns (q : ℕ → ℕ → ℕ → ℝ) (I : ℕ) (Js : List ℕ) (Xs : List (NDArray ℝ)) : List (NDArray ℝ) :=
  (List.range Js.length).map fun k =>
    ofMat I (Js.getD k 0) fun i j => ∑ l ∈ Finset.range (Js.getD k 0), (nth Xs k).get [i, l] * q k l j

/-- **C110** for `init="precomputed"`, with all hypotheses about the start discharged: the fit of the rotated slices from a
decomposition with the same `A`, blueprint matrix and `C` and rotated projection matrices. -/
theorem C110_precomputed {E : Ext} (hE : E.SVDOk) (hN : E.NNLSOk) (hQR : E.QROk) {c : P2.Config} {q : ℕ → ℕ → ℕ → ℝ}
    (hinit : c.init.toLower = "precomputed") (hfreq : c.freq = none)
    (hq : ∀ k < Js.length, ∀ i < Js.getD k 0, ∀ j < Js.getD k 0,
      ∑ l ∈ Finset.range (Js.getD k 0), q k l i * q k l j = if i = j then 1 else 0)
    {Xs : List (NDArray ℝ)} (hI : 0 < I) (hX : List.Forall₂ (fun Xk J => Xk.shape = [I, J]) Xs Js) (hK : 0 < Js.length)
    (hR : 0 < c.opts.rank) (hJ : ∀ J ∈ Js, 0 < J) {h0 h0' : Heap} {d : P2Obj}
    (sA : (h0.mem d.A).shape = [I, c.opts.rank]) (sD : (h0.mem d.blueprint).shape = [c.opts.rank, c.opts.rank])
    (sC : (h0.mem d.C).shape = [Js.length, c.opts.rank]) (sP : Factors (d.P.map h0.mem) Js c.opts.rank)
    (sP' : Factors (d.P.map h0'.mem) Js c.opts.rank)
    (hnd : (d.A :: d.blueprint :: d.C :: d.P).Nodup) (hal : ∀ a ∈ d.A :: d.blueprint :: d.C :: d.P, a < h0.next ∧ a < h0'.next)
    (eA : h0'.mem d.A = h0.mem d.A) (eD : h0'.mem d.blueprint = h0.mem d.blueprint) (eC : h0'.mem d.C = h0.mem d.C)
    (eP : ∀ k < Js.length, ∀ j < Js.getD k 0, ∀ r < c.opts.rank, (nth (d.P.map h0'.mem) k).get [j, r]
      = ∑ l ∈ Finset.range (Js.getD k 0), q k l j * (nth (d.P.map h0.mem) k).get [l, r])
    (hA : P2.Admissible c.opts I Js.length) (hlog : c.Measurable I Js) (budget : Int) (mi : Option Int) (loggers loggers' : List Logger)
    (file file' : Option H5File) :
    ∃ w w', P2.fit E c (.list Xs) mi (.tensor d) (P2.newObject h0 budget loggers file) = .ok () w ∧
      P2.fit E c (.list (turnColumns q I Js Xs)) mi (.tensor d) (P2.newObject h0' budget loggers' file') = .ok () w' ∧
      w'.it = w.it ∧ w'.st.A = w.st.A ∧ w'.st.D = w.st.D ∧ w'.st.C = w.st.C ∧
      (∀ k < Js.length, ∀ j < Js.getD k 0, ∀ r < c.opts.rank,
        (nth w'.st.P k).get [j, r] = ∑ l ∈ Finset.range (Js.getD k 0), q k l j * (nth w.st.P k).get [l, r]) ∧
      P2.sse w'.st = P2.sse w.st ∧ P2.loss c.opts w'.st = P2.loss c.opts w.st ∧ w'.st.relChange = w.st.relChange := by
  have hX' : List.Forall₂ (fun (Xk : NDArray ℝ) J => Xk.shape = [I, J]) (turnColumns q I Js Xs) Js := by
    rw [List.forall₂_iff_get]
    refine ⟨by simp [turnColumns], fun k h1 h2 => ?_⟩
    simp only [turnColumns, List.get_eq_getElem, List.getElem_map, List.getElem_range]
    rw [shape_ofMat, getD_eq_getElem' _ h2]
  obtain ⟨s, g1, g2, g3, g4, g5⟩ := p2_startsFrom_precomputed (E := E) hinit hI hX hK hR hJ sA sD sC sP
  obtain ⟨t, f1, f2, f3, f4, f5⟩ := p2_startsFrom_precomputed (E := E) hinit hI hX' hK hR hJ (h0 := h0') (d := d)
    (by rw [eA]; exact sA) (by rw [eD]; exact sD) (by rw [eC]; exact sC) sP'
  have hsP : s.P = d.P.map h0.mem := by rw [P2State.P, g3, g4]
  have htP : t.P = d.P.map h0'.mem := by rw [P2State.P, f3, f4]
  refine C110_parafac2 hE hN hQR hq g1 f1 g2 f2 (by rw [P2State.Separate, g3]; exact hnd) (by rw [P2State.Separate, f3]; exact hnd)
    (by rw [P2State.Allocated, g3, g4]; exact fun a ha => (hal a ha).1) (by rw [P2State.Allocated, f3, f4]; exact fun a ha => (hal a ha).2)
    (by rw [P2State.A, P2State.A, g3, g4, f3, f4, eA]) (by rw [P2State.D, P2State.D, g3, g4, f3, f4, eD])
    (by rw [P2State.C, P2State.C, g3, g4, f3, f4, eC]) ?_ (by rw [hsP, htP]; exact eP) hA hlog (by rw [hfreq]; decide)
    (p2_storing_none hfreq _ _) (p2_storing_none hfreq _ _)
  intro k hk i hi j hj
  rw [f5, g5, nth_lt (by simpa [turnColumns] using hk)]
  simp only [turnColumns, List.getElem_map, List.getElem_range]
  rw [get_ofMat hi hj]

/-- The matrices that reverse the order of the columns. -/
def reversal (Js : List ℕ) (k l j : ℕ) : ℝ := if l + j + 1 = Js.getD k 0 then 1 else 0

/-- The hypothesis on the matrices holds for the reversal of the columns. -/
theorem reversal_orthogonal (Js : List ℕ) : ∀ k < Js.length, ∀ i < Js.getD k 0, ∀ j < Js.getD k 0,
    ∑ l ∈ Finset.range (Js.getD k 0), reversal Js k l i * reversal Js k l j = if i = j then 1 else 0 := by
  intro k _ i hi j hj
  rw [Finset.sum_eq_single (Js.getD k 0 - 1 - i)]
  · unfold reversal
    rw [if_pos (by omega), one_mul]
    by_cases h : i = j
    · rw [if_pos (by omega), if_pos h]
    · rw [if_neg (by omega), if_neg h]
  · intro l _ hl
    unfold reversal
    rw [if_neg (by omega), zero_mul]
  · intro h
    exact absurd (Finset.mem_range.2 (by omega)) h

/-- The hypotheses of `C110_precomputed` on the start hold for two slices of two and three columns and rank one, with the columns in
reverse order. -/
example : ∃ (h0 h0' : Heap) (d : P2Obj), (h0.mem d.A).shape = [2, 1] ∧ (h0.mem d.blueprint).shape = [1, 1] ∧
    (h0.mem d.C).shape = [2, 1] ∧ Factors (d.P.map h0.mem) [2, 3] 1 ∧ Factors (d.P.map h0'.mem) [2, 3] 1 ∧
    (d.A :: d.blueprint :: d.C :: d.P).Nodup ∧ (∀ a ∈ d.A :: d.blueprint :: d.C :: d.P, a < h0.next ∧ a < h0'.next) ∧
    h0'.mem d.A = h0.mem d.A ∧ h0'.mem d.blueprint = h0.mem d.blueprint ∧ h0'.mem d.C = h0.mem d.C ∧
    (d.P.map h0'.mem ≠ d.P.map h0.mem) ∧
    ∀ k < 2, ∀ j < [2, 3].getD k 0, ∀ r < 1, (nth (d.P.map h0'.mem) k).get [j, r]
      = ∑ l ∈ Finset.range ([2, 3].getD k 0), reversal [2, 3] k l j * (nth (d.P.map h0.mem) k).get [l, r] := by
  refine ⟨⟨fun a => [full [2, 1] 1, full [1, 1] 2, full [2, 1] 3, ofMat 2 1 fun j _ => (j : ℝ), ofMat 3 1 fun j _ => (j : ℝ)].getD a (full [] 0), 5⟩,
    ⟨fun a => [full [2, 1] 1, full [1, 1] 2, full [2, 1] 3, ofMat 2 1 fun j _ => 1 - (j : ℝ), ofMat 3 1 fun j _ => 2 - (j : ℝ)].getD a (full [] 0), 5⟩,
    ⟨1, 0, 1, 2, [3, 4], false, false, [], 0⟩, rfl, rfl, rfl, ?_, ?_, by decide, by decide, rfl, rfl, rfl, ?_, ?_⟩
  · exact .cons rfl (.cons rfl .nil)
  · exact .cons rfl (.cons rfl .nil)
  · intro h
    have := congrArg (fun l => (nth l 0).get [0, 0]) h
    simp [nth, get_ofMat] at this
  · intro k hk j hj r hr
    obtain rfl : r = 0 := by omega
    interval_cases k <;> simp at hj <;> interval_cases j <;>
      simp [nth, reversal, Finset.sum_range_succ, get_ofMat] <;> norm_num

end
end TK
