import Verif.Props.Parafac2
import Verif.Lemmas.Parafac2Prepare

/-!
# PARAFAC2: iterations (C53, C55)
-/

namespace TK
open NDArray Matrix

noncomputable section

variable {s : P2State} {I R : ℕ} {Js : List ℕ}

namespace P2State

/-- The state with a new loss. -/
def withLoss (s : P2State) (r : FV) (l : ℝ) : P2State := { s with relChange := r, prevLoss := l }

@[simp] theorem withLoss_dec (s : P2State) (r : FV) (l : ℝ) : (s.withLoss r l).dec = s.dec := rfl
@[simp] theorem withLoss_P (s : P2State) (r : FV) (l : ℝ) : (s.withLoss r l).P = s.P := rfl

/-- The inner decomposer has no constraint. -/
structure Free (c : CPObj) : Prop where
  nonNeg : ∃ l, c.st.nonNeg = some l ∧ ∀ m < 3, l[m]? = some false
  orth : ∃ l, c.st.orth = some l ∧ ∀ m < 3, l[m]? = some false

/-- The loss can always be computed. -/
theorem Sized.loss {o : P2Opts} (h : s.Sized I Js R) : ∃ l, P2.loss o s = .ok l ∧ (o.ridgePenalties = none → l = s.err I Js R) := by
  rw [P2.loss, h.sse, bind_ok]
  cases hq : o.ridgePenalties with
  | none => exact ⟨_, rfl, fun _ => rfl⟩
  | some ps => exact ⟨_, rfl, by simp⟩

/-- C81: the attribute `loss` is the squared error of all slices plus, for every penalty that is given, the penalty times the
squared norm of its matrix, in the order `A`, blueprint, `C`. -/
theorem C81_loss {o : P2Opts} (h : s.Sized I Js R) :
    P2.loss o s = .ok (s.err I Js R + match o.ridgePenalties with
      | none => 0
      | some ps => ps.getD 0 0 * normSq s.A I R + ps.getD 1 0 * normSq s.D R R + ps.getD 2 0 * normSq s.C Js.length R) := by
  rw [P2.loss, h.sse, bind_ok]
  cases hq : o.ridgePenalties with
  | none => simp [pure, Except.pure]
  | some ps =>
    simp only
    refine congrArg Except.ok ?_
    have hf : Factors [s.A, s.D, s.C] [I, R, Js.length] R := .cons h.A (.cons h.D (.cons h.C .nil))
    refine (addPenalties_eq (ps := ps) (s.err I Js R) hf).trans ?_
    congr 1
    have hA : s.A.shape.getD 0 0 = I := by rw [h.A]; rfl
    have hD : s.D.shape.getD 0 0 = R := by rw [h.D]; rfl
    have hC : s.C.shape.getD 0 0 = Js.length := by rw [h.C]; rfl
    match ps with
    | [] => simp
    | [a] => simp [← hA]
    | [a, b] => simp [← hA, ← hD]
    | a :: b :: c :: ps => simp [← hA, ← hD, ← hC, add_assoc]

/-- The hypothesis of `C81_loss` holds for a single slice with rank one. -/
example : ∃ s : P2State, s.Sized 1 [1] 1 :=
  ⟨p2Single (ofMat 1 1 fun _ _ => 1) (ofMat 1 1 fun _ _ => 2) (ofMat 1 1 fun _ _ => 3) (ofMat 1 1 fun _ _ => 1)
    (ofMat 1 1 fun _ _ => 1) 1 1 1 none 0, p2Single_sized none 0 (by norm_num) (by norm_num) (by norm_num) rfl rfl rfl rfl rfl⟩

/-- The potential after the inner updates. -/
theorem pot_inner_le {E : Ext} (hE : E.SVDOk) (hN : E.NNLSOk) {o : P2Opts} (hridge : o.ridgePenalties = none) {s1 s' : P2State}
    {c c' : CPObj} {f : CPState} (h1 : s1.Sized I Js o.rank) (h' : s'.Sized I Js o.rank) (hr : s1.Ready o I Js c)
    (hd : s'.dec = s1.dec) (hX : s'.X = s1.X) (hP : s'.P = s1.P) (hsh : s1.Shares c) (hfree : Free c) (hca : c'.addrs = c.addrs)
    (ef : iterM (CP.updateFactors E (P2.innerOpts o)) o.cpUpdates
      ((c.setTarget (p2Projected s1.X s1.P I Js o.rank)).read s1.heap) = .ok f)
    (hf : c'.addrs.map s'.heap.mem = f.dec.factorMatrices) : s'.pot I Js o.rank ≤ s1.pot I Js o.rank := by
  have hsz := hr.sized h1 s1.P
  obtain ⟨f1, ef1, hsame, -⟩ := cp_iter_total hE hN (o := P2.innerOpts o) (show 0 < o.rank from h1.posR) o.cpUpdates
    ((c.setTarget (p2Projected s1.X s1.P I Js o.rank)).read s1.heap) hsz (fun m hm => by
      obtain ⟨nn, on, ridge, hc, hb⟩ := hr.config m hm
      exact ⟨nn, on, ridge, ⟨hc.nonNeg, hc.orth, hc.ridge⟩, hb⟩)
  rw [ef] at ef1
  obtain rfl : f = f1 := by injection ef1
  obtain ⟨f2, ef2, hle⟩ := cp_iter_monotone hE (o := P2.innerOpts o) hridge o.cpUpdates
    ((c.setTarget (p2Projected s1.X s1.P I Js o.rank)).read s1.heap) hsz hr.wone ⟨hfree.nonNeg, hfree.orth⟩
  rw [ef] at ef2
  obtain rfl : f = f2 := by injection ef2
  have e1 := hsh.trueSSE (p2Projected s1.X s1.P I Js o.rank) o.rank
  have e2 : f.trueSSE o.rank = sqErr (p2Projected s1.X s1.P I Js o.rank) (fun r => c.st.dec.weights.get [r])
      [s'.A, s'.D, s'.C] o.rank := by
    unfold CPState.trueSSE
    have hfX : f.X = p2Projected s1.X s1.P I Js o.rank := hsame.X
    have hfw : f.dec.weights = c.st.dec.weights := hsame.weights
    rw [hfX, hfw, ← hf, hca, hsh]
    show sqErr _ _ [s'.heap.mem s1.dec.A, s'.heap.mem s1.dec.blueprint, s'.heap.mem s1.dec.C] _ = _
    rw [← hd]; rfl
  rw [h'.pot_eq _ hr.wone, h1.pot_eq _ hr.wone, hX, hP]
  have hle : f.trueSSE o.rank ≤ ((c.setTarget (p2Projected s1.X s1.P I Js o.rank)).read s1.heap).trueSSE o.rank := hle
  rw [e1, e2] at hle
  have hc1 : ∀ k, s'.Xm I Js k = s1.Xm I Js k := fun k => by unfold Xm; rw [hX]
  have hc2 : ∀ k, s'.Ym Js o.rank k = s1.Ym Js o.rank k := fun k => by unfold Ym; rw [hP]
  simp only [hc1, hc2]
  linarith

/-- An iteration on a working state never fails and leaves a working state. The new projection matrices are those of
`NewP`, and the factor matrices of the inner decomposer are those of `cp_updates` CP updates on the projected data. -/
theorem iteration_ok {E : Ext} (hE : E.SVDOk) (hN : E.NNLSOk) {o : P2Opts} {c : CPObj} (h : s.Working o I Js c) :
    ∃ s' c' f, P2.iteration E o s = .ok s' ∧ s'.Working o I Js c' ∧ c'.addrs = c.addrs ∧ c'.st.nonNeg = c.st.nonNeg ∧
      c'.st.orth = c.st.orth ∧ s'.dec = s.dec ∧ s'.X = s.X ∧ s'.XShape = s.XShape ∧ s'.XNorm = s.XNorm ∧
      P2.loss o s' = .ok s'.prevLoss ∧ s'.relChange = FV.div (s.prevLoss - s'.prevLoss) s.prevLoss ∧
      (∀ k < Js.length, ∃ k', s.LastUse Js k k' ∧ NewP E s I Js o.rank k' (nth s'.P k)) ∧
      (iterM (CP.updateFactors E (P2.innerOpts o)) o.cpUpdates
        ((c.setTarget (p2Projected s.X s'.P I Js o.rank)).read s.heap) = .ok f ∧
        c'.addrs.map s'.heap.mem = f.dec.factorMatrices) ∧
      (∀ a, a ∉ c.addrs → a ∉ s.dec.P → s'.heap.mem a = s.heap.mem a) ∧
      s'.Contracting Js o.rank ∧
      (s.dec.P.Nodup → o.ridgePenalties = none → s.Shares c → Free c → s.Contracting Js o.rank →
        s'.pot I Js o.rank ≤ s.pot I Js o.rank + 2 * s.dropped E I Js o.rank) := by
  obtain ⟨s1, s', c', f, e1, e2, d1, d2, d3, d4, d5, d6, hs', hr', ha', hs1, a1, a2, a3, a4, a5, a6, a7, hnew, hP, ef, hf, n1, n2,
    m1, m2⟩ := updateFactors_ok hE hN h.sized h.apart h.ready
  obtain ⟨l, el, hl⟩ := hs'.loss (o := o)
  have hadd : c.addrs.map s1.heap.mem = c.addrs.map s.heap.mem := read_congr fun a ha => m2 a (h.ready.apart a ha)
  have hread : (c.setTarget (p2Projected s.X s1.P I Js o.rank)).read s1.heap
      = (c.setTarget (p2Projected s.X s1.P I Js o.rank)).read s.heap := by
    unfold CPObj.read
    show ({ (c.setTarget _).st with dec := { (c.setTarget _).st.dec with factorMatrices := c.addrs.map s1.heap.mem } } : CPState) = _
    rw [hadd]; rfl
  have hY1 : ∀ k < Js.length, LA.Contr (s1.Ym Js o.rank k) := by
    intro k hk
    obtain ⟨k', hl, hk'⟩ := hnew k hk
    have := newP_contr hE h.sized hl.lt hk'
    rw [hl.size h.sized hk] at this
    exact this
  have hcon : s'.Contracting Js o.rank := by
    intro k hk
    have : s'.Ym Js o.rank k = s1.Ym Js o.rank k := by unfold Ym; rw [hP]
    rw [this]; exact hY1 k hk
  refine ⟨s'.withLoss (FV.div (s.prevLoss - l) s.prevLoss) l, c', f, ?_, ⟨⟨hs'.posI, hs'.posR, hs'.posJ, hs'.posK, hs'.X,
    hs'.xshape, hs'.A, hs'.D, hs'.C, hs'.P⟩, ?_, ⟨hr'.inner, hr'.nodup, hr'.apart, hr'.factors, hr'.rank, hr'.wshape, hr'.wone,
    hr'.config, hr'.A, hr'.D, hr'.C⟩⟩, ha', n1, n2, d1, d2, d3, d4, el, rfl, ?_, ⟨?_, hf⟩, ?_, hcon, ?_⟩
  · rw [P2.iteration, e2, bind_ok, P2.updateConvergence, el, bind_ok, ← d6]; rfl
  · exact ⟨by rw [withLoss_dec, d1]; exact h.apart.A,
      by rw [withLoss_dec, d1]; exact h.apart.D,
      by rw [withLoss_dec, d1]; exact h.apart.C⟩
  · intro k hk
    rw [withLoss_P, hP]
    exact hnew k hk
  · rw [withLoss_P, hP, ← hread]; exact ef
  · intro a h1 h2
    show s'.heap.mem a = _
    rw [m1 a h1, m2 a h2]
  · intro hnd hridge hsh hfree hc
    have hsh1 : s1.Shares c := by unfold Shares; rw [a1]; exact hsh
    rw [← a2] at ef
    have b1 : s'.pot I Js o.rank ≤ s1.pot I Js o.rank :=
      pot_inner_le hE hN hridge hs1 hs' a4 (by rw [d1, a1]) (by rw [d2, a2]) hP hsh1 hfree ha' ef hf
    have b2 : s1.pot I Js o.rank ≤ s.pot I Js o.rank + 2 * s.dropped E I Js o.rank := by
      rw [pot, pot, dropped, Finset.mul_sum, ← Finset.sum_add_distrib]
      refine Finset.sum_le_sum fun k hk => ?_
      have hk := Finset.mem_range.1 hk
      have e3 : s1.Mm I o.rank k = s.Mm I o.rank k := by unfold Mm; rw [a5, a6, a7]
      have e4 : s1.Xm I Js k = s.Xm I Js k := by unfold Xm; rw [a2]
      rw [e3, e4]
      obtain ⟨k', hl, hk'⟩ := hnew k hk
      obtain rfl := hl.eq_of_nodup hnd h.sized.lenP hk
      exact newP_bound hE h.sized hk hk' (hc k' hk)
    exact b1.trans b2

theorem Free.of_eq {c c' : CPObj} (h : Free c) (h1 : c'.st.nonNeg = c.st.nonNeg) (h2 : c'.st.orth = c.st.orth) : Free c' :=
  ⟨by rw [h1]; exact h.nonNeg, by rw [h2]; exact h.orth⟩

end P2State

/-! ### C53 -/

/-- **C53, what holds.** One iteration without constraints and penalties, from orthonormal projection matrices, does not
increase the SSE by more than twice the sum of the singular values that the projection update treats as zero (relative size
at most `10⁻¹⁶`, see `C52_dropped_le`). The new loss is the SSE after the iteration. Missing: the claim without that term,
which is false (`C53_sse_increases`). -/
theorem C53_iteration_partial {E : Ext} (hE : E.SVDOk) (hN : E.NNLSOk) {o : P2Opts} (hridge : o.ridgePenalties = none) {c : CPObj}
    (h : s.Working o I Js c) (hnd : s.dec.P.Nodup) (hsh : s.Shares c) (hfree : P2State.Free c) (ho : s.Orthonormal Js o.rank) :
    ∃ s', P2.iteration E o s = .ok s' ∧ P2.sse s' = .ok (s'.err I Js o.rank) ∧ s'.prevLoss = s'.err I Js o.rank ∧
      s'.err I Js o.rank ≤ s.err I Js o.rank + 2 * s.dropped E I Js o.rank := by
  obtain ⟨s', c', f, e, hw, -, -, -, -, -, -, -, hl, -, -, -, -, hc, hp⟩ := P2State.iteration_ok hE hN h
  obtain ⟨l, el, hl'⟩ := hw.sized.loss (o := o)
  rw [hl] at el
  have : s'.prevLoss = l := by injection el
  refine ⟨s', e, hw.sized.sse, this.trans (hl' hridge), hc.err_le.trans ?_⟩
  rw [← ho.err_eq_pot]
  exact hp hnd hridge hsh hfree ho.contracting

/-- **C53** when no singular value is treated as zero: the SSE does not increase, and the projection matrices are orthonormal
again. -/
theorem C53_full_rank_partial {E : Ext} (hE : E.SVDOk) (hN : E.NNLSOk) {o : P2Opts} (hridge : o.ridgePenalties = none)
    {c : CPObj} (h : s.Working o I Js c) (hnd : s.dec.P.Nodup) (hsh : s.Shares c) (hfree : P2State.Free c) (ho : s.Orthonormal Js o.rank)
    (hJ : ∀ J ∈ Js, o.rank ≤ J) (hk : ∀ k < Js.length, s.KeepsAll E I Js o.rank k) :
    ∃ s' c', P2.iteration E o s = .ok s' ∧ s'.Working o I Js c' ∧ s'.Shares c' ∧ P2State.Free c' ∧ s'.Orthonormal Js o.rank ∧
      s'.err I Js o.rank ≤ s.err I Js o.rank := by
  obtain ⟨s', c', f, e, hw, ha, hn, hn', hd, -, -, -, -, -, hnew, -, -, hc, hp⟩ := P2State.iteration_ok hE hN h
  refine ⟨s', c', e, hw, ?_, hfree.of_eq hn hn', ?_, hc.err_le.trans ?_⟩
  · unfold P2State.Shares; rw [ha, hd]; exact hsh
  · intro k hk'
    have hRJ : o.rank ≤ Js.getD k 0 := by rw [getD_eq_getElem' _ hk']; exact hJ _ (List.getElem_mem hk')
    obtain ⟨k', hl, hn⟩ := hnew k hk'
    obtain rfl := hl.eq_of_nodup hnd h.sized.lenP hk'
    exact (newP_orthonormal_iff hE h.sized hk' hn hRJ).2 (hk _ hk')
  · rw [← ho.err_eq_pot]
    have := hp hnd hridge hsh hfree ho.contracting
    rwa [dropped_of_keepsAll hk, mul_zero, add_zero] at this

/-! ### Any number of iterations -/

/-- The state after `j` iterations (an iteration that would raise leaves the state as it is; by `p2_orbit_step` this does not
happen). -/
def P2.orbit (E : Ext) (o : P2Opts) (s : P2State) : ℕ → P2State
  | 0 => s
  | j + 1 => match P2.iteration E o (P2.orbit E o s j) with
    | .ok s' => s'
    | .error _ => P2.orbit E o s j

theorem p2_orbit_working {E : Ext} (hE : E.SVDOk) (hN : E.NNLSOk) {o : P2Opts} {c : CPObj} (h : s.Working o I Js c) :
    ∀ j, ∃ c', (P2.orbit E o s j).Working o I Js c' ∧ c'.addrs = c.addrs ∧ c'.st.nonNeg = c.st.nonNeg ∧
      c'.st.orth = c.st.orth ∧ (P2.orbit E o s j).dec = s.dec ∧ (P2.orbit E o s j).X = s.X ∧
      (∀ a, a ∉ c.addrs → a ∉ s.dec.P → (P2.orbit E o s j).heap.mem a = s.heap.mem a)
  | 0 => ⟨c, h, rfl, rfl, rfl, rfl, rfl, fun _ _ _ => rfl⟩
  | j + 1 => by
    obtain ⟨c1, h1, h2, h3, h4, h5, h6, h7⟩ := p2_orbit_working hE hN h j
    obtain ⟨s', c', f, e, hw, ha, hn, hn', hd, hX, -, -, -, -, -, -, hm, -⟩ := P2State.iteration_ok hE hN h1
    rw [P2.orbit, e]
    refine ⟨c', hw, ha.trans h2, hn.trans h3, hn'.trans h4, hd.trans h5, hX.trans h6, fun a ha1 ha2 => ?_⟩
    simp only
    rw [hm a (by rw [h2]; exact ha1) (by rw [h5]; exact ha2), h7 a ha1 ha2]

theorem p2_orbit_step {E : Ext} (hE : E.SVDOk) (hN : E.NNLSOk) {o : P2Opts} {c : CPObj} (h : s.Working o I Js c) (j : ℕ) :
    P2.iteration E o (P2.orbit E o s j) = .ok (P2.orbit E o s (j + 1)) := by
  obtain ⟨c', h1, -⟩ := p2_orbit_working hE hN h j
  obtain ⟨s', -, -, e, -⟩ := P2State.iteration_ok hE hN h1
  rw [P2.orbit, e]

/-- **C53**, any number of iterations: the SSE after `n` iterations is at most that at the start plus twice the singular values
treated as zero on the way. -/
theorem C53_trajectory_partial {E : Ext} (hE : E.SVDOk) (hN : E.NNLSOk) {o : P2Opts} (hridge : o.ridgePenalties = none)
    {c : CPObj} (h : s.Working o I Js c) (hnd : s.dec.P.Nodup) (hsh : s.Shares c) (hfree : P2State.Free c) (ho : s.Orthonormal Js o.rank) (n : ℕ) :
    P2.sse (P2.orbit E o s n) = .ok ((P2.orbit E o s n).err I Js o.rank) ∧
      (P2.orbit E o s n).err I Js o.rank ≤
        s.err I Js o.rank + 2 * ∑ i ∈ Finset.range n, (P2.orbit E o s i).dropped E I Js o.rank := by
  have inv : ∀ n, (P2.orbit E o s n).Contracting Js o.rank ∧
      (P2.orbit E o s n).pot I Js o.rank ≤
        s.pot I Js o.rank + 2 * ∑ i ∈ Finset.range n, (P2.orbit E o s i).dropped E I Js o.rank := by
    intro n
    induction n with
    | zero => exact ⟨ho.contracting, by simp [P2.orbit]⟩
    | succ n ih =>
      obtain ⟨c', h1, h2, h3, h4, h5, -⟩ := p2_orbit_working hE hN h n
      obtain ⟨s', -, -, e, -, -, -, -, -, -, -, -, -, -, -, -, -, hc, hp⟩ := P2State.iteration_ok hE hN h1
      rw [p2_orbit_step hE hN h n] at e
      obtain rfl : P2.orbit E o s (n + 1) = s' := by injection e
      refine ⟨hc, ?_⟩
      have := hp (by rw [h5]; exact hnd) hridge (by unfold P2State.Shares; rw [h2, h5]; exact hsh) (hfree.of_eq h3 h4) ih.1
      rw [Finset.sum_range_succ]
      linarith [ih.2]
  obtain ⟨c', h1, -⟩ := p2_orbit_working hE hN h n
  refine ⟨h1.sized.sse, (inv n).1.err_le.trans ?_⟩
  rw [← ho.err_eq_pot]
  exact (inv n).2

/-! #### Non-vacuity, and where C53 fails -/

/-- Options without constraints and penalties. -/
def p2Plain (R n : ℕ) (g : List ℕ → ℝ) : P2Opts := ⟨R, 1e-8, n, none, none, none, g⟩

theorem p2Plain_admissible {R n : ℕ} {g : List ℕ → ℝ} (hR : 0 < R) {I K : ℕ} (hI : 0 < I) (hK : 0 < K) :
    CP.Admissible (P2.innerOpts (p2Plain R n g)) (some (P2.nonNegOption (p2Plain R n g))) (p2Plain R n g).orth [I, R, K] where
  rank := hR
  order := by simp
  nonempty := by simp; omega
  nonNegLen := by simp [P2.nonNegOption, p2Plain]
  orthLen := by simp [p2Plain]
  ridgeLen := by simp [P2.innerOpts, p2Plain]
  orthRows := by simp [p2Plain]
  notBoth := by simp [p2Plain]

theorem p2Plain_flags (R n : ℕ) (g : List ℕ → ℝ) : ∀ j : ℕ, (P2State.orthFlags (p2Plain R n g))[j]? ≠ some true := by
  intro j
  simp only [P2State.orthFlags, p2Plain, Option.getD_none]
  match j with
  | 0 => simp
  | 1 => simp
  | 2 => simp
  | _ + 3 => simp

/-- Without constraints, the set-up of the inner decomposer leads to the situation of `C53_iteration_partial`. -/
theorem p2Plain_prepare {E : Ext} (hQ : E.QROk) {n : ℕ} {g : List ℕ → ℝ} (h : s.Sized I Js R) (hs : s.Separate) :
    ∃ c, P2.prepareCp E (p2Plain R n g) s = .ok (s.withInner s.heap c) ∧
      (s.withInner s.heap c).Working (p2Plain R n g) I Js c ∧ (s.withInner s.heap c).Shares c ∧ P2State.Free c := by
  obtain ⟨h', c, e, hw, -, -, hn, ho, -, -, hsh, -⟩ := P2State.prepareCp_ok (E := E) hQ (o := p2Plain R n g) h hs.distinct
    (p2Plain_admissible h.posR h.posI h.posK) (fun ⟨j, hj⟩ => absurd hj (p2Plain_flags R n g j))
  obtain ⟨rfl, h3⟩ := hsh (p2Plain_flags R n g)
  refine ⟨c, e, hw, h3, ⟨_, hn, ?_⟩, ⟨_, ho, ?_⟩⟩ <;>
  · intro m hm
    simp only [P2.nonNegOption, P2State.orthFlags, p2Plain, Option.getD_none]
    interval_cases m <;> simp

/-- **C53, refuted**: an iteration with any number of inner updates increases the SSE, although the projection matrices are
orthonormal, and there are no constraints and no penalties. -/
theorem C53_sse_increases {E : Ext} (hE : E.SVDOk) (hN : E.NNLSOk) (hQ : E.QROk) (n : ℕ) (g : List ℕ → ℝ) :
    ∃ s0 s1 s2 : P2State, s0.Sized 2 [2] 2 ∧ s0.Separate ∧ s0.Orthonormal [2] 2 ∧
      P2.prepareCp E (p2Plain 2 n g) s0 = .ok s1 ∧ P2.sse s1 = .ok (s1.err 2 [2] 2) ∧
      P2.iteration E (p2Plain 2 n g) s1 = .ok s2 ∧ P2.sse s2 = .ok (s2.err 2 [2] 2) ∧ s1.err 2 [2] 2 < s2.err 2 [2] 2 := by
  have hsep : (p2Thin none 0).Separate := by simp [P2State.Separate, p2Thin, p2Single]
  obtain ⟨c, e, hw, hsh, hfree⟩ := p2Plain_prepare (E := E) hQ (n := n) (g := g) (p2Thin_sized none 0) hsep
  obtain ⟨s', c', f, e', hw', -, -, -, -, hX, -, -, -, -, hnew, -⟩ := P2State.iteration_ok hE hN hw
  refine ⟨_, _, s', p2Thin_sized none 0, hsep, p2Thin_orthonormal none 0, e, hw.sized.sse, e', hw'.sized.sse,
    lt_of_lt_of_le (p2Thin_err (some c) 0) ?_⟩
  rw [P2State.err_eq]
  show 1 ≤ ∑ k ∈ Finset.range 1, _
  rw [Finset.sum_range_one]
  have hX' : @Eq (Matrix (Fin 2) (Fin 2) ℝ) (s'.Xm 2 [2] 0) 1 := by
    unfold P2State.Xm
    rw [hX]
    exact p2Thin_Xm (some c) 0
  obtain ⟨k', hl, hn'⟩ := hnew 0 (by simp)
  obtain rfl : k' = 0 := by have := hl.lt; simpa using this
  have := p2Thin_new hE (some c) 0 hn' (s'.Mm 2 2 0)
  rw [← hX'] at this
  exact this

/-- The hypotheses of `C53_iteration_partial` hold for a state with two slices of different sizes. -/
example {E : Ext} (hQ : E.QROk) : ∃ (s : P2State) (c : CPObj), s.Working (p2Plain 1 3 fun _ => 0) 2 [1, 2] c ∧ s.dec.P.Nodup ∧ s.Shares c ∧
    P2State.Free c ∧ s.Orthonormal [1, 2] 1 := by
  let s0 : P2State :=
    { heap := ⟨fun a => if a = 0 then full [2, 1] 3 else if a = 1 then full [1, 1] 1 else if a = 2 then full [2, 1] 1
          else if a = 3 then ofMat 1 1 (fun _ _ => 1) else ofMat 2 1 fun i _ => if i = 0 then 1 else 0, 5⟩
      dec := ⟨1, 0, 1, 2, [3, 4], true, true, [(2, 1), (2, 2)], 3⟩
      X := [full [2, 1] 1, full [2, 2] 5]
      XShape := (2, [1, 2], 2)
      XNorm := 0
      inner := none
      relChange := .pinf
      prevLoss := 0 }
  have h0 : s0.Sized 2 [1, 2] 1 := ⟨by norm_num, by norm_num, by simp, by simp, .cons rfl (.cons rfl .nil), rfl, rfl, rfl, rfl,
    .cons rfl (.cons rfl .nil)⟩
  obtain ⟨c, -, h1, h2, h3⟩ := p2Plain_prepare (E := E) hQ (n := 3) (g := fun _ => 0) h0
    (by simp [P2State.Separate, s0])
  refine ⟨_, c, h1, by show [3, 4].Nodup; simp, h2, h3, ?_⟩
  intro k hk i hi j hj
  have hk : k < 2 := by simpa using hk
  obtain rfl : i = 0 := by omega
  obtain rfl : j = 0 := by omega
  interval_cases k
  · show ∑ l ∈ Finset.range 1, (ofMat 1 1 fun _ _ => (1 : ℝ)).get [l, 0] * (ofMat 1 1 fun _ _ => (1 : ℝ)).get [l, 0] = _
    rw [Finset.sum_range_one, get_ofMat (by norm_num) (by norm_num)]
    norm_num
  · show ∑ l ∈ Finset.range 2, (ofMat 2 1 fun i _ => if i = 0 then (1 : ℝ) else 0).get [l, 0]
      * (ofMat 2 1 fun i _ => if i = 0 then (1 : ℝ) else 0).get [l, 0] = _
    rw [Finset.sum_range_succ, Finset.sum_range_one, get_ofMat (by norm_num) (by norm_num), get_ofMat (by norm_num) (by norm_num)]
    norm_num

/-! ### C55: the results of the inner decomposer -/

/-- The factor matrices of the inner decomposer. -/
def P2State.innerFactors (s : P2State) : Option (List (NDArray ℝ)) := s.inner.map fun c => c.addrs.map s.heap.mem

/-- **C55, what holds.** For every admissible pattern of constraints and after any number of iterations, the factor matrices
of the decomposition are those of the inner decomposer in all modes without an orthonormality constraint. In the modes with
one, the decomposition keeps the matrix it had before the fit. In each iteration the factor matrices of the inner decomposer
become the result of `cp_updates` CP updates on the projected data. Missing: the modes with an orthonormality constraint, for
which the claim is false (`C55_orthonormal_fails`). -/
theorem C55_shared_partial {E : Ext} (hE : E.SVDOk) (hN : E.NNLSOk) (hQ : E.QROk) {o : P2Opts} (h : s.Sized I Js o.rank)
    (hs : s.Distinct) (hA : CP.Admissible (P2.innerOpts o) (some (P2.nonNegOption o)) o.orth [I, o.rank, Js.length])
    (hal : s.Allocated) :
    ∃ t : ℕ → P2State, P2.prepareCp E o s = .ok (t 0) ∧ (∀ n, P2.iteration E o (t n) = .ok (t (n + 1))) ∧
      ∀ n, ∃ Fs, (t n).innerFactors = some Fs ∧
        (∀ j < 3, (P2State.orthFlags o)[j]? = some false → Fs[j]? = [(t n).A, (t n).D, (t n).C][j]?) ∧
        (∀ j < 3, (P2State.orthFlags o)[j]? = some true → [(t n).A, (t n).D, (t n).C][j]? = [s.A, s.D, s.C][j]?) ∧
        ∃ u f, iterM (CP.updateFactors E (P2.innerOpts o)) o.cpUpdates u = .ok f ∧ u.dec.factorMatrices = Fs ∧
          u.X = p2Projected s.X (t (n + 1)).P I Js o.rank ∧ (t (n + 1)).innerFactors = some f.dec.factorMatrices := by
  obtain ⟨h', c, e, hw, hold, -, hn, ho, hnew, hkeep, -, -⟩ := P2State.prepareCp_ok (E := E) hQ h hs hA (fun _ => hal)
  set s0 := s.withInner h' c with hs0
  refine ⟨P2.orbit E o s0, e, p2_orbit_step hE hN hw, fun n => ?_⟩
  obtain ⟨c', h1, h2, h3, h4, h5, h6, h7⟩ := p2_orbit_working hE hN hw n
  obtain ⟨s', c'', f, e', hw', ha', -, -, -, -, -, -, -, -, -, ⟨ef, hf⟩, -⟩ := P2State.iteration_ok hE hN h1
  rw [p2_orbit_step hE hN hw n] at e'
  have e' : P2.orbit E o s0 (n + 1) = s' := by injection e'
  subst e'
  set u := P2.orbit E o s0 n with hu
  have hd : u.dec = s.dec := h5
  have hlist : [u.A, u.D, u.C] = [s.dec.A, s.dec.blueprint, s.dec.C].map u.heap.mem := by
    unfold P2State.A P2State.D P2State.C
    rw [hd]; rfl
  refine ⟨c'.addrs.map u.heap.mem, by rw [P2State.innerFactors, h1.ready.inner]; rfl, ?_, ?_, _, f, ef, rfl, ?_, ?_⟩
  · intro j _ hj
    rw [List.getElem?_map, h2, hkeep j hj, hlist, List.getElem?_map]
  · intro j hj3 hj
    -- the array is not used by the inner decomposer
    have hlen : c.addrs.length = 3 := by simpa using hw.ready.factors.length_eq
    have hcj : ∃ b, c.addrs[j]? = some b := ⟨_, List.getElem?_eq_getElem (by omega)⟩
    obtain ⟨b, hb⟩ := hcj
    have hbn := hnew j hj b hb
    have hfro : ∀ a ∈ [s.dec.A, s.dec.blueprint, s.dec.C], (c.addrs[j]? = some a ∨ a ∉ c.addrs) → a ∉ s.dec.P →
        u.heap.mem a = s.heap.mem a := by
      intro a ha hor haP
      have hlt : a < s.heap.next := hal a (by
        simp only [List.mem_cons, List.not_mem_nil, or_false] at ha
        rcases ha with rfl | rfl | rfl <;> simp)
      have hna : a ∉ c.addrs := by
        rcases hor with hor | hor
        · rw [hb] at hor
          have : b = a := by injection hor
          subst this
          exact absurd hlt (not_lt.2 hbn)
        · exact hor
      rw [h7 a hna haP]
      exact hold a hlt
    have hap := hs.apart
    interval_cases j
    · simp only [List.getElem?_cons_zero, Option.some.injEq]
      unfold P2State.A
      rw [hd]; exact hfro _ (by simp) hw.ready.A hap.A
    · simp only [List.getElem?_cons_succ, List.getElem?_cons_zero, Option.some.injEq]
      unfold P2State.D
      rw [hd]; exact hfro _ (by simp) hw.ready.D hap.D
    · simp only [List.getElem?_cons_succ, List.getElem?_cons_zero, Option.some.injEq]
      unfold P2State.C
      rw [hd]; exact hfro _ (by simp) hw.ready.C hap.C
  · show p2Projected u.X _ I Js o.rank = _
    rw [h6]; rfl
  · rw [P2State.innerFactors, hw'.ready.inner, Option.map_some, hf]

theorem LA.Contr.entry_le {r m : Type*} [Fintype r] [Fintype m] [DecidableEq r] {Y : Matrix r m ℝ} (h : LA.Contr Y) (i : r) (j : m) :
    |Y i j| ≤ 1 := by
  have h1 := h (Pi.single i 1)
  have h2 : ∀ j, ∑ i', (Pi.single i (1 : ℝ) : r → ℝ) i' * Y i' j = Y i j := fun j => by
    simp [Pi.single_apply]
  have h3 : ∑ i', (Pi.single i (1 : ℝ) : r → ℝ) i' ^ 2 = 1 := by
    rw [Finset.sum_eq_single i]
    · simp
    · intro b _ hb
      simp [Pi.single_apply, hb]
    · simp
  simp only [h2, h3] at h1
  have h4 : Y i j ^ 2 ≤ 1 := (Finset.single_le_sum (f := fun j => Y i j ^ 2) (fun j _ => sq_nonneg _) (Finset.mem_univ j)).trans h1
  exact abs_le_one_iff_mul_self_le_one.2 (by nlinarith)

/-- The matrices found by `orthogonal_rightsolve` have no entry larger than one. -/
theorem orthogonalRightsolve_le {E : Ext} (hE : E.SVDOk) {A B F : NDArray ℝ} {r m : ℕ} (hA : A.shape = [r, r])
    (hB : B.shape = [m, r]) (hr : 0 < r) (hm : 0 < m) (e : orthogonalRightsolve E A B = .ok F) :
    ∀ i < m, ∀ j < r, |F.get [i, j]| ≤ 1 := by
  obtain ⟨C, U, S, Vh, X, -, -, -, hsvd, eX, sX, mX⟩ := orthogonalSolve_mat hE (shape_T hA) (shape_T hB) hr hm
  rw [orthogonalRightsolve, eX, bind_ok] at e
  obtain rfl : X.T = F := by injection e
  intro i hi j hj
  rw [get_T sX hi hj]
  have hc : LA.Contr (mat X r m) := by
    rw [mX]
    refine LA.contr_procrustes hsvd.svd.left hsvd.svd.right fun i => ?_
    unfold keepVec
    split <;> simp
  exact LA.Contr.entry_le hc ⟨j, hj⟩ ⟨i, hi⟩

/-- Every entry of the factor matrix of mode `m` is at most one. -/
def EntriesLe (fs : List (NDArray ℝ)) (m n R : ℕ) : Prop :=
  ∀ F, fs[m]? = some F → ∀ i < n, ∀ r < R, |F.get [i, r]| ≤ 1

theorem cp_updateModes_le {E : Ext} (hE : E.SVDOk) (hN : E.NNLSOk) {o : CPOpts} (hr : 0 < o.rank) (hridge : o.ridgePenalties = none)
    {m : ℕ} : ∀ (modes : List ℕ) (s s' : CPState), s.Sized o.rank → m < s.X.shape.length →
      (∀ m < s.X.shape.length, ∃ nn on ridge, s.ModeConfig o m nn on ridge ∧ ¬ (nn = true ∧ on = true)) →
      (∃ l, s.orth = some l ∧ l[m]? = some true) → (∀ m ∈ modes, m < s.X.shape.length) →
      EntriesLe s.dec.factorMatrices m (s.X.shape.getD m 0) o.rank → CP.updateModes E o modes s = .ok s' →
      EntriesLe s'.dec.factorMatrices m (s.X.shape.getD m 0) o.rank
  | [], s, s', _, _, _, _, _, hb, e => by
    obtain rfl : s = s' := by
      have : CP.updateModes E o [] s = .ok s := rfl
      rw [this] at e; injection e
    exact hb
  | k :: ks, s, s', h, hm, hcfg, hor, hmodes, hb, e => by
    have hk := hmodes k (by simp)
    obtain ⟨nn, on, ridge, hc, hbo⟩ := hcfg k hk
    obtain ⟨F, eF, hF, hu⟩ := updateFactor_total hE hN h hr hk hc hbo
    rw [CP.updateModes, List.foldlM_cons, hu, bind_ok] at e
    refine cp_updateModes_le hE hN hr hridge ks (s.updated k o.rank F) s' (h.updated hF) hm
      (fun m hm => by
        obtain ⟨nn, on, ridge, hc, hb⟩ := hcfg m hm
        exact ⟨nn, on, ridge, ⟨hc.nonNeg, hc.orth, hc.ridge⟩, hb⟩) hor
      (fun m hm => hmodes m (by simp [hm])) ?_ e
    intro G hG i hi r hr'
    have hset : (s.updated k o.rank F).dec.factorMatrices = s.dec.factorMatrices.set k F := rfl
    rw [hset, List.getElem?_set] at hG
    by_cases hkm : k = m
    · subst hkm
      have hkl : k < s.dec.factorMatrices.length := by rw [h.wf.factors.length_eq]; exact hk
      rw [if_pos rfl, if_pos hkl] at hG
      obtain rfl : F = G := by injection hG
      obtain ⟨l, hl, hlt⟩ := hor
      obtain ⟨l', hl', hlt'⟩ := hc.orth
      rw [hl] at hl'
      obtain rfl : l = l' := by injection hl'
      rw [hlt] at hlt'
      obtain rfl : true = on := by injection hlt'
      rcases hc.ridge with ⟨-, rfl⟩ | ⟨ps, l, hps, -⟩
      · simp only [withRidge, baseSolve, if_true] at eF
        exact orthogonalRightsolve_le hE (shape_ofMat _ _ _) (shape_ofMat _ _ _) hr (Nat.pos_of_ne_zero (h.dim hk)) eF i hi r hr'
      · rw [hridge] at hps; simp at hps
    · rw [if_neg hkm] at hG
      exact hb G hG i hi r hr'

theorem cp_iter_le {E : Ext} (hE : E.SVDOk) (hN : E.NNLSOk) {o : CPOpts} (hr : 0 < o.rank) (hridge : o.ridgePenalties = none)
    {m : ℕ} : ∀ (n : ℕ) (s s' : CPState), s.Sized o.rank → m < s.X.shape.length →
      (∀ m < s.X.shape.length, ∃ nn on ridge, s.ModeConfig o m nn on ridge ∧ ¬ (nn = true ∧ on = true)) →
      (∃ l, s.orth = some l ∧ l[m]? = some true) →
      EntriesLe s.dec.factorMatrices m (s.X.shape.getD m 0) o.rank → iterM (CP.updateFactors E o) n s = .ok s' →
      EntriesLe s'.dec.factorMatrices m (s.X.shape.getD m 0) o.rank
  | 0, s, s', _, _, _, _, hb, e => by
    obtain rfl : s = s' := by rw [iterM] at e; injection e
    exact hb
  | n + 1, s, s', h, hm, hcfg, hor, hb, e => by
    obtain ⟨s1, e1, h1, h2⟩ := cp_updateModes_total hE hN hr (List.range s.X.shape.length) s h hcfg (by simp)
    have hb1 := cp_updateModes_le hE hN hr hridge _ s s1 h hm hcfg hor (by simp) hb e1
    rw [iterM, CP.updateFactors, e1, bind_ok] at e
    rw [← h1.X]
    refine cp_iter_le hE hN hr hridge n s1 s' h2 (by rw [h1.X]; exact hm) (fun m hm => by
        rw [h1.X] at hm
        obtain ⟨nn, on, ridge, hc, hb⟩ := hcfg m hm
        exact ⟨nn, on, ridge, ⟨by rw [h1.nonNeg]; exact hc.nonNeg, by rw [h1.orth]; exact hc.orth, hc.ridge⟩, hb⟩)
      (by rw [h1.orth]; exact hor) (by rw [h1.X]; exact hb1) e

/-- **C55, refuted**: if mode `j` has an orthonormality constraint and the initial matrix of this mode has an entry larger
than one, then the factor matrix of the decomposition differs from that of the inner decomposer from the start and after every
number of iterations. (The decomposition keeps its initial matrix, whatever the inner decomposer finds.) -/
theorem C55_orthonormal_fails {E : Ext} (hE : E.SVDOk) (hN : E.NNLSOk) (hQ : E.QROk) {o : P2Opts} (h : s.Sized I Js o.rank)
    (hs : s.Distinct) (hA : CP.Admissible (P2.innerOpts o) (some (P2.nonNegOption o)) o.orth [I, o.rank, Js.length])
    (hal : s.Allocated) (hridge : o.ridgePenalties = none) {j : ℕ} (hj : (P2State.orthFlags o)[j]? = some true) (hj3 : j < 3)
    {F : NDArray ℝ} (hF : [s.A, s.D, s.C][j]? = some F) {i r : ℕ} (hi : i < [I, o.rank, Js.length].getD j 0) (hr : r < o.rank)
    (hbig : 1 < |F.get [i, r]|) :
    ∃ t : ℕ → P2State, P2.prepareCp E o s = .ok (t 0) ∧ (∀ n, P2.iteration E o (t n) = .ok (t (n + 1))) ∧
      ∀ n, ∃ Fs, (t n).innerFactors = some Fs ∧ [(t n).A, (t n).D, (t n).C][j]? = some F ∧ Fs[j]? ≠ some F := by
  obtain ⟨t, e0, e1, ht⟩ := C55_shared_partial hE hN hQ h hs hA hal
  obtain ⟨h', c, e, hw, -, -, hn, ho, -, -, -, horth, -⟩ := P2State.prepareCp_ok (E := E) hQ h hs hA (fun _ => hal)
  rw [e0] at e
  have hlen : c.addrs.length = 3 := by simpa using hw.ready.factors.length_eq
  have ht0 : t 0 = s.withInner h' c := by injection e
  have horb : ∀ n, t n = P2.orbit E o (t 0) n := by
    intro n
    induction n with
    | zero => rfl
    | succ n ih =>
      have := e1 n
      rw [ih, ht0, p2_orbit_step hE hN hw n] at this
      rw [ht0]; injection this with this
      exact this.symm
  have inv : ∀ n, ∃ c', (t n).Working o I Js c' ∧ c'.st.orth = some (P2State.orthFlags o) ∧
      EntriesLe (c'.addrs.map (t n).heap.mem) j ([I, o.rank, Js.length].getD j 0) o.rank := by
    intro n
    induction n with
    | zero =>
      refine ⟨c, by rw [ht0]; exact hw, ho, ?_⟩
      intro G hG i hi r hr
      rw [ht0, List.getElem?_map] at hG
      obtain ⟨a, ha⟩ : ∃ a, c.addrs[j]? = some a := ⟨_, List.getElem?_eq_getElem (by omega)⟩
      rw [ha] at hG
      obtain rfl : h'.mem a = G := by injection hG
      have hoc := orthoCols_iff.1 (horth j hj a ha)
      have hcon : LA.Contr (mat (h'.mem a) ([I, o.rank, Js.length].getD j 0) o.rank)ᵀ :=
        LA.contr_of_orth (by rw [transpose_transpose]; exact hoc)
      exact LA.Contr.entry_le hcon ⟨r, hr⟩ ⟨i, hi⟩
    | succ n ih =>
      obtain ⟨c', h1, h2, h3⟩ := ih
      obtain ⟨s', c'', f, e', hw', ha', -, hn', -, -, -, -, -, -, -, ⟨ef, hf⟩, -⟩ := P2State.iteration_ok hE hN h1
      rw [e1 n] at e'
      have e' : t (n + 1) = s' := by injection e'
      subst e'
      refine ⟨c'', hw', hn'.trans h2, ?_⟩
      rw [hf]
      exact cp_iter_le hE hN (o := P2.innerOpts o) (show 0 < o.rank from h.posR) hridge o.cpUpdates _ f
        (h1.ready.sized h1.sized (t (n + 1)).P) (show j < 3 from hj3) (fun m hm => by
          obtain ⟨nn, on, ridge, hc, hb⟩ := h1.ready.config m hm
          exact ⟨nn, on, ridge, ⟨hc.nonNeg, hc.orth, hc.ridge⟩, hb⟩) ⟨_, h2, hj⟩ h3 ef
  refine ⟨t, e0, e1, fun n => ?_⟩
  obtain ⟨Fs, hFs, -, hfro, -⟩ := ht n
  obtain ⟨c', h1, -, h3⟩ := inv n
  refine ⟨Fs, hFs, by rw [hfro j hj3 hj, hF], fun hc => ?_⟩
  rw [P2State.innerFactors, h1.ready.inner, Option.map_some] at hFs
  have hFs : c'.addrs.map (t n).heap.mem = Fs := by injection hFs
  rw [hFs] at h3
  exact absurd (h3 F hc i hi r hr) (not_le.2 hbig)

/-- The hypotheses of `C55_orthonormal_fails` hold for `A = [2]` with an orthonormality constraint on the first mode. -/
example : ∃ (s : P2State) (o : P2Opts), s.Sized 1 [1] o.rank ∧ s.Separate ∧ s.Allocated ∧
    CP.Admissible (P2.innerOpts o) (some (P2.nonNegOption o)) o.orth [1, o.rank, 1] ∧ o.ridgePenalties = none ∧
    (P2State.orthFlags o)[0]? = some true ∧ 1 < |s.A.get [0, 0]| := by
  refine ⟨p2Single (ofMat 1 1 fun _ _ => 1) (ofMat 1 1 fun _ _ => 2) (ofMat 1 1 fun _ _ => 1) (ofMat 1 1 fun _ _ => 1)
    (ofMat 1 1 fun _ _ => 1) 1 1 1 none 0, ⟨1, 0, 1, none, none, some [true, false, false], fun _ => 0⟩,
    p2Single_sized none 0 (by norm_num) (by norm_num) (by norm_num) rfl rfl rfl rfl rfl,
    by simp [P2State.Separate, p2Single], by simp [P2State.Allocated, p2Single], ?_, rfl, rfl, ?_⟩
  · exact { rank := by norm_num [P2.innerOpts], order := by simp, nonempty := by simp,
            nonNegLen := by simp [P2.nonNegOption], orthLen := by simp, ridgeLen := by simp [P2.innerOpts],
            orthRows := by
              intro l hl k hk
              obtain rfl : [true, false, false] = l := by injection hl
              match k with
              | 0 => simp [P2.innerOpts]
              | 1 => simp at hk
              | 2 => simp at hk
              | _ + 3 => simp at hk
            notBoth := by
              intro l l' hl _ k hk
              obtain rfl : [false, false, false] = l := by injection hl
              match k with
              | 0 => simp at hk
              | 1 => simp at hk
              | 2 => simp at hk
              | _ + 3 => simp at hk }
  · show 1 < |(ofMat 1 1 fun _ _ => (2 : ℝ)).get [0, 0]|
    rw [get_ofMat (by norm_num) (by norm_num)]
    norm_num

end
end TK
