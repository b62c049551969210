import Verif.Lemmas.Parafac2

/-! # The inner CP decomposer of `Parafac2_ALS` -/

namespace TK
open NDArray Matrix

noncomputable section

theorem assignLast_ok {T S : NDArray ℝ} {I R K k : ℕ} (hT : T.shape = [I, R, K]) (hS : S.shape = [I, R]) (hk : k < K) :
    P2.assignLast T S k = .ok (ofFn [I, R, K] fun idx =>
      if idx.getD 2 0 = k then S.get [idx.getD 0 0, idx.getD 1 0] else T.get idx) := by
  rw [P2.assignLast, hT]
  simp only [if_pos hk]
  rw [assignAll_same (by rw [hS]; rfl), bind_ok]; rfl

theorem projectLoop_ok {X : List (NDArray ℝ)} {I R K : ℕ} : ∀ {Ps : List (NDArray ℝ)} {Js : List ℕ} {k : ℕ} {T : NDArray ℝ},
    Factors Ps Js R → (∀ l < Js.length, k + l < X.length ∧ (nth X (k + l)).shape = [I, Js.getD l 0]) → k + Js.length ≤ K →
    T.shape = [I, R, K] →
    ∃ T', P2.projectLoop X k Ps T = .ok T' ∧ T'.shape = [I, R, K] ∧ ∀ i < I, ∀ q < R, ∀ m < K,
      T'.get [i, q, m] = if k ≤ m ∧ m < k + Js.length then
        ∑ j ∈ Finset.range (Js.getD (m - k) 0), (nth X m).get [i, j] * (nth Ps (m - k)).get [j, q] else T.get [i, q, m]
  | [], Js, k, T, h, _, _, hT => by
    cases h
    refine ⟨T, rfl, hT, fun i _ q _ m _ => ?_⟩
    rw [if_neg (by simp)]
  | P :: Ps, J :: Js, k, T, .cons h1 h2, hX, hK, hT => by
    simp only [List.length_cons] at hX hK
    obtain ⟨hk, hs⟩ := hX 0 (by omega)
    simp only [Nat.add_zero, List.getD_cons_zero] at hk hs
    have hw := assignLast_ok (k := k) hT (shape_ofMat I R fun i j => ∑ l ∈ Finset.range J, (nth X k).get [i, l] * P.get [l, j])
      (by omega)
    obtain ⟨T', e, sT, g⟩ := projectLoop_ok (X := X) (I := I) (R := R) (K := K) (k := k + 1) h2 (T := _)
      (fun l hl => by
        have := hX (l + 1) (by omega)
        rw [show k + (l + 1) = k + 1 + l by ring, List.getD_cons_succ] at this
        exact this) (by omega) (shape_ofFn [I, R, K] _)
    refine ⟨T', ?_, sT, ?_⟩
    · rw [P2.projectLoop, pyGet_nth hk, bind_ok, matmul_ok hs h1, bind_ok, hw, bind_ok, e]
    · intro i hi q hq m hm
      rw [g i hi q hq m hm]
      by_cases hmk : m = k
      · subst hmk
        rw [if_neg (by omega), if_pos (by simp), get_ofFn (by simp [hi, hq, hm])]
        simp only [List.getD_cons_succ, List.getD_cons_zero, if_true, Nat.sub_self, nth_zero]
        rw [get_ofMat hi hq]
      · by_cases hc : k + 1 ≤ m ∧ m < k + 1 + Js.length
        · rw [if_pos hc, if_pos (by simp; omega), show m - k = (m - (k + 1)) + 1 by omega, nth_succ, List.getD_cons_succ]
        · rw [if_neg hc, if_neg (by simp; omega), get_ofFn (by simp [hi, hq, hm])]
          simp only [List.getD_cons_succ, List.getD_cons_zero, hmk, if_false]

namespace P2State

variable {s : P2State} {I R : ℕ} {Js : List ℕ}

/-- `projected_X`: slice `k` is `X_k P_k`; nothing of the uninitialised memory remains. -/
theorem Sized.projectedX (h : s.Sized I Js R) {o : P2Opts} (ho : o.rank = R) :
    P2.projectedX o s = .ok (p2Projected s.X s.P I Js R) := by
  obtain ⟨T', e, sT, g⟩ := projectLoop_ok (X := s.X) (I := I) (K := Js.length) (k := 0) h.P
    (T := ofFn [I, R, Js.length] o.garbage) (fun l hl => by
      rw [Nat.zero_add, h.lenX]; exact ⟨hl, shape_nth h.X hl⟩) (by omega) (shape_ofFn _ _)
  have hT : T' = p2Projected s.X s.P I Js R := by
    apply ext_get (sT.trans (shape_ofFn _ _).symm)
    intro idx hidx
    rw [sT] at hidx
    obtain ⟨i, is, rfl, hi, his⟩ := valid_cons_iff.1 hidx
    obtain ⟨q, js, rfl, hq, hjs⟩ := valid_cons_iff.1 his
    obtain ⟨k, ks, rfl, hk, hks⟩ := valid_cons_iff.1 hjs
    obtain rfl : ks = [] := by simpa using hks
    rw [g i hi q hq k hk, if_pos (by omega)]
    rw [get_ofFn (by simp [hi, hq, hk])]
    simp
  subst hT
  rw [P2.projectedX]
  show (rows s.A >>= _) = _
  rw [rows_ok h.A, bind_ok]
  show (rows s.C >>= _) = _
  rw [rows_ok h.C, bind_ok, ho]
  exact e

/-- The error of the inner CP model of the projected data. -/
theorem Sized.inner_err (_ : s.Sized I Js R) (w : ℕ → ℝ) (hw : ∀ r < R, w r = 1) :
    sqErr (p2Projected s.X s.P I Js R) w [s.A, s.D, s.C] R
      = ∑ k ∈ Finset.range Js.length, LA.fsq (s.Xm I Js k * (s.Ym Js R k)ᵀ - s.Mm I R k) := by
  have e1 : sqErr (p2Projected s.X s.P I Js R) w [s.A, s.D, s.C] R = ∑ i ∈ Finset.range I, ∑ q ∈ Finset.range R,
      ∑ k ∈ Finset.range Js.length,
      (∑ j ∈ Finset.range (Js.getD k 0), (nth s.X k).get [i, j] * (nth s.P k).get [j, q]
        - (p2Score s.A s.D s.C I R k).get [i, q]) ^ 2 := by
    unfold sqErr
    show sumIdx [I, R, Js.length] _ = _
    simp only [sumIdx_cons, sumIdx_nil]
    refine Finset.sum_congr rfl fun i hi => Finset.sum_congr rfl fun q hq => Finset.sum_congr rfl fun k hk => ?_
    have hi := Finset.mem_range.1 hi
    have hq := Finset.mem_range.1 hq
    have hk := Finset.mem_range.1 hk
    rw [p2Projected, get_ofFn (by simp [hi, hq, hk]), p2Score, get_ofMat hi hq]
    congr 2
    unfold cpEntry
    refine Finset.sum_congr rfl fun r hr => ?_
    rw [hw r (Finset.mem_range.1 hr)]
    simp only [rankOne]
    ring
  rw [e1]
  have e2 : ∀ i, ∑ q ∈ Finset.range R, ∑ k ∈ Finset.range Js.length,
      (∑ j ∈ Finset.range (Js.getD k 0), (nth s.X k).get [i, j] * (nth s.P k).get [j, q]
        - (p2Score s.A s.D s.C I R k).get [i, q]) ^ 2 = ∑ k ∈ Finset.range Js.length, ∑ q ∈ Finset.range R,
      (∑ j ∈ Finset.range (Js.getD k 0), (nth s.X k).get [i, j] * (nth s.P k).get [j, q]
        - (p2Score s.A s.D s.C I R k).get [i, q]) ^ 2 := fun i => Finset.sum_comm
  simp only [e2]
  rw [Finset.sum_comm]
  refine Finset.sum_congr rfl fun k _ => ?_
  unfold LA.fsq
  rw [Finset.sum_range]
  refine Finset.sum_congr rfl fun i _ => ?_
  rw [Finset.sum_range]
  refine Finset.sum_congr rfl fun q _ => ?_
  rw [Finset.sum_range]
  simp [Matrix.mul_apply, Xm, Ym, Mm, mat]

/-- The potential is the error of the inner model plus a term that does not depend on the factor matrices. -/
theorem Sized.pot_eq (h : s.Sized I Js R) (w : ℕ → ℝ) (hw : ∀ r < R, w r = 1) :
    s.pot I Js R = sqErr (p2Projected s.X s.P I Js R) w [s.A, s.D, s.C] R
      + ∑ k ∈ Finset.range Js.length, (LA.fsq (s.Xm I Js k) - LA.fsq (s.Xm I Js k * (s.Ym Js R k)ᵀ)) := by
  rw [h.inner_err w hw, ← Finset.sum_add_distrib]
  exact Finset.sum_congr rfl fun k _ => LA.pot_eq_projected _ _ _

/-- The inner decomposer is ready for updates: its factor matrices are different arrays of the right sizes that are not
projection matrices, its weights are ones, its constraints can be fulfilled; a factor matrix of the decomposition is either
the inner factor matrix of the same mode or not used by the inner decomposer at all. -/
structure Ready (s : P2State) (o : P2Opts) (I : ℕ) (Js : List ℕ) (c : CPObj) : Prop where
  inner : s.inner = some c
  nodup : c.addrs.Nodup
  apart : ∀ a ∈ c.addrs, a ∉ s.dec.P
  factors : Factors (c.addrs.map s.heap.mem) [I, o.rank, Js.length] o.rank
  rank : c.st.dec.rank = o.rank
  wshape : c.st.dec.weights.shape = [o.rank]
  wone : ∀ r < o.rank, c.st.dec.weights.get [r] = 1
  config : ∀ m < 3, ∃ nn on ridge, c.st.ModeConfig (P2.innerOpts o) m nn on ridge ∧ ¬ (nn = true ∧ on = true)
  A : c.addrs[0]? = some s.dec.A ∨ s.dec.A ∉ c.addrs
  D : c.addrs[1]? = some s.dec.blueprint ∨ s.dec.blueprint ∉ c.addrs
  C : c.addrs[2]? = some s.dec.C ∨ s.dec.C ∉ c.addrs

/-- The inner decomposer works on the arrays of the decomposition. -/
def Shares (s : P2State) (c : CPObj) : Prop := c.addrs = [s.dec.A, s.dec.blueprint, s.dec.C]

theorem Ready.sized {o : P2Opts} {c : CPObj} (hr : s.Ready o I Js c) (h : s.Sized I Js o.rank) (P : List (NDArray ℝ)) :
    ((c.setTarget (p2Projected s.X P I Js o.rank)).read s.heap).Sized o.rank := by
  refine ⟨⟨hr.rank, hr.factors, hr.wshape⟩, ?_, ?_⟩
  · show 2 ≤ [I, o.rank, Js.length].length
    simp
  · show ∀ n ∈ [I, o.rank, Js.length], n ≠ 0
    have h1 := h.posI
    have h2 := h.posR
    have h3 := h.posK
    intro n hn
    simp only [List.mem_cons, List.not_mem_nil, or_false] at hn
    rcases hn with rfl | rfl | rfl <;> omega

theorem Shares.trueSSE {c : CPObj} (hr : s.Shares c) (X : NDArray ℝ) (R : ℕ) :
    ((c.setTarget X).read s.heap).trueSSE R
      = sqErr X (fun r => c.st.dec.weights.get [r]) [s.A, s.D, s.C] R := by
  show sqErr X (fun r => c.st.dec.weights.get [r]) (c.addrs.map s.heap.mem) R = _
  rw [hr]; rfl

end P2State

/-- The object with other weights. -/
def CPObj.withWeights (c : CPObj) (w : NDArray ℝ) : CPObj :=
  { c with st := { c.st with dec := { c.st.dec with weights := w } } }

/-- The state after the inner updates. -/
def P2State.withInner (s : P2State) (h : Heap) (c : CPObj) : P2State := { s with heap := h, inner := some c }

/-- The weights are ones: multiplying the blueprint by them changes nothing. -/
theorem absorbWeights_ok {d : P2Obj} {h : Heap} {c : CPObj} {R : ℕ} (hD : (h.mem d.blueprint).shape = [R, R])
    (hw : c.st.dec.weights.shape = [R]) (h1 : ∀ r < R, c.st.dec.weights.get [r] = 1) :
    ∃ w, P2.absorbWeights d (h, c) = .ok (h, c.withWeights w) ∧
      w.shape = [R] ∧ ∀ r < R, w.get [r] = 1 := by
  refine ⟨(c.st.dec.weights.map (· * 0)).map (· + 1), ?_, hw, ?_⟩
  · have e : (ofMat R R fun i j => (h.mem d.blueprint).get [i, j] * c.st.dec.weights.get [j]) = h.mem d.blueprint := by
      refine ext_mat (shape_ofMat _ _ _) hD fun i hi j hj => ?_
      rw [get_ofMat hi hj, h1 j hj, mul_one]
    rw [P2.absorbWeights]
    simp only []
    rw [inplaceMul, zipB_mat_vec _ hw hD, bind_ok, if_pos (by simp [hD]), e]
    show Except.ok (h.write _ _, _) = _
    rw [Heap.write_self]; rfl
  · intro r hr
    have hv : Valid c.st.dec.weights.shape [r] := by simp [hw, hr]
    rw [get_map _ _ (by simpa using hv), get_map _ _ hv]; simp

/-! ### Inner updates never fail -/

theorem cp_updateModes_total {E : Ext} (hE : E.SVDOk) (hN : E.NNLSOk) {o : CPOpts} (hr : 0 < o.rank) :
    ∀ (modes : List ℕ) (s : CPState), s.Sized o.rank →
      (∀ m < s.X.shape.length, ∃ nn on ridge, s.ModeConfig o m nn on ridge ∧ ¬ (nn = true ∧ on = true)) →
      (∀ m ∈ modes, m < s.X.shape.length) →
      ∃ s', CP.updateModes E o modes s = .ok s' ∧ s.SameProblem s' ∧ s'.Sized o.rank
  | [], s, h, _, _ => ⟨s, rfl, .refl s, h⟩
  | k :: ks, s, h, hcfg, hmodes => by
    have hk := hmodes k (by simp)
    obtain ⟨nn, on, ridge, hc, hb⟩ := hcfg k hk
    obtain ⟨F, -, hF, hu⟩ := updateFactor_total hE hN h hr hk hc hb
    obtain ⟨s', e, h1, h2⟩ := cp_updateModes_total hE hN hr ks (s.updated k o.rank F) (h.updated hF)
      (fun m hm => by
        obtain ⟨nn, on, ridge, hc, hb⟩ := hcfg m hm
        exact ⟨nn, on, ridge, ⟨hc.nonNeg, hc.orth, hc.ridge⟩, hb⟩)
      (fun m hm => hmodes m (by simp [hm]))
    refine ⟨s', ?_, ?_, h2⟩
    · rw [CP.updateModes, List.foldlM_cons, hu, bind_ok]; exact e
    · exact ⟨h1.X, h1.XNorm, h1.nonNeg, h1.orth, h1.weights, h1.rank⟩

theorem cp_iter_total {E : Ext} (hE : E.SVDOk) (hN : E.NNLSOk) {o : CPOpts} (hr : 0 < o.rank) :
    ∀ (n : ℕ) (s : CPState), s.Sized o.rank →
      (∀ m < s.X.shape.length, ∃ nn on ridge, s.ModeConfig o m nn on ridge ∧ ¬ (nn = true ∧ on = true)) →
      ∃ s', iterM (CP.updateFactors E o) n s = .ok s' ∧ s.SameProblem s' ∧ s'.Sized o.rank
  | 0, s, h, _ => ⟨s, rfl, .refl s, h⟩
  | n + 1, s, h, hcfg => by
    obtain ⟨s1, e1, h1, h2⟩ := cp_updateModes_total hE hN hr (List.range s.X.shape.length) s h hcfg (by simp)
    obtain ⟨s', e, h3, h4⟩ := cp_iter_total hE hN hr n s1 h2 (fun m hm => by
        rw [h1.X] at hm
        obtain ⟨nn, on, ridge, hc, hb⟩ := hcfg m hm
        exact ⟨nn, on, ridge, ⟨by rw [h1.nonNeg]; exact hc.nonNeg, by rw [h1.orth]; exact hc.orth, hc.ridge⟩, hb⟩)
    refine ⟨s', ?_, h1.trans h3, h4⟩
    rw [iterM, CP.updateFactors, e1, bind_ok, e]

/-- Without constraints and penalties the inner updates do not increase the inner error. -/
theorem cp_iter_monotone {E : Ext} (hE : E.SVDOk) {o : CPOpts} (hr : o.ridgePenalties = none) :
    ∀ (n : ℕ) (s : CPState), s.Sized o.rank → (∀ r < o.rank, s.dec.weights.get [r] = 1) → s.Unconstrained →
      ∃ s', iterM (CP.updateFactors E o) n s = .ok s' ∧ s'.trueSSE o.rank ≤ s.trueSSE o.rank
  | 0, s, _, _, _ => ⟨s, rfl, le_rfl⟩
  | n + 1, s, h, hw, hc => by
    obtain ⟨s1, e1, h1, -, h2, h3, h4⟩ := C34_updates_monotone hE hr (modes := List.range s.X.shape.length) h hw hc (by simp)
    obtain ⟨s', e, h5⟩ := cp_iter_monotone hE hr n s1 h4 (by rw [h2]; exact hw) h3
    refine ⟨s', ?_, h5.trans h1⟩
    rw [iterM, CP.updateFactors, e1, bind_ok, e]

namespace P2State

variable {s : P2State} {I R : ℕ} {Js : List ℕ}

theorem read_congr {l : List Addr} {h h' : Heap} (e : ∀ a ∈ l, h'.mem a = h.mem a) : l.map h'.mem = l.map h.mem :=
  List.map_congr_left e

/-- Sizes after a change of the heap outside of the projection matrices. -/
theorem Sized.of_heap (h : s.Sized I Js R) {t : P2State} (hd : t.dec = s.dec) (hX : t.X = s.X) (hXS : t.XShape = s.XShape)
    (hA : t.A.shape = [I, R]) (hD : t.D.shape = [R, R]) (hC : t.C.shape = [Js.length, R])
    (hP : ∀ a ∈ s.dec.P, t.heap.mem a = s.heap.mem a) : t.Sized I Js R := by
  refine ⟨h.posI, h.posR, h.posJ, h.posK, by rw [hX]; exact h.X, by rw [hXS]; exact h.xshape, hA, hD, hC, ?_⟩
  have : t.P = s.P := by
    unfold P2State.P
    rw [hd]; exact read_congr hP
  rw [this]; exact h.P

theorem mem_of_getElem? {l : List Addr} {j : ℕ} {a : Addr} (h : l[j]? = some a) : a ∈ l := List.mem_of_getElem? h

/-- What one `_update_parafac2_factors` does: new projection matrices, and then the inner updates on the arrays of the inner
decomposer, which leave every other array alone. -/
theorem updateFactors_ok {E : Ext} (hE : E.SVDOk) (hN : E.NNLSOk) {o : P2Opts} {c : CPObj} (h : s.Sized I Js o.rank)
    (ha : s.Apart) (hr : s.Ready o I Js c) :
    ∃ s1 s' c' f, P2.updateProjections E s = .ok s1 ∧ P2.updateFactors E o s = .ok s' ∧
      s'.dec = s.dec ∧ s'.X = s.X ∧ s'.XShape = s.XShape ∧ s'.XNorm = s.XNorm ∧ s'.relChange = s.relChange ∧
      s'.prevLoss = s.prevLoss ∧ s'.Sized I Js o.rank ∧ s'.Ready o I Js c' ∧ c'.addrs = c.addrs ∧
      s1.Sized I Js o.rank ∧ s1.dec = s.dec ∧ s1.X = s.X ∧ s1.inner = s.inner ∧ s1.Ready o I Js c ∧
      s1.A = s.A ∧ s1.D = s.D ∧ s1.C = s.C ∧
      (∀ k < Js.length, ∃ k', s.LastUse Js k k' ∧ NewP E s I Js o.rank k' (nth s1.P k)) ∧ s'.P = s1.P ∧
      iterM (CP.updateFactors E (P2.innerOpts o)) o.cpUpdates ((c.setTarget (p2Projected s.X s1.P I Js o.rank)).read s1.heap)
        = .ok f ∧
      c'.addrs.map s'.heap.mem = f.dec.factorMatrices ∧ c'.st.nonNeg = c.st.nonNeg ∧ c'.st.orth = c.st.orth ∧
      (∀ a, a ∉ c.addrs → s'.heap.mem a = s1.heap.mem a) ∧ (∀ a, a ∉ s.dec.P → s1.heap.mem a = s.heap.mem a) := by
  have hnew' : ∃ new : ℕ → NDArray ℝ, ∀ k < Js.length, NewP E s I Js o.rank k (new k) := by
    refine ⟨fun k => if hk : k < Js.length then (exists_new hE h hk).choose else full [] 0, fun k hk => ?_⟩
    simp only [dif_pos hk]
    exact (exists_new hE h hk).choose_spec
  obtain ⟨new, hnew⟩ := hnew'
  obtain ⟨e1, hs1⟩ := updateProjections_ok h ha hnew
  have hout : ∀ a, a ∉ s.dec.P → (s.withP new Js.length).heap.mem a = s.heap.mem a :=
    fun a ha => Heap.writes_outside ha h.lenP.ge
  have hA1 := withP_A h ha new le_rfl
  have hD1 := withP_D h ha new le_rfl
  have hC1 := withP_C h ha new le_rfl
  have hd1 : (s.withP new Js.length).dec = s.dec := rfl
  have hX1 : (s.withP new Js.length).X = s.X := rfl
  have hi1 : (s.withP new Js.length).inner = s.inner := rfl
  have hXS : (s.withP new Js.length).XShape = s.XShape := rfl
  have hXN : (s.withP new Js.length).XNorm = s.XNorm := rfl
  have hrc : (s.withP new Js.length).relChange = s.relChange := rfl
  have hpl : (s.withP new Js.length).prevLoss = s.prevLoss := rfl
  have hnew1 : ∀ k < Js.length, ∃ k', s.LastUse Js k k' ∧ NewP E s I Js o.rank k' (nth (s.withP new Js.length).P k) := by
    intro k hk
    obtain ⟨k', h1, h2⟩ := nth_withP_last h new hk hs1
    exact ⟨k', h1, by rw [h2]; exact hnew k' h1.lt⟩
  generalize s.withP new Js.length = s1 at *
  have hadd : c.addrs.map s1.heap.mem = c.addrs.map s.heap.mem := read_congr fun a ha => hout a (hr.apart a ha)
  have hr1 : s1.Ready o I Js c := by
    refine ⟨hi1.trans hr.inner, hr.nodup, ?_, ?_, hr.rank, hr.wshape, hr.wone, hr.config, ?_, ?_, ?_⟩
    · rw [hd1]; exact hr.apart
    · rw [hadd]; exact hr.factors
    · rw [hd1]; exact hr.A
    · rw [hd1]; exact hr.D
    · rw [hd1]; exact hr.C
  have hsz := hr1.sized hs1 s1.P
  rw [hX1] at hsz
  obtain ⟨f, ef, hf1, hf2⟩ := cp_iter_total hE hN (o := P2.innerOpts o) (show 0 < o.rank from h.posR) o.cpUpdates
    ((c.setTarget (p2Projected s.X s1.P I Js o.rank)).read s1.heap) hsz (fun m hm => by
      obtain ⟨nn, on, ridge, hc, hb⟩ := hr.config m hm
      exact ⟨nn, on, ridge, ⟨hc.nonNeg, hc.orth, hc.ridge⟩, hb⟩)
  obtain ⟨⟨h2, c2⟩, q1, q2, q3, q4, -⟩ := CPObj.repeatUpdates_spec (h := s1.heap)
    (c := c.setTarget (p2Projected s.X s1.P I Js o.rank)) hr.nodup ef
  simp only at q2 q3 q4
  have q3 : c2.addrs = c.addrs := q3
  have q4 : ∀ a ∉ c.addrs, h2.mem a = s1.heap.mem a := q4
  have hw2 : c2.st.dec.weights = c.st.dec.weights := by
    have := hf1.weights
    rw [← q2] at this
    exact this
  have hrk2 : c2.st.dec.rank = c.st.dec.rank := by
    have := hf1.rank
    rw [← q2] at this
    exact this
  have hnn2 : c2.st.nonNeg = c.st.nonNeg := by
    have := hf1.nonNeg
    rw [← q2] at this
    exact this
  have hon2 : c2.st.orth = c.st.orth := by
    have := hf1.orth
    rw [← q2] at this
    exact this
  have hfm : c2.addrs.map h2.mem = f.dec.factorMatrices := by rw [← q2]; rfl
  have hff : Factors (c.addrs.map h2.mem) [I, o.rank, Js.length] o.rank := by
    have := hf2.wf.factors
    rw [← hfm, hf1.X, q3] at this
    exact this
  have hlen : c.addrs.length = 3 := by simpa using hff.length_eq
  -- shapes of the factor matrices of the decomposition
  have hshape : ∀ (j : ℕ) (a : Addr) (n : ℕ), [I, o.rank, Js.length][j]? = some n →
      (c.addrs[j]? = some a ∨ a ∉ c.addrs) → (s1.heap.mem a).shape = [n, o.rank] → (h2.mem a).shape = [n, o.rank] := by
    intro j a n hj hca hsh
    rcases hca with hca | hca
    · have hjl : j < c.addrs.length := by
        rcases List.getElem?_eq_some_iff.1 hca with ⟨hjl, -⟩; exact hjl
      have := hff.shape_get (k := j) (by simpa using hjl)
      rw [List.getElem_map] at this
      rcases List.getElem?_eq_some_iff.1 hca with ⟨_, rfl⟩
      rw [this]
      rw [List.getD_eq_getElem?_getD, hj]; rfl
    · rw [q4 a hca]; exact hsh
  have hA2 : (h2.mem s.dec.A).shape = [I, o.rank] :=
    hshape 0 _ _ rfl hr.A (by have := hs1.A; rw [P2State.A, hd1] at this; exact this)
  have hD2 : (h2.mem s.dec.blueprint).shape = [o.rank, o.rank] :=
    hshape 1 _ _ rfl hr.D (by have := hs1.D; rw [P2State.D, hd1] at this; exact this)
  have hC2 : (h2.mem s.dec.C).shape = [Js.length, o.rank] :=
    hshape 2 _ _ rfl hr.C (by have := hs1.C; rw [P2State.C, hd1] at this; exact this)
  obtain ⟨w, e3, w1, w2⟩ := absorbWeights_ok (d := s.dec) (h := h2) (c := c2) hD2 (by rw [hw2]; exact hr.wshape)
    (by rw [hw2]; exact hr.wone)
  have hs' : (s1.withInner h2 (c2.withWeights w)).Sized I Js o.rank := by
    refine hs1.of_heap rfl rfl rfl ?_ ?_ ?_ ?_
    · show (h2.mem s1.dec.A).shape = _
      rw [hd1]; exact hA2
    · show (h2.mem s1.dec.blueprint).shape = _
      rw [hd1]; exact hD2
    · show (h2.mem s1.dec.C).shape = _
      rw [hd1]; exact hC2
    · intro a ha
      rw [hd1] at ha
      exact q4 a fun hc => hr.apart a hc ha
  refine ⟨s1, s1.withInner h2 (c2.withWeights w), c2.withWeights w, f, e1, ?_, hd1, hX1, hXS, hXN, hrc, hpl, hs', ?_, q3, hs1, hd1, hX1, hi1, hr1, hA1, hD1, hC1, hnew1, ?_, ef,
    hfm, hnn2, hon2, q4, hout⟩
  · rw [P2.updateFactors, e1, bind_ok, hr1.inner]
    simp only []
    rw [hs1.projectedX rfl, bind_ok, hX1, q1, bind_ok, hd1, e3, bind_ok, ← hd1, ← hX1]
    rfl
  · refine ⟨rfl, (by rw [q3]; exact hr.nodup : c2.addrs.Nodup), ?_, ?_, hrk2.trans hr.rank, w1, w2, ?_, ?_, ?_, ?_⟩
    · show ∀ a ∈ c2.addrs, a ∉ s1.dec.P
      rw [q3, hd1]; exact hr.apart
    · show Factors (c2.addrs.map h2.mem) _ _
      rw [q3]; exact hff
    · intro m hm
      obtain ⟨nn, on, ridge, hc, hb⟩ := hr.config m hm
      obtain ⟨⟨l1, a1, b1⟩, ⟨l2, a2, b2⟩, hc3⟩ := hc
      exact ⟨nn, on, ridge, ⟨⟨l1, hnn2.trans a1, b1⟩, ⟨l2, hon2.trans a2, b2⟩, hc3⟩, hb⟩
    · show c2.addrs[0]? = some s1.dec.A ∨ s1.dec.A ∉ c2.addrs
      rw [q3, hd1]; exact hr.A
    · show c2.addrs[1]? = some s1.dec.blueprint ∨ s1.dec.blueprint ∉ c2.addrs
      rw [q3, hd1]; exact hr.D
    · show c2.addrs[2]? = some s1.dec.C ∨ s1.dec.C ∉ c2.addrs
      rw [q3, hd1]; exact hr.C
  · show s1.dec.P.map h2.mem = s1.dec.P.map s1.heap.mem
    rw [hd1]
    exact read_congr fun a ha => q4 a fun hc => hr.apart a hc ha

end P2State
end
end TK
