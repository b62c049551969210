import Verif.Props.Stationary
import Verif.Props.Exact

/-!
# Data with one component (C122)

If the data are a single outer product, one iteration of `CP_ALS` with rank one finds it, from any start whose vectors are not
orthogonal to those of the data (in the modes other than the first, which is replaced first).
-/

namespace TK

open NDArray Fit

noncomputable section

/-- The inner product of the first columns of the factor matrices of a mode. -/
def modeDot (sizes : List ℕ) (fs gs : List (NDArray ℝ)) (m : ℕ) : ℝ :=
  ∑ i ∈ Finset.range (sizes.getD m 0), (modeMat fs m).get [i, 0] * (modeMat gs m).get [i, 0]

theorem sumIdx_prod : ∀ (sizes : List ℕ) (f : ℕ → ℕ → ℝ),
    (sumIdx sizes fun idx => ∏ m ∈ Finset.range sizes.length, f m (idx.getD m 0)) =
      ∏ m ∈ Finset.range sizes.length, ∑ i ∈ Finset.range (sizes.getD m 0), f m i
  | [], f => by simp
  | n :: ns, f => by
    have ih := sumIdx_prod ns fun m => f (m + 1)
    rw [sumIdx_cons, List.length_cons, Finset.prod_range_succ']
    simp only [List.getD_cons_succ, List.getD_cons_zero]
    rw [← ih, Finset.mul_sum]
    refine Finset.sum_congr rfl fun i _ => ?_
    rw [mul_comm, mul_sumIdx]
    refine sumIdx_congr fun idx _ => ?_
    rw [Finset.prod_range_succ', mul_comm]
    rfl

theorem cpEntry_one {fs : List (NDArray ℝ)} {idx : List ℕ} : cpEntry (fun _ => (1 : ℝ)) fs 1 idx = rankOne fs idx 0 := by
  simp [cpEntry]

/-- The update of a mode, for data with one component: the new column is the column of the data times a number that is not zero,
if the other columns are not orthogonal to those of the data. -/
theorem rank_one_step {X : NDArray ℝ} {a fs : List (NDArray ℝ)} (ha : a.length = X.shape.length)
    (hX : ∀ idx, Valid X.shape idx → X.get idx = rankOne a idx 0) (hl : fs.length = X.shape.length) {m : ℕ}
    (hm : m < X.shape.length) {F : NDArray ℝ}
    (hopt : ∀ Y : NDArray ℝ, Y.shape = [X.shape.getD m 0, 1] →
      sqErr X (fun _ => 1) (fs.set m F) 1 ≤ sqErr X (fun _ => 1) (fs.set m Y) 1)
    (hdot : ∀ k < X.shape.length, k ≠ m → modeDot X.shape a fs k ≠ 0) :
    ∃ c : ℝ, c ≠ 0 ∧ ∀ i < X.shape.getD m 0, F.get [i, 0] = c * (modeMat a m).get [i, 0] := by
  set d := X.shape.length with hd
  set D := ∏ k ∈ (Finset.range d).erase m, modeDot X.shape a fs k with hD
  set G := ∏ k ∈ (Finset.range d).erase m, modeDot X.shape fs fs k with hG
  have hD0 : D ≠ 0 := Finset.prod_ne_zero_iff.2 fun k hk =>
    hdot k (Finset.mem_range.1 (Finset.mem_of_mem_erase hk)) (Finset.ne_of_mem_erase hk)
  have hG0 : G ≠ 0 := Finset.prod_ne_zero_iff.2 fun k hk h0 => by
    refine hdot k (Finset.mem_range.1 (Finset.mem_of_mem_erase hk)) (Finset.ne_of_mem_erase hk) ?_
    rw [modeDot] at h0 ⊢
    refine Finset.sum_eq_zero fun i hi => ?_
    have := (Finset.sum_eq_zero_iff_of_nonneg fun i _ => mul_self_nonneg _).1 h0 i hi
    rw [mul_self_eq_zero.1 this, mul_zero]
  refine ⟨D / G, div_ne_zero hD0 hG0, fun i hi => ?_⟩
  have h0 := optimal_orthogonal hl hm hopt (ofMat (X.shape.getD m 0) 1 fun j _ => if j = i then 1 else 0)
  simp only [cpEntry_one] at h0
  have key : ∀ (gs : List (NDArray ℝ)) (u : ℕ → ℝ), (sumIdx X.shape fun idx =>
      ((∏ k ∈ (Finset.range d).erase m, (modeMat gs k).get [idx.getD k 0, 0]) * u (idx.getD m 0)) *
        ((∏ k ∈ (Finset.range d).erase m, (modeMat fs k).get [idx.getD k 0, 0]) * if idx.getD m 0 = i then 1 else 0)) =
      (∏ k ∈ (Finset.range d).erase m, modeDot X.shape gs fs k) * u i := by
    intro gs u
    have h1 := sumIdx_prod X.shape fun k j => if k = m then u j * (if j = i then 1 else 0) else
      (modeMat gs k).get [j, 0] * (modeMat fs k).get [j, 0]
    rw [← Finset.prod_erase_mul _ _ (Finset.mem_range.2 hm)] at h1
    simp only [if_true] at h1
    rw [Finset.sum_eq_single i (fun j _ hj => by rw [if_neg hj, mul_zero])
      (fun h => absurd (Finset.mem_range.2 hi) h), if_pos rfl, mul_one] at h1
    have h2 : (∏ k ∈ (Finset.range X.shape.length).erase m, ∑ j ∈ Finset.range (X.shape.getD k 0),
        if k = m then u j * (if j = i then 1 else 0) else (modeMat gs k).get [j, 0] * (modeMat fs k).get [j, 0]) =
        ∏ k ∈ (Finset.range d).erase m, modeDot X.shape gs fs k :=
      Finset.prod_congr rfl fun k hk => Finset.sum_congr rfl fun j _ => if_neg (Finset.ne_of_mem_erase hk)
    rw [h2] at h1
    rw [← h1]
    refine sumIdx_congr fun idx _ => ?_
    rw [← Finset.prod_erase_mul _ _ (Finset.mem_range.2 hm), if_pos rfl,
      Finset.prod_congr rfl fun k hk => if_neg (Finset.ne_of_mem_erase hk), Finset.prod_mul_distrib]
    ring
  have e1 := key a fun j => (modeMat a m).get [j, 0]
  have e2 := key fs fun j => F.get [j, 0]
  have h3 : (sumIdx X.shape fun idx => (X.get idx - rankOne (fs.set m F) idx 0) *
      rankOne (fs.set m (ofMat (X.shape.getD m 0) 1 fun j _ => if j = i then 1 else 0)) idx 0) =
      D * (modeMat a m).get [i, 0] - G * F.get [i, 0] := by
    rw [hD, hG, ← e1, ← e2, ← sumIdx_sub]
    refine sumIdx_congr fun idx hidx => ?_
    have hil := hidx.length_eq
    rw [hX idx hidx, rankOne_set_eq (by omega) (by omega), rankOne_set_eq (by omega) (by omega), rankOne_eq_prod 0 (by omega),
      get_ofMat (hidx.getD_lt hm) Nat.one_pos, ha, hl, ← Finset.prod_erase_mul _ _ (Finset.mem_range.2 hm)]
    ring
  rw [h3] at h0
  rw [div_mul_eq_mul_div, eq_div_iff hG0]
  linarith

/-- Spec: the columns of `fs` are those of `a` times numbers that are not zero, in the modes with `P`. -/
def Multiples (sizes : List ℕ) (a fs : List (NDArray ℝ)) (P : ℕ → Prop) : Prop :=
  ∀ k < sizes.length, P k → ∃ c : ℝ, c ≠ 0 ∧ ∀ i < sizes.getD k 0, (modeMat fs k).get [i, 0] = c * (modeMat a k).get [i, 0]

theorem Multiples.dot {sizes : List ℕ} {a fs : List (NDArray ℝ)} {P : ℕ → Prop} (h : Multiples sizes a fs P) {k : ℕ}
    (hk : k < sizes.length) (hP : P k) (h0 : modeDot sizes a a k ≠ 0) : modeDot sizes a fs k ≠ 0 := by
  obtain ⟨c, hc, e⟩ := h k hk hP
  have : modeDot sizes a fs k = c * modeDot sizes a a k := by
    rw [modeDot, modeDot, Finset.mul_sum]
    exact Finset.sum_congr rfl fun i hi => by rw [e i (Finset.mem_range.1 hi)]; ring
  rw [this]
  exact mul_ne_zero hc h0

/-- A component that is not zero has no zero columns. -/
theorem modeDot_self_ne_zero {sizes : List ℕ} {a : List (NDArray ℝ)} (ha : a.length = sizes.length) {idx : List ℕ}
    (hidx : Valid sizes idx) (h : rankOne a idx 0 ≠ 0) {k : ℕ} (hk : k < sizes.length) : modeDot sizes a a k ≠ 0 := by
  rw [rankOne_eq_prod 0 (by rw [hidx.length_eq, ha]), ha] at h
  have h1 := Finset.prod_ne_zero_iff.1 h k (Finset.mem_range.2 hk)
  intro h0
  rw [modeDot] at h0
  have := (Finset.sum_eq_zero_iff_of_nonneg fun i _ => mul_self_nonneg _).1 h0 _ (Finset.mem_range.2 (hidx.getD_lt hk))
  exact h1 (mul_self_eq_zero.1 this)

/-- A sweep finds the component. -/
theorem sweep_rank_one {X : NDArray ℝ} {a : List (NDArray ℝ)} (ha : a.length = X.shape.length) (hd : 0 < X.shape.length)
    (hX : ∀ idx, Valid X.shape idx → X.get idx = rankOne a idx 0) (hnz : ∀ k < X.shape.length, modeDot X.shape a a k ≠ 0)
    {g : ℕ → List (NDArray ℝ)} (h : Sweep X 1 g)
    (hdot : ∀ k < X.shape.length, k ≠ 0 → modeDot X.shape a (g 0) k ≠ 0) :
    Multiples X.shape a (g X.shape.length) (fun _ => True) ∧ sqErr X (fun _ => 1) (g X.shape.length) 1 = 0 := by
  have hm : ∀ m ≤ X.shape.length, Multiples X.shape a (g m) (· < m) := by
    intro m
    induction m with
    | zero => intro _ k _ hk; omega
    | succ m ih =>
      intro hm k hk hkm
      obtain ⟨F, e, opt⟩ := h.step m hm
      rw [e] at opt ⊢
      by_cases hkm' : k = m
      · subst hkm'
        rw [modeMat_set_self (by rw [h.len k (by omega)]; exact hm)]
        refine rank_one_step ha hX (h.len k (by omega)) hm opt fun j hj hjm => ?_
        rcases Nat.lt_or_ge j k with hlt | hge
        · exact (ih (by omega)).dot hj hlt (hnz j hj)
        · rw [modeDot, h.before (k := j) (by omega) hge]
          exact hdot j hj (by omega)
      · rw [modeMat_set_ne hkm']
        exact ih (by omega) k hk (by omega)
  refine ⟨fun k hk _ => hm _ le_rfl k hk hk, ?_⟩
  obtain ⟨m, hmd⟩ : ∃ m, X.shape.length = m + 1 := ⟨X.shape.length - 1, by omega⟩
  obtain ⟨F, e, opt⟩ := h.step m (by omega)
  have hl := h.len m (by omega)
  choose! c hc0 hc using hm m (by omega)
  have h1 := opt (ofMat (X.shape.getD m 0) 1 fun i _ => (modeMat a m).get [i, 0] / ∏ k ∈ Finset.range m, c k) (shape_ofMat _ _ _)
  rw [hmd]
  refine le_antisymm (h1.trans (le_of_eq ?_)) (sumIdx_nonneg fun _ _ => sq_nonneg _)
  rw [sqErr_eq_zero_iff]
  intro idx hidx
  have hil := hidx.length_eq
  rw [hX idx hidx, cpEntry_one, rankOne_set_eq (by omega) (by omega), rankOne_eq_prod 0 (by omega), ha, hl,
    ← Finset.prod_erase_mul _ _ (Finset.mem_range.2 (show m < X.shape.length by omega)),
    get_ofMat (hidx.getD_lt (by omega)) Nat.one_pos]
  have her : (Finset.range X.shape.length).erase m = Finset.range m := by
    rw [hmd]; ext x; simp; omega
  have hprod : ∏ k ∈ Finset.range m, c k ≠ 0 := Finset.prod_ne_zero_iff.2 fun k hk =>
    hc0 k (by have := Finset.mem_range.1 hk; omega) (Finset.mem_range.1 hk)
  rw [her, Finset.prod_congr rfl fun k hk => hc k (by have := Finset.mem_range.1 hk; omega) (Finset.mem_range.1 hk) _
    (hidx.getD_lt (by have := Finset.mem_range.1 hk; omega)), Finset.prod_mul_distrib]
  field_simp

/-- **C122.** Let the data be a single component that is not zero, and let `CP_ALS` with rank one and without constraints or
penalties start from vectors that are not orthogonal to those of the component (in all modes but the first). Then a fit that
performs at least one iteration reproduces the data exactly, and each of its columns is a multiple of the one of the
component. -/
theorem C122_rank_one {E : Ext} (hE : E.SVDOk) (hN : E.NNLSOk) (hQ : E.QROk) {c : CP.Config} (hrank : c.opts.rank = 1)
    {X : NDArray ℝ} (hA : CP.Admissible c.opts none none X.shape) (hridge : c.opts.ridgePenalties = none)
    (hlog : c.Measurable) (hfreq : freqOption c.freq ≠ 0) {arg : InitArg KruskalTensor} {t : KruskalTensor}
    (hi : CP.StartsFrom E c none none arg X t) (ht : t.WF X.shape c.opts.rank)
    {budget : Int} {mi : Option Int} (hb : 0 < mi.getD budget) {loggers : List Logger} {file : Option H5File}
    (hS : Storing (CP.method E c) (CP.newObject none none budget loggers file) [])
    {a : List (NDArray ℝ)} (ha : a.length = X.shape.length) (hX : ∀ idx, Valid X.shape idx → X.get idx = rankOne a idx 0)
    {i0 : List ℕ} (hi0 : Valid X.shape i0) (hnz : X.get i0 ≠ 0)
    (hdot : ∀ m < X.shape.length, m ≠ 0 → modeDot X.shape a t.factorMatrices m ≠ 0) :
    ∃ w', CP.fit E c X mi arg (CP.newObject none none budget loggers file) = .ok () w' ∧
      (1 ≤ w'.it → CP.sse w'.st = .ok 0 ∧
        (∀ idx, Valid X.shape idx →
          X.get idx = cpEntry (fun r => w'.st.dec.weights.get [r]) w'.st.dec.factorMatrices c.opts.rank idx) ∧
        Multiples X.shape a w'.st.dec.factorMatrices fun _ => True) := by
  obtain ⟨s0, w', k, e0, h1, -, hit, h2, -, -, hwf, hsse, hX', hw1, -⟩ := C74_fit_completes hE hN hQ hA hlog hfreq hi ht hb hS
  obtain ⟨hG, hXs, hw, hU, hdec, q1, q2, hq⟩ := fit_sweeps hE hN hQ hA hridge ht e0
  have hst : w'.st = CP.orbit E c.opts s0 k := by
    rw [orbit_iterate hE hN hA.rank k hG] at h2
    exact (Except.ok.inj h2).symm
  have hd := hA.order
  have hself : ∀ m < X.shape.length, modeDot X.shape a a m ≠ 0 := fun m hm =>
    modeDot_self_ne_zero ha hi0 (by rw [← hX i0 hi0]; exact hnz) hm
  have hall : ∀ j, Multiples X.shape a (CP.orbit E c.opts s0 (j + 1)).dec.factorMatrices (fun _ => True) ∧
      sqErr X (fun _ => 1) (CP.orbit E c.opts s0 (j + 1)).dec.factorMatrices 1 = 0 := by
    intro j
    induction j with
    | zero =>
      have hs := q1 0
      rw [hrank] at hs
      have := sweep_rank_one ha (by omega) hX hself hs (by rw [during_zero]; show ∀ k < _, k ≠ 0 → modeDot _ _ s0.dec.factorMatrices k ≠ 0; rw [hdec]; exact hdot)
      rw [q2 0, during_zero] at this
      exact this
    | succ j ih =>
      have hs := q1 (j + 1)
      rw [hrank] at hs
      have := sweep_rank_one ha (by omega) hX hself hs (fun m hm _ => ih.1.dot hm trivial (hself m hm))
      rw [q2 (j + 1), during_zero] at this
      exact this
  refine ⟨w', h1, fun hk => ?_⟩
  obtain ⟨j, rfl⟩ : ∃ j, k = j + 1 := ⟨k - 1, by omega⟩
  obtain ⟨m1, m2⟩ := hall j
  have h0 : w'.st.trueSSE c.opts.rank = 0 := by rw [hst, hq, hrank]; exact m2
  refine ⟨by rw [hsse, h0], ?_, by rw [hst]; exact m1⟩
  rw [CPState.trueSSE, sqErr_eq_zero_iff, hX'] at h0
  exact h0

/-- The hypotheses of `C122_rank_one` on the data and the start: a `2 × 2` matrix of sixes, and a start that is not a multiple of
the component. -/
example : ∃ (X : NDArray ℝ) (a : List (NDArray ℝ)) (t : KruskalTensor), CP.Admissible ⟨1, 0, 0, none⟩ none none X.shape ∧
    t.WF X.shape 1 ∧ a.length = X.shape.length ∧ (∀ idx, Valid X.shape idx → X.get idx = rankOne a idx 0) ∧
    (Valid X.shape [0, 0] ∧ X.get [0, 0] ≠ 0) ∧
    (∀ m < X.shape.length, m ≠ 0 → modeDot X.shape a t.factorMatrices m ≠ 0) ∧
    ¬ Multiples X.shape a t.factorMatrices fun _ => True := by
  refine ⟨full [2, 2] 6, [full [2, 1] 2, full [2, 1] 3], ⟨1, [full [2, 1] 5, ofMat 2 1 fun i _ => i], full [1] 1⟩,
    ⟨by decide, by simp, by simp, by simp, by simp, by simp, by simp, by simp⟩, ⟨rfl, .cons rfl (.cons rfl .nil), rfl⟩, rfl,
    ?_, ⟨by simp [Valid], by simp [get_full]⟩, ?_, ?_⟩
  · intro idx hidx
    rw [get_full (s := [2, 2]) hidx]
    match idx, hidx with
    | [i, j], hidx =>
      obtain ⟨hi, hj, -⟩ := hidx
      simp only [rankOne, mul_one]
      rw [get_full (s := [2, 1]) (idx := [i, 0]) ⟨hi, by omega, trivial⟩,
        get_full (s := [2, 1]) (idx := [j, 0]) ⟨hj, by omega, trivial⟩]
      norm_num
  · intro m hm hm0
    obtain rfl : m = 1 := by simp at hm; omega
    simp only [modeDot, modeMat, full, shape_ofFn, List.getD_cons_succ, List.getD_cons_zero]
    rw [Finset.sum_range_succ, Finset.sum_range_one]
    simp [get_ofMat]
  · intro h
    obtain ⟨c, hc, e⟩ := h 1 (by simp) trivial
    have := e 0 (by simp)
    simp [modeMat, get_ofMat, get_full, hc] at this

end
end TK
