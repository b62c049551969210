import Verif.Model.RoundedFits
import Verif.Props.Rounding
import Verif.Lemmas.Binary
import Verif.Lemmas.Parafac2
import Verif.Lemmas.CMTF
import Verif.Props.Parafac2
import Verif.Props.CMTFNorm

/-!
# C135: the errors of PARAFAC2 and coupled models with rounding
-/

namespace TK
open NDArray

section
variable {u : ℝ} {rnd : ℝ → ℝ}

theorem FlSum.nonneg (hr : Rounds rnd u) {f : ℕ → ℝ} {s : Finset ℕ} {v : ℝ} (h : FlSum rnd f s v)
    (hf : ∀ i ∈ s, 0 ≤ f i) : 0 ≤ v := by
  induction h with
  | empty => exact le_rfl
  | single i => exact hf i (by simp)
  | add _ _ _ _ _ ih1 ih2 =>
    exact hr.round_nonneg (add_nonneg (ih1 fun i hi => hf i (Finset.mem_union_left _ hi))
      (ih2 fun i hi => hf i (Finset.mem_union_right _ hi)))

theorem FlSumSq.nonneg (hr : Rounds rnd u) {X Y : NDArray ℝ} {q : ℝ} (h : FlSumSq rnd X Y q) : 0 ≤ q := by
  obtain ⟨D, -, h⟩ := h
  exact h.nonneg hr fun i _ => hr.round_nonneg (mul_self_nonneg _)

theorem FlNormSq.nonneg (hr : Rounds rnd u) {X Y : NDArray ℝ} {q : ℝ} (h : FlNormSq rnd X Y q) : 0 ≤ q := by
  obtain ⟨D, n, -, -, rfl⟩ := h
  exact hr.round_nonneg (mul_self_nonneg _)

theorem FlAccum.nonneg (hr : Rounds rnd u) {term : NDArray ℝ → NDArray ℝ → ℝ → Prop} {Xs Ys : List (NDArray ℝ)} {e v : ℝ}
    (h : FlAccum rnd term Xs Ys e v) (ht : ∀ X Y q, term X Y q → 0 ≤ q) (he : 0 ≤ e) : 0 ≤ v := by
  induction h with
  | cons h1 _ ih => exact ih (hr.round_nonneg (add_nonneg he (ht _ _ _ h1)))
  | nilLeft => exact he
  | nilRight => exact he

theorem FlAccum.approx (hr : Rounds rnd u) {term : NDArray ℝ → NDArray ℝ → ℝ → Prop} {Xs Ys : List (NDArray ℝ)} {e v : ℝ}
    (h : FlAccum rnd term Xs Ys e v) : ∀ {n : ℕ} {x S : ℕ → ℝ} {x0 S0 : ℝ}, Approx u n x0 e S0 → Xs.length = Ys.length →
    (∀ k < Xs.length, ∀ q, term (nth Xs k) (nth Ys k) q → Approx u n (x k) q (S k)) →
    Approx u (n + Xs.length) (x0 + ∑ k ∈ Finset.range Xs.length, x k) v (S0 + ∑ k ∈ Finset.range Xs.length, S k) := by
  have hu := hr.nonneg
  induction h with
  | @cons X Y Xs Ys e q v h1 _ ih =>
    intro n x S x0 S0 h0 hl ht
    have a := (h0.add (ht 0 (by simp) q h1)).round hr
    have := ih (n := n + 1) (x := fun k => x (k + 1)) (S := fun k => S (k + 1)) a (by simpa using hl)
      (fun k hk q hq => (ht (k + 1) (by simpa using hk) q hq).mono hu (Nat.le_succ n))
    have e : ∀ (f : ℕ → ℝ) (c : ℝ), c + ∑ k ∈ Finset.range (Xs.length + 1), f k
        = c + f 0 + ∑ k ∈ Finset.range Xs.length, f (k + 1) := fun f c => by rw [Finset.sum_range_succ']; ring
    rw [List.length_cons, e, e]
    exact this.mono hu (by omega)
  | nilLeft => intro n x S x0 S0 h0 _ _; simpa using h0
  | nilRight => intro n x S x0 S0 _ hl; simp at hl

theorem FlAccum.exists {term : NDArray ℝ → NDArray ℝ → ℝ → Prop} : ∀ {Xs Ys : List (NDArray ℝ)} (e : ℝ),
    (∀ k < Xs.length, k < Ys.length → ∃ q, term (nth Xs k) (nth Ys k) q) → ∃ v, FlAccum rnd term Xs Ys e v
  | [], Ys, e, _ => ⟨e, .nilLeft Ys e⟩
  | X :: Xs, [], e, _ => ⟨e, .nilRight X Xs e⟩
  | X :: Xs, Y :: Ys, e, h => by
    obtain ⟨q, hq⟩ := h 0 (by simp) (by simp)
    obtain ⟨v, hv⟩ := FlAccum.exists (Xs := Xs) (Ys := Ys) (rnd (e + q)) fun k hk hk' =>
      h (k + 1) (by simpa using hk) (by simpa using hk')
    exact ⟨v, .cons hq hv⟩

theorem FlSumSq.approx (hr : Rounds rnd u) {X Y : NDArray ℝ} {e S : List ℕ → ℝ} {n : ℕ} {q : ℝ} (h : FlSumSq rnd X Y q)
    (hs : X.shape = Y.shape) (ha : ∀ idx, Valid X.shape idx → Approx u n (e idx) (Y.get idx) (S idx)) :
    Approx u (2 * n + X.shape.prod + 3) (sumIdx X.shape fun idx => (X.get idx - e idx) ^ 2) q
      (sumIdx X.shape fun idx => (|X.get idx| + S idx) ^ 2) := by
  obtain ⟨D, hD, h⟩ := h
  obtain ⟨D', e', hDs, hDg⟩ := zipB_sub_shape (fun x y => rnd (x - y)) hs
  rw [e'] at hD
  obtain rfl := Except.ok.inj hD
  have h1 := h.approx hr (n := 2 * n + 3)
    (e := fun p => (X.get (unravel X.shape p) - e (unravel X.shape p)) ^ 2)
    (S := fun p => (|X.get (unravel X.shape p)| + S (unravel X.shape p)) ^ 2) (by
      intro p hp
      rw [hDs] at hp
      have hp := Finset.mem_range.1 hp
      have hv := unravel_valid hp
      have a := ((Approx.refl n hr.nonneg (X.get (unravel X.shape p))).sub (ha _ hv)).round hr
      rw [flat_eq_get D' (by rw [hDs]; exact hp), hDs, hDg _ hv, sq, sq, flMul]
      exact ((a.mul hr.nonneg a).round hr).mono hr.nonneg (by omega))
  rw [hDs, sum_unravel (fun idx => (X.get idx - e idx) ^ 2), sum_unravel (fun idx => (|X.get idx| + S idx) ^ 2),
    Finset.card_range] at h1
  exact h1.mono hr.nonneg (by omega)

theorem FlNormSq.approx (hr : Rounds rnd u) {X Y : NDArray ℝ} {e S : List ℕ → ℝ} {n : ℕ} {q : ℝ} (h : FlNormSq rnd X Y q)
    (hs : X.shape = Y.shape) (ha : ∀ idx, Valid X.shape idx → Approx u n (e idx) (Y.get idx) (S idx)) :
    Approx u (2 * n + X.shape.prod + 5) (sumIdx X.shape fun idx => (X.get idx - e idx) ^ 2) q
      (sumIdx X.shape fun idx => (|X.get idx| + S idx) ^ 2) := by
  obtain ⟨D, v, hD, h, rfl⟩ := h
  obtain ⟨D', e', hDs, hDg⟩ := zipB_sub_shape (fun x y => rnd (x - y)) hs
  rw [e'] at hD
  obtain rfl := Except.ok.inj hD
  have := norm_sq_approx hr (n := n + 1) (e := fun idx => X.get idx - e idx) (S := fun idx => |X.get idx| + S idx) h (by
    intro idx hidx
    rw [hDs] at hidx
    rw [hDg idx hidx]
    exact ((Approx.refl _ hr.nonneg (X.get idx)).sub (ha idx hidx)).round hr)
  rw [hDs] at this
  exact this.mono hr.nonneg (by omega)

theorem FlSumSq.exists (rnd : ℝ → ℝ) {X Y : NDArray ℝ} (hs : X.shape = Y.shape) : ∃ q, FlSumSq rnd X Y q := by
  obtain ⟨D, e, -, -⟩ := zipB_sub_shape (fun x y => rnd (x - y)) hs
  obtain ⟨q, hq⟩ := FlSum.exists rnd (fun p => flMul rnd (D.flat p) (D.flat p)) (Finset.range D.shape.prod)
  exact ⟨q, D, e, hq⟩

theorem FlNormSq.exists (rnd : ℝ → ℝ) {X Y : NDArray ℝ} (hs : X.shape = Y.shape) : ∃ q, FlNormSq rnd X Y q := by
  obtain ⟨D, e, -, -⟩ := zipB_sub_shape (fun x y => rnd (x - y)) hs
  obtain ⟨n, hn⟩ := FlNorm.exists rnd D
  exact ⟨_, D, n, e, hn, rfl⟩

/-! ### PARAFAC2 -/

/-- The terms behind an entry of slice `k`. -/
noncomputable def p2Size (A D C Pk : NDArray ℝ) (R k i j : ℕ) : ℝ :=
  ∑ r ∈ Finset.range R, |A.get [i, r]| * |C.get [k, r]| * ∑ q ∈ Finset.range R, |Pk.get [j, q] * D.get [q, r]|

theorem flSlice_approx (hr : Rounds rnd u) {A Bk C Pk D Y : NDArray ℝ} {I J K R k : ℕ} (hA : A.shape = [I, R])
    (hC : C.shape = [K, R]) (hk : k < K) (hP : Pk.shape = [J, R]) (hD : D.shape = [R, R]) (hB : FlMatmul rnd Pk D Bk)
    (hY : FlSlice rnd A Bk C k Y) :
    Y.shape = [I, J] ∧ ∀ i < I, ∀ j < J,
      Approx u (2 * R + 1) (p2Entry A D C Pk R k i j) (Y.get [i, j]) (p2Size A D C Pk R k i j) := by
  obtain ⟨hBs, hB⟩ := hB.entry hP hD
  obtain ⟨c, scores, e1, e2, hY⟩ := hY
  rw [takeRow_ok hC hk] at e1
  obtain rfl := Except.ok.inj e1
  rw [zipB_vec_mat _ rfl hBs] at e2
  obtain rfl := Except.ok.inj e2
  obtain ⟨hYs, hY⟩ := hY.entry hA (shape_T (shape_ofMat _ _ _))
  refine ⟨hYs, fun i hi j hj => ?_⟩
  have h1 := (hY i hi j hj).approx hr (n := R + 1)
    (e := fun r => A.get [i, r] * C.get [k, r] * ∑ q ∈ Finset.range R, Pk.get [j, q] * D.get [q, r])
    (S := fun r => |A.get [i, r]| * |C.get [k, r]| * ∑ q ∈ Finset.range R, |Pk.get [j, q] * D.get [q, r]|) (by
      intro r hr'
      have hr' := Finset.mem_range.1 hr'
      have hb := (hB j hj r hr').approx hr (n := 0) (e := fun q => Pk.get [j, q] * D.get [q, r])
        (S := fun q => |Pk.get [j, q] * D.get [q, r]|) (fun q _ => Approx.refl 0 hr.nonneg _)
      rw [Finset.card_range, Nat.zero_add] at hb
      have a := (((Approx.refl 0 hr.nonneg (C.get [k, r])).mul hr.nonneg hb).round hr)
      have a2 := (Approx.refl 0 hr.nonneg (A.get [i, r])).mul hr.nonneg a
      rw [get_T (shape_ofMat _ _ _) hr' hj, get_ofMat hj hr', get_ofFn (by simpa using hr'), flMul, mul_assoc, mul_assoc]
      exact a2.mono hr.nonneg (by omega))
  rw [Finset.card_range] at h1
  exact h1.mono hr.nonneg (by omega)

theorem FlSlices.nth {A C : NDArray ℝ} {k0 : ℕ} {Bs Ys : List (NDArray ℝ)} (h : FlSlices rnd A C k0 Bs Ys) :
    Ys.length = Bs.length ∧ ∀ k < Bs.length, FlSlice rnd A (TK.nth Bs k) C (k0 + k) (TK.nth Ys k) := by
  induction h with
  | nil => exact ⟨rfl, fun k hk => by simp at hk⟩
  | @cons k0 Bk Y Bs Ys h1 _ ih =>
    refine ⟨by simp [ih.1], fun k hk => ?_⟩
    cases k with
    | zero => exact h1
    | succ k =>
      have := ih.2 k (by simpa using hk)
      rwa [show k0 + 1 + k = k0 + (k + 1) by omega] at this

theorem FlSlices.exists {A C : NDArray ℝ} : ∀ {Bs : List (NDArray ℝ)} {k0 : ℕ},
    (∀ k < Bs.length, ∃ Y, FlSlice rnd A (TK.nth Bs k) C (k0 + k) Y) → ∃ Ys, FlSlices rnd A C k0 Bs Ys
  | [], k0, _ => ⟨[], .nil k0⟩
  | B :: Bs, k0, h => by
    obtain ⟨Y, hY⟩ := h 0 (by simp)
    obtain ⟨Ys, hYs⟩ := FlSlices.exists (A := A) (C := C) (Bs := Bs) (k0 := k0 + 1) fun k hk => by
      have := h (k + 1) (by simpa using hk)
      rwa [show k0 + (k + 1) = k0 + 1 + k by omega] at this
    exact ⟨Y :: Ys, .cons hY hYs⟩

theorem FlBs.nth {D : NDArray ℝ} {P B : List (NDArray ℝ)} (h : FlBs rnd D P B) :
    B.length = P.length ∧ ∀ k < P.length, FlMatmul rnd (TK.nth P k) D (TK.nth B k) := by
  refine ⟨(List.Forall₂.length_eq h).symm, fun k hk => ?_⟩
  have hk' : k < B.length := by rw [← List.Forall₂.length_eq h]; exact hk
  rw [nth_lt hk, nth_lt hk']
  exact (List.forall₂_iff_get.1 h).2 k hk hk'

/-- The number of roundings that the bound allows for. -/
def p2Roundings (I : ℕ) (Js : List ℕ) (R : ℕ) : ℕ := 4 * R + I * Js.sum + Js.length + 5

theorem getD_le_sum (l : List ℕ) (k : ℕ) : l.getD k 0 ≤ l.sum := by
  induction l generalizing k with
  | nil => simp
  | cons a l ih =>
    cases k with
    | zero => simp
    | succ k =>
      have := ih k
      simp only [List.getD_cons_succ, List.sum_cons]
      omega

/-- **C135**: the error that `Parafac2_ALS` reports differs from the true one by at most the effect of `p2Roundings`
roundings on the squared size of the terms. -/
theorem C135_parafac2_error_bound (hr : Rounds rnd u) {s : P2State} {I R : ℕ} {Js : List ℕ} {v : ℝ} (h : s.Sized I Js R)
    (hv : FlP2SSE rnd s v) :
    |v - s.err I Js R| ≤ ((1 + u) ^ p2Roundings I Js R - 1) * ∑ k ∈ Finset.range Js.length, ∑ i ∈ Finset.range I,
      ∑ j ∈ Finset.range (Js.getD k 0),
        (|(nth s.X k).get [i, j]| + p2Size s.A s.D s.C (nth s.P k) R k i j) ^ 2 := by
  obtain ⟨B, Y, hB, hY, hv⟩ := hv
  have hB : FlBs rnd s.D s.P B := hB
  have hY : FlSlices rnd s.A s.C 0 B Y := hY
  obtain ⟨lB, hB⟩ := hB.nth
  obtain ⟨lY, hY⟩ := hY.nth
  have lP := h.P.length_eq
  have key := hv.approx hr (n := 4 * R + I * Js.sum + 5) (x0 := 0) (S0 := 0)
    (x := fun k => ∑ i ∈ Finset.range I, ∑ j ∈ Finset.range (Js.getD k 0),
      ((nth s.X k).get [i, j] - p2Entry s.A s.D s.C (nth s.P k) R k i j) ^ 2)
    (S := fun k => ∑ i ∈ Finset.range I, ∑ j ∈ Finset.range (Js.getD k 0),
      (|(nth s.X k).get [i, j]| + p2Size s.A s.D s.C (nth s.P k) R k i j) ^ 2)
    (Approx.zero _) (by rw [h.lenX, lY, lB, lP]) (by
      intro k hk q hq
      rw [h.lenX] at hk
      have hX : (nth s.X k).shape = [I, Js.getD k 0] := shape_nth h.X hk
      obtain ⟨hYs, hYa⟩ := flSlice_approx hr h.A h.C hk (h.P.shape_nth hk) h.D (hB k (by omega))
        (by simpa using hY k (by omega))
      have := hq.approx hr (n := 2 * R + 1) (e := fun idx => p2Entry s.A s.D s.C (nth s.P k) R k (idx.getD 0 0) (idx.getD 1 0))
        (S := fun idx => p2Size s.A s.D s.C (nth s.P k) R k (idx.getD 0 0) (idx.getD 1 0)) (hX.trans hYs.symm) (by
          intro idx hidx
          rw [hX] at hidx
          obtain ⟨i, is, rfl, hi, his⟩ := valid_cons_iff.1 hidx
          obtain ⟨j, js, rfl, hj, hjs⟩ := valid_cons_iff.1 his
          simp at hjs; subst hjs
          exact hYa i hi j hj)
      rw [hX, sumIdx_two, sumIdx_two] at this
      refine this.mono hr.nonneg ?_
      have : I * Js.getD k 0 ≤ I * Js.sum := Nat.mul_le_mul_left _ (getD_le_sum _ _)
      simp only [List.prod_cons, List.prod_nil, Nat.mul_one]
      omega)
  rw [h.lenX, zero_add, zero_add] at key
  exact (key.mono hr.nonneg (n := p2Roundings I Js R) (by rw [p2Roundings]; omega)).err

/-- **C135**: the error that `Parafac2_ALS` reports is not negative, whatever the sizes. -/
theorem C135_parafac2_nonneg (hr : Rounds rnd u) {s : P2State} {v : ℝ} (hv : FlP2SSE rnd s v) : 0 ≤ v := by
  obtain ⟨B, Y, -, -, hv⟩ := hv
  exact hv.nonneg hr (fun X Y q hq => hq.nonneg hr) le_rfl

/-- **C135**: the error can be evaluated. -/
theorem C135_parafac2_evaluates (hr : Rounds rnd u) {s : P2State} {I R : ℕ} {Js : List ℕ} (h : s.Sized I Js R) :
    ∃ v, FlP2SSE rnd s v := by
  have lP := h.P.length_eq
  choose f hf using fun k : Fin Js.length => FlMatmul.exists rnd (h.P.shape_nth k.2) h.D
  obtain ⟨B, hB⟩ : ∃ B, FlBs rnd s.D s.P B := by
    refine ⟨List.ofFn f, ?_⟩
    rw [FlBs, List.forall₂_iff_get]
    refine ⟨by simp [lP], fun k hk hk' => ?_⟩
    have := hf ⟨k, by omega⟩
    rw [nth_lt hk] at this
    simpa using this
  obtain ⟨lB, hB'⟩ := hB.nth
  obtain ⟨Y, hY⟩ : ∃ Y, FlSlices rnd s.A s.C 0 B Y := by
    refine FlSlices.exists fun k hk => ?_
    have hk' : k < Js.length := by omega
    obtain ⟨hBs, -⟩ := (hB' k (by omega)).entry (h.P.shape_nth hk') h.D
    obtain ⟨Y, hY⟩ := FlMatmul.exists rnd h.A (shape_T (shape_ofMat (Js.getD k 0) R fun i r =>
      flMul rnd ((ofFn [R] fun idx => s.C.get [k, idx.getD 0 0]).get [r]) ((nth B k).get [i, r])))
    rw [Nat.zero_add]
    exact ⟨Y, _, _, takeRow_ok h.C hk', zipB_vec_mat _ rfl hBs, hY⟩
  obtain ⟨lY, hY'⟩ := hY.nth
  obtain ⟨v, hv⟩ : ∃ v, FlAccum rnd (FlSumSq rnd) s.X Y 0 v := by
    refine FlAccum.exists 0 fun k hk hk' => FlSumSq.exists rnd ?_
    have hk'' : k < Js.length := by omega
    rw [shape_nth h.X hk'']
    exact (flSlice_approx hr h.A h.C hk'' (h.P.shape_nth hk'') h.D (hB' k (by omega))
        (by simpa using hY' k (by omega))).1.symm
  exact ⟨v, B, Y, hB, hY, hv⟩

/-- **C135**: without rounding, the evaluation gives what the rest of the model computes. -/
theorem C135_parafac2_exact {s : P2State} {I R : ℕ} {Js : List ℕ} {v : ℝ} (h : s.Sized I Js R) (hv : FlP2SSE id s v) :
    P2.sse s = .ok v := by
  have e := C135_parafac2_error_bound rounds_id h hv
  have : |v - s.err I Js R| ≤ 0 := by simpa using e
  rw [h.sse, ← sub_eq_zero.1 (abs_nonpos_iff.1 this)]

/-! ### Coupled matrices and tensors -/

theorem FlReconstruct.nth {k : ℕ} {Us Vs ws Zs : List (NDArray ℝ)} (h : FlReconstruct rnd Us Vs ws Zs) (h1 : Us.length = k)
    (h2 : Vs.length = k) (h3 : ws.length = k) :
    Zs.length = k ∧ ∀ i < k, FlMatmul rnd (TK.nth Us i) (TK.nth Vs i).T (TK.nth Zs i) := by
  induction h generalizing k with
  | @cons U V w Z Us Vs ws Zs hZ _ ih =>
    obtain ⟨k, rfl⟩ : ∃ k', k = k' + 1 := ⟨Us.length, by simpa using h1.symm⟩
    obtain ⟨l, hi⟩ := ih (by simpa using h1) (by simpa using h2) (by simpa using h3)
    refine ⟨by simp [l], fun i hik => ?_⟩
    cases i with
    | zero => exact hZ
    | succ i => exact hi i (by omega)
  | stop h =>
    obtain rfl : k = 0 := by rcases h with rfl | rfl | rfl <;> simp_all
    exact ⟨rfl, fun i hi => by omega⟩

theorem FlReconstruct.exists : ∀ {Us Vs ws : List (NDArray ℝ)},
    (∀ i < Us.length, i < Vs.length → ∃ Z, FlMatmul rnd (TK.nth Us i) (TK.nth Vs i).T Z) →
    ∃ Zs, FlReconstruct rnd Us Vs ws Zs
  | [], _, _, _ => ⟨[], .stop (.inl rfl)⟩
  | _ :: _, [], _, _ => ⟨[], .stop (.inr (.inl rfl))⟩
  | _ :: _, _ :: _, [], _ => ⟨[], .stop (.inr (.inr rfl))⟩
  | U :: Us, V :: Vs, w :: ws, h => by
    obtain ⟨Z, hZ⟩ := h 0 (by simp) (by simp)
    obtain ⟨Zs, hZs⟩ := FlReconstruct.exists (Us := Us) (Vs := Vs) (ws := ws) fun i hi hi' =>
      h (i + 1) (by simpa using hi) (by simpa using hi')
    exact ⟨Z :: Zs, .cons hZ hZs⟩

/-- The squared size of the terms behind the error of one coupled matrix. -/
noncomputable def matSize (Y U V : NDArray ℝ) (R : ℕ) : ℝ :=
  ∑ i ∈ Finset.range (Y.shape.getD 0 0), ∑ j ∈ Finset.range (Y.shape.getD 1 0),
    (|Y.get [i, j]| + ∑ r ∈ Finset.range R, |U.get [i, r] * V.get [j, r]|) ^ 2

theorem matErr_approx (hr : Rounds rnd u) {Y U V Z : NDArray ℝ} {n q R : ℕ} {v : ℝ} (hY : Y.shape = [n, q])
    (hU : U.shape = [n, R]) (hV : V.shape = [q, R]) (hZ : FlMatmul rnd U V.T Z) (hv : FlNormSq rnd Y Z v) :
    Approx u (2 * R + n * q + 5) (matErr Y U V R) v (matSize Y U V R) := by
  obtain ⟨hZs, hZe⟩ := hZ.entry hU (shape_T hV)
  have := hv.approx hr (n := R) (e := fun idx => ∑ r ∈ Finset.range R, U.get [idx.getD 0 0, r] * V.get [idx.getD 1 0, r])
    (S := fun idx => ∑ r ∈ Finset.range R, |U.get [idx.getD 0 0, r] * V.get [idx.getD 1 0, r]|) (hY.trans hZs.symm) (by
      intro idx hidx
      rw [hY] at hidx
      obtain ⟨i, is, rfl, hi, his⟩ := valid_cons_iff.1 hidx
      obtain ⟨j, js, rfl, hj, hjs⟩ := valid_cons_iff.1 his
      simp at hjs; subst hjs
      have := (hZe i hi j hj).approx hr (n := 0) (e := fun r => U.get [i, r] * V.get [j, r])
        (S := fun r => |U.get [i, r] * V.get [j, r]|) (fun r hr' => by
          rw [get_T hV (Finset.mem_range.1 hr') hj]; exact Approx.refl 0 hr.nonneg _)
      rw [Finset.card_range, Nat.zero_add] at this
      exact this)
  rw [matErr, matSize, hY]
  rw [hY, sumIdx_two, sumIdx_two] at this
  simpa using this

/-- The number of roundings that the bound allows for: `qs` are the numbers of columns of the coupled matrices. -/
def CMTFState.roundings (s : CMTFState) (R : ℕ) (qs : List ℕ) : ℕ :=
  2 * (s.cp.X.shape.length + R) + s.cp.X.shape.prod + s.cp.X.shape.sum * qs.sum + s.Ys.length + 6

/-- The squared size of the terms behind the error. -/
noncomputable def CMTFState.lossSize (s : CMTFState) (R : ℕ) (ms : List ℕ) : ℝ :=
  (sumIdx s.cp.X.shape fun idx =>
    (|s.cp.X.get idx| + cpSize (fun r => s.cp.dec.weights.get [r]) s.cp.dec.factorMatrices R idx) ^ 2) +
  ∑ i ∈ Finset.range ms.length,
    matSize (s.Ys.getD i noArr) (s.cp.dec.factorMatrices.getD (ms.getD i 0) noArr) (s.V.getD i noArr) R

/-- **C135**: the error that `CMTF_ALS` reports differs from the true one by at most the effect of `roundings` roundings on
the squared size of the terms. -/
theorem C135_cmtf_error_bound (hr : Rounds rnd u) {s : CMTFState} {R : ℕ} {ms qs : List ℕ} {v : ℝ} (h : s.Sized R ms qs)
    (hv : FlCMTFSSE rnd s v) :
    |v - s.trueLoss R ms| ≤ ((1 + u) ^ s.roundings R qs - 1) * s.lossSize R ms := by
  obtain ⟨Y, q, Us, Z, e, hY, hq, hUs, hZ, he, rfl⟩ := hv
  rw [coupledFactors_ok h] at hUs
  obtain rfl := Except.ok.inj hUs
  obtain ⟨hYs, hYa⟩ := construct_approx hr h.cp.wf h.cp.order hY
  have a1 := hq.approx hr hYs.symm hYa
  obtain ⟨lZ, hZ⟩ := hZ.nth (k := ms.length) (by simp) h.lenV h.lenW
  have hU : ∀ i < ms.length, nth (ms.map fun m => s.cp.dec.factorMatrices.getD m noArr) i
      = s.cp.dec.factorMatrices.getD (ms.getD i 0) noArr := by
    intro i hi
    rw [nth_lt (by simpa using hi), List.getElem_map, getD_of_lt hi]
  have hnth : ∀ {l : List (NDArray ℝ)} {i : ℕ}, i < l.length → nth l i = l.getD i noArr := fun hi => by
    rw [nth_lt hi, getD_of_lt hi]
  have a2 := he.approx hr (n := 2 * R + s.cp.X.shape.sum * qs.sum + 5) (x0 := 0) (S0 := 0)
    (x := fun i => coupledErrAt s.cp.dec.factorMatrices s.Ys s.V ms R i)
    (S := fun i => matSize (s.Ys.getD i noArr) (s.cp.dec.factorMatrices.getD (ms.getD i 0) noArr) (s.V.getD i noArr) R)
    (Approx.zero _) (by rw [h.lenY, lZ]) (by
      intro i hi q hq
      have hi' : i < ms.length := by rw [← h.lenY]; exact hi
      have hZi := hZ i hi'
      rw [hU i hi', hnth (by rw [h.lenV]; exact hi')] at hZi
      rw [hnth hi] at hq
      refine (matErr_approx hr (h.shapeY i hi') (h.shapeU hi') (h.shapeV i hi') hZi hq).mono hr.nonneg ?_
      have := Nat.mul_le_mul (getD_le_sum s.cp.X.shape (ms.getD i 0)) (getD_le_sum qs i)
      omega)
  rw [zero_add, zero_add] at a2
  have a3 := ((a1.mono hr.nonneg (n := s.roundings R qs - 1) (by rw [CMTFState.roundings]; omega)).add
    (a2.mono hr.nonneg (n := s.roundings R qs - 1) (by rw [CMTFState.roundings]; omega))).round hr
  have hN : s.roundings R qs - 1 + 1 = s.roundings R qs := by rw [CMTFState.roundings]; omega
  rw [hN, h.lenY] at a3
  exact a3.err

/-- **C135**: the error that `CMTF_ALS` reports is not negative, whatever the sizes. -/
theorem C135_cmtf_nonneg (hr : Rounds rnd u) {s : CMTFState} {v : ℝ} (hv : FlCMTFSSE rnd s v) : 0 ≤ v := by
  obtain ⟨Y, q, Us, Z, e, -, hq, -, -, he, rfl⟩ := hv
  exact hr.round_nonneg (add_nonneg (hq.nonneg hr) (he.nonneg hr (fun X Y q hq => hq.nonneg hr) le_rfl))

/-- **C135**: the error can be evaluated. -/
theorem C135_cmtf_evaluates (hr : Rounds rnd u) {s : CMTFState} {R : ℕ} {ms qs : List ℕ} (h : s.Sized R ms qs) :
    ∃ v, FlCMTFSSE rnd s v := by
  obtain ⟨Y, hY⟩ := FlConstruct.exists hr h.cp.wf h.cp.order
  obtain ⟨q, hq⟩ := FlNormSq.exists rnd (construct_approx hr h.cp.wf h.cp.order hY).1.symm
  have hU : ∀ i < ms.length, nth (ms.map fun m => s.cp.dec.factorMatrices.getD m noArr) i
      = s.cp.dec.factorMatrices.getD (ms.getD i 0) noArr := by
    intro i hi
    rw [nth_lt (by simpa using hi), List.getElem_map, getD_of_lt hi]
  have hnth : ∀ {l : List (NDArray ℝ)} {i : ℕ}, i < l.length → nth l i = l.getD i noArr := fun hi => by
    rw [nth_lt hi, getD_of_lt hi]
  obtain ⟨Z, hZ⟩ := FlReconstruct.exists (rnd := rnd) (Us := ms.map fun m => s.cp.dec.factorMatrices.getD m noArr) (Vs := s.V)
    (ws := s.coupledWeights) (by
      intro i hi hi'
      have hi : i < ms.length := by simpa using hi
      rw [hU i hi, hnth hi']
      exact FlMatmul.exists rnd (h.shapeU hi) (shape_T (h.shapeV i hi)))
  obtain ⟨lZ, hZ'⟩ := hZ.nth (k := ms.length) (by simp) h.lenV h.lenW
  obtain ⟨e, he⟩ := FlAccum.exists (rnd := rnd) (term := FlNormSq rnd) (Xs := s.Ys) (Ys := Z) 0 (by
    intro i hi hi'
    have hi'' : i < ms.length := by rw [← h.lenY]; exact hi
    refine FlNormSq.exists rnd ?_
    have hZi := hZ' i hi''
    rw [hU i hi'', hnth (by rw [h.lenV]; exact hi'')] at hZi
    rw [hnth hi, h.shapeY i hi'', (hZi.entry (h.shapeU hi'') (shape_T (h.shapeV i hi''))).1])
  exact ⟨_, Y, q, _, Z, e, hY, hq, coupledFactors_ok h, hZ, he, rfl⟩

/-- **C135**: without rounding, the evaluation gives what the rest of the model computes. -/
theorem C135_cmtf_exact {s : CMTFState} {R : ℕ} {ms qs : List ℕ} {v : ℝ} (h : s.Sized R ms qs) (hv : FlCMTFSSE id s v) :
    CMTF.sse s = .ok v := by
  have e := C135_cmtf_error_bound rounds_id h hv
  have : |v - s.trueLoss R ms| ≤ 0 := by simpa using e
  rw [cmtf_sse_ok h, ← sub_eq_zero.1 (abs_nonpos_iff.1 this)]

/-- **C135**: with a rounding that keeps numbers below one below one, not more than all of the variance is explained. -/
theorem C135_explained_le_one (hr : Rounds rnd u) (h1 : ∀ x ≤ 1, rnd x ≤ 1) {v n : ℝ}
    (hv : (∃ s, FlP2SSE rnd s v) ∨ ∃ s, FlCMTFSSE rnd s v) : flExplained rnd v n ≤ 1 := by
  have h0 : 0 ≤ v := by
    rcases hv with ⟨s, hv⟩ | ⟨s, hv⟩
    · exact C135_parafac2_nonneg hr hv
    · exact C135_cmtf_nonneg hr hv
  refine h1 _ ?_
  have := hr.round_nonneg (div_nonneg h0 (hr.round_nonneg (mul_self_nonneg n)))
  rw [flMul]
  linarith

/-- Double precision is such a rounding. -/
example : Rounds (roundBits 53) (1 / 2 ^ 53) ∧ ∀ x ≤ 1, roundBits 53 x ≤ 1 :=
  ⟨roundBits_rounds (by norm_num), fun _ hx => roundBits_le_one (by norm_num) hx⟩

/-- The hypotheses of the theorems about PARAFAC2 hold for a `2 × 2` slice and rank two, in double precision. -/
example : ∃ (s : P2State) (v : ℝ), s.Sized 2 [2] 2 ∧ FlP2SSE (roundBits 53) s v := by
  obtain ⟨v, h⟩ := C135_parafac2_evaluates (u := 1 / 2 ^ 53) (roundBits_rounds (by norm_num)) (p2Thin_sized none 0)
  exact ⟨_, v, p2Thin_sized none 0, h⟩

/-- The hypotheses of the theorems about coupled models hold for a `2 × 3` matrix with a coupled `2 × 4` matrix and a coupled
`3 × 2` matrix, rank two, in double precision. -/
example : ∃ (s : CMTFState) (v : ℝ), s.Sized 2 [0, 1] [4, 2] ∧ FlCMTFSSE (roundBits 53) s v := by
  have h : (cmtfPair (full [2, 3] 1) (full [2, 2] 3) (full [3, 2] 2) (full [2] 1) 2 [full [2, 4] 5, full [3, 2] 6]
      [full [4, 2] 1, full [2, 2] 7] [0, 1]).Sized 2 [0, 1] [4, 2] := by
    refine cmtfPair_sized (by norm_num) (by norm_num) rfl rfl rfl rfl
      (.cons (isMode_nat (m := 0) (by norm_num)) (.cons (isMode_nat (m := 1) (by norm_num)) .nil)) rfl rfl ?_ ?_ <;>
    · intro i hi
      have hi : i < 2 := hi
      interval_cases i <;> rfl
  obtain ⟨v, hv⟩ := C135_cmtf_evaluates (u := 1 / 2 ^ 53) (roundBits_rounds (by norm_num)) h
  exact ⟨_, v, h, hv⟩

end
end TK
