import Verif.Lemmas.Rounding
import Verif.Props.CP

/-!
# C134: the reported error with rounding
-/

namespace TK
open NDArray

section
variable {u : ℝ} {rnd : ℝ → ℝ}

theorem FlMatmul.entry {A B C : NDArray ℝ} {m k n : ℕ} (h : FlMatmul rnd A B C) (hA : A.shape = [m, k])
    (hB : B.shape = [k, n]) : C.shape = [m, n] ∧ ∀ i < m, ∀ j < n,
      FlDot rnd (fun l => A.get [i, l]) (fun l => B.get [l, j]) (Finset.range k) (C.get [i, j]) := by
  obtain ⟨m', k', n', h1, h2, h3, h4⟩ := h
  rw [hA] at h1
  rw [hB] at h2
  simp only [List.cons.injEq, and_true] at h1 h2
  obtain ⟨rfl, rfl⟩ := h1
  obtain ⟨-, rfl⟩ := h2
  exact ⟨h3, h4⟩

theorem FlMatmul.exists (rnd : ℝ → ℝ) {A B : NDArray ℝ} {m k n : ℕ} (hA : A.shape = [m, k]) (hB : B.shape = [k, n]) :
    ∃ C, FlMatmul rnd A B C := by
  choose f hf using fun i j => FlDot.exists rnd (fun l => A.get [i, l]) (fun l => B.get [l, j]) (Finset.range k)
  exact ⟨ofMat m n f, m, k, n, hA, hB, rfl, fun i hi j hj => by rw [get_ofMat hi hj]; exact hf i j⟩

/-- Every entry of the constructed tensor is right up to `d + R` roundings of its terms. -/
theorem construct_approx (hr : Rounds rnd u) {t : KruskalTensor} {sizes : List ℕ} {R : ℕ} {Y : NDArray ℝ}
    (h : t.WF sizes R) (h2 : 2 ≤ sizes.length) (hY : FlConstruct rnd t Y) :
    Y.shape = sizes ∧ ∀ idx, Valid sizes idx →
      Approx u (sizes.length + R) (cpEntry (fun r => t.weights.get [r]) t.factorMatrices R idx) (Y.get idx)
        (cpSize (fun r => t.weights.get [r]) t.factorMatrices R idx) := by
  obtain ⟨shape, f0, wf, krp, M, e1, e2, e3, e4, e5, e6⟩ := hY
  obtain ⟨-, hfs, hw⟩ := h
  rw [mapM_rows hfs] at e1
  obtain rfl := Except.ok.inj e1
  generalize hF : t.factorMatrices = fs at *
  cases hfs with
  | nil => simp at h2
  | cons h1 hfs =>
  rename_i F n fs s
  obtain rfl : F = f0 := Except.ok.inj e2
  rw [zipB_row_mat _ (by simp [hw]) h1] at e3
  obtain rfl := Except.ok.inj e3
  rw [List.tail_cons] at e4
  have hfl : fs.length = s.length := List.Forall₂.length_eq hfs
  have hs1 : 1 ≤ s.length := by simp at h2; omega
  obtain ⟨Q, eQ, hQ, hQa⟩ := flKhatriRao_approx hr hfs (by intro h0; rw [h0] at hfl; simp at hfl; omega)
  rw [eQ] at e4
  obtain rfl := Except.ok.inj e4
  obtain ⟨hM, hMa⟩ := e5.entry (shape_ofMat _ _ _) (shape_T hQ)
  rw [fold_eq _ (k := 0) (normIdx_zero (by simp)) (by simp [hM])] at e6
  obtain rfl := Except.ok.inj e6
  refine ⟨rfl, fun idx hidx => ?_⟩
  obtain ⟨i, is, rfl, hi, his⟩ := valid_cons_iff.1 hidx
  rw [get_ofFn hidx]
  simp only [List.getD_cons_zero, List.eraseIdx_cons_zero]
  have hrav := ravel_lt his
  have hflat : M.flat (i * s.prod + ravel s is) = M.get [i, ravel s is] := by
    rw [NDArray.get, hM]; simp [ravel]
  rw [hflat]
  have hd := (hMa i hi (ravel s is) hrav).approx hr (n := s.length)
    (e := fun r => t.weights.get [r] * rankOne (F :: fs) (i :: is) r)
    (S := fun r => |t.weights.get [r] * rankOne (F :: fs) (i :: is) r|) (by
      intro r hr'
      have hr' := Finset.mem_range.1 hr'
      rw [get_ofMat hi hr', get_T hQ hr' hrav, flMul]
      have hw0 : (newaxis0 t.weights).get [0, r] = t.weights.get [r] := by
        simp [newaxis0, NDArray.get, ravel, hw, NDArray.flat]
      rw [hw0]
      have a1 := (Approx.refl 0 hr.nonneg (t.weights.get [r] * F.get [i, r])).round hr
      have a2 := a1.mul hr.nonneg (hQa is his r hr')
      rw [← abs_mul] at a2
      have e : t.weights.get [r] * rankOne (F :: fs) (i :: is) r
          = t.weights.get [r] * F.get [i, r] * rankOne fs is r := by rw [rankOne]; ring
      rw [e]
      exact a2.mono hr.nonneg (by omega))
  rw [Finset.card_range] at hd
  exact hd.mono hr.nonneg (by simp)

/-- **C134**: every entry of the constructed tensor differs from the sum of its `R` terms by at most the effect of `d + R`
roundings on the size of these terms. -/
theorem C134_construct (hr : Rounds rnd u) {t : KruskalTensor} {sizes : List ℕ} {R : ℕ} {Y : NDArray ℝ}
    (h : t.WF sizes R) (h2 : 2 ≤ sizes.length) (hY : FlConstruct rnd t Y) :
    Y.shape = sizes ∧ ∀ idx, Valid sizes idx →
      |Y.get idx - cpEntry (fun r => t.weights.get [r]) t.factorMatrices R idx|
        ≤ ((1 + u) ^ (sizes.length + R) - 1) * cpSize (fun r => t.weights.get [r]) t.factorMatrices R idx :=
  ⟨(construct_approx hr h h2 hY).1, fun idx hidx => ((construct_approx hr h h2 hY).2 idx hidx).err⟩

/-- The terms behind an entry of the matricised tensor times Khatri-Rao product. -/
noncomputable def mttkrpSize (X : NDArray ℝ) (fs : List (NDArray ℝ)) (k i r : ℕ) : ℝ :=
  sumIdx (X.shape.eraseIdx k) fun idx => |X.get (idx.insertIdx k i) * rankOne (fs.eraseIdx k) idx r|

theorem mttkrp_matmul_approx (hr : Rounds rnd u) {X krp U M : NDArray ℝ} {fs : List (NDArray ℝ)} {k R n : ℕ}
    (hU : U = ofMat (X.shape.getD k 0) (X.shape.eraseIdx k).prod fun i p =>
      X.get ((unravel (X.shape.eraseIdx k) p).insertIdx k i))
    (hk : krp.shape = [(X.shape.eraseIdx k).prod, R])
    (ha : ∀ idx, Valid (X.shape.eraseIdx k) idx → ∀ r < R, Approx u n (rankOne (fs.eraseIdx k) idx r)
      (krp.get [ravel (X.shape.eraseIdx k) idx, r]) |rankOne (fs.eraseIdx k) idx r|) (hM : FlMatmul rnd U krp M) :
    M.shape = [X.shape.getD k 0, R] ∧ ∀ i < X.shape.getD k 0, ∀ r < R,
      Approx u (n + (X.shape.eraseIdx k).prod) (mttkrpEntry X fs k i r) (M.get [i, r]) (mttkrpSize X fs k i r) := by
  subst hU
  obtain ⟨hs, hd⟩ := hM.entry (shape_ofMat _ _ _) hk
  refine ⟨hs, fun i hi r hr' => ?_⟩
  have h := (hd i hi r hr').approx hr (n := n)
    (e := fun p => X.get ((unravel (X.shape.eraseIdx k) p).insertIdx k i)
      * rankOne (fs.eraseIdx k) (unravel (X.shape.eraseIdx k) p) r)
    (S := fun p => |X.get ((unravel (X.shape.eraseIdx k) p).insertIdx k i)
      * rankOne (fs.eraseIdx k) (unravel (X.shape.eraseIdx k) p) r|) (by
      intro p hp
      have hp := Finset.mem_range.1 hp
      rw [get_ofMat hi hp]
      have a := (Approx.refl 0 hr.nonneg (X.get ((unravel (X.shape.eraseIdx k) p).insertIdx k i))).mul hr.nonneg
        (ha _ (unravel_valid hp) r hr')
      rw [ravel_unravel hp, ← abs_mul, Nat.zero_add] at a
      exact a)
  rw [Finset.card_range] at h
  rw [sum_unravel (fun idx => X.get (idx.insertIdx k i) * rankOne (fs.eraseIdx k) idx r),
    sum_unravel (fun idx => |X.get (idx.insertIdx k i) * rankOne (fs.eraseIdx k) idx r|)] at h
  exact h

theorem mttkrp_mid_approx (hr : Rounds rnd u) {X krp : NDArray ℝ} {fs : List (NDArray ℝ)} {a b c R m : ℕ}
    (hX : X.shape = [a, b, c]) (hk : krp.shape = [a * c, R])
    (ha : ∀ idx, Valid [a, c] idx → ∀ r < R, Approx u m (rankOne (fs.eraseIdx 1) idx r)
      (krp.get [ravel [a, c] idx, r]) |rankOne (fs.eraseIdx 1) idx r|) :
    ∀ n ≤ a, ∀ {M : NDArray ℝ}, FlMid rnd X krp c b R n M → M.shape = [b, R] ∧ ∀ j < b, ∀ r < R,
      Approx u (m + c + n) (∑ i ∈ Finset.range n, ∑ k ∈ Finset.range c, X.get [i, j, k] * rankOne (fs.eraseIdx 1) [i, k] r)
        (M.get [j, r]) (∑ i ∈ Finset.range n, ∑ k ∈ Finset.range c, |X.get [i, j, k] * rankOne (fs.eraseIdx 1) [i, k] r|) := by
  intro n
  induction n with
  | zero =>
    intro _ M hM
    cases hM
    refine ⟨rfl, fun j hj r hr' => ?_⟩
    rw [get_full (by simp [hj, hr'])]
    simpa using Approx.zero (u := u) (m + c + 0)
  | succ n ih =>
    intro hn M hM
    cases hM with
    | succ hP hB hQ =>
    rename_i P B
    obtain ⟨hPs, hPa⟩ := ih (by omega) hP
    have hsub : (subArr X n).shape = [b, c] := by simp [subArr, hX]
    have h1 : (n + 1) * c ≤ a * c := Nat.mul_le_mul_right _ hn
    have h2 : n * c ≤ a * c := Nat.mul_le_mul_right _ (by omega)
    have h3 : (n + 1) * c - n * c = c := by rw [Nat.add_mul]; omega
    have hsl : sliceRows krp (n * c) ((n + 1) * c) = ofMat c R fun k r => krp.get [n * c + k, r] := by
      unfold sliceRows
      rw [hk]
      simp only [List.getD_cons_zero, List.getD_cons_succ, min_eq_left h1, min_eq_left h2, h3]
    rw [hsl] at hB
    obtain ⟨hBs, hBd⟩ := hB.entry hsub (shape_ofMat _ _ _)
    rw [zipB_mat_mat _ hPs hBs] at hQ
    obtain rfl := Except.ok.inj hQ
    refine ⟨rfl, fun j hj r hr' => ?_⟩
    rw [get_ofMat hj hr', Finset.sum_range_succ, Finset.sum_range_succ, flAdd]
    have h := (hBd j hj r hr').approx hr (n := m)
      (e := fun k => X.get [n, j, k] * rankOne (fs.eraseIdx 1) [n, k] r)
      (S := fun k => |X.get [n, j, k] * rankOne (fs.eraseIdx 1) [n, k] r|) (by
        intro k hk'
        have hk' := Finset.mem_range.1 hk'
        rw [get_ofMat hk' hr', subArr, get_ofFn (by simp [hX, hj, hk'])]
        have a' := (Approx.refl 0 hr.nonneg (X.get [n, j, k])).mul hr.nonneg
          (ha [n, k] (by simp [hk']; omega) r hr')
        rw [← abs_mul, Nat.zero_add] at a'
        simpa [ravel] using a')
    rw [Finset.card_range] at h
    exact ((hPa j hj r hr').add (h.mono hr.nonneg (by omega))).round hr

/-- Every entry of the cached matrix is right up to the roundings on the way to it. -/
theorem mttkrp_approx (hr : Rounds rnd u) {X M : NDArray ℝ} {fs : List (NDArray ℝ)} {k R : ℕ}
    (hfs : Factors fs X.shape R) (h2 : 2 ≤ fs.length) (hk : k < fs.length) (h0 : X.shape.getD k 0 ≠ 0)
    (hM : FlMttkrp rnd X fs k M) :
    M.shape = [X.shape.getD k 0, R] ∧ ∀ i < X.shape.getD k 0, ∀ r < R,
      Approx u (fs.length + (X.shape.eraseIdx k).prod + (X.shape.eraseIdx k).sum) (mttkrpEntry X fs k i r) (M.get [i, r])
        (mttkrpSize X fs k i r) := by
  have hu := hr.nonneg
  have hlen := hfs.length_eq
  obtain ⟨-, krp, ek, h⟩ := hM
  obtain ⟨Q, eQ, hQ, hQa⟩ := flKhatriRao_skip hr hfs hk h2
  rw [eQ] at ek
  obtain rfl := Except.ok.inj ek
  have fin : (∃ U, U = (ofMat (X.shape.getD k 0) (X.shape.eraseIdx k).prod fun i p =>
      X.get ((unravel (X.shape.eraseIdx k) p).insertIdx k i)) ∧ FlMatmul rnd U Q M) →
      M.shape = [X.shape.getD k 0, R] ∧ ∀ i < X.shape.getD k 0, ∀ r < R,
      Approx u (fs.length + (X.shape.eraseIdx k).prod + (X.shape.eraseIdx k).sum) (mttkrpEntry X fs k i r) (M.get [i, r])
        (mttkrpSize X fs k i r) := by
    rintro ⟨U, hU, hM⟩
    obtain ⟨hs, ha⟩ := mttkrp_matmul_approx hr hU hQ hQa hM
    exact ⟨hs, fun i hi r hr' => (ha i hi r hr').mono hu (by omega)⟩
  have hkX : normIdx (k : Int) X.shape.length = some k := normIdx_natCast (by omega)
  by_cases hl3 : fs.length = 3
  · obtain ⟨a, b, c, hX⟩ : ∃ a b c, X.shape = [a, b, c] := by
      have hX3 : X.shape.length = 3 := by omega
      match hX : X.shape, hX3 with
      | [a, b, c], _ => exact ⟨a, b, c, rfl⟩
    have hcases : k = 0 ∨ k = 1 ∨ k = 2 := by omega
    rcases hcases with rfl | rfl | rfl
    · rw [if_neg (by omega), if_pos ⟨hl3, rfl⟩] at h
      obtain ⟨U, eU, hM⟩ := h
      refine fin ⟨U, ?_, hM⟩
      have ha : a ≠ 0 := by simpa [hX] using h0
      have e0 : pyGet X.shape 0 = .ok a := by rw [hX]; rfl
      rw [e0, bind_ok, reshapeRows_ok (c := b * c) ha (by simp [hX])] at eU
      obtain rfl := Except.ok.inj eU
      rw [ofFlat_mat, hX]
      simp only [List.getD_cons_zero, List.eraseIdx_cons_zero, List.prod_cons, List.prod_nil, mul_one]
      apply ofMat_congr
      intro i hi p hp
      have hp' : p < [b, c].prod := by simpa using hp
      rw [List.insertIdx_zero, NDArray.get, hX]
      congr 1
      have := ravel_unravel hp'
      rw [ravel, this]; simp
    · rw [if_pos ⟨hl3, rfl⟩] at h
      obtain ⟨c', b', R', a', e1, e2, e3, e4, hM⟩ := h
      rw [hX] at e1 e2 e4
      rw [hQ] at e3
      obtain rfl : c = c' := Except.ok.inj e1
      obtain rfl : b = b' := Except.ok.inj e2
      obtain rfl : R = R' := Except.ok.inj e3
      obtain rfl : a = a' := Except.ok.inj e4
      have he : X.shape.eraseIdx 1 = [a, c] := by rw [hX]; rfl
      have hb : X.shape.getD 1 0 = b := by rw [hX]; rfl
      rw [he] at hQ hQa
      have hp : [a, c].prod = a * c := by simp
      rw [hp] at hQ
      obtain ⟨hs, ha⟩ := mttkrp_mid_approx hr (fs := fs) (m := fs.length - 2) hX hQ hQa a le_rfl hM
      rw [hb]
      refine ⟨hs, fun j hj r hr' => ?_⟩
      have := ha j hj r hr'
      have q1 : mttkrpEntry X fs 1 j r
          = ∑ i ∈ Finset.range a, ∑ k ∈ Finset.range c, X.get [i, j, k] * rankOne (fs.eraseIdx 1) [i, k] r := by
        rw [mttkrpEntry, he]; simp
      have q2 : mttkrpSize X fs 1 j r
          = ∑ i ∈ Finset.range a, ∑ k ∈ Finset.range c, |X.get [i, j, k] * rankOne (fs.eraseIdx 1) [i, k] r| := by
        rw [mttkrpSize, he]; simp
      rw [q1, q2, he]
      refine this.mono hu ?_
      simp; omega
    · rw [if_neg (by omega), if_neg (by omega), if_pos hl3] at h
      obtain ⟨-, U, eU, hM⟩ := h
      refine fin ⟨U, ?_, hM⟩
      have hu2 : (X.moveaxis (-1) 0 >>= fun Y => pyGet X.shape (-1) >>= fun n2 => Y.reshapeRows n2)
          = unfold X ((2 : ℕ) : Int) := by
        have hmv : X.moveaxis (-1) 0 = X.moveaxis ((2 : ℕ) : Int) 0 := by simp [moveaxis, hX, normIdx]
        have hpg : pyGet X.shape (-1) = pyGet X.shape ((2 : ℕ) : Int) := by simp [pyGet, hX, normIdx]
        rw [hmv, hpg]; rfl
      rw [hu2, unfold_eq X hkX h0] at eU
      exact (Except.ok.inj eU).symm
  · rw [if_neg (by omega), if_neg (by omega), if_neg hl3] at h
    obtain ⟨U, eU, hM⟩ := h
    rw [unfold_eq X hkX h0] at eU
    exact fin ⟨U, (Except.ok.inj eU).symm, hM⟩

theorem norm_sq_approx (hr : Rounds rnd u) {A : NDArray ℝ} {e S : List ℕ → ℝ} {n : ℕ} {v : ℝ} (h : FlNorm rnd A v)
    (ha : ∀ idx, Valid A.shape idx → Approx u n (e idx) (A.get idx) (S idx)) :
    Approx u (2 * n + A.shape.prod + 3) (sumIdx A.shape fun idx => e idx ^ 2) (rnd (v * v))
      (sumIdx A.shape fun idx => S idx ^ 2) := by
  obtain ⟨q, hq, rfl⟩ := h
  have h1 := hq.approx hr (n := 2 * n) (e := fun p => e (unravel A.shape p) ^ 2) (S := fun p => S (unravel A.shape p) ^ 2) (by
    intro p hp
    have hp := Finset.mem_range.1 hp
    rw [flat_eq_get A hp, two_mul, sq, sq]
    exact (ha _ (unravel_valid hp)).mul hr.nonneg (ha _ (unravel_valid hp)))
  rw [sum_unravel (fun idx => e idx ^ 2), sum_unravel (fun idx => S idx ^ 2), Finset.card_range] at h1
  exact h1.sqrt_sq hr (hq.nonneg hr)

/-- The inner product of a tensor with a sum of rank one terms, mode `m` last. -/
theorem inner_split {s : List ℕ} {m R : ℕ} (hm : m < s.length) (x : List ℕ → ℝ) (w : ℕ → ℝ) (F : ℕ → ℕ → ℝ)
    (k : List ℕ → ℕ → ℝ) :
    (sumIdx s fun idx => x idx * ∑ r ∈ Finset.range R, w r * (F (idx.getD m 0) r * k (idx.eraseIdx m) r))
      = ∑ r ∈ Finset.range R, w r * ∑ i ∈ Finset.range (s.getD m 0),
          F i r * sumIdx (s.eraseIdx m) fun is => x (is.insertIdx m i) * k is r := by
  rw [sumIdx_split hm]
  have h1 : ∀ i ∈ Finset.range (s.getD m 0), (sumIdx (s.eraseIdx m) fun is => x (is.insertIdx m i) *
      ∑ r ∈ Finset.range R, w r * (F ((is.insertIdx m i).getD m 0) r * k ((is.insertIdx m i).eraseIdx m) r))
      = ∑ r ∈ Finset.range R, w r * (F i r * sumIdx (s.eraseIdx m) fun is => x (is.insertIdx m i) * k is r) := by
    intro i _
    have h2 : (sumIdx (s.eraseIdx m) fun is => x (is.insertIdx m i) *
      ∑ r ∈ Finset.range R, w r * (F ((is.insertIdx m i).getD m 0) r * k ((is.insertIdx m i).eraseIdx m) r))
      = sumIdx (s.eraseIdx m) fun is => ∑ r ∈ Finset.range R, w r * (F i r * (x (is.insertIdx m i) * k is r)) := by
      refine sumIdx_congr fun is his => ?_
      have hl := his.length_eq
      rw [List.length_eraseIdx_of_lt hm] at hl
      rw [getD_insertIdx (by omega), eraseIdx_insertIdx', Finset.mul_sum]
      exact Finset.sum_congr rfl fun r _ => by ring
    rw [h2, sumIdx_sum]
    refine Finset.sum_congr rfl fun r _ => ?_
    rw [mul_sumIdx, mul_sumIdx]
  rw [Finset.sum_congr rfl h1, Finset.sum_comm]
  refine Finset.sum_congr rfl fun r _ => ?_
  rw [Finset.mul_sum]

theorem inner_approx (hr : Rounds rnd u) {X c F w : NDArray ℝ} {fs : List (NDArray ℝ)} {m R n : ℕ} {v : ℝ}
    (hfs : Factors fs X.shape R) (hw : w.shape = [R]) (hm : m < X.shape.length) (hF : fs[m]? = some F)
    (hc : c.shape = [X.shape.getD m 0, R])
    (ha : ∀ i < X.shape.getD m 0, ∀ r < R, Approx u n (mttkrpEntry X fs m i r) (c.get [i, r]) (mttkrpSize X fs m i r))
    (h : FlInner rnd w F c v) :
    Approx u (n + X.shape.getD m 0 + R + 2) (sumIdx X.shape fun idx => X.get idx * cpEntry (fun r => w.get [r]) fs R idx) v
      (sumIdx X.shape fun idx => |X.get idx| * cpSize (fun r => w.get [r]) fs R idx) := by
  have hu := hr.nonneg
  have hlen := hfs.length_eq
  have hm' : m < fs.length := by omega
  rw [List.getElem?_eq_getElem hm'] at hF
  obtain rfl := Option.some.inj hF
  obtain ⟨M, cs, p, e1, e2, e3, e4, e5⟩ := h
  rw [zipB_mat_mat _ (hfs.shape_get hm') hc] at e1
  obtain rfl := Except.ok.inj e1
  simp only [shape_ofMat, List.getD_cons_zero, List.getD_cons_succ] at e2 e3
  obtain ⟨p', ep, hps, hpg⟩ := zipB_sub_shape (flMul rnd) (hw.trans e2.symm)
  rw [ep] at e4
  obtain rfl := Except.ok.inj e4
  have hcol : ∀ r < R, Approx u (n + 1 + X.shape.getD m 0)
      (∑ i ∈ Finset.range (X.shape.getD m 0), (fs[m]).get [i, r] * mttkrpEntry X fs m i r) (cs.get [r])
      (∑ i ∈ Finset.range (X.shape.getD m 0), |(fs[m]).get [i, r]| * mttkrpSize X fs m i r) := by
    intro r hr'
    have := (e3 r hr').approx hr (n := n + 1) (e := fun i => (fs[m]).get [i, r] * mttkrpEntry X fs m i r)
      (S := fun i => |(fs[m]).get [i, r]| * mttkrpSize X fs m i r) (by
        intro i hi
        have hi := Finset.mem_range.1 hi
        rw [get_ofMat hi hr', flMul]
        have a := ((Approx.refl 0 hu ((fs[m]).get [i, r])).mul hu (ha i hi r hr')).round hr
        rwa [Nat.zero_add] at a)
    rwa [Finset.card_range] at this
  have htot := e5.approx hr (n := n + X.shape.getD m 0 + 2)
    (e := fun r => w.get [r] * ∑ i ∈ Finset.range (X.shape.getD m 0), (fs[m]).get [i, r] * mttkrpEntry X fs m i r)
    (S := fun r => |w.get [r]| * ∑ i ∈ Finset.range (X.shape.getD m 0), |(fs[m]).get [i, r]| * mttkrpSize X fs m i r) (by
      intro r hr'
      rw [hps, hw] at hr'
      have hr' : r < R := by simpa using hr'
      have hg : p'.flat r = p'.get [r] := by rw [NDArray.get, hps, hw]; simp [ravel]
      rw [hg, hpg [r] (by rw [hw]; simpa using hr'), flMul]
      have a := ((Approx.refl 0 hu (w.get [r])).mul hu (hcol r hr')).round hr
      exact a.mono hu (by omega))
  rw [hps, hw] at htot
  have hp1 : [R].prod = R := by simp
  rw [hp1, Finset.card_range] at htot
  have hs1 : (sumIdx X.shape fun idx => X.get idx * cpEntry (fun r => w.get [r]) fs R idx)
      = ∑ r ∈ Finset.range R, w.get [r] * ∑ i ∈ Finset.range (X.shape.getD m 0),
          (fs[m]).get [i, r] * mttkrpEntry X fs m i r := by
    have := inner_split (R := R) hm X.get (fun r => w.get [r]) (fun i r => (fs[m]).get [i, r]) (fun is r => rankOne (fs.eraseIdx m) is r)
    refine Eq.trans (sumIdx_congr fun idx hidx => ?_) this
    rw [cpEntry]
    congr 1
    refine Finset.sum_congr rfl fun r _ => ?_
    rw [rankOne_eraseIdx hm' (hidx.length_eq.trans hlen.symm)]
  have hs2 : (sumIdx X.shape fun idx => |X.get idx| * cpSize (fun r => w.get [r]) fs R idx)
      = ∑ r ∈ Finset.range R, |w.get [r]| * ∑ i ∈ Finset.range (X.shape.getD m 0),
          |(fs[m]).get [i, r]| * mttkrpSize X fs m i r := by
    have := inner_split (R := R) hm (fun idx => |X.get idx|) (fun r => |w.get [r]|) (fun i r => |(fs[m]).get [i, r]|)
      (fun is r => |rankOne (fs.eraseIdx m) is r|)
    simp only [← abs_mul] at this
    refine Eq.trans (sumIdx_congr fun idx hidx => ?_) (this.trans ?_)
    · rw [cpSize]
      congr 1
      refine Finset.sum_congr rfl fun r _ => ?_
      rw [rankOne_eraseIdx hm' (hidx.length_eq.trans hlen.symm)]
    · refine Finset.sum_congr rfl fun r _ => ?_
      rfl
  rw [hs1, hs2]
  exact htot.mono hu (by omega)

/-- The number of roundings that the bound allows for. -/
def CPState.roundings (s : CPState) (R : ℕ) : ℕ := 2 * (s.X.shape.length + R) + s.X.shape.prod + s.X.shape.sum + 7

/-- The cached quantities were computed, with rounding, from the data and the current factor matrices. -/
structure CPState.FlCached (rnd : ℝ → ℝ) (s : CPState) : Prop where
  norm : FlNorm rnd s.X s.XNorm
  cache : ∀ m, s.lastMode = some m → m < s.X.shape.length ∧ ∃ c, s.cache = some c ∧
    FlMttkrp rnd s.X s.dec.factorMatrices m c

/-- **C134**: the reported error differs from the true one by at most the effect of `roundings` roundings on the squared size
of the terms. -/
theorem C134_error_bound (hr : Rounds rnd u) {s : CPState} {R : ℕ} {v : ℝ} (h : s.Sized R) (hc : s.FlCached rnd)
    (hv : FlSSE rnd s v) :
    |v - s.trueSSE R| ≤ ((1 + u) ^ s.roundings R - 1) * sumIdx s.X.shape fun idx =>
      (|s.X.get idx| + cpSize (fun r => s.dec.weights.get [r]) s.dec.factorMatrices R idx) ^ 2 := by
  have hu := hr.nonneg
  have hlen := h.wf.factors.length_eq
  set E := fun idx => cpEntry (fun r => s.dec.weights.get [r]) s.dec.factorMatrices R idx with hE
  set S := fun idx => cpSize (fun r => s.dec.weights.get [r]) s.dec.factorMatrices R idx with hS
  cases hl : s.lastMode with
  | none =>
    rw [FlSSE, hl] at hv
    obtain ⟨Y, D, n, hY, hD, hn, rfl⟩ := hv
    obtain ⟨hYs, hYa⟩ := construct_approx hr h.wf h.order hY
    obtain ⟨D', e, hDs, hDg⟩ := zipB_sub_shape (fun x y => rnd (x - y)) hYs.symm
    rw [e] at hD
    obtain rfl := Except.ok.inj hD
    have := norm_sq_approx hr (n := s.X.shape.length + R + 1) (e := fun idx => s.X.get idx - E idx)
      (S := fun idx => |s.X.get idx| + S idx) hn (by
        intro idx hidx
        rw [hDs] at hidx
        rw [hDg idx hidx]
        exact ((Approx.refl _ hu (s.X.get idx)).sub (hYa idx hidx)).round hr)
    rw [hDs] at this
    exact (this.mono hu (n := s.roundings R) (by rw [CPState.roundings]; omega)).err
  | some m =>
    rw [FlSSE, hl] at hv
    obtain ⟨Y, yn, F, c, ip, hY, hyn, hF, hcc, hip, rfl⟩ := hv
    obtain ⟨hm, c', hc', hM⟩ := hc.cache m hl
    rw [hcc] at hc'
    obtain rfl := Option.some.inj hc'
    obtain ⟨hYs, hYa⟩ := construct_approx hr h.wf h.order hY
    have hm' : m < s.dec.factorMatrices.length := by omega
    rw [pyGet_ok (norm_nat hm')] at hF
    obtain ⟨hMs, hMa⟩ := mttkrp_approx hr h.wf.factors (by rw [hlen]; exact h.order) hm' (h.dim hm) hM
    have a1 := norm_sq_approx hr (n := 0) (e := s.X.get) (S := fun idx => |s.X.get idx|) hc.norm
      (fun idx _ => Approx.refl 0 hu _)
    have a2 := norm_sq_approx hr (e := E) (S := S) hyn (by rw [hYs]; exact hYa)
    have a3 := inner_approx hr h.wf.factors h.wf.weights hm (by
      rw [List.getElem?_eq_getElem hm']; exact congrArg some (Except.ok.inj hF)) hMs hMa hip
    have a4 := (a3.const_mul (c := 2) (by norm_num)).round hr
    rw [hYs] at a2
    have hpr : (s.X.shape.eraseIdx m).prod ≤ s.X.shape.prod := by
      rw [← prod_eraseIdx hm]
      exact Nat.le_mul_of_pos_left _ (Nat.pos_of_ne_zero (h.dim hm))
    have hsum : (s.X.shape.eraseIdx m).sum + s.X.shape.getD m 0 = s.X.shape.sum := by
      have : ∀ (l : List ℕ) (m : ℕ), m < l.length → (l.eraseIdx m).sum + l.getD m 0 = l.sum := by
        intro l
        induction l with
        | nil => intro m hm; simp at hm
        | cons a l ih =>
          intro m hm
          cases m with
          | zero => simp [Nat.add_comm]
          | succ m =>
            have := ih m (by simpa using hm)
            simp only [List.eraseIdx_cons_succ, List.sum_cons, List.getD_cons_succ]
            omega
      exact this _ _ hm
    have a5 := (((a1.mono hu (n := s.roundings R - 2) (by rw [CPState.roundings]; omega)).add
      (a2.mono hu (n := s.roundings R - 2) (by rw [CPState.roundings]; omega))).round hr)
    have a6 := (a5.sub (a4.mono hu (n := s.roundings R - 2 + 1) (by rw [CPState.roundings]; omega))).round hr
    have hN : s.roundings R - 2 + 1 + 1 = s.roundings R := by rw [CPState.roundings]; omega
    rw [hN] at a6
    have b := a6.err
    have q1 : (sumIdx s.X.shape fun idx => s.X.get idx ^ 2) + (sumIdx s.X.shape fun idx => E idx ^ 2)
        - 2 * (sumIdx s.X.shape fun idx => s.X.get idx * E idx) = s.trueSSE R := (sq_expand E).symm
    have q2 : (sumIdx s.X.shape fun idx => |s.X.get idx| ^ 2) + (sumIdx s.X.shape fun idx => S idx ^ 2)
        + 2 * (sumIdx s.X.shape fun idx => |s.X.get idx| * S idx)
        = sumIdx s.X.shape fun idx => (|s.X.get idx| + S idx) ^ 2 := by
      rw [mul_sumIdx, ← sumIdx_add, ← sumIdx_add]
      exact sumIdx_congr fun idx _ => by ring
    rw [← q1, ← q2]
    exact b

/-- **C134**: before the first update, the reported error is not negative. -/
theorem C134_start_nonneg_partial (hr : Rounds rnd u) {s : CPState} {v : ℝ} (hl : s.lastMode = none) (hv : FlSSE rnd s v) : 0 ≤ v := by
  rw [FlSSE, hl] at hv
  obtain ⟨Y, D, n, -, -, -, rfl⟩ := hv
  exact hr.round_nonneg (mul_self_nonneg n)

theorem rounds_id : Rounds id 0 := ⟨le_rfl, zero_le_one, by simp⟩

/-- **C134**: without rounding, the evaluation gives what the rest of the model computes. -/
theorem C134_exact {s : CPState} {R : ℕ} {v : ℝ} (h : s.Sized R) (hc : s.FlCached id) (hv : FlSSE id s v) :
    CP.sse s = .ok v := by
  have hlen := h.wf.factors.length_eq
  have e := C134_error_bound rounds_id h hc hv
  have e' : v = s.trueSSE R := by
    have : |v - s.trueSSE R| ≤ 0 := by simpa using e
    exact sub_eq_zero.1 (abs_nonpos_iff.1 this)
  rw [e']
  refine C35_sse h ⟨?_, fun m hm => ?_⟩
  · obtain ⟨q, hq, hn⟩ := hc.norm
    have := hq.approx rounds_id (n := 0) (e := fun p => s.X.get (unravel s.X.shape p) ^ 2)
      (S := fun p => |s.X.get (unravel s.X.shape p) ^ 2|) (by
        intro p hp
        rw [flat_eq_get s.X (Finset.mem_range.1 hp), ← sq]
        exact Approx.refl 0 le_rfl _)
    have e2 := this.err
    rw [sum_unravel (fun idx => s.X.get idx ^ 2)] at e2
    have : q = sumIdx s.X.shape fun idx => s.X.get idx ^ 2 := by
      refine sub_eq_zero.1 (abs_nonpos_iff.1 ?_)
      simpa using e2
    rw [hn, this]; rfl
  · obtain ⟨h1, c, h2, h3⟩ := hc.cache m hm
    obtain ⟨hs, ha⟩ := mttkrp_approx rounds_id h.wf.factors (by rw [hlen]; exact h.order) (by omega) (h.dim h1) h3
    refine ⟨h1, c, h2, hs, fun i hi r hr => ?_⟩
    have := (ha i hi r hr).err
    refine sub_eq_zero.1 (abs_nonpos_iff.1 ?_)
    simpa using this

/-! ### There is always an evaluation -/

theorem FlNorm.exists (rnd : ℝ → ℝ) (A : NDArray ℝ) : ∃ v, FlNorm rnd A v := by
  obtain ⟨q, h⟩ := FlDot.exists rnd A.flat A.flat (Finset.range A.shape.prod)
  exact ⟨_, q, h, rfl⟩

theorem FlConstruct.exists (hr : Rounds rnd u) {t : KruskalTensor} {sizes : List ℕ} {R : ℕ} (h : t.WF sizes R)
    (h2 : 2 ≤ sizes.length) : ∃ Y, FlConstruct rnd t Y := by
  obtain ⟨-, hfs, hw⟩ := h
  rw [show (∃ Y, FlConstruct rnd t Y) = ∃ Y, ∃ shape f0 wf krp M, t.factorMatrices.mapM rows = .ok shape ∧
    pyGet t.factorMatrices 0 = .ok f0 ∧ zipB (flMul rnd) (newaxis0 t.weights) f0 = .ok wf ∧
    flKhatriRao rnd t.factorMatrices.tail none = .ok krp ∧ FlMatmul rnd wf krp.T M ∧ fold M 0 shape = .ok Y from rfl]
  rw [mapM_rows hfs]
  generalize t.factorMatrices = fs at *
  cases hfs with
  | nil => simp at h2
  | cons h1 hfs =>
  rename_i F n fs s
  have hfl : fs.length = s.length := List.Forall₂.length_eq hfs
  obtain ⟨Q, eQ, hQ, -⟩ := flKhatriRao_approx hr hfs (by
    intro h0; rw [h0] at hfl; simp at hfl h2; omega)
  obtain ⟨M, hM⟩ := FlMatmul.exists rnd (A := ofMat n R fun i j => flMul rnd ((newaxis0 t.weights).get [0, j]) (F.get [i, j]))
    rfl (shape_T hQ)
  obtain ⟨hMs, -⟩ := hM.entry (shape_ofMat _ _ _) (shape_T hQ)
  exact ⟨_, _, F, _, Q, M, rfl, rfl, zipB_row_mat _ (by simp [hw]) h1, eQ, hM,
    fold_eq _ (k := 0) (normIdx_zero (by simp)) (by simp [hMs])⟩

theorem FlMid.exists (rnd : ℝ → ℝ) {X krp : NDArray ℝ} {a b c R : ℕ} (hX : X.shape = [a, b, c]) (hk : krp.shape = [a * c, R]) :
    ∀ n ≤ a, ∃ M, FlMid rnd X krp c b R n M ∧ M.shape = [b, R] := by
  intro n
  induction n with
  | zero => exact fun _ => ⟨_, .zero, rfl⟩
  | succ n ih =>
    intro hn
    obtain ⟨P, hP, hPs⟩ := ih (by omega)
    have hsub : (subArr X n).shape = [b, c] := by simp [subArr, hX]
    have h1 : (n + 1) * c ≤ a * c := Nat.mul_le_mul_right _ hn
    have h2 : n * c ≤ a * c := Nat.mul_le_mul_right _ (by omega)
    have h3 : (n + 1) * c - n * c = c := by rw [Nat.add_mul]; omega
    have hsl : (sliceRows krp (n * c) ((n + 1) * c)).shape = [c, R] := by
      unfold sliceRows
      rw [hk]
      simp only [List.getD_cons_zero, List.getD_cons_succ, min_eq_left h1, min_eq_left h2, h3, shape_ofMat]
    obtain ⟨B, hB⟩ := FlMatmul.exists rnd hsub hsl
    exact ⟨_, .succ hP hB (zipB_mat_mat _ hPs (hB.entry hsub hsl).1), rfl⟩

theorem FlMttkrp.exists (hr : Rounds rnd u) {X : NDArray ℝ} {fs : List (NDArray ℝ)} {k R : ℕ}
    (hfs : Factors fs X.shape R) (h2 : 2 ≤ fs.length) (hk : k < fs.length) (h0 : X.shape.getD k 0 ≠ 0) :
    ∃ M, FlMttkrp rnd X fs k M := by
  have hlen := hfs.length_eq
  obtain ⟨Q, eQ, hQ, -⟩ := flKhatriRao_skip hr hfs hk h2
  have hkX : normIdx (k : Int) X.shape.length = some k := normIdx_natCast (by omega)
  have hun := unfold_eq X hkX h0
  obtain ⟨M, hM⟩ := FlMatmul.exists rnd (A := ofMat (X.shape.getD k 0) (X.shape.eraseIdx k).prod fun i p =>
      X.get ((unravel (X.shape.eraseIdx k) p).insertIdx k i)) rfl hQ
  by_cases hl3 : fs.length = 3
  · obtain ⟨a, b, c, hX⟩ : ∃ a b c, X.shape = [a, b, c] := by
      have hX3 : X.shape.length = 3 := by omega
      match hX : X.shape, hX3 with
      | [a, b, c], _ => exact ⟨a, b, c, rfl⟩
    have hcases : k = 0 ∨ k = 1 ∨ k = 2 := by omega
    rcases hcases with rfl | rfl | rfl
    · have ha : a ≠ 0 := by simpa [hX] using h0
      have e0 : pyGet X.shape 0 = .ok a := by rw [hX]; rfl
      have hQ' : Q.shape = [b * c, R] := by rw [hQ, hX]; simp
      obtain ⟨M', hM'⟩ := FlMatmul.exists rnd (A := ofFlat [a, b * c] X.flat) rfl hQ'
      refine ⟨M', hlen.symm, Q, eQ, ?_⟩
      rw [if_neg (by omega), if_pos ⟨hl3, rfl⟩]
      exact ⟨_, by rw [e0, bind_ok, reshapeRows_ok (c := b * c) ha (by simp [hX])], hM'⟩
    · have hQ' : Q.shape = [a * c, R] := by rw [hQ, hX]; simp
      obtain ⟨M', hM', -⟩ := FlMid.exists rnd hX hQ' a le_rfl
      refine ⟨M', hlen.symm, Q, eQ, ?_⟩
      rw [if_pos ⟨hl3, rfl⟩]
      exact ⟨c, b, R, a, by rw [hX]; rfl, by rw [hX]; rfl, by rw [hQ']; rfl, by rw [hX]; rfl, hM'⟩
    · refine ⟨M, hlen.symm, Q, eQ, ?_⟩
      rw [if_neg (by omega), if_neg (by omega), if_pos hl3]
      refine ⟨rfl, _, ?_, hM⟩
      have hmv : X.moveaxis (-1) 0 = X.moveaxis ((2 : ℕ) : Int) 0 := by simp [moveaxis, hX, normIdx]
      have hpg : pyGet X.shape (-1) = pyGet X.shape ((2 : ℕ) : Int) := by simp [pyGet, hX, normIdx]
      rw [← hun, hmv, hpg]; rfl
  · refine ⟨M, hlen.symm, Q, eQ, ?_⟩
    rw [if_neg (by omega), if_neg (by omega), if_neg hl3]
    exact ⟨_, hun, hM⟩

theorem FlInner.exists (rnd : ℝ → ℝ) {w F c : NDArray ℝ} {m R : ℕ} (hw : w.shape = [R]) (hF : F.shape = [m, R])
    (hc : c.shape = [m, R]) : ∃ v, FlInner rnd w F c v := by
  have hM := zipB_mat_mat (flMul rnd) hF hc
  set M := ofMat m R fun i j => flMul rnd (F.get [i, j]) (c.get [i, j])
  choose f hf using fun r => FlSum.exists rnd (fun i => M.get [i, r]) (Finset.range m)
  obtain ⟨p, hp, -, -⟩ := zipB_sub_shape (flMul rnd) (A := w) (B := ofFn [R] fun idx => f (idx.getD 0 0)) hw
  obtain ⟨v, hv⟩ := FlSum.exists rnd p.flat (Finset.range p.shape.prod)
  refine ⟨v, M, _, p, hM, rfl, fun r hr => ?_, hp, hv⟩
  have hr : r < R := hr
  rw [get_ofFn (by simpa using hr)]
  exact hf r

/-- **C134**: for every start and every mode, the products can be cached and the error can be evaluated (so the other
statements are about something). -/
theorem C134_evaluates (hr : Rounds rnd u) {s : CPState} {R : ℕ} (h : s.Sized R) {m : ℕ} (hm : m < s.X.shape.length) :
    ∃ n c v, ({ s with XNorm := n, lastMode := some m, cache := some c } : CPState).FlCached rnd ∧
      FlSSE rnd { s with XNorm := n, lastMode := some m, cache := some c } v := by
  have hlen := h.wf.factors.length_eq
  have hm' : m < s.dec.factorMatrices.length := by omega
  obtain ⟨n, hn⟩ := FlNorm.exists rnd s.X
  obtain ⟨c, hc⟩ := FlMttkrp.exists hr h.wf.factors (by rw [hlen]; exact h.order) hm' (h.dim hm)
  obtain ⟨hcs, -⟩ := mttkrp_approx hr h.wf.factors (by rw [hlen]; exact h.order) hm' (h.dim hm) hc
  obtain ⟨Y, hY⟩ := FlConstruct.exists hr h.wf h.order
  obtain ⟨yn, hyn⟩ := FlNorm.exists rnd Y
  obtain ⟨ip, hip⟩ := FlInner.exists rnd h.wf.weights (h.wf.factors.shape_get hm') hcs
  exact ⟨n, c, _, ⟨hn, fun m' hm'' => by cases hm''; exact ⟨hm, c, rfl, hc⟩⟩, Y, yn, _, c, ip, hY, hyn,
    pyGet_ok (norm_nat hm'), rfl, hip, rfl⟩

end
end TK
