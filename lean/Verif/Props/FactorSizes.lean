import Verif.Props.Base

/-!
# C138: factor matrices that do not fit the tensor

`matrix_khatri_rao_product(X, factors, mode)` multiplies an unfolding of `X` with the Khatri-Rao product of the other factor
matrices, and the multiplication raises `ValueError` if the sizes do not match. The middle mode of a third-order tensor takes
another path, which slices the Khatri-Rao product into blocks and ignores the rows beyond the last block.

Source: base.py:145-191 (`matrix_khatri_rao_product`, `_mttkrp3`, `_mttkrp_mid`, `_mttkrp_mid_with_krp`).
-/

namespace TK
open NDArray

variable {α : Type} [CommSemiring α]

theorem matmul_mismatch {A B : NDArray α} {m k l n : ℕ} (hA : A.shape = [m, k]) (hB : B.shape = [l, n]) (h : k ≠ l) :
    matmul A B = .error .valueError := by
  simp [matmul, hA, hB, h]

theorem foldlM_error {ε β γ : Type} {f : β → γ → Except ε β} {l₁ l₂ : List γ} {b : β} {e : ε}
    (h : l₁.foldlM f b = .error e) : (l₁ ++ l₂).foldlM f b = .error e := by
  rw [List.foldlM_append, h]; rfl

/-- The blocks of `_mttkrp_mid_with_krp`, as long as the Khatri-Rao product has rows for them. -/
theorem mid_blocks {X krp : NDArray α} {a b c N R : ℕ} (hX : X.shape = [a, b, c]) (hK : krp.shape = [N, R]) {n : ℕ} (hna : n ≤ a)
    (hn : n * c ≤ N) :
    (List.range n).foldlM (m := Py) (init := full [b, R] (0 : α)) (fun product i => do
      let block ← matmul (subArr X i) (sliceRows krp (i * c) ((i + 1) * c))
      zipB (· + ·) product block)
    = .ok (ofMat b R fun j r => ∑ i ∈ Finset.range n, ∑ k ∈ Finset.range c, X.get [i, j, k] * krp.get [i * c + k, r]) := by
  induction n with
  | zero =>
    simp only [List.range_zero, List.foldlM_nil, Finset.range_zero, Finset.sum_empty, pure, Except.pure]
    rfl
  | succ n ih =>
    have h1 : n * c ≤ N := le_trans (Nat.mul_le_mul_right _ n.le_succ) hn
    have h3 : (n + 1) * c - n * c = c := by rw [Nat.add_mul]; omega
    have hslice : sliceRows krp (n * c) ((n + 1) * c) = ofMat c R fun k r => krp.get [n * c + k, r] := by
      unfold sliceRows
      rw [hK]
      simp only [List.getD_cons_zero, List.getD_cons_succ, min_eq_left hn, min_eq_left h1, h3]
    rw [List.range_succ, List.foldlM_append, ih (by omega) h1, bind_ok]
    have hsub : (subArr X n).shape = [b, c] := by simp [subArr, hX]
    simp only [List.foldlM_cons, List.foldlM_nil, hslice]
    rw [matmul_ok hsub (shape_ofMat _ _ _), bind_ok, zipB_mat_mat _ (shape_ofMat _ _ _) (shape_ofMat _ _ _), bind_ok]
    refine congrArg Except.ok ?_
    apply ofMat_congr
    intro j hj r hr
    rw [get_ofMat hj hr, get_ofMat hj hr, Finset.sum_range_succ]
    congr 1
    apply Finset.sum_congr rfl
    intro k hk
    have hk := Finset.mem_range.1 hk
    rw [get_ofMat hk hr, subArr, get_ofFn (by simp [hX, hj, hk])]

/-- Outside the middle mode of a third-order tensor, the function multiplies the unfolding with the Khatri-Rao product. -/
theorem mttkrp_general {X : NDArray α} {fs : List (NDArray α)} {sizes : List ℕ} {R k : ℕ} {mode : Int}
    (hfs : Factors fs sizes R) (hlen : sizes.length = X.shape.length) (h2 : 2 ≤ fs.length) (hk : IsMode mode fs.length k)
    (h0 : X.shape.getD k 0 ≠ 0) (h3 : fs.length = 3 → mode = 0 ∨ mode = 2 ∨ mode = -1) :
    matrixKhatriRaoProduct X fs mode = some <$> matmul (ofMat (X.shape.getD k 0) (X.shape.eraseIdx k).prod fun i p =>
      X.get ((unravel (X.shape.eraseIdx k) p).insertIdx k i)) (krMat (fs.eraseIdx k) (sizes.eraseIdx k) R) := by
  have hl : fs.length = X.shape.length := hfs.length_eq.trans hlen
  have hkX : normIdx mode X.shape.length = some k := by rw [← hl]; exact hk.norm
  have hgen : (do
      let M ← unfold X mode
      let krp ← khatriRao fs (some mode)
      some <$> matmul M krp : Py (Option (NDArray α))) = some <$> matmul (ofMat (X.shape.getD k 0) (X.shape.eraseIdx k).prod fun i p =>
      X.get ((unravel (X.shape.eraseIdx k) p).insertIdx k i)) (krMat (fs.eraseIdx k) (sizes.eraseIdx k) R) := by
    rw [unfold_eq X hkX h0, bind_ok, khatriRao_skip hfs hk.norm h2, bind_ok]
  rw [matrixKhatriRaoProduct, if_neg (by omega)]
  by_cases hl3 : fs.length = 3
  · rw [if_pos hl3, ← hgen]
    have hX3 : X.shape.length = 3 := by omega
    obtain ⟨a, b, c, hX⟩ : ∃ a b c, X.shape = [a, b, c] := by
      match hX : X.shape, hX3 with
      | [a, b, c], _ => exact ⟨a, b, c, rfl⟩
    rw [mttkrp3]
    rcases h3 hl3 with rfl | hm2
    · rw [if_pos rfl]
      have hu : (pyGet X.shape 0 >>= fun n0 => X.reshapeRows n0) = unfold X 0 := by
        have hk0 : k = 0 := by
          have := normIdx_some_iff.1 hkX; omega
        subst hk0
        rw [unfold_eq X hkX h0, pyGet_ok hkX, bind_ok]
        have hg : X.shape[0] = a := by simp [hX]
        have ha : a ≠ 0 := by simpa [hX] using h0
        rw [hg, reshapeRows_ok (c := b * c) ha (by simp [hX])]
        refine congrArg Except.ok ?_
        rw [ofFlat_mat, hX]
        simp only [List.getD_cons_zero, List.eraseIdx_cons_zero, List.prod_cons, List.prod_nil, mul_one]
        apply ofMat_congr
        intro i hi p hp
        have hp' : p < [b, c].prod := by simpa using hp
        rw [List.insertIdx_zero, NDArray.get, hX]
        congr 1
        have := ravel_unravel hp'
        rw [ravel, this]; simp
      rw [← hu]; simp [bind_assoc]
    · rw [if_neg (by omega), if_neg (by omega), if_pos hm2]
      have hmv : X.moveaxis (-1) 0 = X.moveaxis mode 0 := by
        rcases hm2 with rfl | rfl
        · simp [moveaxis, hX, normIdx]
        · rfl
      have hpg : pyGet X.shape (-1) = pyGet X.shape mode := by
        rcases hm2 with rfl | rfl
        · simp [pyGet, hX, normIdx]
        · rfl
      have hu : (X.moveaxis (-1) 0 >>= fun Y => pyGet X.shape (-1) >>= fun n2 => Y.reshapeRows n2)
          = unfold X mode := by
        rw [hmv, hpg]; rfl
      rw [← hu]; simp [bind_assoc]
  · rw [if_neg hl3, hgen]

/-- **C138** (partial): for every path but the middle mode of a third-order tensor, factor matrices for a tensor of another size
are rejected with `ValueError` unless the other modes have the same number of entries in total. Not covered: sizes with the same
product, and the middle mode (`C138_same_product`, `C138_middle`, `C138_not_rejected`). -/
theorem C138_rejected_partial (X : NDArray α) (fs : List (NDArray α)) (sizes : List ℕ) (R k : ℕ) (mode : Int)
    (hfs : Factors fs sizes R) (hlen : sizes.length = X.shape.length) (h2 : 2 ≤ fs.length) (hk : IsMode mode fs.length k)
    (h0 : X.shape.getD k 0 ≠ 0) (h3 : fs.length = 3 → mode = 0 ∨ mode = 2 ∨ mode = -1)
    (hne : (X.shape.eraseIdx k).prod ≠ (sizes.eraseIdx k).prod) :
    matrixKhatriRaoProduct X fs mode = .error .valueError := by
  rw [mttkrp_general hfs hlen h2 hk h0 h3, matmul_mismatch (B := krMat _ _ _) (shape_ofMat _ _ _) (shape_ofMat _ _ _) hne]
  rfl

/-- **C138**, sizes with the same product: nothing is raised, and the entries of the tensor and the rows of the factor matrices
are paired in C order: entry `p` of the other modes with respect to the sizes of `X` is multiplied with row `p` with respect to
the sizes of the factor matrices. -/
theorem C138_same_product (X : NDArray α) (fs : List (NDArray α)) (sizes : List ℕ) (R k : ℕ) (mode : Int)
    (hfs : Factors fs sizes R) (hlen : sizes.length = X.shape.length) (h2 : 2 ≤ fs.length) (hk : IsMode mode fs.length k)
    (h0 : X.shape.getD k 0 ≠ 0) (h3 : fs.length = 3 → mode = 0 ∨ mode = 2 ∨ mode = -1)
    (he : (X.shape.eraseIdx k).prod = (sizes.eraseIdx k).prod) :
    ∃ M, matrixKhatriRaoProduct X fs mode = .ok (some M) ∧ M.shape = [X.shape.getD k 0, R] ∧
      ∀ i < X.shape.getD k 0, ∀ r < R, M.get [i, r] = ∑ p ∈ Finset.range (sizes.eraseIdx k).prod,
        X.get ((unravel (X.shape.eraseIdx k) p).insertIdx k i) * rankOne (fs.eraseIdx k) (unravel (sizes.eraseIdx k) p) r := by
  rw [mttkrp_general hfs hlen h2 hk h0 h3, matmul_ok (shape_ofMat _ _ _) (B := krMat _ _ _) (by rw [he]; exact shape_ofMat _ _ _)]
  refine ⟨_, rfl, shape_ofMat _ _ _, fun i hi r hr => ?_⟩
  rw [get_ofMat hi hr, he]
  refine Finset.sum_congr rfl fun p hp => ?_
  rw [get_ofMat hi (Finset.mem_range.1 hp), krMat, get_ofMat (Finset.mem_range.1 hp) hr]

/-- **C138** for the middle mode of a third-order tensor: factor matrices are rejected exactly if the Khatri-Rao product has too
few rows. With too many rows the first ones are used: entry `p` of the other modes of the tensor, in C order, is multiplied with
row `p` of the Khatri-Rao product. -/
theorem C138_middle (X F G H : NDArray α) (a b c a' b' c' R : ℕ) (hX : X.shape = [a, b, c])
    (hfs : Factors [F, G, H] [a', b', c'] R) :
    (a' * c' < a * c → matrixKhatriRaoProduct X [F, G, H] 1 = .error .valueError) ∧
    (a * c ≤ a' * c' → ∃ M, matrixKhatriRaoProduct X [F, G, H] 1 = .ok (some M) ∧ M.shape = [b, R] ∧
      ∀ j < b, ∀ r < R, M.get [j, r] = ∑ i ∈ Finset.range a, ∑ k ∈ Finset.range c,
        X.get [i, j, k] * (F.get [(i * c + k) / c', r] * H.get [(i * c + k) % c', r])) := by
  have e1 : pyGet [a, b, c] (-1) = .ok c := rfl
  have e2 : pyGet [a, b, c] (-2) = .ok b := rfl
  have e3 : pyGet [a' * c', R] (-1) = .ok R := rfl
  have e4 : pyGet [a, b, c] 0 = .ok a := rfl
  set krp := krMat [F, H] [a', c'] R with hkrp
  have hks : krp.shape = [a' * c', R] := by simp [hkrp, krMat]
  have heq : matrixKhatriRaoProduct X [F, G, H] 1 = some <$> (List.range a).foldlM (m := Py) (init := full [b, R] (0 : α))
      (fun product i => do
        let block ← matmul (subArr X i) (sliceRows krp (i * c) ((i + 1) * c))
        zipB (· + ·) product block) := by
    rw [matrixKhatriRaoProduct, if_neg (by rw [hX]; simp), if_pos (show [F, G, H].length = 3 from rfl), mttkrp3, if_neg (by omega), if_pos rfl, mttkrpMid,
      khatriRao_skip hfs (k := 1) rfl (by simp), bind_ok, show ([a', b', c'] : List ℕ).eraseIdx 1 = [a', c'] from rfl,
      show ([F, G, H] : List (NDArray α)).eraseIdx 1 = [F, H] from rfl, ← hkrp, mttkrpMidWithKrp, hX, hks]
    simp only [e1, e2, e3, e4, bind_ok]
  rw [heq]
  refine ⟨fun h => ?_, fun h => ?_⟩
  · have hc : 0 < c := by
      rcases Nat.eq_zero_or_pos c with rfl | h'
      · omega
      · exact h'
    set q := a' * c' / c with hq
    have hqa : q < a := (Nat.div_lt_iff_lt_mul hc).2 h
    have hq1 : q * c ≤ a' * c' := Nat.div_mul_le_self _ _
    have hq2 : a' * c' < (q + 1) * c := by
      have := Nat.lt_mul_div_succ (a' * c') hc
      rw [mul_comm (q + 1) c]; exact this
    have hfail : (List.range (q + 1)).foldlM (m := Py) (init := full [b, R] (0 : α)) (fun product i => do
        let block ← matmul (subArr X i) (sliceRows krp (i * c) ((i + 1) * c))
        zipB (· + ·) product block) = .error .valueError := by
      rw [List.range_succ, List.foldlM_append, mid_blocks hX hks hqa.le hq1, bind_ok]
      have hsub : (subArr X q).shape = [b, c] := by simp [subArr, hX]
      have hsl : (sliceRows krp (q * c) ((q + 1) * c)).shape = [a' * c' - q * c, R] := by
        unfold sliceRows
        rw [hks]
        simp [min_eq_right hq2.le, min_eq_left hq1]
      have h3 : (q + 1) * c = q * c + c := by ring
      simp only [List.foldlM_cons, List.foldlM_nil]
      rw [matmul_mismatch hsub hsl (by omega)]
      rfl
    have hsplit : List.range a = List.range (q + 1) ++ (List.range (a - (q + 1))).map fun i => q + 1 + i := by
      rw [← List.range_add]; congr 1; omega
    rw [hsplit, foldlM_error hfail]
    rfl
  · rw [mid_blocks hX hks le_rfl h]
    refine ⟨_, rfl, shape_ofMat _ _ _, fun j hj r hr => ?_⟩
    rw [get_ofMat hj hr]
    refine Finset.sum_congr rfl fun i hi => Finset.sum_congr rfl fun k hk => ?_
    have hp : i * c + k < a' * c' := by
      have h1 := Finset.mem_range.1 hi
      have h2 := Finset.mem_range.1 hk
      have : (i + 1) * c ≤ a * c := Nat.mul_le_mul_right _ h1
      rw [Nat.add_mul] at this; omega
    congr 1
    rw [hkrp, krMat, get_ofMat (by simpa using hp) hr]
    have hc' : 0 < c' := Nat.pos_of_ne_zero fun h => by simp [h] at hp
    have hdiv : (i * c + k) / c' < a' := (Nat.div_lt_iff_lt_mul hc').2 hp
    simp [unravel, rankOne, Nat.mod_eq_of_lt hdiv]

/-- **C138** is false as it stands: factor matrices with more rows than the tensor has entries along a mode are accepted for the
middle mode of a third-order tensor, and matrices whose sizes only have the right product are accepted in general. -/
theorem C138_not_rejected :
    (∃ (X : NDArray ℤ) (fs : List (NDArray ℤ)), X.shape = [1, 1, 1] ∧ Factors fs [2, 1, 1] 1 ∧
      ∃ M, matrixKhatriRaoProduct X fs 1 = .ok (some M)) ∧
    ∃ (X : NDArray ℤ) (fs : List (NDArray ℤ)), X.shape = [1, 2, 3] ∧ Factors fs [1, 3, 2] 1 ∧
      ∃ M, matrixKhatriRaoProduct X fs 0 = .ok (some M) := by
  refine ⟨⟨full [1, 1, 1] 1, [full [2, 1] 1, full [1, 1] 1, full [1, 1] 1], rfl, .cons rfl (.cons rfl (.cons rfl .nil)), ?_⟩,
    ⟨full [1, 2, 3] 1, [full [1, 1] 1, full [3, 1] 1, full [2, 1] 1], rfl, .cons rfl (.cons rfl (.cons rfl .nil)), ?_⟩⟩
  · obtain ⟨M, h, -⟩ := (C138_middle (full [1, 1, 1] (1 : ℤ)) (full [2, 1] 1) (full [1, 1] 1) (full [1, 1] 1) 1 1 1 2 1 1 1 rfl
      (.cons rfl (.cons rfl (.cons rfl .nil)))).2 (by norm_num)
    exact ⟨M, h⟩
  · obtain ⟨M, h, -⟩ := C138_same_product (full [1, 2, 3] (1 : ℤ)) [full [1, 1] 1, full [3, 1] 1, full [2, 1] 1] [1, 3, 2] 1 0 0
      (.cons rfl (.cons rfl (.cons rfl .nil))) rfl (by simp) ⟨by simp, .inl rfl⟩ (by simp) (fun _ => .inl rfl) (by simp)
    exact ⟨M, h⟩

/-- The hypotheses of `C138_rejected_partial` and of the first part of `C138_middle`: a factor matrix with three rows for a mode
of size two. -/
example : matrixKhatriRaoProduct (full [2, 2, 2] (1 : ℤ)) [full [2, 1] 1, full [2, 1] 1, full [3, 1] 1] 0 = .error .valueError ∧
    matrixKhatriRaoProduct (full [2, 2, 2] (1 : ℤ)) [full [1, 1] 1, full [2, 1] 1, full [2, 1] 1] 1 = .error .valueError :=
  ⟨C138_rejected_partial _ _ [2, 2, 3] 1 0 0 (.cons rfl (.cons rfl (.cons rfl .nil))) rfl (by simp) ⟨by simp, .inl rfl⟩ (by simp)
    (fun _ => .inl rfl) (by simp),
   (C138_middle _ _ _ _ 2 2 2 1 2 2 1 rfl (.cons rfl (.cons rfl (.cons rfl .nil)))).1 (by norm_num)⟩

end TK
