import Verif.Model.Base
import Verif.Spec.Tensor

/-! # Closed forms for the functions of `base.py` -/

namespace TK
variable {α : Type}

theorem bind_ok {β γ : Type} (a : β) (f : β → Py γ) : ((Except.ok a : Py β) >>= f) = f a := rfl
theorem bind_error {β γ : Type} (e : PyErr) (f : β → Py γ) :
    ((Except.error e : Py β) >>= f) = .error e := rfl

theorem pyGet_ok {β : Type} {l : List β} {n : Int} {k : ℕ} (h : normIdx n l.length = some k) :
    pyGet l n = .ok (l[k]'(normIdx_lt h)) := by
  simp [pyGet, h, List.getElem?_eq_getElem (normIdx_lt h)]

theorem pyPop_ok {β : Type} {l : List β} {n : Int} {k : ℕ} (h : normIdx n l.length = some k) :
    pyPop l n = .ok (l[k]'(normIdx_lt h), l.eraseIdx k) := by
  simp [pyPop, h, List.getElem?_eq_getElem (normIdx_lt h)]

theorem pyGet_error {β : Type} {l : List β} {n : Int} (h : normIdx n l.length = none) :
    pyGet l n = .error .indexError := by simp [pyGet, h]

theorem pyPop_error {β : Type} {l : List β} {n : Int} (h : normIdx n l.length = none) :
    pyPop l n = .error .indexError := by simp [pyPop, h]

theorem insertIdx_eraseIdx_getD {l : List ℕ} {k : ℕ} (h : k < l.length) :
    (l.eraseIdx k).insertIdx k (l.getD k 0) = l := by
  induction l generalizing k with
  | nil => simp at h
  | cons a l ih =>
    cases k with
    | zero => simp
    | succ k => simpa using ih (k := k) (by simpa using h)

theorem eraseIdx_insertIdx' {l : List ℕ} {k a : ℕ} : (l.insertIdx k a).eraseIdx k = l := by
  simp [List.eraseIdx_insertIdx_self]

theorem getD_insertIdx {l : List ℕ} {k a : ℕ} (h : k ≤ l.length) : (l.insertIdx k a).getD k 0 = a := by
  have : k < (l.insertIdx k a).length := by rw [List.length_insertIdx_of_le_length h]; omega
  simp [List.getD, List.getElem?_eq_getElem this, List.getElem_insertIdx_self]

theorem prod_eraseIdx {l : List ℕ} {k : ℕ} (h : k < l.length) :
    l.getD k 0 * (l.eraseIdx k).prod = l.prod := by
  induction l generalizing k with
  | nil => simp at h
  | cons a l ih =>
    cases k with
    | zero => simp
    | succ k =>
      have := ih (k := k) (by simpa using h)
      simp only [List.getD_cons_succ, List.eraseIdx_cons_succ, List.prod_cons]
      rw [← this]; ring

theorem unravel_append {s t : List ℕ} {p : ℕ} (hp : p < (s ++ t).prod) :
    unravel (s ++ t) p = unravel s (p / t.prod) ++ unravel t (p % t.prod) := by
  have hp' : p < s.prod * t.prod := by simpa using hp
  have hpos : 0 < t.prod := by
    rcases Nat.eq_zero_or_pos t.prod with h | h
    · simp [h] at hp'
    · exact h
  have h1 : p / t.prod < s.prod := (Nat.div_lt_iff_lt_mul hpos).2 hp'
  have h2 : p % t.prod < t.prod := Nat.mod_lt _ hpos
  apply ravel_inj (unravel_valid hp) ((unravel_valid h1).append (unravel_valid h2))
  rw [ravel_unravel hp, ravel_append (unravel_valid h1), ravel_unravel h1, ravel_unravel h2]
  rw [Nat.mul_comm]; exact (Nat.div_add_mod _ _).symm

@[simp] theorem unravel_single (n p : ℕ) : unravel [n] p = [p] := by simp [unravel]

namespace NDArray

theorem reshape_ok {A : NDArray α} {s : List ℕ} (h : A.shape.prod = s.prod) :
    A.reshape s = .ok ⟨s, A.data, A.wf.trans h⟩ := by simp [reshape, h]

theorem reshape_ok' [Zero α] {A : NDArray α} {s : List ℕ} (h : A.shape.prod = s.prod) :
    A.reshape s = .ok (ofFlat s A.flat) := by
  rw [reshape_ok h]
  congr 1
  refine ext_flat (A := ⟨s, A.data, A.wf.trans h⟩) (B := ofFlat s A.flat) rfl ?_
  intro p hp
  rw [flat_ofFlat (by simpa using hp)]
  rfl

theorem reshape_eq_ok_iff {A B : NDArray α} {s : List ℕ} :
    A.reshape s = .ok B ↔ B.shape = s ∧ B.data = A.data := by
  unfold reshape
  constructor
  · intro h
    split at h
    · cases h; exact ⟨rfl, rfl⟩
    · cases h
  · rintro ⟨rfl, hd⟩
    have : A.shape.prod = B.shape.prod := by rw [← A.wf, ← B.wf, hd]
    rw [dif_pos this]
    obtain ⟨s, d, w⟩ := B
    simp only at hd; subst hd; rfl

theorem reshapeRows_ok [Zero α] {A : NDArray α} {m c : ℕ} (hm : m ≠ 0) (h : A.shape.prod = m * c) :
    A.reshapeRows m = .ok (ofFlat [m, c] A.flat) := by
  rw [reshapeRows, if_neg hm, h, if_pos (Nat.mul_mod_right _ _),
    Nat.mul_div_cancel_left _ (Nat.pos_of_ne_zero hm), reshape_ok' (by simp [h])]

theorem ofFlat_mat [Zero α] {m c : ℕ} {f : ℕ → α} :
    ofFlat [m, c] f = ofMat m c fun i j => f (i * c + j) := by
  apply ext_mat (m := m) (n := c) rfl rfl
  intro i hi j hj
  rw [get_ofMat hi hj, get, flat_ofFlat]
  · simp [ravel]
  · exact ravel_lt (by simp [hi, hj])

theorem get_ofFlat [Zero α] {s : List ℕ} {f : ℕ → α} {idx : List ℕ} (h : Valid s idx) :
    (ofFlat s f).get idx = f (ravel s idx) := by
  rw [get, shape_ofFlat, flat_ofFlat (ravel_lt h)]

theorem eq_ofMat [Zero α] {A : NDArray α} {m n : ℕ} (h : A.shape = [m, n]) :
    A = ofMat m n fun i j => A.get [i, j] :=
  ext_mat h rfl fun i hi j hj => by rw [get_ofMat hi hj]

theorem ofMat_inj [Zero α] {m n : ℕ} {f g : ℕ → ℕ → α} :
    ofMat m n f = ofMat m n g ↔ ∀ i < m, ∀ j < n, f i j = g i j := by
  constructor
  · intro h i hi j hj
    have := congrArg (fun A => A.get [i, j]) h
    simpa [hi, hj] using this
  · exact ofMat_congr

theorem moveaxis_ok [Zero α] {A : NDArray α} {a b : Int} {s d : ℕ}
    (hs : normIdx a A.shape.length = some s) (hd : normIdx b A.shape.length = some d) :
    A.moveaxis a b = .ok (A.moveaxisNat s d) := by simp [moveaxis, hs, hd]

end NDArray
open NDArray

theorem normIdx_zero {d : ℕ} (h : 0 < d) : normIdx 0 d = some 0 := by
  simp [normIdx, h]

/-- Closed form of `unfold`. -/
theorem unfold_eq [Zero α] (A : NDArray α) {n : Int} {k : ℕ} (h : normIdx n A.shape.length = some k)
    (h0 : A.shape.getD k 0 ≠ 0) :
    unfold A n = .ok (ofMat (A.shape.getD k 0) (A.shape.eraseIdx k).prod fun i p =>
      A.get ((unravel (A.shape.eraseIdx k) p).insertIdx k i)) := by
  have hk := normIdx_lt h
  rw [unfold, moveaxis_ok h (normIdx_zero (by omega)), bind_ok, pyGet_ok h, bind_ok]
  have hg : A.shape[k] = A.shape.getD k 0 := by simp [List.getD, List.getElem?_eq_getElem hk]
  rw [hg, reshapeRows_ok (c := (A.shape.eraseIdx k).prod) h0 (by simp [moveaxisNat])]
  rw [ofFlat_mat]
  congr 1
  apply ofMat_congr
  intro i hi p hp
  have hlt : i * (A.shape.eraseIdx k).prod + p < (A.shape.getD k 0 :: A.shape.eraseIdx k).prod := by
    rw [List.prod_cons]
    calc i * (A.shape.eraseIdx k).prod + p < (i + 1) * (A.shape.eraseIdx k).prod := by
          rw [Nat.add_mul]; omega
      _ ≤ _ := Nat.mul_le_mul_right _ hi
  have hpos : 0 < (A.shape.eraseIdx k).prod := by omega
  simp only [moveaxisNat, List.insertIdx_zero, ofFn]
  rw [flat_ofFlat hlt]
  have hu : unravel (A.shape.getD k 0 :: A.shape.eraseIdx k) (i * (A.shape.eraseIdx k).prod + p)
      = i :: unravel (A.shape.eraseIdx k) p := by
    simp only [unravel]
    rw [Nat.mul_comm i, Nat.mul_add_div hpos, Nat.div_eq_of_lt hp, Nat.mul_add_mod,
      Nat.mod_eq_of_lt hp]; simp
  rw [hu]; simp

theorem unfold_error_mode [Zero α] (A : NDArray α) {n : Int} (h : normIdx n A.shape.length = none) :
    unfold A n = .error .valueError := by
  simp [unfold, moveaxis, h, bind_error]

theorem unfold_error_empty [Zero α] (A : NDArray α) {n : Int} {k : ℕ}
    (h : normIdx n A.shape.length = some k) (h0 : A.shape.getD k 0 = 0) :
    unfold A n = .error .valueError := by
  have hk := normIdx_lt h
  rw [unfold, moveaxis_ok h (normIdx_zero (by omega)), bind_ok, pyGet_ok h, bind_ok]
  have hg : A.shape[k] = A.shape.getD k 0 := by simp [List.getD, List.getElem?_eq_getElem hk]
  rw [hg, h0]; simp [reshapeRows]

/-- Closed form of `fold`. -/
theorem fold_eq [Zero α] (M : NDArray α) {n : Int} {k : ℕ} {s : List ℕ}
    (h : normIdx n s.length = some k) (hM : M.shape.prod = s.prod) :
    fold M n s = .ok (ofFn s fun idx =>
      M.flat (idx.getD k 0 * (s.eraseIdx k).prod + ravel (s.eraseIdx k) (idx.eraseIdx k))) := by
  have hk := normIdx_lt h
  have hg : s[k] = s.getD k 0 := by simp [List.getD, List.getElem?_eq_getElem hk]
  rw [fold, pyPop_ok h, bind_ok]
  simp only [hg]
  rw [reshape_ok' (by rw [hM, List.prod_cons, prod_eraseIdx hk]), bind_ok]
  have hlen : (s.getD k 0 :: s.eraseIdx k).length = s.length := by
    simp [List.length_eraseIdx, hk]; omega
  rw [moveaxis_ok (s := 0) (d := k) (normIdx_zero (by simp)) (by rw [shape_ofFlat, hlen]; exact h)]
  simp only [moveaxisNat, shape_ofFlat, List.eraseIdx_cons_zero, List.getD_cons_zero,
    List.insertIdx_zero]
  rw [insertIdx_eraseIdx_getD hk]
  congr 1
  apply ofFn_congr
  intro idx hidx
  rw [get_ofFlat]
  · simp [ravel]
  · exact ⟨hidx.getD_lt hk, hidx.eraseIdx⟩

theorem fold_error_size [Zero α] (M : NDArray α) {n : Int} {k : ℕ} {s : List ℕ}
    (h : normIdx n s.length = some k) (hM : M.shape.prod ≠ s.prod) :
    fold M n s = .error .valueError := by
  have hk := normIdx_lt h
  have hg : s[k] = s.getD k 0 := by simp [List.getD, List.getElem?_eq_getElem hk]
  rw [fold, pyPop_ok h, bind_ok]
  simp only [hg]
  rw [reshape, dif_neg (by rw [List.prod_cons, prod_eraseIdx hk]; exact hM), bind_error]

theorem fold_error_mode [Zero α] (M : NDArray α) {n : Int} {s : List ℕ}
    (h : normIdx n s.length = none) : fold M n s = .error .indexError := by
  rw [fold, pyPop_error h, bind_error]

/-! ### Khatri-Rao and Kronecker products -/

theorem dims2_ok {A : NDArray α} {m n : ℕ} (h : A.shape = [m, n]) : A.dims2 = .ok (m, n) := by
  simp [dims2, h]

theorem setRows_ofMat [Zero α] {m n : ℕ} {f : ℕ → ℕ → α} {start J : ℕ} {block : NDArray α} :
    setRows (ofMat m n f) start block J = ofMat m n fun p k =>
      if start ≤ p ∧ p < start + J then block.get [p - start, k] else f p k := by
  unfold setRows
  rw [shape_ofMat]
  apply ofFn_mat_congr
  intro i hi j hj
  simp [hi, hj]

/-- The block of rows computed for row `i` of `A`. -/
theorem kr_block [Zero α] [Mul α] {A B : NDArray α} {i J K : ℕ} (hB : B.shape = [J, K]) :
    zipB (· * ·) (rowAsMat A i K) B
      = .ok (ofMat J K fun j k => A.get [i, k] * B.get [j, k]) := by
  rw [zipB_row_mat _ (w := rowAsMat A i K) rfl hB]
  congr 1
  apply ofMat_congr
  intro j hj k hk
  rw [rowAsMat, get_ofMat (by omega) hk]

/-- The loop of `khatri_rao_binary` for arbitrary blocks of the right shape. -/
theorem krLoop_eq [Zero α] (mem : ℕ → α) {I J K : ℕ} (b : ℕ → NDArray α) :
    ∀ n ≤ I, (List.range n).foldlM (m := Py) (init := ofFlat [I * J, K] mem)
      (fun out i => (pure (setRows out (i * J) (b i) J) : Py (NDArray α)))
      = .ok (ofMat (I * J) K fun p k =>
          if p < n * J then (b (p / J)).get [p % J, k] else mem (p * K + k)) := by
  intro n
  induction n with
  | zero => intro _; simp [ofFlat_mat, pure, Except.pure]
  | succ n ih =>
    intro hn
    rw [List.range_succ, List.foldlM_append, ih (by omega), bind_ok]
    simp only [List.foldlM_cons, List.foldlM_nil, setRows_ofMat, pure, Except.pure, bind_ok]
    congr 1
    apply ofMat_congr
    intro p hp k hk
    have hJ : 0 < J := by
      rcases Nat.eq_zero_or_pos J with h | h
      · simp [h] at hp
      · exact h
    by_cases h1 : p < n * J
    · have : ¬ (n * J ≤ p ∧ p < n * J + J) := by omega
      have h2 : p < (n + 1) * J := by rw [Nat.add_mul]; omega
      rw [if_neg this, if_pos h1, if_pos h2]
    · by_cases h2 : p < (n + 1) * J
      · have h3 : n * J ≤ p ∧ p < n * J + J := by rw [Nat.add_mul] at h2; omega
        have h4 : p / J = n := Nat.div_eq_of_lt_le h3.1 h2
        have h5 : p % J = p - n * J := by
          have := Nat.div_add_mod p J
          rw [h4, Nat.mul_comm] at this; omega
        rw [if_pos h3, if_pos h2, h4, h5]
      · have h3 : ¬ (n * J ≤ p ∧ p < n * J + J) := by rw [Nat.add_mul] at h2; omega
        rw [if_neg h3, if_neg h1, if_neg h2]

theorem krLoop_eq' [Zero α] (mem : ℕ → α) {I J K : ℕ} (b : ℕ → NDArray α) :
    (List.range I).foldlM (m := Py) (init := ofFlat [I * J, K] mem)
      (fun out i => (pure (setRows out (i * J) (b i) J) : Py (NDArray α)))
      = .ok (ofMat (I * J) K fun p k => (b (p / J)).get [p % J, k]) := by
  rw [krLoop_eq mem b I le_rfl]
  congr 1
  apply ofMat_congr
  intro p hp k hk
  rw [if_pos hp]

theorem khatriRaoBinaryMem_eq [Zero α] [Mul α] (mem : ℕ → α) {A B : NDArray α} {I J K : ℕ}
    (hA : A.shape = [I, K]) (hB : B.shape = [J, K]) :
    khatriRaoBinaryMem mem A B
      = .ok (ofMat (I * J) K fun p k => A.get [p / J, k] * B.get [p % J, k]) := by
  simp only [khatriRaoBinaryMem, dims2_ok hA, dims2_ok hB, bind_ok, kr_block hB, shape_ofMat, if_true]
  rw [krLoop_eq']
  congr 1
  apply ofMat_congr
  intro p hp k hk
  have hJ : 0 < J := by
    rcases Nat.eq_zero_or_pos J with h | h
    · simp [h] at hp
    · exact h
  rw [get_ofMat (Nat.mod_lt _ hJ) hk]

/-- Whatever `np.empty` returned, the result is the same (or the same exception is raised). -/
theorem khatriRaoBinaryMem_indep [Zero α] [Mul α] (mem mem' : ℕ → α) (A B : NDArray α) :
    khatriRaoBinaryMem mem A B = khatriRaoBinaryMem mem' A B := by
  unfold khatriRaoBinaryMem
  cases hA : A.dims2 with
  | error e => rfl
  | ok d =>
    obtain ⟨I, KA⟩ := d
    cases hB : B.dims2 with
    | error e => rfl
    | ok d' =>
      obtain ⟨J, K⟩ := d'
      simp only [bind_ok]
      have hempty : ∀ (f : NDArray α → ℕ → Py (NDArray α)), I = 0 →
          (List.range I).foldlM (init := ofFlat [I * J, K] mem) f
            = (List.range I).foldlM (init := ofFlat [I * J, K] mem') f := by
        rintro f rfl
        simp [ofFlat]
      have hshape : ∀ i, (rowAsMat A i KA).shape = [1, KA] := fun _ => rfl
      rcases Nat.eq_zero_or_pos I with h0 | hpos
      · exact hempty _ h0
      cases hb : bshape [1, KA] B.shape with
      | none =>
        have hz : ∀ i, zipB (· * ·) (rowAsMat A i KA) B = .error .valueError := by
          intro i; simp [zipB, hshape, hb]
        simp only [hz, bind_error]
        obtain ⟨m, rfl⟩ : ∃ m, I = m + 1 := ⟨I - 1, by omega⟩
        simp [List.range_succ_eq_map, List.foldlM_cons, bind_error]
      | some t =>
        have hz : ∀ i, zipB (· * ·) (rowAsMat A i KA) B = .ok (ofFn t fun idx =>
            (rowAsMat A i KA).get (bidx [1, KA] idx) * B.get (bidx B.shape idx)) := by
          intro i; simp [zipB, hshape, hb]
        simp only [hz, bind_ok, shape_ofFn]
        by_cases ht : t = [J, K]
        · simp only [ht, if_true]
          rw [krLoop_eq', krLoop_eq']
        · simp only [ht, if_false]
          obtain ⟨m, rfl⟩ : ∃ m, I = m + 1 := ⟨I - 1, by omega⟩
          simp [List.range_succ_eq_map, List.foldlM_cons, throw, throwThe, MonadExceptOf.throw,
            bind_error]

theorem khatriRaoBinary_eq [Zero α] [Mul α] {A B : NDArray α} {I J K : ℕ}
    (hA : A.shape = [I, K]) (hB : B.shape = [J, K]) :
    khatriRaoBinary A B
      = .ok (ofMat (I * J) K fun p k => A.get [p / J, k] * B.get [p % J, k]) :=
  khatriRaoBinaryMem_eq _ hA hB

section
variable [CommSemiring α]

/-- The Khatri-Rao product as a matrix. -/
def krMat (fs : List (NDArray α)) (sizes : List ℕ) (R : ℕ) : NDArray α :=
  ofMat sizes.prod R fun p r => rankOne fs (unravel sizes p) r

theorem krMat_snoc {fs : List (NDArray α)} {s : List ℕ} {R n : ℕ} {g : NDArray α} (h : Factors fs s R)
    (hg : g.shape = [n, R]) :
    khatriRaoBinary (krMat fs s R) g = .ok (krMat (fs ++ [g]) (s ++ [n]) R) := by
  rw [khatriRaoBinary_eq (A := krMat fs s R) rfl hg]
  congr 1
  unfold krMat
  have hprod : (s ++ [n]).prod = s.prod * n := by simp
  rw [hprod]
  apply ofMat_congr
  intro p hp r hr
  have hn : 0 < n := by
    rcases Nat.eq_zero_or_pos n with h | h
    · simp [h] at hp
    · exact h
  have hp1 : p / n < s.prod := (Nat.div_lt_iff_lt_mul hn).2 hp
  rw [get_ofMat hp1 hr, unravel_append (by simpa using hp), rankOne_append h]
  · simp [rankOne]
  · exact (unravel_valid (by simpa using hp1)).length_eq

theorem khatriRao_foldlM {fs : List (NDArray α)} {s : List ℕ} {R : ℕ} (h : Factors fs s R) :
    ∀ {pre : List (NDArray α)} {t : List ℕ}, Factors pre t R →
    fs.foldlM (m := Py) (init := krMat pre t R) (fun product g => khatriRaoBinary product g)
      = .ok (krMat (pre ++ fs) (t ++ s) R) := by
  unfold Factors at h
  induction h with
  | nil => intro pre t _; simp [pure, Except.pure]
  | cons h1 h2 ih =>
    rename_i F n fs s
    intro pre t hpre
    rw [List.foldlM_cons, krMat_snoc hpre h1, bind_ok, ih (hpre.append (.cons h1 .nil))]
    simp

theorem krMat_single {f : NDArray α} {n R : ℕ} (h : f.shape = [n, R]) : krMat [f] [n] R = f := by
  rw [eq_ofMat h, krMat]
  have : [n].prod = n := by simp
  rw [this]
  apply ofMat_congr
  intro i hi j hj
  simp [rankOne, hi, hj]

theorem khatriRao_eq {fs : List (NDArray α)} {s : List ℕ} {R : ℕ} (h : Factors fs s R) (hne : fs ≠ []) :
    khatriRao fs none = .ok (krMat fs s R) := by
  cases h with
  | nil => exact absurd rfl hne
  | cons h1 h2 =>
    rename_i f n fs s
    simp only [khatriRao, skipFactor, bind_ok]
    have := khatriRao_foldlM h2 (pre := [f]) (t := [n]) (.cons h1 .nil)
    rw [krMat_single h1] at this
    exact this

theorem khatriRao_skip_eq {fs : List (NDArray α)} {n : Int} {k : ℕ}
    (hn : normIdx n fs.length = some k) :
    khatriRao fs (some n) = khatriRao (fs.eraseIdx k) none := by
  simp [khatriRao, skipFactor, pyPop_ok hn, Except.map, bind_ok]

theorem khatriRao_skip {fs : List (NDArray α)} {s : List ℕ} {R : ℕ} (h : Factors fs s R) {n : Int}
    {k : ℕ} (hn : normIdx n fs.length = some k) (h2 : 2 ≤ fs.length) :
    khatriRao fs (some n) = .ok (krMat (fs.eraseIdx k) (s.eraseIdx k) R) := by
  rw [khatriRao_skip_eq hn]
  apply khatriRao_eq (h.eraseIdx k)
  intro h0
  have := congrArg List.length h0
  rw [List.length_eraseIdx_of_lt (normIdx_lt hn)] at this
  simp at this; omega

theorem get_krMat {fs : List (NDArray α)} {s idx : List ℕ} {R r : ℕ} (hidx : Valid s idx)
    (hr : r < R) : (krMat fs s R).get [ravel s idx, r] = rankOne fs idx r := by
  rw [krMat, get_ofMat (ravel_lt hidx) hr, unravel_ravel hidx]

end

/-! ### kron -/

theorem kronBinary_eq [Zero α] [Mul α] {A B : NDArray α} {n m p q : ℕ}
    (hA : A.shape = [n, m]) (hB : B.shape = [p, q]) :
    kronBinary A B = .ok (ofMat (n * p) (m * q) fun a b =>
      A.get [a / p, b / q] * B.get [a % p, b % q]) := by
  simp only [kronBinary, dims2_ok hA, dims2_ok hB, bind_ok]
  rw [reshape_ok' (by simp; ring), ofFlat_mat]
  congr 1
  apply ofMat_congr
  intro a ha b hb
  have hp : 0 < p := by
    rcases Nat.eq_zero_or_pos p with h | h
    · simp [h] at ha
    · exact h
  have hq : 0 < q := by
    rcases Nat.eq_zero_or_pos q with h | h
    · simp [h] at hb
    · exact h
  have hv : Valid [n, p, m, q] [a / p, a % p, b / q, b % q] := by
    simp [(Nat.div_lt_iff_lt_mul hp).2 ha, (Nat.div_lt_iff_lt_mul hq).2 hb, Nat.mod_lt _ hp,
      Nat.mod_lt _ hq]
  have hr : a * (m * q) + b = ravel [n, p, m, q] [a / p, a % p, b / q, b % q] := by
    simp only [ravel, List.prod_cons, List.prod_nil, mul_one, add_zero]
    have h1 := Nat.div_add_mod a p
    have h2 := Nat.div_add_mod b q
    calc a * (m * q) + b = (p * (a / p) + a % p) * (m * q) + (q * (b / q) + b % q) := by rw [h1, h2]
      _ = _ := by ring
  rw [hr]
  exact get_ofFn (f := fun idx => A.get [idx.getD 0 0, idx.getD 2 0]
    * B.get [idx.getD 1 0, idx.getD 3 0]) hv

section
variable [CommSemiring α]

/-- The Kronecker product as a matrix. -/
def kronMat (fs : List (NDArray α)) (rows cols : List ℕ) : NDArray α :=
  ofMat rows.prod cols.prod fun a b => kronEntry fs (unravel rows a) (unravel cols b)

theorem kronEntry_append {fs gs : List (NDArray α)} {a b c d : List ℕ} (ha : a.length = fs.length)
    (hc : c.length = fs.length) :
    kronEntry (fs ++ gs) (a ++ b) (c ++ d) = kronEntry fs a c * kronEntry gs b d := by
  induction fs generalizing a c with
  | nil => simp at ha hc; simp [ha, hc, kronEntry]
  | cons F fs ih =>
    cases a with
    | nil => simp at ha
    | cons i a =>
      cases c with
      | nil => simp at hc
      | cons j c => simp [kronEntry, ih (a := a) (c := c) (by simpa using ha) (by simpa using hc), mul_assoc]

theorem kronMat_snoc {fs : List (NDArray α)} {rows cols : List ℕ} {n m : ℕ} {g : NDArray α}
    (hr : rows.length = fs.length) (hc : cols.length = fs.length) (hg : g.shape = [n, m]) :
    kronBinary (kronMat fs rows cols) g = .ok (kronMat (fs ++ [g]) (rows ++ [n]) (cols ++ [m])) := by
  rw [kronBinary_eq (A := kronMat fs rows cols) rfl hg]
  congr 1
  unfold kronMat
  have h1 : (rows ++ [n]).prod = rows.prod * n := by simp
  have h2 : (cols ++ [m]).prod = cols.prod * m := by simp
  rw [h1, h2]
  apply ofMat_congr
  intro a ha b hb
  have hn : 0 < n := by
    rcases Nat.eq_zero_or_pos n with h | h
    · simp [h] at ha
    · exact h
  have hm : 0 < m := by
    rcases Nat.eq_zero_or_pos m with h | h
    · simp [h] at hb
    · exact h
  have ha1 : a / n < rows.prod := (Nat.div_lt_iff_lt_mul hn).2 ha
  have hb1 : b / m < cols.prod := (Nat.div_lt_iff_lt_mul hm).2 hb
  rw [get_ofMat ha1 hb1, unravel_append (by simpa using ha), unravel_append (by simpa using hb),
    kronEntry_append]
  · simp [kronEntry]
  · rw [(unravel_valid (by simpa using ha1)).length_eq, hr]
  · rw [(unravel_valid (by simpa using hb1)).length_eq, hc]

theorem kron_foldlM {fs : List (NDArray α)} : ∀ {rows cols : List ℕ}, Mats fs rows cols →
    ∀ {pre : List (NDArray α)} {r c : List ℕ}, r.length = pre.length → c.length = pre.length →
    fs.foldlM (m := Py) (init := kronMat pre r c) (fun product g => kronBinary product g)
      = .ok (kronMat (pre ++ fs) (r ++ rows) (c ++ cols)) := by
  induction fs with
  | nil =>
    rintro rows cols ⟨h, hl⟩ pre r c _ _
    have h0 : rows = [] := by
      cases rows with
      | nil => rfl
      | cons a l => cases cols with
        | nil => simp at hl
        | cons b m => simp at h
    subst h0
    have h1 : cols = [] := by simpa using hl.symm
    subst h1
    simp [pure, Except.pure]
  | cons F fs ih =>
    rintro rows cols ⟨h, hl⟩ pre r c hr hc
    cases rows with
    | nil => simp at h
    | cons n rows =>
      cases cols with
      | nil => simp at h
      | cons m cols =>
        simp only [List.zip_cons_cons, List.forall₂_cons] at h
        rw [List.foldlM_cons, kronMat_snoc hr hc h.1, bind_ok,
          ih ⟨h.2, by simpa using hl⟩ (by simp [hr]) (by simp [hc])]
        simp

theorem kronMat_single {f : NDArray α} {n m : ℕ} (h : f.shape = [n, m]) : kronMat [f] [n] [m] = f := by
  rw [eq_ofMat h, kronMat]
  have h1 : [n].prod = n := by simp
  have h2 : [m].prod = m := by simp
  rw [h1, h2]
  apply ofMat_congr
  intro i hi j hj
  simp [kronEntry, hi, hj]

theorem kron_eq {fs : List (NDArray α)} {rows cols : List ℕ} (h : Mats fs rows cols) (hne : fs ≠ []) :
    kron fs = .ok (kronMat fs rows cols) := by
  obtain ⟨h, hl⟩ := h
  cases fs with
  | nil => exact absurd rfl hne
  | cons F fs =>
    cases rows with
    | nil => simp at h
    | cons n rows =>
      cases cols with
      | nil => simp at h
      | cons m cols =>
        simp only [List.zip_cons_cons, List.forall₂_cons] at h
        have := kron_foldlM (fs := fs) (rows := rows) (cols := cols) ⟨h.2, by simpa using hl⟩
          (pre := [F]) (r := [n]) (c := [m]) rfl rfl
        rw [kronMat_single h.1] at this
        exact this

end

/-! ### MTTKRP -/

section
variable [CommSemiring α]

theorem sum_unravel {s : List ℕ} (f : List ℕ → α) :
    ∑ p ∈ Finset.range s.prod, f (unravel s p) = sumIdx s f := by
  rw [sum_range_prod]
  exact sumIdx_congr fun idx h => by rw [unravel_ravel h]

/-- The matrix of MTTKRP entries. -/
def mttkrpMat (X : NDArray α) (fs : List (NDArray α)) (k R : ℕ) : NDArray α :=
  ofMat (X.shape.getD k 0) R fun i r => mttkrpEntry X fs k i r

theorem unfold_matmul_krMat {X : NDArray α} {fs : List (NDArray α)} {k R : ℕ} {M : NDArray α}
    (hM : M = ofMat (X.shape.getD k 0) (X.shape.eraseIdx k).prod fun i p =>
      X.get ((unravel (X.shape.eraseIdx k) p).insertIdx k i)) :
    matmul M (krMat (fs.eraseIdx k) (X.shape.eraseIdx k) R) = .ok (mttkrpMat X fs k R) := by
  subst hM
  rw [matmul_ok (B := krMat _ _ _) rfl rfl]
  congr 1
  apply ofMat_congr
  intro i hi r hr
  unfold mttkrpEntry
  rw [← sum_unravel]
  apply Finset.sum_congr rfl
  intro p hp
  rw [get_ofMat hi (Finset.mem_range.1 hp), krMat, get_ofMat (Finset.mem_range.1 hp) hr]

theorem mttkrpMid_eq {X : NDArray α} {fs : List (NDArray α)} {a b c R : ℕ} (hX : X.shape = [a, b, c])
    (hfs : Factors fs X.shape R) : mttkrpMid X fs = .ok (mttkrpMat X fs 1 R) := by
  have hlen : fs.length = 3 := by rw [hfs.length_eq, hX]; rfl
  rw [mttkrpMid, khatriRao_skip hfs (k := 1) (by rw [hlen]; rfl) (by omega), bind_ok, hX]
  have herase : ([a, b, c] : List ℕ).eraseIdx 1 = [a, c] := rfl
  rw [herase]
  set krp := krMat (fs.eraseIdx 1) [a, c] R with hkrp
  have hks : krp.shape = [a * c, R] := by simp [hkrp, krMat]
  have hslice : ∀ i < a, sliceRows krp (i * c) ((i + 1) * c)
      = ofMat c R fun k r => rankOne (fs.eraseIdx 1) [i, k] r := by
    intro i hi
    have h1 : (i + 1) * c ≤ a * c := Nat.mul_le_mul_right _ hi
    have h2 : i * c ≤ a * c := Nat.mul_le_mul_right _ hi.le
    have h3 : (i + 1) * c - i * c = c := by rw [Nat.add_mul]; omega
    unfold sliceRows
    rw [hks]
    simp only [List.getD_cons_zero, List.getD_cons_succ, min_eq_left h1, min_eq_left h2, h3]
    apply ofMat_congr
    intro k hk r hr
    have hv : Valid [a, c] [i, k] := by simp [hi, hk]
    have := get_krMat (fs := fs.eraseIdx 1) (R := R) (r := r) hv hr
    rw [← this, ← hkrp]
    simp [ravel]
  have key : ∀ n ≤ a, (List.range n).foldlM (m := Py) (init := full [b, R] (0 : α)) (fun product i => do
      let block ← matmul (subArr X i) (sliceRows krp (i * c) ((i + 1) * c))
      zipB (· + ·) product block)
      = .ok (ofMat b R fun j r => ∑ i ∈ Finset.range n, ∑ k ∈ Finset.range c,
          X.get [i, j, k] * rankOne (fs.eraseIdx 1) [i, k] r) := by
    intro n
    induction n with
    | zero =>
      intro _
      simp only [List.range_zero, List.foldlM_nil, Finset.range_zero, Finset.sum_empty, pure,
        Except.pure]
      rfl
    | succ n ih =>
      intro hn
      rw [List.range_succ, List.foldlM_append, ih (by omega), bind_ok]
      have hsub : (subArr X n).shape = [b, c] := by simp [subArr, hX]
      simp only [List.foldlM_cons, List.foldlM_nil, hslice n (by omega)]
      rw [matmul_ok hsub (shape_ofMat _ _ _), bind_ok,
        zipB_mat_mat _ (shape_ofMat _ _ _) (shape_ofMat _ _ _), bind_ok]
      refine congrArg Except.ok ?_
      apply ofMat_congr
      intro j hj r hr
      rw [get_ofMat hj hr, get_ofMat hj hr, Finset.sum_range_succ]
      congr 1
      apply Finset.sum_congr rfl
      intro k hk
      have hk := Finset.mem_range.1 hk
      rw [get_ofMat hk hr, subArr, get_ofFn (by simp [hX, hj, hk])]
  rw [mttkrpMidWithKrp, hX, hks]
  have e1 : pyGet [a, b, c] (-1) = .ok c := rfl
  have e2 : pyGet [a, b, c] (-2) = .ok b := rfl
  have e3 : pyGet [a * c, R] (-1) = .ok R := rfl
  have e4 : pyGet [a, b, c] 0 = .ok a := rfl
  simp only [e1, e2, e3, e4, bind_ok]
  rw [key a le_rfl]
  congr 1
  unfold mttkrpMat mttkrpEntry
  rw [hX]
  apply ofMat_congr
  intro j hj r hr
  simp

/-- The MTTKRP formula, for every mode that the code handles. -/
theorem mttkrp_eq {X : NDArray α} {fs : List (NDArray α)} {R k : ℕ} {mode : Int}
    (hfs : Factors fs X.shape R) (h2 : 2 ≤ fs.length) (hk : normIdx mode fs.length = some k)
    (h0 : X.shape.getD k 0 ≠ 0) (h3 : fs.length = 3 → 0 ≤ mode ∨ mode = -1) :
    matrixKhatriRaoProduct X fs mode = .ok (some (mttkrpMat X fs k R)) := by
  have hlen := hfs.length_eq
  have hkX : normIdx mode X.shape.length = some k := by rw [← hlen]; exact hk
  rw [matrixKhatriRaoProduct, if_neg (by omega)]
  by_cases hl3 : fs.length = 3
  · rw [if_pos hl3]
    have hX3 : X.shape.length = 3 := by omega
    obtain ⟨a, b, c, hX⟩ : ∃ a b c, X.shape = [a, b, c] := by
      match hX : X.shape, hX3 with
      | [a, b, c], _ => exact ⟨a, b, c, rfl⟩
    rw [hl3] at hk
    have hk' := normIdx_some_iff.1 hk
    have hm := h3 hl3
    have hcases : (mode = 0 ∧ k = 0) ∨ (mode = 1 ∧ k = 1) ∨ ((mode = 2 ∨ mode = -1) ∧ k = 2) := by
      omega
    rw [mttkrp3]
    rcases hcases with ⟨rfl, rfl⟩ | ⟨rfl, rfl⟩ | ⟨hm2, rfl⟩
    · rw [if_pos rfl, pyGet_ok hkX, bind_ok]
      have hg : X.shape[0] = a := by simp [hX]
      have ha : a ≠ 0 := by simpa [hX] using h0
      rw [hg, reshapeRows_ok (c := b * c) ha (by simp [hX]), bind_ok,
        khatriRao_skip hfs (k := 0) (by rw [hl3]; rfl) h2, bind_ok, unfold_matmul_krMat]
      · rfl
      · rw [ofFlat_mat, hX]
        simp only [List.getD_cons_zero, List.eraseIdx_cons_zero, List.prod_cons, List.prod_nil,
          mul_one]
        apply ofMat_congr
        intro i hi p hp
        have hp' : p < [b, c].prod := by simpa using hp
        rw [List.insertIdx_zero, NDArray.get, hX]
        congr 1
        have := ravel_unravel hp'
        rw [ravel, this]; simp
    · rw [if_neg (by omega), if_pos rfl, mttkrpMid_eq hX hfs]; rfl
    · rw [if_neg (by omega), if_neg (by omega), if_pos hm2]
      have hmv : X.moveaxis (-1) 0 = X.moveaxis mode 0 := by
        rcases hm2 with rfl | rfl
        · simp [moveaxis, hX, normIdx]
        · rfl
      have hpg : pyGet X.shape (-1) = pyGet X.shape mode := by
        rcases hm2 with rfl | rfl
        · simp [pyGet, hX, normIdx]
        · rfl
      have hu : (X.moveaxis (-1) 0 >>= fun Y => pyGet X.shape (-1) >>= fun n2 => Y.reshapeRows n2)
          = unfold X mode := by
        rw [hmv, hpg]; rfl
      have hu2 : (do
          let Y ← X.moveaxis (-1) 0
          let n2 ← pyGet X.shape (-1)
          let R ← Y.reshapeRows n2
          let krp ← khatriRao fs (some mode)
          some <$> matmul R krp) = (do
          let R ← unfold X mode
          let krp ← khatriRao fs (some mode)
          some <$> matmul R krp) := by
        rw [← hu]; simp [bind_assoc]
      rw [hu2, unfold_eq X hkX h0, bind_ok, khatriRao_skip hfs (k := 2) (by rw [hl3]; exact hk) h2,
        bind_ok, unfold_matmul_krMat rfl]
      rfl
  · rw [if_neg hl3, unfold_eq X hkX h0, bind_ok, khatriRao_skip hfs hk h2, bind_ok,
      unfold_matmul_krMat rfl]
    rfl

end

end TK
