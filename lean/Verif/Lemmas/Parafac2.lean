import Verif.Lemmas.Heap
import Verif.Spec.Parafac2
import Verif.Lemmas.Evolving
import Verif.LinAlg.Contraction
import Verif.Props.CPConstrained

/-! # Lemmas on `Parafac2_ALS` -/

namespace TK
open NDArray Matrix

noncomputable section

theorem nth_lt {l : List (NDArray ℝ)} {k : ℕ} (h : k < l.length) : nth l k = l[k] := getD_eq_getElem' _ h

theorem nth_zero (x : NDArray ℝ) (l : List (NDArray ℝ)) : nth (x :: l) 0 = x := rfl
theorem nth_succ (x : NDArray ℝ) (l : List (NDArray ℝ)) (k : ℕ) : nth (x :: l) (k + 1) = nth l k := rfl

theorem shape_nth {I : ℕ} {l : List (NDArray ℝ)} {Js : List ℕ} (h : List.Forall₂ (fun X J => X.shape = [I, J]) l Js) {k : ℕ}
    (hk : k < Js.length) : (nth l k).shape = [I, Js.getD k 0] := by
  have hk' : k < l.length := h.length_eq ▸ hk
  rw [nth_lt hk', getD_eq_getElem' _ hk]
  exact (List.forall₂_iff_get.1 h).2 k hk' hk

theorem Factors.shape_nth {R : ℕ} {l : List (NDArray ℝ)} {Js : List ℕ} (h : Factors l Js R) {k : ℕ}
    (hk : k < Js.length) : (nth l k).shape = [Js.getD k 0, R] := by
  have hk' : k < l.length := h.length_eq ▸ hk
  rw [nth_lt hk', getD_eq_getElem' _ hk]
  exact (List.forall₂_iff_get.1 h).2 k hk' hk

theorem pyGet_nth {l : List (NDArray ℝ)} {k : ℕ} (h : k < l.length) : pyGet l (k : Int) = .ok (nth l k) := by
  rw [nth_lt h]; exact pyGet_ok (norm_nat h)

theorem sumIdx_two (m n : ℕ) (f : List ℕ → ℝ) :
    sumIdx [m, n] f = ∑ i ∈ Finset.range m, ∑ j ∈ Finset.range n, f [i, j] := by
  simp [sumIdx_cons, sumIdx_nil]

theorem sseLoop_ok {I : ℕ} : ∀ {Xs Ys : List (NDArray ℝ)} {Js : List ℕ} (e : ℝ),
    List.Forall₂ (fun X J => X.shape = [I, J]) Xs Js → List.Forall₂ (fun X J => X.shape = [I, J]) Ys Js →
    P2.sseLoop Xs Ys e = .ok (e + ∑ k ∈ Finset.range Js.length, ∑ i ∈ Finset.range I, ∑ j ∈ Finset.range (Js.getD k 0),
      ((nth Xs k).get [i, j] - (nth Ys k).get [i, j]) ^ 2)
  | _, _, _, e, .nil, .nil => by simp [P2.sseLoop]
  | X :: Xs, Y :: Ys, J :: Js, e, .cons h1 h2, .cons h3 h4 => by
    obtain ⟨D, e1, s1, g1⟩ := zipB_sub_shape (· - ·) (h1.trans h3.symm)
    rw [P2.sseLoop, e1, bind_ok, sseLoop_ok _ h2 h4, sum_data, s1, h1, sumIdx_two]
    refine congrArg Except.ok ?_
    rw [List.length_cons, Finset.sum_range_succ', add_assoc, add_comm (∑ k ∈ _, _)]
    simp only [nth_zero, nth_succ, List.getD_cons_zero, List.getD_cons_succ]
    congr 2
    refine Finset.sum_congr rfl fun i hi => Finset.sum_congr rfl fun j hj => ?_
    rw [g1 _ (by rw [h1]; simpa using ⟨Finset.mem_range.1 hi, Finset.mem_range.1 hj⟩)]

namespace P2State

variable {s : P2State} {I R : ℕ} {Js : List ℕ}

theorem Sized.lenX (h : s.Sized I Js R) : s.X.length = Js.length := h.X.length_eq
theorem Sized.lenP (h : s.Sized I Js R) : s.dec.P.length = Js.length := by
  have := h.P.length_eq; simpa [P2State.P] using this

theorem Sized.posJk (h : s.Sized I Js R) {k : ℕ} (hk : k < Js.length) : 0 < Js.getD k 0 := by
  rw [getD_eq_getElem' _ hk]; exact h.posJ _ (List.getElem_mem hk)

/-- The slices of the model. -/
theorem Sized.slices (h : s.Sized I Js R) : ∃ Y, (s.dec.read s.heap).constructSlices = .ok Y ∧
    List.Forall₂ (fun X J => X.shape = [I, J]) Y Js ∧
    ∀ k < Js.length, ∀ i < I, ∀ j < Js.getD k 0, (nth Y k).get [i, j] = p2Entry s.A s.D s.C (nth s.P k) R k i j := by
  obtain ⟨B, e1, hB, hB'⟩ := Bs_ok h.D h.P
  obtain ⟨Y, e2, l2, g2⟩ := evolvingSlicesFrom_ok (k := 0) h.A h.C hB (by omega)
  have key : ∀ k (hk : k < Js.length), nth Y k = ofMat I (Js.getD k 0) (sliceEntry s.A (nth B k) s.C R k) := by
    intro k hk
    have hk' : k < B.length := by rw [hB.length_eq]; exact hk
    have := g2 k hk hk'
    rw [nth_lt (l2 ▸ hk), getD_eq_getElem' _ hk, nth_lt hk']
    rw [List.getElem?_eq_getElem (l2 ▸ hk)] at this
    simpa using this
  refine ⟨Y, ?_, ?_, ?_⟩
  · rw [Parafac2Tensor.constructSlices]
    show (Parafac2Tensor.Bs s.D s.P >>= _) = _
    rw [e1, bind_ok]; exact e2
  · rw [List.forall₂_iff_get]
    refine ⟨l2, fun k hk hk' => ?_⟩
    have := key k hk'
    rw [nth_lt hk] at this
    simp only [List.get_eq_getElem]
    rw [this, shape_ofMat, getD_eq_getElem' _ hk']
  · intro k hk i hi j hj
    rw [key k hk, get_ofMat hi hj]
    have hk' : k < B.length := by rw [hB.length_eq]; exact hk
    have hkP : k < s.P.length := by rw [h.P.length_eq]; exact hk
    have hm := (List.forall₂_iff_get.1 hB').2 k hkP hk'
    simp only [List.get_eq_getElem] at hm
    rw [← nth_lt hk', ← nth_lt hkP, matmul_ok (h.P.shape_nth hk) h.D] at hm
    injection hm with hm
    unfold sliceEntry p2Entry
    refine Finset.sum_congr rfl fun r hr => ?_
    rw [← hm, get_ofMat hj (Finset.mem_range.1 hr)]

/-- `SSE` is the true sum of squared errors. -/
theorem Sized.sse (h : s.Sized I Js R) : P2.sse s = .ok (s.err I Js R) := by
  obtain ⟨Y, e, hY, g⟩ := h.slices
  rw [P2.sse, e, bind_ok, sseLoop_ok 0 h.X hY, zero_add]
  refine congrArg Except.ok ?_
  refine Finset.sum_congr rfl fun k hk => Finset.sum_congr rfl fun i hi => Finset.sum_congr rfl fun j hj => ?_
  rw [g k (Finset.mem_range.1 hk) i (Finset.mem_range.1 hi) j (Finset.mem_range.1 hj)]

/-! ### Matrix form -/

/-- Slice `k` of the data, the score matrix and the transposed projection matrix as matrices. -/
def Xm (s : P2State) (I : ℕ) (Js : List ℕ) (k : ℕ) : Matrix (Fin I) (Fin (Js.getD k 0)) ℝ := mat (nth s.X k) I (Js.getD k 0)
@[inherit_doc Xm] def Mm (s : P2State) (I R k : ℕ) : Matrix (Fin I) (Fin R) ℝ := mat (p2Score s.A s.D s.C I R k) I R
@[inherit_doc Xm] def Ym (s : P2State) (Js : List ℕ) (R k : ℕ) : Matrix (Fin R) (Fin (Js.getD k 0)) ℝ :=
  (mat (nth s.P k) (Js.getD k 0) R)ᵀ

theorem p2Entry_eq (A D C Pk : NDArray ℝ) (R k i j : ℕ) :
    p2Entry A D C Pk R k i j =
      ∑ q ∈ Finset.range R, (∑ r ∈ Finset.range R, C.get [k, r] * A.get [i, r] * D.get [q, r]) * Pk.get [j, q] := by
  unfold p2Entry
  simp only [Finset.mul_sum, Finset.sum_mul]
  rw [Finset.sum_comm]
  refine Finset.sum_congr rfl fun q _ => Finset.sum_congr rfl fun r _ => by ring

theorem p2Err_eq (X P : List (NDArray ℝ)) (A D C : NDArray ℝ) (I : ℕ) (Js : List ℕ) (R : ℕ) :
    p2Err X P A D C I Js R = ∑ k ∈ Finset.range Js.length, LA.fsq (mat (p2Score A D C I R k) I R
      * (mat (nth P k) (Js.getD k 0) R)ᵀ - mat (nth X k) I (Js.getD k 0)) := by
  unfold p2Err
  refine Finset.sum_congr rfl fun k _ => ?_
  unfold LA.fsq
  rw [Finset.sum_range]
  refine Finset.sum_congr rfl fun i _ => ?_
  rw [Finset.sum_range]
  refine Finset.sum_congr rfl fun j _ => ?_
  rw [p2Entry_eq, Finset.sum_range, Matrix.sub_apply, Matrix.mul_apply, ← neg_sq]
  congr 1
  simp only [neg_sub, p2Score, mat_ofMat, Matrix.transpose_apply, mat]
  congr 1
  refine Finset.sum_congr rfl fun q _ => ?_
  rw [get_ofMat i.2 q.2]

theorem err_eq (s : P2State) (I : ℕ) (Js : List ℕ) (R : ℕ) :
    s.err I Js R = ∑ k ∈ Finset.range Js.length, LA.fsq (s.Mm I R k * s.Ym Js R k - s.Xm I Js k) :=
  p2Err_eq _ _ _ _ _ _ _ _

theorem orthonormal_iff : s.Orthonormal Js R ↔ ∀ k < Js.length, s.Ym Js R k * (s.Ym Js R k)ᵀ = 1 := by
  unfold Orthonormal
  refine forall₂_congr fun k _ => ?_
  rw [orthoCols_iff, Ym, transpose_transpose]

/-- The projection matrices do not increase lengths. -/
def Contracting (s : P2State) (Js : List ℕ) (R : ℕ) : Prop := ∀ k < Js.length, LA.Contr (s.Ym Js R k)

theorem Orthonormal.contracting (h : s.Orthonormal Js R) : s.Contracting Js R :=
  fun k hk => LA.contr_of_orth (orthonormal_iff.1 h k hk)

/-- The potential that decreases even when the projection matrices are not orthonormal. -/
def pot (s : P2State) (I : ℕ) (Js : List ℕ) (R : ℕ) : ℝ :=
  ∑ k ∈ Finset.range Js.length, LA.pot (s.Xm I Js k) (s.Mm I R k) (s.Ym Js R k)

theorem Contracting.err_le (h : s.Contracting Js R) : s.err I Js R ≤ s.pot I Js R := by
  rw [err_eq]
  exact Finset.sum_le_sum fun k hk => (h k (Finset.mem_range.1 hk)).le_pot _ _

theorem Orthonormal.err_eq_pot (h : s.Orthonormal Js R) : s.pot I Js R = s.err I Js R := by
  rw [err_eq]
  exact Finset.sum_congr rfl fun k hk => LA.pot_eq_of_orth (orthonormal_iff.1 h k (Finset.mem_range.1 hk)) _ _

end P2State

/-! ### The update of the projection matrices -/

/-- Writes to the addresses of a list, one after the other. -/
def Heap.writes (h : Heap) (P : List Addr) (new : ℕ → NDArray ℝ) (n : ℕ) : Heap :=
  (List.range n).foldl (fun h k => h.write (P.getD k 0) (new k)) h

theorem Heap.writes_succ (h : Heap) (P : List Addr) (new : ℕ → NDArray ℝ) (n : ℕ) :
    h.writes P new (n + 1) = (h.writes P new n).write (P.getD n 0) (new n) := by
  simp [Heap.writes, List.range_succ]

theorem Heap.writes_outside {h : Heap} {P : List Addr} {new : ℕ → NDArray ℝ} {a : Addr} (ha : a ∉ P) : ∀ {n : ℕ}, n ≤ P.length →
    (h.writes P new n).mem a = h.mem a
  | 0, _ => rfl
  | n + 1, hn => by
    rw [writes_succ, mem_write_ne, writes_outside ha (by omega)]
    rintro rfl
    apply ha
    rw [getD_eq_getElem' _ (by omega)]; exact List.getElem_mem _

theorem Heap.writes_next (h : Heap) (P : List Addr) (new : ℕ → NDArray ℝ) : ∀ n, (h.writes P new n).next = h.next
  | 0 => rfl
  | n + 1 => by rw [writes_succ, next_write, writes_next]

theorem Heap.writes_nodup {h : Heap} {P : List Addr} {new : ℕ → NDArray ℝ} (hP : P.Nodup) : ∀ {n : ℕ}, n ≤ P.length →
    ∀ {k : ℕ} (_ : k < P.length), (h.writes P new n).mem (P.getD k 0) = if k < n then new k else h.mem (P.getD k 0)
  | 0, _, k, _ => by simp [writes]
  | n + 1, hn, k, hk => by
    rw [writes_succ]
    by_cases hkn : k = n
    · subst hkn; simp
    · rw [mem_write_ne, writes_nodup hP (by omega) hk]
      · by_cases h1 : k < n
        · rw [if_pos h1, if_pos (by omega)]
        · rw [if_neg h1, if_neg (by omega)]
      · rw [getD_eq_getElem' _ hk, getD_eq_getElem' _ (show n < P.length by omega)]
        intro he
        exact hkn ((List.Nodup.getElem_inj_iff hP).1 he)

namespace P2State

variable {s : P2State} {I R : ℕ} {Js : List ℕ}

theorem Sized.getD_addr (h : s.Sized I Js R) {k : ℕ} (hk : k < Js.length) : s.dec.P.getD k 0 ∈ s.dec.P := by
  rw [getD_eq_getElem' _ (h.lenP ▸ hk)]; exact List.getElem_mem _

theorem nth_P (h : s.Sized I Js R) {k : ℕ} (hk : k < Js.length) : nth s.P k = s.heap.mem (s.dec.P.getD k 0) := by
  have hk' : k < s.dec.P.length := by rw [h.lenP]; exact hk
  rw [nth_lt (by simpa [P2State.P] using hk'), getD_eq_getElem' _ hk']
  simp [P2State.P]

/-- Changing the array of one projection matrix keeps the sizes. -/
theorem Sized.write (h : s.Sized I Js R) (ha : s.Apart) {k : ℕ} (hk : k < Js.length) {v : NDArray ℝ}
    (hv : v.shape = [Js.getD k 0, R]) :
    ({ s with heap := s.heap.write (s.dec.P.getD k 0) v } : P2State).Sized I Js R := by
  have hm := h.getD_addr hk
  have n1 : s.dec.A ≠ s.dec.P.getD k 0 := fun e => ha.A (e ▸ hm)
  have n2 : s.dec.blueprint ≠ s.dec.P.getD k 0 := fun e => ha.D (e ▸ hm)
  have n3 : s.dec.C ≠ s.dec.P.getD k 0 := fun e => ha.C (e ▸ hm)
  refine ⟨h.posI, h.posR, h.posJ, h.posK, h.X, h.xshape, ?_, ?_, ?_, ?_⟩
  · show ((s.heap.write _ v).mem s.dec.A).shape = _
    rw [Heap.mem_write_ne _ _ n1]; exact h.A
  · show ((s.heap.write _ v).mem s.dec.blueprint).shape = _
    rw [Heap.mem_write_ne _ _ n2]; exact h.D
  · show ((s.heap.write _ v).mem s.dec.C).shape = _
    rw [Heap.mem_write_ne _ _ n3]; exact h.C
  · show Factors (s.dec.P.map (s.heap.write _ v).mem) Js R
    unfold Factors
    rw [List.forall₂_map_left_iff, List.forall₂_iff_get]
    refine ⟨h.lenP, fun l hl hl' => ?_⟩
    simp only [List.get_eq_getElem]
    have hsh := h.P.shape_nth hl'
    rw [nth_P h hl', getD_eq_getElem' _ hl, getD_eq_getElem' _ hl'] at hsh
    by_cases he : s.dec.P[l] = s.dec.P.getD k 0
    · have hsk := h.P.shape_nth hk
      rw [nth_P h hk, ← he, hsh] at hsk
      rw [he, Heap.mem_write_self, hv, ← hsk]
    · rw [Heap.mem_write_ne _ _ he]; exact hsh

/-- What the update of the projection matrix of slice `k` computes. -/
structure NewP (E : Ext) (s : P2State) (I : ℕ) (Js : List ℕ) (R k : ℕ) (v : NDArray ℝ) : Prop where
  shape : v.shape = [Js.getD k 0, R]
  solve : ∃ Q, orthogonalSolve E (p2Score s.A s.D s.C I R k) (nth s.X k) = .ok Q ∧ v = Q.T

theorem exists_new {E : Ext} (hE : E.SVDOk) (h : s.Sized I Js R) {k : ℕ} (hk : k < Js.length) :
    ∃ v, NewP E s I Js R k v := by
  obtain ⟨-, -, -, -, Q, -, -, -, -, e, hQ, -⟩ := orthogonalSolve_mat hE (shape_ofMat I R _) (shape_nth h.X hk) h.posR
    (h.posJk hk) (A := p2Score s.A s.D s.C I R k)
  exact ⟨Q.T, shape_T hQ, Q, e, rfl⟩

theorem updateProjection_ok {E : Ext} (h : s.Sized I Js R) {k : ℕ} (hk : k < Js.length) {v : NDArray ℝ}
    (hv : NewP E s I Js R k v) :
    P2.updateProjection E s k = .ok { s with heap := s.heap.write (s.dec.P.getD k 0) v } := by
  obtain ⟨hs, Q, e, rfl⟩ := hv
  have hM : (ofMat I R fun i j => ∑ l ∈ Finset.range R,
      (ofMat I R fun i j => (ofFn [R] fun idx => s.C.get [k, idx.getD 0 0]).get [j] * s.A.get [i, j]).get [i, l]
        * s.D.T.get [l, j]) = p2Score s.A s.D s.C I R k := by
    apply ofMat_congr
    intro i hi q hq
    refine Finset.sum_congr rfl fun r hr => ?_
    have hr := Finset.mem_range.1 hr
    rw [get_ofMat hi hr, get_T h.D hr hq, get_ofFn (by simpa using hr)]
    rfl
  have hkP : k < s.dec.P.length := by rw [h.lenP]; exact hk
  rw [P2.updateProjection]
  show (takeRow s.C k >>= _) = _
  rw [takeRow_ok h.C hk, bind_ok]
  show (zipB _ _ s.A >>= _) = _
  rw [zipB_vec_mat _ (shape_ofFn _ _) h.A, bind_ok]
  show (matmul _ s.D.T >>= _) = _
  rw [matmul_ok (shape_ofMat _ _ _) (shape_T h.D), bind_ok, hM, pyGet_nth (by rw [h.lenX]; exact hk), bind_ok, e, bind_ok,
    pyGet_ok (norm_nat hkP), bind_ok]
  have hsh := h.P.shape_nth hk
  rw [nth_P h hk, getD_eq_getElem' _ hkP] at hsh
  rw [assignAll_same (hs.trans hsh.symm), bind_ok, getD_eq_getElem' _ hkP]
  rfl

/-- The state after the projection matrices have been replaced. -/
def withP (s : P2State) (new : ℕ → NDArray ℝ) (n : ℕ) : P2State := { s with heap := s.heap.writes s.dec.P new n }

theorem withP_A (h : s.Sized I Js R) (ha : s.Apart) (new : ℕ → NDArray ℝ) {n : ℕ} (hn : n ≤ Js.length) :
    (s.withP new n).A = s.A := Heap.writes_outside ha.A (by rw [h.lenP]; exact hn)
theorem withP_D (h : s.Sized I Js R) (ha : s.Apart) (new : ℕ → NDArray ℝ) {n : ℕ} (hn : n ≤ Js.length) :
    (s.withP new n).D = s.D := Heap.writes_outside ha.D (by rw [h.lenP]; exact hn)
theorem withP_C (h : s.Sized I Js R) (ha : s.Apart) (new : ℕ → NDArray ℝ) {n : ℕ} (hn : n ≤ Js.length) :
    (s.withP new n).C = s.C := Heap.writes_outside ha.C (by rw [h.lenP]; exact hn)

theorem updateProjections_loop {E : Ext} (h : s.Sized I Js R) (ha : s.Apart) {new : ℕ → NDArray ℝ}
    (hnew : ∀ k < Js.length, NewP E s I Js R k (new k)) : ∀ n ≤ Js.length,
    (List.range n).foldlM (P2.updateProjection E) s = .ok (s.withP new n) ∧ (s.withP new n).Sized I Js R
  | 0, _ => ⟨rfl, h⟩
  | n + 1, hn => by
    obtain ⟨e, hs⟩ := updateProjections_loop h ha hnew n (by omega)
    have hap : (s.withP new n).Apart := ⟨ha.A, ha.D, ha.C⟩
    have hn' : NewP E (s.withP new n) I Js R n (new n) := by
      obtain ⟨h1, h2⟩ := hnew n (by omega)
      refine ⟨h1, ?_⟩
      rw [withP_A h ha _ (by omega), withP_D h ha _ (by omega), withP_C h ha _ (by omega)]
      exact h2
    have e2 := updateProjection_ok hs (show n < Js.length by omega) hn'
    have hw := hs.write hap (show n < Js.length by omega) hn'.shape
    have heq : ({ s.withP new n with heap := (s.withP new n).heap.write ((s.withP new n).dec.P.getD n 0) (new n) } : P2State)
        = s.withP new (n + 1) := by
      unfold withP
      simp only [Heap.writes_succ]
    rw [heq] at e2 hw
    refine ⟨?_, hw⟩
    rw [List.range_succ, List.foldlM_append, e, bind_ok, List.foldlM_cons, e2, bind_ok]
    rfl

/-- The update of all projection matrices. -/
theorem updateProjections_ok {E : Ext} (h : s.Sized I Js R) (ha : s.Apart) {new : ℕ → NDArray ℝ}
    (hnew : ∀ k < Js.length, NewP E s I Js R k (new k)) :
    P2.updateProjections E s = .ok (s.withP new Js.length) ∧ (s.withP new Js.length).Sized I Js R := by
  have := updateProjections_loop h ha hnew Js.length le_rfl
  rw [P2.updateProjections, h.xshape]
  exact this

theorem LastUse.ge {k k' : ℕ} (h : s.LastUse Js k k') (hk : k < Js.length) : k ≤ k' := h.last k hk rfl

/-- If all projection matrices are different arrays, a slice is the last one with its array. -/
theorem LastUse.eq_of_nodup {k k' : ℕ} (h : s.LastUse Js k k') (hP : s.dec.P.Nodup) (hl : s.dec.P.length = Js.length)
    (hk : k < Js.length) : k' = k := by
  have h1 := h.same
  have h2 := h.lt
  rw [getD_eq_getElem' _ (by omega), getD_eq_getElem' _ (by omega)] at h1
  exact (List.Nodup.getElem_inj_iff hP).1 h1

theorem exists_lastUse (s : P2State) {k : ℕ} (hk : k < Js.length) : ∃ k', s.LastUse Js k k' := by
  classical
  have hne : ((Finset.range Js.length).filter fun j => s.dec.P.getD j 0 = s.dec.P.getD k 0).Nonempty :=
    ⟨k, by simp [hk]⟩
  have hm := Finset.max'_mem _ hne
  rw [Finset.mem_filter, Finset.mem_range] at hm
  exact ⟨_, hm.1, hm.2, fun j hj he => Finset.le_max' _ _ (Finset.mem_filter.2 ⟨Finset.mem_range.2 hj, he⟩)⟩

theorem heap_writes_last {h : Heap} {P : List Addr} {new : ℕ → NDArray ℝ} {a : Addr} {k : ℕ} (ha : P.getD k 0 = a) :
    ∀ {n : ℕ}, k < n → (∀ j < n, P.getD j 0 = a → j ≤ k) → (h.writes P new n).mem a = new k
  | n + 1, hk, hl => by
    rw [Heap.writes_succ]
    by_cases hkn : k = n
    · subst hkn; rw [ha, Heap.mem_write_self]
    · rw [Heap.mem_write_ne, heap_writes_last ha (by omega) fun j hj => hl j (by omega)]
      rintro rfl
      have := hl n (by omega) rfl
      omega

/-- After the update the projection matrix of a slice is that computed for the last slice with the same array. -/
theorem nth_withP_last (h : s.Sized I Js R) (new : ℕ → NDArray ℝ) {k : ℕ} (hk : k < Js.length)
    (hs : (s.withP new Js.length).Sized I Js R) : ∃ k', s.LastUse Js k k' ∧ nth (s.withP new Js.length).P k = new k' := by
  obtain ⟨k', hl⟩ := exists_lastUse s hk
  refine ⟨k', hl, ?_⟩
  rw [nth_P hs hk]
  exact heap_writes_last hl.same hl.lt hl.last

/-- Slices with the same array as projection matrix have the same number of columns. -/
theorem LastUse.size (h : s.Sized I Js R) {k k' : ℕ} (hl : s.LastUse Js k k') (hk : k < Js.length) :
    Js.getD k' 0 = Js.getD k 0 := by
  have h1 := h.P.shape_nth hk
  have h2 := h.P.shape_nth hl.lt
  rw [nth_P h hk, ← hl.same, ← nth_P h hl.lt, h2] at h1
  simpa using h1

theorem nth_withP (h : s.Sized I Js R) (hP : s.dec.P.Nodup) (new : ℕ → NDArray ℝ) {k : ℕ}
    (hk : k < Js.length) (hs : (s.withP new Js.length).Sized I Js R) : nth (s.withP new Js.length).P k = new k := by
  rw [nth_P hs hk]
  show (s.heap.writes s.dec.P new Js.length).mem (s.dec.P.getD k 0) = _
  rw [Heap.writes_nodup hP h.lenP.ge (by rw [h.lenP]; exact hk), if_pos hk]

theorem cross_eq {k : ℕ} (h : s.Sized I Js R) (hk : k < Js.length) :
    matmul (nth s.X k).T (p2Score s.A s.D s.C I R k) = .ok (s.cross I Js R k) := by
  have hM : (p2Score s.A s.D s.C I R k).shape = [I, R] := shape_ofMat _ _ _
  rw [matmul_ok (shape_T (shape_nth h.X hk)) hM]
  refine congrArg Except.ok (ofMat_congr fun j hj q hq => Finset.sum_congr rfl fun i hi => ?_)
  rw [get_T (shape_nth h.X hk) hj (Finset.mem_range.1 hi)]

/-- The new projection matrix in terms of the singular value decomposition. -/
theorem NewP.mat {E : Ext} (hE : E.SVDOk) (h : s.Sized I Js R) {k : ℕ} (hk : k < Js.length) {v : NDArray ℝ}
    (hv : NewP E s I Js R k v) : ∃ (U : Matrix (Fin (Js.getD k 0)) (Fin (min (Js.getD k 0) R)) ℝ)
      (σ keep : Fin (min (Js.getD k 0) R) → ℝ) (Vh : Matrix (Fin (min (Js.getD k 0) R)) (Fin R) ℝ),
      LA.ThinSVD ((s.Xm I Js k)ᵀ * s.Mm I R k) U σ Vh ∧
      (TK.mat v (Js.getD k 0) R)ᵀ = LA.procrustes U keep Vh ∧
      (∀ i, σ i = (E.svd (s.cross I Js R k)).2.1.get [(i : ℕ)]) ∧
      (∀ i, keep i = if σ i ≤ Js.getD k 0 * (E.svd (s.cross I Js R k)).2.1.get [0] * 1e-16 then 0 else 1) ∧ Antitone σ := by
  obtain ⟨C, U, S, Vh, Q, e1, e2, m1, hsvd, e3, hQ, m2⟩ := orthogonalSolve_mat hE (shape_ofMat I R _) (shape_nth h.X hk)
    h.posR (h.posJk hk) (A := p2Score s.A s.D s.C I R k)
  obtain ⟨-, Q', e3', rfl⟩ := hv
  rw [e3] at e3'
  injection e3' with e3'
  subst e3'
  have hC : C = s.cross I Js R k := by
    have := cross_eq h hk
    rw [e1] at this
    injection this
  subst hC
  have hU := hsvd.shapeU
  refine ⟨TK.mat U _ _, vec S _, keepVec U S _, TK.mat Vh _ _, ?_, ?_, ?_, ?_, hsvd.sorted⟩
  · have := hsvd.svd
    rw [m1] at this
    exact this
  · rw [mat_T hQ, transpose_transpose]; exact m2
  · intro i; rw [e2]; rfl
  · intro i
    unfold keepVec orthTol
    rw [e2, hU]
    have : max (Js.getD k 0) (max (min (Js.getD k 0) R) 0) = Js.getD k 0 := by omega
    simp only [List.foldr_cons, List.foldr_nil, this]
    by_cases hc : vec S (min (Js.getD k 0) R) i ≤ Js.getD k 0 * S.get [0] * 1e-16
    · rw [if_neg (not_lt.2 hc), if_pos hc]
    · rw [if_pos (not_le.1 hc), if_neg hc]

end P2State
end
end TK
