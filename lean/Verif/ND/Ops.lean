import Verif.Spec.Sums

/-!
# NumPy operations used by the code: broadcasting arithmetic, transpose, matrix product
-/

namespace TK

/-- NumPy broadcasting of two dimensions. -/
def bdim (a b : ℕ) : Option ℕ :=
  if a = b then some a else if a = 1 then some b else if b = 1 then some a else none

/-- Broadcasting of two reversed shapes (missing leading dimensions count as 1). -/
def bshapeRev : List ℕ → List ℕ → Option (List ℕ)
  | [], t => some t
  | s, [] => some s
  | a :: s, b :: t => match bdim a b, bshapeRev s t with
    | some c, some r => some (c :: r)
    | _, _ => none

/-- Broadcast shape of two arrays. -/
def bshape (s t : List ℕ) : Option (List ℕ) := (bshapeRev s.reverse t.reverse).map List.reverse

/-- The index at which an array of shape `s` is read when broadcast to a larger index. -/
def bidx (s idx : List ℕ) : List ℕ :=
  List.zipWith (fun d i => if d = 1 then 0 else i) s (idx.drop (idx.length - s.length))

theorem bshapeRev_self : ∀ s : List ℕ, bshapeRev s s = some s
  | [] => rfl
  | a :: s => by simp [bshapeRev, bdim, bshapeRev_self s]

@[simp] theorem bshape_self (s : List ℕ) : bshape s s = some s := by
  simp [bshape, bshapeRev_self]

theorem bidx_self {s idx : List ℕ} (h : Valid s idx) : bidx s idx = idx := by
  rw [bidx, h.length_eq, Nat.sub_self, List.drop_zero]
  induction s generalizing idx with
  | nil => simp at h; simp [h]
  | cons a s ih =>
    obtain ⟨i, is, rfl, hi, his⟩ := valid_cons_iff.1 h
    simp only [List.zipWith_cons_cons, ih his]
    split
    · congr 1; omega
    · rfl

namespace NDArray
variable {α β γ : Type*}

/-- Elementwise binary operation with NumPy broadcasting; `ValueError` if shapes are incompatible. -/
def zipB [Zero α] [Zero β] (op : α → β → γ) (A : NDArray α) (B : NDArray β) : Py (NDArray γ) :=
  match bshape A.shape B.shape with
  | some s => .ok (ofFn s fun idx => op (A.get (bidx A.shape idx)) (B.get (bidx B.shape idx)))
  | none => .error .valueError

theorem zipB_same [Zero α] [Zero β] (op : α → β → γ) {A : NDArray α} {B : NDArray β}
    (h : A.shape = B.shape) :
    zipB op A B = .ok (ofFn A.shape fun idx => op (A.get (bidx A.shape idx)) (B.get (bidx A.shape idx))) := by
  simp [zipB, ← h]

/-- Elementwise map. -/
def map (f : α → β) (A : NDArray α) : NDArray β := ⟨A.shape, A.data.map f, by simp [A.wf]⟩

@[simp] theorem shape_map (f : α → β) (A : NDArray α) : (A.map f).shape = A.shape := rfl

theorem flat_map [Zero α] [Zero β] (f : α → β) (A : NDArray α) {p : ℕ} (hp : p < A.shape.prod) :
    (A.map f).flat p = f (A.flat p) := by
  have : p < A.data.length := by rw [A.wf]; exact hp
  simp [map, flat, List.getD, this]

theorem get_map [Zero α] [Zero β] (f : α → β) (A : NDArray α) {idx : List ℕ}
    (h : Valid A.shape idx) : (A.map f).get idx = f (A.get idx) :=
  flat_map f A (ravel_lt h)

/-- `A.T`: reverses the axes. -/
def T [Zero α] (A : NDArray α) : NDArray α := ofFn A.shape.reverse fun idx => A.get idx.reverse

/-- `np.full(s, c)` (`np.zeros`, `np.ones`). -/
def full (s : List ℕ) (c : α) : NDArray α := ofFn s fun _ => c

@[simp] theorem shape_full (s : List ℕ) (c : α) : (full s c).shape = s := rfl
@[simp] theorem get_full [Zero α] {s : List ℕ} {c : α} {idx : List ℕ} (h : Valid s idx) :
    (full s c).get idx = c := by simp [full, h]

/-- The number of rows and columns; unpacking the shape of an array that is not two-dimensional
raises `ValueError`. -/
def dims2 (A : NDArray α) : Py (ℕ × ℕ) :=
  match A.shape with
  | [m, n] => .ok (m, n)
  | _ => .error .valueError

/-- Matrix with given entries. -/
def ofMat (m n : ℕ) (f : ℕ → ℕ → α) : NDArray α :=
  ofFn [m, n] fun idx => f (idx.getD 0 0) (idx.getD 1 0)

@[simp] theorem shape_ofMat (m n : ℕ) (f : ℕ → ℕ → α) : (ofMat m n f).shape = [m, n] := rfl

@[simp] theorem get_ofMat [Zero α] {m n i j : ℕ} {f : ℕ → ℕ → α} (hi : i < m) (hj : j < n) :
    (ofMat m n f).get [i, j] = f i j := by
  rw [ofMat, get_ofFn (by simp [hi, hj])]; simp

/-- Two matrices with the same dimensions and the same entries are equal. -/
theorem ext_mat [Zero α] {A B : NDArray α} {m n : ℕ} (hA : A.shape = [m, n]) (hB : B.shape = [m, n])
    (h : ∀ i < m, ∀ j < n, A.get [i, j] = B.get [i, j]) : A = B := by
  apply ext_get (hA.trans hB.symm)
  intro idx hidx
  rw [hA] at hidx
  obtain ⟨i, is, rfl, hi, his⟩ := valid_cons_iff.1 hidx
  obtain ⟨j, js, rfl, hj, hjs⟩ := valid_cons_iff.1 his
  simp at hjs; subst hjs
  exact h i hi j hj

theorem T_mat [Zero α] {A : NDArray α} {m n : ℕ} (hA : A.shape = [m, n]) :
    A.T = ofMat n m fun i j => A.get [j, i] := by
  apply ext_mat (m := n) (n := m) (by simp [T, hA]) rfl
  intro i hi j hj
  rw [get_ofMat hi hj, T, get_ofFn (by simp [hA, hi, hj])]
  simp

@[simp] theorem get_T [Zero α] {A : NDArray α} {m n i j : ℕ} (hA : A.shape = [m, n]) (hi : i < n)
    (hj : j < m) : A.T.get [i, j] = A.get [j, i] := by
  rw [T_mat hA, get_ofMat hi hj]

theorem shape_T [Zero α] {A : NDArray α} {m n : ℕ} (hA : A.shape = [m, n]) : A.T.shape = [n, m] := by
  simp [T, hA]

theorem T_T [Zero α] {A : NDArray α} {m n : ℕ} (hA : A.shape = [m, n]) : A.T.T = A := by
  apply ext_mat (m := m) (n := n) (by simp [T, hA]) hA
  intro i hi j hj
  rw [get_T (shape_T hA) hi hj, get_T hA hj hi]

/-- `A @ B` for two-dimensional arrays; `ValueError` if the inner dimensions differ (or if an operand
is not two-dimensional, a case which the modelled code does not use). -/
def matmul [NonUnitalNonAssocSemiring α] (A B : NDArray α) : Py (NDArray α) :=
  match A.shape, B.shape with
  | [m, k], [k', n] =>
    if k = k' then .ok (ofMat m n fun i j => ∑ l ∈ Finset.range k, A.get [i, l] * B.get [l, j])
    else .error .valueError
  | _, _ => .error .valueError

theorem matmul_ok [NonUnitalNonAssocSemiring α] {A B : NDArray α} {m k n : ℕ}
    (hA : A.shape = [m, k]) (hB : B.shape = [k, n]) :
    matmul A B = .ok (ofMat m n fun i j => ∑ l ∈ Finset.range k, A.get [i, l] * B.get [l, j]) := by
  simp [matmul, hA, hB]

theorem ofFn_mat_congr {m n : ℕ} {f : List ℕ → α} {g : ℕ → ℕ → α}
    (h : ∀ i < m, ∀ j < n, f [i, j] = g i j) : ofFn [m, n] f = ofMat m n g := by
  apply ofFn_congr
  intro idx hidx
  obtain ⟨i, is, rfl, hi, his⟩ := valid_cons_iff.1 hidx
  obtain ⟨j, js, rfl, hj, hjs⟩ := valid_cons_iff.1 his
  simp at hjs; subst hjs
  simpa using h i hi j hj

theorem ofMat_congr {m n : ℕ} {f g : ℕ → ℕ → α}
    (h : ∀ i < m, ∀ j < n, f i j = g i j) : ofMat m n f = ofMat m n g :=
  ofFn_mat_congr (by simpa using h)

/-- Broadcasting of a row of shape `(1, n)` with an `m × n` matrix. -/
theorem zipB_row_mat [Zero α] [Zero β] (op : α → β → γ) {w : NDArray α} {A : NDArray β} {m n : ℕ}
    (hw : w.shape = [1, n]) (hA : A.shape = [m, n]) :
    zipB op w A = .ok (ofMat m n fun i j => op (w.get [0, j]) (A.get [i, j])) := by
  have hb : bshape w.shape A.shape = some [m, n] := by
    rw [hw, hA]
    by_cases h1 : m = 1
    · subst h1; simp [bshape, bshapeRev, bdim]
    · have : ¬ (1 = m) := fun h => h1 h.symm
      simp [bshape, bshapeRev, bdim, this]
  rw [zipB, hb]
  simp only [Except.ok.injEq]
  apply ofFn_mat_congr
  intro i hi j hj
  rw [bidx_self (s := A.shape) (by simp [hA, hi, hj]), hw]
  congr 2
  simp [bidx]; omega

/-- Broadcasting of an `m × n` matrix with a row of shape `(1, n)`. -/
theorem zipB_mat_row [Zero α] [Zero β] (op : α → β → γ) {w : NDArray β} {A : NDArray α} {m n : ℕ}
    (hw : w.shape = [1, n]) (hA : A.shape = [m, n]) :
    zipB op A w = .ok (ofMat m n fun i j => op (A.get [i, j]) (w.get [0, j])) := by
  have hb : bshape A.shape w.shape = some [m, n] := by
    rw [hw, hA]
    by_cases h1 : m = 1
    · subst h1; simp [bshape, bshapeRev, bdim]
    · simp [bshape, bshapeRev, bdim, h1]
  rw [zipB, hb]
  simp only [Except.ok.injEq]
  apply ofFn_mat_congr
  intro i hi j hj
  rw [bidx_self (s := A.shape) (by simp [hA, hi, hj]), hw]
  congr 2
  simp [bidx]; omega

/-- Broadcasting of a vector of shape `(n,)` with an `m × n` matrix. -/
theorem zipB_vec_mat [Zero α] [Zero β] (op : α → β → γ) {w : NDArray α} {A : NDArray β} {m n : ℕ}
    (hw : w.shape = [n]) (hA : A.shape = [m, n]) :
    zipB op w A = .ok (ofMat m n fun i j => op (w.get [j]) (A.get [i, j])) := by
  have hb : bshape w.shape A.shape = some [m, n] := by
    rw [hw, hA]
    simp [bshape, bshapeRev, bdim]
  rw [zipB, hb]
  simp only [Except.ok.injEq]
  apply ofFn_mat_congr
  intro i hi j hj
  rw [bidx_self (s := A.shape) (by simp [hA, hi, hj]), hw]
  congr 2
  simp [bidx]; omega

/-- Broadcasting of an `m × n` matrix with a vector of shape `(n,)`. -/
theorem zipB_mat_vec [Zero α] [Zero β] (op : α → β → γ) {w : NDArray β} {A : NDArray α} {m n : ℕ}
    (hw : w.shape = [n]) (hA : A.shape = [m, n]) :
    zipB op A w = .ok (ofMat m n fun i j => op (A.get [i, j]) (w.get [j])) := by
  have hb : bshape A.shape w.shape = some [m, n] := by
    rw [hw, hA]
    simp [bshape, bshapeRev, bdim]
  rw [zipB, hb]
  simp only [Except.ok.injEq]
  apply ofFn_mat_congr
  intro i hi j hj
  rw [bidx_self (s := A.shape) (by simp [hA, hi, hj]), hw]
  congr 2
  simp [bidx]; omega

/-- Elementwise operation on two `m × n` matrices. -/
theorem zipB_mat_mat [Zero α] [Zero β] (op : α → β → γ) {A : NDArray α} {B : NDArray β} {m n : ℕ}
    (hA : A.shape = [m, n]) (hB : B.shape = [m, n]) :
    zipB op A B = .ok (ofMat m n fun i j => op (A.get [i, j]) (B.get [i, j])) := by
  rw [zipB_same op (hA.trans hB.symm), hA]
  simp only [Except.ok.injEq]
  apply ofFn_mat_congr
  intro i hi j hj
  rw [bidx_self (by simp [hi, hj])]

end NDArray
end TK
