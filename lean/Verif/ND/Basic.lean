import Mathlib.Algebra.BigOperators.Group.Finset.Basic
import Mathlib.Algebra.BigOperators.Ring.Finset
import Mathlib.Data.List.InsertIdx
import Mathlib.Algebra.Order.BigOperators.Group.Finset
import Mathlib.Tactic.Ring
import Mathlib.Tactic.Linarith
import Mathlib.Tactic.Positivity
import Verif.Py.Err

/-!
# C-order arrays with dynamic shape

`NDArray α` is the value of a NumPy array: its shape and its elements in C (row-major) order.
-/

namespace TK

/-- A NumPy array value: shape and C-order data. -/
structure NDArray (α : Type _) where
  shape : List ℕ
  data : List α
  wf : data.length = shape.prod

/-- `Valid s idx`: `idx` is a multi-index into an array of shape `s`. -/
def Valid : List ℕ → List ℕ → Prop
  | [], [] => True
  | s :: ss, i :: is => i < s ∧ Valid ss is
  | _, _ => False

/-- C-order position of a multi-index (`np.ravel_multi_index`). -/
def ravel : List ℕ → List ℕ → ℕ
  | _ :: ss, i :: is => i * ss.prod + ravel ss is
  | _, _ => 0

/-- Multi-index at a C-order position (`np.unravel_index`). -/
def unravel : List ℕ → ℕ → List ℕ
  | [], _ => []
  | _ :: ss, p => (p / ss.prod) :: unravel ss (p % ss.prod)

@[simp] theorem valid_nil_left {idx : List ℕ} : Valid [] idx ↔ idx = [] := by
  cases idx <;> simp [Valid]

@[simp] theorem valid_nil_right {s : List ℕ} : Valid s [] ↔ s = [] := by
  cases s <;> simp [Valid]

@[simp] theorem valid_cons {s i : ℕ} {ss is : List ℕ} :
    Valid (s :: ss) (i :: is) ↔ i < s ∧ Valid ss is := Iff.rfl

theorem Valid.length_eq : ∀ {s idx : List ℕ}, Valid s idx → idx.length = s.length
  | [], [], _ => rfl
  | _ :: _, _ :: _, h => by simp [h.2.length_eq]

theorem valid_cons_iff {s : ℕ} {ss idx : List ℕ} :
    Valid (s :: ss) idx ↔ ∃ i is, idx = i :: is ∧ i < s ∧ Valid ss is := by
  cases idx with
  | nil => simp
  | cons i is => simp

instance : ∀ (s idx : List ℕ), Decidable (Valid s idx)
  | [], [] => isTrue trivial
  | [], _ :: _ => isFalse (by simp)
  | _ :: _, [] => isFalse (by simp)
  | s :: ss, i :: is =>
    have := instDecidableValid ss is
    decidable_of_iff (i < s ∧ Valid ss is) Iff.rfl

theorem ravel_lt : ∀ {s idx : List ℕ}, Valid s idx → ravel s idx < s.prod
  | [], [], _ => by simp [ravel]
  | s :: ss, i :: is, h => by
    have h1 := ravel_lt h.2
    have h2 : i + 1 ≤ s := h.1
    simp only [ravel, List.prod_cons]
    calc i * ss.prod + ravel ss is < i * ss.prod + ss.prod := by omega
      _ = (i + 1) * ss.prod := by ring
      _ ≤ s * ss.prod := Nat.mul_le_mul_right _ h2

theorem unravel_valid : ∀ {s : List ℕ} {p : ℕ}, p < s.prod → Valid s (unravel s p)
  | [], _, _ => by simp [unravel]
  | s :: ss, p, h => by
    rw [List.prod_cons] at h
    have hpos : 0 < ss.prod := by
      rcases Nat.eq_zero_or_pos ss.prod with h0 | h0
      · simp [h0] at h
      · exact h0
    exact ⟨Nat.div_lt_of_lt_mul (by rwa [Nat.mul_comm]), unravel_valid (Nat.mod_lt _ hpos)⟩

@[simp] theorem unravel_ravel : ∀ {s idx : List ℕ}, Valid s idx → unravel s (ravel s idx) = idx
  | [], [], _ => rfl
  | s :: ss, i :: is, h => by
    have h1 := ravel_lt h.2
    have hpos : 0 < ss.prod := Nat.lt_of_le_of_lt (Nat.zero_le _) h1
    simp only [unravel, ravel]
    rw [Nat.add_comm, Nat.add_mul_div_right _ _ hpos, Nat.div_eq_of_lt h1,
      Nat.add_mul_mod_self_right, Nat.mod_eq_of_lt h1, unravel_ravel h.2]
    simp

@[simp] theorem ravel_unravel : ∀ {s : List ℕ} {p : ℕ}, p < s.prod → ravel s (unravel s p) = p
  | [], p, h => by simp at h; simp [ravel, h]
  | s :: ss, p, h => by
    rw [List.prod_cons] at h
    have hpos : 0 < ss.prod := by
      rcases Nat.eq_zero_or_pos ss.prod with h0 | h0
      · simp [h0] at h
      · exact h0
    simp only [unravel, ravel]
    rw [ravel_unravel (Nat.mod_lt _ hpos)]
    exact Nat.div_add_mod' p ss.prod

theorem ravel_inj {s a b : List ℕ} (ha : Valid s a) (hb : Valid s b)
    (h : ravel s a = ravel s b) : a = b := by
  rw [← unravel_ravel ha, ← unravel_ravel hb, h]

theorem Valid.append : ∀ {s t a b : List ℕ}, Valid s a → Valid t b → Valid (s ++ t) (a ++ b)
  | [], _, [], _, _, h => h
  | _ :: _, _, _ :: _, _, h, h' => ⟨h.1, h.2.append h'⟩

theorem ravel_append : ∀ {s t a b : List ℕ}, Valid s a →
    ravel (s ++ t) (a ++ b) = ravel s a * t.prod + ravel t b
  | [], _, [], _, _ => by simp [ravel]
  | s :: ss, t, i :: is, b, h => by
    simp only [List.cons_append, ravel, List.prod_append]
    rw [ravel_append h.2]; ring

theorem Valid.insertIdx : ∀ {s idx : List ℕ} {n i m : ℕ}, Valid s idx → n ≤ s.length → i < m →
    Valid (s.insertIdx n m) (idx.insertIdx n i)
  | _, _, 0, _, _, h, _, hi => by simpa using ⟨hi, h⟩
  | [], [], _ + 1, _, _, _, hn, _ => by simp at hn
  | _ :: _, _ :: _, _ + 1, _, _, h, hn, hi => by
    simp only [List.insertIdx_succ_cons, valid_cons]
    exact ⟨h.1, h.2.insertIdx (by simpa using hn) hi⟩

theorem Valid.eraseIdx : ∀ {s idx : List ℕ} {n : ℕ}, Valid s idx →
    Valid (s.eraseIdx n) (idx.eraseIdx n)
  | [], [], _, _ => by simp
  | _ :: _, _ :: _, 0, h => by simpa using h.2
  | _ :: _, _ :: _, _ + 1, h => by simpa using ⟨h.1, h.2.eraseIdx⟩

theorem Valid.getD_lt : ∀ {s idx : List ℕ} {n : ℕ}, Valid s idx → n < s.length →
    idx.getD n 0 < s.getD n 0
  | _ :: _, _ :: _, 0, h, _ => by simpa using h.1
  | _ :: _, _ :: _, _ + 1, h, hn => by
    simpa using h.2.getD_lt (by simpa using hn)

namespace NDArray

variable {α β : Type*}

/-- Element at C-order position `p` (0 outside; all uses are within bounds). -/
def flat [Zero α] (A : NDArray α) (p : ℕ) : α := A.data.getD p 0

/-- Element at a multi-index. -/
def get [Zero α] (A : NDArray α) (idx : List ℕ) : α := A.flat (ravel A.shape idx)

/-- Array of a given shape from a function of the C-order position. -/
def ofFlat (s : List ℕ) (f : ℕ → α) : NDArray α := ⟨s, (List.range s.prod).map f, by simp⟩

/-- Array of a given shape from a function of the multi-index. -/
def ofFn (s : List ℕ) (f : List ℕ → α) : NDArray α := ofFlat s fun p => f (unravel s p)

@[simp] theorem shape_ofFlat (s : List ℕ) (f : ℕ → α) : (ofFlat s f).shape = s := rfl
@[simp] theorem shape_ofFn (s : List ℕ) (f : List ℕ → α) : (ofFn s f).shape = s := rfl

@[simp] theorem flat_ofFlat [Zero α] {s : List ℕ} {f : ℕ → α} {p : ℕ} (h : p < s.prod) :
    (ofFlat s f).flat p = f p := by
  simp [flat, ofFlat, List.getD, h]

@[simp] theorem get_ofFn [Zero α] {s : List ℕ} {f : List ℕ → α} {idx : List ℕ} (h : Valid s idx) :
    (ofFn s f).get idx = f idx := by
  simp [get, ofFn, flat_ofFlat (ravel_lt h), unravel_ravel h]

theorem ext_flat [Zero α] {A B : NDArray α} (hs : A.shape = B.shape)
    (h : ∀ p < A.shape.prod, A.flat p = B.flat p) : A = B := by
  obtain ⟨s, d, hw⟩ := A
  obtain ⟨s', d', hw'⟩ := B
  obtain rfl : s = s' := hs
  have : d = d' := by
    apply List.ext_getElem (hw.trans hw'.symm)
    intro p h1 h2
    have := h p (by simpa [hw] using h1)
    simpa [flat, List.getD, h1, h2] using this
  subst this; rfl

theorem ext_get [Zero α] {A B : NDArray α} (hs : A.shape = B.shape)
    (h : ∀ idx, Valid A.shape idx → A.get idx = B.get idx) : A = B := by
  apply ext_flat hs
  intro p hp
  have := h (unravel A.shape p) (unravel_valid hp)
  rw [get, get, ← hs, ravel_unravel hp] at this
  exact this

theorem flat_eq_get [Zero α] (A : NDArray α) {p : ℕ} (hp : p < A.shape.prod) :
    A.flat p = A.get (unravel A.shape p) := by
  rw [get, ravel_unravel hp]

theorem eq_ofFn [Zero α] (A : NDArray α) : A = ofFn A.shape A.get :=
  ext_get rfl fun _ h => (get_ofFn h).symm

theorem ofFn_congr {s : List ℕ} {f g : List ℕ → α} (h : ∀ idx, Valid s idx → f idx = g idx) :
    ofFn s f = ofFn s g := by
  simp only [ofFn, ofFlat, NDArray.mk.injEq, true_and]
  apply List.map_congr_left
  intro p hp
  exact h _ (unravel_valid (List.mem_range.1 hp))

/-- `A.reshape(s)` for an explicit shape: same C-order data, `ValueError` if sizes differ. -/
def reshape (A : NDArray α) (s : List ℕ) : Py (NDArray α) :=
  if h : A.shape.prod = s.prod then .ok ⟨s, A.data, A.wf.trans h⟩ else .error .valueError

/-- `A.reshape(m, -1)`: NumPy infers the last dimension; it raises `ValueError` if `m` does not
divide the size, and also if `m = 0` (the unknown dimension is then undetermined). -/
def reshapeRows (A : NDArray α) (m : ℕ) : Py (NDArray α) :=
  if m = 0 then .error .valueError
  else if A.shape.prod % m = 0 then A.reshape [m, A.shape.prod / m] else .error .valueError

/-- `A.reshape(-1, m)`: as `reshapeRows` for the first dimension. -/
def reshapeCols (A : NDArray α) (m : ℕ) : Py (NDArray α) :=
  if m = 0 then .error .valueError
  else if A.shape.prod % m = 0 then A.reshape [A.shape.prod / m, m] else .error .valueError

/-- `np.moveaxis(A, src, dst)` for already normalised axes: axis `src` is removed and inserted at
position `dst`; the other axes keep their order. -/
def moveaxisNat [Zero α] (A : NDArray α) (src dst : ℕ) : NDArray α :=
  ofFn ((A.shape.eraseIdx src).insertIdx dst (A.shape.getD src 0)) fun idx =>
    A.get ((idx.eraseIdx dst).insertIdx src (idx.getD dst 0))

/-- `np.moveaxis(A, src, dst)`: axes out of range raise `AxisError` (a `ValueError`). -/
def moveaxis [Zero α] (A : NDArray α) (src dst : Int) : Py (NDArray α) :=
  match normIdx src A.shape.length, normIdx dst A.shape.length with
  | some s, some d => .ok (A.moveaxisNat s d)
  | _, _ => .error .valueError

end NDArray
end TK
