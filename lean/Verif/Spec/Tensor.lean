import Verif.ND.Ops

/-!
# Specifications for tensors in factored form

Small definitions in which the properties are stated; they do not refer to the modelled functions.
-/

namespace TK
variable {α : Type}

/-- C-order (row-major) position of a multi-index: `Σ_j idx_j · Π_{l > j} shape_l`. -/
def cPos (shape idx : List ℕ) : ℕ :=
  ∑ j ∈ Finset.range shape.length, idx.getD j 0 * (shape.drop (j + 1)).prod

theorem ravel_eq_cPos : ∀ {s idx : List ℕ}, idx.length = s.length → ravel s idx = cPos s idx
  | [], [], _ => by simp [ravel, cPos]
  | s :: ss, i :: is, h => by
    have ih := ravel_eq_cPos (s := ss) (idx := is) (by simpa using h)
    rw [ravel, ih]
    simp [cPos, Finset.sum_range_succ', Nat.add_comm]
  | [], _ :: _, h => by simp at h
  | _ :: _, [], h => by simp at h

/-- `fs` is a list of matrices with `R` columns whose row counts are `sizes`. -/
def Factors (fs : List (NDArray α)) (sizes : List ℕ) (R : ℕ) : Prop :=
  List.Forall₂ (fun F n => F.shape = [n, R]) fs sizes

/-- `Π_m F_m[i_m, r]`. -/
def rankOne [Zero α] [Mul α] [One α] : List (NDArray α) → List ℕ → ℕ → α
  | F :: fs, i :: idx, r => F.get [i, r] * rankOne fs idx r
  | _, _, _ => 1

/-- Entry of the tensor `Σ_r w_r · U_1[:, r] ∘ … ∘ U_d[:, r]`. -/
def cpEntry [CommSemiring α] (w : ℕ → α) (fs : List (NDArray α)) (R : ℕ) (idx : List ℕ) : α :=
  ∑ r ∈ Finset.range R, w r * rankOne fs idx r

/-- `Π_m F_m[i_m, j_m]`. -/
def kronEntry [Zero α] [Mul α] [One α] : List (NDArray α) → List ℕ → List ℕ → α
  | F :: fs, i :: is, j :: js => F.get [i, j] * kronEntry fs is js
  | _, _, _ => 1

/-- Rows and columns of a list of matrices. -/
def Mats (fs : List (NDArray α)) (rows cols : List ℕ) : Prop :=
  List.Forall₂ (fun F (d : ℕ × ℕ) => F.shape = [d.1, d.2]) fs (rows.zip cols) ∧
    rows.length = cols.length

/-- Entry `(i, r)` of the matricised-tensor-times-Khatri-Rao-product for mode `k`: the sum over all
indices whose `k`-th component is `i` of the tensor entry times the factor entries of the other modes. -/
def mttkrpEntry [CommSemiring α] (X : NDArray α) (fs : List (NDArray α)) (k i r : ℕ) : α :=
  sumIdx (X.shape.eraseIdx k) fun idx =>
    X.get (idx.insertIdx k i) * rankOne (fs.eraseIdx k) idx r

theorem Factors.length_eq {fs : List (NDArray α)} {sizes : List ℕ} {R : ℕ} (h : Factors fs sizes R) :
    fs.length = sizes.length := List.Forall₂.length_eq h

theorem Factors.append {fs gs : List (NDArray α)} {s t : List ℕ} {R : ℕ} (h : Factors fs s R)
    (h' : Factors gs t R) : Factors (fs ++ gs) (s ++ t) R := List.rel_append h h'

theorem Factors.eraseIdx {fs : List (NDArray α)} {s : List ℕ} {R : ℕ} (h : Factors fs s R) (k : ℕ) :
    Factors (fs.eraseIdx k) (s.eraseIdx k) R := by
  unfold Factors at *
  induction h generalizing k with
  | nil => simp
  | cons h1 h2 ih =>
    cases k with
    | zero => simpa using h2
    | succ k => simpa using ⟨h1, ih k⟩

theorem Factors.shape_get {fs : List (NDArray α)} {s : List ℕ} {R k : ℕ} (h : Factors fs s R)
    (hk : k < fs.length) : (fs[k]).shape = [s.getD k 0, R] := by
  unfold Factors at h
  induction h generalizing k with
  | nil => simp at hk
  | cons h1 h2 ih =>
    cases k with
    | zero => simpa using h1
    | succ k => simpa using ih (k := k) (by simpa using hk)

section
variable [CommSemiring α]

theorem rankOne_append {fs gs : List (NDArray α)} {s a b : List ℕ} {R r : ℕ} (h : Factors fs s R)
    (ha : a.length = s.length) :
    rankOne (fs ++ gs) (a ++ b) r = rankOne fs a r * rankOne gs b r := by
  unfold Factors at h
  induction h generalizing a with
  | nil => simp at ha; simp [ha, rankOne]
  | cons h1 h2 ih =>
    cases a with
    | nil => simp at ha
    | cons i a => simp [rankOne, ih (a := a) (by simpa using ha), mul_assoc]

/-- Splitting off mode `k`. -/
theorem rankOne_eraseIdx {fs : List (NDArray α)} {idx : List ℕ} {k r : ℕ} (hk : k < fs.length)
    (hidx : idx.length = fs.length) :
    rankOne fs idx r = (fs[k]).get [idx.getD k 0, r] * rankOne (fs.eraseIdx k) (idx.eraseIdx k) r := by
  induction fs generalizing idx k with
  | nil => simp at hk
  | cons F fs ih =>
    cases idx with
    | nil => simp at hidx
    | cons i idx =>
      cases k with
      | zero => simp [rankOne]
      | succ k =>
        have := ih (idx := idx) (k := k) (by simpa using hk) (by simpa using hidx)
        simp only [rankOne, this, List.getElem_cons_succ, List.getD_cons_succ,
          List.eraseIdx_cons_succ]
        ring

end
end TK
