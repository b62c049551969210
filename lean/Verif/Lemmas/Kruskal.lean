import Verif.Lemmas.Base
import Verif.Model.Kruskal

/-! # Lemmas about Kruskal tensors -/

namespace TK
open NDArray

theorem mapM_ok {β γ : Type} {f : β → Py γ} {g : β → γ} : ∀ {l : List β},
    (∀ x ∈ l, f x = .ok (g x)) → l.mapM f = .ok (l.map g)
  | [], _ => rfl
  | x :: l, h => by
    rw [List.mapM_cons, h x (by simp), bind_ok, mapM_ok (l := l) fun y hy => h y (by simp [hy]), bind_ok]
    rfl

theorem mapM_ok_iff {β γ : Type} {f : β → Py γ} : ∀ {l : List β} {m : List γ},
    l.mapM f = .ok m ↔ List.Forall₂ (fun x y => f x = .ok y) l m
  | [], m => by
    simp [pure, Except.pure, eq_comm]
  | x :: l, m => by
    rw [List.mapM_cons]
    cases hx : f x with
    | error e =>
      simp only [bind_error]
      constructor
      · intro h; cases h
      · intro h; cases h with | cons h1 _ => rw [hx] at h1; cases h1
    | ok y =>
      simp only [bind_ok]
      cases hl : l.mapM f with
      | error e =>
        simp only [bind_error]
        constructor
        · intro h; cases h
        · intro h
          cases h with
          | cons h1 h2 => rw [mapM_ok_iff.2 h2] at hl; cases hl
      | ok ys =>
        simp only [bind_ok]
        constructor
        · intro h; cases h; exact .cons hx (mapM_ok_iff.1 hl)
        · intro h
          cases h with
          | cons h1 h2 =>
            rw [hx] at h1; cases h1
            rw [mapM_ok_iff.2 h2] at hl; cases hl; rfl

noncomputable section

/-- A Kruskal tensor whose factor matrices have the given row counts and `R` columns, and which has `R`
weights. -/
structure KruskalTensor.WF (t : KruskalTensor) (sizes : List ℕ) (R : ℕ) : Prop where
  rank : t.rank = R
  factors : Factors t.factorMatrices sizes R
  weights : t.weights.shape = [R]

@[simp] theorem shape_newaxis0 {α : Type} (A : NDArray α) : (newaxis0 A).shape = 1 :: A.shape := rfl

@[simp] theorem get_newaxis0 {α : Type} [Zero α] (A : NDArray α) (idx : List ℕ) :
    (newaxis0 A).get (0 :: idx) = A.get idx := by
  simp [NDArray.get, ravel, newaxis0, NDArray.flat]

theorem rows_ok {α : Type} {A : NDArray α} {n R : ℕ} (h : A.shape = [n, R]) : rows A = .ok n := by
  rw [rows, h]; rfl

theorem cols_ok {α : Type} {A : NDArray α} {n R : ℕ} (h : A.shape = [n, R]) : cols A = .ok R := by
  rw [cols, h]; rfl

theorem mapM_rows {fs : List (NDArray ℝ)} {s : List ℕ} {R : ℕ} (h : Factors fs s R) :
    fs.mapM rows = .ok s := by
  rw [mapM_ok_iff]
  exact List.Forall₂.imp (fun F n hF => rows_ok hF) h

/-- Closed form of `construct_tensor`. -/
theorem constructTensor_eq {t : KruskalTensor} {sizes : List ℕ} {R : ℕ} (h : t.WF sizes R)
    (h2 : 2 ≤ sizes.length) :
    t.constructTensor
      = .ok (ofFn sizes (cpEntry (fun r => t.weights.get [r]) t.factorMatrices R)) := by
  obtain ⟨_, hfs, hw⟩ := h
  rw [KruskalTensor.constructTensor, mapM_rows hfs, bind_ok]
  generalize t.factorMatrices = fs at hfs
  cases hfs with
  | nil => simp at h2
  | cons h1 hfs =>
  rename_i F n fs s
  have hp : pyGet (F :: fs) 0 = .ok F := rfl
  rw [hp, bind_ok, zipB_row_mat _ (by simp [hw]) h1, bind_ok, List.tail_cons,
    khatriRao_eq hfs (by intro h; subst h; cases hfs; simp at h2), bind_ok]
  have hks : (krMat fs s R).shape = [s.prod, R] := rfl
  rw [matmul_ok (shape_ofMat _ _ _) (shape_T hks), bind_ok,
    fold_eq _ (k := 0) (normIdx_zero (by simp)) (by simp)]
  congr 1
  apply ofFn_congr
  intro idx hidx
  obtain ⟨i, is, rfl, hi, his⟩ := valid_cons_iff.1 hidx
  simp only [List.getD_cons_zero, List.eraseIdx_cons_zero]
  have hrav := ravel_lt his
  have : (ofMat n s.prod fun i j => ∑ l ∈ Finset.range R,
      (ofMat n R fun i j => (newaxis0 t.weights).get [0, j] * F.get [i, j]).get [i, l]
        * (krMat fs s R).T.get [l, j]).flat (i * s.prod + ravel s is)
      = ∑ l ∈ Finset.range R,
      (ofMat n R fun i j => (newaxis0 t.weights).get [0, j] * F.get [i, j]).get [i, l]
        * (krMat fs s R).T.get [l, ravel s is] := by
    have e : i * s.prod + ravel s is = ravel [n, s.prod] [i, ravel s is] := by simp [ravel]
    rw [e]
    exact get_ofMat (f := fun i j => ∑ l ∈ Finset.range R,
      (ofMat n R fun i j => (newaxis0 t.weights).get [0, j] * F.get [i, j]).get [i, l]
        * (krMat fs s R).T.get [l, j]) hi hrav
  rw [this, cpEntry]
  apply Finset.sum_congr rfl
  intro r hr
  have hr := Finset.mem_range.1 hr
  rw [get_ofMat hi hr, get_newaxis0, get_T hks hr hrav, get_krMat his hr, rankOne]
  ring

end
end TK
