import Verif.Spec.CP
import Mathlib.Logic.Equiv.Basic

/-!
# Specification: changes of names and scales of a fitting problem

A rearrangement of the rows of every mode, a rearrangement of the components and coefficients for the columns of the
factor matrices, and what it means that two tensors, or two lists of factor matrices, correspond to each other.
-/

namespace TK

/-- What happens to one mode: the new position of every row, and the coefficient of the column of every component. -/
structure ModeChange where
  row : Equiv.Perm ℕ
  coef : ℕ → ℝ

/-- The new position of a multi-index. -/
def moveIdx : List ModeChange → List ℕ → List ℕ
  | s :: ss, i :: is => s.row i :: moveIdx ss is
  | _, _ => []

/-- The changes fit a tensor with the given numbers of rows and `R` components: rows are permuted among themselves, and
so are the components (`perm`); all coefficients of a mode have the same non-zero absolute value, and the product of
the coefficients of a component over the modes is `c` for every component. -/
structure Change (R : ℕ) (perm : Equiv.Perm ℕ) (sizes : List ℕ) (ss : List ModeChange) (c : ℝ) : Prop where
  rows : List.Forall₂ (fun (s : ModeChange) n => ∀ i, s.row i < n ↔ i < n) ss sizes
  comps : ∀ r, perm r < R ↔ r < R
  abs : ∀ s ∈ ss, ∃ b : ℝ, 0 < b ∧ ∀ r < R, s.coef r ^ 2 = b
  prod : ∀ r < R, (ss.map fun s => s.coef r).prod = c

/-- `X'` is `X` with its entries moved and multiplied by `c`. -/
structure TensorMoved (ss : List ModeChange) (c : ℝ) (X X' : NDArray ℝ) : Prop where
  shape : X'.shape = X.shape
  get : ∀ idx, Valid X.shape idx → X'.get (moveIdx ss idx) = c * X.get idx

/-- The factor matrices `fs'` are the factor matrices `fs` with rows and columns moved and the columns multiplied by the
coefficients. -/
inductive FactorsMoved (R : ℕ) (perm : Equiv.Perm ℕ) :
    List ModeChange → List ℕ → List (NDArray ℝ) → List (NDArray ℝ) → Prop
  | nil : FactorsMoved R perm [] [] [] []
  | cons {s : ModeChange} {n : ℕ} {F F' : NDArray ℝ} {ss : List ModeChange} {ns : List ℕ} {fs fs' : List (NDArray ℝ)} :
      F.shape = [n, R] → F'.shape = [n, R] →
      (∀ i < n, ∀ r < R, F'.get [s.row i, perm r] = s.coef r * F.get [i, r]) →
      FactorsMoved R perm ss ns fs fs' → FactorsMoved R perm (s :: ss) (n :: ns) (F :: fs) (F' :: fs')

end TK
