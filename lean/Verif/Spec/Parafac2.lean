import Verif.Model.Parafac2Fit
import Verif.Spec.Tensor
import Verif.Spec.Resid

/-!
# Specification of PARAFAC2

`X_k ≈ A diag(C[k, :]) (P_k D)ᵀ`, where `D` is the blueprint matrix.
-/

namespace TK
open NDArray

noncomputable section

/-- The `k`-th array of a list. -/
def nth (l : List (NDArray ℝ)) (k : ℕ) : NDArray ℝ := l.getD k (full [] 0)

/-- Entry `(i, j)` of the model of slice `k`. -/
def p2Entry (A D C Pk : NDArray ℝ) (R k i j : ℕ) : ℝ :=
  ∑ r ∈ Finset.range R, A.get [i, r] * C.get [k, r] * ∑ q ∈ Finset.range R, Pk.get [j, q] * D.get [q, r]

/-- The sum of squared errors of a PARAFAC2 model for slices of size `I × Js[k]`. -/
def p2Err (X P : List (NDArray ℝ)) (A D C : NDArray ℝ) (I : ℕ) (Js : List ℕ) (R : ℕ) : ℝ :=
  ∑ k ∈ Finset.range Js.length, ∑ i ∈ Finset.range I, ∑ j ∈ Finset.range (Js.getD k 0),
    ((nth X k).get [i, j] - p2Entry A D C (nth P k) R k i j) ^ 2

/-- The matrix `A diag(C[k, :]) Dᵀ` (of size `I × R`), so that slice `k` of the model is this matrix times `P_kᵀ`. -/
def p2Score (A D C : NDArray ℝ) (I R k : ℕ) : NDArray ℝ :=
  ofMat I R fun i q => ∑ r ∈ Finset.range R, C.get [k, r] * A.get [i, r] * D.get [q, r]

/-- The projected data: slice `k` is `X_k P_k`. -/
def p2Projected (X P : List (NDArray ℝ)) (I : ℕ) (Js : List ℕ) (R : ℕ) : NDArray ℝ :=
  ofFn [I, R, Js.length] fun idx =>
    ∑ j ∈ Finset.range (Js.getD (idx.getD 2 0) 0),
      (nth X (idx.getD 2 0)).get [idx.getD 0 0, j] * (nth P (idx.getD 2 0)).get [j, idx.getD 1 0]

namespace P2State

/-- The factor matrices and projection matrices as they are seen through the heap. -/
def A (s : P2State) : NDArray ℝ := s.heap.mem s.dec.A
@[inherit_doc A] def D (s : P2State) : NDArray ℝ := s.heap.mem s.dec.blueprint
@[inherit_doc A] def C (s : P2State) : NDArray ℝ := s.heap.mem s.dec.C
@[inherit_doc A] def P (s : P2State) : List (NDArray ℝ) := s.dec.P.map s.heap.mem

/-- The decomposition fits the data: slices of size `I × Js[k]`, none of them empty, and matrices of the right sizes. -/
structure Sized (s : P2State) (I : ℕ) (Js : List ℕ) (R : ℕ) : Prop where
  posI : 0 < I
  posR : 0 < R
  posJ : ∀ J ∈ Js, 0 < J
  posK : 0 < Js.length
  X : List.Forall₂ (fun Xk J => Xk.shape = [I, J]) s.X Js
  xshape : s.XShape = (I, Js, Js.length)
  A : s.A.shape = [I, R]
  D : s.D.shape = [R, R]
  C : s.C.shape = [Js.length, R]
  P : Factors s.P Js R

/-- The factor matrices are not the same arrays as the projection matrices. -/
structure Apart (s : P2State) : Prop where
  A : s.dec.A ∉ s.dec.P
  D : s.dec.blueprint ∉ s.dec.P
  C : s.dec.C ∉ s.dec.P

/-- All arrays of the decomposition are different objects. -/
def Separate (s : P2State) : Prop := (s.dec.A :: s.dec.blueprint :: s.dec.C :: s.dec.P).Nodup

/-- The factor matrices are different arrays, and none of them is a projection matrix. (Several slices may have the same array as
their projection matrix.) -/
structure Distinct (s : P2State) : Prop where
  addrs : [s.dec.A, s.dec.blueprint, s.dec.C].Nodup
  apart : s.Apart

/-- `k'` is the last slice that has the same array as projection matrix as slice `k`. -/
structure LastUse (s : P2State) (Js : List ℕ) (k k' : ℕ) : Prop where
  lt : k' < Js.length
  same : s.dec.P.getD k' 0 = s.dec.P.getD k 0
  last : ∀ j < Js.length, s.dec.P.getD j 0 = s.dec.P.getD k 0 → j ≤ k'

/-- The true sum of squared errors of a state. -/
def err (s : P2State) (I : ℕ) (Js : List ℕ) (R : ℕ) : ℝ := p2Err s.X s.P s.A s.D s.C I Js R

/-- All projection matrices have orthonormal columns. -/
def Orthonormal (s : P2State) (Js : List ℕ) (R : ℕ) : Prop := ∀ k < Js.length, OrthoCols (nth s.P k) (Js.getD k 0) R

/-- The matrix `X_kᵀ A diag(C[k, :]) Dᵀ` whose singular value decomposition gives the projection matrix of slice `k`. -/
def cross (s : P2State) (I : ℕ) (Js : List ℕ) (R k : ℕ) : NDArray ℝ :=
  ofMat (Js.getD k 0) R fun j q => ∑ i ∈ Finset.range I, (nth s.X k).get [i, j] * (p2Score s.A s.D s.C I R k).get [i, q]

/-- The singular values of slice `k` that the projection update treats as zero, summed: those that are at most
`J_k · σ₁ · 10⁻¹⁶`. -/
def droppedAt (E : Ext) (s : P2State) (I : ℕ) (Js : List ℕ) (R k : ℕ) : ℝ :=
  let σ := (E.svd (s.cross I Js R k)).2.1
  ∑ i ∈ Finset.range (min (Js.getD k 0) R), if σ.get [i] ≤ Js.getD k 0 * σ.get [0] * 1e-16 then σ.get [i] else 0

/-- The sum of all singular values that the projection update treats as zero. -/
def dropped (E : Ext) (s : P2State) (I : ℕ) (Js : List ℕ) (R : ℕ) : ℝ :=
  ∑ k ∈ Finset.range Js.length, s.droppedAt E I Js R k

end P2State
end
end TK
