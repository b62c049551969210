import Verif.Model.Solvers
import Verif.LinAlg.LeastSquares

/-!
# Contracts of the external numerical routines

`Verif/LinAlg/Exists.lean` shows that routines with these contracts exist.
-/

namespace TK
open NDArray

noncomputable section

/-- The entries of a matrix as a Mathlib matrix. -/
def mat (A : NDArray ℝ) (m n : ℕ) : Matrix (Fin m) (Fin n) ℝ := fun i j => A.get [(i : ℕ), (j : ℕ)]

/-- The entries of a vector. -/
def vec (v : NDArray ℝ) (n : ℕ) : Fin n → ℝ := fun i => v.get [(i : ℕ)]

/-- Contract of `np.linalg.svd(A, full_matrices=False)` for an `m × n` matrix: with `k = min m n`, the
factors have the documented shapes, orthonormal columns and rows, multiply to `A`, and the singular values
are non-negative and non-increasing. -/
structure IsSVD (A U S Vh : NDArray ℝ) (m n : ℕ) : Prop where
  shapeU : U.shape = [m, min m n]
  shapeS : S.shape = [min m n]
  shapeVh : Vh.shape = [min m n, n]
  svd : LA.ThinSVD (mat A m n) (mat U m (min m n)) (vec S (min m n)) (mat Vh (min m n) n)
  sorted : Antitone (vec S (min m n))

/-- The SVD routine meets its contract on every matrix. -/
def Ext.SVDOk (E : Ext) : Prop := ∀ A : NDArray ℝ, ∀ m n, A.shape = [m, n] →
  IsSVD A (E.svd A).1 (E.svd A).2.1 (E.svd A).2.2 m n

/-- Contract of `scipy.optimize.nnls(A, b)` for an `n × m` matrix and a vector of length `n`: the result is
a non-negative vector with the least residual among all non-negative vectors. -/
structure IsNNLS (A b x : NDArray ℝ) (n m : ℕ) : Prop where
  shape : x.shape = [m]
  nonneg : ∀ j < m, 0 ≤ x.get [j]
  optimal : ∀ y : ℕ → ℝ, (∀ j < m, 0 ≤ y j) →
    ∑ i ∈ Finset.range n, ((∑ j ∈ Finset.range m, A.get [i, j] * x.get [j]) - b.get [i]) ^ 2
      ≤ ∑ i ∈ Finset.range n, ((∑ j ∈ Finset.range m, A.get [i, j] * y j) - b.get [i]) ^ 2

/-- The NNLS routine meets its contract. -/
def Ext.NNLSOk (E : Ext) : Prop := ∀ A b : NDArray ℝ, ∀ n m, A.shape = [n, m] → b.shape = [n] →
  IsNNLS A b (E.nnls A b) n m

/-- Contract of `np.linalg.qr(A)` (reduced) for an `m × n` matrix: orthonormal columns, upper triangular,
`A = Q R`. -/
structure IsQR (A Q R : NDArray ℝ) (m n : ℕ) : Prop where
  shapeQ : Q.shape = [m, min m n]
  shapeR : R.shape = [min m n, n]
  orth : (mat Q m (min m n)).transpose * mat Q m (min m n) = 1
  upper : ∀ i < min m n, ∀ j < i, R.get [i, j] = 0
  eq : mat A m n = mat Q m (min m n) * mat R (min m n) n

/-- The QR routine meets its contract. -/
def Ext.QROk (E : Ext) : Prop := ∀ A : NDArray ℝ, ∀ m n, A.shape = [m, n] →
  IsQR A (E.qr A).1 (E.qr A).2 m n

end
end TK
