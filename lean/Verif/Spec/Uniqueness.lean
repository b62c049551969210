import Verif.Spec.Scores

/-!
# Specification: decompositions that are determined by their tensor
-/

namespace TK

/-- Column `s` of `G` is a multiple of column `r` of `F` (not by zero). -/
def ColumnsAgree (F G : NDArray ℝ) (m r s : ℕ) : Prop := ∃ x ≠ 0, ∀ i < m, G.get [i, s] = x * F.get [i, r]

/-- The components of a decomposition are not zero, and none is a multiple of another. -/
structure DistinctTerms (fs : List (NDArray ℝ)) (sizes : List ℕ) (R : ℕ) : Prop where
  nonzero : ∀ r < R, ∃ idx, Valid sizes idx ∧ rankOne fs idx r ≠ 0
  distinct : ∀ r < R, ∀ s < R, ∀ x, (∀ idx, Valid sizes idx → rankOne fs idx r = x * rankOne fs idx s) → r = s

/-- Two of the factor matrices have linearly independent columns, and the components are distinct in the other modes. -/
def Identifiable (fs : List (NDArray ℝ)) (sizes : List ℕ) (R : ℕ) : Prop :=
  ∃ k l F G, k < l ∧ fs[k]? = some F ∧ fs[l]? = some G ∧ IndepColumns F (sizes.getD k 0) R ∧ IndepColumns G (sizes.getD l 0) R ∧
    DistinctTerms ((fs.eraseIdx l).eraseIdx k) ((sizes.eraseIdx l).eraseIdx k) R

end TK
