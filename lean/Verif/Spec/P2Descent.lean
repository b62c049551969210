import Verif.Spec.Parafac2
import Mathlib.Analysis.Calculus.Deriv.Basic

/-!
# Specification of optimality for PARAFAC2 models
-/

namespace TK
open NDArray

noncomputable section

/-- All projection matrices have orthonormal columns. -/
def OrthoAll (P : List (NDArray ℝ)) (Js : List ℕ) (R : ℕ) : Prop := ∀ k < Js.length, OrthoCols (nth P k) (Js.getD k 0) R

/-- A PARAFAC2 model cannot be improved by changing all its projection matrices (to others with orthonormal columns), or `A`, or
`C`. -/
structure P2Optimal (X P : List (NDArray ℝ)) (A D C : NDArray ℝ) (I : ℕ) (Js : List ℕ) (R : ℕ) : Prop where
  orth : OrthoAll P Js R
  bestP : ∀ Q, OrthoAll Q Js R → p2Err X P A D C I Js R ≤ p2Err X Q A D C I Js R
  bestA : ∀ Z : NDArray ℝ, Z.shape = [I, R] → p2Err X P A D C I Js R ≤ p2Err X P Z D C I Js R
  bestC : ∀ Z : NDArray ℝ, Z.shape = [Js.length, R] → p2Err X P A D C I Js R ≤ p2Err X P A D Z I Js R

/-- A PARAFAC2 model cannot be improved by changing its blueprint matrix. -/
def P2OptimalD (X P : List (NDArray ℝ)) (A D C : NDArray ℝ) (I : ℕ) (Js : List ℕ) (R : ℕ) : Prop :=
  ∀ Z : NDArray ℝ, Z.shape = [R, R] → p2Err X P A D C I Js R ≤ p2Err X P A Z C I Js R

/-- `F + t G`, as a matrix of size `n × R`. -/
def alongMat (n R : ℕ) (F G : NDArray ℝ) (t : ℝ) : NDArray ℝ := ofMat n R fun i r => F.get [i, r] + t * G.get [i, r]

/-- The derivative of the error in all joint directions of `A`, the blueprint matrix and `C` vanishes. -/
def P2Stationary (X P : List (NDArray ℝ)) (A D C : NDArray ℝ) (I : ℕ) (Js : List ℕ) (R : ℕ) : Prop :=
  ∀ A' D' C' : NDArray ℝ, HasDerivAt
    (fun t => p2Err X P (alongMat I R A A' t) (alongMat R R D D' t) (alongMat Js.length R C C' t) I Js R) 0 0

end
end TK
