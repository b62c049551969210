import Verif.Props.CMTFFitMore
import Verif.Props.Symmetry

/-!
# Rearranged problems for `CMTF_ALS`

The rows of the modes of the tensor are moved together with the rows of the coupled matrices, the columns of the coupled
matrices together with the rows of their right factors, and the components are moved and change their signs.
-/

namespace TK
open NDArray Matrix

noncomputable section

/-! ### the solution of a least squares problem -/

theorem LA.pinv_gram {m n k : Type*} [Fintype m] [Fintype n] [Fintype k] [DecidableEq k] {A : Matrix m n ℝ} {U : Matrix m k ℝ}
    {s : k → ℝ} {Vh : Matrix k n ℝ} (h : LA.ThinSVD A U s Vh) : ∃ Z : Matrix n m ℝ, LA.pinv U s Vh = Z * (A * Aᵀ) := by
  classical
  refine ⟨Vhᵀ * diagonal (fun i => LA.sInv s i * LA.sInv s i * LA.sInv s i) * Uᵀ, ?_⟩
  rw [LA.ThinSVD.transpose_eq h.eq, h.eq, LA.pinv]
  have e1 : Vhᵀ * diagonal (fun i => LA.sInv s i * LA.sInv s i * LA.sInv s i) * Uᵀ *
      (U * diagonal s * Vh * (Vhᵀ * diagonal s * Uᵀ))
      = Vhᵀ * (diagonal (fun i => LA.sInv s i * LA.sInv s i * LA.sInv s i) * (Uᵀ * U) * diagonal s * (Vh * Vhᵀ) * diagonal s)
        * Uᵀ := by
    simp only [Matrix.mul_assoc]
  rw [e1, h.left, h.right, Matrix.mul_one, Matrix.mul_one, diagonal_mul_diagonal, diagonal_mul_diagonal]
  congr 3
  funext i
  have := LA.mul_sInv_sInv s i
  calc LA.sInv s i = LA.sInv s i * LA.sInv s i * s i := this.symm
    _ = (LA.sInv s i * LA.sInv s i * s i) * LA.sInv s i * s i := by rw [this, this]
    _ = _ := by ring

/-- The two properties that determine the solution of `rightsolve`: the normal equations, and that its rows are combinations of
the rows of the matrix of the normal equations. -/
theorem rightsolve_rows {E : Ext} (hE : E.SVDOk) {A B : NDArray ℝ} {m n p : ℕ} (hA : A.shape = [m, n]) (hB : B.shape = [p, n]) :
    ∃ F, rightsolve E A B = .ok F ∧ F.shape = [p, m] ∧ ∀ i < p,
      (∀ b < m, ∑ a ∈ Finset.range m, F.get [i, a] * (∑ j ∈ Finset.range n, A.get [a, j] * A.get [b, j]) =
        ∑ j ∈ Finset.range n, B.get [i, j] * A.get [b, j]) ∧
      ∃ W : ℕ → ℝ, ∀ a < m, F.get [i, a] =
        ∑ b ∈ Finset.range m, W b * ∑ j ∈ Finset.range n, A.get [b, j] * A.get [a, j] := by
  obtain ⟨F, e, hF, hm⟩ := rightsolve_mat hE hA hB
  have hsvd := (hE A m n hA).svd
  have hn := LA.pinv_normal hsvd (mat B p n)
  rw [← hm, Matrix.sub_mul, sub_eq_zero, Matrix.mul_assoc] at hn
  obtain ⟨Z, hZ⟩ := LA.pinv_gram hsvd
  rw [hZ, ← Matrix.mul_assoc] at hm
  have hG : ∀ (a b : Fin m), (mat A m n * (mat A m n)ᵀ) a b = ∑ j ∈ Finset.range n, A.get [(a : ℕ), j] * A.get [(b : ℕ), j] := by
    intro a b
    rw [mul_apply, Finset.sum_range]
    rfl
  refine ⟨F, e, hF, fun i hi => ⟨fun b hb => ?_, ?_⟩⟩
  · have := congrFun (congrFun hn ⟨i, hi⟩) ⟨b, hb⟩
    rw [mul_apply, mul_apply] at this
    rw [Finset.sum_range, Finset.sum_range (fun j => B.get [i, j] * A.get [b, j])]
    refine Eq.trans (Finset.sum_congr rfl fun a _ => ?_) this
    rw [hG]
    rfl
  · refine ⟨fun b => if hb : b < m then (mat B p n * Z) ⟨i, hi⟩ ⟨b, hb⟩ else 0, fun a ha => ?_⟩
    have := congrFun (congrFun hm ⟨i, hi⟩) ⟨a, ha⟩
    rw [mul_apply] at this
    rw [Finset.sum_range]
    refine (show F.get [i, a] = _ from this).trans (Finset.sum_congr rfl fun b _ => ?_)
    beta_reduce
    rw [dif_pos b.2, hG]

/-! ### the updates in terms of Gram matrices -/

theorem sum_split {n q : ℕ} (f g : ℕ → ℝ) :
    ∑ j ∈ Finset.range (n + q), (if j < n then f j else g (j - n)) = ∑ j ∈ Finset.range n, f j + ∑ j ∈ Finset.range q, g j := by
  rw [Finset.sum_range_add]
  congr 1
  · exact Finset.sum_congr rfl fun j hj => by rw [if_pos (by simpa using hj)]
  · exact Finset.sum_congr rfl fun j _ => by rw [if_neg (by omega), Nat.add_sub_cancel_left]

theorem coupled_gram {X V : NDArray ℝ} {fs : List (NDArray ℝ)} {m q R a b : ℕ}
    (hf : Factors (fs.eraseIdx m) (X.shape.eraseIdx m) R) (hV : V.shape = [q, R]) (ha : a < R) (hb : b < R) :
    ∑ j ∈ Finset.range ((X.shape.eraseIdx m).prod + q), (coupledLhs X fs V m q R).get [a, j] * (coupledLhs X fs V m q R).get [b, j]
      = gramProd (fs.eraseIdx m) a b + ∑ j ∈ Finset.range q, V.get [j, a] * V.get [j, b] := by
  rw [← krMat_gram hf ha hb, ← sum_split]
  refine Finset.sum_congr rfl fun j hj => ?_
  have hj : j < (X.shape.eraseIdx m).prod + q := by simpa using hj
  rw [coupledLhs, get_ofMat ha hj, get_ofMat hb hj]
  have hK : (krMat (fs.eraseIdx m) (X.shape.eraseIdx m) R).shape = [(X.shape.eraseIdx m).prod, R] := rfl
  split
  · rename_i h
    rw [get_T hK ha h, get_T hK hb h]
  · rw [get_T hV ha (by omega), get_T hV hb (by omega)]

theorem coupled_rhs {X V Y : NDArray ℝ} {fs : List (NDArray ℝ)} {m q R i b : ℕ} (hV : V.shape = [q, R])
    (hi : i < X.shape.getD m 0) (hb : b < R) :
    ∑ j ∈ Finset.range ((X.shape.eraseIdx m).prod + q), (coupledRhs X Y m q).get [i, j] * (coupledLhs X fs V m q R).get [b, j]
      = mttkrpEntry X fs m i b + ∑ j ∈ Finset.range q, Y.get [i, j] * V.get [j, b] := by
  have hK : (krMat (fs.eraseIdx m) (X.shape.eraseIdx m) R).shape = [(X.shape.eraseIdx m).prod, R] := rfl
  have h1 : mttkrpEntry X fs m i b = ∑ j ∈ Finset.range (X.shape.eraseIdx m).prod, (unfoldMat X m).get [i, j] *
      (krMat (fs.eraseIdx m) (X.shape.eraseIdx m) R).get [j, b] := by
    have := congrFun (congrFun (mat_mttkrp X fs m R) ⟨i, hi⟩) ⟨b, hb⟩
    rw [mul_apply] at this
    rw [Finset.sum_range]
    refine Eq.trans ?_ this
    show _ = (mttkrpMat X fs m R).get [i, b]
    rw [mttkrpMat, get_ofMat hi hb]
  rw [h1, ← sum_split]
  refine Finset.sum_congr rfl fun j hj => ?_
  have hj : j < (X.shape.eraseIdx m).prod + q := by simpa using hj
  rw [coupledLhs, coupledRhs, get_ofMat hb hj, get_ofMat hi hj]
  split
  · rename_i h
    rw [get_T hK hb h]
  · rw [get_T hV hb (by omega)]

/-- What an update of the factor matrix of mode `m` adds to the normal equations: nothing, or the first coupled matrix. -/
def CMTFState.extraGram (s : CMTFState) (qs : List ℕ) (i : Option ℕ) (a b : ℕ) : ℝ :=
  match i with
  | none => 0
  | some i => ∑ j ∈ Finset.range (qs.getD i 0), (s.V.getD i noArr).get [j, a] * (s.V.getD i noArr).get [j, b]

def CMTFState.extraRhs (s : CMTFState) (qs : List ℕ) (i : Option ℕ) (k b : ℕ) : ℝ :=
  match i with
  | none => 0
  | some i => ∑ j ∈ Finset.range (qs.getD i 0), (s.Ys.getD i noArr).get [k, j] * (s.V.getD i noArr).get [j, b]

/-- The number of the first matrix coupled to mode `m`, if `m` is among the given coupling modes. -/
def firstCoupled (D : List (Int × List ℕ)) (m : ℕ) : Option ℕ := (CMTF.lookup m D).bind List.head?

theorem cmtf_update_rows {E : Ext} (hE : E.SVDOk) {o : CPOpts} {s : CMTFState} {m : ℕ} {ms qs : List ℕ}
    (h : s.Sized o.rank ms qs) (hm : m < s.cp.X.shape.length) (hc : s.cp.ModeConfig o m false false none) :
    ∃ c F, F.shape = [s.cp.X.shape.getD m 0, o.rank] ∧ CMTF.updateFactor E o m s = .ok (s.upd m c F) ∧
      (∀ i, firstCoupled s.map m = some i → i < ms.length ∧ ms.getD i 0 = m) ∧
      ∀ k < s.cp.X.shape.getD m 0,
        (∀ b < o.rank, ∑ a ∈ Finset.range o.rank, F.get [k, a] * (gramProd (s.cp.dec.factorMatrices.eraseIdx m) a b +
            s.extraGram qs (firstCoupled s.map m) a b) =
          mttkrpEntry s.cp.X s.cp.dec.factorMatrices m k b + s.extraRhs qs (firstCoupled s.map m) k b) ∧
        ∃ W : ℕ → ℝ, ∀ a < o.rank, F.get [k, a] = ∑ b ∈ Finset.range o.rank, W b *
          (gramProd (s.cp.dec.factorMatrices.eraseIdx m) b a + s.extraGram qs (firstCoupled s.map m) b a) := by
  rcases h.lookup m with ⟨hl, -⟩ | ⟨i, t, hl, -, -, hall, hi⟩
  · have hfc : firstCoupled s.map m = none := by rw [firstCoupled, hl]; rfl
    obtain ⟨F, hF, e, hrow⟩ := update_rows hE h.cp hm hc
    refine ⟨mttkrpMat s.cp.X s.cp.dec.factorMatrices m o.rank, F, hF, ?_, by simp [hfc], fun k hk => ?_⟩
    · rw [updateFactor_uncoupled hl, e]; rfl
    · rw [hfc]
      simpa [CMTFState.extraGram, CMTFState.extraRhs] using hrow k hk
  · have hfc : firstCoupled s.map m = some i := by rw [firstCoupled, hl]; rfl
    have hi' := hi hm
    have hil := hall i (by simp)
    have hV := h.shapeV i hil
    obtain ⟨F, e, hF, hrow⟩ := rightsolve_rows hE
      (A := coupledLhs s.cp.X s.cp.dec.factorMatrices (s.V.getD i noArr) m (qs.getD i 0) o.rank)
      (B := coupledRhs s.cp.X (s.Ys.getD i noArr) m (qs.getD i 0)) (shape_ofMat _ _ _) (shape_ofMat _ _ _)
    have hf := h.cp.wf.factors.eraseIdx m
    refine ⟨_, F, hF, updateFactor_coupled h hm hl hall hi' (getSolve_ok hc (by simp)) e hF, ?_, fun k hk => ?_⟩
    · intro j hj
      rw [hfc] at hj
      obtain rfl := Option.some.inj hj
      exact ⟨hil, hi'⟩
    · obtain ⟨h1, W, h2⟩ := hrow k hk
      rw [hfc]
      refine ⟨fun b hb => ?_, W, fun a ha => ?_⟩
      · have := h1 b hb
        rw [coupled_rhs hV hk hb] at this
        rw [show s.extraRhs qs (some i) k b = ∑ j ∈ Finset.range (qs.getD i 0),
          (s.Ys.getD i noArr).get [k, j] * (s.V.getD i noArr).get [j, b] from rfl, ← this]
        refine Finset.sum_congr rfl fun a ha => ?_
        rw [coupled_gram hf hV (by simpa using ha) hb]
        rfl
      · rw [h2 a ha]
        refine Finset.sum_congr rfl fun b hb => ?_
        rw [coupled_gram hf hV (by simpa using hb) ha]
        rfl

end
end TK
