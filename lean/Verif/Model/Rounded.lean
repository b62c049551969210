import Verif.Model.CP

/-!
# Evaluation with rounding

The other modules compute with real numbers. Here the expressions behind the error that `CP_ALS` reports are evaluated the
way NumPy does it: the result of every multiplication, addition, and square root is rounded by a function `rnd`, and sums
are formed in any order (NumPy sums pairwise, the matrix products of BLAS sum in blocks and may use fused operations).
Since the order is not fixed, the definitions are relations. Overflow, underflow and `nan` are not modelled: `rnd` is a
function on the real numbers.
-/

namespace TK
open NDArray

noncomputable section

/-- `np.sum` of the numbers `f i` for `i` in a set of positions, in any order; every addition is rounded. -/
inductive FlSum (rnd : ℝ → ℝ) (f : ℕ → ℝ) : Finset ℕ → ℝ → Prop
  | empty : FlSum rnd f ∅ 0
  | single (i : ℕ) : FlSum rnd f {i} (f i)
  | add {s t : Finset ℕ} {a b : ℝ} : s.Nonempty → t.Nonempty → Disjoint s t → FlSum rnd f s a → FlSum rnd f t b →
      FlSum rnd f (s ∪ t) (rnd (a + b))

/-- The inner product of two vectors, summed in any order: every product and every addition is rounded, or a product is
added with one rounding (fused multiply-add). -/
inductive FlDot (rnd : ℝ → ℝ) (f g : ℕ → ℝ) : Finset ℕ → ℝ → Prop
  | empty : FlDot rnd f g ∅ 0
  | single (i : ℕ) : FlDot rnd f g {i} (rnd (f i * g i))
  | add {s t : Finset ℕ} {a b : ℝ} : s.Nonempty → t.Nonempty → Disjoint s t → FlDot rnd f g s a → FlDot rnd f g t b →
      FlDot rnd f g (s ∪ t) (rnd (a + b))
  | fma {s : Finset ℕ} {i : ℕ} {a : ℝ} : s.Nonempty → i ∉ s → FlDot rnd f g s a →
      FlDot rnd f g (insert i s) (rnd (a + f i * g i))

/-- `A @ B` for matrices. -/
def FlMatmul (rnd : ℝ → ℝ) (A B C : NDArray ℝ) : Prop :=
  ∃ m k n, A.shape = [m, k] ∧ B.shape = [k, n] ∧ C.shape = [m, n] ∧ ∀ i < m, ∀ j < n,
    FlDot rnd (fun l => A.get [i, l]) (fun l => B.get [l, j]) (Finset.range k) (C.get [i, j])

/-- `np.linalg.norm(A)`: the square root of the inner product of the flattened array with itself. -/
def FlNorm (rnd : ℝ → ℝ) (A : NDArray ℝ) (v : ℝ) : Prop :=
  ∃ q, FlDot rnd A.flat A.flat (Finset.range A.shape.prod) q ∧ v = rnd (Real.sqrt q)

/-- `x * y` for floats (arrays elementwise). -/
def flMul (rnd : ℝ → ℝ) (x y : ℝ) : ℝ := rnd (x * y)

/-- `x + y` for floats (arrays elementwise). -/
def flAdd (rnd : ℝ → ℝ) (x y : ℝ) : ℝ := rnd (x + y)

/-- Floats, with the multiplication that rounds. -/
def Fl (_rnd : ℝ → ℝ) : Type := ℝ

instance (rnd : ℝ → ℝ) : Zero (Fl rnd) := inferInstanceAs (Zero ℝ)
instance (rnd : ℝ → ℝ) : Mul (Fl rnd) := ⟨flMul rnd⟩

/-- base.py:90-121 `khatri_rao(*factors, skip=skip)`: the function of `Verif/Model/Base.lean`, with the multiplication that
rounds. -/
def flKhatriRao (rnd : ℝ → ℝ) (fs : List (NDArray ℝ)) (skip : Option Int) : Py (NDArray ℝ) :=
  khatriRao (α := Fl rnd) fs skip

/-- decompositions.py:134-139 `construct_tensor`. -/
def FlConstruct (rnd : ℝ → ℝ) (t : KruskalTensor) (Y : NDArray ℝ) : Prop :=
  ∃ shape f0 wf krp M, t.factorMatrices.mapM rows = .ok shape ∧ pyGet t.factorMatrices 0 = .ok f0 ∧
    zipB (flMul rnd) (newaxis0 t.weights) f0 = .ok wf ∧ flKhatriRao rnd t.factorMatrices.tail none = .ok krp ∧
    FlMatmul rnd wf krp.T M ∧ fold M 0 shape = .ok Y

/-- base.py:186-190, the loop of `_mttkrp_mid_with_krp` after `n` passes: `product += tensor[i] @ krp[...]`. The tensor has
shape `(n0, numRows, blockSize)`. -/
inductive FlMid (rnd : ℝ → ℝ) (X krp : NDArray ℝ) (blockSize numRows numCols : ℕ) : ℕ → NDArray ℝ → Prop
  | zero : FlMid rnd X krp blockSize numRows numCols 0 (full [numRows, numCols] 0)
  | succ {n : ℕ} {P B Q : NDArray ℝ} : FlMid rnd X krp blockSize numRows numCols n P →
      FlMatmul rnd (subArr X n) (sliceRows krp (n * blockSize) ((n + 1) * blockSize)) B →
      zipB (flAdd rnd) P B = .ok Q → FlMid rnd X krp blockSize numRows numCols (n + 1) Q

/-- base.py:145-191 `matrix_khatri_rao_product(X, factors, mode)` for the modes `0, 1, …` with its helpers `_mttkrp3`,
`_mttkrp_mid` and `_mttkrp_mid_with_krp`. -/
def FlMttkrp (rnd : ℝ → ℝ) (X : NDArray ℝ) (fs : List (NDArray ℝ)) (mode : ℕ) (M : NDArray ℝ) : Prop :=
  X.shape.length = fs.length ∧ ∃ krp, flKhatriRao rnd fs (some (mode : Int)) = .ok krp ∧
    if fs.length = 3 ∧ mode = 1 then
      ∃ blockSize numRows numCols n0, pyGet X.shape (-1) = .ok blockSize ∧ pyGet X.shape (-2) = .ok numRows ∧
        pyGet krp.shape (-1) = .ok numCols ∧ pyGet X.shape 0 = .ok n0 ∧ FlMid rnd X krp blockSize numRows numCols n0 M
    else if fs.length = 3 ∧ mode = 0 then
      ∃ U, (pyGet X.shape 0 >>= fun n0 => X.reshapeRows n0) = .ok U ∧ FlMatmul rnd U krp M
    else if fs.length = 3 then
      mode = 2 ∧ ∃ U, (X.moveaxis (-1) 0 >>= fun Y => pyGet X.shape (-1) >>= fun n2 => Y.reshapeRows n2) = .ok U ∧
        FlMatmul rnd U krp M
    else ∃ U, unfold X (mode : Int) = .ok U ∧ FlMatmul rnd U krp M

/-- cp.py:183-186 `_inner_prod_X_reconstructed_X` for the factor matrix `F` of the mode that was updated last and the cached
matrix `c`. -/
def FlInner (rnd : ℝ → ℝ) (w F c : NDArray ℝ) (v : ℝ) : Prop :=
  ∃ M cs p, zipB (flMul rnd) F c = .ok M ∧ cs.shape = [M.shape.getD 1 0] ∧
    (∀ r < M.shape.getD 1 0, FlSum rnd (fun i => M.get [i, r]) (Finset.range (M.shape.getD 0 0)) (cs.get [r])) ∧
    zipB (flMul rnd) w cs = .ok p ∧ FlSum rnd p.flat (Finset.range p.shape.prod) v

/-- cp.py:168-181 `SSE`. Squaring and doubling round as multiplications do. -/
def FlSSE (rnd : ℝ → ℝ) (s : CPState) (v : ℝ) : Prop :=
  match s.lastMode with
  | some m => ∃ Y yn F c ip, FlConstruct rnd s.dec Y ∧ FlNorm rnd Y yn ∧ pyGet s.dec.factorMatrices m = .ok F ∧
      s.cache = some c ∧ FlInner rnd s.dec.weights F c ip ∧
      v = rnd (rnd (rnd (s.XNorm * s.XNorm) + rnd (yn * yn)) - rnd (2 * ip))
  | none => ∃ Y D n, FlConstruct rnd s.dec Y ∧ zipB (fun x y => rnd (x - y)) s.X Y = .ok D ∧ FlNorm rnd D n ∧
      v = rnd (n * n)

/-- base_decomposer.py:94-97 `explained_variance`. -/
def FlExplained (rnd : ℝ → ℝ) (s : CPState) (e : ℝ) : Prop :=
  ∃ v, FlSSE rnd s v ∧ e = rnd (1 - rnd (v / rnd (s.XNorm * s.XNorm)))

end
end TK
