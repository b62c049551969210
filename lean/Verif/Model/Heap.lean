import Verif.Model.CPFit

/-!
# Arrays that are shared: a heap of arrays, and a `CP_ALS` object whose factor matrices are references

`Verif/Model/CP.lean` treats the factor matrices as values. In Python they are references to arrays that are changed in
place (`self.factor_matrices[mode][...] = …`, cp.py:393), which matters when two names refer to the same array:
`Parafac2_ALS` hands its own arrays to an inner `CP_ALS` object (parafac2.py:376), and a user can build a Kruskal tensor
with the same array in two modes. Here arrays live at addresses of a heap.

Only the arrays that the modelled code changes in place are put on the heap. The data arrays are never written and remain
values.
-/

namespace TK
open NDArray

noncomputable section

/-- The address of an array (its identity as a Python object). -/
abbrev Addr := ℕ

/-- The arrays of the program: the contents of each address, and the first address that has not been used. -/
structure Heap where
  mem : Addr → NDArray ℝ
  next : Addr

namespace Heap

/-- In-place change of the array at an address. -/
def write (h : Heap) (a : Addr) (v : NDArray ℝ) : Heap := { h with mem := Function.update h.mem a v }

/-- A new array. -/
def alloc (h : Heap) (v : NDArray ℝ) : Addr × Heap := (h.next, ⟨Function.update h.mem h.next v, h.next + 1⟩)

/-- New arrays, one after the other. -/
def allocAll : List (NDArray ℝ) → Heap → List Addr × Heap
  | [], h => ([], h)
  | v :: vs, h =>
    let (a, h1) := h.alloc v
    let (as, h2) := allocAll vs h1
    (a :: as, h2)

end Heap

/-- A `CP_ALS` object (cp.py:237-437) whose decomposition holds references: `addrs` are the entries of
`decomposition.factor_matrices`; all other attributes are in `st` (its own list of factor matrices is not used). The
weights are not shared with anything (`np.ones` in `KruskalTensor.__init__`) and stay a value. -/
structure CPObj where
  st : CPState
  addrs : List Addr

namespace CPObj

/-- The state of the object as it is seen through the heap. -/
def read (h : Heap) (c : CPObj) : CPState :=
  { c.st with dec := { c.st.dec with factorMatrices := c.addrs.map h.mem } }

/-- cp.py:385-396 `_update_als_factor(mode)`: the new matrix is written into the array that the list entry refers to. -/
def updateFactor (E : Ext) (o : CPOpts) (mode : ℕ) (p : Heap × CPObj) : Py (Heap × CPObj) := do
  let s ← CP.updateFactor E o mode (p.2.read p.1)
  let a ← pyGet p.2.addrs mode
  let F ← pyGet s.dec.factorMatrices mode
  pure (p.1.write a F, { p.2 with st := s })

/-- Updates of the given modes one after the other. -/
def updateModes (E : Ext) (o : CPOpts) (modes : List ℕ) (p : Heap × CPObj) : Py (Heap × CPObj) :=
  modes.foldlM (fun p m => updateFactor E o m p) p

/-- cp.py:398-402 `_update_als_factors()`. -/
def updateFactors (E : Ext) (o : CPOpts) (p : Heap × CPObj) : Py (Heap × CPObj) :=
  updateModes E o (List.range p.2.st.X.shape.length) p

/-- `n` calls of `_update_als_factors()` (parafac2.py:426-427). -/
def repeatUpdates (E : Ext) (o : CPOpts) : ℕ → Heap × CPObj → Py (Heap × CPObj)
  | 0, p => .ok p
  | n + 1, p => do
    let p ← updateFactors E o p
    repeatUpdates E o n p

/-- base_decomposer.py:83-93 `set_target(X)`. -/
def setTarget (X : NDArray ℝ) (c : CPObj) : CPObj := { c with st := { c.st with X := X, XNorm := frobNorm X } }

/-- cp.py:342-345: the list entries of the modes with an orthonormality constraint are replaced by new arrays. -/
def rebind : List Bool → List (NDArray ℝ) → List Addr → Heap → List Addr × Heap
  | b :: bs, F :: Fs, a :: as, h =>
    if b then
      let (a', h1) := h.alloc F
      let (as', h2) := rebind bs Fs as h1
      (a' :: as', h2)
    else
      let (as', h2) := rebind bs Fs as h
      (a :: as', h2)
  | _, _, as, h => (as, h)

/-- `CP_ALS(…, init='precomputed')._init_fit(X, …, initial_decomposition)` for a new object, where the initial
decomposition is `KruskalTensor(factor_matrices)` for a list of references (cp.py:130-162, 336-352). -/
def initFit (E : Ext) (o : CPOpts) (nonNeg orth : Option (List Bool)) (X : NDArray ℝ) (addrs : List Addr) (h : Heap) :
    Py (Heap × CPObj) := do
  let dec ← KruskalTensor.init (addrs.map h.mem) none
  CP.checkValid o.rank X.shape dec
  let s ← CP.initFit E (CP.fresh nonNeg orth) X dec
  let (addrs', h') := rebind (s.orth.getD []) s.dec.factorMatrices addrs h
  pure (h', ⟨s, addrs'⟩)

end CPObj
end
end TK
