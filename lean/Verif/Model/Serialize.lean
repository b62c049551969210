import Verif.Model.H5
import Verif.Model.Evolving

/-!
# Storing and loading decompositions (`src/tenkit/decomposition/decompositions.py`)
-/

namespace TK
open NDArray

noncomputable section

/-- The name of a class, as stored in the attribute `type`. -/
def kruskalName : Name := "KruskalTensor".toList
def evolvingName : Name := "EvolvingTensor".toList
def parafac2Name : Name := "Parafac2Tensor".toList

/-- decompositions.py:33-34 `_prepare_hdf5_group`. -/
def prepareGroup (cls : Name) (g : Group) : Group := g.setAttr "type".toList (.str cls)

/-- decompositions.py:45-50 `_check_hdf5_group`: a different type raises `Warning`. -/
def checkGroup (cls : Name) (g : Group) : Py Unit := do
  match ← g.attrs.item "type".toList with
  | .str s => if s = cls then pure () else .error .warning
  | _ => .error .warning

/-- Store the matrices of a list under `template.format(i)`, `template = pre ++ '{:03d}'`, starting at
number `i`. -/
def putNumbered (pre : Name) : ℕ → List (NDArray ℝ) → Group → Py Group
  | _, [], g => .ok g
  | i, A :: As, g => do
    let g' ← g.put (pre ++ fmtNat 3 i) A
    putNumbered pre (i + 1) As g'

/-- Read the matrices with numbers `0 … n-1` (`range(n)` is empty for negative `n`). -/
def getNumbered (pre : Name) (n : Int) (g : Group) : Py (List (NDArray ℝ)) :=
  (List.range n.toNat).mapM fun i => g.arr (pre ++ fmtNat 3 i)

/-- decompositions.py:106 `fm_template = 'factor_matrix{:03d}'`. -/
def fmPre : Name := "factor_matrix".toList
/-- decompositions.py:315 `B_template = "B_{:03d}"`. -/
def bPre : Name := "B_".toList
/-- decompositions.py:570 `pm_template = 'projection_matrix_{:03d}'`. -/
def pmPre : Name := "projection_matrix_".toList

/-- decompositions.py:185-194 `KruskalTensor.store_in_hdf5_group`. -/
def KruskalTensor.storeIn (t : KruskalTensor) (g : Group) : Py Group := do
  let g := prepareGroup kruskalName g
  let g := g.setAttr "n_factor_matrices".toList (.int t.factorMatrices.length)
  let g := g.setAttr "rank".toList (.int t.rank)
  let g ← putNumbered fmPre 0 t.factorMatrices g
  g.put "weights".toList t.weights

/-- decompositions.py:196-206 `KruskalTensor.load_from_hdf5_group`. -/
def KruskalTensor.loadFrom (g : Group) : Py KruskalTensor := do
  checkGroup kruskalName g
  let n ← g.intAttr "n_factor_matrices".toList
  let fs ← getNumbered fmPre n g
  let w ← g.arr "weights".toList
  KruskalTensor.init fs (some w)

/-- decompositions.py:420-431 `EvolvingTensor.store_in_hdf5_group`. -/
def EvolvingTensor.storeIn (t : EvolvingTensor) (g : Group) : Py Group := do
  let g := prepareGroup evolvingName g
  let g := g.setAttr "rank".toList (.int t.rank)
  let g := g.setAttr "all_same_size".toList (.bool t.allSameSize)
  let g := g.setAttr "warning".toList (.bool t.warning)
  let g := g.setAttr "num_Bs".toList (.int t.B.length)
  let g ← g.put "A".toList t.A
  let g ← putNumbered bPre 0 t.B g
  g.put "C".toList t.C

/-- decompositions.py:433-443 `EvolvingTensor.load_from_hdf5_group`: the constructor is called with the
keyword argument `all_same_size`, which it does not have (`TypeError`). -/
def EvolvingTensor.loadFrom (g : Group) : Py EvolvingTensor := do
  checkGroup evolvingName g
  let _A ← g.arr "A".toList
  let n ← g.intAttr "num_Bs".toList
  let _B ← getNumbered bPre n g
  let _C ← g.arr "C".toList
  let _w ← g.attrs.item "warning".toList
  let _s ← g.attrs.item "all_same_size".toList
  .error .typeError

/-- decompositions.py:658-671 `Parafac2Tensor.store_in_hdf5_group`. -/
def Parafac2Tensor.storeIn (t : Parafac2Tensor) (g : Group) : Py Group := do
  let g := prepareGroup parafac2Name g
  let g := g.setAttr "rank".toList (.int t.rank)
  let g := g.setAttr "all_same_size".toList (.bool t.allSameSize)
  let g := g.setAttr "warning".toList (.bool t.warning)
  let g := g.setAttr "n_projection_matrices".toList (.int t.P.length)
  let g ← g.put "A".toList t.A
  let g ← g.put "blueprint_B".toList t.blueprint
  let g ← g.put "C".toList t.C
  putNumbered pmPre 0 t.P g

/-- decompositions.py:673-686 `Parafac2Tensor.load_from_hdf5_group`. -/
def Parafac2Tensor.loadFrom (g : Group) : Py Parafac2Tensor := do
  checkGroup parafac2Name g
  let A ← g.arr "A".toList
  let b ← g.arr "blueprint_B".toList
  let C ← g.arr "C".toList
  let w ← g.boolAttr "warning".toList
  let n ← g.intAttr "n_projection_matrices".toList
  let P ← getNumbered pmPre n g
  Parafac2Tensor.init A b C P w

/-- decompositions.py:25-27 `store(filename)`: mode `'w'` starts from an empty file; the root group is the
group stored in. -/
def storeFile {τ : Type} (storeIn : τ → Group → Py Group) (t : τ) : Py H5File := do
  let g ← storeIn t Group.empty
  pure { H5File.empty with root := g }

/-- decompositions.py:36-39 `from_file(filename)`. -/
def fromFile {τ : Type} (loadFrom : Group → Py τ) (f : H5File) : Py τ := loadFrom f.root

end
end TK
