import Verif.ND.Ops
import Verif.Py.Names
import Mathlib.Data.Real.Basic

/-!
# Model of the part of `h5py` that the code uses

A group has attributes and datasets; a file has a root group and named groups below it. Names are unique:
creating a dataset or a group under a name that is taken raises (`nameExists`), setting an attribute replaces
it. A file is a value; opening and closing it (`with h5py.File(...)`) is not modelled, so neither are
partially flushed files.
-/

namespace TK

noncomputable section

/-- Values of attributes which the code stores. -/
inductive AttrVal
  | str (s : Name)
  | int (n : Int)
  | bool (b : Bool)
  | ints (l : List Int)

/-- Datasets: numerical arrays, and the extensible one-dimensional sequences written by the loggers
(iterations are integers, logged values are reals). -/
inductive DSet
  | arr (A : NDArray ℝ)
  | iseq (l : List Int)
  | vseq (l : List ℝ)

/-- Finite map from names, as an association list. -/
abbrev Dict (β : Type) := List (Name × β)

namespace Dict
variable {β : Type}

/-- Look up a name. -/
def find (d : Dict β) (k : Name) : Option β := (d.find? fun p => p.1 == k).map Prod.snd

/-- Is the name present (`k in group`)? -/
def has (d : Dict β) (k : Name) : Bool := d.any fun p => p.1 == k

/-- Replace or add. -/
def set (d : Dict β) (k : Name) (v : β) : Dict β :=
  if d.has k then d.map fun p => if p.1 = k then (k, v) else p else d ++ [(k, v)]

/-- Add under a new name; `nameExists` if the name is taken. -/
def create (d : Dict β) (k : Name) (v : β) : Py (Dict β) :=
  if d.has k then .error .nameExists else .ok (d ++ [(k, v)])

/-- `d[k]`, `KeyError` if absent. -/
def item (d : Dict β) (k : Name) : Py β :=
  match d.find k with
  | some v => .ok v
  | none => .error .keyError

end Dict

/-- An HDF5 group without subgroups. -/
structure Group where
  attrs : Dict AttrVal := []
  dsets : Dict DSet := []

/-- An HDF5 file: the root group and the groups directly below it. -/
structure H5File where
  root : Group := {}
  groups : Dict Group := []

/-- An empty group. -/
def Group.empty : Group := {}

/-- A new file. -/
def H5File.empty : H5File := {}

/-- `group[name] = array`: creates a dataset. -/
def Group.put (g : Group) (k : Name) (A : NDArray ℝ) : Py Group := do
  let d ← g.dsets.create k (.arr A)
  pure { g with dsets := d }

/-- `group[name][...]` for an array dataset. -/
def Group.arr (g : Group) (k : Name) : Py (NDArray ℝ) := do
  match ← g.dsets.item k with
  | .arr A => pure A
  | _ => .error .typeError

/-- `group.attrs[name] = value`. -/
def Group.setAttr (g : Group) (k : Name) (v : AttrVal) : Group := { g with attrs := g.attrs.set k v }

/-- An integer attribute (`TypeError` when it is used as an integer but is not one). -/
def Group.intAttr (g : Group) (k : Name) : Py Int := do
  match ← g.attrs.item k with
  | .int n => pure n
  | _ => .error .typeError

/-- A Boolean attribute. -/
def Group.boolAttr (g : Group) (k : Name) : Py Bool := do
  match ← g.attrs.item k with
  | .bool b => pure b
  | _ => .error .typeError

/-- `h5.create_group(name)`: an empty group under a new name. -/
def H5File.createGroup (f : H5File) (k : Name) : Py H5File := do
  if f.root.dsets.has k then .error .nameExists
  else do
    let g ← f.groups.create k Group.empty
    pure { f with groups := g }

/-- `name in h5`. -/
def H5File.hasName (f : H5File) (k : Name) : Bool := f.groups.has k || f.root.dsets.has k

end
end TK
