import Verif.Model.H5
import Verif.Model.CP

/-!
# Model of `Experiment` (`src/tenkit/log.py`, lines 98-178)

The file `fname` is a value of type `H5File`; the methods are computations in `EStateM PyErr H5File`, so that what was written before
an exception is visible. Opening and closing of the file is not modelled. The values of attributes are those of `AttrVal` (others, for
instance `None`, are refused by `h5py`), the values of outputs, metrics and metadata are numerical arrays.
-/

namespace TK

noncomputable section

/-- A computation that changes the file. -/
abbrev FileM := EStateM PyErr H5File

/-- A computation that changes a group. -/
abbrev GroupM := EStateM PyErr Group

namespace Experiment

/-- `g = h5[name]` followed by a computation that works on the group `g`: `KeyError` if there is no such group. -/
def inGroup {β : Type} (ex : Name) (f : GroupM β) : FileM β := fun h =>
  match h.groups.find ex with
  | none => .error .keyError h
  | some g =>
    match f g with
    | .ok b g' => .ok b { h with groups := h.groups.set ex g' }
    | .error e g' => .error e { h with groups := h.groups.set ex g' }

/-- A change of a group that happens completely or not at all. -/
def atomic (f : Group → Py Group) : GroupM Unit := fun g =>
  match f g with
  | .ok g' => .ok () g'
  | .error e => .error e g

/-- log.py:105-107, 114-117: `h5.create_group(name)` unless `name in h5`. -/
def ensureGroup (ex : Name) : FileM Unit := fun h =>
  if h.hasName ex then .ok () h
  else
    match h.createGroup ex with
    | .ok h' => .ok () h'
    | .error e => .error e h

/-- `for key, value in attributes.items(): g.attrs[key] = value` (log.py:119-121). -/
def setAttrs : Dict AttrVal → GroupM Unit
  | [] => pure ()
  | (k, v) :: l => do
    atomic fun g => .ok (g.setAttr k v)
    setAttrs l

/-- `for name, value in metadata.items(): g[name] = value` (log.py:109-110). -/
def putAll : Dict (NDArray ℝ) → GroupM Unit
  | [] => pure ()
  | (k, v) :: l => do
    atomic fun g => g.put k v
    putAll l

/-- The name of the group with the metadata. -/
def metadataKey : Name := "metadata".toList
/-- The parameter that is not stored. -/
def initKey : Name := "init".toList

/-- log.py:99-124 `Experiment(fname, ex_name, attributes, metadata)`. -/
def init (ex : Name) (attributes : Option (Dict AttrVal)) (metadata : Option (Dict (NDArray ℝ))) : FileM Unit := do
  ensureGroup ex
  match attributes with
  | some a => inGroup ex (setAttrs a)
  | none => inGroup ex (pure ())
  match metadata with
  | some d => do
    ensureGroup metadataKey
    inGroup metadataKey (putAll d)
  | none => pure ()

/-- `g[pname][...] = param`: the dataset must exist (`KeyError`), and the array is broadcast to its shape (`TypeError` if that is not
possible). Datasets of other kinds are not modelled (`TypeError`). -/
def overwrite (k : Name) (v : NDArray ℝ) (g : Group) : Py Group := do
  let A ← g.arr k
  match assignAll A v with
  | .ok B => pure { g with dsets := g.dsets.set k (.arr B) }
  | .error _ => .error .typeError

/-- log.py:164-168 and 173-177, the loops over the outputs and over the metrics. -/
def storeAll (continueOld : Bool) : Dict (NDArray ℝ) → GroupM Unit
  | [] => pure ()
  | (k, v) :: l => do
    if !continueOld then atomic fun g => g.put k v
    else atomic fun g => overwrite k v g
    storeAll continueOld l

/-- log.py:160-163, the loop over the parameters. -/
def setParams : Dict AttrVal → GroupM Unit
  | [] => pure ()
  | (k, v) :: l => do
    if k = initKey then setParams l
    else do
      atomic fun g => .ok (g.setAttr k v)
      setParams l

/-- log.py:126-177 `run_experiment(X, experiment_function, experiment_params, final_eval, ..., continue_old)`: `experiment` is the call
of `experiment_function`, which gets the open group and may change it; `finalEval` is the call of `final_eval`. `checkpoint_freq` is
not used by the code. -/
def run (ex : Name) (experiment : GroupM (Dict (NDArray ℝ))) (params : Dict AttrVal)
    (finalEval : Dict (NDArray ℝ) → Py (Dict (NDArray ℝ))) (continueOld : Bool := false) : FileM Unit := do
  let outputs ← inGroup ex experiment
  inGroup ex (do
    setParams params
    storeAll continueOld outputs)
  match finalEval outputs with
  | .ok metrics => inGroup ex (storeAll continueOld metrics)
  | .error e => throw e

end Experiment
end
end TK
