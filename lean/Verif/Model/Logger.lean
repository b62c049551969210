import Verif.Model.H5

/-!
# Model of the loggers (`src/tenkit/decomposition/logging/logger.py`)

A logger is the record of its three attributes. What a logger measures (`loss`, `MSE`, `SSE`, `RMSE`,
`explained_variance`, logger.py:61-79) is an attribute of the decomposer; it is passed to `log` as a value.
-/

namespace TK

noncomputable section

/-- logger.py:7-10, the attributes of a `BaseLogger`. -/
structure Logger where
  metrics : List ℝ := []
  its : List Int := []
  prev : ℕ := 0

/-- logger.py:7-10 `BaseLogger()`. -/
def Logger.new : Logger := {}

/-- logger.py:16-19 `log(decomposer)` : `value` is the measured attribute, `it` the attribute
`current_iteration` of the decomposer. -/
def Logger.log (l : Logger) (value : ℝ) (it : Int) : Logger :=
  { l with metrics := l.metrics ++ [value], its := l.its ++ [it] }

/-- logger.py:21-23 `latest_log_metrics`. -/
def Logger.latestMetrics (l : Logger) : List ℝ := l.metrics.drop l.prev

/-- logger.py:25-27 `latest_log_iterations`. -/
def Logger.latestIts (l : Logger) : List Int := l.its.drop l.prev

/-- Names of the datasets, logger.py:56-57. -/
def itsKey : Name := "iterations".toList
def valuesKey : Name := "values".toList

/-- logger.py:30-50 `_write_sequence_to_hd5_group` for the iterations: append to the dataset if it exists,
create it otherwise. The element type of the dataset (that of the first array written to it) is not modelled:
all integers and all reals are representable. A dataset of another kind under the same name, which the code
never creates, gives `TypeError`. -/
def writeIts (g : Group) (l : List Int) : Py Group :=
  match g.dsets.find itsKey with
  | some (.iseq old) => .ok { g with dsets := g.dsets.set itsKey (.iseq (old ++ l)) }
  | some _ => .error .typeError
  | none => do
    let d ← g.dsets.create itsKey (.iseq l)
    pure { g with dsets := d }

/-- logger.py:30-50 `_write_sequence_to_hd5_group` for the values, see `writeIts`. -/
def writeValues (g : Group) (l : List ℝ) : Py Group :=
  match g.dsets.find valuesKey with
  | some (.vseq old) => .ok { g with dsets := g.dsets.set valuesKey (.vseq (old ++ l)) }
  | some _ => .error .typeError
  | none => do
    let d ← g.dsets.create valuesKey (.vseq l)
    pure { g with dsets := d }

/-- logger.py:56-57, the two writes into the group of the logger. -/
def Logger.writeGroup (l : Logger) (g : Group) : Py Group := do
  let g ← writeIts g l.latestIts
  writeValues g l.latestMetrics

/-- logger.py:53-58 `write_to_hdf5_group(h5)`; `name` is `type(self).__name__` and `require_group` finds or
creates the group (`TypeError` if the name belongs to a dataset). If a write raises, the file is not changed
(in the code the iterations may have been written already). -/
def Logger.writeTo (name : Name) (l : Logger) (f : H5File) : Py (Logger × H5File) :=
  if f.root.dsets.has name then .error .typeError
  else do
    let g ← l.writeGroup ((f.groups.find name).getD Group.empty)
    pure ({ l with prev := l.prev + l.latestIts.length }, { f with groups := f.groups.set name g })

end
end TK
