import Verif.Model.H5

/-!
# Model of `HDF5Logger` (`src/tenkit/log.py`)

The group of the experiment is a value that is changed step by step, so that the contents of the file after a
crash in the middle of `save_logs` can be described. What the target functions compute is passed to `log` as a
list of values, one for each target, in the order of the targets; target functions that raise are not modelled.
Values are stored as `float32` (log.py:83): `rnd` is the rounding.
-/

namespace TK

noncomputable section

/-- log.py:31-71, the attributes of an `HDF5Logger`. `values` are the lists of `target_values`, in the order of
the targets `names` (a dictionary keeps the order of insertion). -/
structure HLogger where
  names : List Name
  values : List (List ℝ)
  freq : Int
  itNum : ℕ
  prev : ℕ
  first : ℕ

namespace HLogger

/-- A dataset of the group (`KeyError` if absent). Datasets of other kinds are not modelled (`TypeError`). -/
def dset (g : Group) (n : Name) : Py (List ℝ) := do
  match ← g.dsets.item n with
  | .vseq l => pure l
  | _ => .error .typeError

/-- log.py:73-83 `_init_h5_file`: an empty dataset for each target. -/
def initDsets : List Name → Group → Py Group
  | [], g => .ok g
  | n :: ns, g => do
    let d ← g.dsets.create n (.vseq [])
    initDsets ns { g with dsets := d }

/-- log.py:60-71, `HDF5Logger(..., continue_old=False, **targets)`; `g` is the group of the experiment, empty if it
is new (log.py:75-78). -/
def create (names : List Name) (freq : Int) (g : Group) : Py (HLogger × Group) := do
  let g ← initDsets names g
  pure (⟨names, names.map fun _ => [], freq, 0, 0, 0⟩, g)

/-- log.py:60-71, `HDF5Logger(..., continue_old=True, **targets)`: the number of iterations is the length of the
dataset of the first target (`IndexError` if there are no targets). -/
def continueOld (names : List Name) (freq : Int) (g : Group) : Py HLogger :=
  match names with
  | [] => .error .indexError
  | n :: _ => do
    let l ← dset g n
    pure ⟨names, names.map fun _ => [], freq, l.length, l.length, l.length⟩

/-- `g[target].resize([n])`: cut off, or fill with zeros. -/
def resize (n : Name) (size : ℕ) (g : Group) : Py Group := do
  let l ← dset g n
  pure { g with dsets := g.dsets.set n (.vseq (l.take size ++ List.replicate (size - l.length) 0)) }

/-- `g[target][start:] = vals`: the number of values must be the length of the slice, or one (broadcasting). -/
def assignFrom (rnd : ℝ → ℝ) (n : Name) (start : ℕ) (vals : List ℝ) (g : Group) : Py Group := do
  let l ← dset g n
  if vals.length = l.length - start then
    pure { g with dsets := g.dsets.set n (.vseq (l.take start ++ vals.map rnd)) }
  else
    match vals with
    | [v] => pure { g with dsets := g.dsets.set n (.vseq (l.take start ++ List.replicate (l.length - start) (rnd v))) }
    | _ => .error .typeError

/-- log.py:91-96 `save_logs`, the changes of the file one by one: for each target, resizing and writing. -/
def saveSteps (rnd : ℝ → ℝ) (itNum prev first : ℕ) : List Name → List (List ℝ) → List (Group → Py Group)
  | n :: ns, v :: vs =>
    resize n itNum :: assignFrom rnd n prev (v.drop (prev - first)) :: saveSteps rnd itNum prev first ns vs
  | _, _ => []

/-- Changes of a group one after the other. -/
def runSteps : List (Group → Py Group) → Group → Py Group
  | [], g => .ok g
  | f :: fs, g => do
    let g' ← f g
    runSteps fs g'

/-- log.py:91-96 `save_logs`. -/
def saveLogs (rnd : ℝ → ℝ) (l : HLogger) (g : Group) : Py (HLogger × Group) := do
  let g ← runSteps (saveSteps rnd l.itNum l.prev l.first l.names l.values) g
  pure ({ l with prev := l.itNum }, g)

/-- log.py:37-40, the values of one call of `Logger.log` are appended to the lists. -/
def appendRow : List (List ℝ) → List ℝ → List (List ℝ)
  | vs :: vss, v :: row => (vs ++ [v]) :: appendRow vss row
  | vss, _ => vss

/-- log.py:85-89 `log(parameters)`; `row` are the values of the targets. -/
def log (rnd : ℝ → ℝ) (row : List ℝ) (l : HLogger) (g : Group) : Py (HLogger × Group) := do
  let l := { l with values := appendRow l.values row, itNum := l.itNum + 1 }
  if l.freq = 0 then .error .zeroDivisionError
  else if (l.itNum : Int) % l.freq = 0 then saveLogs rnd l g
  else pure (l, g)

end HLogger
end
end TK
