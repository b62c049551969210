import Verif.Model.Logger
import Verif.Model.Serialize

/-!
# Model of the fit loops and checkpoints (`src/tenkit/decomposition/base_decomposer.py`, `_fit` of `cp.py`,
`parafac2.py`, `cmtf.py`)

`BaseDecomposer` is an abstract class; its methods are modelled once, for a record `Method` that collects
what the subclasses define. The world `World` consists of the decomposer object, the loggers and the
checkpoint file. Methods are computations in `EStateM PyErr (World σ)`: when an exception is raised, the world
is left as it is at that moment, so the effects on the file before the exception are visible.

Simplifications: the numerical state `σ` is changed by a step completely or not at all; printing is left out
here and added in `Model/Printing.lean` (a `print_frequency` of 0 makes `Parafac2_ALS._fit` raise
`ZeroDivisionError`, parafac2.py:399; C104 relates the two models); opening, flushing and closing of files always work; `store_in_hdf5_group` leaves the new group
empty if it raises; if one of several loggers raises in `log` or in `write_to_hdf5_group`, the loggers before it are left as they
were.
-/

namespace TK

noncomputable section

/-- What the subclasses of `BaseDecomposer` contribute, and the options that never change. `σ` is the state of
the decomposer object except for `current_iteration`, `max_its` and the loggers; `τ` is the type of its
decompositions. -/
structure Method (σ τ : Type) where
  /-- the attribute `decomposition` -/
  dec : σ → τ
  /-- assignment to the attribute `decomposition` -/
  setDec : τ → σ → σ
  /-- `decomposition.store_in_hdf5_group` -/
  storeDec : τ → Group → Py Group
  /-- `DecompositionType.load_from_hdf5_group` -/
  loadDec : Group → Py τ
  /-- `_check_valid_components` -/
  check : τ → σ → Py Unit
  /-- what `_fit` does before the loop (`Parafac2_ALS._prepare_cp_decomposer`) -/
  prepare : σ → Py σ
  /-- the stopping test at the start of an iteration -/
  stop : σ → Py Bool
  /-- the numerical work of one iteration -/
  step : σ → Py σ
  /-- what `_fit` does at its end (`CMTF_ALS._normalize_components`) -/
  post : σ → Py σ
  /-- the rest of `_init_fit`, after `init_components` -/
  initRest : σ → Py σ
  /-- `checkpoint_frequency`; the constructor turns `None` into `-1` (base_decomposer.py:62-64) -/
  freq : Int
  /-- is `checkpoint_path` given? -/
  hasPath : Bool
  /-- `type(self).__name__` -/
  typeName : Name
  /-- the loggers: the name of the class and the attribute measured -/
  logs : List (Name × (σ → Py ℝ))
  /-- does the test after the loop use the loop variable (cp.py:424) or `current_iteration`
  (parafac2.py:405-408)? -/
  usesLoopVar : Bool
  /-- does `store_checkpoint` write `checkpoint_its` and `decomposition_type` (base_decomposer.py:178-191) or
  not (cmtf.py:11-18)? -/
  writesIts : Bool

/-- The constructor's treatment of `checkpoint_frequency`, base_decomposer.py:62-64. -/
def freqOption : Option Int → Int
  | none => -1
  | some f => f

/-- The decomposer object, its loggers and the file at `checkpoint_path` (`none`: it does not exist). -/
structure World (σ : Type) where
  st : σ
  it : Int
  maxIts : Int
  loggers : List Logger
  file : Option H5File

/-- A method call. -/
abbrev Fit (σ : Type) := EStateM PyErr (World σ)

/-- `checkpoint_its`, `final_iteration`, `decomposition_type`. -/
def ckItsKey : Name := "checkpoint_its".toList
def finalKey : Name := "final_iteration".toList
def decTypeKey : Name := "decomposition_type".toList
/-- The prefix of the names of checkpoint groups. -/
def ckPre : Name := "checkpoint_".toList

/-- `f'checkpoint_{it:05d}'`. -/
def ckName (it : Int) : Name := ckPre ++ fmtInt 5 it

namespace Fit
variable {σ τ : Type}

/-- Raise the exception of a computation without effects. -/
def lift {α : Type} : Py α → Fit σ α
  | .ok a => pure a
  | .error e => throw e

/-- Replace the numerical state. -/
def modifySt (f : σ → Py σ) : Fit σ Unit := do
  let w ← get
  let s ← lift (f w.st)
  set { w with st := s }

/-- `(n % f) == 0`: `ZeroDivisionError` for `f = 0`. (Python's remainder and `Int.emod` differ for negative
`f`, but vanish for the same `n`.) -/
def divides (f n : Int) : Py Bool := if f = 0 then .error .zeroDivisionError else .ok (n % f == 0)

/-- An attribute that holds a list of integers. -/
def intsAttr (g : Group) (k : Name) : Py (List Int) := do
  match ← g.attrs.item k with
  | .ints l => pure l
  | _ => .error .typeError

/-- base_decomposer.py:180-186 (cmtf.py:14), the attributes of the file. -/
def storeAttrs (m : Method σ τ) (it : Int) (g : Group) : Py Group := do
  let g ← (if m.writesIts then
      if g.attrs.has ckItsKey then do
        let l ← intsAttr g ckItsKey
        pure (g.setAttr ckItsKey (.ints (l ++ [it])))
      else pure (g.setAttr ckItsKey (.ints [it]))
    else pure g : Py Group)
  let g := g.setAttr finalKey (.int it)
  pure (if m.writesIts then g.setAttr decTypeKey (.str m.typeName) else g)

/-- base_decomposer.py:190-191, the loggers write one after the other. -/
def writeLoggers : List Name → List Logger → H5File → Py (List Logger × H5File)
  | n :: ns, l :: ls, f => do
    let (l', f') ← l.writeTo n f
    let (ls', f'') ← writeLoggers ns ls f'
    pure (l' :: ls', f'')
  | _, ls, f => .ok (ls, f)

/-- base_decomposer.py:178-191 `store_checkpoint` (cmtf.py:11-18 for `writesIts = false`). The file is
changed step by step: the attributes before the group is created, the group before the decomposition is
stored. -/
def storeCheckpoint (m : Method σ τ) : Fit σ Unit := do
  let w ← get
  if m.hasPath then do
    let f := w.file.getD H5File.empty
    set { w with file := some f }
    let root ← lift (storeAttrs m w.it f.root)
    let f := { f with root := root }
    set { w with file := some f }
    let f ← lift (f.createGroup (ckName w.it))
    set { w with file := some f }
    let g ← lift (m.storeDec (m.dec w.st) Group.empty)
    let f := { f with groups := f.groups.set (ckName w.it) g }
    set { w with file := some f }
    let (ls, f) ← lift (writeLoggers (m.logs.map Prod.fst) w.loggers f)
    set { w with file := some f, loggers := ls }
  else throw .typeError

/-- base_decomposer.py:222-223: every logger logs. -/
def logAll (it : Int) (st : σ) : List (Name × (σ → Py ℝ)) → List Logger → Py (List Logger)
  | p :: ps, l :: ls => do
    let v ← p.2 st
    let ls' ← logAll it st ps ls
    pure (l.log v it :: ls')
  | _, ls => .ok ls

/-- base_decomposer.py:221-229 `_after_fit_iteration`. -/
def afterIteration (m : Method σ τ) : Fit σ Unit := do
  let w ← get
  let ls ← lift (logAll w.it w.st m.logs w.loggers)
  set { w with loggers := ls }
  let b ← lift (divides m.freq (w.it + 1))
  if b && decide (0 < m.freq) then storeCheckpoint m
  modify fun w => { w with it := w.it + 1 }

/-- cp.py:411-423 and parafac2.py:392-402, the loop: `n` iterations are left, the loop variable of the next
one is `i`. The result is the value of the loop variable after the loop, `none` if it was never assigned. -/
def loop (m : Method σ τ) : (n i : ℕ) → Option ℕ → Fit σ (Option ℕ)
  | 0, _, last => pure last
  | n + 1, i, _ => do
    let b ← lift (m.stop (← get).st)
    if b then pure (some i)
    else do
      modifySt m.step
      afterIteration m
      loop m n (i + 1) (some i)

/-- cp.py:424-425 and parafac2.py:405-409, after the loop. -/
def final (m : Method σ τ) (last : Option ℕ) : Fit σ Unit := do
  let n ← (if m.usesLoopVar then
      match last with
      | none => throw .unboundLocalError
      | some i => pure ((i : Int) + 1)
    else do pure ((← get).it + 1) : Fit σ Int)
  let b ← lift (divides m.freq n)
  if !b && decide (0 < m.freq) then storeCheckpoint m

/-- cp.py:408-427 `CP_ALS._fit`, parafac2.py:389-410 `Parafac2_ALS._fit`, cmtf.py:84-86 `CMTF_ALS._fit`. -/
def run (m : Method σ τ) : Fit σ Unit := do
  modifySt m.prepare
  let w ← get
  let last ← loop m (w.maxIts - w.it).toNat 0 none
  final m last
  modifySt m.post

/-- Assignment of `max_its` if it is given. -/
def setMaxIts : Option Int → Fit σ Unit
  | none => pure ()
  | some n => modify fun w => { w with maxIts := n }

/-- base_decomposer.py:127-144 `_init_fit` (with the rest added by the subclasses); `initComponents` is
`self.init_components(initial_decomposition)`. -/
def initFit (m : Method σ τ) (setTarget : σ → Py σ) (initComponents : Fit σ Unit) (maxIts : Option Int) :
    Fit σ Unit := do
  modify fun w => { w with it := 0 }
  modifySt setTarget
  initComponents
  setMaxIts maxIts
  modifySt m.initRest

/-- base_decomposer.py:146-164 `fit`. -/
def fit (m : Method σ τ) (setTarget : σ → Py σ) (initComponents : Fit σ Unit) (maxIts : Option Int) :
    Fit σ Unit := do
  initFit m setTarget initComponents maxIts
  run m

/-- base_decomposer.py:166-176 `continue_fit`. -/
def continueFit (m : Method σ τ) (maxIts : Option Int) : Fit σ Unit := do
  setMaxIts maxIts
  run m

end Fit

/-- The argument of `h5py.File(path)`: no path, the path of a missing file, or a file. -/
inductive FileArg
  | none
  | missing
  | file (f : H5File)

/-- `h5py.File(path)` for reading. -/
def FileArg.open : FileArg → Py H5File
  | .none => .error .typeError
  | .missing => .error .fileNotFound
  | .file f => .ok f

/-- base_decomposer.py:197-219 `load_checkpoint(checkpoint_path, load_it)`. -/
def Fit.loadCheckpoint {σ τ : Type} (m : Method σ τ) (path : FileArg) (loadIt : Option Int) : Fit σ Unit := do
  let f ← Fit.lift path.open
  if !f.root.attrs.has finalKey then throw .valueError
  let n ← (match loadIt with
    | some n => pure n
    | none => Fit.lift (f.root.intAttr finalKey) : Fit σ Int)
  modify fun w => { w with it := n }
  if !f.hasName (ckName n) then throw .valueError
  let g ← Fit.lift (f.groups.item (ckName n))
  let d ← Fit.lift (m.loadDec g)
  let w ← get
  Fit.lift (m.check d w.st)
  set { w with st := m.setDec d w.st }

/-- utils.py:220-223 `iter_checkpoints(file)`: the groups whose name starts with `checkpoint`, sorted by name.
(A dataset in the root group would be yielded as well; the code never creates one in a checkpoint file.) -/
def iterCheckpoints (f : H5File) : List (Name × Group) :=
  (f.groups.mergeSort fun p q => decide (p.1 ≤ q.1)).filter fun p => "checkpoint".toList.isPrefixOf p.1

end
end TK
