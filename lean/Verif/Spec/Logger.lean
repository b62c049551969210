import Verif.Spec.Checkpoint

/-!
# Specification of the histories of a logger
-/

namespace TK

noncomputable section

/-- A call on a logger: `log(decomposer)`, where the measured value is `value` and the current iteration is `it`,
or `write_to_hdf5_group(h5)`. -/
inductive LogOp
  | log (value : ℝ) (it : Int)
  | write

/-- The entries logged by a history of calls. -/
def LogOp.entries : List LogOp → List (Int × ℝ)
  | [] => []
  | .log v it :: ops => (it, v) :: entries ops
  | .write :: ops => entries ops

/-- Does a history contain no write? -/
def LogOp.NoWrite (ops : List LogOp) : Prop := ∀ o ∈ ops, o ≠ .write

/-- The calls of a history, one after the other. -/
def LogOp.run (n : Name) : List LogOp → Logger × H5File → Py (Logger × H5File)
  | [], p => .ok p
  | .log v it :: ops, (l, f) => run n ops (l.log v it, f)
  | .write :: ops, (l, f) => do
    let p ← l.writeTo n f
    run n ops p

/-- What a file holds of a logger: the group `name` has exactly these iterations and values. A missing group
holds nothing. -/
def Holds (f : H5File) (name : Name) (its : List Int) (vals : List ℝ) : Prop :=
  LogData f name its vals ∨ f.groups.find name = none ∧ its = [] ∧ vals = []

end
end TK
