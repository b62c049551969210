/-!
# Python exceptions and Python-style indexing

Exceptions raised by the modelled code are values of `PyErr`; a computation that may raise is a
`Py α = Except PyErr α`.
-/

namespace TK

/-- The exception classes that the modelled code (or the NumPy / h5py calls in it) can raise. -/
inductive PyErr
  | valueError
  | indexError
  | typeError
  | attributeError
  | zeroDivisionError
  /-- `UnboundLocalError`, a subclass of `NameError`. -/
  | unboundLocalError
  | keyError
  | assertionError
  /-- `raise Warning(...)`, which is an ordinary exception when raised. -/
  | warning
  | notImplementedError
  /-- Creating an HDF5 object under a name that is already taken (h5py raises `ValueError`
  "Unable to create group (name already exists)"). -/
  | nameExists
  /-- `FileNotFoundError`: opening a file that does not exist. -/
  | fileNotFound
  /-- `numpy.linalg.LinAlgError`. -/
  | linAlgError
  deriving DecidableEq, Repr

abbrev Py := Except PyErr

/-- Python index normalisation: `n` valid for a sequence of length `d` iff `-d ≤ n < d`. Used by
`seq[n]`, `list.pop(n)` and NumPy's axis arguments. -/
def normIdx (n : Int) (d : Nat) : Option Nat :=
  if 0 ≤ n then (if n.toNat < d then some n.toNat else none)
  else (if n.natAbs ≤ d then some (d - n.natAbs) else none)

theorem normIdx_lt {n : Int} {d k : Nat} (h : normIdx n d = some k) : k < d := by
  unfold normIdx at h
  split at h <;> split at h <;> simp at h <;> omega

@[simp] theorem normIdx_natCast {n d : Nat} (h : n < d) : normIdx (n : Int) d = some n := by
  simp [normIdx, h]

theorem normIdx_isSome_iff {n : Int} {d : Nat} :
    (normIdx n d).isSome ↔ (-(d : Int) ≤ n ∧ n < d) := by
  unfold normIdx
  split <;> split <;> simp <;> omega

theorem normIdx_eq_none_iff {n : Int} {d : Nat} :
    normIdx n d = none ↔ ¬ (-(d : Int) ≤ n ∧ n < d) := by
  rw [← normIdx_isSome_iff]; simp

/-- The meaning of a normalised index, stated without `normIdx`: a non-negative index is itself and a
negative one counts from the end. -/
theorem normIdx_some_iff {n : Int} {d k : Nat} :
    normIdx n d = some k ↔ k < d ∧ ((n = k) ∨ (n = (k : Int) - d)) := by
  unfold normIdx
  split <;> split <;> simp <;> omega

end TK
