import Verif.Model.Decomposer

/-!
# Specification of checkpoint files and logs

Stated in terms of what a reader of the file sees: the attributes and groups of the file.
-/

namespace TK

noncomputable section

/-- The group `name` of the file holds the iterations `its` and the values `vals`. -/
def LogData (f : H5File) (name : Name) (its : List Int) (vals : List ℝ) : Prop :=
  ∃ g, f.groups.find name = some g ∧ g.dsets.find "iterations".toList = some (.iseq its) ∧
    g.dsets.find "values".toList = some (.vseq vals)

/-- The logger groups of the file are absent or well-formed, and their names do not look like checkpoints. -/
def LogsOk (f : H5File) (names : List Name) : Prop :=
  ∀ n ∈ names, ¬ "checkpoint".toList <+: n ∧ (f.groups.find n = none ∨ ∃ its vals, LogData f n its vals)

/-- The file contains exactly the checkpoints `L` (iteration number and decomposition), stored in this
order: one group for each of them with the content that `store_in_hdf5_group` writes, no other group whose
name starts with `checkpoint`, `final_iteration` is the number of the last one, and `checkpoint_its` is the
list of the numbers (for the methods that write it). -/
structure Checkpoints {τ : Type} (storeDec : τ → Group → Py Group) (writesIts : Bool) (f : H5File)
    (L : List (Int × τ)) : Prop where
  nodup : (L.map Prod.fst).Nodup
  group : ∀ p ∈ L, ∃ g, storeDec p.2 Group.empty = .ok g ∧
    f.groups.find ("checkpoint_".toList ++ fmtInt 5 p.1) = some g
  only : ∀ k, f.groups.has k = true → "checkpoint".toList <+: k →
    ∃ p ∈ L, k = "checkpoint_".toList ++ fmtInt 5 p.1
  final : f.root.attrs.find "final_iteration".toList = L.getLast?.map fun p => AttrVal.int p.1
  its : f.root.attrs.find "checkpoint_its".toList =
    if writesIts = true ∧ L ≠ [] then some (.ints (L.map Prod.fst)) else none
  noData : f.root.dsets = []
  unique : (f.groups.map Prod.fst).Nodup

/-- The file at a path, where a missing file counts as empty. -/
def CheckpointsAt {τ : Type} (storeDec : τ → Group → Py Group) (writesIts : Bool) (f : Option H5File)
    (L : List (Int × τ)) : Prop :=
  Checkpoints storeDec writesIts (f.getD H5File.empty) L

/-- `k`-fold application of a step that may raise. -/
def iterM {σ : Type} (step : σ → Py σ) : ℕ → σ → Py σ
  | 0, s => .ok s
  | k + 1, s => do
    let s' ← step s
    iterM step k s'

/-- The iterations after which a run of `k` iterations that starts with iteration number `start` stores a
checkpoint, with the decompositions `content j` after `j` iterations of the run: every `freq`-th one, counted
from iteration number 0. -/
def schedule {τ : Type} (freq start : Int) (k : ℕ) (content : ℕ → τ) : List (Int × τ) :=
  (List.range k).filterMap fun j : ℕ =>
    if 0 < freq ∧ freq ∣ start + j + 1 then some (start + j, content (j + 1)) else none

end
end TK
