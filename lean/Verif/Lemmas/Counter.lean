import Verif.Lemmas.Decomposer

/-!
# A small decomposer for the examples

The theorems about fit loops and checkpoints hold for every `Method`. The examples beside them use the methods
of the library where that is easy, and otherwise the decomposer of this file: its decomposition is a number, an
iteration adds one, and it has converged when a limit is reached. It models no code of the library.
-/

namespace TK
open Fit

noncomputable section

/-- The attribute under which the counter stores its decomposition. -/
def countKey : Name := "count".toList

/-- A decomposer that counts up to `limit`. Not part of the model, for examples only. -/
def counter (freq : Int) (usesLoopVar writesIts : Bool) (limit : ℕ) : Method ℕ ℕ where
  dec := id
  setDec := fun n _ => n
  storeDec := fun n g => .ok (g.setAttr countKey (.int n))
  loadDec := fun g => do pure (← g.intAttr countKey).toNat
  check := fun _ _ => .ok ()
  prepare := .ok
  stop := fun n => .ok (decide (limit ≤ n))
  step := fun n => .ok (n + 1)
  post := .ok
  initRest := .ok
  freq := freq
  hasPath := true
  typeName := "Counter".toList
  logs := []
  usesLoopVar := usesLoopVar
  writesIts := writesIts

/-- A fresh counter with the budget `n` and no checkpoint file. -/
def counterWorld (n : Int) : World ℕ := ⟨0, 0, n, [], none⟩

theorem counter_trajectory {freq : Int} {u b : Bool} {limit k : ℕ} (hk : k ≤ limit) :
    Trajectory (counter freq u b limit) (fun j => j) k where
  step := fun _ _ => rfl
  go := fun j hj => congrArg Except.ok (decide_eq_false (by omega))
  log := fun _ _ p hp => absurd hp (by simp [counter])
  store := fun _ _ => ⟨_, rfl⟩

theorem counter_empty (st : ℕ → Group → Py Group) (b : Bool) : Checkpoints st b H5File.empty ([] : List (Int × ℕ)) :=
  ⟨by simp, by simp, by intro k hk; simp [H5File.empty, Dict.has] at hk, rfl, by simp; rfl, rfl, by simp [H5File.empty]⟩

theorem counter_storing {freq : Int} {u b : Bool} {limit : ℕ} {n : Int} :
    Storing (counter freq u b limit) (counterWorld n) [] :=
  ⟨fun _ => rfl, fun _ => counter_empty _ _, fun _ n hn => absurd hn (by simp [counter])⟩

/-- What the counter stores can be loaded again. -/
theorem counter_round {freq : Int} {u b : Bool} {limit : ℕ} (d : ℕ) :
    ∀ g, (counter freq u b limit).storeDec d Group.empty = .ok g → (counter freq u b limit).loadDec g = .ok d := by
  rintro g h
  cases h
  rfl

end
end TK
