import Mathlib.Data.Nat.Digits.Defs
import Mathlib.Data.List.Lex
import Mathlib.Data.Char
import Mathlib.Tactic.Linarith
import Mathlib.Tactic.Ring

/-!
# Names: Python strings as lists of code points, and zero-padded decimal formatting

`'{:03d}'.format(i)` and `f'{i:05d}'` are used by the code to build dataset and group names.
-/

namespace TK

/-- A Python string as a list of characters (Python compares strings by code points). -/
abbrev Name := List Char

/-- The character of a decimal digit. -/
def digitChar (d : ℕ) : Char := Char.ofNat (48 + d)

/-- Decimal representation of a natural number, most significant digit first (`str(n)`). -/
def decimal (n : ℕ) : Name := if n = 0 then ['0'] else ((Nat.digits 10 n).reverse).map digitChar

/-- `f'{n:0wd}'` for `n ≥ 0`: padded with zeros on the left to at least `w` characters. -/
def fmtNat (w n : ℕ) : Name := List.replicate (w - (decimal n).length) '0' ++ decimal n

/-- `f'{n:0wd}'` for an integer: the sign counts for the width and comes first. -/
def fmtInt (w : ℕ) (n : Int) : Name :=
  if 0 ≤ n then fmtNat w n.toNat else '-' :: fmtNat (w - 1) n.natAbs

end TK
