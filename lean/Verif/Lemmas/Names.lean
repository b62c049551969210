import Verif.Py.Names
import Mathlib.Data.Nat.Digits.Lemmas

/-! # Lemmas about decimal names -/

namespace TK

/-- Value of a string of decimal digits. -/
def decVal (l : Name) : ℕ := l.foldl (fun a c => a * 10 + (c.toNat - 48)) 0

theorem toNat_digitChar {d : ℕ} (h : d < 10) : (digitChar d).toNat = 48 + d := by
  interval_cases d <;> rfl

theorem foldl_dec (l : Name) (a : ℕ) :
    l.foldl (fun a c => a * 10 + (c.toNat - 48)) a = a * 10 ^ l.length + decVal l := by
  induction l generalizing a with
  | nil => simp [decVal]
  | cons c l ih =>
    have h2 : decVal (c :: l) = (0 * 10 + (c.toNat - 48)) * 10 ^ l.length + decVal l := by
      rw [decVal, List.foldl_cons, ih]
    rw [List.foldl_cons, ih, h2]
    simp only [List.length_cons, pow_succ]; ring

theorem decVal_append (l l' : Name) : decVal (l ++ l') = decVal l * 10 ^ l'.length + decVal l' := by
  rw [decVal, List.foldl_append, foldl_dec]; rfl

theorem decVal_cons (c : Char) (l : Name) :
    decVal (c :: l) = (c.toNat - 48) * 10 ^ l.length + decVal l := by
  have := decVal_append [c] l
  simpa [decVal] using this

theorem decVal_replicate_zero (k : ℕ) : decVal (List.replicate k '0') = 0 := by
  induction k with
  | zero => rfl
  | succ k ih => rw [List.replicate_succ, decVal_cons, ih]; simp

theorem decVal_digits (L : List ℕ) (h : ∀ d ∈ L, d < 10) :
    decVal (L.reverse.map digitChar) = Nat.ofDigits 10 L := by
  induction L with
  | nil => rfl
  | cons d L ih =>
    rw [List.reverse_cons, List.map_append, decVal_append, ih fun x hx => h x (by simp [hx]),
      Nat.ofDigits_cons]
    have hd := h d (by simp)
    simp only [List.map_cons, List.map_nil, decVal_cons, toNat_digitChar hd]
    simp [decVal]; ring

theorem decVal_decimal (n : ℕ) : decVal (decimal n) = n := by
  unfold decimal
  split
  · rename_i h; subst h; rfl
  · rw [decVal_digits _ fun d hd => Nat.digits_lt_base (by norm_num) hd, Nat.ofDigits_digits]

/-- Reading a zero-padded number gives the number back, whatever the width. -/
theorem decVal_fmtNat (w n : ℕ) : decVal (fmtNat w n) = n := by
  rw [fmtNat, decVal_append, decVal_replicate_zero, decVal_decimal]; simp

theorem fmtNat_injective (w : ℕ) : Function.Injective (fmtNat w) := fun a b h => by
  rw [← decVal_fmtNat w a, ← decVal_fmtNat w b, h]

/-- All characters are decimal digits. -/
def IsDigits (l : Name) : Prop := ∀ c ∈ l, 48 ≤ c.toNat ∧ c.toNat ≤ 57

theorem isDigits_fmtNat (w n : ℕ) : IsDigits (fmtNat w n) := by
  intro c hc
  rw [fmtNat, List.mem_append] at hc
  have hz : ('0' : Char).toNat = 48 := rfl
  rcases hc with hc | hc
  · have := List.eq_of_mem_replicate hc; subst this; rw [hz]; omega
  · unfold decimal at hc
    split at hc
    · simp at hc; subst hc; rw [hz]; omega
    · rw [List.mem_map] at hc
      obtain ⟨d, hd, rfl⟩ := hc
      have : d < 10 := Nat.digits_lt_base (by norm_num) (List.mem_reverse.1 hd)
      rw [toNat_digitChar this]; omega

theorem length_decimal_le {n w : ℕ} (hw : 0 < w) (h : n < 10 ^ w) : (decimal n).length ≤ w := by
  unfold decimal
  split
  · exact hw
  · rename_i h0
    rw [List.length_map, List.length_reverse, Nat.digits_length_le_iff (by norm_num)]
    exact h

theorem length_fmtNat {n w : ℕ} (hw : 0 < w) (h : n < 10 ^ w) : (fmtNat w n).length = w := by
  have := length_decimal_le hw h
  rw [fmtNat, List.length_append, List.length_replicate]; omega

theorem length_fmtNat_ge (w n : ℕ) : w ≤ (fmtNat w n).length := by
  rw [fmtNat, List.length_append, List.length_replicate]; omega

theorem fmtInt_natCast (w n : ℕ) : fmtInt w n = fmtNat w n := by simp [fmtInt]

/-- A minus sign never occurs in a formatted natural number. -/
theorem head_ne_minus {l : Name} (h : IsDigits l) {t : Name} : l ≠ '-' :: t := by
  rintro rfl
  have := (h '-' (by simp)).1
  have hz : ('-' : Char).toNat = 45 := rfl
  omega

theorem fmtInt_injective (w : ℕ) : Function.Injective (fmtInt w) := by
  intro a b h
  unfold fmtInt at h
  split at h <;> split at h
  · have := fmtNat_injective w h; omega
  · exact absurd h (head_ne_minus (isDigits_fmtNat _ _))
  · exact absurd h.symm (head_ne_minus (isDigits_fmtNat _ _))
  · have := fmtNat_injective (w - 1) (List.cons.inj h).2; omega

theorem decVal_lt (l : Name) (h : IsDigits l) : decVal l < 10 ^ l.length := by
  induction l with
  | nil => simp [decVal]
  | cons c l ih =>
    have h1 := ih fun x hx => h x (by simp [hx])
    have h2 := (h c (by simp)).2
    rw [decVal_cons, List.length_cons, pow_succ]
    have : (c.toNat - 48) * 10 ^ l.length ≤ 9 * 10 ^ l.length := Nat.mul_le_mul_right _ (by omega)
    omega

/-- Digit strings of equal length compare lexicographically like their values. -/
theorem lex_iff_decVal : ∀ {l l' : Name}, l.length = l'.length → IsDigits l → IsDigits l' →
    (l < l' ↔ decVal l < decVal l')
  | [], [], _, _, _ => by simp
  | c :: l, c' :: l', hl, h, h' => by
    have hlen : l.length = l'.length := by simpa using hl
    have ih := lex_iff_decVal hlen (fun x hx => h x (by simp [hx])) (fun x hx => h' x (by simp [hx]))
    have b1 := decVal_lt l fun x hx => h x (by simp [hx])
    have b2 := decVal_lt l' fun x hx => h' x (by simp [hx])
    have hc := h c (by simp)
    have hc' := h' c' (by simp)
    rw [List.cons_lt_cons_iff, decVal_cons, decVal_cons, ih]
    rw [hlen] at b1 ⊢
    have hlt : c < c' ↔ c.toNat < c'.toNat := Iff.rfl
    rw [hlt]
    constructor
    · rintro (h1 | ⟨rfl, h1⟩)
      · have : (c.toNat - 48 + 1) * 10 ^ l'.length ≤ (c'.toNat - 48) * 10 ^ l'.length :=
          Nat.mul_le_mul_right _ (by omega)
        rw [Nat.add_mul] at this; omega
      · omega
    · intro hlt
      rcases Nat.lt_trichotomy c.toNat c'.toNat with h1 | h1 | h1
      · exact Or.inl h1
      · right
        have : c = c' := Char.ext (UInt32.toNat_inj.1 h1)
        subst this; exact ⟨rfl, by omega⟩
      · exfalso
        have : (c'.toNat - 48 + 1) * 10 ^ l'.length ≤ (c.toNat - 48) * 10 ^ l'.length :=
          Nat.mul_le_mul_right _ (by omega)
        rw [Nat.add_mul] at this; omega

end TK
