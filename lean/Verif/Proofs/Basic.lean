import Verif.Model.Basic
/-!
# Helper lemmas about number parsing
-/
namespace Oxml

theorem dropPlus_of_digits (l : List Char) (h : ∀ c ∈ l, c.isDigit) : dropPlus l = l := by
  cases l with
  | nil => rfl
  | cons c cs =>
    have hc : c ≠ '+' := by
      rintro rfl
      exact absurd (h '+' (by simp)) (by decide)
    simp [dropPlus, hc]

theorem unsignedDigits_of_digits (l : List Char) (hne : l ≠ []) (h : ∀ c ∈ l, c.isDigit) :
    unsignedDigits l = some l := by
  unfold unsignedDigits
  rw [dropPlus_of_digits l h, if_pos ⟨hne, by simpa using h⟩]

theorem toList_toString_nat (n : Nat) : (toString n).toList = Nat.toDigits 10 n := by
  rw [Nat.toString_eq_ofList_toDigits, String.toList_ofList]

theorem isDigit_of_mem_decimal {n : Nat} {c : Char} (h : c ∈ Nat.toDigits 10 n) : c.isDigit :=
  Nat.isDigit_of_mem_toDigits (by decide) (by decide) h

/-- Parsing the decimal text of a number that fits gives the number. -/
theorem parseUInt_toString (max n : Nat) (h : n ≤ max) : parseUInt max (toString n) = some n := by
  unfold parseUInt
  rw [toList_toString_nat, unsignedDigits_of_digits _ Nat.toDigits_ne_nil (fun c hc => isDigit_of_mem_decimal hc)]
  simp only [Nat.ofDigitChars_ten_toDigits, h, if_true]

theorem toString_nat_inj {m n : Nat} (h : toString m = toString n) : m = n := by
  have h := congrArg String.toList h
  rw [toList_toString_nat, toList_toString_nat] at h
  have := congrArg (fun l => Nat.ofDigitChars 10 l 0) h
  simpa [Nat.ofDigitChars_ten_toDigits] using this

theorem parseUInt_le {max n : Nat} {s : String} (h : parseUInt max s = some n) : n ≤ max := by
  unfold parseUInt at h
  split at h
  · cases h
  · simp only at h
    split at h
    · cases h; assumption
    · cases h

theorem isDigit_iff (c : Char) : c.isDigit = true ↔ 48 ≤ c.toNat ∧ c.toNat ≤ 57 := by
  simp only [Char.isDigit, Bool.and_eq_true, decide_eq_true_eq, ge_iff_le, UInt32.le_iff_toNat_le]
  exact Iff.rfl

theorem isAlpha_iff (c : Char) :
    c.isAlpha = true ↔ (65 ≤ c.toNat ∧ c.toNat ≤ 90) ∨ (97 ≤ c.toNat ∧ c.toNat ≤ 122) := by
  simp only [Char.isAlpha, Char.isUpper, Char.isLower, Bool.or_eq_true, Bool.and_eq_true, decide_eq_true_eq,
    ge_iff_le, UInt32.le_iff_toNat_le]
  exact Iff.rfl

/-- A digit is not alphabetic, whatever the Unicode table says. -/
theorem isAlphabetic_of_isDigit (u : Unicode) {c : Char} (h : c.isDigit = true) : isAlphabetic u c = false := by
  have hd := (isDigit_iff c).mp h
  unfold isAlphabetic
  rw [if_pos (by omega)]
  cases hal : c.isAlpha with
  | false => rfl
  | true => have := (isAlpha_iff c).mp hal; omega

end Oxml
