/-!
# Specification of spreadsheet column names

Column names are the bijective base-26 numerals A, B, ..., Z, AA, AB, ... This file does not mention the model.
-/
namespace Oxml.Spec

/-- Value 1..26 of a letter, either case. -/
def letterValue (c : Char) : Nat :=
  if 'a' ≤ c ∧ c ≤ 'z' then c.toNat - 96 else c.toNat - 64

/-- The number a column name denotes: A=1, Z=26, AA=27, ... -/
def columnValue (letters : List Char) : Nat :=
  letters.foldl (fun acc c => acc * 26 + letterValue c) 0

/-- An upper-case ASCII letter. -/
def isUpperLetter (c : Char) : Prop := 'A' ≤ c ∧ c ≤ 'Z'

/-- An ASCII letter. -/
def isLetter (c : Char) : Prop := ('A' ≤ c ∧ c ≤ 'Z') ∨ ('a' ≤ c ∧ c ≤ 'z')

/-- Upper case of an ASCII letter. -/
def upper (c : Char) : Char := if 'a' ≤ c ∧ c ≤ 'z' then Char.ofNat (c.toNat - 32) else c

/-- Order of column names: shorter first, then alphabetical. -/
def columnNameLt (x y : List Char) : Prop :=
  x.length < y.length ∨ (x.length = y.length ∧ x < y)

/-- Decimal text of a number, as characters. -/
def decimal (n : Nat) : List Char := Nat.toDigits 10 n

end Oxml.Spec
