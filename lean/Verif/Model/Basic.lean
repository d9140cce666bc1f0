/-!
# Shared vocabulary of the model

Rust `Result<_, anyhow::Error>` becomes `Res`, a Rust panic becomes the explicit error value `Err.panic`,
so that no theorem can hold merely because a partial function was totalised.
-/
namespace Oxml

/-- Outcome of a failing Rust call: an `anyhow!` error (`fail`) or a panic (`panic`). -/
inductive Err where
  | fail (msg : String)
  | panic (msg : String)
deriving DecidableEq, Repr

/-- Rust `AnyResult<α, AnyError>`, with panics as errors. -/
abbrev Res (α : Type) := Except Err α

deriving instance DecidableEq for Except

/-- Build profile. A debug build checks integer overflow (panic), a release build wraps around. The XML
writer also emits an extra comment and namespace in a release build (`xml_deserialize.rs:16-32,120-126`). -/
structure Build where
  release : Bool
deriving DecidableEq, Repr

/-- The overflow panic of a checked build. -/
def overflow : Err := .panic "arithmetic overflow"

/-- `u16 + u16`. -/
def addU16 (b : Build) (x y : Nat) : Res Nat :=
  if x + y < 65536 then .ok (x + y) else if b.release then .ok ((x + y) % 65536) else .error overflow

/-- `u16 * u16`. -/
def mulU16 (b : Build) (x y : Nat) : Res Nat :=
  if x * y < 65536 then .ok (x * y) else if b.release then .ok ((x * y) % 65536) else .error overflow

/-- `u16 - u16`. -/
def subU16 (b : Build) (x y : Nat) : Res Nat :=
  if y ≤ x then .ok (x - y) else if b.release then .ok ((x + 65536 - y) % 65536) else .error overflow

/-- The part of the Unicode tables the model does not fix: which characters above ASCII are alphabetic
(`char::is_alphabetic`). Theorems quantify over it. -/
structure Unicode where
  alphaHigh : Char → Bool

/-- Rust `char::is_alphabetic`: exactly the ASCII letters below 128, a table above. -/
def isAlphabetic (u : Unicode) (c : Char) : Bool :=
  if c.toNat < 128 then c.isAlpha else u.alphaHigh c

/-- Rust `char::to_ascii_uppercase`. -/
def asciiUpper (c : Char) : Char :=
  if 'a' ≤ c ∧ c ≤ 'z' then Char.ofNat (c.toNat - 32) else c

/-- Rust `char::to_ascii_lowercase`. -/
def asciiLower (c : Char) : Char :=
  if 'A' ≤ c ∧ c ≤ 'Z' then Char.ofNat (c.toNat + 32) else c

/-- Drops one leading `+`, which Rust's integer parsers accept. -/
def dropPlus : List Char → List Char
  | [] => []
  | c :: cs => if c = '+' then cs else c :: cs

/-- Digits of an unsigned integer literal: optional `+`, then at least one ASCII digit. -/
def unsignedDigits (cs : List Char) : Option (List Char) :=
  if dropPlus cs ≠ [] ∧ (dropPlus cs).all Char.isDigit then some (dropPlus cs) else none

/-- Rust `str::parse::<uN>()` with largest value `max`: optional `+`, digits, no overflow. -/
def parseUInt (max : Nat) (s : String) : Option Nat :=
  match unsignedDigits s.toList with
  | none => none
  | some ds =>
    let v := Nat.ofDigitChars 10 ds 0
    if v ≤ max then some v else none

/-- `u8::MAX`. -/
def u8Max : Nat := 255
/-- `u16::MAX`. -/
def u16Max : Nat := 65535
/-- `u32::MAX`. -/
def u32Max : Nat := 4294967295
/-- `usize::MAX` on a 64-bit target. -/
def usizeMax : Nat := 18446744073709551615

end Oxml
