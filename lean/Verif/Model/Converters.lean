import Verif.Model.Basic
/-!
# `rs/src/utils/converters.rs`
-/
namespace Oxml

/-- `c.to_ascii_uppercase() as u16 - 'A' as u16 + 1` (`converters.rs:14`). -/
def charValue (b : Build) (c : Char) : Res Nat := do
  let d ← subU16 b ((asciiUpper c).toNat % 65536) 65
  addU16 b d 1

/-- `26_usize.pow(i as u32) as u16` (`converters.rs:15`): `usize` overflow is checked in a debug build, the
cast keeps the low 16 bits (which wrapping multiplication does not change). -/
def pow26 (b : Build) (i : Nat) : Res Nat :=
  if 26 ^ i ≤ usizeMax ∨ b.release then .ok (26 ^ i % 65536) else .error overflow

/-- The loop of `get_column_index` (`converters.rs:13-16`) over the reversed letters. -/
def columnIndexLoop (b : Build) : List Char → Nat → Nat → Res Nat
  | [], _, index => .ok index
  | c :: cs, i, index => do
    let cv ← charValue b c
    let p ← pow26 b i
    let m ← mulU16 b cv p
    let index ← addU16 b index m
    columnIndexLoop b cs (i + 1) index

/-- `ConverterUtil::get_column_index` (`converters.rs:7-18`). -/
def getColumnIndex (b : Build) (u : Unicode) (cellRef : String) : Res Nat :=
  let part := cellRef.toList.takeWhile (isAlphabetic u)
  if part = [] then .error (.fail "Failed to Convert to Column Key Id")
  else columnIndexLoop b part.reverse 0 0

/-- The `while` loop of `get_column_ref` (`converters.rs:27-32`); `acc` is `column_name`. The fuel bounds the
number of iterations; `getColumnRef` passes the index itself, which is always enough. -/
def columnRefLoop : Nat → Nat → List Char → List Char
  | 0, _, acc => acc
  | fuel + 1, index, acc =>
    if index = 0 then acc
    else columnRefLoop fuel ((index - 1) / 26) (Char.ofNat ((index - 1) % 26 + 65) :: acc)

/-- `ConverterUtil::get_column_ref` (`converters.rs:20-35`). -/
def getColumnRef (cellId : Nat) : Res String :=
  if cellId = 0 then .error (.fail "Index must be greater than 0")
  else .ok (String.ofList (columnRefLoop cellId cellId []))

/-- `ConverterUtil::extract_digits` (`converters.rs:68-75`): all digits anywhere in the text. -/
def extractDigits (input : String) : Res Nat :=
  match parseUInt u32Max (String.ofList (input.toList.filter Char.isDigit)) with
  | some v => .ok v
  | none => .error (.fail "Failed to Extract Digits")

/-- `ConverterUtil::get_cell_index` (`converters.rs:38-43`): (row, column). -/
def getCellIndex (b : Build) (u : Unicode) (cellRef : String) : Res (Nat × Nat) := do
  let r ← extractDigits cellRef
  let c ← getColumnIndex b u cellRef
  .ok (r, c)

/-- White space for Rust `char::is_whitespace`: the characters with the Unicode property `White_Space`. -/
def isUniSpace (c : Char) : Bool :=
  decide (9 ≤ c.toNat ∧ c.toNat ≤ 13) || decide (8192 ≤ c.toNat ∧ c.toNat ≤ 8202) ||
    [32, 133, 160, 5760, 8232, 8233, 8239, 8287, 12288].contains c.toNat

/-- Rust `str::trim`. -/
def trimUni (s : String) : String :=
  String.ofList (((s.toList.dropWhile isUniSpace).reverse.dropWhile isUniSpace).reverse)

/-- `ConverterUtil::normalize_bool_property_u8` (`converters.rs:46-51`). -/
def normalizeBoolU8 (value : String) : Nat :=
  if trimUni value = "true" ∨ trimUni value = "1" then 1 else 0

/-- `ConverterUtil::normalize_bool_property_bool` (`converters.rs:61-66`). -/
def normalizeBool (value : String) : Bool :=
  trimUni value = "true" || trimUni value = "1"

/-- `ConverterUtil::bool_xml_flag` (`converters.rs:53-59`). -/
def boolXmlFlag (value : Bool) : String := if value then "1" else "0"

end Oxml
