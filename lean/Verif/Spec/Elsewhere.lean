import Verif.Spec.WellFormed
import Verif.Spec.Sessions
/-!
# What other programs find in a saved workbook (C105)

The cells of a worksheet and their values as the file format defines them (ECMA-376 part 1, 18.3.1.4, 18.3.1.73, 18.3.1.80, 18.4.8, 18.4.9,
18.18.11), read off the items another program finds in the parts of the file. Nothing here refers to the library.
-/
namespace Oxml.Spec

/-- An element of that name. -/
def Item.named (tag : String) : Item → Bool
  | .elem n _ _ => decide (n = tag.toList)
  | .text _ => false

/-- The elements of that name directly inside. -/
def Item.kids (tag : String) : Item → List Item
  | .elem _ _ cs => cs.filter (Item.named tag)
  | .text _ => []

/-- The value of an attribute. -/
def Item.attrOf (k : String) : Item → Option (List Char)
  | .elem _ kvs _ => (kvs.find? (fun kv => decide (kv.1 = k.toList))).map Prod.snd
  | .text _ => none

/-- Character data. -/
def Item.chars : Item → List Char
  | .elem _ _ _ => []
  | .text s => s

/-- The character data directly inside an element. -/
def Item.words : Item → List Char
  | .elem _ _ cs => cs.flatMap Item.chars
  | .text _ => []

/-- The text of a string item: its text, or those of its runs one after the other. -/
def stringWords : Item → List Char
  | .elem _ _ cs => cs.flatMap (fun i => if i.named "t" then i.words else if i.named "r" then (i.kids "t").flatMap Item.words else [])
  | .text _ => []

/-- The shared strings of the workbook. -/
def sharedStrings (sst : Item) : List (List Char) := (sst.kids "si").map stringWords

/-- A cell as found in the file: number of its row, reference, style, type, formulas, text of the value. -/
structure SeenCell where
  row : Option (List Char)
  ref : Option (List Char)
  style : Option (List Char)
  type : Option (List Char)
  formulas : List (List Char)
  text : List Char
deriving DecidableEq

/-- A cell element of a row element. -/
def seenCell (row cell : Item) : SeenCell :=
  { row := row.attrOf "r", ref := cell.attrOf "r", style := cell.attrOf "s", type := cell.attrOf "t", formulas := (cell.kids "f").map Item.words,
    text := if cell.attrOf "t" = some "inlineStr".toList then (cell.kids "is").flatMap stringWords else (cell.kids "v").flatMap Item.words }

/-- All cells of a worksheet. -/
def seenCells (sheet : Item) : List SeenCell :=
  ((sheet.kids "sheetData").flatMap (fun d => d.kids "row")).flatMap (fun row => (row.kids "c").map (seenCell row))

/-- What a cell holds. -/
inductive CellValue where
  | blank
  | number (text : List Char)
  | text (text : List Char)
  | bool (b : Bool)
  | error (text : List Char)
  /-- The file is wrong there. -/
  | damaged
deriving DecidableEq

/-- A number in digits: the words for infinity and for what is no number are none. -/
def NumberText (s : List Char) : Prop := FloatText s ∧ ∃ c ∈ s, '0' ≤ c ∧ c ≤ '9'

/-- The shared string with the number. -/
def sharedString (strings : List (List Char)) (number : List Char) : Option (List Char) :=
  ((List.range strings.length).find? (fun i => decide (Nat.toDigits 10 i = number))).bind (fun i => strings[i]?)

open Classical in
/-- What a cell of the file holds, given the shared strings: a number if no type is given. -/
noncomputable def SeenCell.holds (strings : List (List Char)) (c : SeenCell) : CellValue :=
  let t := c.type.getD "n".toList
  if t = "n".toList then
    if c.text = [] then .blank else if NumberText c.text then .number c.text else .damaged
  else if t = "b".toList then
    if c.text = "1".toList then .bool true else if c.text = "0".toList then .bool false else .damaged
  else if t = "e".toList then .error c.text
  else if t = "str".toList ∨ t = "inlineStr".toList then .text c.text
  else if t = "s".toList then
    match sharedString strings c.text with
    | some s => .text s
    | none => .damaged
  else .damaged

/-! ## What was written -/

open Classical in
/-- What a cell given to the library should hold elsewhere. -/
noncomputable def wantedValue (given : CellProps) : CellValue :=
  match given.value with
  | none => .blank
  | some v =>
    match given.type with
    | .auto =>
      if FloatText v.toList then .number v.toList
      else if v = "true" then .bool true
      else if v = "false" then .bool false
      else .text (lineEnds v.toList)
    | .number => .number v.toList
    | .boolean => .bool (decide (v.toList.map asciiLower ∉ ["false".toList, "0".toList, []]))
    | .error => .error (lineEnds v.toList)
    | .string | .shareString | .inlineString => .text (lineEnds v.toList)

/-- What is called a number is one. -/
def NumbersAreNumbers (given : CellProps) : Prop :=
  ∀ v, given.value = some v → (given.type = .number ∨ given.type = .auto ∧ FloatText v.toList) → NumberText v.toList

/-- The texts that stand in the part of the sheet itself have no white space around them. -/
def CleanEdges (given : CellProps) : Prop :=
  (∀ f, given.formula = some f → trimXml f.toList = f.toList) ∧ ∀ v, given.value = some v → given.type = .string ∨ given.type = .inlineString ∨ given.type = .error → trimXml v.toList = v.toList

/-- The formulas another program should find: none for inline strings, which the library writes without. -/
def wantedFormulas (given : CellProps) : List (List Char) :=
  if given.type = .inlineString ∧ given.value ≠ none then [] else (given.formula.map (fun f => lineEnds f.toList)).toList

/-- The cell another program should find for a cell given to the library. -/
structure FoundAs (strings : List (List Char)) (row : Nat) (given : CellProps) (c : SeenCell) : Prop where
  row : c.row = some (Nat.toDigits 10 row)
  style : c.style = given.style.map (Nat.toDigits 10)
  formulas : c.formulas = wantedFormulas given
  value : c.holds strings = wantedValue given

end Oxml.Spec
