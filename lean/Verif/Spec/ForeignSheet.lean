import Verif.Spec.Foreign
import Verif.Spec.Elsewhere
import Verif.Spec.SheetXml
/-!
# Worksheets as other programs write them, and the cells the library holds for them (C109)

Stated about the items another program reads in the text of the part.
-/
namespace Oxml.Spec

/-- An element. -/
def Item.isElem : Item → Bool
  | .elem .. => true
  | .text _ => false

/-- The elements directly inside. -/
def Item.elements : Item → List Item
  | .elem _ _ cs => cs.filter Item.isElem
  | .text _ => []

/-- A text on one line, without white space around it. -/
structure CleanText (t : List Char) : Prop where
  some : t ≠ []
  lines : '\n' ∉ t ∧ '\r' ∉ t
  first : ∀ c r, t = c :: r → ¬White c
  last : ∀ l c, t = l ++ [c] → ¬White c

/-- An element that holds one clean text, or nothing. -/
def HoldsText (i : Item) : Prop := ∃ n kvs, i = .elem n kvs [] ∨ ∃ t, CleanText t ∧ i = .elem n kvs [.text t]

/-- A cell of the row written as spreadsheet programs usually do, with a type the library knows. -/
structure CommonCell (row : Nat) (i : Item) : Prop where
  ref : ∃ t col, i.attrOf "r" = some t ∧ RefText t row col ∧ col ≤ 65535
  style : ∀ v, i.attrOf "s" = some v → ∃ k, v = Nat.toDigits 10 k
  type : ∀ v, i.attrOf "t" = some v → v ∈ ["b", "e", "n", "s", "str", "inlineStr"].map String.toList
  indices : ∀ k ∈ ["cm", "vm"], ∀ v, i.attrOf k = some v → ∃ n, v = Nat.toDigits 10 n
  phonetic : i.attrOf "ph" ≠ some "true".toList
  /-- An inline string that consists of one text; otherwise at most one value and at most one formula, of no special kind. -/
  content : if i.attrOf "t" = some "inlineStr".toList then
      ∃ s t, i.elements = [s] ∧ s.named "is" ∧ s.elements = [t] ∧ t.named "t" ∧ HoldsText t
    else
      (∀ c ∈ i.elements, HoldsText c ∧ (c.named "v" ∨ ∃ cs, c = .elem "f".toList [] cs)) ∧ (i.kids "v").length ≤ 1 ∧ (i.kids "f").length ≤ 1

/-- Rows numbered and cells named, each number and name once. -/
structure CommonSheet (sheet : Item) : Prop where
  one : (sheet.kids "sheetData").length ≤ 1
  rows : ∀ d ∈ sheet.kids "sheetData", ∀ r ∈ d.elements, r.named "row" ∧ ∃ row, r.attrOf "r" = some (Nat.toDigits 10 row) ∧
    (∀ c ∈ r.elements, c.named "c" ∧ CommonCell row c) ∧ (r.elements.map (Item.attrOf "r")).Nodup
  distinct : ∀ d ∈ sheet.kids "sheetData", (d.elements.map (Item.attrOf "r")).Nodup

/-- The type of a cell as the format names it. -/
def typeCode : CellType → Option String
  | .number => some "n"
  | .boolean => some "b"
  | .string => some "str"
  | .shareString => some "s"
  | .inlineString => some "inlineStr"
  | .error => some "e"
  | .auto => none

/-- A cell the library holds is the one another program sees: style (the first if none is given), type (number if none is given), formula
and value. -/
structure HeldAs (y : CellProps) (c : SeenCell) : Prop where
  style : Nat.toDigits 10 (y.style.getD 0) = c.style.getD "0".toList
  type : (typeCode y.type).map String.toList = some (c.type.getD "n".toList)
  formula : (y.formula.getD "").toList = c.formulas.flatten
  value : (y.value.getD "").toList = c.text

/-- A cell element of the document the library reads says what another program sees. -/
structure ShownAs (v : Shown) (c : SeenCell) : Prop where
  ref : v.ref.map String.toList = c.ref
  style : v.style.toList = c.style.getD "0".toList
  type : v.type.toList = c.type.getD "n".toList
  formula : v.formula.toList = c.formulas.flatten
  kind : v.formulaKind = []
  value : v.text.toList = c.text

/-- **C109, in full.** Every cell another program sees in the text of a sheet that was loaded the library holds. -/
def CellsAsSeen (env : Env) : Prop :=
  ∀ text sheet d sh x', IsDocument text sheet → readXml env.uni text = .ok d → Sheet.load env d.toXDoc = (.ok sh, x') → ∀ r c ref, RefText ref r c →
    ∀ sc ∈ seenCells sheet, sc.ref = some ref → ∃ y, cellAt sh r c = some y ∧ HeldAs y sc

end Oxml.Spec
