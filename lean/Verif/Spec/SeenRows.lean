import Verif.Spec.Elsewhere
/-!
# The rows and columns other programs find in a saved sheet (C108)

Row and column elements as the file format defines them (ECMA-376 part 1, 18.3.1.13, 18.3.1.17, 18.3.1.73). Nothing here refers to the library except the
arguments of its calls.
-/
namespace Oxml.Spec

/-- An attribute that is true or false: false if it is not there. -/
def Item.on (k : String) (i : Item) : Bool := decide (i.attrOf k = some "1".toList ∨ i.attrOf k = some "true".toList)

/-- A row as found in the file. The height counts if it is said to be set, the style if it is said to be used; the level is 0 if none is given. -/
structure SeenRow where
  number : Option (List Char)
  height : Option (List Char)
  style : Option (List Char)
  hidden : Bool
  level : List Char
  collapsed : Bool
  thickTop : Bool
  thickBottom : Bool
  phonetic : Bool
deriving DecidableEq

def seenRow (row : Item) : SeenRow :=
  { number := row.attrOf "r"
    height := if row.on "customHeight" then row.attrOf "ht" else none
    style := if row.on "customFormat" then row.attrOf "s" else none
    hidden := row.on "hidden"
    level := (row.attrOf "outlineLevel").getD "0".toList
    collapsed := row.on "collapsed"
    thickTop := row.on "thickTop"
    thickBottom := row.on "thickBot"
    phonetic := row.on "ph" }

/-- All rows of a worksheet. -/
def seenRows (sheet : Item) : List SeenRow := ((sheet.kids "sheetData").flatMap (fun d => d.kids "row")).map seenRow

/-- The rows with the number. -/
def rowsNumbered (sheet : Item) (r : Nat) : List SeenRow := (seenRows sheet).filter (fun x => decide (x.number = some (Nat.toDigits 10 r)))

/-- The column elements of a worksheet: all that is said about widths, hiding and styles of columns. -/
def seenCols (sheet : Item) : List Item := (sheet.kids "cols").flatMap (fun c => c.kids "col")

/-- The row another program should find for the properties given: what was not given is as in a row nobody touched. -/
def wantedRow (r : Nat) (p : RowProps) : SeenRow :=
  { number := some (Nat.toDigits 10 r)
    height := p.height.map String.toList
    style := p.style.map (Nat.toDigits 10)
    hidden := decide (p.hidden = some true)
    level := Nat.toDigits 10 (p.groupLevel.getD 0)
    collapsed := decide (p.collapsed = some true)
    thickTop := decide (p.thickTop = some true)
    thickBottom := decide (p.thickBottom = some true)
    phonetic := decide (p.placeHolder = some true) }

/-- A call that writes to the row or sets it. -/
def SheetOp.touches (r : Nat) : SheetOp → Prop
  | .write row _ _ => row = r
  | .rowProps row _ => row = r
  | .column _ _ => False

/-- No switch is turned off explicitly. -/
def NothingOff (p : RowProps) : Prop :=
  p.hidden ≠ some false ∧ p.collapsed ≠ some false ∧ p.thickTop ≠ some false ∧ p.thickBottom ≠ some false ∧ p.placeHolder ≠ some false

end Oxml.Spec
