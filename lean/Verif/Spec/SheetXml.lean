import Verif.Spec.Worksheet
import Verif.Spec.Existing
/-!
# What a worksheet document shows

Read off the elements of the document, as the file format defines them (ECMA-376 part 1, 18.3.1), without the library's loader.
-/
namespace Oxml.Spec

/-- The rows of a worksheet document. -/
def rowElements (x : XDoc) : List Node := (x.rootChildren.filter (fun n => n.tag = "sheetData")).flatMap Node.children

/-- The cells of a worksheet document. -/
def cellElements (x : XDoc) : List Node := (rowElements x).flatMap Node.children

/-- The first child with a tag. -/
def childOf (tag : String) (n : Node) : Option Node := n.children.find? (fun c => c.tag = tag)

/-- Its text, empty without one. -/
def textOf (tag : String) (n : Node) : String := ((childOf tag n).bind Node.value).getD ""

/-- The text of an inline string: its text, or those of its runs one after the other. -/
def inlineText (n : Node) : String :=
  String.join (n.children.map (fun c => if c.tag = "t" then c.value.getD "" else if c.tag = "r" then textOf "t" c else ""))

/-- What a cell element says: reference, style (0 if not given), type (number if not given), text of the formula, attributes of the formula (its kind, the range it
fills, the formula it shares), the text of the value, indices of its metadata and whether phonetic information is shown. -/
structure Shown where
  ref : Option String
  style : String
  type : String
  formula : String
  formulaKind : Attrs
  text : String
  cellMeta : Option String
  valueMeta : Option String
  phonetic : Bool
deriving DecidableEq, Repr

/-- What a cell element says. -/
def shown (n : Node) : Shown :=
  { ref := n.attr? "r", style := (n.attr? "s").getD "0", type := (n.attr? "t").getD "n", formula := textOf "f" n,
    formulaKind := ((childOf "f" n).bind Node.attrs).getD [],
    text := if n.attr? "t" = some "inlineStr" then ((childOf "is" n).map inlineText).getD "" else textOf "v" n,
    cellMeta := n.attr? "cm", valueMeta := n.attr? "vm", phonetic := n.attr? "ph" = some "1" || n.attr? "ph" = some "true" }

/-- It is about the cell in that row and column. -/
def Shown.At (v : Shown) (r c : Nat) : Prop := ∃ t, v.ref = some t ∧ RefText t.toList r c

/-- All of `v` and `f`, each once at most, the formula of no special kind, no white space around the texts. -/
structure PlainContent (n : Node) : Prop where
  tags : ∀ c ∈ n.children, c.tag = "v" ∨ c.tag = "f"
  once : (n.children.map Node.tag).Nodup
  kind : ∀ c ∈ n.children, c.tag = "f" → c.attrs.getD [] = []
  texts : ∀ c ∈ n.children, ∀ t, c.value = some t → Trimmed t

/-- One inline string consisting of one text, without white space around it. -/
def PlainInline (n : Node) : Prop :=
  ∃ a w b t cs, n.children = [.mk "is" a w [.mk "t" b t cs]] ∧ ∀ v, t = some v → Trimmed v

/-- A cell of the row written as spreadsheet programs usually do, with a type the library knows. -/
structure PlainCell (row : Nat) (n : Node) : Prop where
  ref : ∃ t col, n.attr? "r" = some t ∧ RefText t.toList row col ∧ col ≤ 65535
  style : ∀ v, n.attr? "s" = some v → ∃ k : Nat, v = toString k
  type : ∀ v, n.attr? "t" = some v → v ∈ ["b", "e", "n", "s", "str", "inlineStr"]
  indices : ∀ k ∈ ["cm", "vm"], ∀ v, n.attr? k = some v → ∃ i : Nat, v = toString i
  phonetic : n.attr? "ph" ≠ some "true"
  content : if n.attr? "t" = some "inlineStr" then PlainInline n else PlainContent n

/-- Rows numbered and cells named, each number and name once; all cells plain. -/
structure PlainSheet (x : XDoc) : Prop where
  one : (x.rootChildren.filter (fun n => n.tag = "sheetData")).length ≤ 1
  rows : ∀ n ∈ rowElements x, ∃ row : Nat, n.attr? "r" = some (toString row) ∧ (∀ c ∈ n.children, PlainCell row c) ∧
    (n.children.map (fun c => c.attr? "r")).Nodup
  distinct : ((rowElements x).map (fun n => n.attr? "r")).Nodup

/-! ### Rows, columns and views -/

/-- An attribute that is true. -/
def trueAttr (k : String) (n : Node) : Bool := n.attr? k = some "1" || n.attr? k = some "true"

/-- What a row element says: whether it is hidden, has thick borders, is collapsed or shows phonetic information, its own height and style if it has one, and its
level in the outline. -/
structure RowSaid where
  hidden : Bool := false
  thickTop : Bool := false
  thickBottom : Bool := false
  collapsed : Bool := false
  phonetic : Bool := false
  height : Option String := none
  style : Option String := none
  level : String := "0"
deriving DecidableEq, Repr

/-- What a row element says. -/
def rowSaid (n : Node) : RowSaid :=
  { hidden := trueAttr "hidden" n, thickTop := trueAttr "thickTop" n, thickBottom := trueAttr "thickBot" n, collapsed := trueAttr "collapsed" n,
    phonetic := trueAttr "ph" n, height := if trueAttr "customHeight" n then n.attr? "ht" else none,
    style := if trueAttr "customFormat" n then n.attr? "s" else none, level := (n.attr? "outlineLevel").getD "0" }

/-- What the document says about a row; the default for a row it does not mention. -/
def rowSaidAt (x : XDoc) (r : Nat) : RowSaid := (((rowElements x).find? (fun n => n.attr? "r" = some (toString r))).map rowSaid).getD {}

/-- Rows numbered, each number once, in one `sheetData` element. -/
structure NumberedRows (x : XDoc) : Prop where
  one : (x.rootChildren.filter (fun n => n.tag = "sheetData")).length ≤ 1
  nums : ∀ n ∈ rowElements x, ∃ row : Nat, n.attr? "r" = some (toString row)
  distinct : ((rowElements x).map (fun n => n.attr? "r")).Nodup

/-- Flags are not written `true`, numbers are decimal, the height reads as it is printed. -/
structure PlainRow (env : Env) (n : Node) : Prop where
  flags : ∀ k ∈ ["hidden", "thickTop", "thickBot", "collapsed", "ph", "customFormat", "customHeight"], n.attr? k ≠ some "true"
  nums : ∀ k ∈ ["s", "outlineLevel"], ∀ v, n.attr? k = some v → ∃ i : Nat, v = toString i
  height : ∀ v, n.attr? "ht" = some v → Canonical env v

/-- The column elements. -/
def colElements (x : XDoc) : List Node := (x.rootChildren.filter (fun n => n.tag = "cols")).flatMap Node.children

/-- What a column element says. -/
structure ColSaid where
  min : String
  max : String
  width : Option String
  hidden : Bool
  bestFit : Bool
  style : String
  level : String
  collapsed : Bool
deriving DecidableEq, Repr

/-- What a column element says. -/
def colSaid (n : Node) : ColSaid :=
  { min := (n.attr? "min").getD "1", max := (n.attr? "max").getD "1", width := if trueAttr "customWidth" n then n.attr? "width" else none,
    hidden := trueAttr "hidden" n, bestFit := trueAttr "bestFit" n, style := (n.attr? "style").getD "0", level := (n.attr? "outlineLevel").getD "0",
    collapsed := trueAttr "collapsed" n }

/-- Flags are not written `true`, numbers are decimal, the width reads as it is printed. -/
structure PlainCol (env : Env) (n : Node) : Prop where
  flags : ∀ k ∈ ["hidden", "bestFit", "collapsed", "customWidth"], n.attr? k ≠ some "true"
  nums : ∀ k ∈ ["min", "max", "style", "outlineLevel"], ∀ v, n.attr? k = some v → ∃ i : Nat, v = toString i
  width : ∀ v, n.attr? "width" = some v → Canonical env v

/-- The view elements. -/
def viewElements (x : XDoc) : List Node := (x.rootChildren.filter (fun n => n.tag = "sheetViews")).flatMap Node.children

/-- Switches of a view. -/
def viewSwitches : List String :=
  ["windowProtection", "showFormulas", "showGridLines", "showRowColHeaders", "showZeros", "rightToLeft", "tabSelected", "showRuler", "showWhiteSpace",
   "showOutlineSymbols", "defaultGridColor"]

/-- Numbers of a view. -/
def viewNumbers : List String := ["zoomScale", "zoomScaleNormal", "zoomScaleSheetLayoutView", "zoomScalePageLayoutView"]

/-- What a view element says: the window it belongs to, its switches as far as given, its zoom factors, first cell and kind. -/
structure ViewSaid where
  window : Option String
  switches : List (Option Bool)
  numbers : List (Option String)
  topLeft : Option String
  kind : Option String
deriving DecidableEq, Repr

/-- What a view element says. -/
def viewSaid (n : Node) : ViewSaid :=
  { window := n.attr? "workbookViewId", switches := viewSwitches.map (fun k => (n.attr? k).map (fun v => v = "1" || v = "true")),
    numbers := viewNumbers.map n.attr?, topLeft := n.attr? "topLeftCell", kind := n.attr? "view" }

/-- The view of the first window without settings. -/
def bareView : ViewSaid := { window := some "0", switches := viewSwitches.map (fun _ => none), numbers := viewNumbers.map (fun _ => none), topLeft := none, kind := none }

/-- Switches are written as the format says, numbers are decimal, texts without special characters. -/
structure PlainView (n : Node) : Prop where
  switches : ∀ k ∈ viewSwitches, ∀ v, n.attr? k = some v → v ∈ ["0", "1", "true", "false"]
  numbers : ∀ k ∈ viewNumbers, ∀ v, n.attr? k = some v → ∃ i : Nat, v = toString i
  texts : ∀ k ∈ ["workbookViewId", "topLeftCell", "view"], ∀ v, n.attr? k = some v → NoSpecials v

/-- Cells of a sheet that was opened but not written to show what they showed. -/
def CellsKept (env : Env) (theme : XDoc) : Prop :=
  ∀ z ops path edits x s now exts z' d0, (akeys z).Nodup → EditedSheet env theme z ops path edits x s → zipDoc env z path = some d0 → Tidy d0 →
    ColumnsNamed d0 → s.x.toZip env now exts = .ok z' → ∃ d, zipDoc env z' path = some d ∧
      ∀ r c v, lastWritten r c edits = none → v.At r c → (v ∈ (cellElements d).map shown ↔ v ∈ (cellElements d0).map shown)

/-- Rows and columns of a sheet that was opened, without being given other properties, look as they did. -/
def LayoutKept (env : Env) (theme : XDoc) : Prop :=
  ∀ z ops path edits x s now exts z' d0, (akeys z).Nodup → EditedSheet env theme z ops path edits x s → zipDoc env z path = some d0 → Tidy d0 →
    ColumnsNamed d0 → NumberedRows d0 → s.x.toZip env now exts = .ok z' → ∃ d, zipDoc env z' path = some d ∧
      (∀ r, lastProps r edits = none → rowSaidAt d r = rowSaidAt d0 r) ∧
      ((∀ c p, SheetOp.column c p ∉ edits) → (colElements d).map colSaid = (colElements d0).map colSaid)

/-- Views of a sheet that was opened look as they did: panes, selections and settings, in any order. -/
def ViewsKept (env : Env) (theme : XDoc) : Prop :=
  ∀ z ops path edits x s now exts z' d0, (akeys z).Nodup → EditedSheet env theme z ops path edits x s → zipDoc env z path = some d0 → Tidy d0 →
    ColumnsNamed d0 → s.x.toZip env now exts = .ok z' → ∃ d, zipDoc env z' path = some d ∧
      ∀ v cs, (v, cs) ∈ (viewElements d0).map (fun n => (viewSaid n, n.children)) → (v, cs) ∈ (viewElements d).map (fun n => (viewSaid n, n.children))

/-! ### Sheets the library refuses to read -/

/-- In the workbook opened from the file the sheet stored in the part was asked for and the call failed; before, no call asked for it or for its relationship part.
Anything may follow. -/
def RefusedSheet (env : Env) (theme : XDoc) (z : Zip) (ops : List WbOp) (path : String) (x : Excel) (s : Session) : Prop :=
  ∃ ops0 name s0 e s1 ops1, ops = ops0 ++ .get name :: ops1 ∧ RanOn env theme z ops0 x s0 ∧ (∀ n, n = path ∨ IsRelsOf n path → NeverAsks env n ⟨x, []⟩ ops0) ∧
    StoredIn s0.x name path ∧ s0.step env (.get name) = (.error (.fail e), s1) ∧ s1.run env ops1 = .ok s

/-- Some row has no number, or some cell in it no reference; the format allows both. -/
def Unnumbered (x : XDoc) : Prop := ∃ n ∈ rowElements x, n.attr? "r" = none ∨ ∃ c ∈ n.children, c.attr? "r" = none

/-- A column as spreadsheet programs write it, with numbers of two bytes. -/
structure SoundCol (env : Env) (n : Node) : Prop where
  attrs : n.attrs ≠ none
  nums : ∀ k ∈ ["min", "max", "style", "outlineLevel"], ∀ v, n.attr? k = some v → ∃ i : Nat, v = toString i ∧ i ≤ 65535
  width : n.attr? "customWidth" = some "1" → ∃ v, n.attr? "width" = some v ∧ Canonical env v

/-- A sheet that could not be read shows the same cells in the saved file. -/
def RefusalHarmless (env : Env) (theme : XDoc) : Prop :=
  ∀ z ops path x s now exts z' d0, (akeys z).Nodup → RefusedSheet env theme z ops path x s → path ∉ ownParts x → zipDoc env z path = some d0 → Tidy d0 →
    s.x.toZip env now exts = .ok z' → ∃ d, zipDoc env z' path = some d ∧ (cellElements d).map shown = (cellElements d0).map shown

end Oxml.Spec
