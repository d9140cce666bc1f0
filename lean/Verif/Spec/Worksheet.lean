import Verif.Model.Worksheet
import Verif.Spec.Columns
import Verif.Spec.Reload
import Verif.Spec.Xml
/-!
# Vocabulary for statements about sheets
-/
namespace Oxml.Spec

/-- The cell at a row and column. -/
def cellAt (s : Sheet) (r c : Nat) : Option CellProps :=
  match s.data with
  | none => none
  | some d =>
    match aget r d with
    | none => none
    | some rd =>
      match rd.cells with
      | none => none
      | some cs => aget c cs

/-- The properties of a row; default for a row that does not exist. -/
def rowPropsAt (s : Sheet) (r : Nat) : RowProps :=
  match s.data with
  | none => {}
  | some d =>
    match aget r d with
    | none => {}
    | some rd => rd.props

/-- The maps of a sheet are sorted, as every Rust `BTreeMap` is. -/
def SortedSheet (s : Sheet) : Prop :=
  ∀ d, s.data = some d → SortedKeys d ∧ ∀ r rd cs, aget r d = some rd → rd.cells = some cs → SortedKeys cs

/-- What a user does to a sheet. -/
inductive SheetOp where
  | write (row col : Nat) (cells : List CellProps)
  | rowProps (row : Nat) (p : RowProps)
  | column (col : Nat) (p : Option ColProps)
deriving DecidableEq, Repr

/-- One operation on a sheet and the shared string table. -/
def SheetOp.run (b : Build) (st : Sheet × List String) : SheetOp → Res (Sheet × List String)
  | .write r c cells => st.1.setRow b st.2 r c cells
  | .rowProps r p => .ok (st.1.setRowProps r p, st.2)
  | .column c p => .ok (st.1.setColumn c p, st.2)

/-- A history, stopping at the first failure. -/
def SheetOp.runAll (b : Build) (st : Sheet × List String) : List SheetOp → Res (Sheet × List String)
  | [] => .ok st
  | op :: ops =>
    match op.run b st with
    | .error e => .error e
    | .ok st' => SheetOp.runAll b st' ops

/-- All cells written lie in columns 1 to 65535. -/
def SheetOp.InRange : SheetOp → Prop
  | .write _ col cells => 1 ≤ col ∧ col + cells.length ≤ 65536
  | _ => True

/-- What an operation writes to a cell. -/
def SheetOp.written (r c : Nat) : SheetOp → Option CellProps
  | .write row col cells => if r = row ∧ col ≤ c then cells[c - col]? else none
  | _ => none

/-- What the last operation writing to the cell wrote. -/
def lastWritten (r c : Nat) : List SheetOp → Option CellProps
  | [] => none
  | op :: ops =>
    match lastWritten r c ops with
    | some x => some x
    | none => op.written r c

/-- The properties last given to a row, if any. -/
def lastProps (r : Nat) : List SheetOp → Option RowProps
  | [] => none
  | op :: ops =>
    match lastProps r ops with
    | some x => some x
    | none =>
      match op with
      | .rowProps row p => if row = r then some p else none
      | _ => none

/-- A sign or nothing. -/
def SignText (s : List Char) : Prop := s = [] ∨ s = ['+'] ∨ s = ['-']

/-- Digits only. -/
def DigitText (s : List Char) : Prop := ∀ c ∈ s, '0' ≤ c ∧ c ≤ '9'

/-- An optional exponent. -/
def ExponentText (s : List Char) : Prop :=
  s = [] ∨ ∃ e sign ds, s = e :: (sign ++ ds) ∧ (e = 'e' ∨ e = 'E') ∧ SignText sign ∧ DigitText ds ∧ ds ≠ []

/-- The documented grammar of Rust float literals given to `parse`:
`Float ::= Sign? ( 'inf' | 'infinity' | 'nan' | Number )`, `Number ::= ( Digit+ | Digit+ '.' Digit* | Digit* '.' Digit+ ) Exp?`,
`Exp ::= 'e' Sign? Digit+`, letters in any case. -/
def FloatText (s : List Char) : Prop :=
  ∃ sign body, s = sign ++ body ∧ SignText sign ∧
    ((body.map asciiLower = "inf".toList ∨ body.map asciiLower = "infinity".toList ∨ body.map asciiLower = "nan".toList) ∨
      ∃ ip exp, DigitText ip ∧ ExponentText exp ∧
        ((body = ip ++ exp ∧ ip ≠ []) ∨ ∃ fp, DigitText fp ∧ body = ip ++ '.' :: (fp ++ exp) ∧ (ip ≠ [] ∨ fp ≠ [])))

/-- The text is the index of an entry of the table. -/
def IndexOf (table : List String) (text v : String) : Prop := ∃ i : Nat, text = toString i ∧ table[i]? = some v

/-- How a given cell is stored, relative to the shared string table. -/
def StoredAs (table : List String) (given stored : CellProps) : Prop :=
  stored.formula = given.formula ∧ stored.style = given.style ∧ stored.metadata = given.metadata ∧
  stored.commentId = given.commentId ∧ stored.placeHolder = given.placeHolder ∧ stored.hyperlink = given.hyperlink ∧
  match given.value with
  | none => stored.type = .number ∧ stored.value = none
  | some v =>
    match given.type with
    | .auto =>
      (FloatText v.toList ∧ stored.type = .number ∧ stored.value = some v) ∨
      (v = "true" ∧ stored.type = .boolean ∧ stored.value = some "1") ∨
      (v = "false" ∧ stored.type = .boolean ∧ stored.value = some "0") ∨
      (¬ FloatText v.toList ∧ v ≠ "true" ∧ v ≠ "false" ∧ stored.type = .shareString ∧ ∃ t, stored.value = some t ∧ IndexOf table t v)
    | .shareString => stored.type = .shareString ∧ ∃ t, stored.value = some t ∧ IndexOf table t v
    | .boolean =>
      stored.type = .boolean ∧
      stored.value = some (if v.toList.map asciiLower ∈ ["false".toList, "0".toList, []] then "0" else "1")
    | t => stored.type = t ∧ stored.value = some v

end Oxml.Spec

namespace Oxml.Spec

/-- The text of a cell reference: upper-case letters denoting the column, then the decimal row number. -/
def RefText (text : List Char) (row col : Nat) : Prop :=
  ∃ letters, text = letters ++ Nat.toDigits 10 row ∧ letters ≠ [] ∧ (∀ c ∈ letters, isUpperLetter c) ∧ columnValue letters = col

/-- The text of a rectangle. -/
def RangeText (text : String) (r1 c1 r2 c2 : Nat) : Prop :=
  ∃ a b, text.toList = a ++ ':' :: b ∧ RefText a r1 c1 ∧ RefText b r2 c2

/-- All cells lie in the rectangle. -/
def Covers (s : Sheet) (r1 c1 r2 c2 : Nat) : Prop :=
  ∀ r c x, cellAt s r c = some x → r1 ≤ r ∧ r ≤ r2 ∧ c1 ≤ c ∧ c ≤ c2

/-- The rectangle covers the cells and no smaller one does. -/
def Tight (s : Sheet) (r1 c1 r2 c2 : Nat) : Prop :=
  Covers s r1 c1 r2 c2 ∧ ∀ r1' c1' r2' c2', Covers s r1' c1' r2' c2' → r1' ≤ r1 ∧ c1' ≤ c1 ∧ r2 ≤ r2' ∧ c2 ≤ c2'

/-- The `ref` of every `dimension` element of a document. -/
def dimensions (x : XDoc) : List (Option String) :=
  (x.rootChildren.filter (fun n => n.tag = "dimension")).map (fun n => n.attr? "ref")

/-- Row elements by strictly increasing number, cells in each by strictly increasing column and with the number of
their row. -/
def Increasing (rows : List Node) : Prop :=
  ∃ nums : List Nat, nums.Pairwise (· < ·) ∧ nums.length = rows.length ∧ ∀ (i num : Nat) (row : Node), nums[i]? = some num → rows[i]? = some row →
    row.tag = "row" ∧ row.attr? "r" = some (toString num) ∧
    ∃ cols : List Nat, cols.Pairwise (· < ·) ∧ cols.length = row.children.length ∧
      ∀ (j col : Nat) (cell : Node), cols[j]? = some col → row.children[j]? = some cell →
        cell.tag = "c" ∧ ∃ text, cell.attr? "r" = some text ∧ RefText text.toList num col

/-- A sheet without content, as loaded from the worksheet template. -/
def emptySheet : Sheet := { dim := dimDefault, views := [{}], cols := none, data := some [] }

end Oxml.Spec

namespace Oxml.Spec

/-! ### What a saved sheet loads as -/

/-- Attribute text after saving and loading: the five special characters come back escaped. -/
def attrReload (v : String) : String := String.ofList (escape v.toList)

/-- A cell after saving and loading. -/
def reloadCell (c : CellProps) : CellProps :=
  { formula := if c.type = .inlineString then none else c.formula.bind reloadText,
    value := c.value.bind reloadText, type := c.type, hyperlink := none, style := c.style, metadata := c.metadata.map attrReload,
    commentId := c.commentId, placeHolder := c.placeHolder.map (fun _ => true) }

/-- Row properties after saving and loading. -/
def reloadRowProps (p : RowProps) : RowProps :=
  { height := p.height, style := p.style, hidden := p.hidden.map (fun _ => true), thickTop := p.thickTop.map (fun _ => true),
    thickBottom := p.thickBottom.map (fun _ => true), groupLevel := p.groupLevel.bind (fun g => if g > 0 then some g else none),
    collapsed := p.collapsed.map (fun _ => true), placeHolder := p.placeHolder.map (fun _ => true), span := p.span.map attrReload }

/-- Column properties after saving and loading. -/
def reloadCol (c : ColProps) : ColProps :=
  { min := c.min, max := c.max, width := c.width, hidden := c.hidden.map (fun _ => true), style := c.style,
    bestFit := c.bestFit.map (fun _ => true), groupLevel := 0, collapsed := none }

/-- A view after saving and loading. -/
def reloadView (v : View) : View :=
  { v with workbookViewId := attrReload v.workbookViewId, topLeftCell := v.topLeftCell.map attrReload, view := v.view.map attrReload }

/-- A row after saving and loading. -/
def reloadRow (rd : RowData) : RowData :=
  { props := reloadRowProps rd.props,
    cells := match rd.cells with
      | some (c :: cs) => some ((c :: cs).map (fun kv => (kv.1, reloadCell kv.2)))
      | _ => none }

/-- The columns range of the cells of a sheet, as recomputed at load. -/
def dimOfRows (d : SheetRows) : Nat × Nat :=
  d.foldl (fun acc kv => (kv.2.cells.getD []).foldl (fun acc c => dimAdd acc c.1) acc) dimDefault

/-- The sheet after saving and loading. -/
def reloadSheet (s : Sheet) : Sheet :=
  { dim := dimOfRows (s.data.getD []),
    views := {} :: s.views.reverse.map reloadView,
    cols := match s.cols with
      | some (c :: cs) => some ((c :: cs).map reloadCol)
      | _ => none,
    data := s.data.map (fun d => d.map (fun kv => (kv.1, reloadRow kv.2))) }

/-- A canonical `f32` text: printing the parsed value gives the text. -/
def Canonical (env : Env) (t : String) : Prop := FloatText t.toList ∧ env.show32 t = t

/-- Row properties fit their Rust types. -/
def RowPropsFit (env : Env) (p : RowProps) : Prop :=
  (∀ g, p.style = some g → g ≤ u32Max) ∧ (∀ g, p.groupLevel = some g → g ≤ u8Max) ∧ (∀ t, p.height = some t → Canonical env t)

/-- A cell fits its Rust types. -/
def CellFit (c : CellProps) : Prop := (∀ g, c.style = some g → g ≤ u32Max) ∧ (∀ g, c.commentId = some g → g ≤ usizeMax)

/-- A column range fits its Rust types. -/
def ColFit (env : Env) (c : ColProps) : Prop :=
  c.min ≤ u16Max ∧ c.max ≤ u16Max ∧ (∀ g, c.style = some g → g ≤ u32Max) ∧ (∀ t, c.width = some t → Canonical env t)

/-- A view fits its Rust types. -/
def ViewFit (v : View) : Prop :=
  ∀ z, (v.zoomScale = some z ∨ v.zoomScaleNormal = some z ∨ v.zoomScalePageLayout = some z ∨ v.zoomScaleSheetLayout = some z) →
    -32768 ≤ z ∧ z ≤ 32767

/-- A row fits its Rust types. -/
def RowFit (env : Env) (kv : Nat × RowData) : Prop :=
  kv.1 ≤ u32Max ∧ RowPropsFit env kv.2.props ∧ ∀ cs, kv.2.cells = some cs → ∀ c ∈ cs, c.1 ≤ u16Max ∧ CellFit c.2

/-- The values fit the Rust types of the fields. -/
structure FitsTypes (env : Env) (s : Sheet) : Prop where
  rows : ∀ d, s.data = some d → ∀ kv ∈ d, RowFit env kv
  cols : ∀ cs, s.cols = some cs → ∀ c ∈ cs, ColFit env c
  views : ∀ v ∈ s.views, ViewFit v

/-- The arguments of an operation fit their Rust types. -/
def SheetOp.Fits (env : Env) : SheetOp → Prop
  | .write row _ cells => row ≤ u32Max ∧ ∀ c ∈ cells, CellFit c
  | .rowProps row p => row ≤ u32Max ∧ RowPropsFit env p
  | .column col p => col ≤ u16Max ∧ ∀ c, p = some c → ColFit env c

/-- Printing a parsed `f32` gives a text that is parsed and printed the same way. -/
def PrintsF32 (env : Env) : Prop := ∀ t, FloatText t.toList → Canonical env (env.show32 t)

/-- The worksheet children the library rebuilds. -/
def managedTags : List String := ["dimension", "cols", "sheetViews", "sheetData"]

/-- The content of a cell: type, value, formula, style, metadata. -/
def coreOf (c : CellProps) : CellType × Option String × Option String × Option Nat × Option String :=
  (c.type, c.value, c.formula, c.style, c.metadata)

/-- The column ranges covering a column, without their bounds. -/
def columnAt (s : Sheet) (c : Nat) : List ColProps :=
  ((s.cols.getD []).filter (fun r => r.min ≤ c ∧ c ≤ r.max)).map (fun r => { r with min := 0, max := 0 })

/-- The children of `CT_Worksheet` in the order of the schema (ECMA-376 Part 1, 18.3.1.99). -/
def schemaOrder : List String :=
  ["sheetPr", "dimension", "sheetViews", "sheetFormatPr", "cols", "sheetData", "sheetCalcPr", "sheetProtection",
   "protectedRanges", "scenarios", "autoFilter", "sortState", "dataConsolidate", "customSheetViews", "mergeCells", "phoneticPr",
   "conditionalFormatting", "dataValidations", "hyperlinks", "printOptions", "pageMargins", "pageSetup", "headerFooter",
   "rowBreaks", "colBreaks", "customProperties", "cellWatches", "ignoredErrors", "smartTags", "drawing", "legacyDrawing",
   "legacyDrawingHF", "drawingHF", "picture", "oleObjects", "controls", "webPublishItems", "tableParts", "extLst"]

/-- Elements in schema order. -/
def InSchemaOrder (cs : List Node) : Prop := cs.Pairwise (fun a b => schemaOrder.idxOf a.tag ≤ schemaOrder.idxOf b.tag)

/-- The children the library does not manage. -/
def unmanaged (cs : List Node) : List Node := cs.filter (fun n => n.tag ∉ managedTags)

end Oxml.Spec
