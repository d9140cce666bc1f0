import Verif.Model.ShareString
import Verif.Model.Floats
import Verif.Model.Converters
/-!
# `rs/src/spreadsheet/spreadsheet_2007/parts/worksheet.rs`: the content of a sheet

File names, handles and the part life cycle are in `Model/Workbook.lean`.
-/
namespace Oxml

/-- `CellDataType` (`models/worksheet.rs:5-15`). -/
inductive CellType where
  | auto | number | boolean | string | shareString | inlineString | error
deriving DecidableEq, Repr

/-- `CellDataType::get_string` (`models/worksheet.rs:17-27`). -/
def CellType.text : CellType → String
  | .boolean => "b"
  | .string => "str"
  | .shareString => "s"
  | .inlineString => "inlineStr"
  | .error => "e"
  | .number => "n"
  | .auto => "a"

/-- `CellDataType::get_enum` (`models/worksheet.rs:28-38`). -/
def CellType.parse (s : String) : CellType :=
  if s = "a" then .auto
  else if s = "b" then .boolean
  else if s = "str" then .string
  else if s = "s" then .shareString
  else if s = "inlineStr" then .inlineString
  else if s = "e" then .error
  else .number

/-- `RowProperties` (`models/worksheet.rs:41-56`). An `f32` is its printed text, a `StyleId` its number. -/
structure RowProps where
  height : Option String := none
  style : Option Nat := none
  hidden : Option Bool := none
  thickTop : Option Bool := none
  thickBottom : Option Bool := none
  groupLevel : Option Nat := none
  collapsed : Option Bool := none
  placeHolder : Option Bool := none
  span : Option String := none
deriving DecidableEq, Repr

/-- `ColumnProperties` (`models/worksheet.rs:58-91`). -/
structure ColProps where
  min : Nat := 1
  max : Nat := 1
  width : Option String := none
  hidden : Option Bool := none
  style : Option Nat := none
  bestFit : Option Bool := none
  groupLevel : Nat := 0
  collapsed : Option Bool := none
deriving DecidableEq, Repr

/-- `CellProperties` (`models/worksheet.rs:93-119`). `HyperlinkProperties` has no fields (`common_properties.rs:33`). -/
structure CellProps where
  formula : Option String := none
  value : Option String := none
  type : CellType := .auto
  hyperlink : Option Unit := none
  style : Option Nat := none
  metadata : Option String := none
  commentId : Option Nat := none
  placeHolder : Option Bool := none
deriving DecidableEq, Repr

/-- `RowData` (`worksheet.rs:24-28`). -/
structure RowData where
  props : RowProps := {}
  cells : Option (List (Nat × CellProps)) := none
deriving DecidableEq, Repr

/-- `WorkSheetView` (`worksheet.rs:53-74`) without the selections, which are never filled. -/
structure View where
  workbookViewId : String := "0"
  defaultGridColor : Option Bool := none
  rightToLeft : Option Bool := none
  showFormulas : Option Bool := none
  showGridLines : Option Bool := none
  showOutlineSymbols : Option Bool := none
  showRowColHeaders : Option Bool := none
  showRuler : Option Bool := none
  showWhiteSpace : Option Bool := none
  showZeros : Option Bool := none
  tabSelected : Option Bool := none
  topLeftCell : Option String := none
  view : Option String := none
  windowProtection : Option Bool := none
  zoomScale : Option Int := none
  zoomScaleNormal : Option Int := none
  zoomScalePageLayout : Option Int := none
  zoomScaleSheetLayout : Option Int := none
deriving DecidableEq, Repr

/-- `BTreeMap<u32, RowData>` (`worksheet.rs:128`). -/
abbrev SheetRows := List (Nat × RowData)

/-- The content fields of `WorkSheet` (`worksheet.rs:116-135`). `dim` is (start_col, end_col). -/
structure Sheet where
  dim : Nat × Nat
  views : List View
  cols : Option (List ColProps)
  data : Option SheetRows
deriving DecidableEq, Repr

/-- `Dimension::default` (`worksheet.rs:36-43`). -/
def dimDefault : Nat × Nat := (16384, 1)

/-- The update of the dimension by one column (`worksheet.rs:1284-1285`). -/
def dimAdd (d : Nat × Nat) (col : Nat) : Nat × Nat := (min d.1 col, max d.2 col)

/-- `BTreeMap::extend`. -/
def extendMap {V : Type} (m : List (Nat × V)) (kvs : List (Nat × V)) : List (Nat × V) := kvs.foldl (fun m kv => sinsert kv.1 kv.2 m) m

/-- The attributes present, from a table of optional values. -/
def present (tbl : List (String × Option String)) : Attrs := tbl.filterMap (fun kv => kv.2.map (fun v => (kv.1, v)))

/-! ## Writing cells -/

/-- `to_lowercase` compared with `false`, `0` and the empty text (`worksheet.rs:1264-1269`). No character above ASCII is
lowercased to a letter of `false`. -/
def falseText (s : String) : Bool :=
  s.toList.map asciiLower = "false".toList || s.toList = "0".toList || s.toList = []

/-- Typing of one cell (`worksheet.rs:1244-1274`): the stored cell and the shared string table. -/
def typeCell (table : List String) (c : CellProps) : CellProps × List String :=
  match c.value with
  | none => ({ c with type := .number }, table)
  | some v =>
    match c.type with
    | .auto =>
      if isFloatText v then ({ c with type := .number }, table)
      else
        match parseBool v with
        | some true => ({ c with type := .boolean, value := some "1" }, table)
        | some false => ({ c with type := .boolean, value := some "0" }, table)
        | none => ({ c with type := .shareString, value := some (getStringId table v).2 }, (getStringId table v).1)
    | .shareString => ({ c with value := some (getStringId table v).2 }, (getStringId table v).1)
    | .boolean => ({ c with value := some (if falseText v then "0" else "1") }, table)
    | _ => (c, table)

/-- The loop over the cells (`worksheet.rs:1243-1275`). -/
def typeCells (table : List String) : List CellProps → List CellProps × List String
  | [] => ([], table)
  | c :: cs =>
    ((typeCell table c).1 :: (typeCells (typeCell table c).2 cs).1, (typeCells (typeCell table c).2 cs).2)

/-- Columns given to the cells (`worksheet.rs:1282-1287`): `col` is the number before the first one. -/
def placeCells (b : Build) : Nat → List CellProps → Res (List (Nat × CellProps))
  | _, [] => .ok []
  | col, c :: cs =>
    match addU16 b col 1 with
    | .error e => .error e
    | .ok col' =>
      match placeCells b col' cs with
      | .error e => .error e
      | .ok rest => .ok ((col', c) :: rest)

/-- The rows after writing placed cells into a row (`worksheet.rs:1276-1334`). -/
def putCells (data : Option SheetRows) (row : Nat) (placed : List (Nat × CellProps)) : SheetRows :=
  match data with
  | none => [(row, { props := {}, cells := some (extendMap [] placed) })]
  | some d =>
    match aget row d with
    | none => sinsert row { props := {}, cells := some (extendMap [] placed) } d
    | some rd => sinsert row { rd with cells := some (extendMap (rd.cells.getD []) placed) } d

/-- `set_row_value_index_mut` (`worksheet.rs:1235-1336`) with the shared string table of the workbook. -/
def Sheet.setRow (b : Build) (s : Sheet) (table : List String) (row col : Nat) (cells : List CellProps) : Res (Sheet × List String) :=
  match subU16 b col 1 with
  | .error e => .error e
  | .ok c0 =>
    match placeCells b c0 (typeCells table cells).1 with
    | .error e => .error e
    | .ok placed =>
      .ok ({ s with data := some (putCells s.data row placed), dim := placed.foldl (fun d kv => dimAdd d kv.1) s.dim },
        (typeCells table cells).2)

/-- `set_row_value_ref_mut` (`worksheet.rs:1224-1232`). -/
def Sheet.setRowRef (b : Build) (u : Unicode) (s : Sheet) (table : List String) (ref : String) (cells : List CellProps) :
    Res (Sheet × List String) :=
  match getCellIndex b u ref with
  | .error e => .error e
  | .ok (r, c) => s.setRow b table r c cells

/-- `set_row_index_properties_mut` (`worksheet.rs:1192-1221`). -/
def Sheet.setRowProps (s : Sheet) (row : Nat) (p : RowProps) : Sheet :=
  { s with data := some (match s.data with
      | none => [(row, { props := p, cells := none })]
      | some d =>
        match aget row d with
        | none => sinsert row { props := p, cells := none } d
        | some rd => sinsert row { rd with props := p } d) }

/-! ## Columns -/

/-- What remains of a range without the column (`worksheet.rs:1155-1178`): the part kept in place and the parts appended
at the end. -/
def splitCol (col : Nat) (r : ColProps) : List ColProps × List ColProps :=
  if r.min = col ∧ r.max = col then ([], [])
  else if r.min ≤ col ∧ col ≤ r.max then
    if r.min = col then ([{ r with min := col + 1 }], [])
    else if r.max = col then ([{ r with max := col - 1 }], [])
    else ([{ r with max := col - 1 }], [{ min := col + 1, max := r.max }])
  else ([r], [])

/-- `set_column_index_properties_mut` (`worksheet.rs:1147-1189`). -/
def Sheet.setColumn (s : Sheet) (col : Nat) (p : Option ColProps) : Sheet :=
  match s.cols with
  | none => s
  | some cs =>
    { s with cols := some (cs.flatMap (fun r => (splitCol col r).1) ++
        (match p with | none => [] | some p => [{ p with min := col, max := col }]) ++
        cs.flatMap (fun r => (splitCol col r).2)) }

/-- `set_column_ref_properties_mut` (`worksheet.rs:1136-1144`). -/
def Sheet.setColumnRef (b : Build) (u : Unicode) (s : Sheet) (ref : String) (p : Option ColProps) : Res Sheet :=
  match getColumnIndex b u ref with
  | .error e => .error e
  | .ok c => .ok (s.setColumn c p)

/-! ## Saving -/

/-- First and last row (`first_key_value`, `last_key_value`). -/
def rowBounds (d : SheetRows) : Option (Nat × Nat) :=
  match d.head?, d.getLast? with
  | some a, some b => some (a.1, b.1)
  | _, _ => none

/-- The reference of `serialize_dimension` (`worksheet.rs:304-346`). -/
def Sheet.dimensionRef (s : Sheet) : Res String :=
  match s.data.bind rowBounds with
  | none => .ok "A1"
  | some (r1, r2) =>
    match getColumnRef s.dim.1, getColumnRef s.dim.2 with
    | .ok a, .ok b => .ok (a ++ toString r1 ++ ":" ++ b ++ toString r2)
    | .error e, _ => .error e
    | _, .error e => .error e

/-- One `col` element (`worksheet.rs:357-377`): `group_level` and `collapsed` are not written. -/
def colTable (c : ColProps) : List (String × Option String) :=
  [("min", some (toString c.min)), ("max", some (toString c.max)), ("customWidth", c.width.map (fun _ => "1")), ("width", c.width),
   ("style", c.style.map toString), ("hidden", c.hidden.map (fun _ => "1")), ("bestFit", c.bestFit.map (fun _ => "1"))]

def colNode (c : ColProps) : Node := .mk "col" (some (present (colTable c))) none []

/-- Attributes of one `sheetView` element (`worksheet.rs:394-485`). -/
def viewTable (v : View) : List (String × Option String) :=
  [("workbookViewId", some v.workbookViewId), ("windowProtection", v.windowProtection.map boolXmlFlag),
   ("showFormulas", v.showFormulas.map boolXmlFlag), ("showGridLines", v.showGridLines.map boolXmlFlag),
   ("showRowColHeaders", v.showRowColHeaders.map boolXmlFlag), ("showZeros", v.showZeros.map boolXmlFlag),
   ("rightToLeft", v.rightToLeft.map boolXmlFlag), ("tabSelected", v.tabSelected.map boolXmlFlag),
   ("showRuler", v.showRuler.map boolXmlFlag), ("showWhiteSpace", v.showWhiteSpace.map boolXmlFlag),
   ("showOutlineSymbols", v.showOutlineSymbols.map boolXmlFlag), ("defaultGridColor", v.defaultGridColor.map boolXmlFlag),
   ("topLeftCell", v.topLeftCell), ("view", v.view), ("zoomScale", v.zoomScale.map toString),
   ("zoomScaleNormal", v.zoomScaleNormal.map toString), ("zoomScaleSheetLayoutView", v.zoomScaleSheetLayout.map toString),
   ("zoomScalePageLayoutView", v.zoomScalePageLayout.map toString)]

def viewNode (v : View) : Node := .mk "sheetView" (some (present (viewTable v))) none []

/-- Attributes of one `row` element (`worksheet.rs:510-539`). -/
def rowTable (r : Nat) (p : RowProps) : List (String × Option String) :=
  [("r", some (toString r)), ("spans", p.span), ("customFormat", p.style.map (fun _ => "1")), ("s", p.style.map toString),
   ("customHeight", p.height.map (fun _ => "1")), ("ht", p.height), ("hidden", p.hidden.map (fun _ => "1")),
   ("outlineLevel", p.groupLevel.map toString), ("collapsed", p.collapsed.map (fun _ => "1")),
   ("thickTop", p.thickTop.map (fun _ => "1")), ("thickBot", p.thickBottom.map (fun _ => "1")),
   ("ph", p.placeHolder.map (fun _ => "1"))]

/-- Attributes of one `c` element (`worksheet.rs:550-580`). -/
def cellTable (ref : String) (c : CellProps) : List (String × Option String) :=
  [("r", some ref), ("s", c.style.map toString), ("t", if c.type ≠ .number then some c.type.text else none),
   ("cm", c.commentId.map toString), ("vm", c.metadata), ("ph", c.placeHolder.map (fun _ => "1"))]

/-- Children of one `c` element (`worksheet.rs:582-615`). -/
def cellChildren (c : CellProps) : List Node :=
  match c.type with
  | .inlineString => [.mk "is" none none [.mk "t" none (some (c.value.getD "")) []]]
  | _ =>
    (match c.formula with
      | none => []
      | some f => [.mk "f" none (some f) []]) ++ [.mk "v" none (some (c.value.getD "")) []]

/-- One cell of `serialize_sheet_data` (`worksheet.rs:544-616`). -/
def cellNode (row : Nat) (kv : Nat × CellProps) : Res Node :=
  match getColumnRef kv.1 with
  | .error e => .error e
  | .ok ref => .ok (.mk "c" (some (present (cellTable (ref ++ toString row) kv.2))) none (cellChildren kv.2))

/-- One row of `serialize_sheet_data` (`worksheet.rs:504-618`). -/
def rowNode (kv : Nat × RowData) : Res Node :=
  match mapRes (cellNode kv.1) (kv.2.cells.getD []) with
  | .error e => .error e
  | .ok cs => .ok (.mk "row" (some (present (rowTable kv.1 kv.2.props))) none cs)

/-- Child order of a worksheet (`order_dictionary.rs:12-25`). -/
def worksheetOrder : List String :=
  ["sheetPr", "dimension", "sheetViews", "sheetFormatPr", "cols", "sheetData", "sheetCalcPr", "protectedRanges", "scenarios",
   "autoFilter", "sortState", "dataConsolidate", "customSheetViews", "mergeCells", "phoneticPr", "conditionalFormatting",
   "dataValidations", "hyperlinks", "printOptions", "pageMargins", "pageSetup", "headerFooter", "rowBreaks", "colBreaks",
   "customProperties", "cellWatches", "ignoredErrors", "smartTags", "drawing", "drawingHF", "picture", "oleObjects", "controls",
   "webPublishItems", "tableParts", "extLst"]

/-- The root's children after `serialize_dimension`, `serialize_cols`, `serialize_sheet_views`, `serialize_sheet_data` and
`order_child_mut` (`worksheet.rs:174-195`), from the serialised pieces. -/
def placeSheetParts (dimRef : String) (cols : Option (List ColProps)) (views : List View) (rows : Option (List Node))
    (cs : List Node) : List Node :=
  let cs := cs ++ [.mk "dimension" (some [("ref", dimRef)]) none []]
  let cs := match cols with
    | some (c :: rest) => insertNodeAfter (.mk "cols" none none ((c :: rest).map colNode)) "sheetFormatPr" cs
    | _ => cs
  let cs := insertNodeAfter (.mk "sheetViews" none none (views.reverse.map viewNode)) "dimension" cs
  let cs := match rows with
    | some ns => insertNodeAfter (.mk "sheetData" none none ns) "cols" cs
    | none => cs
  orderChildren Node.tag worksheetOrder cs

/-- The document part of `close_document` (`worksheet.rs:174-195`). Every failure happens before the document is changed: a
column 0 among the cells is also the start column of the dimension (`Props/Worksheet.lean`), and a missing root is met
by the first insertion. -/
def Sheet.save (s : Sheet) (x : XDoc) : Res XDoc :=
  match s.dimensionRef with
  | .error e => .error e
  | .ok ref =>
    match x.root with
    | none => .error (.fail "Parent Element Not Found")
    | some _ =>
      match s.data with
      | none => .ok (x.mapRootChildren (placeSheetParts ref s.cols s.views none))
      | some d =>
        match mapRes rowNode d with
        | .error e => .error e
        | .ok ns => .ok (x.mapRootChildren (placeSheetParts ref s.cols s.views (some ns)))

/-- What is left in the struct after `close_document`: the collections were taken out (`worksheet.rs:349`, `393`, `499`). -/
def Sheet.drained (s : Sheet) : Sheet := { s with cols := none, views := [], data := none }

/-! ## Loading -/

/-- An optional attribute that must parse when present. -/
def parseOpt {α : Type} (parse : String → Option α) : Option String → Res (Option α)
  | none => .ok none
  | some s =>
    match parse s with
    | none => .error (.fail "Failed to parse attribute")
    | some v => .ok (some v)

/-- An attribute that counts only with the value `1`. -/
def flag1 (v : Option String) : Option Bool := if v = some "1" then some true else none

/-- One column (`worksheet.rs:634-677`). -/
def loadCol (env : Env) (n : Node) : Res ColProps :=
  match n.attrs with
  | none => .error (.fail "Error Getting col attribute")
  | some a =>
    match parseOpt (parseUInt u16Max) (aget "min" a), parseOpt (parseUInt u16Max) (aget "max" a),
      parseOpt (parseUInt u32Max) (aget "style" a), parseOpt (parseUInt usizeMax) (aget "outlineLevel" a),
      (if aget "customWidth" a = some "1" then
        match aget "width" a with
        | none => .error (.fail "Failed to get custom width")
        | some w => parseOpt (parseF32 env.show32) (some w)
      else (.ok none : Res (Option String))) with
    | .ok mn, .ok mx, .ok st, .ok gl, .ok w =>
      .ok { min := mn.getD 1, max := mx.getD 1, width := w, hidden := flag1 (aget "hidden" a), style := st,
            bestFit := flag1 (aget "bestFit" a), groupLevel := gl.getD 0, collapsed := flag1 (aget "collapsed" a) }
    | _, _, _, _, _ => .error (.fail "Failed to parse col")

/-- `deserialize_cols` (`worksheet.rs:624-687`): the last `cols` element counts. -/
def loadCols (env : Env) (x : XDoc) : Res (Option (List ColProps)) × XDoc :=
  (match (x.popTag "cols").1.getLast? with
    | none => .ok none
    | some n =>
      match mapRes (loadCol env) n.children with
      | .error e => .error e
      | .ok cs => .ok (some cs), (x.popTag "cols").2)

/-- One `sheetView` (`worksheet.rs:698-822`). -/
def loadView (n : Node) : Res View :=
  if n.tag ≠ "sheetView" then .error (.fail "Failed to Process Sheet Views child")
  else
    match n.attrs with
    | none => .error (.fail "Failed to Get Attributes of Sheet View")
    | some a =>
      match aget "workbookViewId" a with
      | none => .error (.fail "Mandatory attribute \"workbookViewId\" is missing from sheetView")
      | some id =>
        match parseOpt parseI16 (aget "zoomScale" a), parseOpt parseI16 (aget "zoomScaleNormal" a),
          parseOpt parseI16 (aget "zoomScaleSheetLayoutView" a), parseOpt parseI16 (aget "zoomScalePageLayoutView" a) with
        | .ok z1, .ok z2, .ok z3, .ok z4 =>
          .ok { workbookViewId := id, defaultGridColor := (aget "defaultGridColor" a).map normalizeBool,
                rightToLeft := (aget "rightToLeft" a).map normalizeBool, showFormulas := (aget "showFormulas" a).map normalizeBool,
                showGridLines := (aget "showGridLines" a).map normalizeBool,
                showOutlineSymbols := (aget "showOutlineSymbols" a).map normalizeBool,
                showRowColHeaders := (aget "showRowColHeaders" a).map normalizeBool, showRuler := (aget "showRuler" a).map normalizeBool,
                showWhiteSpace := (aget "showWhiteSpace" a).map normalizeBool, showZeros := (aget "showZeros" a).map normalizeBool,
                tabSelected := (aget "tabSelected" a).map normalizeBool, topLeftCell := aget "topLeftCell" a, view := aget "view" a,
                windowProtection := (aget "windowProtection" a).map normalizeBool, zoomScale := z1, zoomScaleNormal := z2,
                zoomScalePageLayout := z4, zoomScaleSheetLayout := z3 }
        | _, _, _, _ => .error (.fail "Failed to Convert Zoom Normal to i16")

/-- `deserialize_worksheet_views` (`worksheet.rs:690-830`): a default view, then those of the last `sheetViews` element. -/
def loadViews (x : XDoc) : Res (List View) × XDoc :=
  (match (x.popTag "sheetViews").1.getLast? with
    | none => .ok [{}]
    | some n =>
      match mapRes loadView n.children with
      | .error e => .error e
      | .ok vs => .ok ({} :: vs), (x.popTag "sheetViews").2)

/-- One child of a cell (`worksheet.rs:962-1001`). -/
def loadCellChild (c : CellProps) (n : Node) : Res CellProps :=
  if n.tag = "v" then .ok { c with value := n.value }
  else if n.tag = "f" then .ok { c with formula := n.value }
  else if n.tag = "is" then
    .ok (match n.children.head? with
      | none => c
      | some t => { c with value := t.value })
  else .error (.fail "Found un-know element cell child")

/-- The loop over the children of a cell. -/
def loadCellChildren (c : CellProps) : List Node → Res CellProps
  | [] => .ok c
  | n :: ns =>
    match loadCellChild c n with
    | .error e => .error e
    | .ok c' => loadCellChildren c' ns

/-- A cell before its children are read (`worksheet.rs:930-961`). -/
def cellOfAttrs (a : Attrs) (style commentId : Option Nat) : CellProps :=
  { formula := none, value := none, type := ((aget "t" a).map CellType.parse).getD .number, hyperlink := none, style := style,
    metadata := aget "vm" a, commentId := commentId, placeHolder := flag1 (aget "ph" a) }

/-- One cell (`worksheet.rs:915-1005`): column and content. -/
def loadCell (env : Env) (n : Node) : Res (Nat × CellProps) :=
  match n.attrs with
  | none => .error (.fail "Failed to pull attribute for Column")
  | some a =>
    match aget "r" a with
    | none => .error (.fail "Missing mandatory col id attribute")
    | some ref =>
      match getColumnIndex env.build env.uni ref with
      | .error e => .error e
      | .ok col =>
        match parseOpt (parseUInt u32Max) (aget "s" a), parseOpt (parseUInt usizeMax) (aget "cm" a) with
        | .ok st, .ok cm =>
          match loadCellChildren (cellOfAttrs a st cm) n.children with
          | .error e => .error e
          | .ok c => .ok (col, c)
        | _, _ => .error (.fail "Failed to parse the col style id")

/-- The properties of one row (`worksheet.rs:854-911`). -/
def loadRowProps (env : Env) (a : Attrs) : Res RowProps :=
  match parseOpt (parseUInt u32Max) (if aget "customFormat" a = some "1" then aget "s" a else none),
    parseOpt (parseF32 env.show32) (if aget "customHeight" a = some "1" then aget "ht" a else none),
    parseOpt (parseUInt u8Max) (aget "outlineLevel" a) with
  | .ok st, .ok ht, .ok gl =>
    .ok { height := ht, style := st, hidden := flag1 (aget "hidden" a), thickTop := flag1 (aget "thickTop" a),
          thickBottom := flag1 (aget "thickBot" a), groupLevel := gl.bind (fun g => if g > 0 then some g else none),
          collapsed := flag1 (aget "collapsed" a), placeHolder := flag1 (aget "ph" a), span := aget "spans" a }
  | _, _, _ => .error (.fail "Failed to parse the row")

/-- One row (`worksheet.rs:842-1021`): number, properties and cells in document order. -/
def loadRow (env : Env) (n : Node) : Res (Nat × RowProps × List (Nat × CellProps)) :=
  match n.attrs with
  | none => .error (.fail "Failed to pull Row Attribute.")
  | some a =>
    match aget "r" a with
    | none => .error (.fail "Missing mandatory row id attribute")
    | some r =>
      match parseUInt u32Max r with
      | none => .error (.fail "Failed to parse row id")
      | some row =>
        match loadRowProps env a with
        | .error e => .error e
        | .ok p =>
          match mapRes (loadCell env) n.children with
          | .error e => .error e
          | .ok cs => .ok (row, p, cs)

/-- The row as stored (`worksheet.rs:1010-1020`). -/
def rowDataOf (p : RowProps) (cells : List (Nat × CellProps)) : RowData :=
  { props := p, cells := if (extendMap [] cells).length > 0 then some (extendMap [] cells) else none }

/-- `deserialize_sheet_data` (`worksheet.rs:833-1030`): the last `sheetData` element counts. -/
def loadData (env : Env) (x : XDoc) : Res (Option SheetRows × (Nat × Nat)) × XDoc :=
  (match (x.popTag "sheetData").1.getLast? with
    | none => .ok (none, dimDefault)
    | some n =>
      match mapRes (loadRow env) n.children with
      | .error e => .error e
      | .ok rows =>
        .ok (some (extendMap [] (rows.map (fun r => (r.1, rowDataOf r.2.1 r.2.2)))),
          rows.foldl (fun d r => r.2.2.foldl (fun d kv => dimAdd d kv.1) d) dimDefault), (x.popTag "sheetData").2)

/-- `initialize_worksheet` (`worksheet.rs:261-302`): the sheet and the document without the managed elements. -/
def Sheet.load (env : Env) (x : XDoc) : Res Sheet × XDoc :=
  let x1 := (x.popTag "dimension").2
  match loadCols env x1 with
  | (.error e, x2) => (.error e, x2)
  | (.ok cols, x2) =>
    match loadData env x2 with
    | (.error e, x3) => (.error e, x3)
    | (.ok (data, dim), x3) =>
      match loadViews x3 with
      | (.error e, x4) => (.error e, x4)
      | (.ok views, x4) => (.ok { dim := dim, views := views, cols := cols, data := data }, x4)

/-- The document read from the template text (`worksheet.rs:148-152`); `Props/Templates.lean` checks the text. -/
def worksheetDoc : XDoc :=
  { ns := [(defaultNsKey, mainNs), ("r", "http://schemas.openxmlformats.org/officeDocument/2006/relationships")],
    root := some (.mk "worksheet" (some []) none [.mk "sheetData" (some []) none []]) }

/-- `initialize_content_xml` (`worksheet.rs:145-163`). -/
def worksheetTemplate : Template :=
  { doc := worksheetDoc, ctype := some worksheetContent.ctype, ext := worksheetContent.ext, extType := worksheetContent.extType }

end Oxml
