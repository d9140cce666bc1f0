import Verif.Model.Workbook
import Verif.Model.XmlEdits
/-!
# The parts as programs over the arena

The models of the parts (`ShareString.lean`, `Relations.lean`, `Worksheet.lean`, `Workbook.lean`, `Style.lean`, ...) work
on document values. Here the same functions are written as the sequences of arena calls the code makes, in the
order in which it makes them. `Props/PartArena.lean` proves that both say the same.

What a part does with the attributes and the text of one element is taken over from those models through `Elem.bare`;
which elements are taken out, created and changed, by which id, is written out.
-/
namespace Oxml

/-- The data held by an element itself: tag, attributes and text (`get_tag`, `get_attribute`, `get_value`,
`xml_tree.rs:401-432`). -/
def Elem.bare (e : Elem) : Node := .mk e.tag e.attrs e.value []

/-- A loop over an element taken out before: `loop { if let Some((id, tag)) = e.pop_child_mut() { .. pop_element_mut(&id) ..
} else { break } }` (`worksheet.rs:629-684`, `style.rs:180-202`, ...). `pop_child_mut` (`xml_tree.rs:449-456`) takes the
children in order. `check` is a test on the tag before the element is taken; `missing` is the error for an id that
is not stored, `none` if the code skips it. -/
def drain {σ : Type} (check : String → Option Err) (missing : Option Err) (body : σ → Elem → XmlDoc → Res σ × XmlDoc) :
    List Child → σ → XmlDoc → Res σ × XmlDoc
  | [], s, d => (.ok s, d)
  | c :: cs, s, d =>
    match check c.tag with
    | some er => (.error er, d)
    | none =>
      match d.popElement c.id with
      | (d1, none) =>
        match missing with
        | some er => (.error er, d1)
        | none => drain check missing body cs s d1
      | (d1, some e) =>
        match body s e d1 with
        | (.error er, d2) => (.error er, d2)
        | (.ok s', d2) => drain check missing body cs s' d2

/-- No test before an element is taken. -/
def noCheck (_ : String) : Option Err := none

/-- `if let Some((id, _)) = e.pop_child_mut() { if let Some(x) = doc.pop_element_mut(&id) { .. } }` (`share_string.rs:178-179`,
`style.rs:329-332`, ...). -/
def popFirst (e : Elem) (d : XmlDoc) : Option Elem × XmlDoc :=
  match e.children with
  | [] => (none, d)
  | c :: _ => ((d.popElement c.id).2, (d.popElement c.id).1)

/-- `for element in elements { .. }` over elements taken out before. -/
def eachElem {σ : Type} (body : σ → Elem → XmlDoc → Res σ × XmlDoc) : List Elem → σ → XmlDoc → Res σ × XmlDoc
  | [], s, d => (.ok s, d)
  | e :: es, s, d =>
    match body s e d with
    | (.error er, d1) => (.error er, d1)
    | (.ok s', d1) => eachElem body es s' d1

/-- `if let Some(elements) = doc.pop_elements_by_tag_mut(tag, None) { for element in elements { .. } }`. -/
def popEach {σ : Type} (tag : String) (body : σ → Elem → XmlDoc → Res σ × XmlDoc) (s : σ) (d : XmlDoc) : Res σ × XmlDoc :=
  match d.popByTag tag 0 with
  | (d1, none) => (.ok s, d1)
  | (d1, some es) => eachElem body es s d1

/-- `if let Some(mut elements) = doc.pop_elements_by_tag_mut(tag, None) { if let Some(e) = elements.pop() { .. } }`: the
last one is looked at. -/
def popLast {σ : Type} (tag : String) (body : Elem → XmlDoc → Res σ × XmlDoc) (s : σ) (d : XmlDoc) : Res σ × XmlDoc :=
  match d.popByTag tag 0 with
  | (d1, none) => (.ok s, d1)
  | (d1, some es) =>
    match es.getLast? with
    | none => (.ok s, d1)
    | some e => body e d1

/-- A body that looks at one element only. -/
def looks {σ : Type} (f : σ → Node → Res σ) (s : σ) (e : Elem) (d : XmlDoc) : Res σ × XmlDoc := (f s e.bare, d)

/-- `v.push(..)` of a result. -/
def pushRes {α : Type} (acc : List α) : Res α → Res (List α)
  | .error e => .error e
  | .ok a => .ok (acc ++ [a])

/-- `v.push(..)` of an optional result. -/
def pushOpt {α : Type} (acc : List α) : Res (Option α) → Res (List α)
  | .error e => .error e
  | .ok none => .ok acc
  | .ok (some a) => .ok (acc ++ [a])

/-! ## Shared strings and calculation chain -/

/-- One `si` (`share_string.rs:176-184`). -/
def arenaString (acc : List String) (e : Elem) (d : XmlDoc) : Res (List String) × XmlDoc :=
  match popFirst e d with
  | (none, d1) => (.ok acc, d1)
  | (some t, d1) => (.ok (acc ++ [t.value.getD ""]), d1)

/-- `load_content_to_database` (`share_string.rs:168-188`). -/
def arenaLoadStrings (d : XmlDoc) : Res (List String) × XmlDoc := popEach "si" arenaString [] d

/-- One `si` with its `t` (`share_string.rs:63-70`). -/
def arenaSaveString (u : Unicode) (d : XmlDoc) (s : String) : Res XmlDoc := do
  let (d, si) ← d.appendChild u "si" 0
  let (d, t) ← d.appendChild u "t" si
  d.setValue t s

/-- The document changes of `close_document` (`share_string.rs:45-71`): `get_root_mut`, `get_attribute_mut`, then one `si`
with one `t` per string. -/
def arenaSaveStrings (u : Unicode) (d : XmlDoc) (table : List String) : Res XmlDoc :=
  let d1 := d.updateAttribute u 0 "count" (toString table.length)
  let d2 := d1.updateAttribute u 0 "uniqueCount" (toString (distinctCount table))
  table.foldlM (arenaSaveString u) d2

/-- One `c` of the calculation chain (`calculation_chain.rs:149-158`). -/
def calcItem (acc : List CalcEntry) (n : Node) : Res (List CalcEntry) :=
  match n.attrs with
  | none => .ok acc
  | some a =>
    match aget "r" a, aget "i" a with
    | some r, some i => .ok (acc ++ [(r, i, aget "l" a)])
    | _, _ => .error (.panic "no entry found for key")

/-- `load_content_to_database` of the calculation chain (`calculation_chain.rs:141-162`). -/
def arenaLoadCalc (d : XmlDoc) : Res (List CalcEntry) × XmlDoc := popEach "c" (looks calcItem) [] d

/-- One `c` (`calculation_chain.rs:40-48`). -/
def arenaSaveEntry (u : Unicode) (d : XmlDoc) (e : CalcEntry) : Res XmlDoc := do
  let (d, c) ← d.appendChild u "c" 0
  d.setAttribute u c [("r", e.1), ("i", e.2.1)]

/-- The document changes of `close_document` (`calculation_chain.rs:36-49`). -/
def arenaSaveCalc (u : Unicode) (d : XmlDoc) (chain : List CalcEntry) : Res XmlDoc := chain.foldlM (arenaSaveEntry u) d

/-! ## Relationships, content types, core properties -/

/-- `v.push(..)` of what is made from one element. -/
def pushOf {α : Type} (f : Node → Res α) (acc : List α) (n : Node) : Res (List α) := pushRes acc (f n)

/-- `load_relations` (`relations.rs:93-127`). -/
def arenaLoadRels (d : XmlDoc) : Res (List Rel) × XmlDoc := popEach "Relationship" (looks (pushOf loadRel)) [] d

/-- One `Relationship` (`relations.rs:231-243`). -/
def arenaSaveRel (u : Unicode) (d : XmlDoc) (r : Rel) : Res XmlDoc := do
  let (d, c) ← d.appendChild u "Relationship" 0
  d.setAttribute u c ([("Id", r.id), ("Target", r.target), ("Type", r.type)] ++
    (match r.mode with | none => [] | some m => [("TargetMode", m)]))

/-- `save_relationship_to_doc` (`relations.rs:221-249`). -/
def arenaSaveRels (u : Unicode) (d : XmlDoc) (rels : List Rel) : Res (XmlDoc × Bool) :=
  match d.get 0 with
  | none => .error (.fail "No Root Relationship Element Found")
  | some root => do
    let d' ← rels.foldlM (arenaSaveRel u) d
    .ok (d', decide (root.children.length > 0 ∨ rels.length > 0))

/-- One `Default` (`content_types.rs:88-100`). -/
def arenaSaveDefault (u : Unicode) (d : XmlDoc) (e : String × String) : Res XmlDoc := do
  let (d, c) ← d.appendChild u "Default" 0
  d.setAttribute u c [("Extension", e.1), ("ContentType", e.2)]

/-- One `Override` (`content_types.rs:102-115`). -/
def arenaSaveOverride (u : Unicode) (d : XmlDoc) (o : String × String) : Res XmlDoc := do
  let (d, c) ← d.appendChild u "Override" 0
  d.setAttribute u c [("PartName", o.1), ("ContentType", o.2)]

/-- `create_xml_file` (`content_types.rs:67-116`) before the document is written. -/
def arenaContentTypes (u : Unicode) (extensions overrides : List (String × String)) : Res XmlDoc := do
  let d ← XmlDoc.new.createRoot u "Types"
  let d ← d.setAttribute u 0 [("xmlns", contentTypesNs)]
  let d ← extensions.foldlM (arenaSaveDefault u) d
  overrides.foldlM (arenaSaveOverride u) d

/-- One `Default` (`content_types.rs:27-39`), with the message of `needAttr` for missing attributes. -/
def defaultItem (n : Node) : Res (String × String) :=
  match needAttr n "Extension" "content type default attribute missing" with
  | .error e => .error e
  | .ok a =>
    match needAttr n "ContentType" "content type default attribute missing" with
    | .error e => .error e
    | .ok c => .ok (a, c)

/-- `get_extensions` (`content_types.rs:21-44`). -/
def arenaExtensions (d : XmlDoc) : Res (List (String × String)) × XmlDoc := popEach "Default" (looks (pushOf defaultItem)) [] d

/-- `get_override_content_type` (`content_types.rs:46-65`). The element found is taken out of the arena but stays listed
in its parent. -/
def arenaOverride (d : XmlDoc) (name : String) : Res (Option String) × XmlDoc :=
  match (d.idsByAttribute "PartName" ("/" ++ name) 0).getLast? with
  | none => (.ok none, d)
  | some id =>
    match d.popElement id with
    | (d1, none) => (.ok none, d1)
    | (d1, some e) =>
      match e.attrs with
      | none => (.ok none, d1)
      | some a =>
        match aget "ContentType" a with
        | some c => (.ok (some c), d1)
        | none => (.error (.panic "unwrap on None"), d1)

/-- The calls made for the parts of an archive in turn (`office_document.rs:271-310`); an error ends the load. -/
def arenaTypes : XmlDoc → List String → Res (List (Option String)) × XmlDoc
  | d, [] => (.ok [], d)
  | d, name :: names =>
    match arenaOverride d name with
    | (.error e, d1) => (.error e, d1)
    | (.ok t, d1) =>
      match arenaTypes d1 names with
      | (.error e, d2) => (.error e, d2)
      | (.ok ts, d2) => (.ok (t :: ts), d2)

/-- The update of the element found: the value is replaced, or for `dcterms:created` only supplied when there is
none (`core_properties.rs:55-61`, `68-76`). -/
def coreAt (d : XmlDoc) (id : Nat) (onlyEmpty : Bool) (now : String) : Res XmlDoc :=
  match d.get id with
  | none => .ok d
  | some e => if onlyEmpty ∧ e.value.isSome then .ok d else d.setValue id now

/-- One of the two updates of `close_document` (`core_properties.rs:53-76`): `get_first_element_mut` is
`get_first_element_id` and a lookup (`xml_tree.rs:284-299`); errors are ignored, a missing root panics. -/
def arenaCoreItem (d : XmlDoc) (tag : String) (onlyEmpty : Bool) (now : String) : Res XmlDoc :=
  match d.firstElementId ["cp:coreProperties", tag] 0 with
  | .error e => .error e
  | .ok none => .ok d
  | .ok (some id) => coreAt d id onlyEmpty now

/-- The document changes of `close_document` (`core_properties.rs:48-76`). -/
def arenaSaveCore (now1 now2 : String) (d : XmlDoc) : Res XmlDoc := do
  let d ← arenaCoreItem d "dcterms:modified" false now1
  arenaCoreItem d "dcterms:created" true now2

/-! ## Workbook -/

/-- One child of `bookViews` (`workbook.rs:325-422`). -/
def bookViewItem (view : Option BookView) (n : Node) : Res (Option BookView) :=
  match n.attrs with
  | none => .ok view
  | some a =>
    match loadBookView a with
    | .error er => .error er
    | .ok v => .ok (some v)

/-- One child of `sheets` (`workbook.rs:431-457`). -/
def sheetItem (acc : List SheetEntry) (n : Node) : Res (List SheetEntry) :=
  match n.attrs with
  | none => .ok acc
  | some a => pushRes acc (loadSheetEntry a)

/-- `load_sheet_names` (`workbook.rs:309-465`). -/
def arenaLoadBook (d : XmlDoc) : Res (List SheetEntry × Option BookView) × XmlDoc :=
  match popLast "bookViews" (fun e d => drain noCheck none (looks bookViewItem) e.children none d) none d with
  | (.error er, d1) => (.error er, d1)
  | (.ok view, d1) =>
    match popLast "sheets" (fun e d => drain noCheck none (looks sheetItem) e.children [] d) [] d1 with
    | (.error er, d2) => (.error er, d2)
    | (.ok sheets, d2) => (.ok (sheets, view), d2)

/-- `if let Some(root) = doc.get_root_mut() { root.order_child_mut(order)?; }` (`workbook.rs:213-221`, `worksheet.rs:186-194`). -/
def orderRoot (order : List String) (d : XmlDoc) : Res XmlDoc :=
  match d.get 0 with
  | none => .ok d
  | some _ => d.orderChild 0 order

/-- The loop over `sheet_collection` (`workbook.rs:192-212`); `n` is `sheet_count`. -/
def arenaSheets (u : Unicode) (parent : Nat) : Nat → List SheetEntry → XmlDoc → Res XmlDoc
  | _, [], d => .ok d
  | n, e :: es, d => do
    let (d, sheet) ← d.appendChild u "sheet" parent
    let d ← d.setAttribute u sheet (present [("name", some e.name), ("sheetId", some (toString n)), ("r:id", some e.relId),
      ("state", if e.hide then some "hidden" else none)])
    arenaSheets u parent (n + 1) es d

/-- The document part of `close_document` (`workbook.rs:112-222`). -/
def arenaSaveBook (u : Unicode) (sheets : List SheetEntry) (view : Option BookView) (d : XmlDoc) : Res XmlDoc := do
  let d ← match view with
    | none => .ok d
    | some v => do
      let (d, views) ← d.insertAfter u "bookViews" "fileVersion" 0
      let (d, view) ← d.appendChild u "workbookView" views
      d.setAttribute u view (present (bookViewTable v))
  let (d, list) ← d.insertAfter u "sheets" "bookViews" 0
  let d ← arenaSheets u list 1 sheets d
  orderRoot workbookOrder d

/-! ## Worksheet -/

/-- The children of `cols` (`worksheet.rs:629-684`). -/
def arenaColsOf (env : Env) (e : Elem) (d : XmlDoc) : Res (Option (List ColProps)) × XmlDoc :=
  match drain noCheck none (looks (pushOf (loadCol env))) e.children [] d with
  | (.error er, d1) => (.error er, d1)
  | (.ok cs, d1) => (.ok (some cs), d1)

/-- `deserialize_cols` (`worksheet.rs:624-687`). -/
def arenaLoadCols (env : Env) (d : XmlDoc) : Res (Option (List ColProps)) × XmlDoc := popLast "cols" (arenaColsOf env) none d

/-- The test on the tag of a child of `sheetViews` (`worksheet.rs:698-702`). -/
def viewCheck (tag : String) : Option Err := if tag ≠ "sheetView" then some (.fail "Failed to Process Sheet Views child") else none

/-- `deserialize_worksheet_views` (`worksheet.rs:690-830`): the tag is tested before the element is taken. -/
def arenaLoadViews (d : XmlDoc) : Res (List View) × XmlDoc :=
  popLast "sheetViews" (fun e d => drain viewCheck (some (.fail "Failed to get Sheet View Element")) (looks (pushOf loadView)) e.children [{}] d)
    [{}] d

/-- One child of a cell (`worksheet.rs:962-1001`). -/
def arenaCellChild (c : CellProps) (e : Elem) (d : XmlDoc) : Res CellProps × XmlDoc :=
  if e.tag = "v" then (.ok { c with value := e.value }, d)
  else if e.tag = "f" then (.ok { c with formula := e.value }, d)
  else if e.tag = "is" then
    match popFirst e d with
    | (none, d1) => (.ok c, d1)
    | (some t, d1) => (.ok { c with value := t.value }, d1)
  else (.error (.fail "Found un-know element cell child"), d)

/-- One cell (`worksheet.rs:915-1005`): the cells of the row so far and the dimension. -/
def arenaCell (env : Env) (s : List (Nat × CellProps) × (Nat × Nat)) (e : Elem) (d : XmlDoc) : Res (List (Nat × CellProps) × (Nat × Nat)) × XmlDoc :=
  match e.attrs with
  | none => (.error (.fail "Failed to pull attribute for Column"), d)
  | some a =>
    match aget "r" a with
    | none => (.error (.fail "Missing mandatory col id attribute"), d)
    | some ref =>
      match getColumnIndex env.build env.uni ref with
      | .error er => (.error er, d)
      | .ok col =>
        match parseOpt (parseUInt u32Max) (aget "s" a), parseOpt (parseUInt usizeMax) (aget "cm" a) with
        | .ok st, .ok cm =>
          match drain noCheck none arenaCellChild e.children (cellOfAttrs a st cm) d with
          | (.error er, d1) => (.error er, d1)
          | (.ok c, d1) => (.ok (sinsert col c s.1, dimAdd s.2 col), d1)
        | _, _ => (.error (.fail "Failed to parse the col style id"), d)

/-- One row (`worksheet.rs:842-1021`): the rows so far and the dimension. -/
def arenaRow (env : Env) (s : SheetRows × (Nat × Nat)) (e : Elem) (d : XmlDoc) : Res (SheetRows × (Nat × Nat)) × XmlDoc :=
  match e.attrs with
  | none => (.error (.fail "Failed to pull Row Attribute."), d)
  | some a =>
    match aget "r" a with
    | none => (.error (.fail "Missing mandatory row id attribute"), d)
    | some r =>
      match parseUInt u32Max r with
      | none => (.error (.fail "Failed to parse row id"), d)
      | some row =>
        match loadRowProps env a with
        | .error er => (.error er, d)
        | .ok p =>
          match drain noCheck none (arenaCell env) e.children ([], s.2) d with
          | (.error er, d1) => (.error er, d1)
          | (.ok (cells, dim), d1) =>
            (.ok (sinsert row { props := p, cells := if cells.length > 0 then some cells else none } s.1, dim), d1)

/-- The children of `sheetData` (`worksheet.rs:839-1026`). -/
def arenaDataOf (env : Env) (e : Elem) (d : XmlDoc) : Res (Option SheetRows × (Nat × Nat)) × XmlDoc :=
  match drain noCheck none (arenaRow env) e.children ([], dimDefault) d with
  | (.error er, d1) => (.error er, d1)
  | (.ok (rows, dim), d1) => (.ok (some rows, dim), d1)

/-- `deserialize_sheet_data` (`worksheet.rs:833-1030`). -/
def arenaLoadData (env : Env) (d : XmlDoc) : Res (Option SheetRows × (Nat × Nat)) × XmlDoc :=
  popLast "sheetData" (arenaDataOf env) (none, dimDefault) d

/-- `initialize_worksheet` (`worksheet.rs:261-302`). -/
def arenaLoadSheet (env : Env) (d : XmlDoc) : Res Sheet × XmlDoc :=
  let d1 := (d.popByTag "dimension" 0).1
  match arenaLoadCols env d1 with
  | (.error er, d2) => (.error er, d2)
  | (.ok cols, d2) =>
    match arenaLoadData env d2 with
    | (.error er, d3) => (.error er, d3)
    | (.ok (data, dim), d3) =>
      match arenaLoadViews d3 with
      | (.error er, d4) => (.error er, d4)
      | (.ok views, d4) => (.ok { dim := dim, views := views, cols := cols, data := data }, d4)

/-- `serialize_dimension` (`worksheet.rs:304-346`): the reference is made before the element. -/
def arenaDimension (u : Unicode) (s : Sheet) (d : XmlDoc) : Res XmlDoc := do
  let ref ← s.dimensionRef
  let (d, e) ← d.appendChild u "dimension" 0
  d.setAttribute u e [("ref", ref)]

/-- One `col` (`worksheet.rs:356-377`). -/
def arenaSaveCol (u : Unicode) (cols : Nat) (d : XmlDoc) (c : ColProps) : Res XmlDoc := do
  let (d, e) ← d.appendChild u "col" cols
  d.setAttribute u e (present (colTable c))

/-- `serialize_cols` (`worksheet.rs:348-385`). -/
def arenaCols (u : Unicode) (s : Sheet) (d : XmlDoc) : Res XmlDoc :=
  match s.cols with
  | some (c :: rest) => do
    let (d, cols) ← d.insertAfter u "cols" "sheetFormatPr" 0
    (c :: rest).foldlM (arenaSaveCol u cols) d
  | _ => .ok d

/-- One `sheetView` (`worksheet.rs:393-490`). -/
def arenaSaveView (u : Unicode) (views : Nat) (d : XmlDoc) (v : View) : Res XmlDoc := do
  let (d, e) ← d.appendChild u "sheetView" views
  d.setAttribute u e (present (viewTable v))

/-- `serialize_sheet_views` (`worksheet.rs:387-496`): `pop` takes the views from the end. -/
def arenaViews (u : Unicode) (s : Sheet) (d : XmlDoc) : Res XmlDoc := do
  let (d, views) ← d.insertAfter u "sheetViews" "dimension" 0
  s.views.reverse.foldlM (arenaSaveView u views) d

/-- The formula of a cell (`worksheet.rs:600-605`). -/
def arenaFormula (u : Unicode) (cell : Nat) (f : Option String) (d : XmlDoc) : Res XmlDoc :=
  match f with
  | none => .ok d
  | some f => do
    let (d, e) ← d.appendChild u "f" cell
    d.setValue e f

/-- The children of a cell (`worksheet.rs:582-615`). -/
def arenaCellKids (u : Unicode) (cell : Nat) (c : CellProps) (d : XmlDoc) : Res XmlDoc :=
  match c.type with
  | .inlineString => do
    let (d, is) ← d.appendChild u "is" cell
    let (d, t) ← d.appendChild u "t" is
    d.setValue t (c.value.getD "")
  | _ => do
    let d ← arenaFormula u cell c.formula d
    let (d, v) ← d.appendChild u "v" cell
    d.setValue v (c.value.getD "")

/-- One cell (`worksheet.rs:544-616`). -/
def arenaSaveCell (u : Unicode) (row parent : Nat) (d : XmlDoc) (kv : Nat × CellProps) : Res XmlDoc := do
  let (d, cell) ← d.appendChild u "c" parent
  let ref ← getColumnRef kv.1
  let d ← d.setAttribute u cell (present (cellTable (ref ++ toString row) kv.2))
  arenaCellKids u cell kv.2 d

/-- The cells of a row (`worksheet.rs:543-617`). -/
def arenaCells (u : Unicode) (row parent : Nat) (cells : Option (List (Nat × CellProps))) (d : XmlDoc) : Res XmlDoc :=
  match cells with
  | none => .ok d
  | some cells => cells.foldlM (arenaSaveCell u row parent) d

/-- One row (`worksheet.rs:504-618`). -/
def arenaSaveRow (u : Unicode) (parent : Nat) (d : XmlDoc) (kv : Nat × RowData) : Res XmlDoc := do
  let (d, row) ← d.appendChild u "row" parent
  let d ← d.setAttribute u row (present (rowTable kv.1 kv.2.props))
  arenaCells u kv.1 row kv.2.cells d

/-- `serialize_sheet_data` (`worksheet.rs:498-621`). -/
def arenaData (u : Unicode) (s : Sheet) (d : XmlDoc) : Res XmlDoc :=
  match s.data with
  | none => .ok d
  | some rows => do
    let (d, data) ← d.insertAfter u "sheetData" "cols" 0
    rows.foldlM (arenaSaveRow u data) d

/-- The document part of `close_document` (`worksheet.rs:174-195`). -/
def arenaSaveSheet (u : Unicode) (s : Sheet) (d : XmlDoc) : Res XmlDoc := do
  let d ← arenaDimension u s d
  let d ← arenaCols u s d
  let d ← arenaViews u s d
  let d ← arenaData u s d
  orderRoot worksheetOrder d

/-! ## Styles -/

/-- One table: `style.rs:175-204` and its copies for the other tables. -/
def arenaTable {α : Type} (tag : String) (missing : Option Err) (body : List α → Elem → XmlDoc → Res (List α) × XmlDoc) (d : XmlDoc) :
    Res (List α) × XmlDoc :=
  popLast tag (fun e d => drain noCheck missing body e.children [] d) [] d

/-- One `font` (`style.rs:213-319`). -/
def arenaFont (acc : List Font) (e : Elem) (d : XmlDoc) : Res (List Font) × XmlDoc :=
  match drain noCheck (some (.fail "Failed to pull child element")) (looks loadFontItem) e.children {} d with
  | (.error er, d1) => (.error er, d1)
  | (.ok f, d1) => (.ok (acc ++ [f]), d1)

/-- One `fill` (`style.rs:325-445`): only the first child is taken, and its children only if it has a pattern type. -/
def arenaFill (acc : List Fill) (e : Elem) (d : XmlDoc) : Res (List Fill) × XmlDoc :=
  match popFirst e d with
  | (none, d1) => (.ok (acc ++ [{}]), d1)
  | (some p, d1) =>
    match p.bare.attr? "patternType" with
    | none => (.ok (acc ++ [{}]), d1)
    | some t =>
      match drain noCheck none (looks loadFillItem) p.children { pattern := PatternType.parse t } d1 with
      | (.error er, d2) => (.error er, d2)
      | (.ok f, d2) => (.ok (acc ++ [f]), d2)

/-- `deserialize_border_setting` (`style.rs:886-924`). -/
def arenaSide (s : BorderSide) (e : Elem) (d : XmlDoc) : BorderSide × XmlDoc :=
  match e.bare.attr? "style" with
  | none => (s, d)
  | some t =>
    if BorderKind.parse t ≠ .none then
      match popFirst e d with
      | (none, d1) => ({ s with style := BorderKind.parse t }, d1)
      | (some c, d1) => ({ style := BorderKind.parse t, color := (loadColor c.bare).orElse (fun _ => s.color) }, d1)
    else ({ s with style := BorderKind.parse t }, d)

/-- One child of a `border` (`style.rs:461-507`). -/
def arenaBorderItem (x : Border) (e : Elem) (d : XmlDoc) : Res Border × XmlDoc :=
  if e.tag = "left" then (.ok { x with left := (arenaSide x.left e d).1 }, (arenaSide x.left e d).2)
  else if e.tag = "right" then (.ok { x with right := (arenaSide x.right e d).1 }, (arenaSide x.right e d).2)
  else if e.tag = "top" then (.ok { x with top := (arenaSide x.top e d).1 }, (arenaSide x.top e d).2)
  else if e.tag = "bottom" then (.ok { x with bottom := (arenaSide x.bottom e d).1 }, (arenaSide x.bottom e d).2)
  else if e.tag = "diagonal" then (.ok { x with diagonal := (arenaSide x.diagonal e d).1 }, (arenaSide x.diagonal e d).2)
  else (.error (.fail "Unknown border style found"), d)

/-- One `border` (`style.rs:453-515`). -/
def arenaBorder (acc : List Border) (e : Elem) (d : XmlDoc) : Res (List Border) × XmlDoc :=
  match drain noCheck none arenaBorderItem e.children {} d with
  | (.error er, d1) => (.error er, d1)
  | (.ok x, d1) => (.ok (acc ++ [x]), d1)

/-- One `xf` (`style.rs:797-878`): the alignment is taken only if the `xf` has attributes. -/
def arenaXf (acc : List Xf) (e : Elem) (d : XmlDoc) : Res (List Xf) × XmlDoc :=
  match e.attrs with
  | none => (.ok (acc ++ [{}]), d)
  | some _ =>
    match loadXf e.bare with
    | .error er => (.error er, d)
    | .ok x =>
      match popFirst e d with
      | (none, d1) => (.ok (acc ++ [x]), d1)
      | (some c, d1) => (.ok (acc ++ [loadAlign x (.mk e.tag e.attrs e.value [c.bare])]), d1)

/-- `load_content` (`style.rs:153-546`). -/
def arenaLoadStyles (d : XmlDoc) : Res Styles × XmlDoc :=
  match arenaTable "numFmts" (some (.fail "Element not Found Error")) (looks (fun acc n => pushOpt acc (loadNumFmt n))) d with
  | (.error er, d1) => (.error er, d1)
  | (.ok nf, d1) =>
    match arenaTable "fonts" (some (.fail "Element not Found Error")) arenaFont d1 with
    | (.error er, d2) => (.error er, d2)
    | (.ok fonts, d2) =>
      match arenaTable "fills" (some (.fail "Failed to pull child element")) arenaFill d2 with
      | (.error er, d3) => (.error er, d3)
      | (.ok fills, d3) =>
        match arenaTable "borders" none arenaBorder d3 with
        | (.error er, d4) => (.error er, d4)
        | (.ok borders, d4) =>
          match arenaTable "cellStyleXfs" none arenaXf d4 with
          | (.error er, d5) => (.error er, d5)
          | (.ok sx, d5) =>
            match arenaTable "cellXfs" none arenaXf d5 with
            | (.error er, d6) => (.error er, d6)
            | (.ok cx, d6) =>
              (.ok { numFmts := nf, fonts := fonts, fills := fills, borders := borders, styleXfs := sx, xfs := cx }, d6)

/-- An element with one attribute. -/
def arenaVal (u : Unicode) (tag : String) (parent : Nat) (key value : String) (d : XmlDoc) : Res XmlDoc := do
  let (d, e) ← d.appendChild u tag parent
  d.setAttribute u e [(key, value)]

/-- An element without attributes, added when the flag is set (`style.rs:598-612`). -/
def arenaFlag (u : Unicode) (b : Bool) (tag : String) (parent : Nat) (d : XmlDoc) : Res XmlDoc :=
  if b then do
    let (d, _) ← d.appendChild u tag parent
    .ok d
  else .ok d

/-- `add_color_element` (`style.rs:925-944`) and the colours of a fill (`style.rs:685-712`). -/
def arenaColor (u : Unicode) (tag : String) (parent : Nat) (c : Option Color) (d : XmlDoc) : Res XmlDoc :=
  match c with
  | none => .ok d
  | some c => arenaVal u tag parent c.kind.text c.value d

/-- The double underline of a font (`style.rs:612-622`). -/
def arenaDouble (u : Unicode) (b : Bool) (font : Nat) (d : XmlDoc) : Res XmlDoc :=
  if b then arenaVal u "u" font "val" "double" d else .ok d

/-- One `font` (`style.rs:594-657`). -/
def arenaSaveFont (u : Unicode) (parent : Nat) (d : XmlDoc) (f : Font) : Res XmlDoc := do
  let (d, font) ← d.appendChild u "font" parent
  let d ← arenaFlag u f.bold "b" font d
  let d ← arenaFlag u f.italic "i" font d
  let d ← arenaFlag u f.underline "u" font d
  let d ← arenaDouble u f.doubleUnderline font d
  let d ← arenaVal u "sz" font "val" (toString f.size) d
  let d ← arenaColor u "color" font (some f.color) d
  let d ← arenaVal u "name" font "val" f.name d
  let d ← arenaVal u "family" font "val" (toString f.family) d
  arenaVal u "scheme" font "val" f.scheme.text d

/-- One `fill` (`style.rs:671-713`). -/
def arenaSaveFill (u : Unicode) (parent : Nat) (d : XmlDoc) (f : Fill) : Res XmlDoc := do
  let (d, fill) ← d.appendChild u "fill" parent
  let (d, pattern) ← d.appendChild u "patternFill" fill
  let d ← d.setAttribute u pattern [("patternType", f.pattern.text)]
  let d ← arenaColor u "fgColor" pattern f.foreground d
  arenaColor u "bgColor" pattern f.background d

/-- `add_border_element` (`style.rs:946-969`). -/
def arenaSaveSide (u : Unicode) (tag : String) (parent : Nat) (s : BorderSide) (d : XmlDoc) : Res XmlDoc := do
  let (d, side) ← d.appendChild u tag parent
  if s.style ≠ .none then do
    let d ← d.setAttribute u side [("style", s.style.text)]
    arenaColor u "color" side s.color d
  else .ok d

/-- One `border` (`style.rs:731-770`). -/
def arenaSaveBorder (u : Unicode) (parent : Nat) (d : XmlDoc) (x : Border) : Res XmlDoc := do
  let (d, border) ← d.appendChild u "border" parent
  let d ← arenaSaveSide u "left" border x.left d
  let d ← arenaSaveSide u "right" border x.right d
  let d ← arenaSaveSide u "top" border x.top d
  let d ← arenaSaveSide u "bottom" border x.bottom d
  arenaSaveSide u "diagonal" border x.diagonal d

/-- One `xf` (`style.rs:995-1063`). -/
def arenaSaveXf (u : Unicode) (enableFormatId : Bool) (parent : Nat) (d : XmlDoc) (x : Xf) : Res XmlDoc := do
  let (d, xf) ← d.appendChild u "xf" parent
  let d ← d.setAttribute u xf (present (xfTable enableFormatId x))
  if x.wrap > 0 ∨ x.vertical ≠ .none ∨ x.horizontal ≠ .none then do
    let (d, a) ← d.appendChild u "alignment" xf
    d.setAttribute u a (present (alignTable x))
  else .ok d

/-- A counted table behind another element (`style.rs:583-592` and its copies). -/
def arenaCounted {α : Type} (u : Unicode) (tag after : String) (entry : Nat → XmlDoc → α → Res XmlDoc) (l : List α) (d : XmlDoc) :
    Res XmlDoc := do
  let (d, t) ← d.insertAfter u tag after 0
  let d ← d.setAttribute u t [("count", toString l.length)]
  l.foldlM (entry t) d

/-- One `numFmt` (`style.rs:570-580`). -/
def arenaSaveNumFmt (u : Unicode) (t : Nat) (d : XmlDoc) (f : NumFmt) : Res XmlDoc := do
  let (d, e) ← d.appendChild u "numFmt" t
  d.setAttribute u e [("numFmtId", toString f.id), ("formatCode", f.code)]

/-- `save_content_to_tree_mut` (`style.rs:549-789`) with `add_cell_style` (`style.rs:971-1066`). -/
def arenaSaveStyles (u : Unicode) (st : Styles) (d : XmlDoc) : Res XmlDoc := do
  let (d, t) ← d.insertAt u "numFmts" 0 0
  let d ← d.setAttribute u t [("count", toString st.numFmts.length)]
  let d ← st.numFmts.foldlM (arenaSaveNumFmt u t) d
  let d ← arenaCounted u "fonts" "numFmts" (arenaSaveFont u) st.fonts d
  let d ← arenaCounted u "fills" "fonts" (arenaSaveFill u) st.fills d
  let d ← arenaCounted u "borders" "fills" (arenaSaveBorder u) st.borders d
  let d ← arenaCounted u "cellXfs" "borders" (arenaSaveXf u true) st.xfs d
  arenaCounted u "cellStyleXfs" "borders" (arenaSaveXf u false) st.styleXfs d

end Oxml
