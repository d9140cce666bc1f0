import Verif.Model.CoreProps
import Verif.Model.ShareString
import Verif.Model.Worksheet
import Verif.Model.Style
import Verif.Spec.Worksheet
/-!
# `rs/src/spreadsheet/spreadsheet_2007/parts/workbook.rs`, `excel.rs` and the package side of `worksheet.rs`

`Rc<RefCell<..>>` shared between the workbook and its sheets is one field of `Excel`. The `RefCell` guards never
overlap (C80), so no borrow error is modelled here. Open sheet handles are values kept by the user (`Session`).
-/
namespace Oxml

/-- One entry of `sheet_collection` (`workbook.rs:32-33`). -/
structure SheetEntry where
  name : String
  relId : String
  active : Bool
  hide : Bool
deriving DecidableEq, Repr

/-- `WorkbookView` (`workbook.rs:37-64`). -/
structure BookView where
  activeTab : Option String := none
  firstSheet : Option String := none
  visibility : Option String := none
  minimize : Bool := false
  hideHorizontal : Bool := false
  hideVertical : Bool := false
  hideTabs : Bool := false
  tabRatio : Option Int := none
  dateGrouping : Option Bool := none
deriving DecidableEq, Repr

/-! ## The workbook document -/

/-- Child order of a workbook (`order_dictionary.rs:4-11`). -/
def workbookOrder : List String :=
  ["fileVersion", "fileSharing", "workbookPr", "mc:AlternateContent", "xr:revisionPtr", "workbookProtection", "bookViews",
   "sheets", "functionGroups", "externalReferences", "definedNames", "calcPr", "oleSize", "customWorkbookViews", "pivotCaches",
   "smartTagPr", "smartTagTypes", "webPublishing", "fileRecoveryPr", "webPublishObjects", "extLst"]

/-- Attributes of `workbookView` (`workbook.rs:126-185`): the date grouping overwrites `tabRatio`. -/
def bookViewTable (v : BookView) : List (String × Option String) :=
  [("activeTab", v.activeTab), ("firstSheet", v.firstSheet),
   ("tabRatio", match v.dateGrouping with | some b => some (boolXmlFlag b) | none => v.tabRatio.map toString),
   ("minimized", some (boolXmlFlag v.minimize)), ("visibility", v.visibility),
   ("showSheetTabs", some (if v.hideTabs then "0" else "1")),
   ("showVerticalScroll", some (if v.hideVertical then "0" else "1")),
   ("showHorizontalScroll", some (if v.hideHorizontal then "0" else "1"))]

def bookViewNode (v : BookView) : Node := .mk "workbookView" (some (present (bookViewTable v))) none []

/-- One `sheet` element (`workbook.rs:198-211`). -/
def sheetNode (i : Nat) (e : SheetEntry) : Node :=
  .mk "sheet" (some (present [("name", some e.name), ("sheetId", some (toString i)), ("r:id", some e.relId),
    ("state", if e.hide then some "hidden" else none)])) none []

/-- The `sheet` elements, numbered from the given number (`workbook.rs:116`, `192-212`). -/
def sheetNodes : Nat → List SheetEntry → List Node
  | _, [] => []
  | i, e :: es => sheetNode i e :: sheetNodes (i + 1) es

/-- The root's children after `close_document` (`workbook.rs:116-221`). -/
def placeBook (sheets : List SheetEntry) (view : Option BookView) (cs : List Node) : List Node :=
  let cs := match view with
    | some v => insertNodeAfter (.mk "bookViews" none none [bookViewNode v]) "fileVersion" cs
    | none => cs
  orderChildren Node.tag workbookOrder (insertNodeAfter (.mk "sheets" none none (sheetNodes 1 sheets)) "bookViews" cs)

/-- The document part of `close_document` (`workbook.rs:112-222`). -/
def saveBook (sheets : List SheetEntry) (view : Option BookView) (x : XDoc) : Res XDoc :=
  match x.root with
  | none => .error (.fail "Parent Element Not Found")
  | some _ => .ok (x.mapRootChildren (placeBook sheets view))

/-- One `workbookView` with attributes (`workbook.rs:333-416`): `showSheetTabs` is read as the hide flag. -/
def loadBookView (a : Attrs) : Res BookView :=
  match parseOpt parseI16 (aget "tabRatio" a) with
  | .error e => .error e
  | .ok ratio =>
    .ok { dateGrouping := (aget "autoFilterDateGrouping" a).map (fun t => normalizeBoolU8 t = 1)
          tabRatio := ratio
          activeTab := aget "activeTab" a
          firstSheet := aget "firstSheet" a
          hideTabs := ((aget "showSheetTabs" a).map (fun t => decide (normalizeBoolU8 t = 1))).getD false
          visibility := aget "visibility" a
          minimize := ((aget "minimized" a).map (fun t => decide (normalizeBoolU8 t = 1))).getD false
          hideHorizontal := ((aget "showHorizontalScroll" a).map (fun t => decide (normalizeBoolU8 t = 0))).getD false
          hideVertical := ((aget "showVerticalScroll" a).map (fun t => decide (normalizeBoolU8 t = 0))).getD false }

/-- The loop over the children of `bookViews` (`workbook.rs:325-422`): the last one with attributes stays. -/
def loadBookViews (view : Option BookView) : List Node → Res (Option BookView)
  | [] => .ok view
  | n :: ns =>
    match n.attrs with
    | none => loadBookViews view ns
    | some a =>
      match loadBookView a with
      | .error e => .error e
      | .ok v => loadBookViews (some v) ns

/-- One `sheet` with attributes (`workbook.rs:434-452`). -/
def loadSheetEntry (a : Attrs) : Res SheetEntry :=
  match aget "name" a with
  | none => .error (.fail "Error When Trying to read Sheet Details.")
  | some name =>
    match aget "r:id" a with
    | none => .error (.fail "Error When Trying to read Sheet Details.")
    | some id => .ok { name := name, relId := id, active := false, hide := decide (aget "state" a = some "hidden") }

/-- `load_sheet_names` (`workbook.rs:309-465`): the list, the view, and the document without both elements. -/
def loadBook (x : XDoc) : Res (List SheetEntry × Option BookView) × XDoc :=
  let p := x.popTag "bookViews"
  let q := p.2.popTag "sheets"
  match loadBookViews none ((p.1.getLast?.map Node.children).getD []) with
  | .error e => (.error e, p.2)
  | .ok view =>
    match mapRes loadSheetEntry (((q.1.getLast?.map Node.children).getD []).filterMap Node.attrs) with
    | .error e => (.error e, q.2)
    | .ok sheets => (.ok (sheets, view), q.2)

/-- The document read from the template text (`workbook.rs:77-81`); `Props/Templates.lean` checks the text. -/
def workbookDoc : XDoc :=
  { ns := [(defaultNsKey, mainNs), ("r", "http://schemas.openxmlformats.org/officeDocument/2006/relationships")],
    root := some (.mk "workbook" (some []) none
      [.mk "fileVersion" (some [("appName", "openxml-office"), ("lastEdited", "7"), ("lowestEdited", "7")]) none []]) }

/-- `initialize_content_xml` (`workbook.rs:73-92`). -/
def workbookTemplate : Template :=
  { doc := workbookDoc, ctype := some workbookContent.ctype, ext := workbookContent.ext, extType := workbookContent.extType }

/-- `ThemePart::initialize_content_xml` (`theme.rs:38-51`) with the document read from `theme.xml`. -/
def themeTemplate (doc : XDoc) : Template :=
  { doc := doc, ctype := some themeContent.ctype, ext := themeContent.ext, extType := themeContent.extType }

/-! ## The sheet list -/

/-- `set_active_sheet_mut` (`workbook.rs:536-550`). -/
def setActive (sheets : List SheetEntry) (name : String) : List SheetEntry :=
  sheets.map (fun e => { e with active := decide (e.name = name) })

/-- `hide_sheet_mut` (`workbook.rs:632-646`). -/
def hideSheet (sheets : List SheetEntry) (name : String) : List SheetEntry :=
  sheets.map (fun e => { e with hide := decide (e.name = name) })

/-- `rename_sheet_name_mut` (`workbook.rs:648-676`). -/
def renameSheet (sheets : List SheetEntry) (old new : String) : Res (List SheetEntry) :=
  if sheets.any (fun e => e.name = new) then .error (.fail "New Sheet Name Already exist in the stack")
  else if sheets.any (fun e => e.name = old) then
    .ok (mapFirst (fun e => decide (e.name = old)) (fun e => { e with name := new }) sheets)
  else .error (.fail "Old Sheet Name not found in the stack")

/-- The view settings (`workbook.rs:553-629`). -/
inductive ViewOp where
  | visibility (visible : Bool)
  | minimize (b : Bool)
  | hideTabs (b : Bool)
  | hideVertical (b : Bool)
  | hideHorizontal (b : Bool)
deriving DecidableEq, Repr

/-- The effect of a view setting on a view; a missing view starts from the default (`workbook.rs:553-629`). -/
def ViewOp.run (v : Option BookView) : ViewOp → Option BookView
  | .visibility b => some { v.getD {} with visibility := some (if b then "visible" else "hidden") }
  | .minimize b => some { v.getD {} with minimize := b }
  | .hideTabs b => some { v.getD {} with hideTabs := b }
  | .hideVertical b => some { v.getD {} with hideVertical := b }
  | .hideHorizontal b => some { v.getD {} with hideHorizontal := b }

/-! ## The open workbook -/

/-- A part the workbook keeps in memory: its data, document handle and path. -/
structure Kept (α : Type) where
  data : α
  handle : Nat
  path : String
deriving DecidableEq, Repr

/-- `Excel` (`excel.rs:17-22`) with `WorkbookPart` (`workbook.rs:24-35`) and `CommonServices` (`common_service.rs:6-11`). -/
structure Excel where
  pkg : Pkg
  rootRels : RelPart
  core : Kept Unit
  book : Kept Unit
  rels : RelPart
  theme : Kept Unit
  chain : Kept (List CalcEntry)
  strings : Kept (List String)
  styles : Kept Styles
  sheets : List SheetEntry
  view : Option BookView
deriving DecidableEq, Repr

/-- The part named by the first relationship of a type, opened (`get_relationship_target_by_type_mut` then
`get_xml_document`, as in `theme.rs:60-66`): path, handle, package and relationships. -/
def openTyped (env : Env) (c : Content) (dir : Option String) (t : Template) (p : Pkg) (r : RelPart) :
    Res (String × Nat × Pkg × RelPart) :=
  match targetByType r.path r.rels c.type c dir none with
  | (.error e, _) => .error e
  | (.ok path, rels) =>
    match p.openPart env (.ok t) path with
    | (.error e, _) => .error e
    | (.ok h, p1) => .ok (path, h, p1, { r with rels := rels })

/-- Loading a just opened document: the data and the package with what remains of the document. -/
def loadPart {α : Type} (p : Pkg) (h : Nat) (load : XDoc → Res α × XDoc) : Res (α × Pkg) :=
  match p.docOf h with
  | none => .error (.fail "handle lost")
  | some x =>
    match load x with
    | (.error e, _) => .error e
    | (.ok a, x') => .ok (a, p.update h (fun _ => x'))

/-- Text before the last `/` (`rfind`), `none` without one. -/
def dirOf (path : String) : Option String :=
  if '/' ∈ path.toList then some (String.ofList (path.toList.reverse.dropWhile (· ≠ '/')).tail.reverse) else none

/-- Text after the last `/` (`rsplit("/").next()`). -/
def baseOf (path : String) : String := String.ofList (path.toList.reverse.takeWhile (· ≠ '/')).reverse

/-- `Excel::new` without the default sheet (`excel.rs:48-71`) and `WorkbookPart::new` (`workbook.rs:239-303`). A failure
discards everything. `theme` is the theme template. -/
def Excel.start (env : Env) (theme : XDoc) (p : Pkg) : Res Excel := do
  let (rootRels, p) ← (match RelPart.new env p "_rels/.rels" with
    | (.error e, _) => .error e
    | (.ok r, p) => .ok (r, p) : Res (RelPart × Pkg))
  let (corePath, coreH, p, rootRels) ← openTyped env coreContent none coreTemplate p rootRels
  let (bookPath, bookH, p, rootRels) ← openTyped env workbookContent none workbookTemplate p rootRels
  let dir ← (match dirOf bookPath with
    | none => .error (.panic "unwrap on None")
    | some d => .ok d : Res String)
  let (rels, p) ← (match RelPart.new env p (dir ++ "/_rels/workbook.xml.rels") with
    | (.error e, _) => .error e
    | (.ok r, p) => .ok (r, p) : Res (RelPart × Pkg))
  let (themePath, themeH, p, rels) ← openTyped env themeContent (some "xl/theme") (themeTemplate theme) p rels
  let (strPath, strH, p, rels) ← openTyped env sharedStringContent none stringsTemplate p rels
  let (table, p) ← loadPart p strH (fun x => (.ok (loadStrings x).1, (loadStrings x).2))
  let (calcPath, calcH, p, rels) ← openTyped env calcChainContent none calcTemplate p rels
  let (chain, p) ← loadPart p calcH loadCalc
  let (stylePath, styleH, p, rels) ← openTyped env styleContent none styleTemplate p rels
  let (styles, p) ← loadPart p styleH Styles.load
  let ((sheets, view), p) ← loadPart p bookH loadBook
  return { pkg := p, rootRels := rootRels, core := ⟨(), coreH, corePath⟩, book := ⟨(), bookH, bookPath⟩, rels := rels,
           theme := ⟨(), themeH, themePath⟩, chain := ⟨chain, calcH, calcPath⟩, strings := ⟨table, strH, strPath⟩,
           styles := ⟨styles, styleH, stylePath⟩, sheets := sheets, view := view }

/-! ## Sheet handles -/

/-- `WorkSheet` (`worksheet.rs:116-135`). -/
structure SheetHandle where
  handle : Nat
  rels : RelPart
  data : Sheet
  path : String
  name : String
deriving DecidableEq, Repr

/-- The path of the n-th default sheet part (`worksheet.rs:1076-1083`). -/
def sheetPath (dir : String) (n : Nat) : String :=
  dir ++ worksheetContent.path ++ "/" ++ worksheetContent.name ++ toString n ++ "." ++ worksheetContent.ext

/-- The loop for a free file name (`worksheet.rs:1075-1088`): closed parts only. Fuel: one more than the number of closed
parts is enough (`freeSheet_free`). -/
def freeSheetLoop (p : Pkg) (dir : String) : Nat → Nat → Nat
  | 0, n => n
  | fuel + 1, n => if p.checkFileExist (sheetPath dir n) then freeSheetLoop p dir fuel (n + 1) else n

def freeSheet (p : Pkg) (dir : String) (n : Nat) : Nat := freeSheetLoop p dir (p.archive.length + 1) n

/-- `get_sheet_file_name` (`worksheet.rs:1033-1127`): path, name and the workbook with the sheet listed. -/
def Excel.sheetFile (x : Excel) (name : Option String) : Res (String × String) × Excel :=
  match name.bind (fun n => x.sheets.find? (fun e => e.name = n)) with
  | some e =>
    match targetById x.rels.path x.rels.rels e.relId with
    | .error err => (.error err, x)
    | .ok none => (.error (.fail "Failed to Get Relationship path"), x)
    | .ok (some t) => (.ok (t, e.name), x)
  | none =>
    match relativePath x.rels.path with
    | .error e => (.error e, x)
    | .ok dir =>
      let n := freeSheet x.pkg dir (x.sheets.length + 1)
      let newName := name.getD (worksheetContent.name ++ toString n)
      let r := newRel x.rels.rels worksheetContent (some (dir ++ worksheetContent.path)) (some (worksheetContent.name ++ toString n))
      (.ok (sheetPath dir n, newName),
        { x with rels := { x.rels with rels := r.1 }
                 sheets := x.sheets ++ [{ name := newName, relId := r.2, active := false, hide := false }] })

/-- The relationship part of a sheet (`worksheet.rs:231-237`), `none` when `unwrap` panics. -/
def sheetRelsPath (path : String) : Option String := (dirOf path).map (fun d => d ++ "/_rels/" ++ baseOf path ++ ".rels")

/-- `WorkSheet::new` (`worksheet.rs:215-259`). When reading the sheet fails its relationship part is dropped. -/
def Excel.openSheet (env : Env) (x : Excel) (name : Option String) : Res SheetHandle × Excel :=
  match x.sheetFile name with
  | (.error e, x1) => (.error e, x1)
  | (.ok (path, nm), x1) =>
    match x1.pkg.openPart env (.ok worksheetTemplate) path with
    | (.error e, p2) => (.error e, { x1 with pkg := p2 })
    | (.ok h, p2) =>
      match sheetRelsPath path with
      | none => (.error (.panic "unwrap on None"), { x1 with pkg := p2 })
      | some rp =>
        match RelPart.new env p2 rp with
        | (.error e, p3) => (.error e, { x1 with pkg := p3 })
        | (.ok rels, p3) =>
          match p3.docOf h with
          | none => (.error (.fail "Failed to open Worksheet"), { x1 with pkg := (rels.close env p3).2 })
          | some d =>
            match Sheet.load env d with
            | (.error e, d') => (.error e, { x1 with pkg := (rels.close env (p3.update h (fun _ => d'))).2 })
            | (.ok s, d') =>
              (.ok { handle := h, rels := rels, data := s, path := path, name := nm },
                { x1 with pkg := p3.update h (fun _ => d') })

/-- `WorkSheet::close_document` (`worksheet.rs:164-209`). -/
def closeSheet (env : Env) (p : Pkg) (h : SheetHandle) : Res Unit × Pkg :=
  match p.docOf h.handle with
  | none => (.ok (), p.close env h.path)
  | some d =>
    match h.data.save d with
    | .error e => (.error e, p)
    | .ok d' => (.ok (), (p.update h.handle (fun _ => d')).close env h.path)

/-- Dropping a sheet handle (`worksheet.rs:137-141`), then its relationship part (`relations.rs:18-22`). -/
def dropSheet (env : Env) (p : Pkg) (h : SheetHandle) : Pkg := (h.rels.close env (closeSheet env p h).2).2

/-- `delete_sheet_mut` (`worksheet.rs:1360-1381`): the final `flush` closes the sheet and drops the handle. -/
def Excel.deleteSheet (env : Env) (x : Excel) (h : SheetHandle) : Res Unit × Excel :=
  let p := x.pkg.delete h.path
  let c := closeSheet env p h
  (c.1,
    { x with sheets := x.sheets.filter (fun e => e.name ≠ h.name)
             rels := { x.rels with rels := deleteRel x.rels.rels h.path }
             pkg := dropSheet env c.2 h })

/-! ## Closing and saving -/

/-- `CalculationChainPart::close_document` (`calculation_chain.rs:28-70`). -/
def Excel.closeCalc (env : Env) (x : Excel) : Res Unit × Excel :=
  if x.chain.data = [] then
    (.ok (), { x with rels := { x.rels with rels := deleteRel x.rels.rels x.chain.path }, pkg := x.pkg.delete x.chain.path })
  else
    match x.pkg.docOf x.chain.handle with
    | none => (.ok (), { x with pkg := x.pkg.close env x.chain.path })
    | some d =>
      match saveCalc d x.chain.data with
      | .error e => (.error e, x)
      | .ok d' => (.ok (), { x with pkg := (x.pkg.update x.chain.handle (fun _ => d')).close env x.chain.path })

/-- `ShareStringPart::close_document` (`share_string.rs:32-97`). -/
def Excel.closeStrings (env : Env) (x : Excel) : Res Unit × Excel :=
  if x.strings.data = [] then
    (.ok (), { x with rels := { x.rels with rels := deleteRel x.rels.rels x.strings.path }, pkg := x.pkg.delete x.strings.path })
  else
    match x.pkg.docOf x.strings.handle with
    | none => (.ok (), { x with pkg := x.pkg.close env x.strings.path })
    | some d =>
      match saveStrings d x.strings.data with
      | .error e => (.error e, x)
      | .ok d' => (.ok (), { x with pkg := (x.pkg.update x.strings.handle (fun _ => d')).close env x.strings.path })

/-- `StylePart::close_document` (`style.rs:47-78`). -/
def Excel.closeStyles (env : Env) (x : Excel) : Res Unit × Excel :=
  match x.pkg.docOf x.styles.handle with
  | none => (.ok (), { x with pkg := x.pkg.close env x.styles.path })
  | some d =>
    match x.styles.data.save d with
    | .error e => (.error e, x)
    | .ok d' => (.ok (), { x with pkg := (x.pkg.update x.styles.handle (fun _ => d')).close env x.styles.path })

/-- `ThemePart::close_document` (`theme.rs:26-37`). -/
def Excel.closeTheme (env : Env) (x : Excel) : Res Unit × Excel := (.ok (), { x with pkg := x.pkg.close env x.theme.path })

/-- Closing the workbook relationships (`relations.rs:26-48`). -/
def Excel.closeRels (env : Env) (x : Excel) : Res Unit × Excel :=
  ((x.rels.close env x.pkg).1, { x with pkg := (x.rels.close env x.pkg).2 })

/-- The last part of `WorkbookPart::close_document` (`workbook.rs:112-228`). -/
def Excel.closeDoc (env : Env) (x : Excel) : Res Unit × Excel :=
  match x.pkg.docOf x.book.handle with
  | none => (.ok (), { x with pkg := x.pkg.close env x.book.path })
  | some d =>
    match saveBook x.sheets x.view d with
    | .error e => (.error e, x)
    | .ok d' => (.ok (), { x with pkg := (x.pkg.update x.book.handle (fun _ => d')).close env x.book.path })

/-- One action after another; the first error stops (`?`). -/
def Excel.seq (x : Excel) : List (Excel → Res Unit × Excel) → Res Unit × Excel
  | [] => (.ok (), x)
  | f :: fs =>
    match f x with
    | (.error e, x1) => (.error e, x1)
    | (.ok _, x1) => x1.seq fs

/-- One action after another, ignoring errors (`Drop`). -/
def Excel.seqDrop (x : Excel) (fs : List (Excel → Res Unit × Excel)) : Excel := fs.foldl (fun x f => (f x).2) x

/-- `WorkbookPart::close_document` (`workbook.rs:94-233`). -/
def Excel.closeBook (env : Env) (x : Excel) : Res Unit × Excel :=
  x.seq [Excel.closeTheme env, Excel.closeCalc env, Excel.closeStrings env, Excel.closeStyles env, Excel.closeRels env,
    Excel.closeDoc env]

/-- What happens when a `WorkbookPart` is dropped: `Drop` (`workbook.rs:66-70`), then its fields in order of declaration
(`workbook.rs:24-35`), `CommonServices` being three of them. -/
def Excel.dropBook (env : Env) (x : Excel) : Excel :=
  (x.closeBook env).2.seqDrop [Excel.closeCalc env, Excel.closeStrings env, Excel.closeStyles env, Excel.closeRels env,
    Excel.closeTheme env]

/-- `flush` of the workbook (`xml_parts.rs:8-13`): close, then drop. -/
def Excel.flushBook (env : Env) (x : Excel) : Res Unit × Excel := ((x.closeBook env).1, (x.closeBook env).2.dropBook env)

/-- `CorePropertiesPart::close_document` (`core_properties.rs:43-87`); `now` is the time text. -/
def Excel.closeCore (env : Env) (now : String) (x : Excel) : Res Unit × Excel :=
  match x.pkg.docOf x.core.handle with
  | none => (.ok (), { x with pkg := x.pkg.close env x.core.path })
  | some d =>
    match saveCore now now d with
    | .error e => (.error e, x)
    | .ok d' => (.ok (), { x with pkg := (x.pkg.update x.core.handle (fun _ => d')).close env x.core.path })

/-- `flush` of the core properties. -/
def Excel.flushCore (env : Env) (now : String) (x : Excel) : Res Unit × Excel :=
  ((x.closeCore env now).1, ((x.closeCore env now).2.closeCore env now).2)

/-- Closing the root relationships (`excel.rs:155-158`). -/
def Excel.closeRoot (env : Env) (x : Excel) : Res Unit × Excel :=
  ((x.rootRels.close env x.pkg).1, { x with pkg := (x.rootRels.close env x.pkg).2 })

/-- The package `save_as` writes (`excel.rs:149-165`, `office_document.rs:153-163`); sheet handles still open are not
asked. -/
def Excel.saved (env : Env) (now : String) (x : Excel) : Res Pkg :=
  match x.seq [Excel.flushBook env, Excel.flushCore env now, Excel.closeRoot env] with
  | (.error e, _) => .error e
  | (.ok _, x1) => .ok (x1.pkg.closedForSave env)

/-! ## Sessions -/

/-- A workbook and the sheet handles the user keeps. -/
structure Session where
  x : Excel
  handles : List SheetHandle
deriving DecidableEq, Repr

/-- What a user does with a workbook and its handles. `add none` asks for a default name; `get` is `get_worksheet_mut`,
which is the same call. Handles are named by position. -/
inductive WbOp where
  | add (name : Option String)
  | get (name : String)
  | sheet (i : Nat) (op : Spec.SheetOp)
  | drop (i : Nat)
  | delete (i : Nat)
  | rename (old new : String)
  | active (name : String)
  | hide (name : String)
  | view (op : ViewOp)
  | style (hs : Hashes) (s : StyleSetting)

/-- Opening a sheet and keeping the handle. -/
def Session.open (env : Env) (s : Session) (name : Option String) : Res Unit × Session :=
  match s.x.openSheet env name with
  | (.error e, x1) => (.error e, { s with x := x1 })
  | (.ok h, x1) => (.ok (), { x := x1, handles := s.handles ++ [h] })

/-- One call (`excel.rs:86-147`, `worksheet.rs:1136-1381`). -/
def Session.step (env : Env) (s : Session) : WbOp → Res Unit × Session
  | .add name => s.open env name
  | .get name => s.open env (some name)
  | .sheet i op =>
    match s.handles[i]? with
    | none => (.ok (), s)
    | some h =>
      match op.run env.build (h.data, s.x.strings.data) with
      | .error e => (.error e, s)
      | .ok (d, table) =>
        (.ok (), { x := { s.x with strings := { s.x.strings with data := table } }
                   handles := s.handles.set i { h with data := d } })
  | .drop i =>
    match s.handles[i]? with
    | none => (.ok (), s)
    | some h => (.ok (), { x := { s.x with pkg := dropSheet env s.x.pkg h }, handles := s.handles.eraseIdx i })
  | .delete i =>
    match s.handles[i]? with
    | none => (.ok (), s)
    | some h =>
      let r := s.x.deleteSheet env h
      (r.1, { x := r.2, handles := s.handles.eraseIdx i })
  | .rename old new =>
    match renameSheet s.x.sheets old new with
    | .error e => (.error e, s)
    | .ok sheets => (.ok (), { s with x := { s.x with sheets := sheets } })
  | .active name => (.ok (), { s with x := { s.x with sheets := setActive s.x.sheets name } })
  | .hide name => (.ok (), { s with x := { s.x with sheets := hideSheet s.x.sheets name } })
  | .view op => (.ok (), { s with x := { s.x with view := op.run s.x.view } })
  | .style hs st =>
    match getStyleId env.build hs s.x.styles.data st with
    | .error e => (.error e, s)
    | .ok (styles, _) => (.ok (), { s with x := { s.x with styles := { s.x.styles with data := styles } } })

/-- A history. Failed calls return and the session goes on; a panic ends it. -/
def Session.run (env : Env) (s : Session) : List WbOp → Res Session
  | [] => .ok s
  | op :: ops =>
    match s.step env op with
    | (.error (.panic m), _) => .error (.panic m)
    | (_, s1) => s1.run env ops

/-- `Excel::new(None)` (`excel.rs:42-84`): the default sheet's handle is dropped at once. -/
def Excel.new (env : Env) (theme : XDoc) : Res Excel :=
  match Excel.start env theme Pkg.empty with
  | .error e => .error e
  | .ok x =>
    match x.openSheet env none with
    | (.error e, _) => .error e
    | (.ok h, x1) => .ok { x1 with pkg := dropSheet env x1.pkg h }

/-- What `Excel::new` ends with when it fails: the core properties already opened are dropped while the package still exists
(`excel.rs:48-65`), and dropping them may panic (`core_properties.rs:19-23`, `43-76`). -/
def Excel.failedStart (env : Env) (p : Pkg) (e : Err) : Err :=
  match RelPart.new env p "_rels/.rels" with
  | (.error _, _) => e
  | (.ok r, p1) =>
    match openTyped env coreContent none coreTemplate p1 r with
    | .error _ => e
    | .ok (_, h, p2, _) =>
      match (p2.docOf h).map (saveCore "" "") with
      | some (.error (.panic m)) => .panic m
      | _ => e

/-- `Excel::new(Some(file))` on the content of the file. -/
def Excel.openFile (env : Env) (theme : XDoc) (z : Zip) : Res Excel :=
  match Pkg.ofZip env z with
  | .error e => .error e
  | .ok p =>
    match Excel.start env theme p with
    | .error e => .error (Excel.failedStart env p e)
    | .ok x => .ok x

/-- What `save_as` ends with when it fails: if the workbook cannot be closed, the core properties are dropped with the closure that
owns them, while the package still exists (`excel.rs:149-155`); otherwise they were closed before. -/
def Excel.failedSave (env : Env) (now : String) (x : Excel) (e : Err) : Err :=
  match ((x.flushBook env).2.closeCore env now).1 with
  | .error (.panic m) => .panic m
  | _ => e

/-- `Excel::save_as` up to the bytes (`excel.rs:149-169`). -/
def Excel.toZip (env : Env) (now : String) (x : Excel) (exts : List (String × String)) : Res Zip :=
  match x.saved env now with
  | .error e => .error (x.failedSave env now e)
  | .ok p => p.toZip env exts

end Oxml
