import Verif.Model.Workbook
import Verif.Spec.Style
/-!
# Vocabulary for the workbook properties
-/
namespace Oxml.Spec

/-- An open part made from a template. -/
def openFrom (h : Nat) (t : Template) (doc : XDoc) : OpenDoc := { handle := h, doc := doc, ctype := t.ctype, ext := t.ext, extType := t.extType }

/-- What is left of the style template when its tables are in memory. -/
def styleRest : XDoc := styleDoc.mapRootChildren (fun cs => cs.filter (fun n => n.tag ∉ styleTags))

/-- The document of an empty sheet. -/
def emptySheetDoc : XDoc :=
  { worksheetDoc with root := some (.mk "worksheet" (some []) none
      [.mk "dimension" (some [("ref", "A1")]) none [],
       .mk "sheetViews" none none [.mk "sheetView" (some [("workbookViewId", "0")]) none []],
       .mk "sheetData" none none []]) }

/-- A closed sheet part with the given document. -/
def sheetPart (env : Env) (x : XDoc) : Entry :=
  { ext := "xml", extType := "application/xml", ctype := some worksheetContent.ctype, content := renderDoc env.build env.stamp x }

/-- The package of a new workbook: what is open and what is closed. -/
def newPkg (env : Env) (theme : XDoc) : Pkg where
  opened :=
    [("_rels/.rels", openFrom 0 relsTemplate relsTemplate.doc), ("docProps/core.xml", openFrom 1 coreTemplate coreDoc),
     ("xl/workbook.xml", openFrom 2 workbookTemplate workbookDoc),
     ("xl/_rels/workbook.xml.rels", openFrom 3 relsTemplate relsTemplate.doc),
     ("xl/theme/theme1.xml", openFrom 4 (themeTemplate theme) theme),
     ("xl/sharedStrings.xml", openFrom 5 stringsTemplate stringsTemplate.doc),
     ("xl/calcChain.xml", openFrom 6 calcTemplate calcTemplate.doc), ("xl/styles.xml", openFrom 7 styleTemplate styleRest),
     ("xl/worksheets/_rels/sheet1.xml.rels", openFrom 9 relsTemplate relsTemplate.doc)]
  archive :=
    [("xl/worksheets/sheet1.xml", sheetPart env emptySheetDoc)]
  nextHandle := 10

/-- A relationship from the table of contents. -/
def relTo (id target : String) (c : Content) : Rel := { id := id, target := target, type := c.type, mode := none }

/-- The workbook `Excel::new(None)` makes. -/
def newExcel (env : Env) (theme : XDoc) : Excel where
  pkg := newPkg env theme
  rootRels := { rels := [relTo "rId1" "/docProps/core.xml" coreContent, relTo "rId2" "/xl/workbook.xml" workbookContent]
                handle := 0, path := "_rels/.rels" }
  core := ⟨(), 1, "docProps/core.xml"⟩
  book := ⟨(), 2, "xl/workbook.xml"⟩
  rels := { rels := [relTo "rId1" "/xl/theme/theme1.xml" themeContent, relTo "rId2" "/xl/sharedStrings.xml" sharedStringContent,
              relTo "rId3" "/xl/calcChain.xml" calcChainContent, relTo "rId4" "/xl/styles.xml" styleContent,
              relTo "rId5" "/xl/worksheets/sheet1.xml" worksheetContent]
            handle := 3, path := "xl/_rels/workbook.xml.rels" }
  theme := ⟨(), 4, "xl/theme/theme1.xml"⟩
  chain := ⟨[], 6, "xl/calcChain.xml"⟩
  strings := ⟨[], 5, "xl/sharedStrings.xml"⟩
  styles := ⟨newStyles, 7, "xl/styles.xml"⟩
  sheets := [{ name := "sheet1", relId := "rId5", active := false, hide := false }]
  view := none

/-! ## Saving and loading the workbook document -/

/-- The elements the workbook keeps in memory. -/
def bookTags : List String := ["bookViews", "sheets"]

/-- A listed sheet after saving and loading. -/
def reloadSheetEntry (e : SheetEntry) : SheetEntry :=
  { name := attrReload e.name, relId := attrReload e.relId, active := false, hide := e.hide }

/-- The view after saving and loading: the tab flag is inverted, the date grouping has become the tab ratio. -/
def reloadBookView (v : BookView) : BookView :=
  { activeTab := v.activeTab.map attrReload, firstSheet := v.firstSheet.map attrReload, visibility := v.visibility.map attrReload,
    minimize := v.minimize, hideHorizontal := v.hideHorizontal, hideVertical := v.hideVertical, hideTabs := !v.hideTabs,
    tabRatio := (match v.dateGrouping with | some b => some (if b then 1 else 0) | none => v.tabRatio), dateGrouping := none }

/-- The tab ratio has the type of the source. -/
def FitsBook (v : Option BookView) : Prop := ∀ b r, v = some b → b.tabRatio = some r → -32768 ≤ r ∧ r ≤ 32767

/-- The sheet elements of a workbook document. -/
def sheetElements (x : XDoc) : List Node := (x.rootChildren.filter (fun n => n.tag = "sheets")).flatMap Node.children

/-- Names of the sheets a workbook document hides. -/
def hiddenNames (x : XDoc) : List (Option String) :=
  ((sheetElements x).filter (fun n => n.attr? "state" = some "hidden")).map (fun n => n.attr? "name")

/-! ## Sheet lists -/

/-- The names listed. -/
def names (l : List SheetEntry) : List String := l.map SheetEntry.name

/-- What a successful call should do to the listed names and to the names of the handles. -/
inductive NameStep : WbOp → List String × List String → List String × List String → Prop where
  | addNew (n : String) (l hs : List String) : n ∉ l → NameStep (.add (some n)) (l, hs) (l ++ [n], hs ++ [n])
  | addOld (n : String) (l hs : List String) : n ∈ l → NameStep (.add (some n)) (l, hs) (l, hs ++ [n])
  | addDefault (k : Nat) (l hs : List String) : l.length < k →
      NameStep (.add none) (l, hs) (l ++ ["sheet" ++ toString k], hs ++ ["sheet" ++ toString k])
  | getNew (n : String) (l hs : List String) : n ∉ l → NameStep (.get n) (l, hs) (l ++ [n], hs ++ [n])
  | getOld (n : String) (l hs : List String) : n ∈ l → NameStep (.get n) (l, hs) (l, hs ++ [n])
  | rename (old new : String) (a b hs : List String) : old ∉ a → new ∉ a ++ old :: b →
      NameStep (.rename old new) (a ++ old :: b, hs) (a ++ new :: b, hs)
  | drop (i : Nat) (l hs : List String) : NameStep (.drop i) (l, hs) (l, hs.eraseIdx i)
  | delete (i : Nat) (n : String) (l hs : List String) : hs[i]? = some n →
      NameStep (.delete i) (l, hs) (l.filter (· ≠ n), hs.eraseIdx i)
  | deleteNone (i : Nat) (l hs : List String) : hs[i]? = none → NameStep (.delete i) (l, hs) (l, hs)
  | sheet (i : Nat) (op : SheetOp) (l hs : List String) : NameStep (.sheet i op) (l, hs) (l, hs)
  | active (n : String) (l hs : List String) : NameStep (.active n) (l, hs) (l, hs)
  | hide (n : String) (l hs : List String) : NameStep (.hide n) (l, hs) (l, hs)
  | view (op : ViewOp) (l hs : List String) : NameStep (.view op) (l, hs) (l, hs)
  | style (g : Hashes) (st : StyleSetting) (l hs : List String) : NameStep (.style g st) (l, hs) (l, hs)

/-- Names after a history of successful calls. -/
inductive NameSteps : List WbOp → List String × List String → List String × List String → Prop where
  | done (x) : NameSteps [] x x
  | more {op ops x y z} : NameStep op x y → NameSteps ops y z → NameSteps (op :: ops) x z

/-- A history in which every call succeeds. -/
inductive AllOk (env : Env) : Session → List WbOp → Session → Prop where
  | done (s) : AllOk env s [] s
  | more {s s1 s2 op ops} : s.step env op = (.ok (), s1) → AllOk env s1 ops s2 → AllOk env s (op :: ops) s2

/-- Names of the sheets and of the handles. -/
def namesOf (s : Session) : List String × List String := (names s.x.sheets, s.handles.map SheetHandle.name)

/-- The last value a history gives, else the one before. -/
def lastSet {α : Type} (f : ViewOp → Option α) (d : α) (ops : List ViewOp) : α := (ops.filterMap f).getLast?.getD d

/-! ## Parts of a new workbook -/

/-- The k-th sheet part. -/
def sheetName (k : Nat) : String := "xl/worksheets/sheet" ++ toString k ++ ".xml"

/-- The relationships of the k-th sheet part. -/
def sheetRelsName (k : Nat) : String := "xl/worksheets/_rels/sheet" ++ toString k ++ ".xml.rels"

/-- The parts every new workbook has besides sheets. -/
def baseNames : List String :=
  ["_rels/.rels", "docProps/core.xml", "xl/workbook.xml", "xl/_rels/workbook.xml.rels", "xl/theme/theme1.xml",
   "xl/sharedStrings.xml", "xl/calcChain.xml", "xl/styles.xml"]

end Oxml.Spec
