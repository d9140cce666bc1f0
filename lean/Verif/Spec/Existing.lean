import Verif.Spec.Sessions
import Verif.Spec.OfficeDoc
/-!
# Vocabulary for workbooks opened from existing files
-/
namespace Oxml.Spec

/-- The history ran in the workbook opened from the file and ended here. -/
def RanOn (env : Env) (theme : XDoc) (z : Zip) (ops : List WbOp) (x : Excel) (s : Session) : Prop :=
  Excel.openFile env theme z = .ok x ∧ Session.run env ⟨x, []⟩ ops = .ok s

/-- The parts the workbook itself works on: relationships, core properties, workbook, theme, strings, calculation chain, styles. -/
def ownParts (x : Excel) : List String :=
  [x.rootRels.path, x.core.path, x.book.path, x.rels.path, x.theme.path, x.strings.path, x.chain.path, x.styles.path]

/-- `n` is the relationship part of the part `path`. -/
def IsRelsOf (n path : String) : Prop :=
  ∃ dir base : List Char, path.toList = dir ++ '/' :: base ∧ '/' ∉ base ∧ n.toList = dir ++ "/_rels/".toList ++ base ++ ".rels".toList

/-- The sheet of that name is stored in the part `path`: the first listed sheet of the name, the first workbook relationship of
its id. -/
def StoredIn (x : Excel) (name path : String) : Prop :=
  ∃ e r, x.sheets.find? (fun e => e.name = name) = some e ∧ x.rels.rels.find? (fun r => r.id = e.relId) = some r ∧
    resolveTarget x.rels.path r.target = .ok path

/-- A name for the part of a new sheet, in use by no closed part. -/
def NewSheetPart (x : Excel) (path : String) : Prop :=
  ∃ dir k, relativePath x.rels.path = .ok dir ∧ path = dir ++ "worksheets/sheet" ++ toString (k : Nat) ++ ".xml" ∧ aget path x.pkg.archive = none

/-- A call asking for a sheet under the name is about the part `path`. -/
def AboutPart (x : Excel) (name : Option String) (path : String) : Prop :=
  match name with
  | some n => if n ∈ names x.sheets then StoredIn x n path else NewSheetPart x path
  | none => NewSheetPart x path

/-- The call asks for no sheet stored in the part, nor for one whose relationship part it is. -/
def LeavesAlone (n : String) (s : Session) : WbOp → Prop
  | .add name => ∀ path, AboutPart s.x name path → n ≠ path ∧ ¬ IsRelsOf n path
  | .get name => ∀ path, AboutPart s.x (some name) path → n ≠ path ∧ ¬ IsRelsOf n path
  | _ => True

/-- No call of the history does. -/
def NeverAsks (env : Env) (n : String) : Session → List WbOp → Prop
  | _, [] => True
  | s, op :: ops => LeavesAlone n s op ∧ NeverAsks env n (s.step env op).2 ops

/-- Each of the workbook's own parts is missing in the file, or can be read and has no text directly in its root nor quotes in its
namespace names. -/
def TidyParts (env : Env) (z : Zip) (x : Excel) : Prop := ∀ n ∈ ownParts x, aget n z ≠ none → ∃ d, zipDoc env z n = some d ∧ Tidy d

/-- Number, name, relationship id and state the sheet elements of a workbook document show. -/
def sheetLines (x : XDoc) : List (Option String × Option String × Option String × Option String) :=
  (sheetElements x).map (fun n => (n.attr? "sheetId", n.attr? "name", n.attr? "r:id", n.attr? "state"))

/-- What listed sheets look like in a saved file: numbered from 1, in order, hidden or not. -/
def writtenLines (l : List SheetEntry) : List (Option String × Option String × Option String × Option String) :=
  (l.zipIdx 1).map (fun e => (some (toString e.2), some (attrReload e.1.name), some (attrReload e.1.relId), if e.1.hide then some "hidden" else none))

/-- Font sizes asked for are bytes. -/
def SizesFit (ops : List WbOp) : Prop := ∀ hs st, WbOp.style hs st ∈ ops → st.fontSize ≤ u8Max

/-- The text does not begin with a slash. -/
def NoSlash (p : String) : Prop := p.toList.head? ≠ some '/'

/-- The relationships of the workbook need no escaping, and none leads to a name beginning with a slash. -/
structure PlainRels (x : Excel) : Prop where
  root : ∀ r ∈ x.rootRels.rels, PlainRel r
  dir : ∃ dir, relativePath x.rels.path = .ok dir ∧ NoSlash dir ∧ NoSpecials dir
  rels : ∀ r ∈ x.rels.rels, PlainRel r ∧ ∀ n, resolveTarget x.rels.path r.target = .ok n → NoSlash n

/-- The part is missing in the file, or its root has children. -/
def HasContent (env : Env) (z : Zip) (n : String) : Prop := ∀ d, zipDoc env z n = some d → d.rootChildren ≠ []

/-- Cell references of a worksheet start with a column name within the type of column numbers, and digits follow. -/
def ColumnsNamed (x : XDoc) : Prop :=
  ∀ n ∈ x.rootChildren, n.tag = "sheetData" → ∀ row ∈ n.children, ∀ c ∈ row.children, ∀ ref, c.attr? "r" = some ref →
    ∃ letters digits, ref.toList = letters ++ digits ∧ letters ≠ [] ∧ (∀ ch ∈ letters, isLetter ch) ∧ (∀ ch ∈ digits, ch.isDigit) ∧
      columnValue letters ≤ 65535

/-- After the calls `ops0` on the workbook opened from the file, the sheet stored in the part is asked for under the name, the calls `ops1` edit it through
the handle returned, and that handle, now the `i`th, is dropped; `s0` is the state before, `s3` the state after. -/
def EditRun (env : Env) (theme : XDoc) (z : Zip) (path : String) (edits : List SheetOp) (x : Excel) (ops0 : List WbOp) (name : String)
    (ops1 : List WbOp) (i : Nat) (s3 : Session) : Prop :=
  ∃ s0 s1 h s2 g, RanOn env theme z ops0 x s0 ∧ s0.step env (.get name) = (.ok (), s1) ∧ s1.handles = s0.handles ++ [h] ∧ h.path = path ∧
    s1.run env ops1 = .ok s2 ∧ FittingOps env ops1 ∧ edits = writesTo env path s1 ops1 ∧ s2.handles[i]? = some g ∧ g.handle = h.handle ∧
    (s2.step env (.drop i)).2 = s3

/-- In the workbook opened from the file the sheet stored in the part was asked for, edited through the handle returned, and the
handle dropped; before and after, no call asked for it. -/
def EditedSheet (env : Env) (theme : XDoc) (z : Zip) (ops : List WbOp) (path : String) (edits : List SheetOp) (x : Excel) (s : Session) : Prop :=
  ∃ ops0 name ops1 i s3 ops2, ops = ops0 ++ .get name :: (ops1 ++ .drop i :: ops2) ∧ EditRun env theme z path edits x ops0 name ops1 i s3 ∧
    s3.run env ops2 = .ok s ∧ NeverAsks env path ⟨x, []⟩ ops0 ∧ NeverAsks env path s3 ops2

/-- Moreover no call asked for its relationship part. -/
def EditedApart (env : Env) (theme : XDoc) (z : Zip) (ops : List WbOp) (path : String) (edits : List SheetOp) (x : Excel) (s : Session) : Prop :=
  ∃ ops0 name ops1 i s3 ops2, ops = ops0 ++ .get name :: (ops1 ++ .drop i :: ops2) ∧ EditRun env theme z path edits x ops0 name ops1 i s3 ∧
    s3.run env ops2 = .ok s ∧ ∀ n, n = path ∨ IsRelsOf n path → NeverAsks env n ⟨x, []⟩ ops0 ∧ NeverAsks env n s3 ops2

/-- The part is missing in the file, or its document has a root element. -/
def HasRoot (env : Env) (z : Zip) (n : String) : Prop := ∀ d, zipDoc env z n = some d → d.root ≠ none

end Oxml.Spec
