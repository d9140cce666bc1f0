import Verif.Spec.Existing
/-!
# Vocabulary for crashes
-/
namespace Oxml.Spec

/-- The call crashes the program (a Rust panic) instead of returning. -/
def Crashes {α : Type} (r : Res α) : Prop := ∃ m, r = .error (.panic m)

/-- The list of content types has an entry for a part of the file that gives no content type. -/
def UntypedPart (env : Env) (z : Zip) : Prop :=
  ∃ d n o, zipDoc env z contentTypesName = some d ∧ n ∈ akeys z ∧ n ≠ contentTypesName ∧ o ∈ d.rootChildren ∧ o.tag ≠ "Default" ∧
    o.attr? "PartName" = some ("/" ++ n) ∧ o.attr? "ContentType" = none

/-- The first relationship of a type in a relationship document. -/
def firstOfType (d : XDoc) (type : String) : Option Node :=
  (d.rootChildren.filter (fun n => n.tag = "Relationship")).find? (fun n => n.attr? "Type" = some type)

/-- The part a relationship part of the file leads to for a kind of content: the target of the first relationship of its type, or
the usual name if there is none. -/
def LeadsTo (env : Env) (z : Zip) (relsPart : String) (c : Content) (n : String) : Prop :=
  (∃ d r t, zipDoc env z relsPart = some d ∧ firstOfType d c.type = some r ∧ r.attr? "Target" = some t ∧ resolveTarget relsPart t = .ok n) ∨
  ((∀ d, zipDoc env z relsPart = some d → firstOfType d c.type = none) ∧ n = c.path ++ "/" ++ c.name ++ "." ++ c.ext)

/-- A character outside ASCII stands directly before `_rels` in the name. -/
def OddName (path : String) : Prop :=
  ∃ (before : List Char) (c : Char) (after : List Char), path.toList = before ++ c :: ("_rels".toList ++ after) ∧ 128 ≤ c.val

/-- The core properties of the file are a document without a root element. -/
def RootlessCore (env : Env) (z : Zip) : Prop := ∃ n, LeadsTo env z "_rels/.rels" coreContent n ∧ ¬ HasRoot env z n

/-- An entry of the calculation chain the relationship part leads to names no cell or no sheet. -/
def BrokenChain (env : Env) (z : Zip) (relsPart : String) : Prop :=
  ∃ n d c, LeadsTo env z relsPart calcChainContent n ∧ zipDoc env z n = some d ∧ c ∈ d.rootChildren ∧ c.tag = "c" ∧ c.attrs ≠ none ∧
    (c.attr? "r" = none ∨ c.attr? "i" = none)

/-- `relsPart` is where the library looks for the relationships of the workbook part. -/
def WorkbookRels (bookPart relsPart : String) : Prop :=
  ∃ dir base : List Char, bookPart.toList = dir ++ '/' :: base ∧ '/' ∉ base ∧ relsPart.toList = dir ++ "/_rels/workbook.xml.rels".toList

/-- A column of the worksheet document is outside the type of column numbers, or named by other letters than A to Z. -/
def OddColumn (u : Unicode) (x : XDoc) : Prop :=
  ∃ n ∈ x.rootChildren, n.tag = "sheetData" ∧ ∃ row ∈ n.children, ∃ c ∈ row.children, ∃ ref, c.attr? "r" = some ref ∧
    ((∃ ch ∈ ref.toList.takeWhile (isAlphabetic u), ¬ isLetter ch) ∨ 65535 < columnValue (ref.toList.takeWhile (isAlphabetic u)))

/-- What a call asking for a sheet can crash on. -/
def AskTrouble (env : Env) (x : Excel) (name : Option String) : Prop :=
  OddName x.rels.path ∨ (∃ n path, name = some n ∧ StoredIn x n path ∧ '/' ∉ path.toList) ∨
  (env.build.release = false ∧ ∃ path d, AboutPart x name path ∧ partDoc env x.pkg path = some d ∧ OddColumn env.uni d)

/-- What a call can crash on. Arithmetic only overflows with a crash in a checked build. -/
def CallTrouble (env : Env) (s : Session) : WbOp → Prop
  | .add name => AskTrouble env s.x name
  | .get name => AskTrouble env s.x (some name)
  | .sheet _ op => env.build.release = false ∧ ¬ op.InRange
  | .style _ _ => env.build.release = false ∧ 65373 ≤ s.x.styles.data.numFmts.length
  | _ => False

/-- Every listed sheet with a relationship lies in a folder, as do all sheets of ordinary files. -/
def SheetsInFolders (x : Excel) : Prop :=
  ∀ e ∈ x.sheets, ∀ r ∈ x.rels.rels, r.id = e.relId → ∀ n, resolveTarget x.rels.path r.target = .ok n → '/' ∈ n.toList

end Oxml.Spec
