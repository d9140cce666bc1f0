import Verif.Spec.Elsewhere
import Verif.Spec.Targets
/-!
# How other programs find sheets and strings in a file (C106)

From the root relationships to the workbook, from its list of sheets through its relationships to the parts, with content types and
namespaces, as the packaging conventions (ECMA-376 part 2, 9.1, 9.3, 10.1.2) and the file format (part 1, 12.3, 18.2.19, 18.2.20) say.
Nothing here refers to the library.
-/
namespace Oxml.Spec

def packageRelsNs : List Char := "http://schemas.openxmlformats.org/package/2006/relationships".toList
def typesNs : List Char := "http://schemas.openxmlformats.org/package/2006/content-types".toList
def spreadsheetNs : List Char := "http://schemas.openxmlformats.org/spreadsheetml/2006/main".toList
def officeRelsNs : List Char := "http://schemas.openxmlformats.org/officeDocument/2006/relationships".toList
def officeDocumentRel : List Char := "http://schemas.openxmlformats.org/officeDocument/2006/relationships/officeDocument".toList
def worksheetRel : List Char := "http://schemas.openxmlformats.org/officeDocument/2006/relationships/worksheet".toList
def stringsRel : List Char := "http://schemas.openxmlformats.org/officeDocument/2006/relationships/sharedStrings".toList
def workbookType : List Char := "application/vnd.openxmlformats-officedocument.spreadsheetml.sheet.main+xml".toList
def worksheetType : List Char := "application/vnd.openxmlformats-officedocument.spreadsheetml.worksheet+xml".toList
def stringsType : List Char := "application/vnd.openxmlformats-officedocument.spreadsheetml.sharedStrings+xml".toList

/-- The file has a part of that name, which reads as XML, with that default namespace. -/
def PartShows (z : Zip) (part ns : List Char) (item : Item) : Prop :=
  ∃ name text, (name, text) ∈ z ∧ name.toList = part ∧ IsDocument text item ∧ item.attrOf "xmlns" = some ns

/-! ## Relationships -/

/-- A relationship as found. -/
structure FoundRel where
  id : Option (List Char)
  target : Option (List Char)
  type : Option (List Char)
  mode : Option (List Char)
deriving DecidableEq

/-- The relationships of a relationship part. -/
def relationships (rels : Item) : List FoundRel :=
  (rels.kids "Relationship").map (fun i => ⟨i.attrOf "Id", i.attrOf "Target", i.attrOf "Type", i.attrOf "TargetMode"⟩)

/-- The segments of a path. -/
def splitPath : List Char → List (List Char)
  | [] => [[]]
  | c :: cs => if c = '/' then [] :: splitPath cs else
    match splitPath cs with
    | s :: ss => (c :: s) :: ss
    | [] => [[c]]

/-- The directory of a part, with its final slash. -/
def partDir (part : List Char) : List Char := (part.reverse.dropWhile (fun c => decide (c ≠ '/'))).reverse

/-- The name of a part in its directory. -/
def nameOf (part : List Char) : List Char := (part.reverse.takeWhile (fun c => decide (c ≠ '/'))).reverse

/-- The part with the relationships of a part; of the package itself if the name is empty. -/
def relsPartOf (part : List Char) : List Char := partDir part ++ "_rels/".toList ++ nameOf part ++ ".rels".toList

/-- The part a target names, seen from a part. -/
def resolved (source target : List Char) : List Char :=
  joinPath (normal (splitPath (match target with
    | '/' :: t => t
    | t => partDir source ++ t)))

/-- The part a relationship of a part leads to. -/
def FoundRel.leads (source : List Char) (r : FoundRel) : Option (List Char) :=
  if r.mode = some "External".toList then none else r.target.map (resolved source)

/-! ## Content types, namespaces -/

/-- The content type a part is given by an entry of its own. -/
def typeOf (types : Item) (part : List Char) : Option (List Char) :=
  match (types.kids "Override").filter (fun o => decide (o.attrOf "PartName" = some ('/' :: part))) with
  | [o] => o.attrOf "ContentType"
  | _ => none

/-- The prefixes an element declares for a namespace. -/
def Item.prefixes (ns : List Char) : Item → List (List Char)
  | .elem _ kvs _ => kvs.filterMap (fun kv => if kv.2 = ns ∧ kv.1.take 6 = "xmlns:".toList then some (kv.1.drop 6) else none)
  | .text _ => []

/-- An attribute with a name of a namespace the root declares. -/
def Item.attrIn (root : Item) (ns : List Char) (k : String) (i : Item) : Option (List Char) :=
  (root.prefixes ns).findSome? (fun p => i.attrOf (String.ofList (p ++ ':' :: k.toList)))

/-! ## The workbook -/

/-- A sheet as listed. -/
structure ListedSheet where
  name : Option (List Char)
  id : Option (List Char)
  state : Option (List Char)
deriving DecidableEq

/-- The sheets a workbook lists. -/
def sheetList (book : Item) : List ListedSheet :=
  ((book.kids "sheets").flatMap (fun i => i.kids "sheet")).map (fun i => ⟨i.attrOf "name", Item.attrIn book officeRelsNs "id" i, i.attrOf "state"⟩)

/-- A program opens the file: content types, workbook and its relationships. -/
structure OpensFile (z : Zip) (types : Item) (main : List Char) (book rels : Item) : Prop where
  hasTypes : PartShows z "[Content_Types].xml".toList typesNs types
  leadsTo : ∃ root r, PartShows z (relsPartOf []) packageRelsNs root ∧
    (relationships root).filter (fun r => decide (r.type = some officeDocumentRel)) = [r] ∧ r.leads [] = some main
  hasBook : PartShows z main spreadsheetNs book
  kind : typeOf types main = some workbookType
  hasRels : PartShows z (relsPartOf main) packageRelsNs rels

/-- It finds a worksheet under that name. -/
def FindsSheet (z : Zip) (name : List Char) (sheet : Item) : Prop :=
  ∃ types main book rels e id r part, OpensFile z types main book rels ∧ (sheetList book).filter (fun e => decide (e.name = some name)) = [e] ∧ e.id = some id ∧
    (relationships rels).filter (fun r => decide (r.id = some id)) = [r] ∧ r.type = some worksheetRel ∧ r.leads main = some part ∧
    typeOf types part = some worksheetType ∧ PartShows z part spreadsheetNs sheet ∧ sheet.named "worksheet" = true

/-- It finds these shared strings, none if the workbook leads to none. -/
def FindsStrings (z : Zip) (strings : List (List Char)) : Prop :=
  ∃ types main book rels, OpensFile z types main book rels ∧
    (((relationships rels).filter (fun r => decide (r.type = some stringsRel)) = [] ∧ strings = []) ∨
      ∃ r part sst, (relationships rels).filter (fun r => decide (r.type = some stringsRel)) = [r] ∧ r.leads main = some part ∧
        typeOf types part = some stringsType ∧ PartShows z part spreadsheetNs sst ∧ sst.named "sst" = true ∧ strings = sharedStrings sst)

/-! ## Names through a history -/

/-- The name a sheet has after a call, if it is not deleted. -/
def nameAfter (env : Env) (s : Session) (name : String) : WbOp → Option String
  | .rename old new => if old = name ∧ (s.step env (.rename old new)).1 = .ok () then some new else some name
  | .delete i => match s.handles[i]? with
    | some h => if h.name = name then none else some name
    | none => some name
  | _ => some name

/-- The same for a history. -/
def finalName (env : Env) : Session → String → List WbOp → Option String
  | _, name, [] => some name
  | s, name, op :: ops => (nameAfter env s name op).bind (fun n => finalName env (s.step env op).2 n ops)

/-- A name reads the same elsewhere. -/
def CalmName (name : String) : Prop := '\r' ∉ name.toList ∧ '\n' ∉ name.toList ∧ '\t' ∉ name.toList

end Oxml.Spec
