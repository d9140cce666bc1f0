import Verif.Spec.Sessions
/-!
# Vocabulary for adding sheets (C99)
-/
namespace Oxml.Spec

/-- The sheet part a new sheet of a workbook gets: the first, counting on from the number of listed sheets, that no closed part has. -/
def FirstFree (x : Excel) (k : Nat) : Prop :=
  x.sheets.length < k ∧ sheetName k ∉ akeys x.pkg.archive ∧ ∀ j, x.sheets.length < j → j < k → sheetName j ∈ akeys x.pkg.archive

/-- The part a listed sheet leads to. -/
def SheetLeadsTo (x : Excel) (e : SheetEntry) (path : String) : Prop :=
  ∃ r, x.rels.rels.find? (fun r => r.id = e.relId) = some r ∧ resolveTarget x.rels.path r.target = .ok path

/-- A history in which no sheet is deleted. -/
def DeletesNothing (ops : List WbOp) : Prop := ∀ i, WbOp.delete i ∉ ops

/-- Sheet parts of a workbook stored in a directory (empty or ending with a slash). -/
def sheetIn (dir : String) (k : Nat) : String := dir ++ "worksheets/sheet" ++ toString k ++ ".xml"

/-- Their relationship parts. -/
def sheetRelsIn (dir : String) (k : Nat) : String := dir ++ "worksheets/_rels/sheet" ++ toString k ++ ".xml.rels"

/-- As `FirstFree`, in any directory. -/
def FirstFreeIn (x : Excel) (dir : String) (k : Nat) : Prop :=
  x.sheets.length < k ∧ sheetIn dir k ∉ akeys x.pkg.archive ∧ ∀ j, x.sheets.length < j → j < k → sheetIn dir j ∈ akeys x.pkg.archive

/-- A part the library can read as relationships: XML it reads, in which each relationship has an id, a target and a type. -/
def RelsReadable (env : Env) (content : List Char) : Prop :=
  ∃ d, readXml env.uni content = .ok d ∧ ∀ n ∈ d.toXDoc.rootChildren, n.tag = "Relationship" →
    (n.attr? "Id").isSome ∧ (n.attr? "Target").isSome ∧ (n.attr? "Type").isSome

end Oxml.Spec
