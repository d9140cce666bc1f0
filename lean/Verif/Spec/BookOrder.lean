import Verif.Spec.Workbook
/-!
# The children of a workbook element
-/
namespace Oxml.Spec

/-- The children of `CT_Workbook` in the order of the schema (ECMA-376 Part 1, 18.2.27 and the transitional schema of Part 4). -/
def bookSchema : List String :=
  ["fileVersion", "fileSharing", "workbookPr", "workbookProtection", "bookViews", "sheets", "functionGroups", "externalReferences", "definedNames",
   "calcPr", "oleSize", "customWorkbookViews", "pivotCaches", "smartTagPr", "smartTagTypes", "webPublishing", "fileRecoveryPr", "webPublishObjects",
   "extLst"]

/-- The children the schema has, in the order of the schema. -/
def BookInOrder (cs : List Node) : Prop :=
  (cs.filter (fun n => n.tag ∈ bookSchema)).Pairwise (fun a b => bookSchema.idxOf a.tag ≤ bookSchema.idxOf b.tag)

/-- The children the library does not manage. -/
def bookRest (cs : List Node) : List Node := cs.filter (fun n => n.tag ∉ bookTags)

end Oxml.Spec
