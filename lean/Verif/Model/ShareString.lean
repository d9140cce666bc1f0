import Verif.Model.Relations
/-!
# `rs/src/spreadsheet/spreadsheet_2007/services/share_string.rs` and `calculation_chain.rs`
-/
namespace Oxml

/-- Number of distinct entries: `collect::<HashSet<String>>().len()`. -/
def distinctCount (l : List String) : Nat := l.eraseDups.length

/-- One `si` element with its `t` child (`share_string.rs:63-70`). -/
def siNode (s : String) : Node := .mk "si" none none [.mk "t" none (some s) []]

/-- The document changes of `close_document` for a non-empty table (`share_string.rs:45-71`). -/
def saveStrings (x : XDoc) (table : List String) : Res XDoc :=
  (x.insertRootAttrs [("count", toString table.length), ("uniqueCount", toString (distinctCount table))]).appendAll (table.map siNode)

/-- `load_content_to_database` (`share_string.rs:168-188`): the value of the first child of each `si`; an `si` without
children is skipped. -/
def loadStrings (x : XDoc) : List String × XDoc :=
  ((x.popTag "si").1.filterMap (fun n => n.children.head?.map (fun c => c.value.getD "")), (x.popTag "si").2)

/-- `get_string_id_mut` (`share_string.rs:192-205`): new table and id text. -/
def getStringId (table : List String) (value : String) : List String × String :=
  match table.findIdx? (fun s => s = value) with
  | some i => (table, toString i)
  | none => (table ++ [value], toString ((table ++ [value]).length - 1))

/-- `initialize_content_xml` (`share_string.rs:99-123`). -/
def stringsTemplate : Template :=
  { doc := XDoc.template "sst" sharedStringContent.ns, ctype := some sharedStringContent.ctype,
    ext := sharedStringContent.ext, extType := sharedStringContent.extType }

/-- A calculation chain entry: cell, sheet id, `l` (`calculation_chain.rs:16`). -/
abbrev CalcEntry := String × String × Option String

/-- `load_content_to_database` of the calculation chain (`calculation_chain.rs:141-162`): indexing a missing `r` or `i`
panics. -/
def loadCalc (x : XDoc) : Res (List CalcEntry) × XDoc :=
  (mapRes (fun n : Node =>
      match aget "r" (n.attrs.getD []), aget "i" (n.attrs.getD []) with
      | some r, some i => .ok (r, i, aget "l" (n.attrs.getD []))
      | _, _ => .error (.panic "no entry found for key"))
    ((x.popTag "c").1.filter (fun n => n.attrs.isSome)), (x.popTag "c").2)

/-- One `c` element (`calculation_chain.rs:40-48`): `l` is not written. -/
def calcNode (e : CalcEntry) : Node := .mk "c" (some [("r", e.1), ("i", e.2.1)]) none []

/-- The document changes of `close_document` for a non-empty chain (`calculation_chain.rs:36-49`). -/
def saveCalc (x : XDoc) (chain : List CalcEntry) : Res XDoc := x.appendAll (chain.map calcNode)

/-- `initialize_content_xml` of the calculation chain (`calculation_chain.rs:73-97`). -/
def calcTemplate : Template :=
  { doc := XDoc.template "calcChain" calcChainContent.ns, ctype := some calcChainContent.ctype,
    ext := calcChainContent.ext, extType := calcChainContent.extType }

end Oxml
