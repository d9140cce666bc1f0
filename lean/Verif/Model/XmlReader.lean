import Verif.Model.Node
import Verif.Model.QuickXml
/-!
# `rs/src/files/xml/xml_serialize.rs`: reading XML text into the arena
-/
namespace Oxml

/-- Reader state (`xml_serialize.rs:39-40`): document, `root_loaded`, `active_xml_element_id`. -/
structure RState where
  doc : XmlDoc
  rootLoaded : Bool
  active : Nat
deriving DecidableEq, Repr

/-- `get_attributes_string` (`xml_serialize.rs:121-132`): names and raw values, not unescaped, collected in a map. -/
def attributesString (attrs : List (List Char × List Char)) : Attrs :=
  attrs.foldl (fun m kv => ainsert (String.ofList kv.1) (String.ofList kv.2) m) []

/-- One event (`xml_serialize.rs:42-116`). -/
def readStep (u : Unicode) (s : RState) : Token → Res RState
  | .start n a =>
    let tag := String.ofList n
    if s.rootLoaded then do
      let (d1, id) ← s.doc.appendChild u tag s.active
      let d2 ← d1.setAttribute u id (attributesString a)
      .ok { s with doc := d2, active := id }
    else do
      let d1 ← s.doc.createRoot u tag
      let d2 ← d1.setAttribute u 0 (attributesString a)
      .ok { doc := d2, rootLoaded := true, active := 0 }
  | .empty n a => do
    let (d1, id) ← s.doc.appendChild u (String.ofList n) s.active
    let d2 ← d1.setAttribute u id (attributesString a)
    .ok { s with doc := d2 }
  | .text raw => do
    let t ← unescape raw
    let d1 ← s.doc.setValue s.active (String.ofList t)
    .ok { s with doc := d1 }
  | .close n =>
    match s.doc.get s.active with
    | none => .error (.fail "Getting Target Element Failed")
    | some e =>
      if e.tag = String.ofList n then .ok { s with active := e.parentId }
      else .error (.fail "Invalid XML Tree Parsing Failed.")

/-- The event loop (`xml_serialize.rs:41-118`). -/
def readLoop (u : Unicode) : RState → List Token → Res RState
  | s, [] => .ok s
  | s, t :: ts => do
    let s' ← readStep u s t
    readLoop u s' ts

/-- `XmlSerializer::vec_to_xml_doc_tree` (`xml_serialize.rs:17-32`). -/
def readXml (u : Unicode) (content : List Char) : Res XmlDoc := do
  let toks ← lex content
  if checkEnds [] toks then do
    let s ← readLoop u { doc := XmlDoc.new, rootLoaded := false, active := 0 } toks
    .ok s.doc
  else .error (.fail "end tag mismatch")

end Oxml
