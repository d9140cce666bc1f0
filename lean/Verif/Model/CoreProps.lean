import Verif.Model.Relations
/-!
# `rs/src/global/global_2007/parts/core_properties.rs`
-/
namespace Oxml

/-- The same element with another value (`set_value_mut`, `xml_tree.rs:531-534`). -/
def Node.withValue : Node → String → Node
  | .mk t a _ cs, v => .mk t a (some v) cs

/-- Changes the first element satisfying a test. -/
def mapFirst {α : Type} (p : α → Bool) (f : α → α) : List α → List α
  | [] => []
  | x :: xs => if p x then f x :: xs else x :: mapFirst p f xs

/-- Mutation through `get_first_element_mut(["cp:coreProperties", tag], None)` (`xml_tree.rs:239-297`): the step naming the
root's tag is skipped at the root. -/
def Node.mapCoreItem (tag : String) (f : Node → Node) (root : Node) : Node :=
  let item (n : Node) : Node := n.withChildren (mapFirst (fun c => c.tag = tag) f n.children)
  if root.tag = "cp:coreProperties" then item root
  else root.withChildren (mapFirst (fun c => c.tag = "cp:coreProperties") item root.children)

/-- The document changes of `close_document` (`core_properties.rs:48-76`); `now` is the text of the current time, read
twice. A document without a root panics (`xml_tree.rs:249`). -/
def saveCore (now1 now2 : String) (x : XDoc) : Res XDoc :=
  match x.root with
  | none => .error (.panic "unwrap on None")
  | some r =>
    .ok { x with root := some ((r.mapCoreItem "dcterms:modified" (fun n => n.withValue now1)).mapCoreItem "dcterms:created"
      (fun n => match n.value with | some _ => n | none => n.withValue now2)) }

/-- The document read from `core_properties.xml`; `Props/Templates.lean` checks the text. -/
def coreDoc : XDoc :=
  { ns := [("cp", "http://schemas.openxmlformats.org/package/2006/metadata/core-properties"),
      ("dc", "http://purl.org/dc/elements/1.1/"), ("dcterms", "http://purl.org/dc/terms/"),
      ("dcmitype", "http://purl.org/dc/dcmitype/"), ("xsi", "http://www.w3.org/2001/XMLSchema-instance")],
    root := some (.mk "cp:coreProperties" (some []) none
      [.mk "dc:creator" (some []) (some "OpenXML-Office") [],
       .mk "cp:lastModifiedBy" (some []) (some "OpenXML-Office") [],
       .mk "dcterms:created" (some [("xsi:type", "dcterms:W3CDTF")]) none [],
       .mk "dcterms:modified" (some [("xsi:type", "dcterms:W3CDTF")]) none []]) }

/-- `initialize_content_xml` (`core_properties.rs:28-41`). -/
def coreTemplate : Template :=
  { doc := coreDoc, ctype := some coreContent.ctype, ext := coreContent.ext, extType := coreContent.extType }

end Oxml
