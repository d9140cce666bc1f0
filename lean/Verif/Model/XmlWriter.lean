import Verif.Model.Node
import Verif.Model.QuickXml
/-!
# `rs/src/files/xml/xml_deserialize.rs`: writing the arena as XML text
-/
namespace Oxml

/-- Sorted insertion by key for strings (`keys.sort()`, `xml_deserialize.rs:147-148`). -/
def insertByKey (kv : String × String) : Attrs → Attrs
  | [] => [kv]
  | x :: xs => if kv.1 ≤ x.1 then kv :: x :: xs else x :: insertByKey kv xs

/-- Attributes ordered by key. -/
def sortAttrs (a : Attrs) : Attrs := a.foldr insertByKey []

/-- `[a, b, c].join(" ")`. -/
def joinSpace : List (List Char) → List Char
  | [] => []
  | [x] => x
  | x :: xs => x ++ ' ' :: joinSpace xs

/-- One namespace declaration; the URI is written as is (`xml_deserialize.rs:132-138`). -/
def nsText (kv : String × String) : List Char :=
  if kv.1 = defaultNsKey then "xmlns=\"".toList ++ kv.2.toList ++ "\"".toList
  else "xmlns:".toList ++ kv.1.toList ++ "=\"".toList ++ kv.2.toList ++ "\"".toList

/-- One attribute, value escaped (`xml_deserialize.rs:153`). -/
def attrText (kv : String × String) : List Char :=
  kv.1.toList ++ "=\"".toList ++ escape kv.2.toList ++ "\"".toList

/-- The extra namespace of a release build (`xml_deserialize.rs:120-126`). -/
def releaseNs (b : Build) (ns : Attrs) : Attrs :=
  if b.release then ainsert "dvmo" "http://schemas.draviavemal.com/openxml-office" ns else ns

/-- `generate_xml_element` (`xml_deserialize.rs:115-166`). `ns` is `some` for the root element. -/
def openTag (b : Build) (tag : String) (attrs : Option Attrs) (ns : Option Attrs) (close : Bool) : List Char :=
  '<' :: tag.toList
    ++ (match ns with
        | some m => ' ' :: joinSpace ((releaseNs b m).map nsText)
        | none => [])
    ++ (match attrs with
        | some a => ' ' :: joinSpace ((sortAttrs a).map attrText)
        | none => [])
    ++ (if close then " />".toList else " >".toList)

/-- `generate_xml_value_close` (`xml_deserialize.rs:168-170`). -/
def valueClose (value : String) (tag : String) : List Char :=
  escape value.toList ++ "</".toList ++ tag.toList ++ ">".toList

/-- `is_empty_tag` (`xml_tree.rs:409-411`). -/
def Elem.isEmptyTag (e : Elem) : Bool := e.children.isEmpty && e.value.isNone

/-- The walk of `build_xml_tree` (`xml_deserialize.rs:58-107`). `fuel` is `max_count - current_count`: running
out of it is the "Loop Safety" error. Children are popped from the arena while walking. -/
def writeLoop (b : Build) : Nat → XmlDoc → Nat → List Char → Res (List Char)
  | 0, _, _, _ => .error (.fail "Loop Safety Error Triggered at XML Deserialized")
  | fuel + 1, d, parent, out =>
    match d.get parent with
    | none => .error (.fail "Un know Element pull failed")
    | some p =>
      match p.children with
      | c :: cs =>
        let d1 := d.put parent { p with children := cs }
        match d1.get c.id with
        | none => .error (.fail "Un know element ID is Pull failed")
        | some e =>
          if e.isEmptyTag then writeLoop b fuel d1 parent (out ++ openTag b e.tag e.attrs none true)
          else
            let out1 := out ++ openTag b e.tag e.attrs none false
            match e.value with
            | some v => writeLoop b fuel d1 parent (out1 ++ valueClose v e.tag)
            | none => writeLoop b fuel d1 c.id out1
      | [] =>
        if parent = 0 then .ok out
        else writeLoop b fuel d p.parentId (out ++ valueClose "" p.tag)

/-- `build_xml_tree` (`xml_deserialize.rs:43-113`), returning the text appended to `master_string`. -/
def buildXmlTree (b : Build) (d : XmlDoc) : Res (List Char) :=
  match d.get 0 with
  | none => .ok []
  | some root =>
    if root.isEmptyTag then .ok (openTag b root.tag root.attrs (some d.ns) true)
    else
      let out := openTag b root.tag root.attrs (some d.ns) false
      match root.value with
      | some v => .ok (out ++ valueClose v root.tag)
      | none => do
        let out1 ← writeLoop b (d.count * 2) d 0 out
        .ok (out1 ++ valueClose "" root.tag)

/-- Text before the root element (`xml_deserialize.rs:16-32`): the declaration, and in a release build a
comment whose inner text is `stamp` (name, repository, version and time). -/
def xmlHeader (b : Build) (stamp : List Char) : List Char :=
  "<?xml version=\"1.0\" encoding=\"utf-8\"?>".toList
    ++ (if b.release then "<!--".toList ++ stamp ++ "-->".toList else [])

/-- `XmlDeSerializer::xml_tree_to_vec` (`xml_deserialize.rs:11-41`). -/
def writeXml (b : Build) (stamp : List Char) (d : XmlDoc) : Res (List Char) := do
  let body ← buildXmlTree b d
  .ok (xmlHeader b stamp ++ body)

end Oxml
