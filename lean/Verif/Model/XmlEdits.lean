import Verif.Model.XmlArena
/-!
# Edit histories of a document

Every way the library's parts change an `XmlDocument`: the mutators of `xml_tree.rs`, applied by
`relations.rs`, `content_types.rs`, `core_properties.rs`, `share_string.rs`, `calculation_chain.rs`,
`style.rs`, `worksheet.rs`, `workbook.rs` and the XML reader.
-/
namespace Oxml

/-- One edit. Arguments are unrestricted: unknown ids, bad names and positions are allowed. -/
inductive Edit where
  /-- `create_root_mut` -/
  | createRoot (tag : String)
  /-- `append_child_mut` -/
  | append (tag : String) (parent : Nat)
  /-- `insert_children_before_tag_mut` -/
  | before (tag findTag : String) (parent : Nat)
  /-- `insert_children_after_tag_mut` -/
  | after (tag findTag : String) (parent : Nat)
  /-- `insert_child_at_mut` -/
  | atPos (tag : String) (position parent : Nat)
  /-- `set_attribute_mut` -/
  | attributes (id : Nat) (attrs : Attrs)
  /-- `get_attribute_mut` followed by an insertion (`share_string.rs:46-60`) -/
  | attr (id : Nat) (key value : String)
  /-- `set_value_mut` -/
  | value (id : Nat) (text : String)
  /-- `order_child_mut` -/
  | order (id : Nat) (skeleton : List String)
  /-- `pop_elements_by_tag_mut` -/
  | popTag (tag : String) (parent : Nat)
  /-- `pop_element_mut` of an element no longer listed by its parent, as in the loops that drain an element
  already taken out (`worksheet.rs:842-843`, `style.rs:183-185`, ...). -/
  | popDetached (id : Nat)
deriving DecidableEq, Repr

/-- A `HashMap` argument has distinct keys. -/
def Edit.ProperMap : Edit → Prop
  | .attributes _ a => (akeys a).Nodup
  | _ => True

/-- Is the id listed as a child anywhere in the arena? -/
def XmlDoc.listed (d : XmlDoc) (id : Nat) : Bool :=
  d.elems.any (fun kv => kv.2.children.any (fun c => c.id = id))

/-- `get_attribute_mut().insert(key, value)`; does nothing when the element has no attribute map. -/
def XmlDoc.updateAttribute (u : Unicode) (d : XmlDoc) (id : Nat) (key value : String) : XmlDoc :=
  match d.get id with
  | none => d
  | some e =>
    match e.attrs with
    | none => d
    | some a =>
      if isValidXmlName u key ∧ isNsKey key = false then
        d.put id { e with attrs := some (ainsert key value a) }
      else d

/-- The document after one edit. A failing call leaves the document as it was. -/
def XmlDoc.edit (u : Unicode) (d : XmlDoc) : Edit → XmlDoc
  | .createRoot tag => (d.createRoot u tag).toOption.getD d
  | .append tag p => ((d.appendChild u tag p).toOption.map Prod.fst).getD d
  | .before tag f p => ((d.insertBefore u tag f p).toOption.map Prod.fst).getD d
  | .after tag f p => ((d.insertAfter u tag f p).toOption.map Prod.fst).getD d
  | .atPos tag pos p => ((d.insertAt u tag pos p).toOption.map Prod.fst).getD d
  | .attributes id a => (d.setAttribute u id a).toOption.getD d
  | .attr id k v => d.updateAttribute u id k v
  | .value id t => (d.setValue id t).toOption.getD d
  | .order id sk => (d.orderChild id sk).toOption.getD d
  | .popTag tag p => (d.popByTag tag p).1
  | .popDetached id => if d.listed id then d else (d.popElement id).1

/-- The document after a history of edits, starting from an empty document. -/
def XmlDoc.history (u : Unicode) (h : List Edit) : XmlDoc := h.foldl (XmlDoc.edit u) XmlDoc.new

end Oxml
