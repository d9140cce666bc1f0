import Verif.Model.Maps
/-!
# `rs/src/files/xml/xml_tree.rs`: the element arena

`XmlDocument` keeps all elements in a map from id to element; an element lists its children by id and tag.
-/
namespace Oxml

/-- `XmlElementChild` (`xml_tree.rs:320-323`). -/
structure Child where
  id : Nat
  tag : String
deriving DecidableEq, Repr

/-- `XmlElement` (`xml_tree.rs:326-342`) without the weak pointer to the namespace map. -/
structure Elem where
  id : Nat
  parentId : Nat
  tag : String
  attrs : Option Attrs
  value : Option String
  children : List Child
deriving DecidableEq, Repr

/-- `XmlDocument` (`xml_tree.rs:9-15`). -/
structure XmlDoc where
  runningId : Nat
  ns : Attrs
  elems : List (Nat × Elem)
deriving DecidableEq, Repr

/-- `is_name_start_char` (`xml_tree.rs:366-368`). -/
def isNameStartChar (u : Unicode) (c : Char) : Bool := c = '_' || isAlphabetic u c

/-- `is_name_char` (`xml_tree.rs:369-371`). -/
def isNameChar (u : Unicode) (c : Char) : Bool :=
  isNameStartChar u c || c.isDigit || c = '-' || c = '.' || c = ':'

/-- The loop over the remaining characters (`xml_tree.rs:381-391`); `colons` is `colon_count`. -/
def nameTailOk (u : Unicode) : List Char → Nat → Bool
  | [], _ => true
  | c :: cs, colons =>
    if c = ':' then
      if colons + 1 > 1 then false else nameTailOk u cs (colons + 1)
    else if !isNameChar u c then false
    else nameTailOk u cs colons

/-- `XmlElement::is_valid_xml_name` (`xml_tree.rs:365-393`). -/
def isValidXmlName (u : Unicode) (name : String) : Bool :=
  match name.toList with
  | [] => false
  | c :: cs => if !isNameStartChar u c then false else nameTailOk u cs 0

/-- `XmlDocument::new` (`xml_tree.rs:19-25`). -/
def XmlDoc.new : XmlDoc := { runningId := 0, ns := [], elems := [] }

/-- `get_element` (`xml_tree.rs:88-90`). -/
def XmlDoc.get (d : XmlDoc) (id : Nat) : Option Elem := aget id d.elems

/-- `get_element_count` (`xml_tree.rs:27-29`). -/
def XmlDoc.count (d : XmlDoc) : Nat := d.elems.length

/-- Overwrites the element stored under an id (mutation through `get_element_mut`, or `HashMap::insert`). -/
def XmlDoc.put (d : XmlDoc) (id : Nat) (e : Elem) : XmlDoc := { d with elems := ainsert id e d.elems }

/-- `XmlElement::new` (`xml_tree.rs:346-363`). -/
def newElem (u : Unicode) (tag : String) : Res Elem :=
  if isValidXmlName u tag then
    .ok { id := 0, parentId := 0, tag := tag, attrs := none, value := none, children := [] }
  else .error (.fail "Provided Tag Name is not valid.")

/-- `create_root_mut` (`xml_tree.rs:99-104`): element 0. -/
def XmlDoc.createRoot (u : Unicode) (d : XmlDoc) (tag : String) : Res XmlDoc := do
  let e ← newElem u tag
  .ok (d.put 0 e)

/-- `get_element_ids_by_tag` (`xml_tree.rs:67-86`). -/
def XmlDoc.idsByTag (d : XmlDoc) (tag : String) (parent : Nat) : List Nat :=
  match d.get parent with
  | none => []
  | some p => (p.children.filter (fun c => c.tag = tag)).map Child.id

/-- `get_element_ids_by_attribute` (`xml_tree.rs:35-65`). -/
def XmlDoc.idsByAttribute (d : XmlDoc) (key value : String) (parent : Nat) : List Nat :=
  match d.get parent with
  | none => []
  | some p =>
    (p.children.filter (fun c =>
      match d.get c.id with
      | none => false
      | some e =>
        match e.attrs with
        | none => false
        | some a => aget key a = some value)).map Child.id

/-- `pop_elements_by_tag_mut` (`xml_tree.rs:107-136`). -/
def XmlDoc.popByTag (d : XmlDoc) (tag : String) (parent : Nat) : XmlDoc × Option (List Elem) :=
  match d.get parent with
  | none => (d, none)
  | some p =>
    let ids := d.idsByTag tag parent
    if ids = [] then (d, none)
    else
      let d1 := d.put parent { p with children := p.children.filter (fun c => c.tag ≠ tag) }
      let popped := ids.filterMap (fun i => aget i d1.elems)
      let d2 := { d1 with elems := ids.foldl (fun m i => aerase i m) d1.elems }
      (d2, if popped = [] then none else some popped)

/-- `pop_element_mut` (`xml_tree.rs:138-140`): the parent's child list is not touched. -/
def XmlDoc.popElement (d : XmlDoc) (id : Nat) : XmlDoc × Option Elem :=
  ({ d with elems := aerase id d.elems }, d.get id)

/-- Position just before the first child with the tag, else 0 (`xml_tree.rs:547-566`). -/
def insertBeforeTag (new : Child) (findTag : String) (cs : List Child) : List Child :=
  match cs.findIdx? (fun c => c.tag = findTag) with
  | some i => cs.take i ++ new :: cs.drop i
  | none => new :: cs

/-- Index of the last child with the tag (`rposition`, `xml_tree.rs:570`). -/
def lastTagIdx (findTag : String) : List Child → Option Nat
  | [] => none
  | c :: cs =>
    match lastTagIdx findTag cs with
    | some i => some (i + 1)
    | none => if c.tag = findTag then some 0 else none

/-- Position just after the last child with the tag, else the end (`xml_tree.rs:568-584`). -/
def insertAfterTag (new : Child) (findTag : String) (cs : List Child) : List Child :=
  match lastTagIdx findTag cs with
  | some i => cs.take (i + 1) ++ new :: cs.drop (i + 1)
  | none => cs ++ [new]

/-- The common body of the four insertion functions (`xml_tree.rs:142-237`): allocate the next id, put the new
element in the arena and list it in the parent's children as `place` says. Returns the new id. -/
def XmlDoc.insertWith (u : Unicode) (d : XmlDoc) (tag : String) (parent : Nat)
    (place : Child → List Child → Res (List Child)) : Res (XmlDoc × Nat) :=
  match d.get parent with
  | none => .error (.fail "Parent Element Not Found")
  | some p => do
    let e ← newElem u tag
    let id := d.runningId + 1
    let cs ← place { id := id, tag := tag } p.children
    let d1 := d.put parent { p with children := cs }
    let d2 := d1.put id { e with id := id, parentId := parent }
    .ok ({ d2 with runningId := id }, id)

/-- `append_child_mut` (`xml_tree.rs:214-237`). -/
def XmlDoc.appendChild (u : Unicode) (d : XmlDoc) (tag : String) (parent : Nat) : Res (XmlDoc × Nat) :=
  d.insertWith u tag parent (fun c cs => .ok (cs ++ [c]))

/-- `insert_children_before_tag_mut` (`xml_tree.rs:142-164`). -/
def XmlDoc.insertBefore (u : Unicode) (d : XmlDoc) (tag findTag : String) (parent : Nat) : Res (XmlDoc × Nat) :=
  d.insertWith u tag parent (fun c cs => .ok (insertBeforeTag c findTag cs))

/-- `insert_children_after_tag_mut` (`xml_tree.rs:166-188`). -/
def XmlDoc.insertAfter (u : Unicode) (d : XmlDoc) (tag findTag : String) (parent : Nat) : Res (XmlDoc × Nat) :=
  d.insertWith u tag parent (fun c cs => .ok (insertAfterTag c findTag cs))

/-- `insert_child_at_mut` (`xml_tree.rs:190-212`); `Vec::insert` panics beyond the end. -/
def XmlDoc.insertAt (u : Unicode) (d : XmlDoc) (tag : String) (position parent : Nat) : Res (XmlDoc × Nat) :=
  d.insertWith u tag parent (fun c cs =>
    if position ≤ cs.length then .ok (cs.take position ++ c :: cs.drop position)
    else .error (.panic "insertion index out of range"))

/-- Does an attribute key count as a namespace declaration? (`starts_with("xmlns")`, `xml_tree.rs:498`). -/
def isNsKey (key : String) : Bool := "xmlns".toList.isPrefixOf key.toList

/-- Text between the first and the second colon (`split(":")[1]`), or `none` without a colon (`xml_tree.rs:507-508`). -/
def nsAlias (key : String) : Option String :=
  match key.toList.dropWhile (fun c => c ≠ ':') with
  | [] => none
  | _ :: rest => some (String.ofList (rest.takeWhile (fun c => c ≠ ':')))

/-- The key used for the default namespace (`xml_tree.rs:518`). -/
def defaultNsKey : String := "<Default>"

/-- Registers one namespace declaration (`xml_tree.rs:506-521`): a prefix is only added when new, the
default namespace is overwritten. -/
def addNs (ns : Attrs) (key value : String) : Attrs :=
  match nsAlias key with
  | some al => if ahas al ns then ns else ainsert al value ns
  | none => ainsert defaultNsKey value ns

/-- `set_attribute_mut` (`xml_tree.rs:479-529`) on the element with the given id. -/
def XmlDoc.setAttribute (u : Unicode) (d : XmlDoc) (id : Nat) (attrs : Attrs) : Res XmlDoc :=
  match d.get id with
  | none => .error (.fail "element missing")
  | some e =>
    if !(akeys attrs).all (isValidXmlName u) then
      .error (.fail "Not All the attribute satisfy naming standards")
    else
      let ns := (attrs.filter (fun kv => isNsKey kv.1)).foldl (fun m kv => addNs m kv.1 kv.2) d.ns
      let rest := attrs.filter (fun kv => !isNsKey kv.1)
      .ok { (d.put id { e with attrs := some rest }) with ns := ns }

/-- `set_value_mut` (`xml_tree.rs:531-534`) on the element with the given id. -/
def XmlDoc.setValue (d : XmlDoc) (id : Nat) (text : String) : Res XmlDoc :=
  match d.get id with
  | none => .error (.fail "Getting Target Element Failed")
  | some e => .ok (d.put id { e with value := some text })

/-- Index of a tag in the order list; `order_map` is collected from (tag, index) pairs, so the last
occurrence wins; absent tags get `usize::MAX` (`xml_tree.rs:464-474`). -/
def orderKey (skeleton : List String) (tag : String) : Nat :=
  match lastIdx skeleton with
  | some i => i
  | none => usizeMax
where
  lastIdx : List String → Option Nat
    | [] => none
    | t :: ts =>
      match lastIdx ts with
      | some i => some (i + 1)
      | none => if t = tag then some 0 else none

/-- Insertion step of a stable sort: before the first element with a strictly larger key. -/
def stableInsert {α : Type} (key : α → Nat) (x : α) : List α → List α
  | [] => [x]
  | y :: ys => if key y ≤ key x then y :: stableInsert key x ys else x :: y :: ys

/-- A stable sort by key, standing for `sort_by_key` (which is stable, hence determined by its
specification; see `C12`). -/
def stableSort {α : Type} (key : α → Nat) (l : List α) : List α :=
  l.foldl (fun acc x => stableInsert key x acc) []

/-- The list effect of `order_child_mut` (`xml_tree.rs:462-477`). -/
def orderChildren {α : Type} (tagOf : α → String) (skeleton : List String) (cs : List α) : List α :=
  if cs ≠ [] ∧ skeleton ≠ [] then stableSort (fun c => orderKey skeleton (tagOf c)) cs else cs

/-- `order_child_mut` (`xml_tree.rs:462-477`) on the element with the given id. -/
def XmlDoc.orderChild (d : XmlDoc) (id : Nat) (skeleton : List String) : Res XmlDoc :=
  match d.get id with
  | none => .error (.fail "element missing")
  | some e => .ok (d.put id { e with children := orderChildren Child.tag skeleton e.children })

/-- `get_first_element_id` (`xml_tree.rs:239-282`): walk down first matching children; a step naming the
root's own tag while at the root is skipped; a missing element panics (`unwrap`). -/
def XmlDoc.firstElementId (d : XmlDoc) : List String → Nat → Res (Option Nat)
  | [], _ => .ok none
  | tag :: rest, cur =>
    match d.get cur with
    | none => .error (.panic "unwrap on None")
    | some e =>
      if e.tag = tag ∧ cur = 0 then
        if rest = [] then .ok (some cur) else d.firstElementId rest cur
      else
        match e.children.find? (fun c => c.tag = tag) with
        | none => .ok none
        | some c => if rest = [] then .ok (some c.id) else d.firstElementId rest c.id

end Oxml
