import Verif.Model.Node
import Verif.Model.Basic
/-!
# Tree operations on document values

The part models use these instead of arena calls; each comment names the arena function (`Model/XmlArena.lean`) it stands for.
-/
namespace Oxml

/-- Children of the root, none without a root. -/
def XDoc.rootChildren (x : XDoc) : List Node :=
  match x.root with
  | none => []
  | some r => r.children

/-- Same element with other children. -/
def Node.withChildren : Node → List Node → Node
  | .mk t a v _, cs => .mk t a v cs

/-- Changes the root's children. -/
def XDoc.mapRootChildren (x : XDoc) (f : List Node → List Node) : XDoc :=
  { x with root := x.root.map (fun r => r.withChildren (f r.children)) }

/-- `pop_elements_by_tag_mut(tag, None)`: the root's children with the tag, in order, and the document without them.
Children of the popped elements stay reachable by id, which is how the code reads them; here they are part of the
popped trees. -/
def XDoc.popTag (x : XDoc) (tag : String) : List Node × XDoc :=
  (x.rootChildren.filter (fun n => n.tag = tag), x.mapRootChildren (fun cs => cs.filter (fun n => n.tag ≠ tag)))

/-- Repeated `append_child_mut(.., None)` with attributes, values and grandchildren filled in. Fails without a root. -/
def XDoc.appendAll (x : XDoc) (ns : List Node) : Res XDoc :=
  match x.root with
  | none => if ns = [] then .ok x else .error (.fail "Parent Element Not Found")
  | some _ => .ok (x.mapRootChildren (fun cs => cs ++ ns))

/-- Insertion after the last child with the tag, at the end without one (`insert_children_after_tag_mut`). -/
def insertNodeAfter (new : Node) (findTag : String) (cs : List Node) : List Node :=
  match lastNodeIdx findTag cs with
  | some i => cs.take (i + 1) ++ new :: cs.drop (i + 1)
  | none => cs ++ [new]
where
  lastNodeIdx (findTag : String) : List Node → Option Nat
    | [] => none
    | c :: cs =>
      match lastNodeIdx findTag cs with
      | some i => some (i + 1)
      | none => if c.tag = findTag then some 0 else none

/-- Mutation through `get_attribute_mut` on the root: inserts only if the root has an attribute map. -/
def XDoc.insertRootAttrs (x : XDoc) (kvs : Attrs) : XDoc :=
  { x with root := x.root.map (fun r =>
      match r with
      | .mk t (some a) v cs => .mk t (some (kvs.foldl (fun m kv => ainsert kv.1 kv.2 m) a)) v cs
      | .mk t none v cs => .mk t none v cs) }

/-- A document with only a root carrying a default namespace: `create_root_mut(tag)` then `set_attribute_mut({xmlns: uri})`. -/
def XDoc.template (tag uri : String) : XDoc := { ns := [(defaultNsKey, uri)], root := some (.mk tag (some []) none []) }

end Oxml
