import Verif.Model.DocOps
import Verif.Model.XmlEdits
/-!
# What an edit means on the tree

Elements are addressed by their path from the root. An edit changes the element at one path and nothing else.
-/
namespace Oxml.Spec

/-- The id of the element at a path of child positions, starting from the element with id `i`. -/
def idAt (d : XmlDoc) : Nat → List Nat → Option Nat
  | i, [] => (d.get i).map (fun _ => i)
  | i, k :: p =>
    match d.get i with
    | none => none
    | some e =>
      match e.children[k]? with
      | none => none
      | some c => idAt d c.id p

/-- The element at a path. -/
def at? : Node → List Nat → Option Node
  | n, [] => some n
  | n, k :: p =>
    match n.children[k]? with
    | none => none
    | some c => at? c p

/-- Changes the element at a path. -/
def updateAt (f : Node → Node) : List Nat → Node → Node
  | [], n => f n
  | k :: p, n => n.withChildren (n.children.modify k (updateAt f p))

/-- The path `q` does not lead below the element at `p`. -/
def Outside (p q : List Nat) : Prop := ∀ k s, q ≠ p ++ k :: s

/-- A new element. -/
def leaf (tag : String) : Node := .mk tag none none []

/-- In front of the first child with the tag; first of all without one. -/
def beforeFirst (x : Node) (tag : String) (cs : List Node) : List Node :=
  if cs.any (fun c => c.tag = tag) then cs.takeWhile (fun c => c.tag ≠ tag) ++ x :: cs.dropWhile (fun c => c.tag ≠ tag)
  else x :: cs

/-- Behind the last child with the tag; last of all without one. -/
def afterLast (x : Node) (tag : String) (cs : List Node) : List Node :=
  if cs.any (fun c => c.tag = tag) then
    (cs.reverse.dropWhile (fun c => c.tag ≠ tag)).reverse ++ x :: (cs.reverse.takeWhile (fun c => c.tag ≠ tag)).reverse
  else cs ++ [x]

/-- The element an edit names. -/
def target : Edit → Option Nat
  | .append _ p | .before _ _ p | .after _ _ p | .atPos _ _ p | .popTag _ p => some p
  | .attributes i _ | .attr i _ _ | .value i _ | .order i _ => some i
  | .createRoot _ | .popDetached _ => none

/-- What the edit does to the element it names. -/
def effect : Edit → Node → Node
  | .append tag _, .mk t a v cs => .mk t a v (cs ++ [leaf tag])
  | .before tag f _, .mk t a v cs => .mk t a v (beforeFirst (leaf tag) f cs)
  | .after tag f _, .mk t a v cs => .mk t a v (afterLast (leaf tag) f cs)
  | .atPos tag k _, .mk t a v cs => .mk t a v (cs.take k ++ leaf tag :: cs.drop k)
  | .attributes _ new, .mk t _ v cs => .mk t (some (new.filter (fun kv => !"xmlns".toList.isPrefixOf kv.1.toList))) v cs
  | .attr _ k x, .mk t a v cs => .mk t (a.map (fun a => ainsert k x a)) v cs
  | .value _ x, .mk t a _ cs => .mk t a (some x) cs
  | .order _ sk, .mk t a v cs => .mk t a v (orderChildren Node.tag sk cs)
  | .popTag tag _, .mk t a v cs => .mk t a v (cs.filter (fun c => c.tag ≠ tag))
  | .createRoot _, n | .popDetached _, n => n

/-- Is the edit accepted for the element it names? -/
def Accepted (u : Unicode) : Edit → Node → Prop
  | .append tag _, _ | .before tag _ _, _ | .after tag _ _, _ => isValidXmlName u tag = true
  | .atPos tag k _, n => isValidXmlName u tag = true ∧ k ≤ n.children.length
  | .attributes _ new, _ => ∀ kv ∈ new, isValidXmlName u kv.1 = true
  | .attr _ k _, n => n.attrs ≠ none ∧ isValidXmlName u k = true ∧ "xmlns".toList.isPrefixOf k.toList = false
  | .value _ _, _ | .order _ _, _ | .popTag _ _, _ => True
  | .createRoot _, _ | .popDetached _, _ => False

/-- Does the edit declare namespaces? -/
def declares : Edit → Bool
  | .attributes _ new => new.any (fun kv => "xmlns".toList.isPrefixOf kv.1.toList)
  | _ => false

/-- The tree of an element taken out of the arena: its own data and, through its child ids, what is still stored below. -/
def treeOf (d : XmlDoc) (e : Elem) : Option Node :=
  (collect (e.children.map (fun c => d.toNode (d.runningId + 1) c.id))).map (Node.mk e.tag e.attrs e.value)

mutual
/-- The calls that add a tree below an element: `append_child_mut`, then `set_attribute_mut` and `set_value_mut` if there
is something to set, then the children in order. The parts write their documents with such calls. -/
def addTree (u : Unicode) (d : XmlDoc) (parent : Nat) : Node → Res XmlDoc
  | .mk tag attrs value cs => do
    let r ← d.appendChild u tag parent
    let d1 ← match attrs with
      | none => .ok r.1
      | some a => r.1.setAttribute u r.2 a
    let d2 ← match value with
      | none => .ok d1
      | some v => d1.setValue r.2 v
    addTrees u d2 r.2 cs
/-- The same for a list of trees. -/
def addTrees (u : Unicode) (d : XmlDoc) (parent : Nat) : List Node → Res XmlDoc
  | [] => .ok d
  | c :: cs => do
    let d1 ← addTree u d parent c
    addTrees u d1 parent cs
end

mutual
/-- Names the library accepts, no namespace declarations. -/
def Writable (u : Unicode) : Node → Prop
  | .mk tag attrs _ cs => isValidXmlName u tag = true ∧
      (∀ a, attrs = some a → ∀ kv ∈ a, isValidXmlName u kv.1 = true ∧ "xmlns".toList.isPrefixOf kv.1.toList = false) ∧ Writables u cs
/-- The same for a list of trees. -/
def Writables (u : Unicode) : List Node → Prop
  | [] => True
  | c :: cs => Writable u c ∧ Writables u cs
end

/-- Trees added behind the children. -/
def addKids (ks : List Node) : Node → Node
  | .mk t a v cs => .mk t a v (cs ++ ks)

end Oxml.Spec
