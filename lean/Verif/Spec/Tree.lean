import Verif.Model.XmlArena
/-!
# What it means for an arena to hold a proper ordered tree
-/
namespace Oxml.Spec

/-- Every element is stored under its own id; every listed child exists, names the listing element as its parent
and carries the listed tag; ids grow from parent to child (so there is no cycle and the root is nobody's child);
no child is listed twice by the same element. Since a child names a single parent, it is listed by at most one
element. -/
structure TreeShaped (get : Nat → Option Elem) : Prop where
  ownId : ∀ i e, get i = some e → e.id = i
  child : ∀ i e, get i = some e → ∀ c ∈ e.children,
    i < c.id ∧ ∃ e', get c.id = some e' ∧ e'.parentId = i ∧ e'.tag = c.tag
  once : ∀ i e, get i = some e → (e.children.map Child.id).Nodup

end Oxml.Spec
