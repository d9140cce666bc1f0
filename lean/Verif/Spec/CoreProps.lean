import Verif.Model.CoreProps
/-!
# Vocabulary for the core properties
-/
namespace Oxml.Spec

/-- The child at this position is the first one with the tag. -/
def FirstWith (t : String) (cs : List Node) (i : Nat) : Prop :=
  (∃ c, cs[i]? = some c ∧ c.tag = t) ∧ ∀ j c, j < i → cs[j]? = some c → c.tag ≠ t

/-- The properties `r` after saving them at the time `now`: the first modification time is `now`, the first creation time is kept, or `now`
where it was empty, and everything else is as it was. -/
structure Stamped (now : String) (r r' : Node) : Prop where
  tag : r'.tag = r.tag
  attrs : r'.attrs = r.attrs
  value : r'.value = r.value
  length : r'.children.length = r.children.length
  child : ∀ i c, r.children[i]? = some c → ∃ c', r'.children[i]? = some c' ∧ c'.tag = c.tag ∧ c'.attrs = c.attrs ∧ c'.children = c.children ∧
    (FirstWith "dcterms:modified" r.children i → c'.value = some now) ∧
    (FirstWith "dcterms:created" r.children i → c'.value = some (c.value.getD now)) ∧
    (¬ FirstWith "dcterms:modified" r.children i → ¬ FirstWith "dcterms:created" r.children i → c'.value = c.value)

/-- The text of the first child of the root with the tag. -/
def coreText (x : XDoc) (t : String) : Option String := (x.rootChildren.find? (fun c => c.tag = t)).bind Node.value

end Oxml.Spec
