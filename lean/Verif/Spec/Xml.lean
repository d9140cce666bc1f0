import Verif.Spec.Reload
import Verif.Model.XmlReader
import Verif.Model.XmlEdits
/-!
# Vocabulary for statements about documents
-/
namespace Oxml.Spec

/-- The five entity names. -/
def entityNames : List (List Char) := ["lt".toList, "gt".toList, "amp".toList, "apos".toList, "quot".toList]

/-- None of the five special characters occurs. -/
def NoSpecials (s : String) : Prop := ∀ c ∈ s.toList, c ≠ '<' ∧ c ≠ '>' ∧ c ≠ '&' ∧ c ≠ '\'' ∧ c ≠ '"'

/-- Non-empty text that neither starts nor ends with a space, tab, line feed or carriage return. -/
def Trimmed (s : String) : Prop := s.toList ≠ [] ∧ trimXml s.toList = s.toList

mutual
/-- A tree that can be represented in the file without loss: plain attribute values, trimmed texts, and no element
with both a text and children. -/
def Plain : Node → Prop
  | .mk _ attrs value cs =>
    (∀ a, attrs = some a → ∀ kv ∈ a, NoSpecials kv.2) ∧ (∀ v, value = some v → Trimmed v ∧ cs = []) ∧ Plains cs
def Plains : List Node → Prop
  | [] => True
  | c :: cs => Plain c ∧ Plains cs
end

mutual
/-- The same element for a user: same tag, same value for every attribute, same text, same children in order. -/
def Same : Node → Node → Prop
  | .mk t a v cs, .mk t' a' v' cs' =>
    t = t' ∧ (∀ k, aget k (a.getD []) = aget k (a'.getD [])) ∧ v = v' ∧ Sames cs cs'
def Sames : List Node → List Node → Prop
  | [], [] => True
  | c :: cs, d :: ds => Same c d ∧ Sames cs ds
  | _, _ => False
end

/-- The element reached by a path of child positions that passes through no element holding a text. -/
def nodeAt : Node → List Nat → Option Node
  | n, [] => some n
  | .mk _ _ (some _) _, _ :: _ => none
  | .mk _ _ none cs, i :: p =>
    match cs[i]? with
    | none => none
    | some c => nodeAt c p

/-- Legal XML name as the library understands it: a letter or `_` first, then letters, digits, `_`, `-`, `.`
and at most one `:`. -/
def LegalName (u : Unicode) (s : String) : Prop :=
  ∃ c cs, s.toList = c :: cs ∧ (c = '_' ∨ isAlphabetic u c = true) ∧
    (∀ x ∈ cs, x = '_' ∨ isAlphabetic u x = true ∨ x.isDigit = true ∨ x = '-' ∨ x = '.' ∨ x = ':') ∧
    (c :: cs).count ':' ≤ 1

/-- Namespace declarations of a start tag, as (prefix or empty, URI). -/
def declarations (attrs : List (List Char × List Char)) : List (List Char × List Char) :=
  attrs.filterMap (fun kv =>
    if kv.1 = "xmlns".toList then some ([], kv.2)
    else if "xmlns:".toList.isPrefixOf kv.1 then some (kv.1.drop 6, kv.2)
    else none)

/-- For every element of a token stream in document order: its name and the namespace bound to a prefix there.
`stack` holds the declarations in force, innermost first. -/
def boundAt (pre : List Char) : List (List (List Char × List Char)) → List Token → List (List Char × Option (List Char))
  | _, [] => []
  | stack, .start n a :: ts =>
    (n, aget pre (declarations a ++ stack.flatten)) :: boundAt pre (declarations a :: stack) ts
  | stack, .empty n a :: ts => (n, aget pre (declarations a ++ stack.flatten)) :: boundAt pre stack ts
  | stack, .text _ :: ts => boundAt pre stack ts
  | stack, .close _ :: ts => boundAt pre stack.tail ts

end Oxml.Spec

namespace Oxml

/-- Documents the library can hold: empty, or read from a text, then edited in any way. Attribute maps passed to an
edit have distinct keys because they are hash maps. -/
inductive Reachable (u : Unicode) : XmlDoc → Prop
  | new : Reachable u XmlDoc.new
  | read {s : List Char} {d : XmlDoc} (h : readXml u s = .ok d) : Reachable u d
  | edit {d : XmlDoc} (h : Reachable u d) (e : Edit) (he : e.ProperMap) : Reachable u (d.edit u e)

end Oxml
