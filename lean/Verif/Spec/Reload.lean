import Verif.Model.XmlWriter
/-!
# What a saved document reads back as

`reload` is the exact effect of saving an element and reading it again: attributes come back sorted by name, with
their values escaped once more; text comes back trimmed, and empty text as no text; children of an element with
text are gone.
-/
namespace Oxml.Spec

/-- Attribute map after saving and loading. -/
def reloadAttrs : Option Attrs → Attrs
  | none => []
  | some a => (sortAttrs a).map (fun kv => (kv.1, String.ofList (escape kv.2.toList)))

/-- Text after saving and loading. -/
def reloadText (v : String) : Option String :=
  if trimXml v.toList = [] then none else some (String.ofList (trimXml v.toList))

mutual
/-- Element after saving and loading. -/
def reload : Node → Node
  | .mk tag attrs value cs =>
    match value with
    | some v => .mk tag (some (reloadAttrs attrs)) (reloadText v) []
    | none => .mk tag (some (reloadAttrs attrs)) none (reloads cs)
/-- Elements after saving and loading. -/
def reloads : List Node → List Node
  | [] => []
  | c :: cs => reload c :: reloads cs
end

/-- Names the library accepts, attribute names distinct and not namespace declarations. -/
def WfAttrs (u : Unicode) (attrs : Option Attrs) : Prop :=
  ∀ a, attrs = some a → (akeys a).Nodup ∧ ∀ k ∈ akeys a, isValidXmlName u k = true ∧ isNsKey k = false

mutual
/-- A tree whose names were all accepted by the library. -/
def WfNode (u : Unicode) : Node → Prop
  | .mk tag attrs _ cs => isValidXmlName u tag = true ∧ WfAttrs u attrs ∧ WfNodes u cs
def WfNodes (u : Unicode) : List Node → Prop
  | [] => True
  | c :: cs => WfNode u c ∧ WfNodes u cs
end

/-- Namespace prefixes the library can have registered: the default namespace or an accepted prefix. -/
def WfNs (u : Unicode) (ns : Attrs) : Prop :=
  (akeys ns).Nodup ∧ ∀ k ∈ akeys ns, k = defaultNsKey ∨ (isValidXmlName u ("xmlns:" ++ k) = true ∧ ':' ∉ k.toList)

/-- A namespace declaration XML forbids: `xml` for anything but its own namespace, `xmlns`, or another prefix for one of the two
namespaces of these. -/
def Reserved (p uri : String) : Prop :=
  (p = "xml" ∧ uri ≠ "http://www.w3.org/XML/1998/namespace") ∨ p = "xmlns" ∨
    (p ≠ "xml" ∧ (uri = "http://www.w3.org/XML/1998/namespace" ∨ uri = "http://www.w3.org/2000/xmlns/"))

instance (p uri : String) : Decidable (Reserved p uri) := by unfold Reserved; infer_instance

/-- Namespace URIs without a double quote, none of them reserved for another prefix. -/
def CleanUris (ns : Attrs) : Prop := ∀ kv ∈ ns, '"' ∉ kv.2.toList ∧ (kv.1 ≠ defaultNsKey → ¬Reserved kv.1 kv.2)

end Oxml.Spec

namespace Oxml.Spec

/-- The comment text of a release build does not end the comment early. -/
def StampOk (stamp : List Char) : Prop := ∀ l r, stamp ≠ l ++ '-' :: '-' :: '>' :: r

/-- The element is written as `<tag ... />`. -/
def selfClosing : Node → Bool
  | .mk _ _ value cs => value.isNone && cs.isEmpty

/-- A document whose names were all accepted by the library, with a root, and quote-free namespace URIs. -/
structure WfDoc (u : Unicode) (x : XDoc) (root : Node) : Prop where
  isRoot : x.root = some root
  names : WfNode u root
  ns : WfNs u x.ns
  uris : CleanUris x.ns

/-- The document after saving and loading. -/
def reloadDoc (b : Build) (x : XDoc) : XDoc := { ns := releaseNs b x.ns, root := x.root.map reload }

end Oxml.Spec
