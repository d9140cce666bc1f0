import Verif.Spec.WellFormed
import Verif.Spec.Xml
/-!
# What the library makes of a document, against what other programs read in it (C109)
-/
namespace Oxml.Spec

/-- Two lists agree place by place. -/
def Agree {α β : Type} (P : α → β → Prop) : List α → List β → Prop
  | [], [] => True
  | a :: as, b :: bs => P a b ∧ Agree P as bs
  | _, _ => False

/-- The second text is the first with some of its line ends turned into line feeds. -/
inductive SameLines : List Char → List Char → Prop
  | nil : SameLines [] []
  | same {c a b} : SameLines a b → SameLines (c :: a) (c :: b)
  | crlf {a b} : SameLines a b → SameLines ('\r' :: '\n' :: a) ('\n' :: b)
  | cr {a b} : SameLines a b → SameLines ('\r' :: a) ('\n' :: b)

/-- The texts of a content. -/
def textsOf : List Item → List (List Char)
  | [] => []
  | .text t :: l => t :: textsOf l
  | .elem .. :: l => textsOf l

/-- Of a text the library keeps what is left without white space around it. -/
def KeptOf (v : String) (t : List Char) : Prop :=
  v ≠ "" ∧ ∃ l r, Whites l ∧ Whites r ∧ SameLines (l ++ (v.toList ++ r)) t

/-- Of several texts the library keeps the last that is not white space. -/
def LastKept : Option String → List (List Char) → Prop
  | none, ts => ∀ t ∈ ts, Whites t
  | some v, ts => ∃ a t b, ts = a ++ t :: b ∧ KeptOf v t ∧ ∀ x ∈ b, Whites x

/-- Attributes other than those whose name begins with `xmlns`. -/
def otherAttrs (kvs : List (List Char × List Char)) : List (List Char × List Char) := kvs.filter (fun kv => !"xmlns".toList.isPrefixOf kv.1)

/-- An attribute is kept as it is written: under its name, with a text that stands for its value, without references if `plain`. -/
def AttrAs (plain : Bool) (kv : String × String) (x : List Char × List Char) : Prop :=
  kv.1.toList = x.1 ∧ StandsFor ((lineEnds kv.2.toList).map whiteToSpace) x.2 ∧ (plain = true → '&' ∉ kv.2.toList)

mutual
/-- The library has the element in place of the item another program reads: the name, the attributes as written, one text, the child elements
in order. -/
def ReadAs (plain : Bool) : Node → Item → Prop
  | _, .text _ => False
  | .mk tag attrs value cs, .elem n kvs content =>
    n = tag.toList ∧ Agree (AttrAs plain) (attrs.getD []) (otherAttrs kvs) ∧ LastKept value (textsOf content) ∧ ReadAll plain cs content
def ReadAll (plain : Bool) : List Node → List Item → Prop
  | cs, [] => cs = []
  | cs, .text _ :: l => ReadAll plain cs l
  | [], .elem .. :: _ => False
  | c :: cs, .elem n kvs content :: l => ReadAs plain c (.elem n kvs content) ∧ ReadAll plain cs l
end

mutual
/-- Names of elements and attributes the library accepts, and no declaration of a reserved prefix or namespace. -/
def ItemOk (u : Unicode) : Item → Prop
  | .text _ => True
  | .elem n kvs content => LegalName u (String.ofList n) ∧ (∀ kv ∈ kvs, LegalName u (String.ofList kv.1)) ∧
      (∀ kv ∈ kvs, ∀ p, kv.1 = "xmlns:".toList ++ p → p ≠ "xml".toList ∧ p ≠ "xmlns".toList ∧
        kv.2 ≠ "http://www.w3.org/XML/1998/namespace".toList ∧ kv.2 ≠ "http://www.w3.org/2000/xmlns/".toList) ∧ ItemsOk u content
def ItemsOk (u : Unicode) : List Item → Prop
  | [] => True
  | i :: l => ItemOk u i ∧ ItemsOk u l
end

/-- No CDATA section anywhere. -/
def NoCdata (s : List Char) : Prop := ∀ l r, s ≠ l ++ ("<![CDATA[".toList ++ r)

/-- No references in attribute values: between a reference and any later quote an element begins or ends. -/
def RefsInTexts (s : List Char) : Prop := ∀ l m q r, s = l ++ '&' :: (m ++ q :: r) → q = '"' ∨ q = '\'' → '<' ∈ m

end Oxml.Spec
