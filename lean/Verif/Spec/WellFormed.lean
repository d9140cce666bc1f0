import Verif.Model.Node
import Verif.Spec.SourceText
/-!
# Well-formed XML and what other programs read in it (C102, C103)

The grammar of the XML 1.0 recommendation (fifth edition) for documents without a document type declaration, and the content such a
document has for a program that follows the recommendation. The numbers are those of its sections.
-/
namespace Oxml.Spec

/-- Characters of XML (2.2). -/
def XmlChar (c : Char) : Prop :=
  c = '\t' ∨ c = '\n' ∨ c = '\r' ∨ (0x20 ≤ c.toNat ∧ c.toNat ≤ 0xD7FF) ∨ (0xE000 ≤ c.toNat ∧ c.toNat ≤ 0xFFFD) ∨ 0x10000 ≤ c.toNat

/-- First characters of names (2.3). -/
def NameStart (c : Char) : Prop :=
  c = ':' ∨ c = '_' ∨ c.isAlpha = true ∨
    ∃ r ∈ [(0xC0, 0xD6), (0xD8, 0xF6), (0xF8, 0x2FF), (0x370, 0x37D), (0x37F, 0x1FFF), (0x200C, 0x200D), (0x2070, 0x218F), (0x2C00, 0x2FEF),
      (0x3001, 0xD7FF), (0xF900, 0xFDCF), (0xFDF0, 0xFFFD), (0x10000, 0xEFFFF)], r.1 ≤ c.toNat ∧ c.toNat ≤ r.2

/-- Characters of names (2.3). -/
def NameChar (c : Char) : Prop :=
  NameStart c ∨ c = '-' ∨ c = '.' ∨ c.isDigit = true ∨ c.toNat = 0xB7 ∨ (0x300 ≤ c.toNat ∧ c.toNat ≤ 0x36F) ∨ (0x203F ≤ c.toNat ∧ c.toNat ≤ 0x2040)

/-- Names (2.3). -/
def XmlName (s : List Char) : Prop := ∃ c cs, s = c :: cs ∧ NameStart c ∧ ∀ x ∈ cs, NameChar x

/-- White space or nothing (2.3). -/
def Whites (s : List Char) : Prop := ∀ c ∈ s, White c

/-- Line ends (2.11): carriage return and line feed, or carriage return alone, are read as line feed. -/
def lineEnds : List Char → List Char
  | [] => []
  | '\r' :: '\n' :: s => '\n' :: lineEnds s
  | '\r' :: s => '\n' :: lineEnds s
  | c :: s => c :: lineEnds s

/-- White space in attribute values is read as a space (3.3.3). -/
def whiteToSpace (c : Char) : Char := if c = '\t' ∨ c = '\n' ∨ c = '\r' then ' ' else c

/-- Character data `s` (2.4) is read as `t`. -/
structure CharData (s t : List Char) : Prop where
  nonempty : s ≠ []
  chars : ∀ c ∈ s, XmlChar c
  noMarkup : '<' ∉ s
  noEnd : ∀ l r, s ≠ l ++ ']' :: ']' :: '>' :: r
  reads : StandsFor (lineEnds s) t
  means : ∀ c ∈ t, XmlChar c

/-- White space and an attribute (3.1) with its name and the value read. -/
def IsAttr (s : List Char) (kv : List Char × List Char) : Prop :=
  ∃ sep l r q raw, s = sep ++ kv.1 ++ l ++ '=' :: (r ++ q :: (raw ++ [q])) ∧ Whites sep ∧ sep ≠ [] ∧ XmlName kv.1 ∧ Whites l ∧ Whites r ∧
    (q = '"' ∨ q = '\'') ∧ q ∉ raw ∧ '<' ∉ raw ∧ (∀ c ∈ raw, XmlChar c) ∧ StandsFor ((lineEnds raw).map whiteToSpace) kv.2 ∧ ∀ c ∈ kv.2, XmlChar c

/-- Several attributes. -/
inductive IsAttrs : List Char → List (List Char × List Char) → Prop
  | nil : IsAttrs [] []
  | cons {s kv ss kvs} : IsAttr s kv → IsAttrs ss kvs → IsAttrs (s ++ ss) (kv :: kvs)

/-- What a document has in it: texts and elements with attributes and content. -/
inductive Item where
  | text (s : List Char)
  | elem (tag : List Char) (attrs : List (List Char × List Char)) (content : List Item)

/-- A comment (2.5). -/
def IsComment (s : List Char) : Prop :=
  ∃ t, s = "<!--".toList ++ t ++ "-->".toList ∧ (∀ c ∈ t, XmlChar c) ∧ (∀ l r, t ≠ l ++ '-' :: '-' :: r) ∧ ∀ l, t ≠ l ++ ['-']

/-- A processing instruction (2.6). -/
def IsPi (s : List Char) : Prop :=
  ∃ n t, s = "<?".toList ++ n ++ t ++ "?>".toList ∧ XmlName n ∧ n.map Char.toLower ≠ "xml".toList ∧ (t = [] ∨ ∃ c r, t = c :: r ∧ White c) ∧
    (∀ c ∈ t, XmlChar c) ∧ ∀ l r, t ≠ l ++ '?' :: '>' :: r

/-- A CDATA section (2.7). -/
def IsCdata (s t : List Char) : Prop :=
  ∃ raw, s = "<![CDATA[".toList ++ raw ++ "]]>".toList ∧ (∀ c ∈ raw, XmlChar c) ∧ (∀ l r, raw ≠ l ++ ']' :: ']' :: '>' :: r) ∧ t = lineEnds raw

/-- Content of elements (3, 3.1): the text and what is in it. -/
inductive IsContent : List Char → List Item → Prop
  | nil : IsContent [] []
  | text {s t r l} : CharData s t → IsContent r l → (r = [] ∨ r.head? = some '<') → IsContent (s ++ r) (.text t :: l)
  | void {n a kvs sp r l} : XmlName n → IsAttrs a kvs → (kvs.map Prod.fst).Nodup → Whites sp → IsContent r l →
      IsContent ('<' :: (n ++ (a ++ (sp ++ '/' :: '>' :: r)))) (.elem n kvs [] :: l)
  | elem {n a kvs sp body cs sp' r l} : XmlName n → IsAttrs a kvs → (kvs.map Prod.fst).Nodup → Whites sp → IsContent body cs → Whites sp' →
      IsContent r l → IsContent ('<' :: (n ++ (a ++ (sp ++ '>' :: (body ++ '<' :: '/' :: (n ++ (sp' ++ '>' :: r))))))) (.elem n kvs cs :: l)
  | comment {s r l} : IsComment s → IsContent r l → IsContent (s ++ r) l
  | pi {s r l} : IsPi s → IsContent r l → IsContent (s ++ r) l
  | cdata {s t r l} : IsCdata s t → IsContent r l → IsContent (s ++ r) (.text t :: l)

/-- White space, comments and processing instructions around the root (2.8). -/
inductive IsMisc : List Char → Prop
  | nil : IsMisc []
  | white {c r} : White c → IsMisc r → IsMisc (c :: r)
  | comment {s r} : IsComment s → IsMisc r → IsMisc (s ++ r)
  | pi {s r} : IsPi s → IsMisc r → IsMisc (s ++ r)

/-- The XML declaration (2.8), of a text in UTF-8. -/
def IsDeclaration (s : List Char) : Prop :=
  ∃ a kvs sp, s = "<?xml".toList ++ a ++ sp ++ "?>".toList ∧ IsAttrs a kvs ∧ Whites sp ∧
    kvs ∈ [[("version".toList, "1.0".toList)], [("version".toList, "1.0".toList), ("encoding".toList, "utf-8".toList)],
      [("version".toList, "1.0".toList), ("encoding".toList, "UTF-8".toList)]]

/-- A well-formed document with its root element. -/
def IsDocument (s : List Char) (root : Item) : Prop :=
  ∃ decl before body after, s = decl ++ (before ++ (body ++ after)) ∧ (decl = [] ∨ IsDeclaration decl) ∧ IsMisc before ∧
    IsContent body [root] ∧ (∃ n kvs cs, root = .elem n kvs cs) ∧ IsMisc after

/-- A text is well-formed XML. -/
def WellFormed (s : List Char) : Prop := ∃ root, IsDocument s root

/-! ## What the library holds -/

/-- How a text shows up elsewhere: `text` for character data, `attr` for attribute values. -/
structure Reading where
  text : List Char → List Char
  attr : List Char → List Char

/-- As it is. -/
def Reading.same : Reading := ⟨id, id⟩

/-- As XML has it: line ends become line feeds, other white space than spaces in attribute values becomes spaces. -/
def Reading.xml : Reading := ⟨lineEnds, fun s => (lineEnds s).map whiteToSpace⟩

/-- Attributes as read elsewhere. -/
def attrsRead (r : Reading) (a : Attrs) : List (List Char × List Char) := a.map (fun kv => (kv.1.toList, r.attr kv.2.toList))

/-- The text of an element as read elsewhere. -/
def textRead (r : Reading) : Option String → List Item
  | none => []
  | some v => if v = "" then [] else [.text (r.text v.toList)]

mutual
/-- Another program reads the item in place of the element: same name, same attributes in any order, the text followed by the children. -/
def Shows (r : Reading) : Node → Item → Prop
  | .mk tag attrs value cs, .elem n kvs content =>
    n = tag.toList ∧ kvs.Perm (attrsRead r (attrs.getD [])) ∧ ∃ rest, content = textRead r value ++ rest ∧ ShowsAll r cs rest
  | _, .text _ => False
def ShowsAll (r : Reading) : List Node → List Item → Prop
  | [], l => l = []
  | c :: cs, i :: l => Shows r c i ∧ ShowsAll r cs l
  | _ :: _, [] => False
end

/-- The attribute that declares a namespace. -/
def declName (k : String) : String := if k = defaultNsKey then "xmlns" else "xmlns:" ++ k

/-- Namespace declarations as attributes. -/
def declAttrs (ns : Attrs) : Attrs := ns.map (fun kv => (declName kv.1, kv.2))

/-- Another program reads the item in place of the root of the document: as `Shows`, with the namespace declarations. -/
def ShowsRoot (r : Reading) (ns : Attrs) : Node → Item → Prop
  | .mk tag attrs value cs, .elem n kvs content =>
    n = tag.toList ∧ kvs.Perm (attrsRead r (declAttrs ns ++ attrs.getD [])) ∧ ∃ rest, content = textRead r value ++ rest ∧ ShowsAll r cs rest
  | _, .text _ => False

mutual
/-- Every text and attribute value of an element and below that gets written. -/
def allTexts : Node → List String
  | .mk _ attrs value cs => (attrs.getD []).map Prod.snd ++ match value with
    | some v => [v]
    | none => allTextss cs
def allTextss : List Node → List String
  | [] => []
  | c :: cs => allTexts c ++ allTextss cs
end

mutual
/-- Every text of an element and below that gets written. -/
def elemTexts : Node → List String
  | .mk _ _ value cs => match value with
    | some v => [v]
    | none => elemTextss cs
def elemTextss : List Node → List String
  | [] => []
  | c :: cs => elemTexts c ++ elemTextss cs
end

mutual
/-- Every attribute value of an element and below that gets written. -/
def attrTexts : Node → List String
  | .mk _ attrs value cs => (attrs.getD []).map Prod.snd ++ match value with
    | some _ => []
    | none => attrTextss cs
def attrTextss : List Node → List String
  | [] => []
  | c :: cs => attrTexts c ++ attrTextss cs
end

/-- Texts that read the same in every program: no carriage return in texts, no white space but spaces in attribute values. -/
structure Steady (ns : Attrs) (root : Node) : Prop where
  texts : ∀ t ∈ elemTexts root, '\r' ∉ t.toList
  attrs : ∀ t ∈ attrTexts root, '\r' ∉ t.toList ∧ '\n' ∉ t.toList ∧ '\t' ∉ t.toList
  uris : ∀ kv ∈ ns, '\r' ∉ kv.2.toList ∧ '\n' ∉ kv.2.toList ∧ '\t' ∉ kv.2.toList

mutual
/-- Every element name and attribute name. -/
def allNames : Node → List String
  | .mk tag attrs _ cs => tag :: (attrs.getD []).map Prod.fst ++ allNamess cs
def allNamess : List Node → List String
  | [] => []
  | c :: cs => allNames c ++ allNamess cs
end

mutual
/-- No element has both a text and children. -/
def TextOrChildren : Node → Prop
  | .mk _ _ value cs => (value ≠ none → cs = []) ∧ TextOrChildrens cs
def TextOrChildrens : List Node → Prop
  | [] => True
  | c :: cs => TextOrChildren c ∧ TextOrChildrens cs
end

mutual
/-- Attribute names of every element are distinct. -/
def DistinctAttrs : Node → Prop
  | .mk _ attrs _ cs => ((attrs.getD []).map Prod.fst).Nodup ∧ DistinctAttrss cs
def DistinctAttrss : List Node → Prop
  | [] => True
  | c :: cs => DistinctAttrs c ∧ DistinctAttrss cs
end

/-- Only characters of XML. -/
def XmlChars (s : String) : Prop := ∀ c ∈ s.toList, XmlChar c

/-- A document that can be written as XML at all. -/
structure XmlReady (ns : Attrs) (root : Node) : Prop where
  names : ∀ n ∈ allNames root, XmlName n.toList
  distinct : DistinctAttrs root
  texts : ∀ t ∈ allTexts root, XmlChars t
  decls : ∀ kv ∈ ns, XmlName (declName kv.1).toList ∧ XmlChars kv.2 ∧ '"' ∉ kv.2.toList ∧ '<' ∉ kv.2.toList ∧ '&' ∉ kv.2.toList
  apart : ((declAttrs ns ++ root.attrs.getD []).map Prod.fst).Nodup

/-- The comment of release builds is a comment of XML. -/
def StampXml (stamp : List Char) : Prop := IsComment ("<!--".toList ++ stamp ++ "-->".toList)

end Oxml.Spec
