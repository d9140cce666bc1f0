import Verif.Model.Node
import Verif.Model.QuickXml
import Verif.Spec.Reload
/-!
# The source text of XML documents

An independent description of XML text as another program writes it: elements with attributes in either kind of
quotes and any white space inside tags, texts with entities, comments, CDATA sections, processing instructions and document
type declarations. `Src.text` is the text, `Src.node` the element the library makes of it and `Src.ideal` the element it stands
for. Entities and default values declared in a document type are left out.
-/
namespace Oxml.Spec

/-- An attribute: white space before it, name, white space around `=`, quote character and raw value. -/
structure SAttr where
  sep : List Char
  name : List Char
  eqL : List Char
  eqR : List Char
  quote : Char
  value : List Char
deriving DecidableEq, Repr

/-- A piece of markup with the text in front of it (`pre`). -/
inductive Src where
  /-- `pre<name attrs sp>body tail</name endSp>` -/
  | elem (pre name : List Char) (attrs : List SAttr) (sp : List Char) (body : List Src) (tail endSp : List Char)
  /-- `pre<name attrs sp/>` -/
  | void (pre name : List Char) (attrs : List SAttr) (sp : List Char)
  /-- `pre<!--s-->` -/
  | comment (pre s : List Char)
  /-- `pre<![CDATA[s]]>` -/
  | cdata (pre s : List Char)
  /-- `pre<?s?>` -/
  | pi (pre s : List Char)
  /-- `pre<!DOCTYPEs>` -/
  | doctype (pre s : List Char)

namespace Src

/-- The text in front of the markup. -/
def pre : Src → List Char
  | .elem p .. => p
  | .void p .. => p
  | .comment p _ => p
  | .cdata p _ => p
  | .pi p _ => p
  | .doctype p _ => p

end Src

/-- Text of an attribute. -/
def SAttr.text (a : SAttr) : List Char := a.sep ++ (a.name ++ (a.eqL ++ '=' :: (a.eqR ++ a.quote :: (a.value ++ [a.quote]))))

/-- Text of the inside of an opening tag. -/
def tagText (name : List Char) (attrs : List SAttr) (sp : List Char) : List Char := name ++ (attrs.flatMap SAttr.text ++ sp)

mutual
/-- The text of a piece. -/
def Src.text : Src → List Char
  | .elem pre name attrs sp body tail endSp =>
    pre ++ '<' :: (tagText name attrs sp ++ '>' :: (Src.texts body ++ (tail ++ '<' :: '/' :: (name ++ (endSp ++ ['>'])))))
  | .void pre name attrs sp => pre ++ '<' :: (tagText name attrs sp ++ ['/', '>'])
  | .comment pre s => pre ++ '<' :: '!' :: '-' :: '-' :: (s ++ ['-', '-', '>'])
  | .cdata pre s => pre ++ '<' :: '!' :: '[' :: 'C' :: 'D' :: 'A' :: 'T' :: 'A' :: '[' :: (s ++ [']', ']', '>'])
  | .pi pre s => pre ++ '<' :: '?' :: (s ++ ['?', '>'])
  | .doctype pre s => pre ++ '<' :: '!' :: 'D' :: 'O' :: 'C' :: 'T' :: 'Y' :: 'P' :: 'E' :: (s ++ ['>'])
/-- The text of several pieces. -/
def Src.texts : List Src → List Char
  | [] => []
  | s :: ss => s.text ++ Src.texts ss
end

/-! ## Well-formedness -/

/-- Only white space. -/
def Blank (s : List Char) : Prop := ∀ c ∈ s, isXmlSpace c = true

/-- Character data: no markup, and every entity is one XML defines. -/
def TextOk (s : List Char) : Prop := '<' ∉ s ∧ ∃ t, unescape (trimXml s) = .ok t

/-- A well-formed attribute with a name the library accepts. -/
structure SAttr.Ok (u : Unicode) (a : SAttr) : Prop where
  sep : Blank a.sep ∧ a.sep ≠ []
  name : isValidXmlName u (String.ofList a.name) = true
  eq : Blank a.eqL ∧ Blank a.eqR
  quote : a.quote = '"' ∨ a.quote = '\''
  value : a.quote ∉ a.value

/-- The inside of a well-formed opening tag. -/
structure TagOk (u : Unicode) (name : List Char) (attrs : List SAttr) (sp : List Char) : Prop where
  nameOk : isValidXmlName u (String.ofList name) = true
  attrsOk : ∀ a ∈ attrs, a.Ok u
  distinct : (attrs.map SAttr.name).Nodup
  spOk : Blank sp
  bindings : ∀ a ∈ attrs, ∀ p, a.name = "xmlns:".toList ++ p → ¬Reserved (String.ofList p) (String.ofList a.value)

/-- The inside of a document type declaration: a name, and declarations in angle brackets that are all closed. -/
structure DoctypeOk (s : List Char) : Prop where
  name : ¬Blank s
  closed : s.count '<' = s.count '>'
  opened : ∀ l r, s = l ++ '>' :: r → l.count '>' < l.count '<'

mutual
/-- A well-formed piece. -/
def Src.Ok (u : Unicode) : Src → Prop
  | .elem pre name attrs sp body tail endSp =>
    TextOk pre ∧ TagOk u name attrs sp ∧ Src.Oks u body ∧ TextOk tail ∧ Blank endSp
  | .void pre name attrs sp => TextOk pre ∧ TagOk u name attrs sp
  | .comment pre s => TextOk pre ∧ (∀ l r, s ≠ l ++ '-' :: '-' :: r) ∧ (∀ l, s ≠ l ++ ['-'])
  | .cdata pre s => TextOk pre ∧ ∀ l r, s ≠ l ++ ']' :: ']' :: '>' :: r
  | .pi pre s => TextOk pre ∧ s.head? ≠ some '>' ∧ ∀ l r, s ≠ l ++ '?' :: '>' :: r
  | .doctype pre s => TextOk pre ∧ DoctypeOk s
/-- Well-formed pieces. -/
def Src.Oks (u : Unicode) : List Src → Prop
  | [] => True
  | s :: ss => s.Ok u ∧ Src.Oks u ss
end

/-- Comments, processing instructions and a document type, separated by white space: what may surround the root. -/
def Misc : Src → Prop
  | .comment pre _ => Blank pre
  | .pi pre _ => Blank pre
  | .doctype pre _ => Blank pre
  | _ => False

/-- A document: a byte order mark or none, what precedes the root, the root, what follows it, and final white space. -/
structure SDoc where
  bom : Bool := false
  before : List Src
  root : Src
  after : List Src
  final : List Char

/-- Its text. -/
def SDoc.text (x : SDoc) : List Char :=
  (if x.bom then ['\uFEFF'] else []) ++ (Src.texts x.before ++ (x.root.text ++ (Src.texts x.after ++ x.final)))

/-- A well-formed document whose root has an end tag. -/
structure SDoc.Ok (u : Unicode) (x : SDoc) : Prop where
  before : Src.Oks u x.before ∧ ∀ s ∈ x.before, Misc s
  root : x.root.Ok u ∧ Blank x.root.pre
  isElem : ∃ pre name attrs sp body tail endSp, x.root = .elem pre name attrs sp body tail endSp
  after : Src.Oks u x.after ∧ ∀ s ∈ x.after, Misc s
  final : Blank x.final

/-! ## What the library reads -/

/-- The characters entities stand for. -/
def decoded (s : List Char) : String :=
  match unescape s with
  | .ok t => String.ofList t
  | .error _ => ""

/-- The last of several texts that is not blank, without surrounding white space. -/
def lastText (ps : List (List Char)) : Option String :=
  ((ps.map trimXml).filter (fun s => s ≠ [])).getLast?.map decoded

/-- Attributes other than namespace declarations, with raw values. -/
def plainAttrs (attrs : List SAttr) : Attrs :=
  (attrs.map (fun a => (String.ofList a.name, String.ofList a.value))).filter (fun kv => !isNsKey kv.1)

/-- Namespace declarations of a tag. -/
def tagDecls (attrs : List SAttr) : Attrs :=
  (attrs.map (fun a => (String.ofList a.name, String.ofList a.value))).filter (fun kv => isNsKey kv.1)

mutual
/-- The element read for a piece of markup, if it is an element. -/
def Src.node : Src → Option Node
  | .elem _ name attrs _ body tail _ =>
    some (.mk (String.ofList name) (some (plainAttrs attrs)) (lastText (body.map Src.pre ++ [tail])) (Src.nodes body))
  | .void _ name attrs _ => some (.mk (String.ofList name) (some (plainAttrs attrs)) none [])
  | _ => none
/-- The elements read for several pieces. -/
def Src.nodes : List Src → List Node
  | [] => []
  | s :: ss => s.node.toList ++ Src.nodes ss
end

mutual
/-- Namespace declarations in document order. -/
def Src.decls : Src → Attrs
  | .elem _ _ attrs _ body _ _ => tagDecls attrs ++ Src.declss body
  | .void _ _ attrs _ => tagDecls attrs
  | _ => []
def Src.declss : List Src → Attrs
  | [] => []
  | s :: ss => s.decls ++ Src.declss ss
end

/-! ## What the text stands for -/

/-- Character data of one piece inside an element: the text in front of it, and the content of a CDATA section. -/
def Src.chars (s : Src) : List Char :=
  (decoded s.pre).toList ++ match s with
    | .cdata _ t => t
    | _ => []

/-- The text of an element: all its character data in order; white space between child elements counts as none. -/
def elemText (body : List Src) (tail : List Char) : Option String :=
  if (body.flatMap Src.chars ++ (decoded tail).toList).all isXmlSpace then none
  else some (String.ofList (body.flatMap Src.chars ++ (decoded tail).toList))

mutual
/-- The element a piece of markup stands for: attribute values and texts with their entities resolved. -/
def Src.ideal : Src → Option Node
  | .elem _ name attrs _ body tail _ =>
    some (.mk (String.ofList name) (some ((plainAttrs attrs).map (fun kv => (kv.1, decoded kv.2.toList)))) (elemText body tail)
      (Src.ideals body))
  | .void _ name attrs _ =>
    some (.mk (String.ofList name) (some ((plainAttrs attrs).map (fun kv => (kv.1, decoded kv.2.toList)))) none [])
  | _ => none
def Src.ideals : List Src → List Node
  | [] => []
  | s :: ss => s.ideal.toList ++ Src.ideals ss
end

/-- Not a CDATA section. -/
def Src.notCdata : Src → Prop
  | .cdata .. => False
  | _ => True

/-- No entity in any attribute value. -/
def NoEntities (attrs : List SAttr) : Prop := ∀ a ∈ attrs, '&' ∉ a.value

/-- All texts blank, or one text without surrounding white space and nothing else. -/
def OneText (ps : List (List Char)) : Prop :=
  (∀ p ∈ ps, Blank p) ∨ ∃ l t r, ps = l ++ t :: r ∧ (∀ p ∈ l ++ r, p = []) ∧ trimXml t = t ∧ ¬Blank (decoded t).toList

mutual
/-- Text as most programs write it: no CDATA section, no entity in attribute values, every element has one text or
child elements. -/
def Src.Simple : Src → Prop
  | .elem _ _ attrs _ body tail _ =>
    NoEntities attrs ∧ OneText (body.map Src.pre ++ [tail]) ∧ Src.Simples body
  | .void _ _ attrs _ => NoEntities attrs
  | .comment .. => True
  | .cdata .. => False
  | .pi .. => True
  | .doctype .. => True
def Src.Simples : List Src → Prop
  | [] => True
  | s :: ss => s.Simple ∧ Src.Simples ss
end

/-- The value of the first entry with a key. -/
def firstValue (k : String) (l : Attrs) : Option String := ((l.filter (fun kv => kv.1 = k)).head?).map Prod.snd

/-- The value of the last entry with a key. -/
def lastValue (k : String) (l : Attrs) : Option String := ((l.filter (fun kv => kv.1 = k)).getLast?).map Prod.snd

/-! ## Nesting of tags -/

/-- Tokens in which every start tag has its end tag. -/
inductive Closed : List Token → Prop
  | nil : Closed []
  | text {t ts} : Closed ts → Closed (.text t :: ts)
  | empty {n a ts} : Closed ts → Closed (.empty n a :: ts)
  | elem {n a ts us} : Closed ts → Closed us → Closed (.start n a :: (ts ++ .close n :: us))

/-- Tokens in which every end tag belongs to a start tag, while start tags may still be open at the end. -/
inductive Nested : List Token → Prop
  | closed {ts} : Closed ts → Nested ts
  | opened {ts us n a} : Closed ts → Nested us → Nested (ts ++ .start n a :: us)

/-- The tokens of a well-formed document: one root element, nothing else. -/
inductive OneRoot : List Token → Prop
  | empty {n a} : OneRoot [.empty n a]
  | elem {n a ts} : Closed ts → OneRoot (.start n a :: (ts ++ [.close n]))

end Oxml.Spec
