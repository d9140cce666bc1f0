import Verif.Model.Maps
/-!
# The parts of the `quick-xml` crate (0.37) the library relies on

External code, modelled for the subset used: `escape`, `unescape`, and the event reader with
`trim_text(true)` and otherwise default configuration. Characters stand for UTF-8 bytes: all delimiters are ASCII.
-/
namespace Oxml

/-- Entity for a special character; `quick_xml::escape::escape` replaces `< > & ' "`. -/
def escapeChar (c : Char) : List Char :=
  if c = '<' then "&lt;".toList
  else if c = '>' then "&gt;".toList
  else if c = '&' then "&amp;".toList
  else if c = '\'' then "&apos;".toList
  else if c = '"' then "&quot;".toList
  else [c]

/-- `quick_xml::escape::escape`. -/
def escape (s : List Char) : List Char := s.flatMap escapeChar

/-- Hexadecimal digit value. -/
def hexValue (c : Char) : Option Nat :=
  if c.isDigit then some (c.toNat - 48)
  else if 'a' ≤ c ∧ c ≤ 'f' then some (c.toNat - 87)
  else if 'A' ≤ c ∧ c ≤ 'F' then some (c.toNat - 55)
  else none

/-- Value of a list of digits in a base, `none` on a foreign character or an empty list. -/
def digitsValue (base : Nat) (val : Char → Option Nat) (ds : List Char) : Option Nat :=
  if ds = [] then none
  else ds.foldl (fun acc c =>
    match acc, val c with
    | some a, some v => some (a * base + v)
    | _, _ => none) (some 0)

/-- Decimal digit value. -/
def decValue (c : Char) : Option Nat := if c.isDigit then some (c.toNat - 48) else none

/-- A code point reference is valid if it is a Unicode scalar value other than 0. -/
def charOfCode (n : Option Nat) : Option (List Char) :=
  match n with
  | none => none
  | some v => if v ≠ 0 ∧ v.isValidChar then some [Char.ofNat v] else none

/-- Text an entity name stands for (`quick_xml::escape::unescape`). -/
def entity (name : List Char) : Option (List Char) :=
  if name = "lt".toList then some ['<']
  else if name = "gt".toList then some ['>']
  else if name = "amp".toList then some ['&']
  else if name = "apos".toList then some ['\'']
  else if name = "quot".toList then some ['"']
  else match name with
    | '#' :: 'x' :: ds => charOfCode (digitsValue 16 hexValue ds)
    | '#' :: ds => charOfCode (digitsValue 10 decValue ds)
    | _ => none

/-- `quick_xml::escape::unescape` as a state machine; `pending` collects an entity name (reversed) after `&`. -/
def unescapeFrom : Option (List Char) → List Char → Res (List Char)
  | none, [] => .ok []
  | some _, [] => .error (.fail "unterminated entity")
  | none, c :: cs =>
    if c = '&' then unescapeFrom (some []) cs
    else do
      let r ← unescapeFrom none cs
      .ok (c :: r)
  | some acc, c :: cs =>
    if c = ';' then
      match entity acc.reverse with
      | none => .error (.fail "unrecognized entity")
      | some t => do
        let r ← unescapeFrom none cs
        .ok (t ++ r)
    else unescapeFrom (some (c :: acc)) cs

/-- `BytesText::unescape`. -/
def unescape (s : List Char) : Res (List Char) := unescapeFrom none s

/-- White space for `quick-xml`: space, tab, line feed, carriage return. -/
def isXmlSpace (c : Char) : Bool := c = ' ' || c = '\t' || c = '\n' || c = '\r'

/-- `trim_text(true)`: leading and trailing white space of a text event is dropped. -/
def trimXml (s : List Char) : List Char :=
  ((s.dropWhile isXmlSpace).reverse.dropWhile isXmlSpace).reverse

/-- Events delivered to the library. Declarations, comments, CDATA, processing instructions and DOCTYPE are
ignored by it (`xml_serialize.rs:46,115`) and therefore produce no token. -/
inductive Token where
  | start (name : List Char) (attrs : List (List Char × List Char))
  | empty (name : List Char) (attrs : List (List Char × List Char))
  | text (raw : List Char)
  | close (name : List Char)
deriving DecidableEq, Repr

/-- States of the attribute iterator. -/
inductive AState where
  | skip
  | key (acc : List Char)
  | afterKey (key : List Char)
  | afterEq (key : List Char)
  | value (key : List Char) (quote : Char) (acc : List Char)
deriving DecidableEq, Repr

/-- The attribute iterator (`BytesStart::attributes`), as a state machine. Accumulators are reversed. -/
def parseAttrs : AState → List Char → Res (List (List Char × List Char))
  | .skip, [] => .ok []
  | _, [] => .error (.fail "attribute error")
  | .skip, c :: cs => if isXmlSpace c then parseAttrs .skip cs else parseAttrs (.key [c]) cs
  | .key acc, c :: cs =>
    if c = '=' then parseAttrs (.afterEq acc.reverse) cs
    else if isXmlSpace c then parseAttrs (.afterKey acc.reverse) cs
    else parseAttrs (.key (c :: acc)) cs
  | .afterKey k, c :: cs =>
    if isXmlSpace c then parseAttrs (.afterKey k) cs
    else if c = '=' then parseAttrs (.afterEq k) cs
    else .error (.fail "attribute error")
  | .afterEq k, c :: cs =>
    if isXmlSpace c then parseAttrs (.afterEq k) cs
    else if c = '"' ∨ c = '\'' then parseAttrs (.value k c []) cs
    else .error (.fail "attribute error")
  | .value k q acc, c :: cs =>
    if c = q then do
      let rest ← parseAttrs .skip cs
      .ok ((k, acc.reverse) :: rest)
    else parseAttrs (.value k q (c :: acc)) cs

/-- Duplicate attribute names are an error (`Attributes::with_checks`, on by default). -/
def hasDup (keys : List (List Char)) : Bool :=
  match keys with
  | [] => false
  | k :: ks => ks.contains k || hasDup ks

/-- The namespace of the prefix `xml`. -/
def xmlUri : List Char := "http://www.w3.org/XML/1998/namespace".toList

/-- The namespace of the prefix `xmlns`. -/
def xmlnsUri : List Char := "http://www.w3.org/2000/xmlns/".toList

/-- An attribute that declares a reserved prefix or namespace (`NamespaceResolver::push`): `xml` stands for its own namespace only, `xmlns`
cannot be declared, and no other prefix stands for one of the two reserved namespaces. The default namespace is not checked. -/
def badBinding (kv : List Char × List Char) : Bool :=
  if "xmlns:".toList.isPrefixOf kv.1 then
    if kv.1.drop 6 = "xml".toList then decide (kv.2 ≠ xmlUri)
    else decide (kv.1.drop 6 = "xmlns".toList) || decide (kv.2 = xmlUri) || decide (kv.2 = xmlnsUri)
  else false

/-- Content between `<` and `>` of a start or empty tag: name up to white space, then attributes. -/
def parseTag (content : List Char) : Res (List Char × List (List Char × List Char)) := do
  let name := content.takeWhile (fun c => !isXmlSpace c)
  let attrs ← parseAttrs .skip (content.dropWhile (fun c => !isXmlSpace c))
  if hasDup (attrs.map Prod.fst) then .error (.fail "duplicate attribute")
  else if attrs.any badBinding then .error (.fail "reserved namespace")
  else .ok (name, attrs)

/-- Token for a complete tag: a trailing `/` makes it an empty element. -/
def tagToken (content : List Char) : Res Token :=
  if content.getLast? = some '/' then do
    let (n, a) ← parseTag content.dropLast
    .ok (.empty n a)
  else do
    let (n, a) ← parseTag content
    .ok (.start n a)

/-- States of the event reader. Accumulators are reversed. -/
inductive LState where
  | text (acc : List Char)
  | lt
  | tag (quote : Option Char) (acc : List Char)
  | close (acc : List Char)
  | pi (acc : List Char)
  | bang (acc : List Char)
deriving DecidableEq, Repr

/-- Text tokens: trimmed, and dropped when nothing remains. -/
def textToken (acc : List Char) : List Token :=
  let t := trimXml acc.reverse
  if t = [] then [] else [.text t]

/-- Is the accumulated (reversed) content of `<!` complete at a `>`? The first character decides: what begins with `-` ends in `--`, what
begins with `[` in `]]`, and anything else where every `<` has its `>` (`BangType::parse`). -/
def bangComplete (acc : List Char) : Bool :=
  match acc.reverse.head? with
  | some '-' => decide (4 ≤ acc.length) && "--".toList.isPrefixOf acc
  | some '[' => "]]".toList.isPrefixOf acc
  | _ => acc.count '<' == acc.count '>'

/-- Is the complete content of `<!` a comment, a CDATA section or a document type declaration with a name
(`ReaderState::emit_bang`)? -/
def bangValid (s : List Char) : Bool :=
  match s.head? with
  | some '-' => "--".toList.isPrefixOf s
  | some '[' => "[CDATA[".toList.isPrefixOf s
  | some _ => (s.take 7).map Char.toLower == "doctype".toList && (s.drop 7).any (fun c => !isXmlSpace c)
  | none => false

/-- Name of an end tag: trailing white space is dropped (`trim_markup_names_in_closing_tags`). The argument is
reversed. -/
def closeName (acc : List Char) : List Char :=
  if acc.dropWhile isXmlSpace = [] then acc.reverse else (acc.dropWhile isXmlSpace).reverse

/-- The event reader as a character state machine. -/
def lexFrom : LState → List Char → Res (List Token)
  | .text acc, [] => .ok (textToken acc)
  | _, [] => .error (.fail "unexpected end of file")
  | .text acc, c :: cs =>
    if c = '<' then do
      let r ← lexFrom .lt cs
      .ok (textToken acc ++ r)
    else lexFrom (.text (c :: acc)) cs
  | .lt, c :: cs =>
    if c = '/' then lexFrom (.close []) cs
    else if c = '?' then lexFrom (.pi []) cs
    else if c = '!' then lexFrom (.bang []) cs
    else if c = '>' then do
      let t ← tagToken []
      let r ← lexFrom (.text []) cs
      .ok (t :: r)
    else lexFrom (.tag (if c = '"' ∨ c = '\'' then some c else none) [c]) cs
  | .tag none acc, c :: cs =>
    if c = '>' then do
      let t ← tagToken acc.reverse
      let r ← lexFrom (.text []) cs
      .ok (t :: r)
    else lexFrom (.tag (if c = '"' ∨ c = '\'' then some c else none) (c :: acc)) cs
  | .tag (some q) acc, c :: cs =>
    lexFrom (.tag (if c = q then none else some q) (c :: acc)) cs
  | .close acc, c :: cs =>
    if c = '>' then do
      let r ← lexFrom (.text []) cs
      .ok (.close (closeName acc) :: r)
    else lexFrom (.close (c :: acc)) cs
  | .pi acc, c :: cs =>
    if c = '>' ∧ acc = [] then .error (.fail "unclosed processing instruction")
    else if c = '>' ∧ acc.head? = some '?' then lexFrom (.text []) cs
    else lexFrom (.pi (c :: acc)) cs
  | .bang acc, c :: cs =>
    if c = '>' ∧ bangComplete acc then
      if bangValid acc.reverse then lexFrom (.text []) cs else .error (.fail "unknown markup")
    else lexFrom (.bang (c :: acc)) cs

/-- The reader removes a byte order mark at the start of the document. -/
def dropBom : List Char → List Char
  | [] => []
  | c :: cs => if c = '\uFEFF' then cs else c :: cs

/-- All tokens of a document. -/
def lex (s : List Char) : Res (List Token) := lexFrom (.text []) (dropBom s)

/-- `check_end_names`: every end tag matches the innermost open start tag. -/
def checkEnds : List (List Char) → List Token → Bool
  | _, [] => true
  | stack, .start n _ :: ts => checkEnds (n :: stack) ts
  | stack, .empty _ _ :: ts => checkEnds stack ts
  | stack, .text _ :: ts => checkEnds stack ts
  | [], .close _ :: _ => false
  | s :: stack, .close n :: ts => if s = n then checkEnds stack ts else false

end Oxml
