import Verif.Model.Workbook
import Verif.Spec.Reload
/-!
# Vocabulary for the order of hash maps

A `HashMap` has no order, but going through one meets its entries in some order, another one in every run of the program. Two
association lists are the same map when one is a permutation of the other and no key occurs twice.
-/
namespace Oxml.Spec

/-- The same map, met in two orders. -/
structure SameMap (a b : Attrs) : Prop where
  perm : a.Perm b
  keys : (akeys a).Nodup

/-- Attributes: both absent, or the same map. -/
inductive SameAttrs : Option Attrs → Option Attrs → Prop
  | none : SameAttrs none none
  | some {a b : Attrs} (h : SameMap a b) : SameAttrs (some a) (some b)

mutual
/-- The same element up to the order of attributes, here and below. -/
inductive SameNode : Node → Node → Prop
  | mk {t : String} {a b : Option Attrs} {v : Option String} {cs ds : List Node} (ha : SameAttrs a b) (hc : SameNodes cs ds) :
    SameNode (.mk t a v cs) (.mk t b v ds)
/-- The same elements in the same order. -/
inductive SameNodes : List Node → List Node → Prop
  | nil : SameNodes [] []
  | cons {c d : Node} {cs ds : List Node} (h : SameNode c d) (hs : SameNodes cs ds) : SameNodes (c :: cs) (d :: ds)
end

/-- Both absent, or related. -/
inductive SameOpt {α : Type} (R : α → α → Prop) : Option α → Option α → Prop
  | none : SameOpt R none none
  | some {a b : α} (h : R a b) : SameOpt R (some a) (some b)

/-- Both fail with the same error, or both succeed with related results. -/
inductive SameRes {α : Type} (R : α → α → Prop) : Res α → Res α → Prop
  | error (e : Err) : SameRes R (.error e) (.error e)
  | ok {a b : α} (h : R a b) : SameRes R (.ok a) (.ok b)

/-- The same document up to the order of attributes and namespaces. -/
structure SameDoc (x y : XDoc) : Prop where
  ns : SameMap x.ns y.ns
  root : SameOpt SameNode x.root y.root

/-- The library accepted all names of the document, and namespace names have no double quote. -/
structure Sound (u : Unicode) (x : XDoc) : Prop where
  ns : WfNs u x.ns
  uris : CleanUris x.ns
  names : ∀ r, x.root = some r → WfNode u r

/-- The same file text: equal, or two renderings of the same document, which differ in the order of namespace declarations only. -/
inductive SameText (env : Env) : List Char → List Char → Prop
  | same {c : List Char} (h : ∀ d, readXml env.uni c = .ok d → CleanUris d.ns) : SameText env c c
  | rendered {x y : XDoc} (h : SameDoc x y) (hs : Sound env.uni x) :
    SameText env (renderDoc env.build env.stamp x) (renderDoc env.build env.stamp y)

/-- Maps with related values. -/
structure SameKeyed {V : Type} (R : V → V → Prop) (m n : List (String × V)) : Prop where
  left : (akeys m).Nodup
  right : (akeys n).Nodup
  get : ∀ k, SameOpt R (aget k m) (aget k n)

/-- The same closed part. -/
structure SameEntry (env : Env) (e f : Entry) : Prop where
  ext : e.ext = f.ext
  extType : e.extType = f.extType
  ctype : e.ctype = f.ctype
  content : SameText env e.content f.content

/-- The same open part. -/
structure SameOpen (env : Env) (o q : OpenDoc) : Prop where
  handle : o.handle = q.handle
  ctype : o.ctype = q.ctype
  ext : o.ext = q.ext
  extType : o.extType = q.extType
  doc : SameDoc o.doc q.doc
  sound : Sound env.uni o.doc

/-- The same package: the same open and closed parts, in any order. Handles name one open part each and are not reused. -/
structure SamePkg (env : Env) (p q : Pkg) : Prop where
  opened : SameKeyed (SameOpen env) p.opened q.opened
  archive : SameKeyed (SameEntry env) p.archive q.archive
  next : p.nextHandle = q.nextHandle
  handles : ∀ k k' o o', aget k p.opened = some o → aget k' p.opened = some o' → o.handle = o'.handle → k = k'
  below : ∀ k o, aget k p.opened = some o → o.handle < p.nextHandle

/-- The same workbook. -/
structure SameExcel (env : Env) (x y : Excel) : Prop where
  pkg : SamePkg env x.pkg y.pkg
  rest : { x with pkg := y.pkg } = y

/-- The same session. -/
structure SameSession (env : Env) (s t : Session) : Prop where
  x : SameExcel env s.x t.x
  handles : s.handles = t.handles

/-- An open part whose hash maps are met in another order. -/
structure SameOpened (o q : OpenDoc) : Prop where
  doc : SameDoc o.doc q.doc
  rest : { o with doc := q.doc } = q

/-- A session whose hash maps are met in another order; nothing else changes, closed parts keep their text. -/
structure Shuffled (s t : Session) : Prop where
  opened : SameKeyed SameOpened s.x.pkg.opened t.x.pkg.opened
  archive : s.x.pkg.archive.Perm t.x.pkg.archive
  next : s.x.pkg.nextHandle = t.x.pkg.nextHandle
  rest : { s with x := { s.x with pkg := t.x.pkg } } = t

/-- A run of a program on a session: the calls in order, with the answers; hash maps may be met in another order at every call. A panic
ends the run. -/
inductive ProgramRuns (env : Env) : Session → List WbOp → List (Res Unit) → Session → Prop
  | done {s t : Session} (h : Shuffled s t) : ProgramRuns env s [] [] t
  | step {s s1 s2 t : Session} {op : WbOp} {ops : List WbOp} {r : Res Unit} {rs : List (Res Unit)} (h : Shuffled s s1) (hs : s1.step env op = (r, s2))
    (hr : ∀ m, r ≠ .error (.panic m)) (rest : ProgramRuns env s2 ops rs t) : ProgramRuns env s (op :: ops) (r :: rs) t
  | crash {s s1 s2 : Session} {op : WbOp} {ops : List WbOp} {m : String} (h : Shuffled s s1) (hs : s1.step env op = (.error (.panic m), s2)) :
    ProgramRuns env s (op :: ops) [.error (.panic m)] s2

/-- The namespace a declaration with this attribute key is for: the text between the first and the second colon, or the default namespace. -/
def nsTarget (key : String) : String := (nsAlias key).getD defaultNsKey

/-- No two namespace declarations of a list of attributes are for the same namespace. -/
def NsClashFree (attrs : Attrs) : Prop := ((attrs.filter (fun kv => isNsKey kv.1)).map (fun kv => nsTarget kv.1)).Nodup

/-- The namespace names of all parts of a file are without double quotes. -/
def CleanZip (env : Env) (z : Zip) : Prop := ∀ k c d, aget k z = some c → readXml env.uni c = .ok d → CleanUris d.ns

/-- The same saved file: the same parts in any order, each with the same text up to the order of namespace declarations; the content type
part lists the same defaults and the same overrides in any order. -/
structure SameZip (env : Env) (z w : Zip) : Prop where
  left : (akeys z).Nodup
  right : (akeys w).Nodup
  parts : ∀ k, k ≠ contentTypesName → SameOpt (SameText env) (aget k z) (aget k w)
  types : ∃ e f o q, e.Perm f ∧ o.Perm q ∧ e.Nodup ∧ (o.map Prod.fst).Nodup ∧
    aget contentTypesName z = some (renderDoc env.build env.stamp (contentTypesDoc e o)) ∧
    aget contentTypesName w = some (renderDoc env.build env.stamp (contentTypesDoc f q))

/-- The content type part of the file gives every extension one type. -/
def OneType (env : Env) (z : Zip) : Prop := ∀ c d exts x t t', aget contentTypesName z = some c → readXml env.uni c = .ok d →
  getExtensions d.toXDoc = .ok exts → (x, t) ∈ exts → (x, t') ∈ exts → t = t'

end Oxml.Spec
