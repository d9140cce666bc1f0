import Verif.Spec.Existing
/-!
# Opening and saving, again and again
-/
namespace Oxml.Spec

mutual
/-- No attribute value of the element, or of an element below it, has a special character. -/
def PlainNode : Node → Prop
  | .mk _ attrs _ cs => (∀ kv ∈ attrs.getD [], NoSpecials kv.2) ∧ PlainNodes cs
/-- No attribute value of the elements, or of elements below them, has a special character. -/
def PlainNodes : List Node → Prop
  | [] => True
  | c :: cs => PlainNode c ∧ PlainNodes cs
end

/-- Each of the workbook's own parts can be read, and no attribute value in it has a special character. -/
def PlainParts (env : Env) (z : Zip) (x : Excel) : Prop := ∀ n ∈ ownParts x, ∃ d r, zipDoc env z n = some d ∧ d.root = some r ∧ PlainNode r

/-- The file is opened and saved at once; nothing is asked for in between. -/
def Resaves (env : Env) (theme : XDoc) (z z' : Zip) : Prop :=
  ∃ x now exts, Excel.openFile env theme z = .ok x ∧ (∀ q, x.saved env now = .ok q → HashSetOrder q.extPairs exts) ∧
    x.toZip env now exts = .ok z'

/-- The file is opened and saved at once, so many times in a row. -/
inductive Resaved (env : Env) (theme : XDoc) : Nat → Zip → Zip → Prop
  | zero (z : Zip) : Resaved env theme 0 z z
  | succ {n : Nat} {z z' z'' : Zip} : Resaved env theme n z z' → Resaves env theme z' z'' → Resaved env theme (n + 1) z z''

/-- The flag for showing sheet tabs, turned around. -/
def flipFlag (kv : String × String) : String × String :=
  if kv.1 = "showSheetTabs" then (kv.1, if kv.2 = "1" then "0" else "1") else kv

/-- A view of the workbook with the flag for showing sheet tabs turned around. -/
def flipView : Node → Node
  | .mk t a v cs => .mk t (a.map (fun l => l.map flipFlag)) v cs

/-- The workbook document with the flag for showing sheet tabs turned around. -/
def flipTabs (x : XDoc) : XDoc :=
  x.mapRootChildren (fun cs => cs.map (fun n => if n.tag = "bookViews" then n.withChildren (n.children.map flipView) else n))

/-- The core properties without what they say about the time of the last change. -/
def blankModified (x : XDoc) : XDoc :=
  x.mapRootChildren (fun cs => cs.map (fun n => if n.tag = "dcterms:modified" then .mk n.tag n.attrs none [] else n))

/-- The core properties are where the library looks for them, and an element for the time of creation holds one. -/
def CoreStamped (env : Env) (z : Zip) (x : Excel) : Prop :=
  ∃ d r, zipDoc env z x.core.path = some d ∧ d.root = some r ∧ r.tag = "cp:coreProperties" ∧
    ∀ n ∈ r.children, n.tag = "dcterms:created" → n.value ≠ none

/-- So many times. -/
def iterate {α : Type} (f : α → α) : Nat → α → α
  | 0, a => a
  | n + 1, a => f (iterate f n a)

/-- No font is italic or underlined once: the library does not read these back. -/
def UprightFonts (st : Styles) : Prop := ∀ f ∈ st.fonts, f.italic = false ∧ f.underline = false

/-- No text begins or ends with white space. -/
def TrimmedTexts (table : List String) : Prop := ∀ t ∈ table, trimXml t.toList = t.toList

end Oxml.Spec
