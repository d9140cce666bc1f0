import Verif.Spec.ForeignSheet
/-!
# The shared strings of an opened workbook (C110)
-/
namespace Oxml.Spec

/-- A string item whose text comes first and in one piece; other elements, as phonetic text, may follow. -/
def OnePiece (i : Item) : Prop :=
  ∃ t rest n kvs s, i.elements = t :: rest ∧ t.named "t" ∧ (t = .elem n kvs [] ∨ t = .elem n kvs [.text s]) ∧ ∀ e ∈ rest, e.named "t" = false ∧ e.named "r" = false

/-- Of a string the library keeps what is left without white space around it, nothing of one that is only white space. -/
def KeptString (v : String) (t : List Char) : Prop := v = "" ∧ Whites t ∨ KeptOf v t

/-- **C110, in full.** The strings of an opened workbook are the strings other programs see in its file. -/
def StringsAsSeen (env : Env) (theme : XDoc) : Prop :=
  ∀ z x text sst, (akeys z).Nodup → Excel.openFile env theme z = .ok x → aget x.strings.path z = some text → IsDocument text sst →
    x.strings.data.map String.toList = sharedStrings sst

end Oxml.Spec
