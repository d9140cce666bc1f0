import Verif.Spec.ForeignStrings
/-!
# Sheets other programs wrote, edited and saved, as other programs see them (C111)
-/
namespace Oxml.Spec

/-- Two cells that say the same to every program: row, place, style (the first if none is given), type (number if none is given), formula and text. -/
structure SameCell (c c' : SeenCell) : Prop where
  row : c'.row = c.row
  ref : c'.ref = c.ref
  style : c'.style.getD "0".toList = c.style.getD "0".toList
  type : c'.type.getD "n".toList = c.type.getD "n".toList
  formula : c'.formulas.flatten = c.formulas.flatten
  text : c'.text = c.text

/-- The names in the document are in ASCII and its namespaces have characters of XML only and no markup. -/
def PlainNames (d : XDoc) : Prop :=
  ∃ t a cs, WfDoc ⟨fun _ => false⟩ d (.mk t a none cs) ∧ ∀ kv ∈ d.ns, XmlChars kv.2 ∧ '<' ∉ kv.2.toList ∧ '&' ∉ kv.2.toList

end Oxml.Spec
