import Verif.Spec.Style
/-!
# Vocabulary for saved style parts (C72, C73)
-/
namespace Oxml.Spec

/-- `n` is the one child of the root with the tag. -/
def OnlyTable (x : XDoc) (tag : String) (n : Node) : Prop := x.rootChildren.filter (fun c => c.tag = tag) = [n]

/-- The element announces as many entries as it has. -/
def Counted (n : Node) : Prop := n.attr? "count" = some (toString n.children.length)

/-- The attribute is the position of one of the entries. -/
def Points (n : Node) (attr : String) (table : Node) : Prop := ∃ i, n.attr? attr = some (toString i) ∧ i < table.children.length

/-- Every cell format and every parent format of the part points to fonts, fills and borders it has, every cell format to a
parent format it has. -/
def RefsPoint (x : XDoc) : Prop :=
  ∃ fonts fills borders parents cells, OnlyTable x "fonts" fonts ∧ OnlyTable x "fills" fills ∧ OnlyTable x "borders" borders ∧
    OnlyTable x "cellStyleXfs" parents ∧ OnlyTable x "cellXfs" cells ∧
    (∀ n ∈ parents.children ++ cells.children, Points n "fontId" fonts ∧ Points n "fillId" fills ∧ Points n "borderId" borders) ∧
    ∀ n ∈ cells.children, Points n "xfId" parents

/-- The same for the tables in memory. -/
def TablesPoint (st : Styles) : Prop :=
  (∀ f ∈ st.styleXfs ++ st.xfs, f.fontId < st.fonts.length ∧ f.fillId < st.fills.length ∧ f.borderId < st.borders.length) ∧
  ∀ f ∈ st.xfs, f.formatId < st.styleXfs.length

end Oxml.Spec
