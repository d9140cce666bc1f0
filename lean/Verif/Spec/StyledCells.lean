import Verif.Spec.Existing
import Verif.Spec.Style
/-!
# Cells and the styles they were given
-/
namespace Oxml.Spec

/-- In the history the setting was asked for, and the id handed out: the tables had room, and no two hashes were equal. -/
def AskedFor (env : Env) (s0 : Session) (ops : List WbOp) (setting : StyleSetting) (id : Nat) : Prop :=
  ∃ before hs after s1 styles, ops = before ++ .style hs setting :: after ∧ s0.run env before = .ok s1 ∧ Room s1.x.styles.data ∧
    ClashFree env.build hs s1.x.styles.data setting ∧ getStyleId env.build hs s1.x.styles.data setting = .ok (styles, id)

/-- What a file can say of a setting: italics and single underlining are lost, and the colour of a side without a line; texts are escaped. -/
def keptLook (s : StyleSetting) : StyleSetting :=
  { s with fontFamily := attrReload s.fontFamily, textColor := reloadColor s.textColor, italic := false, underline := false,
           background := s.background.map attrReload, foreground := s.foreground.map attrReload, borderLeft := reloadSide s.borderLeft,
           borderRight := reloadSide s.borderRight, borderTop := reloadSide s.borderTop, borderBottom := reloadSide s.borderBottom,
           borderDiagonal := reloadSide s.borderDiagonal }

/-- The cell is there, and the format it refers to has the font, fill, border and alignment of the setting. -/
def CellLooks (sh : Sheet) (st : Styles) (r c : Nat) (s : StyleSetting) : Prop :=
  ∃ cell id, cellAt sh r c = some cell ∧ cell.style = some id ∧ LooksAs st id s

/-- The same for a row. -/
def RowLooks (sh : Sheet) (st : Styles) (r : Nat) (s : StyleSetting) : Prop := ∃ id, (rowPropsAt sh r).style = some id ∧ LooksAs st id s

end Oxml.Spec
