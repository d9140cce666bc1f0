import Verif.Model.Workbook
/-!
# The texts a user hands to the library (C104)
-/
namespace Oxml.Spec

/-- Texts of a cell as given. -/
def cellTexts (c : CellProps) : List String := c.formula.toList ++ c.value.toList ++ c.metadata.toList

/-- Texts of one call on a sheet. Heights and widths are numbers of the API, here their printed form. -/
def SheetOp.texts : SheetOp → List String
  | .write _ _ cells => cells.flatMap cellTexts
  | .rowProps _ p => p.height.toList ++ p.span.toList
  | .column _ p => match p with
    | none => []
    | some p => p.width.toList

/-- Texts of a border side. -/
def sideTexts (s : BorderSide) : List String := (s.color.map Color.value).toList

/-- Texts of a style setting. -/
def settingTexts (s : StyleSetting) : List String :=
  s.customFormat.toList ++ sideTexts s.borderLeft ++ sideTexts s.borderTop ++ sideTexts s.borderRight ++ sideTexts s.borderBottom ++
    sideTexts s.borderDiagonal ++ [s.fontFamily, s.textColor.value] ++ s.background.toList ++ s.foreground.toList

/-- Every text handed over in one call. -/
def givenTexts : WbOp → List String
  | .add name => name.toList
  | .get name => [name]
  | .sheet _ op => op.texts
  | .drop _ => []
  | .delete _ => []
  | .rename old new => [old, new]
  | .active name => [name]
  | .hide name => [name]
  | .view _ => []
  | .style _ s => settingTexts s

end Oxml.Spec
