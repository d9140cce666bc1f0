import Verif.Spec.Navigate
import Verif.Spec.Style
/-!
# How other programs find the format of a cell (C107)

From the style number of a cell to a cell format, and from there to font, fill and border, as the file format (ECMA-376 part 1, 18.8.1, 18.8.4, 18.8.5,
18.8.10, 18.8.20 to 18.8.23, 18.8.32, 18.8.45) defines them, with its default values. Only the settings, whose types belong to the library, refer to it.
-/
namespace Oxml.Spec

def stylesRel : List Char := "http://schemas.openxmlformats.org/officeDocument/2006/relationships/styles".toList
def stylesType : List Char := "application/vnd.openxmlformats-officedocument.spreadsheetml.styles+xml".toList

/-- A program finds the styles of the workbook. -/
def FindsStyles (z : Zip) (styles : Item) : Prop :=
  ∃ types main book rels r part, OpensFile z types main book rels ∧ (relationships rels).filter (fun r => decide (r.type = some stylesRel)) = [r] ∧
    r.leads main = some part ∧ typeOf types part = some stylesType ∧ PartShows z part spreadsheetNs styles ∧ styles.named "styleSheet" = true

/-- The entry with that number, counted from 0. -/
def entryAt {α : Type} (l : List α) (number : List Char) : Option α :=
  ((List.range l.length).find? (fun i => decide (Nat.toDigits 10 i = number))).bind (fun i => l[i]?)

/-- The entry of a table of the styles with that number. -/
def styleEntry (styles : Item) (table entry : String) (number : List Char) : Option Item :=
  entryAt ((styles.kids table).flatMap (fun t => t.kids entry)) number

/-! ## What is found -/

/-- A colour as found. -/
structure SeenColor where
  auto : Option (List Char) := none
  indexed : Option (List Char) := none
  rgb : Option (List Char) := none
  theme : Option (List Char) := none
  tint : Option (List Char) := none
deriving DecidableEq

def seenColor (i : Item) : SeenColor :=
  { auto := i.attrOf "auto", indexed := i.attrOf "indexed", rgb := i.attrOf "rgb", theme := i.attrOf "theme", tint := i.attrOf "tint" }

/-- A switch, on unless it says otherwise. -/
def switchedOn (i : Item) : Bool := i.attrOf "val" ∉ [some "0".toList, some "false".toList]

/-- A font as found. -/
structure SeenFont where
  names : List (Option (List Char))
  sizes : List (Option (List Char))
  colors : List SeenColor
  bold : Bool
  italic : Bool
  underlines : List (List Char)
  /-- It follows the fonts of the theme instead of its name. -/
  themed : Bool
  /-- Strike-through, outline, shadow, condensing, extending and raising. -/
  effects : List Item

def seenFont (i : Item) : SeenFont :=
  { names := (i.kids "name").map (Item.attrOf "val"), sizes := (i.kids "sz").map (Item.attrOf "val"), colors := (i.kids "color").map seenColor,
    bold := (i.kids "b").any switchedOn, italic := (i.kids "i").any switchedOn,
    underlines := (i.kids "u").map (fun u => (u.attrOf "val").getD "single".toList),
    themed := (i.kids "scheme").any (fun k => decide (k.attrOf "val" ≠ some "none".toList)),
    effects := ["strike", "outline", "shadow", "condense", "extend", "vertAlign"].flatMap (fun k => i.kids k) }

/-- A fill as found. -/
structure SeenFill where
  pattern : List Char
  foreground : List SeenColor
  background : List SeenColor
deriving DecidableEq

/-- The pattern fills of a fill. -/
def seenFills (i : Item) : List SeenFill :=
  (i.kids "patternFill").map (fun p => ⟨(p.attrOf "patternType").getD "none".toList, (p.kids "fgColor").map seenColor, (p.kids "bgColor").map seenColor⟩)

/-- A side of a border as found. -/
structure SeenSide where
  style : List Char
  colors : List SeenColor
deriving DecidableEq

def seenSides (side : String) (i : Item) : List SeenSide :=
  (i.kids side).map (fun s => ⟨(s.attrOf "style").getD "none".toList, (s.kids "color").map seenColor⟩)

/-- An alignment as found. -/
structure SeenAlignment where
  horizontal : List Char
  vertical : List Char
  wrap : Bool
deriving DecidableEq

/-- The alignment of a cell format. -/
def seenAlignment (xf : Item) : SeenAlignment :=
  let a := (xf.kids "alignment").head?
  { horizontal := (a.bind (Item.attrOf "horizontal")).getD "general".toList, vertical := (a.bind (Item.attrOf "vertical")).getD "bottom".toList,
    wrap := a.bind (Item.attrOf "wrapText") ∈ [some "1".toList, some "true".toList] }

/-! ## What was asked for -/

/-- A colour: a number of the palette, of the theme, or its parts. -/
def wantedColor (c : Color) : SeenColor :=
  match c.kind with
  | .indexed => { indexed := some (Reading.xml.attr c.value.toList) }
  | .theme => { theme := some (Reading.xml.attr c.value.toList) }
  | .rgb => { rgb := some (Reading.xml.attr c.value.toList) }

def wantedFont (s : StyleSetting) : SeenFont :=
  { names := [some (Reading.xml.attr s.fontFamily.toList)], sizes := [some (Nat.toDigits 10 s.fontSize)], colors := [wantedColor s.textColor], bold := s.bold,
    italic := s.italic, underlines := (if s.underline then ["single".toList] else []) ++ (if s.doubleUnderline then ["double".toList] else []), themed := false, effects := [] }

/-- A fill colour, always given by its parts. -/
def wantedRgb (v : Option String) : List SeenColor := (v.map (fun v => ({ rgb := some (Reading.xml.attr v.toList) } : SeenColor))).toList

def wantedFill (s : StyleSetting) : SeenFill :=
  { pattern := match s.pattern with
      | .none => "none".toList
      | .gray125 => "gray125".toList
      | .solid => "solid".toList
    foreground := wantedRgb s.foreground, background := wantedRgb s.background }

/-- The name of a line (18.18.3). -/
def lineName : BorderKind → List Char
  | .none => "none".toList
  | .thin => "thin".toList
  | .thick => "thick".toList
  | .dotted => "dotted".toList
  | .double => "double".toList
  | .dashed => "dashed".toList
  | .dashDot => "dashDot".toList
  | .dashDotDot => "dashDotDot".toList
  | .medium => "medium".toList
  | .mediumDashed => "mediumDashed".toList
  | .mediumDashDot => "mediumDashDot".toList
  | .mediumDashDotDot => "mediumDashDotDot".toList
  | .slantDashDot => "slantDashDot".toList
  | .hair => "hair".toList

/-- A side: the colour matters only if there is a line. -/
def wantedSide (b : BorderSide) : SeenSide :=
  { style := lineName b.style, colors := if b.style = .none then [] else (b.color.map wantedColor).toList }

def wantedAlignment (s : StyleSetting) : SeenAlignment :=
  { horizontal := match s.horizontal with
      | .none => "general".toList
      | .left => "left".toList
      | .center => "center".toList
      | .right => "right".toList
      | .justify => "justify".toList
    vertical := match s.vertical with
      | .none => "bottom".toList
      | .top => "top".toList
      | .middle => "center".toList
      | .bottom => "bottom".toList
    wrap := s.wrapText }

/-- A format uses what it refers to: it says so, or it is the default entry. -/
def applied (xf : Item) (flag id : String) : Prop := xf.attrOf flag = some "1".toList ∨ xf.attrOf id = some "0".toList

/-- The numbers of the formats every program knows (18.8.30). -/
def standardNumber : NumFmtKind → Option Nat
  | .general => some 0
  | .integer => some 1
  | .decimalTwoPlaces => some 2
  | .thousandsSeparator => some 3
  | .thousandsSeparatorTwoDecimals => some 4
  | .percentage => some 9
  | .percentageTwoDecimals => some 10
  | .scientific => some 11
  | .fractionOneDigit => some 12
  | .fractionTwoDigits => some 13
  | .dateMMDDYY => some 14
  | .dateDMmmYY => some 15
  | .dateDMmm => some 16
  | .dateMmmYY => some 17
  | .time12Hour => some 18
  | .time12HourWithSeconds => some 19
  | .time24Hour => some 20
  | .time24HourWithSeconds => some 21
  | .dateTimeMMDDYY => some 22
  | .accountingNoDecimals => some 37
  | .accountingNoDecimalsRed => some 38
  | .accountingTwoDecimals => some 39
  | .accountingTwoDecimalsRed => some 40
  | .timeMinutesSeconds => some 45
  | .timeHoursMinutesSeconds => some 46
  | .elapsedTimeWithFractions => some 47
  | .scientificOneDecimal => some 48
  | .textFormat => some 49
  | _ => none

/-- The cell format with the number shows numbers as asked for. -/
def FormatsElsewhere (styles : Item) (number : List Char) (k : NumFmtKind) : Prop :=
  ∃ xf id, styleEntry styles "cellXfs" "xf" number = some xf ∧ standardNumber k = some id ∧ xf.attrOf "numFmtId" = some (Nat.toDigits 10 id)

/-- The cell format with the number has the font, fill, border and alignment asked for. -/
def LooksElsewhere (styles : Item) (number : List Char) (s : StyleSetting) : Prop :=
  ∃ xf font fill border, styleEntry styles "cellXfs" "xf" number = some xf ∧
    (xf.attrOf "fontId").bind (styleEntry styles "fonts" "font") = some font ∧
    (xf.attrOf "fillId").bind (styleEntry styles "fills" "fill") = some fill ∧
    (xf.attrOf "borderId").bind (styleEntry styles "borders" "border") = some border ∧
    seenFont font = wantedFont s ∧ seenFills fill = [wantedFill s] ∧
    seenSides "left" border = [wantedSide s.borderLeft] ∧ seenSides "right" border = [wantedSide s.borderRight] ∧
    seenSides "top" border = [wantedSide s.borderTop] ∧ seenSides "bottom" border = [wantedSide s.borderBottom] ∧
    seenSides "diagonal" border = [wantedSide s.borderDiagonal] ∧ seenAlignment xf = wantedAlignment s ∧
    applied xf "applyFont" "fontId" ∧ applied xf "applyFill" "fillId" ∧ applied xf "applyBorder" "borderId" ∧
    (xf.attrOf "applyAlignment" = some "1".toList ∨ xf.kids "alignment" = [])

end Oxml.Spec
