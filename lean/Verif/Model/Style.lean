import Verif.Model.Worksheet
/-!
# `rs/src/spreadsheet/spreadsheet_2007/services/style.rs` and `models/style.rs`
-/
namespace Oxml

/-! ## Enumerations -/

/-- `NumberFormatValues` (`models/style.rs:5`). -/
inductive NumFmtKind where
  | general | integer | decimalTwoPlaces | thousandsSeparator | thousandsSeparatorTwoDecimals | currencyNoDecimals | currencyNoDecimalsRed | currencyTwoDecimals | currencyTwoDecimalsRed | percentage | percentageTwoDecimals | scientific | fractionOneDigit | fractionTwoDigits | dateMMDDYY | dateDMmmYY | dateDMmm | dateMmmYY | time12Hour | time12HourWithSeconds | time24Hour | time24HourWithSeconds | dateTimeMMDDYY | accountingNoDecimals | accountingNoDecimalsRed | accountingTwoDecimals | accountingTwoDecimalsRed | accountingNegativeInParentheses | accountingTwoDecimalsNegativeInParentheses | accountingAlignedSymbols | accountingAlignedSymbolsTwoDecimals | timeMinutesSeconds | timeHoursMinutesSeconds | elapsedTimeWithFractions | scientificOneDecimal | textFormat | custom
deriving DecidableEq, Repr

/-- `get_string` (`models/style.rs:45-128`). -/
def NumFmtKind.text : NumFmtKind → String
  | .general => "0"
  | .integer => "1"
  | .decimalTwoPlaces => "2"
  | .thousandsSeparator => "3"
  | .thousandsSeparatorTwoDecimals => "4"
  | .currencyNoDecimals => "5"
  | .currencyNoDecimalsRed => "6"
  | .currencyTwoDecimals => "7"
  | .currencyTwoDecimalsRed => "8"
  | .percentage => "9"
  | .percentageTwoDecimals => "10"
  | .scientific => "11"
  | .fractionOneDigit => "12"
  | .fractionTwoDigits => "13"
  | .dateMMDDYY => "14"
  | .dateDMmmYY => "15"
  | .dateDMmm => "16"
  | .dateMmmYY => "17"
  | .time12Hour => "18"
  | .time12HourWithSeconds => "19"
  | .time24Hour => "20"
  | .time24HourWithSeconds => "21"
  | .dateTimeMMDDYY => "22"
  | .accountingNoDecimals => "37"
  | .accountingNoDecimalsRed => "38"
  | .accountingTwoDecimals => "39"
  | .accountingTwoDecimalsRed => "40"
  | .accountingNegativeInParentheses => "41"
  | .accountingTwoDecimalsNegativeInParentheses => "42"
  | .accountingAlignedSymbols => "43"
  | .accountingAlignedSymbolsTwoDecimals => "44"
  | .timeMinutesSeconds => "45"
  | .timeHoursMinutesSeconds => "46"
  | .elapsedTimeWithFractions => "47"
  | .scientificOneDecimal => "48"
  | .textFormat => "49"
  | .custom => "164"

/-- `get_enum` (`models/style.rs:45-128`). -/
def NumFmtKind.parse (s : String) : NumFmtKind :=
  if s = "0" then .general
  else if s = "1" then .integer
  else if s = "2" then .decimalTwoPlaces
  else if s = "3" then .thousandsSeparator
  else if s = "4" then .thousandsSeparatorTwoDecimals
  else if s = "5" then .currencyNoDecimals
  else if s = "6" then .currencyNoDecimalsRed
  else if s = "7" then .currencyTwoDecimals
  else if s = "8" then .currencyTwoDecimalsRed
  else if s = "9" then .percentage
  else if s = "10" then .percentageTwoDecimals
  else if s = "11" then .scientific
  else if s = "12" then .fractionOneDigit
  else if s = "13" then .fractionTwoDigits
  else if s = "14" then .dateMMDDYY
  else if s = "15" then .dateDMmmYY
  else if s = "16" then .dateDMmm
  else if s = "17" then .dateMmmYY
  else if s = "18" then .time12Hour
  else if s = "19" then .time12HourWithSeconds
  else if s = "20" then .time24Hour
  else if s = "21" then .time24HourWithSeconds
  else if s = "22" then .dateTimeMMDDYY
  else if s = "37" then .accountingNoDecimals
  else if s = "38" then .accountingNoDecimalsRed
  else if s = "39" then .accountingTwoDecimals
  else if s = "40" then .accountingTwoDecimalsRed
  else if s = "41" then .accountingNegativeInParentheses
  else if s = "42" then .accountingTwoDecimalsNegativeInParentheses
  else if s = "43" then .accountingAlignedSymbols
  else if s = "44" then .accountingAlignedSymbolsTwoDecimals
  else if s = "45" then .timeMinutesSeconds
  else if s = "46" then .timeHoursMinutesSeconds
  else if s = "47" then .elapsedTimeWithFractions
  else if s = "48" then .scientificOneDecimal
  else if s = "49" then .textFormat
  else .custom

/-- `FontSchemeValues` (`models/style.rs:131`). -/
inductive FontScheme where
  | none | minor | major
deriving DecidableEq, Repr

/-- `get_string` (`models/style.rs:137-152`). -/
def FontScheme.text : FontScheme → String
  | .major => "major"
  | .minor => "minor"
  | .none => "none"

/-- `get_enum` (`models/style.rs:137-152`). -/
def FontScheme.parse (s : String) : FontScheme :=
  if s = "major" then .major
  else if s = "minor" then .minor
  else .none

/-- `PatternTypeValues` (`models/style.rs:155`). -/
inductive PatternType where
  | none | gray125 | solid
deriving DecidableEq, Repr

/-- `get_string` (`models/style.rs:161-177`). -/
def PatternType.text : PatternType → String
  | .solid => "solid"
  | .gray125 => "gray125"
  | .none => "none"

/-- `get_enum` (`models/style.rs:161-177`). -/
def PatternType.parse (s : String) : PatternType :=
  if s = "solid" then .solid
  else if s = "gray125" then .gray125
  else .none

/-- `BorderStyleValues` (`models/style.rs:180`). -/
inductive BorderKind where
  | none | thin | thick | dotted | double | dashed | dashDot | dashDotDot | medium | mediumDashed | mediumDashDot | mediumDashDotDot | slantDashDot | hair
deriving DecidableEq, Repr

/-- `get_string` (`models/style.rs:196-234`). -/
def BorderKind.text : BorderKind → String
  | .dashDot => "dashDot"
  | .dashDotDot => "dashDotDot"
  | .dashed => "dashed"
  | .dotted => "dotted"
  | .double => "double"
  | .hair => "hair"
  | .medium => "medium"
  | .mediumDashDot => "mediumDashDot"
  | .mediumDashDotDot => "mediumDashDotDot"
  | .mediumDashed => "mediumDashed"
  | .slantDashDot => "slantDashDot"
  | .thick => "thick"
  | .thin => "thin"
  | .none => "none"

/-- `get_enum` (`models/style.rs:196-234`). -/
def BorderKind.parse (s : String) : BorderKind :=
  if s = "dashDot" then .dashDot
  else if s = "dashDotDot" then .dashDotDot
  else if s = "dashed" then .dashed
  else if s = "dotted" then .dotted
  else if s = "double" then .double
  else if s = "hair" then .hair
  else if s = "medium" then .medium
  else if s = "mediumDashDot" then .mediumDashDot
  else if s = "mediumDashDotDot" then .mediumDashDotDot
  else if s = "mediumDashed" then .mediumDashed
  else if s = "slantDashDot" then .slantDashDot
  else if s = "thick" then .thick
  else if s = "thin" then .thin
  else .none

/-- `ColorSettingTypeValues` (`models/style.rs:237`). -/
inductive ColorKind where
  | indexed | theme | rgb
deriving DecidableEq, Repr

/-- `get_string` (`models/style.rs:243-258`). -/
def ColorKind.text : ColorKind → String
  | .theme => "theme"
  | .rgb => "rgb"
  | .indexed => "indexed"

/-- `get_enum` (`models/style.rs:243-258`). -/
def ColorKind.parse (s : String) : ColorKind :=
  if s = "theme" then .theme
  else if s = "rgb" then .rgb
  else .indexed

/-- `HorizontalAlignmentValues` (`models/style.rs:314`). -/
inductive HAlign where
  | none | left | center | right | justify
deriving DecidableEq, Repr

/-- `get_string` (`models/style.rs:322-341`). -/
def HAlign.text : HAlign → String
  | .left => "left"
  | .center => "center"
  | .right => "right"
  | .justify => "justify"
  | .none => "none"

/-- `get_enum` (`models/style.rs:322-341`). -/
def HAlign.parse (s : String) : HAlign :=
  if s = "left" then .left
  else if s = "center" then .center
  else if s = "right" then .right
  else if s = "justify" then .justify
  else .none

/-- `VerticalAlignmentValues` (`models/style.rs:344`). -/
inductive VAlign where
  | none | top | middle | bottom
deriving DecidableEq, Repr

/-- `get_string` (`models/style.rs:351-368`). -/
def VAlign.text : VAlign → String
  | .top => "top"
  | .middle => "center"
  | .bottom => "bottom"
  | .none => "none"

/-- `get_enum` (`models/style.rs:351-368`). -/
def VAlign.parse (s : String) : VAlign :=
  if s = "top" then .top
  else if s = "center" then .middle
  else if s = "bottom" then .bottom
  else .none
/-! ## Records -/

/-- `ColorSetting` (`models/style.rs:260-273`). -/
structure Color where
  kind : ColorKind := .theme
  value : String := "1"
deriving DecidableEq, Repr

/-- `BorderSetting` (`models/style.rs:275-288`). -/
structure BorderSide where
  color : Option Color := none
  style : BorderKind := .none
deriving DecidableEq, Repr

/-- `BorderStyle` (`models/style.rs:290-311`). -/
structure Border where
  id : Nat := 0
  bottom : BorderSide := {}
  left : BorderSide := {}
  right : BorderSide := {}
  top : BorderSide := {}
  diagonal : BorderSide := {}
deriving DecidableEq, Repr

/-- `NumberFormat` (`models/style.rs:371-386`). -/
structure NumFmt where
  id : Nat := 0
  kind : NumFmtKind := .general
  code : String := "0"
deriving DecidableEq, Repr

/-- `FontStyle` (`models/style.rs:387-417`). -/
structure Font where
  name : String := "Calibri"
  size : Nat := 11
  color : Color := {}
  family : Nat := 2
  scheme : FontScheme := .none
  bold : Bool := false
  doubleUnderline : Bool := false
  italic : Bool := false
  underline : Bool := false
deriving DecidableEq, Repr

/-- `CellXfs` (`models/style.rs:418-457`). -/
structure Xf where
  formatId : Nat := 0
  numFmtId : Nat := 0
  fontId : Nat := 0
  fillId : Nat := 0
  borderId : Nat := 0
  applyFont : Nat := 0
  applyAlignment : Nat := 0
  applyFill : Nat := 0
  applyBorder : Nat := 0
  applyNumFmt : Nat := 0
  applyProtection : Nat := 0
  wrap : Nat := 0
  horizontal : HAlign := .none
  vertical : VAlign := .none
deriving DecidableEq, Repr

/-- `FillStyle` (`models/style.rs:459-474`). -/
structure Fill where
  pattern : PatternType := .none
  background : Option Color := none
  foreground : Option Color := none
deriving DecidableEq, Repr

/-- `StyleSetting` (`models/style.rs:476-540`). `protect` is always `None`. -/
structure StyleSetting where
  numberFormat : NumFmtKind := .general
  customFormat : Option String := none
  borderLeft : BorderSide := {}
  borderTop : BorderSide := {}
  borderRight : BorderSide := {}
  borderBottom : BorderSide := {}
  borderDiagonal : BorderSide := {}
  fontFamily : String := "Calibri"
  fontSize : Nat := 11
  textColor : Color := {}
  bold : Bool := false
  italic : Bool := false
  underline : Bool := false
  doubleUnderline : Bool := false
  wrapText : Bool := false
  background : Option String := none
  foreground : Option String := none
  pattern : PatternType := .none
  horizontal : HAlign := .none
  vertical : VAlign := .none
deriving DecidableEq, Repr

/-- The tables of `StylePart` (`style.rs:27-39`). Simplifications: a table entry is stored without its hash, which is
always the hash of the entry because both places that add entries compute it and entries are never changed; the cache is
left out because nothing is ever put into it. -/
structure Styles where
  numFmts : List NumFmt := []
  fonts : List Font := []
  fills : List Fill := []
  borders : List Border := []
  styleXfs : List Xf := []
  xfs : List Xf := []
deriving DecidableEq, Repr

/-- `DefaultHasher` over each kind of record (`style.rs:1070-1074`): some function of the record. -/
structure Hashes where
  numFmt : NumFmt → Nat
  font : Font → Nat
  fill : Fill → Nat
  border : Border → Nat
  xf : Xf → Nat

/-! ## Style requests -/

/-- `n as u16`. -/
def asU16 (n : Nat) : Nat := n % 65536
/-- `n as u32`. -/
def asU32 (n : Nat) : Nat := n % 4294967296

/-- The position of the first entry with the same hash, or a new last entry (`style.rs:1129-1141` and its four copies). -/
def findOrPush {α : Type} (h : α → Nat) (l : List α) (x : α) : List α × Nat :=
  match l.findIdx? (fun y => h y = h x) with
  | some i => (l, i)
  | none => (l ++ [x], l.length)

/-- Whether the entry was already there. -/
def present? {α : Type} (h : α → Nat) (l : List α) (x : α) : Bool := l.any (fun y => h y = h x)

/-- The `apply..` flag next to a table id (`style.rs:1134-1141`): 0 only for an existing entry at position 0. -/
def applyFlag {α : Type} (h : α → Nat) (l : List α) (x : α) : Nat :=
  if present? h l x = true ∧ (findOrPush h l x).2 = 0 then 0 else 1

/-- The font asked for (`style.rs:1117-1126`). -/
def StyleSetting.font (s : StyleSetting) : Font :=
  { name := s.fontFamily, bold := s.bold, italic := s.italic, underline := s.underline, doubleUnderline := s.doubleUnderline,
    color := s.textColor, size := s.fontSize }

/-- The fill asked for (`style.rs:1146-1167`). -/
def StyleSetting.fill (s : StyleSetting) : Fill :=
  { background := s.background.map (fun v => { kind := .rgb, value := v }), foreground := s.foreground.map (fun v => { kind := .rgb, value := v }),
    pattern := s.pattern }

/-- The border asked for (`style.rs:1185-1192`). -/
def StyleSetting.border (s : StyleSetting) : Border :=
  { left := s.borderLeft, top := s.borderTop, right := s.borderRight, bottom := s.borderBottom, diagonal := s.borderDiagonal }

/-- The number format entry made for a custom code (`style.rs:1091-1095`). -/
def customFmt (code : String) : NumFmt := { code := code, kind := .custom }

/-- The number format part (`style.rs:1086-1115`): new table, id and apply flag. -/
def numFmtPart (b : Build) (hs : Hashes) (table : List NumFmt) (s : StyleSetting) : Res (List NumFmt × Nat × Nat) :=
  if s.numberFormat = .custom then
    match s.customFormat with
    | none => .error (.fail "Custom Format Type is used without providing custom number format.")
    | some code =>
      match table.findIdx? (fun y => hs.numFmt y = hs.numFmt (customFmt code)) with
      | some i =>
        match addU16 b (asU16 i) 163 with
        | .error e => .error e
        | .ok n => .ok (table, n, 1)
      | none => .ok (table ++ [customFmt code], asU16 table.length, 1)
  else .ok (table, 0, 0)

/-- 1 for true. -/
def bit (b : Bool) : Nat := if b then 1 else 0

/-- The cell format before its parent format is known (`style.rs:1085-1222`). -/
def requestedXf (hs : Hashes) (st : Styles) (s : StyleSetting) (numFmtId applyNumFmt : Nat) : Xf :=
  { numFmtId := numFmtId, applyNumFmt := applyNumFmt
    fontId := asU16 (findOrPush hs.font st.fonts s.font).2, applyFont := applyFlag hs.font st.fonts s.font
    fillId := asU16 (findOrPush hs.fill st.fills s.fill).2, applyFill := applyFlag hs.fill st.fills s.fill
    borderId := asU16 (findOrPush hs.border st.borders s.border).2, applyBorder := applyFlag hs.border st.borders s.border
    applyAlignment := bit (s.vertical ≠ .none ∨ s.horizontal ≠ .none ∨ s.wrapText = true)
    vertical := s.vertical, horizontal := s.horizontal, wrap := bit s.wrapText }

/-- `get_style_id_mut` (`style.rs:1076-1262`). Errors happen before any table changes. -/
def getStyleId (b : Build) (hs : Hashes) (st : Styles) (s : StyleSetting) : Res (Styles × Nat) :=
  match numFmtPart b hs st.numFmts s with
  | .error e => .error e
  | .ok (numFmts, numFmtId, applyNumFmt) =>
    let xf := requestedXf hs st s numFmtId applyNumFmt
    let parent := findOrPush hs.xf st.styleXfs xf
    let final := { xf with formatId := asU16 parent.2 }
    let cell := findOrPush hs.xf st.xfs final
    .ok ({ numFmts := numFmts, fonts := (findOrPush hs.font st.fonts s.font).1, fills := (findOrPush hs.fill st.fills s.fill).1,
           borders := (findOrPush hs.border st.borders s.border).1, styleXfs := parent.1, xfs := cell.1 }, asU32 cell.2)

/-! ## Saving -/

/-- A colour element (`style.rs:925-944` and `style.rs:662-690`). -/
def colorNode (tag : String) (c : Color) : Node := .mk tag (some [(c.kind.text, c.value)]) none []

/-- A parent with its count (`style.rs:561-568` and its copies). -/
def countedNode (tag : String) (cs : List Node) : Node := .mk tag (some [("count", toString cs.length)]) none cs

/-- `numFmt` (`style.rs:570-580`). -/
def numFmtNode (f : NumFmt) : Node := .mk "numFmt" (some [("numFmtId", toString f.id), ("formatCode", f.code)]) none []

/-- An element with only a `val`. -/
def valNode (tag v : String) : Node := .mk tag (some [("val", v)]) none []

/-- `font` (`style.rs:594-657`). -/
def fontNode (f : Font) : Node :=
  .mk "font" none none ((if f.bold then [.mk "b" none none []] else []) ++ (if f.italic then [.mk "i" none none []] else [])
    ++ (if f.underline then [.mk "u" none none []] else []) ++ (if f.doubleUnderline then [valNode "u" "double"] else [])
    ++ [valNode "sz" (toString f.size), colorNode "color" f.color, valNode "name" f.name, valNode "family" (toString f.family),
        valNode "scheme" f.scheme.text])

/-- `fill` (`style.rs:671-713`). -/
def fillNode (f : Fill) : Node :=
  .mk "fill" none none [.mk "patternFill" (some [("patternType", f.pattern.text)]) none
    ((f.foreground.map (colorNode "fgColor")).toList ++ (f.background.map (colorNode "bgColor")).toList)]

/-- `add_border_element` (`style.rs:946-969`). -/
def sideNode (tag : String) (s : BorderSide) : Node :=
  if s.style ≠ .none then .mk tag (some [("style", s.style.text)]) none (s.color.map (colorNode "color")).toList else .mk tag none none []

/-- `border` (`style.rs:731-770`). -/
def borderNode (x : Border) : Node :=
  .mk "border" none none [sideNode "left" x.left, sideNode "right" x.right, sideNode "top" x.top, sideNode "bottom" x.bottom,
    sideNode "diagonal" x.diagonal]

/-- An attribute written only when positive. -/
def positive (n : Nat) : Option String := if n > 0 then some (toString n) else none

/-- Attributes of an `xf` (`style.rs:1000-1037`). -/
def xfTable (enableFormatId : Bool) (x : Xf) : List (String × Option String) :=
  [("numFmtId", some (toString x.numFmtId)), ("fontId", some (toString x.fontId)), ("fillId", some (toString x.fillId)),
   ("borderId", some (toString x.borderId)), ("xfId", if enableFormatId then some (toString x.formatId) else none),
   ("applyFont", positive x.applyFont), ("applyAlignment", positive x.applyAlignment), ("applyFill", positive x.applyFill),
   ("applyBorder", positive x.applyBorder), ("applyNumberFormat", positive x.applyNumFmt), ("applyProtection", positive x.applyProtection)]

/-- Attributes of an `alignment` (`style.rs:1045-1058`). -/
def alignTable (x : Xf) : List (String × Option String) :=
  [("wrapText", positive x.wrap), ("vertical", if x.vertical ≠ .none then some x.vertical.text else none),
   ("horizontal", if x.horizontal ≠ .none then some x.horizontal.text else none)]

/-- `xf` (`style.rs:995-1063`). -/
def xfNode (enableFormatId : Bool) (x : Xf) : Node :=
  .mk "xf" (some (present (xfTable enableFormatId x))) none
    (if x.wrap > 0 ∨ x.vertical ≠ .none ∨ x.horizontal ≠ .none then [.mk "alignment" (some (present (alignTable x))) none []] else [])

/-- The root's children after `save_content_to_tree_mut` (`style.rs:549-789`). -/
def placeStyles (st : Styles) (cs : List Node) : List Node :=
  let cs := countedNode "numFmts" (st.numFmts.map numFmtNode) :: cs
  let cs := insertNodeAfter (countedNode "fonts" (st.fonts.map fontNode)) "numFmts" cs
  let cs := insertNodeAfter (countedNode "fills" (st.fills.map fillNode)) "fonts" cs
  let cs := insertNodeAfter (countedNode "borders" (st.borders.map borderNode)) "fills" cs
  let cs := insertNodeAfter (countedNode "cellXfs" (st.xfs.map (xfNode true))) "borders" cs
  insertNodeAfter (countedNode "cellStyleXfs" (st.styleXfs.map (xfNode false))) "borders" cs

/-- `save_content_to_tree_mut` (`style.rs:549-789`). -/
def Styles.save (st : Styles) (x : XDoc) : Res XDoc :=
  match x.root with
  | none => .error (.fail "Parent Element Not Found")
  | some _ => .ok (x.mapRootChildren (placeStyles st))

/-! ## Loading -/

/-- A `numFmt`, nothing without attributes (`style.rs:186-205`). -/
def loadNumFmt (n : Node) : Res (Option NumFmt) :=
  match n.attrs with
  | none => .ok none
  | some a =>
    match aget "numFmtId" a with
    | none => .error (.fail "numFmtId Attribute Not Found!")
    | some t =>
      match parseUInt usizeMax t with
      | none => .error (.fail "Number format ID parsing Failed")
      | some id =>
        match aget "formatCode" a with
        | none => .error (.fail "formatCode Attribute Not Found!")
        | some code => .ok (some { id := id, code := code })

/-- The colour of attributes (`style.rs:255-279`, `361-386`, `896-920`). -/
def loadColor (n : Node) : Option Color :=
  match n.attr? "theme" with
  | some v => some { kind := .theme, value := v }
  | none =>
    match n.attr? "rgb" with
    | some v => some { kind := .rgb, value := v }
    | none => (n.attr? "indexed").map (fun v => { kind := .indexed, value := v })

/-- One child of a `font` (`style.rs:226-311`). -/
def loadFontItem (f : Font) (n : Node) : Res Font :=
  if n.tag = "b" then .ok { f with bold := true }
  else if n.tag = "u" then
    .ok { f with doubleUnderline := if n.attr? "val" = some "double" then true else f.doubleUnderline, underline := false }
  else if n.tag = "i" then .ok { f with italic := false }
  else if n.tag = "sz" then
    match n.attr? "val" with
    | none => .ok f
    | some v =>
      match parseUInt u8Max v with
      | none => .error (.fail "Font Size Parse Failed")
      | some k => .ok { f with size := k }
  else if n.tag = "color" then .ok { f with color := (loadColor n).getD f.color }
  else if n.tag = "name" then .ok { f with name := (n.attr? "val").getD f.name }
  else if n.tag = "family" then
    match n.attr? "val" with
    | none => .ok f
    | some v =>
      match parseUInt u32Max v with
      | none => .error (.fail "Font Size Parse Failed")
      | some k => .ok { f with family := k }
  else if n.tag = "scheme" then .ok { f with scheme := ((n.attr? "val").map FontScheme.parse).getD f.scheme }
  else .error (.fail "Unknown Font Style Found!")

/-- The children of a `font` in turn (`style.rs:221-315`). -/
def loadFontItems (f : Font) : List Node → Res Font
  | [] => .ok f
  | n :: ns =>
    match loadFontItem f n with
    | .error e => .error e
    | .ok f' => loadFontItems f' ns

/-- A `font`. -/
def loadFont (n : Node) : Res Font := loadFontItems {} n.children

/-- One child of a `patternFill` (`style.rs:343-432`); a child without attributes is skipped. -/
def loadFillItem (f : Fill) (n : Node) : Res Fill :=
  match n.attrs with
  | none => .ok f
  | some _ =>
    if n.tag = "fgColor" then .ok { f with foreground := (loadColor n).orElse (fun _ => f.foreground) }
    else if n.tag = "bgColor" then .ok { f with background := (loadColor n).orElse (fun _ => f.background) }
    else .error (.fail "Unknown Color patter found")

/-- The children of a `patternFill` in turn. -/
def loadFillItems (f : Fill) : List Node → Res Fill
  | [] => .ok f
  | n :: ns =>
    match loadFillItem f n with
    | .error e => .error e
    | .ok f' => loadFillItems f' ns

/-- A `fill` (`style.rs:325-445`): its first child, if it has a `patternType`. -/
def loadFill (n : Node) : Res Fill :=
  match n.children.head? with
  | none => .ok {}
  | some p =>
    match p.attr? "patternType" with
    | none => .ok {}
    | some t => loadFillItems { pattern := PatternType.parse t } p.children

/-- `deserialize_border_setting` (`style.rs:886-924`). -/
def loadSide (s : BorderSide) (n : Node) : BorderSide :=
  match n.attr? "style" with
  | none => s
  | some t =>
    if BorderKind.parse t ≠ .none then
      match n.children.head? with
      | none => { s with style := BorderKind.parse t }
      | some c => { style := BorderKind.parse t, color := (loadColor c).orElse (fun _ => s.color) }
    else { s with style := BorderKind.parse t }

/-- One child of a `border` (`style.rs:461-507`). -/
def loadBorderItem (x : Border) (n : Node) : Res Border :=
  if n.tag = "left" then .ok { x with left := loadSide x.left n }
  else if n.tag = "right" then .ok { x with right := loadSide x.right n }
  else if n.tag = "top" then .ok { x with top := loadSide x.top n }
  else if n.tag = "bottom" then .ok { x with bottom := loadSide x.bottom n }
  else if n.tag = "diagonal" then .ok { x with diagonal := loadSide x.diagonal n }
  else .error (.fail "Unknown border style found")

/-- The children of a `border` in turn. -/
def loadBorderItems (x : Border) : List Node → Res Border
  | [] => .ok x
  | n :: ns =>
    match loadBorderItem x n with
    | .error e => .error e
    | .ok x' => loadBorderItems x' ns

/-- A `border`. -/
def loadBorder (n : Node) : Res Border := loadBorderItems {} n.children

/-- An optional `u16` attribute, 0 when missing. -/
def u16Attr (a : Attrs) (key : String) : Res Nat :=
  match aget key a with
  | none => .ok 0
  | some v =>
    match parseUInt u16Max v with
    | none => .error (.fail "Number Parse Failed")
    | some k => .ok k

/-- An optional flag attribute, 0 when missing. -/
def flagAttr (a : Attrs) (key : String) : Nat := ((aget key a).map normalizeBoolU8).getD 0

/-- The alignment of an `xf` (`style.rs:846-873`): its first child, whatever its tag. -/
def loadAlign (x : Xf) (n : Node) : Xf :=
  match n.children.head? with
  | none => x
  | some c =>
    { x with
      wrap := ((c.attr? "wrapText").map normalizeBoolU8).getD x.wrap
      vertical := ((c.attr? "vertical").map VAlign.parse).getD x.vertical
      horizontal := ((c.attr? "horizontal").map HAlign.parse).getD x.horizontal }

/-- One `xf` (`style.rs:797-878`). -/
def loadXf (n : Node) : Res Xf :=
  match n.attrs with
  | none => .ok {}
  | some a =>
    match u16Attr a "numFmtId", u16Attr a "fontId", u16Attr a "fillId", u16Attr a "borderId", u16Attr a "xfId" with
    | .ok numFmt, .ok font, .ok fill, .ok border, .ok format =>
      .ok (loadAlign { numFmtId := numFmt, fontId := font, fillId := fill, borderId := border, formatId := format
                       applyProtection := flagAttr a "applyProtection", applyAlignment := flagAttr a "applyAlignment"
                       applyBorder := flagAttr a "applyBorder", applyFill := flagAttr a "applyFill"
                       applyFont := flagAttr a "applyFont", applyNumFmt := flagAttr a "applyNumberFormat" } n)
    | .error e, _, _, _, _ => .error e
    | _, .error e, _, _, _ => .error e
    | _, _, .error e, _, _ => .error e
    | _, _, _, .error e, _ => .error e
    | _, _, _, _, .error e => .error e

/-- The children of the last root child with a tag, none without one. -/
def lastWith (x : XDoc) (tag : String) : List Node :=
  match ((x.rootChildren).filter (fun n => n.tag = tag)).getLast? with
  | none => []
  | some n => n.children

/-- The tags taken out of the document when styles are loaded. -/
def styleTags : List String := ["numFmts", "fonts", "fills", "borders", "cellStyleXfs", "cellXfs"]

/-- `load_content` (`style.rs:153-546`): the tables and the document without the loaded elements. Simplification: on an
error the document is left as it was; the caller drops the whole package then. -/
def Styles.load (x : XDoc) : Res Styles × XDoc :=
  match mapRes loadNumFmt (lastWith x "numFmts"), mapRes loadFont (lastWith x "fonts"), mapRes loadFill (lastWith x "fills"),
      mapRes loadBorder (lastWith x "borders"), mapRes loadXf (lastWith x "cellStyleXfs"), mapRes loadXf (lastWith x "cellXfs") with
  | .ok nf, .ok fonts, .ok fills, .ok borders, .ok sx, .ok cx =>
    (.ok { numFmts := nf.filterMap id, fonts := fonts, fills := fills, borders := borders, styleXfs := sx, xfs := cx },
      x.mapRootChildren (fun cs => cs.filter (fun n => n.tag ∉ styleTags)))
  | .error e, _, _, _, _, _ => (.error e, x)
  | _, .error e, _, _, _, _ => (.error e, x)
  | _, _, .error e, _, _, _ => (.error e, x)
  | _, _, _, .error e, _, _ => (.error e, x)
  | _, _, _, _, .error e, _ => (.error e, x)
  | _, _, _, _, _, .error e => (.error e, x)

/-- The document read from `style.xml`; `Props/StyleTemplate.lean` checks the text. -/
def styleDoc : XDoc :=
  { ns := [(defaultNsKey, mainNs)]
    root := some (.mk "styleSheet" (some []) none [
      .mk "fonts" (some [("count", "1")]) none [.mk "font" (some []) none [.mk "sz" (some [("val", "11")]) none [],
        .mk "color" (some [("theme", "1")]) none [], .mk "name" (some [("val", "Calibri")]) none [],
        .mk "family" (some [("val", "2")]) none [], .mk "scheme" (some [("val", "minor")]) none []]],
      .mk "fills" (some [("count", "2")]) none [.mk "fill" (some []) none [.mk "patternFill" (some [("patternType", "none")]) none []],
        .mk "fill" (some []) none [.mk "patternFill" (some [("patternType", "gray125")]) none []]],
      .mk "borders" (some [("count", "1")]) none [.mk "border" (some []) none [.mk "left" (some []) none [], .mk "right" (some []) none [],
        .mk "top" (some []) none [], .mk "bottom" (some []) none [], .mk "diagonal" (some []) none []]],
      .mk "cellStyleXfs" (some [("count", "1")]) none [.mk "xf" (some [("numFmtId", "0"), ("fontId", "0"), ("fillId", "0"), ("borderId", "0")]) none []],
      .mk "cellXfs" (some [("count", "1")]) none [.mk "xf" (some [("numFmtId", "0"), ("fontId", "0"), ("fillId", "0"), ("borderId", "0"), ("xfId", "0")]) none []],
      .mk "cellStyles" (some [("count", "1")]) none [.mk "cellStyle" (some [("name", "Normal"), ("xfId", "0"), ("builtinId", "0")]) none []],
      .mk "dxfs" (some [("count", "0")]) none [],
      .mk "tableStyles" (some [("count", "0"), ("defaultTableStyle", "TableStyleMedium2"), ("defaultPivotStyle", "PivotStyleLight16")]) none []]) }

/-- `initialize_content_xml` (`style.rs:77-92`). -/
def styleTemplate : Template :=
  { doc := styleDoc, ctype := some styleContent.ctype, ext := styleContent.ext, extType := styleContent.extType }

end Oxml
