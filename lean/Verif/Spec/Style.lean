import Verif.Model.Style
import Verif.Spec.Xml
import Verif.Spec.Reload
import Verif.Spec.Worksheet
/-!
# Vocabulary for the style properties
-/
namespace Oxml.Spec

/-- Cell format `id` looks as the setting says: its font, fill, border and alignment, field by field. -/
def LooksAs (st : Styles) (id : Nat) (s : StyleSetting) : Prop :=
  ∃ xf font fill border, st.xfs[id]? = some xf ∧ st.fonts[xf.fontId]? = some font ∧ st.fills[xf.fillId]? = some fill ∧
    st.borders[xf.borderId]? = some border ∧
    (font.name = s.fontFamily ∧ font.size = s.fontSize ∧ font.color = s.textColor ∧ font.bold = s.bold ∧ font.italic = s.italic ∧
      font.underline = s.underline ∧ font.doubleUnderline = s.doubleUnderline) ∧
    (fill.pattern = s.pattern ∧ fill.background.map Color.value = s.background ∧ fill.foreground.map Color.value = s.foreground) ∧
    (border.left = s.borderLeft ∧ border.right = s.borderRight ∧ border.top = s.borderTop ∧ border.bottom = s.borderBottom ∧
      border.diagonal = s.borderDiagonal) ∧
    (xf.horizontal = s.horizontal ∧ xf.vertical = s.vertical ∧ (xf.wrap = 1 ↔ s.wrapText = true))

/-- Two settings ask for the same font, fill, border and alignment. -/
def SameLook (s t : StyleSetting) : Prop :=
  (s.fontFamily = t.fontFamily ∧ s.fontSize = t.fontSize ∧ s.textColor = t.textColor ∧ s.bold = t.bold ∧ s.italic = t.italic ∧
    s.underline = t.underline ∧ s.doubleUnderline = t.doubleUnderline) ∧
  (s.pattern = t.pattern ∧ s.background = t.background ∧ s.foreground = t.foreground) ∧
  (s.borderLeft = t.borderLeft ∧ s.borderRight = t.borderRight ∧ s.borderTop = t.borderTop ∧ s.borderBottom = t.borderBottom ∧
    s.borderDiagonal = t.borderDiagonal) ∧
  (s.horizontal = t.horizontal ∧ s.vertical = t.vertical ∧ s.wrapText = t.wrapText)

/-- A history of style requests; a refused request changes nothing. -/
def requests (b : Build) (hs : Hashes) (st : Styles) : List StyleSetting → Styles
  | [] => st
  | s :: rest =>
    match getStyleId b hs st s with
    | .error _ => requests b hs st rest
    | .ok (st', _) => requests b hs st' rest

/-- The tables are not full. -/
def Room (st : Styles) : Prop :=
  st.fonts.length < 65536 ∧ st.fills.length < 65536 ∧ st.borders.length < 65536 ∧ st.xfs.length < 4294967296

/-- No two of the given records have the same hash. -/
def Injects {α : Type} (h : α → Nat) (l : List α) : Prop := ∀ x ∈ l, ∀ y ∈ l, h x = h y → x = y

/-- The same cell format under another format id. -/
def withFormat (x : Xf) (f : Nat) : Xf := { x with formatId := f }

/-- The cell format a request looks up: the parts found or added, below the parent format found or added. -/
def finalXf (hs : Hashes) (st : Styles) (s : StyleSetting) (n a : Nat) : Xf :=
  withFormat (requestedXf hs st s n a) (asU16 (findOrPush hs.xf st.styleXfs (requestedXf hs st s n a)).2)

/-- No hash collision happens while the request is served: the records it adds or finds, and those already there, have
different hashes unless they are equal. -/
def ClashFree (b : Build) (hs : Hashes) (st : Styles) (s : StyleSetting) : Prop :=
  Injects hs.font (s.font :: st.fonts) ∧ Injects hs.fill (s.fill :: st.fills) ∧ Injects hs.border (s.border :: st.borders) ∧
  ∀ numFmts n a, numFmtPart b hs st.numFmts s = .ok (numFmts, n, a) →
    ∀ y ∈ st.xfs, hs.xf y = hs.xf (finalXf hs st s n a) → y = finalXf hs st s n a

/-- Cell format `id` has the number format the setting asks for: a built-in format by its number, a custom one by a number
from 164 on (the numbers below are built-in) defined with that code. -/
def FormattedAs (st : Styles) (id : Nat) (s : StyleSetting) : Prop :=
  ∃ xf, st.xfs[id]? = some xf ∧
    if s.numberFormat = .custom then 164 ≤ xf.numFmtId ∧ ∃ f ∈ st.numFmts, f.id = xf.numFmtId ∧ some f.code = s.customFormat
    else toString xf.numFmtId = s.numberFormat.text

/-- The tables of a new workbook (`style.xml`). -/
def newStyles : Styles :=
  { numFmts := [], fonts := [{ scheme := .minor }], fills := [{}, { pattern := .gray125 }], borders := [{}], styleXfs := [{}], xfs := [{}] }

end Oxml.Spec

namespace Oxml.Spec

/-! ### What saving and loading does to the tables -/

/-- A colour comes back with its text escaped once. -/
def reloadColor (c : Color) : Color := { c with value := attrReload c.value }

/-- Italics and single underlining are lost. -/
def reloadFont (f : Font) : Font :=
  { f with name := attrReload f.name, color := reloadColor f.color, italic := false, underline := false }

def reloadFill (f : Fill) : Fill :=
  { f with background := f.background.map reloadColor, foreground := f.foreground.map reloadColor }

/-- The colour of a side without a line is lost. -/
def reloadSide (s : BorderSide) : BorderSide := if s.style = .none then {} else { s with color := s.color.map reloadColor }

def reloadBorder (x : Border) : Border :=
  { left := reloadSide x.left, right := reloadSide x.right, top := reloadSide x.top, bottom := reloadSide x.bottom,
    diagonal := reloadSide x.diagonal }

/-- Only id and code are in the file. -/
def reloadNumFmt (f : NumFmt) : NumFmt := { id := f.id, code := attrReload f.code }

/-- Flags come back as 0 or 1. -/
def flag01 (n : Nat) : Nat := if n = 1 then 1 else 0

/-- Parent formats are written without `xfId`. -/
def reloadXf (withId : Bool) (x : Xf) : Xf :=
  { x with formatId := if withId then x.formatId else 0, applyFont := flag01 x.applyFont, applyAlignment := flag01 x.applyAlignment,
           applyFill := flag01 x.applyFill, applyBorder := flag01 x.applyBorder, applyNumFmt := flag01 x.applyNumFmt,
           applyProtection := flag01 x.applyProtection, wrap := flag01 x.wrap }

def reloadStyles (st : Styles) : Styles :=
  { numFmts := st.numFmts.map reloadNumFmt, fonts := st.fonts.map reloadFont, fills := st.fills.map reloadFill,
    borders := st.borders.map reloadBorder, styleXfs := st.styleXfs.map (reloadXf false), xfs := st.xfs.map (reloadXf true) }

/-- The ids of a cell format fit `u16`. -/
def XfFit (x : Xf) : Prop := x.formatId ≤ u16Max ∧ x.numFmtId ≤ u16Max ∧ x.fontId ≤ u16Max ∧ x.fillId ≤ u16Max ∧ x.borderId ≤ u16Max

/-- Every number fits its Rust type. -/
structure StylesFit (st : Styles) : Prop where
  numFmts : ∀ f ∈ st.numFmts, f.id ≤ usizeMax
  fonts : ∀ f ∈ st.fonts, f.size ≤ u8Max ∧ f.family ≤ u32Max
  styleXfs : ∀ x ∈ st.styleXfs, XfFit x
  xfs : ∀ x ∈ st.xfs, XfFit x

end Oxml.Spec

namespace Oxml.Spec

/-- Saving the tables into the document, writing the file, reading it and loading the part ends with `st'`. -/
def StylesSavedLoaded (env : Env) (st : Styles) (x : XDoc) (st' : Styles) : Prop :=
  ∃ x' d, st.save x = .ok x' ∧ readXml env.uni (renderDoc env.build env.stamp x') = .ok d ∧ (Styles.load d.toXDoc).1 = .ok st'

/-- The situations C55 speaks about: tables that fit the Rust types, and the document they were loaded from, which has a
root without text and no style tables left in it. -/
structure StylesSaveable (env : Env) (st : Styles) (x : XDoc) : Prop where
  stamp : env.build.release = true → StampOk env.stamp
  fits : StylesFit st
  doc : ∃ t a cs, WfDoc env.uni x (.mk t a none cs) ∧ ∀ n ∈ cs, n.tag ∉ styleTags

/-- A side that comes back as it was. -/
def SideKept (s : BorderSide) : Prop := (s.style = .none → s.color = none) ∧ ∀ c, s.color = some c → NoSpecials c.value

/-- Tables that come back as they were. -/
structure Lossless (st : Styles) : Prop where
  numFmts : ∀ f ∈ st.numFmts, f.kind = .general ∧ NoSpecials f.code
  fonts : ∀ f ∈ st.fonts, f.italic = false ∧ f.underline = false ∧ NoSpecials f.name ∧ NoSpecials f.color.value
  fills : ∀ f ∈ st.fills, (∀ c, f.background = some c → NoSpecials c.value) ∧ ∀ c, f.foreground = some c → NoSpecials c.value
  borders : ∀ x ∈ st.borders, x.id = 0 ∧ SideKept x.left ∧ SideKept x.right ∧ SideKept x.top ∧ SideKept x.bottom ∧ SideKept x.diagonal
  styleXfs : ∀ x ∈ st.styleXfs, x.formatId = 0 ∧ x.applyFont ≤ 1 ∧ x.applyAlignment ≤ 1 ∧ x.applyFill ≤ 1 ∧ x.applyBorder ≤ 1 ∧
    x.applyNumFmt ≤ 1 ∧ x.applyProtection ≤ 1 ∧ x.wrap ≤ 1
  xfs : ∀ x ∈ st.xfs, x.applyFont ≤ 1 ∧ x.applyAlignment ≤ 1 ∧ x.applyFill ≤ 1 ∧ x.applyBorder ≤ 1 ∧ x.applyNumFmt ≤ 1 ∧
    x.applyProtection ≤ 1 ∧ x.wrap ≤ 1

/-- A setting none of whose visual parts is lost in the file. -/
def PlainLook (s : StyleSetting) : Prop :=
  s.italic = false ∧ s.underline = false ∧ NoSpecials s.fontFamily ∧ NoSpecials s.textColor.value ∧
  (∀ v, s.background = some v → NoSpecials v) ∧ (∀ v, s.foreground = some v → NoSpecials v) ∧
  SideKept s.borderLeft ∧ SideKept s.borderRight ∧ SideKept s.borderTop ∧ SideKept s.borderBottom ∧ SideKept s.borderDiagonal

/-- The children of the root of a style part in schema order (ECMA-376 part 1, 18.8.39). -/
def styleOrder : List String :=
  ["numFmts", "fonts", "fills", "borders", "cellStyleXfs", "cellXfs", "cellStyles", "dxfs", "tableStyles", "colors", "extLst"]

/-- The tags are in the order of the list, and all in it. -/
def InOrder (order tags : List String) : Prop := ∃ idx : List Nat, idx.Pairwise (· ≤ ·) ∧ tags.map some = idx.map (fun i => order[i]?)

/-- The children a font may have (ECMA-376 part 1, 18.8.22). -/
def fontTags : List String :=
  ["b", "i", "strike", "condense", "extend", "outline", "shadow", "u", "vertAlign", "sz", "color", "name", "family", "charset", "scheme"]

end Oxml.Spec
