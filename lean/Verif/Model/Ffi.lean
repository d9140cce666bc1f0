import Verif.Model.OfficeDoc
/-!
# `rs_ffi/src`

The C interface. Pointers are `Option`s: null is `none`. A string argument is the string `CStr` and `to_string_lossy` give. A buffer is
`none` when null or empty, otherwise what `flatbuffers::root` makes of it. A panic cannot leave an `extern "C"` function; the process
ends, and the call has no answer. Memory is not modelled: each result is on the heap and belongs to the caller; `.._save_as` frees the
object it is given.
-/
namespace Oxml

/-- `StatusCode` (`rs_ffi/src/status_code.rs:1-9`). -/
inductive Status where
  | unknown | success | invalidArgument | flatBuffer | fileNotFound | io
deriving DecidableEq, Repr

/-- The number a C program sees (`rs_ffi/src/status_code.rs:1-9`). -/
def Status.code : Status → Int
  | .unknown => -1
  | .success => 0
  | .invalidArgument => 1
  | .flatBuffer => 2
  | .fileNotFound => 3
  | .io => 4

/-- What a call leaves: the status, the result if the result pointer is set, the text if the error pointer is set and not null. -/
structure Reply (α : Type) where
  status : Status
  out : Option α
  error : Option String
deriving DecidableEq, Repr

/-- `CString::new`: refuses texts with a zero character. -/
def cString (s : String) : Option String := if '\x00' ∈ s.toList then none else some s

/-- How errors are shown: `{}` and the whole chain (`rs_ffi/src/utils.rs:5-21`). Both are some text of the error. -/
structure Shown where
  top : String → String
  chain : String → String

/-- A call refused because of a null pointer. -/
def refused {α : Type} : Option (Reply α) := some ⟨.invalidArgument, none, none⟩

/-- The answer to a call whose wrapped operation ended with `r`; `code` is the status next to the error text. The nested `match` is the
same in all functions (`excel.rs:88-108`, `excel.rs:148-162`, `excel.rs:184-201`, `excel.rs:236-248`, `excel.rs:302-317`,
`excel.rs:339-351`, `word.rs:81-93`, `power_point.rs:81-93`). -/
def answer {α : Type} (sh : Shown) (code : Status) : Res α → Option (Reply α)
  | .ok a => some ⟨.success, some a, none⟩
  | .error (.panic _) => none
  | .error (.fail m) =>
    match cString ("Flat Buffer Parse Error. " ++ sh.top m) with
    | some t => some ⟨code, none, some t⟩
    | none => some ⟨.io, none, none⟩

/-- `excel_create`, `word_create`, `power_point_create` (`excel.rs:20-71`, `word.rs:13-63`, `power_point.rs:13-63`): `make` is what the
constructor gives for the file name passed. -/
def created {α : Type} (sh : Shown) (buffer : Option (Res Unit)) (make : Res α) : Option (Reply α) :=
  match buffer with
  | none => refused
  | some (.error (.panic _)) => none
  | some (.error (.fail m)) => some ⟨.flatBuffer, none, cString (sh.chain m)⟩
  | some (.ok _) =>
    match make with
    | .ok a => some ⟨.success, some a, none⟩
    | .error (.panic _) => none
    | .error (.fail m) => some ⟨.unknown, none, cString (sh.chain m)⟩

/-- `excel_create` (`excel.rs:20-71`): a file name opens the file. -/
def excelCreate (env : Env) (theme : XDoc) (sh : Shown) (file : Option (Res Zip)) (buffer : Option (Res Unit)) : Option (Reply Excel) :=
  created sh buffer
    (match file with
     | none => Excel.new env theme
     | some (.error e) => .error e
     | some (.ok z) => Excel.openFile env theme z)

/-- `word_create`, `power_point_create` (`word.rs:13-63`, `power_point.rs:13-63`). -/
def docCreate (env : Env) (sh : Shown) (file : Option (Res Zip)) (buffer : Option (Res Unit)) : Option (Reply OfficeDoc) :=
  created sh buffer
    (match file with
     | none => OfficeDoc.new env
     | some (.error e) => .error e
     | some (.ok z) => OfficeDoc.openFile env z)

/-- The answer to a call that gives nothing but a status. -/
def noResult (r : Option (Reply Unit)) : Option (Reply Nat) := r.map (fun r => ⟨r.status, none, r.error⟩)

/-- `excel_add_sheet` (`excel.rs:75-129`). Handles are named by position. -/
def ffiAdd (env : Env) (sh : Shown) (s : Session) (name : Option String) : Option (Reply Nat) × Session :=
  let r := s.step env (.add name)
  (answer sh .io (r.1.map (fun _ => s.handles.length)), r.2)

/-- `excel_get_sheet` (`excel.rs:168-202`). -/
def ffiGet (env : Env) (sh : Shown) (s : Session) (name : Option String) : Option (Reply Nat) × Session :=
  match name with
  | none => (refused, s)
  | some n =>
    let r := s.step env (.get n)
    (answer sh .io (r.1.map (fun _ => s.handles.length)), r.2)

/-- `excel_rename_sheet` (`excel.rs:133-164`). -/
def ffiRename (env : Env) (sh : Shown) (s : Session) (old new : Option String) : Option (Reply Nat) × Session :=
  match old, new with
  | some o, some n =>
    let r := s.step env (.rename o n)
    (noResult (answer sh .success r.1), r.2)
  | _, _ => (refused, s)

/-- `excel_hide_sheet` (`excel.rs:221-249`). -/
def ffiHide (env : Env) (sh : Shown) (s : Session) (name : Option String) : Option (Reply Nat) × Session :=
  match name with
  | none => (refused, s)
  | some n =>
    let r := s.step env (.hide n)
    (noResult (answer sh .io r.1), r.2)

/-- The style table of the buffer (`fbs/spreadsheet_2007/excel_style.fbs:15-37`), as its accessors give it. A number left out of the buffer
is 0, a flag left out is false. -/
structure FbsStyle where
  numberFormat : Nat := 0
  customFormat : Option String := none
  borderLeft : BorderSide := {}
  borderTop : BorderSide := {}
  borderRight : BorderSide := {}
  borderBottom : BorderSide := {}
  borderDiagonal : BorderSide := {}
  fontFamily : Option String := none
  fontSize : Nat := 0
  textColor : Option Color := none
  bold : Bool := false
  italic : Bool := false
  underline : Bool := false
  doubleUnderline : Bool := false
  wrapText : Bool := false
  background : Option String := none
  foreground : Option String := none
  pattern : PatternType := .none
  horizontal : HAlign := .none
  vertical : VAlign := .none
deriving DecidableEq, Repr

/-- The setting made from the buffer (`excel.rs:270-301`). The left border is assigned as it is; the conversion of its type is taken to
keep it. -/
def FbsStyle.setting (f : FbsStyle) : StyleSetting :=
  { numberFormat := NumFmtKind.parse (toString f.numberFormat)
    customFormat := f.customFormat
    borderLeft := f.borderLeft
    fontFamily := f.fontFamily.getD "Calibri"
    fontSize := f.fontSize
    bold := f.bold
    italic := f.bold
    underline := f.bold
    doubleUnderline := f.bold
    background := f.background
    foreground := f.foreground
    wrapText := f.wrapText }

/-- The id `get_style_id_mut` of the crate gives; the session changes as in `Session.step`. -/
def styleIdOf (env : Env) (hs : Hashes) (s : Session) (st : StyleSetting) : Res Nat :=
  match getStyleId env.build hs s.x.styles.data st with
  | .error e => .error e
  | .ok (_, id) => .ok id

/-- `get_style_id_mut` (`excel.rs:255-322`). -/
def ffiStyle (env : Env) (sh : Shown) (hs : Hashes) (s : Session) (buffer : Option (Res FbsStyle)) : Option (Reply Nat) × Session :=
  match buffer with
  | none => (refused, s)
  | some (.error (.panic _)) => (none, s)
  | some (.error (.fail m)) => (some ⟨.flatBuffer, none, cString (sh.chain m)⟩, s)
  | some (.ok f) => (answer sh .io (styleIdOf env hs s f.setting), (s.step env (.style hs f.setting)).2)

/-- The calls on a workbook. -/
inductive FfiCall where
  | add (name : Option String)
  | get (name : Option String)
  | rename (old new : Option String)
  | hide (name : Option String)
  | style (hs : Hashes) (buffer : Option (Res FbsStyle))

/-- One call; a null workbook is refused by each of them first (`excel.rs:81-84`, `excel.rs:139-142`, `excel.rs:174-177`,
`excel.rs:226-229`, `excel.rs:262-264`). -/
def ffiStep (env : Env) (sh : Shown) (s : Option Session) (c : FfiCall) : Option (Reply Nat) × Option Session :=
  match s with
  | none => (refused, none)
  | some s =>
    let r := match c with
      | .add n => ffiAdd env sh s n
      | .get n => ffiGet env sh s n
      | .rename o n => ffiRename env sh s o n
      | .hide n => ffiHide env sh s n
      | .style hs b => ffiStyle env sh hs s b
    (r.1, some r.2)

/-- What writing a file ends with: the package first, then the disk. -/
def written (z : Res Zip) (disk : Zip → Res Unit) : Res Unit :=
  match z with
  | .error e => .error e
  | .ok z => disk z

/-- `excel_save_as` (`excel.rs:326-352`). `disk` is what creating and writing the file gives. -/
def ffiSaveExcel (env : Env) (sh : Shown) (now : String) (exts : List (String × String)) (disk : Zip → Res Unit) (s : Option Session)
    (file : Option String) : Option (Reply Unit) :=
  match s, file with
  | some s, some _ => answer sh .io (written (s.x.toZip env now exts) disk)
  | _, _ => refused

/-- `word_save_as`, `power_point_save_as` (`word.rs:67-94`, `power_point.rs:67-94`). -/
def ffiSaveDoc (env : Env) (sh : Shown) (now : String) (exts : List (String × String)) (disk : Zip → Res Unit) (d : Option OfficeDoc)
    (file : Option String) : Option (Reply Unit) :=
  match d, file with
  | some d, some _ => answer sh .success (written (d.toZip env now exts) disk)
  | _, _ => refused

end Oxml
