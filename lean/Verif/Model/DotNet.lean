import Verif.Model.Ffi
/-!
# `cs/openxml_office`

The .NET classes over the C interface. A method ends by returning, by throwing, by ending the process (a panic inside the library), or it
passes a pointer to an object already freed, after which anything may happen.
-/
namespace Oxml

/-- The exceptions thrown (`cs/openxml_office/global/StatusCode.cs:29-43`). -/
inductive NetException where
  | argument | data | fileNotFound | fileLoad | other
deriving DecidableEq, Repr

/-- `ProcessStatusCode` (`cs/openxml_office/global/StatusCode.cs:21-44`): what is thrown. The error pointer is null unless the call set it. -/
def processStatus (status : Int) (error : Option String) : Option (NetException × String) :=
  let message := if status ≠ 0 then error.getD "Unknown Error" else "Unknown Error"
  if status = 0 then none
  else if status = 1 then some (.argument, message)
  else if status = 2 then some (.data, message)
  else if status = 3 then some (.fileNotFound, message)
  else if status = 4 then some (.fileLoad, message)
  else some (.other, message)

/-- How a method ends. -/
inductive NetEnd (α : Type) where
  | returned (v : α)
  | thrown (kind : NetException) (message : String)
  | processEnds
  | undefined
deriving DecidableEq, Repr

/-- `[MarshalAs(UnmanagedType.LPStr)] string` (`cs/openxml_office/spreadsheet/Excel.cs:22`), read with `CStr::from_ptr` and
`to_string_lossy`: `ansi` is the conversion to the encoding of the platform and back; a zero character ends the string. -/
def marshal (ansi : String → String) (s : String) : String := String.ofList ((ansi s).toList.takeWhile (fun c => c ≠ '\x00'))

/-- Every method ends with `ProcessStatusCode` on the answer of the C function. -/
def netEnd {α β : Type} (f : Reply α → β) : Option (Reply α) → NetEnd β
  | none => .processEnds
  | some a =>
    match processStatus a.status.code a.error with
    | none => .returned (f a)
    | some (k, m) => .thrown k m

/-- What .NET programs call on an `Excel` object. -/
inductive NetCall where
  | addSheet (name : Option String)
  | getWorksheet (name : Option String)
  | renameSheet (old new : Option String)
  | saveAs (path : Option String)
deriving DecidableEq, Repr

/-- What a method gives: the pointer in a new `Worksheet` object, null when the call set none. -/
inductive NetValue where
  | sheet (handle : Option Nat)
  | yes
  | nothing
deriving DecidableEq, Repr

/-- An `Excel` object: the workbook its pointer leads to, and whether that is freed. The pointer is `readonly`, set by the constructor, which
throws when there is none (`cs/openxml_office/spreadsheet/Excel.cs:15`, `cs/openxml_office/spreadsheet/Excel.cs:76-99`). -/
structure NetExcel where
  session : Session
  freed : Bool := false

/-- The disk and the clock a program meets. -/
structure World where
  now : String
  exts : List (String × String)
  disk : String → Zip → Res Unit

/-- The C function a method calls, on a live object. Saving frees the object once its arguments are not null
(`rs_ffi/src/spreadsheet/excel.rs:326-352`). -/
def netLive (env : Env) (sh : Shown) (ansi : String → String) (w : World) (s : Session) : NetCall → NetEnd NetValue × NetExcel
  | .addSheet n =>
    let r := ffiAdd env sh s (n.map (marshal ansi))
    (netEnd (fun a => .sheet a.out) r.1, ⟨r.2, false⟩)
  | .getWorksheet n =>
    let r := ffiGet env sh s (n.map (marshal ansi))
    (netEnd (fun a => .sheet a.out) r.1, ⟨r.2, false⟩)
  | .renameSheet o n =>
    let r := ffiRename env sh s (o.map (marshal ansi)) (n.map (marshal ansi))
    (netEnd (fun _ => .yes) r.1, ⟨r.2, false⟩)
  | .saveAs p =>
    (netEnd (fun _ => .nothing) (ffiSaveExcel env sh w.now w.exts (w.disk ((p.map (marshal ansi)).getD "")) (some s) (p.map (marshal ansi))),
     ⟨s, p.isSome⟩)

/-- Whether the C function reads the object: the checks for null come first (`rs_ffi/src/spreadsheet/excel.rs:81-84`,
`rs_ffi/src/spreadsheet/excel.rs:139-142`, `rs_ffi/src/spreadsheet/excel.rs:174-177`, `rs_ffi/src/spreadsheet/excel.rs:331-333`). -/
def NetCall.reads : NetCall → Bool
  | .addSheet _ => true
  | .getWorksheet n => n.isSome
  | .renameSheet o n => o.isSome && n.isSome
  | .saveAs p => p.isSome

/-- One method call (`cs/openxml_office/spreadsheet/Excel.cs:135-185`). -/
def netStep (env : Env) (sh : Shown) (ansi : String → String) (w : World) (x : NetExcel) (c : NetCall) : NetEnd NetValue × NetExcel :=
  if x.freed then
    if c.reads then (.undefined, x) else (.thrown .argument "Unknown Error", x)
  else netLive env sh ansi w x.session c

/-- The constructors (`cs/openxml_office/spreadsheet/Excel.cs:76-129`): `file` is what reading the named file gives. The buffer is always
valid. -/
def netNew (env : Env) (theme : XDoc) (sh : Shown) (file : Option (Res Zip)) : NetEnd (Option NetExcel) :=
  netEnd (fun a => a.out.map (fun x => ⟨⟨x, []⟩, false⟩)) (excelCreate env theme sh file (some (.ok ())))

/-- `Word.SaveAs`, `PowerPoint.SaveAs` on a live object (`cs/openxml_office/document/Word.cs:93-97`,
`cs/openxml_office/presentation/PowerPoint.cs:93-97`). -/
def netSaveDoc (env : Env) (sh : Shown) (ansi : String → String) (w : World) (d : OfficeDoc) (path : Option String) : NetEnd Unit :=
  netEnd (fun _ => ()) (ffiSaveDoc env sh w.now w.exts (w.disk ((path.map (marshal ansi)).getD "")) (some d) (path.map (marshal ansi)))

end Oxml
