import Verif.Model.DotNet
import Verif.Spec.Ffi
/-! # .NET and C programs (C74–C76) -/
namespace Oxml.Spec

/-- A C call that opens a sheet. -/
def Opens (c : FfiCall) : Prop := (∃ n, c = .add n) ∨ ∃ n, c = .get n

/-- How a program ends. -/
inductive ProgramEnd where
  | finished (x : NetExcel)
  | processEnds
  | undefined

/-- A .NET program on one object; it may catch what is thrown. -/
def netRun (env : Env) (sh : Shown) (ansi : String → String) (x : NetExcel) : List (World × NetCall) → ProgramEnd
  | [] => .finished x
  | (w, c) :: cs =>
    match netStep env sh ansi w x c with
    | (.processEnds, _) => .processEnds
    | (.undefined, _) => .undefined
    | (_, x1) => netRun env sh ansi x1 cs

/-- What a method is asked to do, as a call of the crate; `none` for saving and for arguments that are null. -/
def netRequest (ansi : String → String) : NetCall → Option WbOp
  | .addSheet n => some (.add (n.map (marshal ansi)))
  | .getWorksheet (some n) => some (.get (marshal ansi n))
  | .renameSheet (some o) (some n) => some (.rename (marshal ansi o) (marshal ansi n))
  | _ => none

/-- The method returns. -/
def Returns (e : NetEnd NetValue) : Prop := ∃ v, e = .returned v

/-- A path is given for saving. -/
def Saves : NetCall → Prop
  | .saveAs (some _) => True
  | _ => False

/-- The arguments the C function insists on are not null. -/
def Asks : NetCall → Prop
  | .addSheet _ => True
  | .getWorksheet n => n ≠ none
  | .renameSheet o n => o ≠ none ∧ n ≠ none
  | .saveAs p => p ≠ none

end Oxml.Spec
