import Verif.Model.Ffi
/-! # What an FFI call is asked to do -/
namespace Oxml.Spec

/-- The request of a call with usable arguments, as a call of the crate. `none`: the arguments do not make a request. -/
def request : FfiCall → Option WbOp
  | .add n => some (.add n)
  | .get (some n) => some (.get n)
  | .rename (some o) (some n) => some (.rename o n)
  | .hide (some n) => some (.hide n)
  | .style hs (some (.ok f)) => some (.style hs f.setting)
  | _ => none

/-- A rename call. -/
def IsRename : FfiCall → Prop
  | .rename _ _ => True
  | _ => False

/-- A history of calls on a workbook that was not null; a panic ends the process. -/
def ffiRun (env : Env) (sh : Shown) (s : Option Session) : List FfiCall → Option (Option Session)
  | [] => some s
  | c :: cs =>
    match ffiStep env sh s c with
    | (none, _) => none
    | (some _, s1) => ffiRun env sh s1 cs

end Oxml.Spec
