import Verif.Spec.Workbook
/-!
# Vocabulary for the properties of saved sessions
-/
namespace Oxml.Spec

/-- What the library reads from a closed part, `none` if the part is absent or unreadable. -/
def partDoc (env : Env) (p : Pkg) (n : String) : Option XDoc :=
  match aget n p.archive with
  | none => none
  | some e =>
    match readXml env.uni e.content with
    | .error _ => none
    | .ok d => some d.toXDoc

/-- Number, name and relationship id the sheet elements of a workbook document show. -/
def sheetRows (x : XDoc) : List (Option String × Option String × Option String) :=
  (sheetElements x).map (fun n => (n.attr? "sheetId", n.attr? "name", n.attr? "r:id"))

/-- Listed sheets with their positions, counted from 1. -/
def numbered (l : List SheetEntry) : List (Option String × Option String × Option String) :=
  (l.zipIdx 1).map (fun e => (some (toString e.2), some (attrReload e.1.name), some e.1.relId))

/-- The history ran in a new workbook and ended here. -/
def Ran (env : Env) (theme : XDoc) (ops : List WbOp) (s : Session) : Prop :=
  ∃ x, Excel.new env theme = .ok x ∧ Session.run env ⟨x, []⟩ ops = .ok s

/-- A call that keeps names distinct, adds a sheet only if that succeeds, and renames no sheet through whose handle the user may
still delete. -/
def CarefulStep (env : Env) (s : Session) (op : WbOp) : Prop :=
  (names (s.step env op).2.x.sheets).Nodup ∧
  match op with
  | .add (some n) => n ∈ names s.x.sheets ∨ (s.step env op).1 = .ok ()
  | .add none => (s.step env op).1 = .ok ()
  | .get n => n ∈ names s.x.sheets ∨ (s.step env op).1 = .ok ()
  | .rename old _ => ∀ h ∈ s.handles, h.name ≠ old
  | _ => True

/-- A history of such calls. -/
def Careful (env : Env) : Session → List WbOp → Prop
  | _, [] => True
  | s, op :: ops => CarefulStep env s op ∧ Careful env (s.step env op).2 ops

/-- The same from a new workbook. -/
def RanCarefully (env : Env) (theme : XDoc) (ops : List WbOp) (s : Session) : Prop :=
  ∃ x, Excel.new env theme = .ok x ∧ Session.run env ⟨x, []⟩ ops = .ok s ∧ Careful env ⟨x, []⟩ ops

/-- What a call does to the sheet saved under the path. -/
def onPart (s : Session) (path : String) : WbOp → List SheetOp
  | .sheet i o =>
    match s.handles[i]? with
    | some h => if h.path = path then [o] else []
    | none => []
  | _ => []

/-- What a history does to the sheet saved under the path, through whatever handles. -/
def writesTo (env : Env) (path : String) : Session → List WbOp → List SheetOp
  | _, [] => []
  | s, op :: ops => onPart s path op ++ writesTo env path (s.step env op).2 ops

/-- Sheet operations keep to the columns of a sheet, and their values to the Rust types. -/
def FittingOps (env : Env) (ops : List WbOp) : Prop := ∀ i o, WbOp.sheet i o ∈ ops → o.InRange ∧ o.Fits env

/-- The history opens no sheet that is listed already. -/
def NoReopen (env : Env) : Session → List WbOp → Prop
  | _, [] => True
  | s, op :: ops =>
    (match op with
      | .add (some n) => n ∉ names s.x.sheets
      | .get n => n ∉ names s.x.sheets
      | _ => True) ∧ NoReopen env (s.step env op).2 ops

/-- A cell of a part that was saved and loaded, or once more without a change in between. -/
def Reloaded (stored shown : CellProps) : Prop := shown = reloadCell stored ∨ shown = reloadCell (reloadCell stored)

end Oxml.Spec
