import Verif.Spec.Order
/-!
# Vocabulary for the order in which sheets are dropped
-/
namespace Oxml.Spec

/-- Sheets held are dropped one after the other, in the order of the list. -/
inductive Drops (env : Env) : Session → List SheetHandle → Session → Prop
  | nil {s : Session} : Drops env s [] s
  | cons {s t : Session} {i : Nat} {g : SheetHandle} {l : List SheetHandle} (hg : s.handles[i]? = some g)
    (rest : Drops env (s.step env (.drop i)).2 l t) : Drops env s (g :: l) t

/-- Everything is the same: each open part with its document, each closed part with its text, the handles and the tables of the workbook. -/
structure SameState (s t : Session) : Prop where
  opened : ∀ n, aget n s.x.pkg.opened = aget n t.x.pkg.opened
  archive : ∀ n, aget n s.x.pkg.archive = aget n t.x.pkg.archive
  next : s.x.pkg.nextHandle = t.x.pkg.nextHandle
  rest : { s.x with pkg := t.x.pkg } = t.x
  handles : s.handles = t.handles

/-- The same call once the handle at position `i` is gone; adding, fetching, dropping and deleting sheets is not meant, nor a call on the handle
itself. -/
def withoutHandle (i : Nat) : WbOp → Option WbOp
  | .sheet j op => if j < i then some (.sheet j op) else if i < j then some (.sheet (j - 1) op) else none
  | .rename old new => some (.rename old new)
  | .active name => some (.active name)
  | .hide name => some (.hide name)
  | .view op => some (.view op)
  | .style hs st => some (.style hs st)
  | _ => none

end Oxml.Spec
