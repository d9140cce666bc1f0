/-!
# `RefCell` borrows

The rules of `std::cell::RefCell`: a cell may have any number of shared guards or a single exclusive one. Asking for a guard
while that is not allowed makes `try_borrow`/`try_borrow_mut` fail and `borrow`/`borrow_mut` panic.
-/

namespace Oxml.Spec

/-- The two kinds of guards: `Ref` and `RefMut`. -/
inductive Mode
  | shared
  | excl
  deriving DecidableEq, Repr

/-- What the cells of the library hold. -/
inductive Kind
  /-- `RefCell<OfficeDocument>` -/
  | office
  /-- `RefCell<XmlDocument>` -/
  | doc
  /-- `RefCell<RelationsPart>` -/
  | rels
  /-- `RefCell<CommonServices>` -/
  | services
  /-- the sheet collection -/
  | sheets
  /-- the child list of an XML element -/
  | kids
  /-- the namespace collection of an XML document -/
  | names
  deriving DecidableEq, Repr

/-- A cell: what it holds and which one it is. -/
structure Cell where
  kind : Kind
  key : Nat
  deriving DecidableEq, Repr

/-- What can be seen of a run: guards asked for and guards given back. -/
inductive Ev
  | acquire (m : Mode) (c : Cell)
  | release (m : Mode) (c : Cell)
  deriving DecidableEq, Repr

/-- Number of guards of a mode on a cell that are out after a run. -/
def heldAfter (m : Mode) (c : Cell) (t : List Ev) : Int :=
  (t.count (.acquire m c) : Int) - t.count (.release m c)

/-- A request that is refused: an exclusive guard while any guard is out, or a shared one while an exclusive one is out. -/
def Refused (before : List Ev) (m : Mode) (c : Cell) : Prop :=
  heldAfter .excl c before ≠ 0 ∨ (m = .excl ∧ heldAfter .shared c before ≠ 0)

/-- No request of the run is refused. -/
def NoConflict (t : List Ev) : Prop :=
  ∀ before m c after, t = before ++ .acquire m c :: after → ¬ Refused before m c

/-- No guard is out at the end of the run. -/
def AllReleased (t : List Ev) : Prop := ∀ m c, heldAfter m c t = 0

end Oxml.Spec
