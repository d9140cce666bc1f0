import Verif.Spec.Worksheet
/-!
# What becomes of column settings when columns are set one by one
-/
namespace Oxml.Spec

/-- The columns set by a history of edits, in order, with the settings asked for. -/
def columnEdits : List SheetOp → List (Nat × Option ColProps)
  | [] => []
  | .column c p :: ops => (c, p) :: columnEdits ops
  | _ :: ops => columnEdits ops

/-- What was asked for last for a column, if anything. -/
def lastColumn (c : Nat) : List (Nat × Option ColProps) → Option (Option ColProps)
  | [] => none
  | e :: es =>
    match lastColumn c es with
    | some p => some p
    | none => if e.1 = c then some e.2 else none

/-- A range of columns in a file covers a column. -/
def Spans (r : ColProps) (c : Nat) : Prop := r.min ≤ c ∧ c ≤ r.max

instance (r : ColProps) (c : Nat) : Decidable (Spans r c) := inferInstanceAs (Decidable (_ ∧ _))

/-- Settings without the range they are for. -/
def settings (r : ColProps) : ColProps := { r with min := 0, max := 0 }

/-- Setting column `c` cuts the range in two: it lies strictly inside, and neither it nor one of its neighbours was set before. -/
def Cut (r : ColProps) (es : List (Nat × Option ColProps)) (c : Nat) : Prop :=
  ∃ pre p post, es = pre ++ (c, p) :: post ∧ r.min < c ∧ c < r.max ∧ ∀ e ∈ pre, e.1 + 1 < c ∨ c + 1 < e.1

open Classical in
/-- What a range of the file says about a column that was not set itself: nothing any more if the range was cut left of the column. -/
noncomputable def kept (r : ColProps) (es : List (Nat × Option ColProps)) (c : Nat) : ColProps :=
  if ∃ k, k < c ∧ Cut r es k then settings {} else settings r

end Oxml.Spec
