import Verif.Proofs.Borrows

/-!
# C80: calls never meet data in use
-/

namespace Oxml

open Spec

/-- Each call of the library passes the check. -/
theorem calls_safe (c : Call) : c.prog.safe Held.none = true := by
  cases c <;> decide

theorem callsProg_safe (cs : List Call) : (callsProg cs).safe Held.none = true := by
  induction cs with
  | nil => rfl
  | cons c cs i =>
    show (c.prog.safe Held.none && (callsProg cs).safe Held.none) = true
    rw [calls_safe c, i]; rfl

/-- **C80** In every run of every sequence of calls, whatever succeeds or fails and whichever parts are the same, no guard is ever refused, and
after the calls none is held. -/
theorem C80_no_conflict (cs : List Call) (t : List Ev) (h : Trace (callsProg cs) t) : NoConflict t ∧ AllReleased t :=
  ⟨fun before m c after e => by simpa using safe_free h covers_none (callsProg_safe cs) before m c after e, trace_released h⟩

/-- The same for a call made after any run of earlier calls: nothing is held in between, so values may be dropped at any time. -/
theorem C80_between (cs : List Call) (c : Call) (s t : List Ev) (hs : Trace (callsProg cs) s) (ht : Trace c.prog t) :
    NoConflict (s ++ t) := by
  intro before m c' after e
  have a : FreeAfter [] s := safe_free hs covers_none (callsProg_safe cs)
  have b : FreeAfter s t := safe_free ht (by simpa using covers_append covers_none (trace_released hs)) (calls_safe c)
  simpa using freeAfter_append a (by simpa using b) before m c' after e

/-- A run with guards inside guards: dropping a sheet, its document written under the guard on the package. -/
def dropRun : List Ev :=
  [.acquire .excl ⟨.office, 0⟩, .acquire .excl ⟨.doc, 7⟩, .acquire .excl ⟨.kids, 3⟩, .release .excl ⟨.kids, 3⟩, .release .excl ⟨.doc, 7⟩,
   .acquire .excl ⟨.doc, 7⟩, .release .excl ⟨.doc, 7⟩, .release .excl ⟨.office, 0⟩]

example : Trace (callsProg [.dropSheet]) dropRun := by
  have kids : Trace Prog.treeOps [.acquire .excl ⟨.kids, 3⟩, .release .excl ⟨.kids, 3⟩] :=
    .loop (s := [.acquire .excl ⟨.kids, 3⟩, .release .excl ⟨.kids, 3⟩]) (t := [])
      (.right (.right (.right (.left (.guard 3 (.stop _)))))) (.stop _)
  have body : Trace (.seq (.guard .excl .doc Prog.treeOps) Prog.closeXml) _ :=
    .seq (.guard 7 kids) (.guard 7 (.stop Prog.writeXml))
  exact .seq (.seq (.guard 0 body) (.stop _)) (.stop _)

/-- The claim is not empty: keeping the guard on the document while the package writes it would be refused. -/
example : ∃ t, Trace (.guard .excl .office (.guard .excl .doc Prog.closeXml)) t ∧ ¬ NoConflict t :=
  ⟨_, .guard 0 (.guard 7 (.guard 7 (.stop _))), fun h =>
    h [.acquire .excl ⟨.office, 0⟩, .acquire .excl ⟨.doc, 7⟩] .excl ⟨.doc, 7⟩
      [.release .excl ⟨.doc, 7⟩, .release .excl ⟨.doc, 7⟩, .release .excl ⟨.office, 0⟩] rfl (.inl (by decide))⟩

end Oxml
