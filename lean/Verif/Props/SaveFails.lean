import Verif.Proofs.SaveFails
import Verif.Props.SessionCells
import Verif.Props.PartArena
/-!
# C78: a sheet that cannot be written leaves its document as it was

The tree-level model of `WorkSheet::close_document` (`Sheet.save`) has no document to show for a failed write. This is justified here:
the arena program, which changes the document step by step, fails only at its very first step or not at all.
-/
namespace Oxml
open Spec

/-- **C78 (failed writes).** In any session on a new or opened workbook, after any calls, failed ones included: if writing the sheet of a
handle into a document fails, it already fails in `serialize_dimension`, before the document is touched (the reference of the dimension
cannot be made, or there is no root element to add to). -/
theorem C78_sheet_atomic {env : Env} {x : Excel} {ops : List WbOp} {s : Session} (hr : Session.run env ⟨x, []⟩ ops = .ok s)
    {h : SheetHandle} (hh : h ∈ s.handles) {u : Unicode} {d : XmlDoc} (hd : Reachable u d) {e : Err}
    (he : arenaSaveSheet u h.data d = .error e) :
    h.data.dimensionRef = .error e ∨ d.get 0 = none ∧ e = .fail "Parent Element Not Found" :=
  save_fails (reach_run (s := ⟨x, []⟩) (fun h hh => by cases hh) hr h hh) hd.good.1 he

def releaseEnv : Env := { build := ⟨true⟩, uni := ⟨fun _ => false⟩, stamp := [] }

/-- A cell in column 0 is such a case in release builds: the call that writes it succeeds, writing the sheet fails. -/
example (theme : XDoc) : ∃ s h e, Session.run releaseEnv ⟨newExcel releaseEnv theme, []⟩ [.add (some "a"), .sheet 0 (.write 1 0 [{ value := some "7" }])] = .ok s ∧
    h ∈ s.handles ∧ arenaSaveSheet releaseEnv.uni h.data (XmlDoc.history releaseEnv.uni [.createRoot "worksheet"]) = .error e := by
  refine ⟨endOf releaseEnv theme [.add (some "a"), .sheet 0 (.write 1 0 [{ value := some "7" }])],
    (endOf releaseEnv theme [.add (some "a"), .sheet 0 (.write 1 0 [{ value := some "7" }])]).handles[0]?.getD ⟨0, ⟨[], 0, ""⟩, emptySheet, "", ""⟩,
    .fail "Index must be greater than 0", by kernel_rfl, List.mem_of_getElem? (i := 0) (by kernel_rfl), by kernel_rfl⟩

end Oxml
