import Verif.Proofs.SessionCells
import Verif.Props.Sessions
/-!
# C45: cells written before saving are in the saved part of their sheet
-/
namespace Oxml
open Spec

variable {env : Env} {theme : XDoc}

/-- **C45, partial.** A sheet is written through its handle, the handle is dropped, the session goes on in any way and the workbook is
saved. The sheet's part then loads, and shows for every cell what was last written to it, as typed and escaped by the library, and
no other cell; text cells refer to the saved string table. Missing: handles still open when saving, see `C45_violated`. -/
theorem C45_partial (hst : env.build.release = true → StampOk env.stamp) {ops ops' : List WbOp} {x : Excel} {s s' : Session} (hx : Excel.new env theme = .ok x)
    (hr : Session.run env ⟨x, []⟩ ops = .ok s) (hf : FittingOps env ops) {i : Nat} {h : SheetHandle} (hi : s.handles[i]? = some h)
    (hr' : (s.step env (.drop i)).2.run env ops' = .ok s') (now : String) :
    ∃ p d sh, s'.x.saved env now = .ok p ∧ partDoc env p h.path = some d ∧ (Sheet.load env d).1 = .ok sh ∧
      (∀ r c, (lastWritten r c (writesTo env h.path ⟨x, []⟩ ops) = none → cellAt sh r c = none) ∧
        ∀ given, lastWritten r c (writesTo env h.path ⟨x, []⟩ ops) = some given →
          ∃ stored shown, cellAt sh r c = some shown ∧ Reloaded stored shown ∧ StoredAs s'.x.strings.data given stored) ∧
      (s'.x.strings.data ≠ [] → ∃ t, partDoc env p "xl/sharedStrings.xml" = some t ∧
        (loadStrings t).1 = s'.x.strings.data.map (fun v => (reloadText v).getD "")) := by
  rw [new_eq env theme] at hx
  cases hx
  have hI : SessInv env theme s := ran_inv hst ⟨_, new_eq env theme, hr⟩
  have hb : BookInv env theme s.x s.handles := hI
  have hW := ran_wrote hst hf hr
  have hm := List.mem_of_getElem? hi
  obtain ⟨f1, f2, f3⟩ := hW.fit h hm
  obtain ⟨k, hk, hc⟩ := hb.sheets.dropCases hm
  obtain ⟨xd, hxd⟩ := save_total f3 (x := bareDoc) rfl
  have hpk : (s.step env (.drop i)).2 = ⟨{ s.x with pkg := dropSheet env s.x.pkg h }, s.handles.eraseIdx i⟩ := by
    simp only [Session.step, hi]
  have harch : aget (sheetName k) (s.step env (.drop i)).2.x.pkg.archive = some (sheetPart env xd) := by
    rcases hc with ⟨e, h1, _, _⟩ | ⟨xd', q, h1, _, e1, _, _, _, h2⟩
    · rw [hxd] at h1; cases h1
    · rw [hxd] at h1; cases h1
      rw [hpk]
      simp only
      rw [e1, h2, if_pos hk.symm]
  have hI1 : SessInv env theme (s.step env (.drop i)).2 := hI.step hst _
  obtain ⟨ha, more, hmore⟩ := kept_run hst ops' hI1 hxd (.inl harch) hr'
  have hI2 : SessInv env theme s' := run_ind (P := SessInv env theme) (fun s op h => h.step hst op) ops' hI1 hr'
  obtain ⟨p, ep, hw⟩ := hI2.written now
  obtain ⟨d, hd, hl⟩ := kept_loads hst hI2 f1 f2 hxd ha hw
  have hstr : (s.step env (.drop i)).2.x.strings.data = s.x.strings.data := by rw [hpk]
  have hcells : ∀ sh : Sheet, (∀ r c, (cellAt h.data r c = none → cellAt sh r c = none) ∧
      ∀ y, cellAt h.data r c = some y → ∃ shown, cellAt sh r c = some shown ∧ Reloaded y shown) →
      ∀ r c, (lastWritten r c (writesTo env h.path ⟨newExcel env theme, []⟩ ops) = none → cellAt sh r c = none) ∧
        ∀ given, lastWritten r c (writesTo env h.path ⟨newExcel env theme, []⟩ ops) = some given →
          ∃ stored shown, cellAt sh r c = some shown ∧ Reloaded stored shown ∧ StoredAs s'.x.strings.data given stored := by
    intro sh hsh r c
    refine ⟨fun hnone => (hsh r c).1 ((hW.cells h hm r c).1 hnone), ?_⟩
    intro given hgiven
    obtain ⟨y, hy, hsa⟩ := (hW.cells h hm r c).2 given hgiven
    obtain ⟨shown, hs1, hs2⟩ := (hsh r c).2 y hy
    refine ⟨y, shown, hs1, hs2, ?_⟩
    rw [hmore, hstr]
    exact storedAs_mono hsa
  have hfin : ∃ sh, (Sheet.load env d).1 = .ok sh ∧ ∀ r c, (cellAt h.data r c = none → cellAt sh r c = none) ∧
      ∀ y, cellAt h.data r c = some y → ∃ shown, cellAt sh r c = some shown ∧ Reloaded y shown := by
    rcases hl with hl | hl
    · refine ⟨_, hl, fun r c => ⟨fun hn => by rw [cellAt_reload, hn]; rfl, fun y hy => ⟨reloadCell y, by rw [cellAt_reload, hy]; rfl, .inl rfl⟩⟩⟩
    · refine ⟨_, hl, fun r c => ⟨fun hn => by rw [cellAt_reload, cellAt_esc, hn]; rfl, fun y hy => ⟨reloadCell (escCell y), by rw [cellAt_reload, cellAt_esc, hy]; rfl, .inr (reloadCell_esc y)⟩⟩⟩
  obtain ⟨sh, hsh1, hsh2⟩ := hfin
  refine ⟨p, d, sh, ep, by rw [hk]; exact hd, hsh1, hcells sh hsh2, ?_⟩
  intro hne
  have hk := closedParts_book theme now s'.x.rels.rels s'.x.strings.data s'.x.styles.data s'.x.sheets s'.x.view
  have h7 := hk.2.2.2.2.2.2.1
  rw [if_neg hne] at h7
  obtain ⟨x', t, _, hs1, hs2, _, hs3, _⟩ := strings_reload env hst (wf_stringsTemplate env.uni) (by simp) s'.x.strings.data hne
  have he : x' = stringsSaved s'.x.strings.data := by
    have : saveStrings stringsTemplate.doc s'.x.strings.data = .ok (stringsSaved s'.x.strings.data) := rfl
    rw [this] at hs1
    exact (Except.ok.inj hs1).symm
  exact ⟨t.toXDoc, partDoc_eq (hw.parts _ _ _ h7) (by rw [← he]; exact hs2), hs3⟩

/-- A second round of saving and loading changes nothing but the metadata text, and that only when it has special characters. -/
theorem C45_reloaded {stored shown : CellProps} (h : Reloaded stored shown) :
    shown = { reloadCell stored with metadata := shown.metadata } ∧ ((∀ m, stored.metadata = some m → NoSpecials m) → shown = reloadCell stored) := by
  rcases h with rfl | rfl
  · exact ⟨rfl, fun _ => rfl⟩
  · rw [← reloadCell_esc]
    refine ⟨?_, ?_⟩
    · unfold reloadCell escCell; rfl
    · intro hm
      have : escCell stored = stored := by
        unfold escCell; rw [esc_opt hm]
      rw [this]

/-- **C45, partial, undisturbed.** When no listed sheet is opened in between, `C45_partial` holds with the part saved and loaded once. -/
theorem C45_partial_once (hst : env.build.release = true → StampOk env.stamp) {ops ops' : List WbOp} {x : Excel} {s s' : Session} (hx : Excel.new env theme = .ok x)
    (hr : Session.run env ⟨x, []⟩ ops = .ok s) (hf : FittingOps env ops) {i : Nat} {h : SheetHandle} (hi : s.handles[i]? = some h)
    (hr' : (s.step env (.drop i)).2.run env ops' = .ok s') (hn : NoReopen env (s.step env (.drop i)).2 ops') (now : String) :
    ∃ p d sh, s'.x.saved env now = .ok p ∧ partDoc env p h.path = some d ∧ (Sheet.load env d).1 = .ok sh ∧
      (∀ r c, (lastWritten r c (writesTo env h.path ⟨x, []⟩ ops) = none → cellAt sh r c = none) ∧
        ∀ given, lastWritten r c (writesTo env h.path ⟨x, []⟩ ops) = some given →
          ∃ stored, cellAt sh r c = some (reloadCell stored) ∧ StoredAs s'.x.strings.data given stored) ∧
      (s'.x.strings.data ≠ [] → ∃ t, partDoc env p "xl/sharedStrings.xml" = some t ∧
        (loadStrings t).1 = s'.x.strings.data.map (fun v => (reloadText v).getD "")) := by
  rw [new_eq env theme] at hx
  cases hx
  have hI : SessInv env theme s := ran_inv hst ⟨_, new_eq env theme, hr⟩
  have hb : BookInv env theme s.x s.handles := hI
  have hW := ran_wrote hst hf hr
  have hm := List.mem_of_getElem? hi
  obtain ⟨f1, f2, f3⟩ := hW.fit h hm
  obtain ⟨k, hk, hc⟩ := hb.sheets.dropCases hm
  obtain ⟨xd, hxd⟩ := save_total f3 (x := bareDoc) rfl
  have hpk : (s.step env (.drop i)).2 = ⟨{ s.x with pkg := dropSheet env s.x.pkg h }, s.handles.eraseIdx i⟩ := by
    simp only [Session.step, hi]
  have harch : aget h.path (s.step env (.drop i)).2.x.pkg.archive = some (sheetPart env xd) := by
    rcases hc with ⟨e, h1, _, _⟩ | ⟨xd', q, h1, _, e1, _, _, _, h2⟩
    · rw [hxd] at h1; cases h1
    · rw [hxd] at h1; cases h1
      rw [hpk]
      simp only
      rw [e1, h2, if_pos rfl]
  have hI1 : SessInv env theme (s.step env (.drop i)).2 := hI.step hst _
  obtain ⟨ha, more, hmore⟩ := closed_run hst ops' hI1 hn harch hr'
  have hI2 : SessInv env theme s' := run_ind (P := SessInv env theme) (fun s op h => h.step hst op) ops' hI1 hr'
  have hb2 : BookInv env theme s'.x s'.handles := hI2
  obtain ⟨p, ep, hw⟩ := hI2.written now
  obtain ⟨d, hd1, hd2, hd3⟩ := reload_sheet env hst f1 f2 (wf_bareDoc env.uni) bare_unmanaged hxd
  have hno : aget h.path s'.x.pkg.opened = none := by
    rw [aget_eq_none_iff]
    exact fun hm => hb2.sheets.inv.disjoint _ hm (mem_akeys_of_aget ha)
  have hp : aget h.path p.archive = some (sheetPart env xd) := by
    rw [hw.closed _ (by rw [hk]; exact not_closedParts_sheet k) hno]; exact ha
  have hstr : (s.step env (.drop i)).2.x.strings.data = s.x.strings.data := by rw [hpk]
  refine ⟨p, d.toXDoc, reloadSheet h.data, ep, partDoc_eq hp hd1, hd3, ?_, ?_⟩
  · intro r c
    rw [cellAt_reload]
    refine ⟨fun hnone => by rw [(hW.cells h hm r c).1 hnone]; rfl, ?_⟩
    intro given hgiven
    obtain ⟨y, hy, hsa⟩ := (hW.cells h hm r c).2 given hgiven
    rw [hy]
    refine ⟨y, rfl, ?_⟩
    rw [hmore, hstr]
    exact storedAs_mono hsa
  · intro hne
    have hk := closedParts_book theme now s'.x.rels.rels s'.x.strings.data s'.x.styles.data s'.x.sheets s'.x.view
    have h7 := hk.2.2.2.2.2.2.1
    rw [if_neg hne] at h7
    obtain ⟨x', t, _, hs1, hs2, _, hs3, _⟩ := strings_reload env hst (wf_stringsTemplate env.uni) (by simp) s'.x.strings.data hne
    have he : x' = stringsSaved s'.x.strings.data := by
      have : saveStrings stringsTemplate.doc s'.x.strings.data = .ok (stringsSaved s'.x.strings.data) := rfl
      rw [this] at hs1
      exact (Except.ok.inj hs1).symm
    exact ⟨t.toXDoc, partDoc_eq (hw.parts _ _ _ h7) (by rw [← he]; exact hs2), hs3⟩

def writeOps : List WbOp :=
  [.add (some "a"), .sheet 0 (.write 3 2 [{ value := some "text" }, { value := some "1.5" }]), .add (some "b"), .sheet 1 (.write 1 1 [{ value := some "other" }]),
   .sheet 0 (.write 3 3 [{ formula := some "SUM(A1)" }])]

/-- Example: the sheet is opened again after its handle is dropped, which fails and leaves the part open; the session goes on. -/
example : ∃ s s', Session.run C32_env ⟨newExcel C32_env theme, []⟩ writeOps = .ok s ∧
    (s.step C32_env (.drop 0)).2.run C32_env [.get "a", .rename "a" "c"] = .ok s' ∧ ¬ NoReopen C32_env (s.step C32_env (.drop 0)).2 [.get "a", .rename "a" "c"] ∧
    "xl/worksheets/sheet2.xml" ∈ akeys s'.x.pkg.opened ∧ names s'.x.sheets = ["sheet1", "c", "b"] := by
  refine ⟨endOf C32_env theme writeOps, endOf C32_env theme (writeOps ++ [.drop 0, .get "a", .rename "a" "c"]), by kernel_rfl, by kernel_rfl, ?_, ?_, by kernel_rfl⟩
  · intro h
    have : names ((endOf C32_env theme writeOps).step C32_env (.drop 0)).2.x.sheets = ["sheet1", "a", "b"] := by kernel_rfl
    have h1 := h.1
    rw [this] at h1
    exact h1 (by decide)
  · have : "xl/worksheets/sheet2.xml" ∈ (akeys (endOf C32_env theme (writeOps ++ [.drop 0, .get "a", .rename "a" "c"])).x.pkg.opened).filter (fun n => decide (n = "xl/worksheets/sheet2.xml")) := by
      have e : (akeys (endOf C32_env theme (writeOps ++ [.drop 0, .get "a", .rename "a" "c"])).x.pkg.opened).filter (fun n => decide (n = "xl/worksheets/sheet2.xml")) = ["xl/worksheets/sheet2.xml"] := by kernel_rfl
      rw [e]; simp
    exact (List.mem_filter.mp this).1

/-- Example: two sheets written in turns. -/
example : ∃ h, (endOf env theme writeOps).handles[0]? = some h ∧ h.path = "xl/worksheets/sheet2.xml" ∧
    Session.run env ⟨newExcel env theme, []⟩ writeOps = .ok (endOf env theme writeOps) ∧ FittingOps env writeOps ∧
    lastWritten 3 2 (writesTo env "xl/worksheets/sheet2.xml" ⟨newExcel env theme, []⟩ writeOps) = some { value := some "text" } ∧
    lastWritten 3 3 (writesTo env "xl/worksheets/sheet2.xml" ⟨newExcel env theme, []⟩ writeOps) = some { formula := some "SUM(A1)" } ∧
    lastWritten 1 1 (writesTo env "xl/worksheets/sheet2.xml" ⟨newExcel env theme, []⟩ writeOps) = none ∧
    NoReopen env ((endOf env theme writeOps).step env (.drop 0)).2 [.rename "a" "c", .add (some "d")] ∧
    ∃ s', ((endOf env theme writeOps).step env (.drop 0)).2.run env [.rename "a" "c", .add (some "d")] = .ok s' := by
  refine ⟨(endOf env theme writeOps).handles[0]?.getD ⟨0, ⟨[], 0, ""⟩, emptySheet, "", ""⟩, by kernel_rfl, by kernel_rfl, by kernel_rfl, ?_, by kernel_rfl,
    by kernel_rfl, by kernel_rfl, ⟨trivial, ?_, trivial⟩, endOf env theme (writeOps ++ [.drop 0, .rename "a" "c", .add (some "d")]), by kernel_rfl⟩
  · intro i o ho
    simp only [writeOps, List.mem_cons, List.not_mem_nil, or_false, WbOp.sheet.injEq, reduceCtorEq, false_or] at ho
    rcases ho with ⟨_, rfl⟩ | ⟨_, rfl⟩ | ⟨_, rfl⟩ <;> refine ⟨⟨by decide, by decide⟩, by decide, ?_⟩ <;> intro c hc <;>
      simp only [List.mem_cons, List.not_mem_nil, or_false] at hc <;>
      (first | (rcases hc with rfl | rfl) | subst hc) <;> exact ⟨(fun g h => by cases h), (fun g h => by cases h)⟩
  · have : names (((endOf env theme writeOps).step env (.drop 0)).2.step env (.rename "a" "c")).2.x.sheets = ["sheet1", "c", "b"] := by kernel_rfl
    rw [this]
    decide

/-- **C45 fails, always.** The part of a sheet whose handle is still open when saving cannot be read, whatever was written. -/
theorem C45_violated (hst : env.build.release = true → StampOk env.stamp) {ops : List WbOp} {s : Session} (hr : Ran env theme ops s) {h : SheetHandle}
    (hm : h ∈ s.handles) (now : String) : ∃ p, s.x.saved env now = .ok p ∧ h.path ∈ akeys p.archive ∧ partDoc env p h.path = none := by
  have hI := ran_inv hst hr
  have hb : BookInv env theme s.x s.handles := hI
  obtain ⟨p, ep, hw⟩ := hI.written now
  obtain ⟨k, hr, h1, _, h3, _⟩ := hb.sheets.handles h hm
  have hp := hw.opened _ _ (not_closedParts_sheet k) h3
  refine ⟨p, ep, by rw [h1]; exact mem_akeys_of_aget hp, ?_⟩
  unfold partDoc
  rw [h1, hp]
  simp only [openEntry]
  rw [show (openFrom h.handle worksheetTemplate bareDoc).doc = bareDoc from rfl,
    readXml_selfClosing env.build env.uni hst (wf_bareDoc env.uni) rfl]

/-- Example: a handle with a cell written. -/
example : ∃ s h, Ran env theme writeOps s ∧ h ∈ s.handles ∧ cellAt h.data 3 2 ≠ none := by
  refine ⟨endOf env theme writeOps, (endOf env theme writeOps).handles[0]?.getD ⟨0, ⟨[], 0, ""⟩, emptySheet, "", ""⟩,
    ⟨newExcel env theme, new_eq env theme, by kernel_rfl⟩, List.mem_of_getElem? (i := 0) (a := (endOf env theme writeOps).handles[0]?.getD ⟨0, ⟨[], 0, ""⟩, emptySheet, "", ""⟩) (by kernel_rfl), ?_⟩
  have : (cellAt (Option.getD (endOf env theme writeOps).handles[0]? (⟨0, ⟨[], 0, ""⟩, emptySheet, "", ""⟩ : SheetHandle)).data 3 2).isSome = true := by kernel_rfl
  intro h
  rw [h] at this
  cases this

/-! ## The default sheet -/

theorem default_kept (hst : env.build.release = true → StampOk env.stamp) {ops : List WbOp} {s : Session} (hr : Ran env theme ops s) :
    SessInv env theme s ∧ PartKept env s 1 emptySheetDoc := by
  obtain ⟨x, hx, hrun⟩ := hr
  rw [new_eq env theme] at hx
  cases hx
  have h0 : PartKept env ⟨newExcel env theme, []⟩ 1 emptySheetDoc := .inl rfl
  have hs : emptySheet.save bareDoc = .ok emptySheetDoc := by rfl
  exact ⟨ran_inv hst ⟨_, new_eq env theme, hrun⟩, (kept_run hst ops (newBook env theme) hs h0 hrun).1⟩

/-- **C47 fails for the default sheet.** No history of a new workbook ever holds a handle on the sheet the workbook is created with, so
nothing can be written to it. -/
theorem C47_violated_default (hst : env.build.release = true → StampOk env.stamp) {ops : List WbOp} {s : Session} (hr : Ran env theme ops s) :
    ∀ h ∈ s.handles, h.path ≠ "xl/worksheets/sheet1.xml" := by
  obtain ⟨hI, hk⟩ := default_kept hst hr
  have hb : BookInv env theme s.x s.handles := hI
  change ∀ h ∈ s.handles, h.path ≠ sheetName 1
  rcases hk with h | ⟨j, _, h⟩
  · intro g hg e
    obtain ⟨k', hr, h1, _, h3, _⟩ := hb.sheets.handles g hg
    rw [← h1] at h3
    exact hb.sheets.inv.disjoint _ (mem_akeys_of_aget h3) (e ▸ mem_akeys_of_aget h)
  · exact h

/-- **C45, default sheet.** In every history of a new workbook the part of the default sheet can be read when the workbook is saved, and has no cells. -/
theorem C45_default (hst : env.build.release = true → StampOk env.stamp) {ops : List WbOp} {s : Session} (hr : Ran env theme ops s) (now : String) :
    ∃ p d sh, s.x.saved env now = .ok p ∧ partDoc env p "xl/worksheets/sheet1.xml" = some d ∧ (Sheet.load env d).1 = .ok sh ∧ ∀ r c, cellAt sh r c = none := by
  obtain ⟨hI, hk⟩ := default_kept hst hr
  obtain ⟨p, ep, hw⟩ := hI.written now
  have hs : emptySheet.save bareDoc = .ok emptySheetDoc := by rfl
  obtain ⟨d, hd, hl⟩ := kept_loads hst hI emptySheet_sorted (fits_empty env) hs hk hw
  rcases hl with hl | hl
  · exact ⟨p, d, _, ep, hd, hl, fun r c => by rw [cellAt_reload, cellAt_empty]; rfl⟩
  · exact ⟨p, d, _, ep, hd, hl, fun r c => by rw [cellAt_reload, cellAt_esc, cellAt_empty]; rfl⟩

/-- Example: a history that tries to open the default sheet, renames it and writes elsewhere. -/
example : ∃ s, Ran env theme [.add (some "a"), .rename "sheet1" "b", .sheet 0 (.write 1 1 [{ value := some "text" }])] s ∧ s.handles.length = 1 := by
  refine ⟨endOf env theme [.add (some "a"), .rename "sheet1" "b", .sheet 0 (.write 1 1 [{ value := some "text" }])], ⟨newExcel env theme, new_eq env theme, by kernel_rfl⟩, by kernel_rfl⟩

end Oxml
