import Verif.Proofs.ExistingSheets
import Verif.Props.ExistingData
/-!
# C85: editing a sheet of an existing workbook
-/
namespace Oxml
open Spec

variable {env : Env} {theme : XDoc} {z z' : Zip} {ops : List WbOp} {x : Excel} {path : String} {edits : List SheetOp} {s : Session} {now : String} {exts : List (String × String)}
  {d0 : XDoc}

/-- The part of an edited sheet once the handle is dropped. -/
theorem run_closed_text (hst : env.build.release = true → StampOk env.stamp) (he : PrintsF32 env) (hz : (akeys z).Nodup) {ops0 ops1 : List WbOp} {name : String}
    {i : Nat} {s3 : Session} (h : EditRun env theme z path edits x ops0 name ops1 i s3) (hn0 : NeverAsks env path ⟨x, []⟩ ops0)
    (h0 : zipDoc env z path = some d0) (ht : Tidy d0) (hc : ColumnsNamed d0) :
    ∃ sh0 d1 sh d' ent dd, Sheet.load env d0 = (.ok sh0, d1) ∧ Saveable env sh d1 ∧ sh.save d1 = .ok d' ∧
      QuietSess path (some ent) s3 ∧ readXml env.uni ent.content = .ok dd ∧ dd.toXDoc = reloadDoc env.build d' ∧
      (Sheet.load env (reloadDoc env.build d')).1 = .ok (reloadSheet sh) ∧
      Edits env.build sh0 s3.x.strings.data edits sh ∧ PosCols sh0 ∧ (∀ op ∈ edits, op.InRange ∧ op.Fits env) ∧ path ≠ contentTypesName ∧
      ent.content = renderDoc env.build env.stamp d' := by
  obtain ⟨s0, s1, g0, s2, g, ⟨hopen, hrun0⟩, hget, hh, hpath, hrun1, hfit, rfl, hg, hgh, rfl⟩ := h
  obtain ⟨p, _, _, _, _, _, _, _, _, _, _, hp, hb⟩ := openFile_book hz hopen
  have hl0 : LiveSess s0 := hb.live.run env ops0 hrun0
  obtain ⟨g', o, d1, e1, hsrc, hload, hoh, hclosed, hstill, rp, ro, hrp, -⟩ := get_ok hl0 hget
  have eg : g' = g0 := by
    rw [hh] at e1
    exact (List.singleton_inj.mp (List.append_cancel_left e1)).symm
  subst eg
  subst hpath
  -- not one of the workbook's own parts
  have hown : g'.path ∉ ownParts x := by
    intro hm
    have hm' : g'.path ∈ ownParts s0.x := by rw [ownParts_pairs, (own_run hb.live hrun0).1]; exact hm
    obtain ⟨k, hk⟩ := own_pair hm'
    exact (hl0.owns (g'.path, k) (List.mem_append_left _ hk)).isOpen hclosed
  have hq0 : QuietSess g'.path (aget g'.path p.archive) ⟨x, []⟩ :=
    ⟨⟨⟨hb.openOnly _ hown, hb.others _ hown⟩, hown⟩, fun g hg => by cases hg⟩
  have hq1 := hq0.run env ops0 hn0 hrun0
  -- the handle while it is kept
  have hsort0 := load_sorted hload
  have hedit : Editing env g'.path { o with doc := d1 } g'.data [] s1 := by
    have hl1 : LiveSess s1 := by have := hl0.step env (.get name); rw [hget] at this; exact this
    have hnext := open_next (env := env) s0 (some name)
    have e : s0.open env (some name) = (.ok (), s1) := hget
    rw [e] at hnext
    refine ⟨hl1, ?_, ?_⟩
    · exact hl1.inv.handleLt (g'.path, _) (mem_of_aget hstill)
    · intro a ha hk
      obtain ⟨j, hj⟩ := List.getElem?_of_mem ha
      have hj' : s1.handles[s0.handles.length]? = some g' := by rw [e1]; simp
      by_cases hne : j = s0.handles.length
      · subst hne
        have : a = g' := Option.some.inj (hj.symm.trans hj')
        subst this
        exact ⟨rfl, hstill, .nil⟩
      · have h1 := (LivePkg.path_inj hl1 hj hj' hne).1
        obtain ⟨o1, _⟩ := LivePkg.others hl1 hj
        exact absurd hk.symm (hstill.handle_ne hl1.inv o1 h1)
  have hed2 := hedit.run hsort0 (by simp) (fun i o hm => (hfit i o hm).1) hrun1
  rw [List.nil_append] at hed2
  have hwr : ∀ op ∈ writesTo env g'.path s1 ops1, op.InRange ∧ op.Fits env := by
    intro op hop
    obtain ⟨i, hi⟩ := mem_writesTo hop
    exact hfit i op hi
  obtain ⟨k1, k2, k3⟩ := hed2.held g (List.mem_of_getElem? hg) (hgh.trans hoh.symm)
  -- where the document comes from
  have hct : g'.path ≠ contentTypesName := by
    intro e
    rw [e] at hrp
    have hno : sheetRelsPath contentTypesName = none := by decide +kernel
    rw [hno] at hrp; cases hrp
  have hdoc : o.doc = d0 := by
    have hcont := ofZip_content hp hct
    obtain ⟨c, dd, z1, z2, z3⟩ := of_zipDoc h0
    rw [z1] at hcont
    rcases hsrc with ⟨w1, _⟩ | ⟨e, d, w1, w2, w3, _⟩
    · rw [hq1.book.pkg.kept] at w1; rw [w1] at hcont; cases hcont
    · rw [hq1.book.pkg.kept] at w1
      rw [w1] at hcont
      rw [Option.map_some] at hcont
      rw [Option.some.inj hcont, z2] at w2
      cases w2
      rw [w3, z3]
  subst hdoc
  have hpos := load_pos hload hc
  obtain ⟨⟨f1, f2, f3⟩, _⟩ := k3.facts hsort0 (load_fits he hload) hpos hwr
  -- the document is fit to be saved
  obtain ⟨c, dd, z1, z2, z3⟩ := of_zipDoc h0
  obtain ⟨tg, a, cs, hroot⟩ := ht.root
  have hw : WfDoc env.uni o.doc (.mk tg a none cs) := by
    have hu := ht.uris
    rw [← z3] at hroot hu ⊢
    exact (Reachable.read z2).wf hroot hu
  have hw1 : WfDoc env.uni d1 (.mk tg a none (unmanaged cs)) := by
    obtain ⟨_, _, _, rfl⟩ := load_ok hload
    exact wf_filter hw _
  have hsv : Saveable env g.data d1 := ⟨hst, f1, f2, tg, a, unmanaged cs, hw1, fun n hn => by simpa [unmanaged] using (List.mem_filter.mp hn).2⟩
  obtain ⟨d', hsave⟩ := save_total f3 hw1.isRoot
  obtain ⟨dd', r1, r2, r3⟩ := reload_sheet env hst f1 f2 hw1 (fun n hn => by simpa [unmanaged] using (List.mem_filter.mp hn).2) hsave
  rw [r2] at r3
  have hq2 := drop_quiet (env := env) (o := { o with doc := d1 }) hed2.live hg (by rw [k1]; exact k2) (hoh.trans hgh.symm) hsave
  rw [k1] at hq2
  exact ⟨g'.data, d1, g.data, d', _, dd', hload, hsv, hsave, hq2, r1, r2, r3, k3.mono (step_tables env s2 (.drop i)).1, hpos, hwr, hct, rfl⟩

theorem run_closed (hst : env.build.release = true → StampOk env.stamp) (he : PrintsF32 env) (hz : (akeys z).Nodup) {ops0 ops1 : List WbOp} {name : String}
    {i : Nat} {s3 : Session} (h : EditRun env theme z path edits x ops0 name ops1 i s3) (hn0 : NeverAsks env path ⟨x, []⟩ ops0)
    (h0 : zipDoc env z path = some d0) (ht : Tidy d0) (hc : ColumnsNamed d0) :
    ∃ sh0 d1 sh d' ent dd, Sheet.load env d0 = (.ok sh0, d1) ∧ Saveable env sh d1 ∧ sh.save d1 = .ok d' ∧
      QuietSess path (some ent) s3 ∧ readXml env.uni ent.content = .ok dd ∧ dd.toXDoc = reloadDoc env.build d' ∧
      (Sheet.load env (reloadDoc env.build d')).1 = .ok (reloadSheet sh) ∧
      Edits env.build sh0 s3.x.strings.data edits sh ∧ PosCols sh0 ∧ (∀ op ∈ edits, op.InRange ∧ op.Fits env) ∧ path ≠ contentTypesName := by
  obtain ⟨sh0, d1, sh, d', ent, dd, r1, r2, r3, r4, r5, r6, r7, r8, r9, r10, r11, _⟩ := run_closed_text hst he hz h hn0 h0 ht hc
  exact ⟨sh0, d1, sh, d', ent, dd, r1, r2, r3, r4, r5, r6, r7, r8, r9, r10, r11⟩

/-- What the saved file holds of an edited sheet. -/
theorem edited_saved (hst : env.build.release = true → StampOk env.stamp) (he : PrintsF32 env) (hz : (akeys z).Nodup)
    (h : EditedSheet env theme z ops path edits x s) (h0 : zipDoc env z path = some d0) (ht : Tidy d0) (hc : ColumnsNamed d0)
    (hs : s.x.toZip env now exts = .ok z') : ∃ sh0 d1 sh d', Sheet.load env d0 = (.ok sh0, d1) ∧ Saveable env sh d1 ∧ sh.save d1 = .ok d' ∧
      zipDoc env z' path = some (reloadDoc env.build d') ∧ (Sheet.load env (reloadDoc env.build d')).1 = .ok (reloadSheet sh) ∧
      Edits env.build sh0 s.x.strings.data edits sh ∧ PosCols sh0 ∧ ∀ op ∈ edits, op.InRange ∧ op.Fits env := by
  obtain ⟨ops0, name, ops1, i, s3, ops2, -, hed, hrun2, hn0, hn2⟩ := h
  obtain ⟨sh0, d1, sh, d', ent, dd, r1, r2, r3, r4, r5, r6, r7, r8, r9, r10, r11⟩ := run_closed hst he hz hed hn0 h0 ht hc
  refine ⟨sh0, d1, sh, d', r1, r2, r3, ?_, r7, r8.mono (run_tables hrun2).1, r9, r10⟩
  have hq3 := r4.run env ops2 hn2 hrun2
  unfold Excel.toZip at hs
  split at hs
  · cases hs
  · next q e =>
    rw [← r6]
    refine zipDoc_eq (c := ent.content) ?_ r5
    rw [toZip_aget hs r11, hq3.book.saved e]
    rfl

/-- The text of an edited sheet in the saved file. -/
theorem edited_text (hst : env.build.release = true → StampOk env.stamp) (he : PrintsF32 env) (hz : (akeys z).Nodup)
    (h : EditedSheet env theme z ops path edits x s) (h0 : zipDoc env z path = some d0) (ht : Tidy d0) (hc : ColumnsNamed d0)
    (hs : s.x.toZip env now exts = .ok z') : ∃ sh0 d1 sh d', Sheet.load env d0 = (.ok sh0, d1) ∧ Saveable env sh d1 ∧ sh.save d1 = .ok d' ∧
      aget path z' = some (renderDoc env.build env.stamp d') ∧
      Edits env.build sh0 s.x.strings.data edits sh ∧ PosCols sh0 ∧ ∀ op ∈ edits, op.InRange ∧ op.Fits env := by
  obtain ⟨ops0, name, ops1, i, s3, ops2, -, hed, hrun2, hn0, hn2⟩ := h
  obtain ⟨sh0, d1, sh, d', ent, dd, r1, r2, r3, r4, _, _, _, r8, r9, r10, r11, r12⟩ := run_closed_text hst he hz hed hn0 h0 ht hc
  refine ⟨sh0, d1, sh, d', r1, r2, r3, ?_, r8.mono (run_tables hrun2).1, r9, r10⟩
  have hq3 := r4.run env ops2 hn2 hrun2
  unfold Excel.toZip at hs
  split at hs
  · cases hs
  · next q e =>
    rw [toZip_aget hs r11, hq3.book.saved e, ← r12]
    rfl

/-- **C85 (partial).** Open a workbook file, ask for one of its sheets, edit it through the handle while doing anything else, drop the handle, go on
without asking for it again, save. The sheet in the saved file can be read again. Every cell written holds what was last written to it, every other cell
what it held in the file that was opened, up to the effect of one save and load; likewise the rows. Columns not edited and the sheet's views are those
of the file. Everything in the sheet the library does not manage is still there, tag by tag in the order of the file. -/
theorem C85_partial (hst : env.build.release = true → StampOk env.stamp) (he : PrintsF32 env) (hz : (akeys z).Nodup)
    (h : EditedSheet env theme z ops path edits x s) (h0 : zipDoc env z path = some d0) (ht : Tidy d0) (hc : ColumnsNamed d0)
    (hs : s.x.toZip env now exts = .ok z') : ∃ sh0 d sh, (Sheet.load env d0).1 = .ok sh0 ∧ zipDoc env z' path = some d ∧
      (Sheet.load env d).1 = .ok sh ∧
      (∀ r c, match lastWritten r c edits with
        | none => cellAt sh r c = (cellAt sh0 r c).map reloadCell
        | some given => ∃ stored, StoredAs s.x.strings.data given stored ∧ cellAt sh r c = some (reloadCell stored)) ∧
      (∀ r, rowPropsAt sh r = reloadRowProps ((lastProps r edits).getD (rowPropsAt sh0 r))) ∧
      ((∀ c p, SheetOp.column c p ∉ edits) → ∀ c, columnAt sh c = (columnAt sh0 c).map reloadCol) ∧
      (∀ tag, tag ∉ managedTags → d.rootChildren.filter (fun n => n.tag = tag) = (d0.rootChildren.filter (fun n => n.tag = tag)).map reload) := by
  obtain ⟨sh0, d1, sh, d', h1, h2, h3, h4, h5, h6, h7, h8⟩ := edited_saved hst he hz h h0 ht hc hs
  obtain ⟨_, f1, f2, f3, _⟩ := h6.facts (load_sorted h1) (load_fits he h1) h7 h8
  have hsl := savedLoaded_total h2 h3
  refine ⟨sh0, _, _, by rw [h1], h4, h5, ?_, ?_, ?_, ?_⟩
  · intro r c
    have e := C32_partial env _ _ _ h2 hsl r c
    have hcell := f1 r c
    cases hw : lastWritten r c edits with
    | none => simp only; rw [e, hcell.1 hw]
    | some given =>
      obtain ⟨x, x1, x2⟩ := hcell.2 given hw
      exact ⟨x, x2, by rw [e, x1]; rfl⟩
  · intro r
    rw [C33_partial env _ _ _ h2 hsl r, f2]
  · intro hno c
    rw [C35_partial env _ _ _ h2 hsl c]
    unfold columnAt
    rw [f3 hno]
  · intro tag htag
    obtain ⟨u1, u2⟩ := C37_partial_open env sh0 d0 d1 h1
    have u3 := (C37_partial sh d1 d' u2 h3).2.1 tag
    have hdrop : ∀ l : List Node, (unmanaged l).filter (fun n => n.tag = tag) = l.filter (fun n => n.tag = tag) := by
      intro l
      unfold unmanaged
      rw [List.filter_filter]
      apply List.filter_congr
      intro n _
      by_cases e : n.tag = tag
      · simp [e, htag]
      · simp [e]
    rw [u1, hdrop, hdrop] at u3
    rw [← u3]
    have hch : (reloadDoc env.build d').rootChildren = d'.rootChildren.map reload := by
      obtain ⟨t, a, cs, hw, hcs⟩ := h2.doc
      obtain ⟨cs', hw', _⟩ := wf_saved env.uni hw hcs h3
      unfold XDoc.rootChildren reloadDoc
      rw [hw'.isRoot]
      simp only [Option.map_some, reload, Node.children, reloads_eq]
    rw [hch, List.filter_map]
    congr 1
    apply List.filter_congr
    intro n _
    obtain ⟨t, a, v, cs⟩ := n
    cases v <;> rfl

/-- A sheet of `exBook` with merged cells. -/
def exSheetBook : Zip :=
  exBook.map (fun e => if e.1 = "xl/worksheets/sheet1.xml" then
    (e.1, "<worksheet><sheetData><row r=\"1\"><c r=\"A1\"><v>5</v></c></row></sheetData><mergeCells><mergeCell ref=\"A2:B2\"/></mergeCells></worksheet>".toList) else e)

/-- The calls between asking for sheet "A" and dropping it. -/
def exEdits : List WbOp := [.add (some "New"), .sheet 0 (.write 1 2 [{ value := some "hello" }]), .sheet 1 (.write 1 1 [{ value := some "other" }]), .drop 1]

/-- The file, the calls and what comes out. -/
def exEdited (chk : Session → Session → SheetHandle → Session → SheetHandle → Session → Zip → Bool) : Bool :=
  match Excel.openFile exEnv exTheme exSheetBook with
  | .error _ => false
  | .ok x =>
    match Session.step exEnv ⟨x, []⟩ (.get "A") with
    | (.ok (), s1) =>
      match s1.handles[0]?, s1.run exEnv exEdits with
      | some h, .ok s2 =>
        match s2.handles[0]? with
        | some g =>
          match (s2.step exEnv (.drop 0)).2.x.toZip exEnv "now" exExts with
          | .ok z' => chk ⟨x, []⟩ s1 h s2 g (s2.step exEnv (.drop 0)).2 z'
          | .error _ => false
        | none => false
      | _, _ => false
    | _ => false

/-- The sheet as the file has it. -/
def exSheetDoc : XDoc :=
  ⟨[], some (.mk "worksheet" (some []) none [.mk "sheetData" (some []) none [.mk "row" (some [("r", "1")]) none [.mk "c" (some [("r", "A1")]) none
    [.mk "v" (some []) (some "5") []]]], .mk "mergeCells" (some []) none [.mk "mergeCell" (some [("ref", "A2:B2")]) none []]])⟩

/-- The hypotheses of C85 hold of a sheet with a number and merged cells in which a text is written beside the number, while another sheet is added and
written to; the saved sheet shows both. -/
theorem exEdited_facts : ∃ edits x s z', EditedSheet exEnv exTheme exSheetBook (.get "A" :: (exEdits ++ [.drop 0])) "xl/worksheets/sheet1.xml" edits x s ∧
    zipDoc exEnv exSheetBook "xl/worksheets/sheet1.xml" = some exSheetDoc ∧ Tidy exSheetDoc ∧ ColumnsNamed exSheetDoc ∧
    s.x.toZip exEnv "now" exExts = .ok z' ∧ edits = [.write 1 2 [{ value := some "hello" }]] ∧ s.x.strings.data = ["hello", "other"] ∧
    (zipDoc exEnv z' "xl/worksheets/sheet1.xml").bind (fun d => ((Sheet.load exEnv d).1.toOption.map (fun sh =>
      ((cellAt sh 1 1).map (fun c => (c.type, c.value)), (cellAt sh 1 2).map (fun c => (c.type, c.value)))))) =
      some (some (.number, some "5"), some (.shareString, some "0")) := by
  have key : exEdited (fun _ s1 h s2 g s z' => decide (s1.handles.length = 1) && decide (h.path = "xl/worksheets/sheet1.xml") &&
      decide (writesTo exEnv "xl/worksheets/sheet1.xml" s1 exEdits = [.write 1 2 [{ value := some "hello" }]]) && decide (g.handle = h.handle) &&
      decide (s.x.strings.data = ["hello", "other"]) &&
      decide ((zipDoc exEnv z' "xl/worksheets/sheet1.xml").bind (fun d => ((Sheet.load exEnv d).1.toOption.map (fun sh =>
        ((cellAt sh 1 1).map (fun c => (c.type, c.value)), (cellAt sh 1 2).map (fun c => (c.type, c.value)))))) =
        some (some (.number, some "5"), some (.shareString, some "0")))) = true := by decide +kernel
  unfold exEdited at key
  split at key
  · cases key
  · next x hx =>
    split at key
    · next s1 h1 =>
      split at key
      · next h s2 hh hrun =>
        split at key
        · next g hg =>
          split at key
          · next z' hz' =>
            simp only [Bool.and_eq_true, decide_eq_true_eq] at key
            obtain ⟨⟨⟨⟨⟨k1, k2⟩, k3⟩, k4⟩, k5⟩, k6⟩ := key
            refine ⟨_, x, _, z', ⟨[], "A", exEdits, 0, _, [], rfl, ⟨⟨x, []⟩, s1, h, s2, g, ⟨hx, rfl⟩, h1, ?_, k2, hrun, ?_, k3.symm, hg, k4, rfl⟩, rfl, trivial, trivial⟩,
              ?_, ?_, ?_, hz', rfl, k5, k6⟩
            · obtain ⟨a, ha⟩ := List.length_eq_one_iff.mp k1
              rw [ha] at hh ⊢
              cases hh; rfl
            · intro i o hm
              simp only [exEdits, List.mem_cons, List.not_mem_nil, or_false, WbOp.sheet.injEq, reduceCtorEq, false_or] at hm
              rcases hm with ⟨_, rfl⟩ | ⟨_, rfl⟩
              · exact ⟨⟨by decide, by decide⟩, by decide, fun c hc => by rw [List.mem_singleton.mp hc]; exact ⟨(fun g h => by cases h), fun g h => by cases h⟩⟩
              · exact ⟨⟨by decide, by decide⟩, by decide, fun c hc => by rw [List.mem_singleton.mp hc]; exact ⟨(fun g h => by cases h), fun g h => by cases h⟩⟩
            · obtain ⟨d, e1, e2⟩ := map_some_eq (f := id) (o := zipDoc exEnv exSheetBook "xl/worksheets/sheet1.xml") (v := exSheetDoc) (by decide +kernel)
              rw [e1]; exact congrArg some e2
            · exact ⟨(fun kv hkv => by cases hkv), _, _, _, rfl⟩
            · intro n hn ht row hrow c hc ref href
              simp only [exSheetDoc, XDoc.rootChildren, Node.children, List.mem_cons, List.not_mem_nil, or_false] at hn
              rcases hn with rfl | rfl
              · simp only [Node.children, List.mem_cons, List.not_mem_nil, or_false] at hrow
                subst hrow
                simp only [Node.children, List.mem_cons, List.not_mem_nil, or_false] at hc
                subst hc
                cases href
                exact ⟨['A'], ['1'], by decide, by decide, by simp [isLetter], by simp, by decide⟩
              · exact absurd ht (by decide)
          · cases key
        · cases key
      · cases key
    · cases key

end Oxml
