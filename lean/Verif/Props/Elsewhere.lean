import Verif.Proofs.ElsewhereParts
import Verif.Props.SessionCells
/-!
# C105: other programs find in a saved file the cells that were written

The parts of the saved file are read as XML defines (`IsDocument`, one reading by C102) and the cells in them as the file format defines
(`Verif.Spec.Elsewhere`); the library's own reader plays no part.
-/
namespace Oxml
open Spec

variable {env : Env} {theme : XDoc}

theorem sheetName_not_types (k : Nat) : sheetName k ≠ contentTypesName := by
  intro h
  have := congrArg (fun s : String => s.toList.head?) h
  revert this
  unfold sheetName
  rw [String.toList_append, String.toList_append]
  rw [show "xl/worksheets/sheet".toList = 'x' :: "l/worksheets/sheet".toList from by decide +kernel, show contentTypesName.toList.head? = some '[' from by decide +kernel]
  simp

/-- A part of the file saved is the part of the package. -/
theorem zip_part {s : Session} {now : String} {p : Pkg} (hw : Written env theme now s.x p) {ct : List Char} {n : String} {text : List Char}
    {e : Entry} (he : aget n p.archive = some e) (hn : n ≠ contentTypesName)
    (hm : (n, text) ∈ p.archive.map (fun kv => (kv.1, kv.2.content)) ++ [(contentTypesName, ct)]) : text = e.content := by
  rcases List.mem_append.mp hm with hm | hm
  · obtain ⟨kv, hkv, h1⟩ := List.mem_map.mp hm
    cases h1
    rw [aget_of_mem hw.inv.archive hkv] at he
    cases he
    rfl
  · rw [List.mem_singleton] at hm
    cases hm
    exact absurd rfl hn

theorem part_zip {p : Pkg} {ct : List Char} {n : String} {e : Entry} (he : aget n p.archive = some e) :
    (n, e.content) ∈ p.archive.map (fun kv => (kv.1, kv.2.content)) ++ [(contentTypesName, ct)] :=
  List.mem_append_left _ (List.mem_map.mpr ⟨(n, e), mem_of_aget he, rfl⟩)

/-- The string table in the file saved. -/
theorem strings_found (hsx : env.build.release = true → StampXml env.stamp) {s : Session} (hI : SessInv env theme s) (hX : FileX env s) {now : String} {p : Pkg}
    (hw : Written env theme now s.x p) : ∃ e, aget "xl/sharedStrings.xml" p.archive = some e ∧ WellFormed e.content ∧
      ∀ item, IsDocument e.content item → sharedStrings item = s.x.strings.data.map (fun t => lineEnds t.toList) := by
  have hb : BookInv env theme s.x s.handles := hI
  obtain ⟨_, _, _, _, _, _, c7, _⟩ := closedParts_book theme now s.x.rels.rels s.x.strings.data s.x.styles.data s.x.sheets s.x.view
  by_cases ht : s.x.strings.data = []
  · rw [if_pos ht] at c7
    have hop : aget "xl/sharedStrings.xml" s.x.pkg.opened = some (openFrom 5 stringsTemplate stringsTemplate.doc) := hb.sheets.base _ (by decide)
    refine ⟨_, hw.opened _ _ ((aget_eq_none_iff _ _).mp c7) hop, docX_stringsTemplate.wellFormed hsx, fun item hi => ?_⟩
    rw [ht]
    exact template_strings hsx hi
  · rw [if_neg ht] at c7
    exact ⟨_, hw.parts _ _ _ c7, (docX_strings hX.strings).wellFormed hsx, fun item hi => table_strings hX.strings hsx hi⟩

/-- A sheet written, dropped and saved: the text of its part, in terms of the sheet in memory. -/
theorem dropped_part (hst : env.build.release = true → StampOk env.stamp) {ops ops' : List WbOp} {x : Excel}
    {s s' : Session} (hx : Excel.new env theme = .ok x) (hr : Session.run env ⟨x, []⟩ ops = .ok s) (hf : FittingOps env ops) {i : Nat} {h : SheetHandle}
    (hi : s.handles[i]? = some h) (hr' : (s.step env (.drop i)).2.run env ops' = .ok s') (ht : ∀ op ∈ ops ++ ops', ∀ t ∈ givenTexts op, XmlChars t) (now : String)
    (exts : List (String × String)) :
    ∃ z again xd p ct, s'.x.toZip env now exts = .ok z ∧ (NoReopen env (s.step env (.drop i)).2 ops' → again = false) ∧ h.data.save bareDoc = .ok xd ∧ DocX xd ∧
      (h.path, renderDoc env.build env.stamp (seenDoc again env.build xd)) ∈ z ∧
      (∀ text, (h.path, text) ∈ z → text = renderDoc env.build env.stamp (seenDoc again env.build xd)) ∧
      SessInv env theme s' ∧ FileX env s' ∧ Written env theme now s'.x p ∧ z = p.archive.map (fun kv => (kv.1, kv.2.content)) ++ [(contentTypesName, ct)] ∧
      (∃ more, s'.x.strings.data = s.x.strings.data ++ more) ∧ Wrote env s (fun n => writesTo env n ⟨x, []⟩ ops) := by
  rw [new_eq env theme] at hx
  cases hx
  have hI : SessInv env theme s := ran_inv hst ⟨_, new_eq env theme, hr⟩
  have hb : BookInv env theme s.x s.handles := hI
  have hX : FileX env s := FileX.run hst ops (newBook env theme) fileX_new (fun o ho => ht o (List.mem_append_left _ ho)) hr
  have hW := ran_wrote hst hf hr
  have hm := List.mem_of_getElem? hi
  obtain ⟨f1, f2, f3⟩ := hW.fit h hm
  obtain ⟨k, hk, hc⟩ := hb.sheets.dropCases hm
  obtain ⟨xd, hxd⟩ := save_total f3 (x := bareDoc) rfl
  have hdx : DocX xd := (hX.handles h hm).save hxd
  have hpk : (s.step env (.drop i)).2 = ⟨{ s.x with pkg := dropSheet env s.x.pkg h }, s.handles.eraseIdx i⟩ := by
    simp only [Session.step, hi]
  have harch : aget (sheetName k) (s.step env (.drop i)).2.x.pkg.archive = some (sheetPart env xd) := by
    rcases hc with ⟨e, h1, _, _⟩ | ⟨xd', q, h1, _, e1, _, _, _, h2⟩
    · rw [hxd] at h1; cases h1
    · rw [hxd] at h1; cases h1
      rw [hpk]
      simp only
      rw [e1, h2, if_pos hk.symm]
  have hI1 : SessInv env theme (s.step env (.drop i)).2 := hI.step hst _
  have hX1 : FileX env (s.step env (.drop i)).2 := hX.step hst hI _ (by simp [givenTexts])
  have hI2 : SessInv env theme s' := run_ind (P := SessInv env theme) (fun s op h => h.step hst op) ops' hI1 hr'
  have hb2 : BookInv env theme s'.x s'.handles := hI2
  have hX2 : FileX env s' := FileX.run hst ops' hI1 hX1 (fun o ho => ht o (List.mem_append_right _ ho)) hr'
  obtain ⟨p, ep, hw⟩ := hI2.written now
  obtain ⟨z, hz⟩ : ∃ z, s'.x.toZip env now exts = .ok z := by
    have hn : ahas contentTypesName p.archive = false := by
      cases hx : ahas contentTypesName p.archive with
      | false => rfl
      | true => exact absurd ((hw.names hI2 _).mp ((ahas_iff _ _).mp hx)) (contentTypes_not_held hI2)
    unfold Excel.toZip Pkg.toZip
    simp only [ep, hn]
    exact ⟨_, rfl⟩
  obtain ⟨p', ep', rfl⟩ := mem_zip hz
  rw [ep] at ep'
  cases ep'
  have hclosed : aget (sheetName k) s'.x.pkg.archive = some (sheetPart env xd) → aget (sheetName k) p.archive = some (sheetPart env xd) := by
    intro ha
    have hno : aget (sheetName k) s'.x.pkg.opened = none := by
      rw [aget_eq_none_iff]
      exact fun hm => hb2.sheets.inv.disjoint _ hm (mem_akeys_of_aget ha)
    rw [hw.closed _ (not_closedParts_sheet k) hno]
    exact ha
  obtain ⟨more, hmore⟩ := (kept_run hst ops' hI1 hxd (.inl harch) hr').2
  obtain ⟨again, hag, hpart⟩ : ∃ again, (NoReopen env (s.step env (.drop i)).2 ops' → again = false) ∧
      ∃ e, aget (sheetName k) p.archive = some e ∧ e.content = renderDoc env.build env.stamp (seenDoc again env.build xd) := by
    by_cases hn : NoReopen env (s.step env (.drop i)).2 ops'
    · exact ⟨false, fun _ => rfl, _, hclosed (closed_run hst ops' hI1 hn harch hr').1, rfl⟩
    · rcases (kept_run hst ops' hI1 hxd (.inl harch) hr').1 with ha | ⟨j, ho, _⟩
      · exact ⟨false, fun _ => rfl, _, hclosed ha, rfl⟩
      · exact ⟨true, fun h => absurd h hn, _, hw.opened _ _ (not_closedParts_sheet k) ho, rfl⟩
  obtain ⟨e, he, hcont⟩ := hpart
  have hstr : (s.step env (.drop i)).2.x.strings.data = s.x.strings.data := by rw [hpk]
  refine ⟨_, again, xd, p, _, hz, hag, hxd, hdx, ?_, ?_, hI2, hX2, hw, rfl, ⟨more, by rw [hmore, hstr]⟩, hW⟩
  · rw [hk, ← hcont]
    exact part_zip he
  · rw [hk, ← hcont]
    exact fun text hm => zip_part hw he (sheetName_not_types k) hm

/-- A sheet written, dropped and saved: what the file shows of it, in terms of the sheet in memory. -/
theorem dropped_found (hst : env.build.release = true → StampOk env.stamp) (hsx : env.build.release = true → StampXml env.stamp) {ops ops' : List WbOp} {x : Excel}
    {s s' : Session} (hx : Excel.new env theme = .ok x) (hr : Session.run env ⟨x, []⟩ ops = .ok s) (hf : FittingOps env ops) {i : Nat} {h : SheetHandle}
    (hi : s.handles[i]? = some h) (hr' : (s.step env (.drop i)).2.run env ops' = .ok s') (ht : ∀ op ∈ ops ++ ops', ∀ t ∈ givenTexts op, XmlChars t) (now : String)
    (exts : List (String × String)) :
    ∃ z again, s'.x.toZip env now exts = .ok z ∧ (NoReopen env (s.step env (.drop i)).2 ops' → again = false) ∧
      (∃ text, (h.path, text) ∈ z ∧ WellFormed text) ∧ (∃ text, ("xl/sharedStrings.xml", text) ∈ z ∧ WellFormed text) ∧
      ∀ sheetText stringsText sheet strings, (h.path, sheetText) ∈ z → ("xl/sharedStrings.xml", stringsText) ∈ z → IsDocument sheetText sheet →
        IsDocument stringsText strings → sharedStrings strings = s'.x.strings.data.map (fun t => lineEnds t.toList) ∧
        ∀ row col ref, RefText ref row col →
          (lastWritten row col (writesTo env h.path ⟨x, []⟩ ops) = none → (seenCells sheet).filter (fun c => decide (c.ref = some ref)) = []) ∧
          ∀ given, lastWritten row col (writesTo env h.path ⟨x, []⟩ ops) = some given →
            ∃ stored, (seenCells sheet).filter (fun c => decide (c.ref = some ref)) = [seenOf again row col stored] ∧ StoredAs s'.x.strings.data given stored := by
  obtain ⟨z, again, xd, p, ct, hz, hag, hxd, hdx, m1, m2, hI2, hX2, hw, rfl, ⟨more, hmore⟩, hW⟩ := dropped_part hst hx hr hf hi hr' ht now exts
  have hm := List.mem_of_getElem? hi
  obtain ⟨f1, f2, f3⟩ := hW.fit h hm
  obtain ⟨es, hes, hesw, hesr⟩ := strings_found hsx hI2 hX2 hw
  refine ⟨_, again, hz, hag, ⟨_, m1, (hdx.seen again _).wellFormed hsx⟩, ⟨_, part_zip hes, hesw⟩, ?_⟩
  intro sheetText stringsText sheet strings h1 h2 h3 h4
  have e2 := zip_part hw hes (by decide +kernel) h2
  subst e2
  rw [m2 _ h1] at h3
  refine ⟨hesr _ h4, fun row col ref hrt => ?_⟩
  rw [sheet_cells hxd hdx hsx h3, cells_at f1 hxd hrt]
  refine ⟨fun hnone => by rw [(hW.cells h hm row col).1 hnone]; rfl, fun given hgiven => ?_⟩
  obtain ⟨y, hy, hsa⟩ := (hW.cells h hm row col).2 given hgiven
  refine ⟨y, by rw [hy]; rfl, ?_⟩
  rw [hmore]
  exact storedAs_mono hsa

/-- **C105, partial.** A sheet is written through its handle, the handle is dropped, the session goes on in any way and the workbook is saved;
every text handed over consists of characters XML allows. The file then has the sheet's part and the part of the shared strings, both
well-formed, and whoever reads them as XML and the cells as the file format says finds: no cell where nothing was written, and exactly one
cell where something was, in its row, with its style, its formula and the value last written, line ends as XML reads them. Texts with white
space around them keep it unless a sheet is opened again in between. Missing: handles still open when saving (`C105_violated_open`), words the
library takes for numbers (`C105_violated_words`), formulas of inline strings, which are not written. -/
theorem C105_partial (hst : env.build.release = true → StampOk env.stamp) (hsx : env.build.release = true → StampXml env.stamp) {ops ops' : List WbOp} {x : Excel}
    {s s' : Session} (hx : Excel.new env theme = .ok x) (hr : Session.run env ⟨x, []⟩ ops = .ok s) (hf : FittingOps env ops) {i : Nat} {h : SheetHandle}
    (hi : s.handles[i]? = some h) (hr' : (s.step env (.drop i)).2.run env ops' = .ok s') (ht : ∀ op ∈ ops ++ ops', ∀ t ∈ givenTexts op, XmlChars t) (now : String)
    (exts : List (String × String)) :
    ∃ z, s'.x.toZip env now exts = .ok z ∧ (∃ text, (h.path, text) ∈ z ∧ WellFormed text) ∧ (∃ text, ("xl/sharedStrings.xml", text) ∈ z ∧ WellFormed text) ∧
      ∀ sheetText stringsText sheet strings, (h.path, sheetText) ∈ z → ("xl/sharedStrings.xml", stringsText) ∈ z → IsDocument sheetText sheet →
        IsDocument stringsText strings → ∀ row col ref, RefText ref row col →
          (lastWritten row col (writesTo env h.path ⟨x, []⟩ ops) = none → (seenCells sheet).filter (fun c => decide (c.ref = some ref)) = []) ∧
          ∀ given, lastWritten row col (writesTo env h.path ⟨x, []⟩ ops) = some given → NumbersAreNumbers given →
            (CleanEdges given ∨ NoReopen env (s.step env (.drop i)).2 ops') →
            ∃ c, (seenCells sheet).filter (fun c => decide (c.ref = some ref)) = [c] ∧ FoundAs (sharedStrings strings) row given c := by
  obtain ⟨z, again, hz, hag, h1, h2, h3⟩ := dropped_found hst hsx hx hr hf hi hr' ht now exts
  refine ⟨z, hz, h1, h2, fun sheetText stringsText sheet strings m1 m2 d1 d2 row col ref hrt => ?_⟩
  obtain ⟨e1, e2⟩ := h3 sheetText stringsText sheet strings m1 m2 d1 d2
  refine ⟨(e2 row col ref hrt).1, fun given hg hn hc => ?_⟩
  obtain ⟨stored, e3, e4⟩ := (e2 row col ref hrt).2 given hg
  refine ⟨_, e3, found_stored e1 e4 hn fun ha => ?_⟩
  rcases hc with hc | hc
  · exact hc
  · rw [hag hc] at ha; cases ha

/-- **C105 fails, always, for words taken for numbers.** A text such as "nan", "inf" or "Infinity" written without a type is stored as a
number; the cell other programs find is not one the file format allows, and the word is not there as a text. -/
theorem C105_violated_words (hst : env.build.release = true → StampOk env.stamp) (hsx : env.build.release = true → StampXml env.stamp) {ops ops' : List WbOp} {x : Excel}
    {s s' : Session} (hx : Excel.new env theme = .ok x) (hr : Session.run env ⟨x, []⟩ ops = .ok s) (hf : FittingOps env ops) {i : Nat} {h : SheetHandle}
    (hi : s.handles[i]? = some h) (hr' : (s.step env (.drop i)).2.run env ops' = .ok s') (ht : ∀ op ∈ ops ++ ops', ∀ t ∈ givenTexts op, XmlChars t) (now : String)
    (exts : List (String × String)) {row col : Nat} {ref : List Char} (hrt : RefText ref row col) {given : CellProps} {v : String}
    (hg : lastWritten row col (writesTo env h.path ⟨x, []⟩ ops) = some given) (hty : given.type = .auto) (hv : given.value = some v) (hfl : FloatText v.toList)
    (hno : ¬NumberText v.toList) :
    ∃ z, s'.x.toZip env now exts = .ok z ∧ (∃ text, (h.path, text) ∈ z ∧ WellFormed text) ∧ (∃ text, ("xl/sharedStrings.xml", text) ∈ z ∧ WellFormed text) ∧
      ∀ sheetText stringsText sheet strings, (h.path, sheetText) ∈ z → ("xl/sharedStrings.xml", stringsText) ∈ z → IsDocument sheetText sheet →
        IsDocument stringsText strings → ∃ c, (seenCells sheet).filter (fun c => decide (c.ref = some ref)) = [c] ∧ c.text = v.toList ∧ c.type = none ∧
          c.holds (sharedStrings strings) = .damaged := by
  obtain ⟨z, again, hz, hag, h1, h2, h3⟩ := dropped_found hst hsx hx hr hf hi hr' ht now exts
  refine ⟨z, hz, h1, h2, fun sheetText stringsText sheet strings m1 m2 d1 d2 => ?_⟩
  obtain ⟨_, e2⟩ := h3 sheetText stringsText sheet strings m1 m2 d1 d2
  obtain ⟨stored, e3, e4⟩ := (e2 row col ref hrt).2 given hg
  obtain ⟨_, _, _, _, _, _, e5⟩ := e4
  rw [hv] at e5
  simp only [hty] at e5
  have hst : stored.type = .number ∧ stored.value = some v := by
    rcases e5 with ⟨_, a, b⟩ | ⟨a, _⟩ | ⟨a, _⟩ | ⟨a, _⟩
    · exact ⟨a, b⟩
    · subst a
      exact absurd ((isFloatText_iff "true").mpr hfl) (by decide +kernel)
    · subst a
      exact absurd ((isFloatText_iff "false").mpr hfl) (by decide +kernel)
    · exact absurd hfl a
  have t1 : (seenOf again row col stored).text = v.toList := by
    simp only [seenOf, hst.2, Option.getD_some]
    exact seen_black again (float_black hfl)
  have t2 : (seenOf again row col stored).type = none := by
    simp only [seenOf, hst.1]; rfl
  refine ⟨_, e3, t1, t2, ?_⟩
  have hne : v.toList ≠ [] := by
    intro h0
    rw [h0] at hfl
    have := (isFloatText_iff "").mpr hfl
    revert this
    decide +kernel
  unfold SeenCell.holds
  rw [t1, t2]
  simp only [Option.getD_none]
  rw [if_pos trivial, if_neg hne, if_neg hno]

/-- **C105 fails, always, for open handles.** In the part of a sheet whose handle is still open when saving other programs find no cell at
all, whatever was written. -/
theorem C105_violated_open (hst : env.build.release = true → StampOk env.stamp) (hsx : env.build.release = true → StampXml env.stamp) {ops : List WbOp} {s : Session}
    (hr : Ran env theme ops s) {h : SheetHandle} (hm : h ∈ s.handles) (now : String) (exts : List (String × String)) :
    ∃ z, s.x.toZip env now exts = .ok z ∧ (∃ text, (h.path, text) ∈ z ∧ WellFormed text) ∧
      ∀ text sheet, (h.path, text) ∈ z → IsDocument text sheet → seenCells sheet = [] := by
  have hI := ran_inv hst hr
  have hb : BookInv env theme s.x s.handles := hI
  obtain ⟨z, hz⟩ := C65_saves hst hr now exts
  obtain ⟨p', ep', rfl⟩ := mem_zip hz
  obtain ⟨p, ep, hw⟩ := hI.written now
  rw [ep] at ep'
  cases ep'
  obtain ⟨k, hr, h1, _, h3, _⟩ := hb.sheets.handles h hm
  have hp := hw.opened _ _ (not_closedParts_sheet k) h3
  rw [h1]
  refine ⟨_, hz, ⟨_, part_zip hp, docX_bare.wellFormed hsx⟩, fun text sheet m1 d1 => ?_⟩
  have e1 := zip_part hw hp (sheetName_not_types k) m1
  subst e1
  have hk := showsRoot_kids "sheetData" (docX_bare.reads (wf_bareDoc asciiOnly).isRoot toc_leaf hsx d1).1
  have : sheet.kids "sheetData" = [] := by
    cases hl : sheet.kids "sheetData" with
    | nil => rfl
    | cons i l => rw [hl] at hk; simp [ShowsAll, Node.children] at hk
  unfold seenCells
  rw [this]
  rfl

/-! ## Cases -/

/-- Two cells written, one of them with the word the library takes for a number. -/
def wordOps : List WbOp := [.add (some "a"), .sheet 0 (.write 3 2 [{ value := some "5 < 6 & \r\n" }, { value := some "nan" }])]

theorem wordOps_fit : FittingOps C32_env wordOps := by
  intro i o ho
  simp only [wordOps, List.mem_cons, List.not_mem_nil, or_false, WbOp.sheet.injEq, reduceCtorEq, false_or] at ho
  obtain ⟨_, rfl⟩ := ho
  refine ⟨⟨by decide, by decide⟩, by decide, ?_⟩
  intro c hc
  simp only [List.mem_cons, List.not_mem_nil, or_false] at hc
  rcases hc with rfl | rfl <;> exact ⟨(fun g h => by cases h), (fun g h => by cases h)⟩

theorem wordOps_texts : ∀ op ∈ wordOps ++ [WbOp.rename "a" "c", .get "c"], ∀ t ∈ givenTexts op, XmlChars t := by
  intro op ho t ht
  have hm : t ∈ (wordOps ++ [WbOp.rename "a" "c", .get "c"]).flatMap givenTexts := List.mem_flatMap.mpr ⟨op, ho, ht⟩
  rw [show (wordOps ++ [WbOp.rename "a" "c", .get "c"]).flatMap givenTexts = ["a", "5 < 6 & \r\n", "nan", "a", "c", "c"] from rfl] at hm
  simp only [List.mem_cons, List.not_mem_nil, or_false] at hm
  rcases hm with rfl | rfl | rfl | rfl | rfl | rfl
  · exact xlit (by decide +kernel)
  · intro c hc
    rw [show "5 < 6 & \r\n".toList = ['5', ' ', '<', ' ', '6', ' ', '&', ' ', '\r', '\n'] from by decide +kernel] at hc
    simp only [List.mem_cons, List.not_mem_nil, or_false] at hc
    rcases hc with rfl | rfl | rfl | rfl | rfl | rfl | rfl | rfl | rfl | rfl <;> (unfold XmlChar; decide)
  all_goals exact xlit (by decide +kernel)

theorem refText_b3 : RefText "B3".toList 3 2 := ⟨['B'], by decide +kernel, by decide, (fun c hc => by rw [List.mem_singleton] at hc; subst hc; unfold isUpperLetter; decide), by decide +kernel⟩

theorem refText_c3 : RefText "C3".toList 3 3 := ⟨['C'], by decide +kernel, by decide, (fun c hc => by rw [List.mem_singleton] at hc; subst hc; unfold isUpperLetter; decide), by decide +kernel⟩

/-- Example: the sheet is renamed and opened again before saving; other programs find the text in B3, with one line end. -/
example : ∃ z, (endOf C32_env theme (wordOps ++ [.drop 0, .rename "a" "c", .get "c"])).x.toZip C32_env "" [] = .ok z ∧
    ∃ sheetText stringsText sheet strings c, ("xl/worksheets/sheet2.xml", sheetText) ∈ z ∧ ("xl/sharedStrings.xml", stringsText) ∈ z ∧ IsDocument sheetText sheet ∧
      IsDocument stringsText strings ∧ (seenCells sheet).filter (fun c => decide (c.ref = some "B3".toList)) = [c] ∧
      c.holds (sharedStrings strings) = .text "5 < 6 & \n".toList := by
  obtain ⟨h, hi, hp⟩ : ∃ h, (endOf C32_env theme wordOps).handles[0]? = some h ∧ h.path = "xl/worksheets/sheet2.xml" :=
    ⟨(endOf C32_env theme wordOps).handles[0]?.getD ⟨0, ⟨[], 0, ""⟩, emptySheet, "", ""⟩, by kernel_rfl, by kernel_rfl⟩
  obtain ⟨z, hz, ⟨t1, m1, i1, w1⟩, ⟨t2, m2, i2, w2⟩, hall⟩ := C105_partial (env := C32_env) (theme := theme) (ops := wordOps)
    (s := endOf C32_env theme wordOps) (s' := endOf C32_env theme (wordOps ++ [.drop 0, .rename "a" "c", .get "c"])) (fun h => by cases h) (fun h => by cases h)
    (new_eq C32_env theme) (by kernel_rfl) wordOps_fit hi (ops' := [.rename "a" "c", .get "c"]) (by kernel_rfl) wordOps_texts "" []
  refine ⟨z, hz, t1, t2, i1, i2, ?_⟩
  rw [hp] at m1 hall
  obtain ⟨c, hc, hf⟩ := (hall t1 t2 i1 i2 m1 m2 w1 w2 3 2 _ refText_b3).2 { value := some "5 < 6 & \r\n" } (by kernel_rfl)
    (by
      intro v hv ht
      cases hv
      rcases ht with ht | ⟨_, ht⟩
      · cases ht
      · exact absurd ((isFloatText_iff "5 < 6 & \r\n").mpr ht) (by decide +kernel))
    (.inl ⟨(fun f h => by cases h), fun v _ h => by rcases h with h | h | h <;> cases h⟩)
  refine ⟨c, m1, m2, w1, w2, hc, ?_⟩
  rw [hf.value]
  unfold wantedValue
  simp only
  rw [if_neg (fun h => by have := (isFloatText_iff "5 < 6 & \r\n").mpr h; revert this; decide +kernel), if_neg (by decide), if_neg (by decide)]
  congr 1

theorem nan_no_number : FloatText "nan".toList ∧ ¬NumberText "nan".toList := by
  refine ⟨(isFloatText_iff "nan").mp (by decide +kernel), ?_⟩
  rintro ⟨_, c, hc, h1, h2⟩
  rw [show "nan".toList = ['n', 'a', 'n'] from by decide +kernel] at hc
  simp only [List.mem_cons, List.not_mem_nil, or_false] at hc
  rcases hc with rfl | rfl | rfl <;> revert h1 h2 <;> decide

/-- Example: the word in C3 of the same file. -/
example : ∃ z, (endOf C32_env theme (wordOps ++ [.drop 0, .rename "a" "c", .get "c"])).x.toZip C32_env "" [] = .ok z ∧
    ∃ sheetText stringsText sheet strings c, ("xl/worksheets/sheet2.xml", sheetText) ∈ z ∧ ("xl/sharedStrings.xml", stringsText) ∈ z ∧ IsDocument sheetText sheet ∧
      IsDocument stringsText strings ∧ (seenCells sheet).filter (fun c => decide (c.ref = some "C3".toList)) = [c] ∧
      c.holds (sharedStrings strings) = .damaged := by
  obtain ⟨h, hi, hp⟩ : ∃ h, (endOf C32_env theme wordOps).handles[0]? = some h ∧ h.path = "xl/worksheets/sheet2.xml" :=
    ⟨(endOf C32_env theme wordOps).handles[0]?.getD ⟨0, ⟨[], 0, ""⟩, emptySheet, "", ""⟩, by kernel_rfl, by kernel_rfl⟩
  obtain ⟨z, hz, ⟨t1, m1, i1, w1⟩, ⟨t2, m2, i2, w2⟩, hall⟩ := C105_violated_words (env := C32_env) (theme := theme) (ops := wordOps)
    (s := endOf C32_env theme wordOps) (s' := endOf C32_env theme (wordOps ++ [.drop 0, .rename "a" "c", .get "c"])) (fun h => by cases h) (fun h => by cases h)
    (new_eq C32_env theme) (by kernel_rfl) wordOps_fit hi (ops' := [.rename "a" "c", .get "c"]) (by kernel_rfl) wordOps_texts "" [] refText_c3
    (given := { value := some "nan" }) (by rw [hp]; kernel_rfl) rfl rfl nan_no_number.1 nan_no_number.2
  obtain ⟨c, h1, _, _, h2⟩ := hall t1 t2 i1 i2 m1 m2 w1 w2
  rw [hp] at m1
  exact ⟨z, hz, t1, t2, i1, i2, c, m1, m2, w1, w2, h1, h2⟩

/-- Example: the same cells with the handle still open. -/
example : ∃ h, h ∈ (endOf env theme wordOps).handles ∧ Ran env theme wordOps (endOf env theme wordOps) ∧ cellAt h.data 3 2 ≠ none := by
  refine ⟨(endOf env theme wordOps).handles[0]?.getD ⟨0, ⟨[], 0, ""⟩, emptySheet, "", ""⟩,
    List.mem_of_getElem? (i := 0) (a := (endOf env theme wordOps).handles[0]?.getD ⟨0, ⟨[], 0, ""⟩, emptySheet, "", ""⟩) (by kernel_rfl),
    ⟨newExcel env theme, new_eq env theme, by kernel_rfl⟩, ?_⟩
  have : (cellAt (Option.getD (endOf env theme wordOps).handles[0]? (⟨0, ⟨[], 0, ""⟩, emptySheet, "", ""⟩ : SheetHandle)).data 3 2).isSome = true := by kernel_rfl
  intro h
  rw [h] at this
  cases this

end Oxml
