import Verif.Proofs.FileSession
import Verif.Proofs.Floats
import Verif.Proofs.ExistingTables
/-!
# C104: the files written are XML in every part

Every part of the file saved from a new workbook is well-formed XML if every text handed to the library consists of characters XML allows.
One text with another character spoils the file for good.
-/
namespace Oxml
open Spec

variable {env : Env} {theme : XDoc}

theorem mem_zip {x : Excel} {now : String} {exts : List (String × String)} {z : Zip} (hz : x.toZip env now exts = .ok z) :
    ∃ p, x.saved env now = .ok p ∧
      z = p.archive.map (fun kv => (kv.1, kv.2.content)) ++ [(contentTypesName, renderDoc env.build env.stamp (contentTypesDoc exts p.overrides))] := by
  unfold Excel.toZip Pkg.toZip at hz
  cases hs : x.saved env now with
  | error e => rw [hs] at hz; cases hz
  | ok p =>
    rw [hs] at hz
    simp only at hz
    split at hz
    · cases hz
    · exact ⟨p, rfl, (Except.ok.inj hz).symm⟩

/-- Each part of the written package is one the library wrote from a clean document, or the theme. -/
theorem FileX.part {s : Session} (hI : SessInv env theme s) (h : FileX env s) {now : String} (hnow : XmlChars now) {p : Pkg} (hw : Written env theme now s.x p)
    {n : String} {e : Entry} (he : aget n p.archive = some e) :
    (XmlChars n ∧ XmlChars e.ext ∧ XmlChars e.extType ∧ OptX e.ctype) ∧
      ((n = "xl/theme/theme1.xml" ∧ e.content = renderDoc env.build env.stamp theme) ∨ ∃ x, DocX x ∧ e.content = renderDoc env.build env.stamp x) := by
  have hb : BookInv env theme s.x s.handles := hI
  obtain ⟨c1, c2, c3, c4, c5, c6, c7, c8⟩ := closedParts_book theme now s.x.rels.rels s.x.strings.data s.x.styles.data s.x.sheets s.x.view
  have hholds := (hw.names hb n).mp (mem_akeys_of_aget he)
  have kind : ∀ (ct : String) (ex et : String), XmlChars ct → XmlChars ex → XmlChars et → XmlChars ex ∧ XmlChars et ∧ OptX (some ct) :=
    fun _ _ _ h1 h2 h3 => ⟨h2, h3, optX_some h1⟩
  have hx : XmlChars "xml" := xlit (by decide +kernel)
  have hax : XmlChars "application/xml" := xlit (by decide +kernel)
  have closedCase : ∀ t d, aget n (closedParts theme now s.x.rels.rels s.x.strings.data s.x.styles.data s.x.sheets s.x.view) = some (t, d) →
      e = closedPart env t d := fun t d hc => Option.some.inj (he.symm.trans (hw.parts n t d hc))
  rcases hb.sheets.only n hholds with hbase | ⟨k, rfl | rfl⟩
  · simp only [baseNames, List.mem_cons, List.not_mem_nil, or_false] at hbase
    rcases hbase with rfl | rfl | rfl | rfl | rfl | rfl | rfl | rfl
    · rw [closedCase _ _ c3]
      exact ⟨⟨xlit (by decide +kernel), xlit (s := relsTemplate.ext) (by decide +kernel), xlit (s := relsTemplate.extType) (by decide +kernel), optX_none⟩, .inr ⟨_, docX_rels relX_root, rfl⟩⟩
    · rw [closedCase _ _ c6]
      exact ⟨⟨xlit (by decide +kernel), kind _ _ _ (xlit (s := coreContent.ctype) (by decide +kernel)) hx hax⟩, .inr ⟨_, docX_core hnow, rfl⟩⟩
    · rw [closedCase _ _ c1]
      exact ⟨⟨xlit (by decide +kernel), kind _ _ _ (xlit (s := workbookContent.ctype) (by decide +kernel)) hx hax⟩, .inr ⟨_, docX_book h.sheets h.view, rfl⟩⟩
    · rw [closedCase _ _ c2]
      exact ⟨⟨xlit (by decide +kernel), xlit (s := relsTemplate.ext) (by decide +kernel), xlit (s := relsTemplate.extType) (by decide +kernel), optX_none⟩,
        .inr ⟨_, docX_rels fun r hr => h.rels r ((relsSaved_sub _ _).subset hr), rfl⟩⟩
    · rw [closedCase _ _ c5]
      exact ⟨⟨xlit (by decide +kernel), kind _ _ _ (xlit (s := themeContent.ctype) (by decide +kernel)) hx hax⟩, .inl ⟨rfl, rfl⟩⟩
    · cases ht : s.x.strings.data with
      | nil =>
        rw [ht, if_pos rfl] at c7
        have hop : aget "xl/sharedStrings.xml" s.x.pkg.opened = some (openFrom 5 stringsTemplate stringsTemplate.doc) := hb.sheets.base _ (by decide)
        have := hw.opened _ _ ((aget_eq_none_iff _ _).mp (ht ▸ c7)) hop
        rw [he] at this
        rw [Option.some.inj this]
        exact ⟨⟨xlit (by decide +kernel), kind _ _ _ (xlit (s := sharedStringContent.ctype) (by decide +kernel)) hx hax⟩,
          .inr ⟨_, docX_template (by decide +kernel) ⟨xlit (by decide +kernel), by decide +kernel, by decide +kernel⟩ (by decide +kernel), rfl⟩⟩
      | cons a l =>
        rw [if_neg (by rw [ht]; simp)] at c7
        rw [closedCase _ _ c7]
        exact ⟨⟨xlit (by decide +kernel), kind _ _ _ (xlit (s := sharedStringContent.ctype) (by decide +kernel)) hx hax⟩, .inr ⟨_, docX_strings h.strings, rfl⟩⟩
    · have hop : aget "xl/calcChain.xml" s.x.pkg.opened = some (openFrom 6 calcTemplate calcTemplate.doc) := hb.sheets.base _ (by decide)
      have := hw.opened _ _ c8 hop
      rw [he] at this
      rw [Option.some.inj this]
      exact ⟨⟨xlit (by decide +kernel), kind _ _ _ (xlit (s := calcChainContent.ctype) (by decide +kernel)) hx hax⟩, .inr ⟨_, docX_calc, rfl⟩⟩
    · rw [closedCase _ _ c4]
      exact ⟨⟨xlit (by decide +kernel), kind _ _ _ (xlit (s := styleContent.ctype) (by decide +kernel)) hx hax⟩, .inr ⟨_, docX_styles h.styles, rfl⟩⟩
  · cases ho : aget (sheetName k) s.x.pkg.opened with
    | some o =>
      have := hw.opened _ _ (not_closedParts_sheet k) ho
      rw [he] at this
      rw [Option.some.inj this]
      obtain ⟨ht, _⟩ := hb.sheets.opened k o ho
      refine ⟨⟨xml_sheetName k, ?_⟩, .inr ⟨_, h.opened k o ho, rfl⟩⟩
      rw [ht]
      exact kind _ _ _ (xlit (s := worksheetContent.ctype) (by decide +kernel)) hx hax
    | none =>
      have := hw.closed _ (not_closedParts_sheet k) ho
      rw [he] at this
      obtain ⟨sh, xd, _, e2, e3⟩ := h.closed k e this.symm
      subst e2
      exact ⟨⟨xml_sheetName k, kind _ _ _ (xlit (s := worksheetContent.ctype) (by decide +kernel)) hx hax⟩, .inr ⟨xd, e3, rfl⟩⟩
  · have hs : holds s.x.pkg (sheetName k) := by
      refine Classical.byContradiction fun hn => ?_
      have h1 := hb.sheets.noRels k hn
      have h2 := hb.sheets.relsClosed k
      exact not_holds.mpr ⟨h1, h2⟩ hholds
    obtain ⟨hr, ho⟩ := hb.sheets.rels k hs
    have := hw.opened _ _ (not_closedParts_sheetRels k) ho
    rw [he] at this
    rw [Option.some.inj this]
    exact ⟨⟨xml_sheetRelsName k, xlit (s := relsTemplate.ext) (by decide +kernel), xlit (s := relsTemplate.extType) (by decide +kernel), optX_none⟩,
      .inr ⟨_, docX_relsTemplate, rfl⟩⟩

/-- **C104.** After any history from a new workbook in which every text handed over consists of characters XML allows, the file can be
written and every part in it is a well-formed XML document, whatever calls failed and whichever sheets are still open. -/
theorem C104_file_wellformed (hst : env.build.release = true → StampOk env.stamp) (hsx : env.build.release = true → StampXml env.stamp)
    {root : Node} (hroot : theme.root = some root) (htheme : XmlReady (releaseNs env.build theme.ns) root) {ops : List WbOp} {s : Session}
    (h : Ran env theme ops s) (ht : ∀ op ∈ ops, ∀ t ∈ givenTexts op, XmlChars t) {now : String} (hnow : XmlChars now) {exts : List (String × String)}
    (he : ∀ p, s.x.saved env now = .ok p → HashSetOrder p.extPairs exts) :
    ∃ z, s.x.toZip env now exts = .ok z ∧ ∀ part ∈ z, WellFormed part.2 := by
  obtain ⟨z, hz⟩ := C65_saves hst h now exts
  refine ⟨z, hz, ?_⟩
  obtain ⟨p, hp, rfl⟩ := mem_zip hz
  have hI := ran_inv hst h
  have hf : FileX env s := by
    obtain ⟨x, hx, hr⟩ := h
    rw [new_eq env theme] at hx
    cases hx
    exact FileX.run hst ops (newBook env theme) fileX_new ht hr
  obtain ⟨p', hp', hw⟩ := hI.written now
  rw [hp] at hp'
  cases hp'
  have hpart : ∀ kv ∈ p.archive, _ := fun kv hkv => hf.part hI hnow hw (aget_of_mem hw.inv.archive hkv)
  intro part hm
  rcases List.mem_append.mp hm with hm | hm
  · obtain ⟨kv, hkv, rfl⟩ := List.mem_map.mp hm
    rcases (hpart kv hkv).2 with ⟨_, e⟩ | ⟨x, hx, e⟩
    · simp only
      rw [e]
      exact ⟨_, document_write env.build env.stamp theme root hroot htheme hsx⟩
    · simp only
      rw [e]
      exact hx.wellFormed hsx
  · rw [List.mem_singleton] at hm
    subst hm
    refine (docX_contentTypes ?_ ?_).wellFormed hsx
    · intro q hq
      obtain ⟨kv, hkv, rfl⟩ := List.mem_map.mp (((he p hp).mem q).mp hq)
      exact ⟨(hpart kv hkv).1.2.1, (hpart kv hkv).1.2.2.1⟩
    · intro q hq
      obtain ⟨kv, hkv, hq⟩ := List.mem_filterMap.mp hq
      obtain ⟨c, hc, rfl⟩ := Option.map_eq_some_iff.mp hq
      exact ⟨xml_append (xlit (by decide +kernel)) (hpart kv hkv).1.1, (hpart kv hkv).1.2.2.2 c hc⟩

/-! ## One bad text -/

theorem asciiLower_xml {c : Char} (h : XmlChar (asciiLower c)) : XmlChar c := by
  unfold asciiLower at h
  split at h
  · rename_i hc
    have h1 : 65 ≤ c.toNat := hc.1
    have h2 : c.toNat ≤ 90 := hc.2
    unfold XmlChar
    omega
  · exact h

theorem float_xml {s : List Char} (h : FloatText s) : ∀ c ∈ s, XmlChar c := by
  have sign : ∀ t, SignText t → ∀ c ∈ t, XmlChar c := by
    rintro t (rfl | rfl | rfl) c hc
    · cases hc
    · rw [List.mem_singleton] at hc; subst hc; unfold XmlChar; decide
    · rw [List.mem_singleton] at hc; subst hc; unfold XmlChar; decide
  have digit : ∀ t, DigitText t → ∀ c ∈ t, XmlChar c := by
    intro t ht c hc
    have h1 : 48 ≤ c.toNat := (ht c hc).1
    have h2 : c.toNat ≤ 57 := (ht c hc).2
    unfold XmlChar
    omega
  have expo : ∀ t, ExponentText t → ∀ c ∈ t, XmlChar c := by
    rintro t (rfl | ⟨e, sg, ds, rfl, he, h1, h2, _⟩) c hc
    · cases hc
    · rcases List.mem_cons.mp hc with rfl | hc
      · rcases he with rfl | rfl <;> (unfold XmlChar; decide)
      · rcases List.mem_append.mp hc with hc | hc
        · exact sign _ h1 c hc
        · exact digit _ h2 c hc
  have word : ∀ (b : List Char) (w : String), (w.toList.all (fun x => decide (0x20 ≤ x.toNat ∧ x.toNat < 128)) = true) → b.map asciiLower = w.toList → ∀ c ∈ b, XmlChar c := by
    intro b w hw hb c hc
    refine asciiLower_xml (xlit hw _ ?_)
    rw [← hb]
    exact List.mem_map_of_mem hc
  obtain ⟨sg, body, rfl, h1, h2⟩ := h
  intro c hc
  rcases List.mem_append.mp hc with hc | hc
  · exact sign _ h1 c hc
  · rcases h2 with (h2 | h2 | h2) | ⟨ip, ex, h3, h4, ⟨rfl, _⟩ | ⟨fp, h5, rfl, _⟩⟩
    · exact word body _ (by decide +kernel) h2 c hc
    · exact word body _ (by decide +kernel) h2 c hc
    · exact word body _ (by decide +kernel) h2 c hc
    · rcases List.mem_append.mp hc with hc | hc
      · exact digit _ h3 c hc
      · exact expo _ h4 c hc
    · rcases List.mem_append.mp hc with hc | hc
      · exact digit _ h3 c hc
      · rcases List.mem_cons.mp hc with rfl | hc
        · unfold XmlChar; decide
        · rcases List.mem_append.mp hc with hc | hc
          · exact digit _ h5 c hc
          · exact expo _ h4 c hc

theorem getStringId_mem (table : List String) (v : String) : v ∈ (getStringId table v).1 := by
  unfold getStringId
  split
  · next i hi =>
    obtain ⟨h1, h2, _⟩ := List.findIdx?_eq_some_iff_getElem.mp hi
    have : table[i] = v := by simpa using h2
    exact this ▸ List.getElem_mem h1
  · simp

theorem typeCell_bad {table : List String} {c : CellProps} {v : String} (hc : c.type = .auto ∨ c.type = .shareString) (hv : c.value = some v)
    (hb : ¬XmlChars v) : v ∈ (typeCell table c).2 := by
  unfold typeCell
  simp only [hv]
  rcases hc with hc | hc
  · rw [hc]
    simp only
    have h1 : isFloatText v = false := by
      cases hf : isFloatText v with
      | false => rfl
      | true => exact absurd (float_xml ((isFloatText_iff v).mp hf)) hb
    have h2 : parseBool v = none := by
      unfold parseBool
      split
      · next e => exact absurd (e ▸ xlit (by decide +kernel)) hb
      · split
        · next e => exact absurd (e ▸ xlit (by decide +kernel)) hb
        · rfl
    rw [h1, h2]
    exact getStringId_mem _ _
  · rw [hc]
    exact getStringId_mem _ _

theorem typeCells_bad {table : List String} {cells : List CellProps} {c : CellProps} {v : String} (hm : c ∈ cells) (hc : c.type = .auto ∨ c.type = .shareString)
    (hv : c.value = some v) (hb : ¬XmlChars v) : v ∈ (typeCells table cells).2 := by
  induction cells generalizing table with
  | nil => cases hm
  | cons a l ih =>
    rw [typeCells]
    rcases List.mem_cons.mp hm with rfl | hm
    · exact (typeCells_prefix _ _).subset (typeCell_bad hc hv hb)
    · exact ih hm

theorem strings_run (hst : env.build.release = true → StampOk env.stamp) (ops : List WbOp) {s s' : Session} (hI : SessInv env theme s)
    (hr : s.run env ops = .ok s') : ∃ more, s'.x.strings.data = s.x.strings.data ++ more := by
  induction ops generalizing s with
  | nil => cases hr; exact ⟨[], by simp⟩
  | cons op ops ih =>
    obtain ⟨m2, h2⟩ := ih (hI.step hst op) (run_cons hr)
    obtain ⟨m1, h1⟩ := strings_step op hI hst
    exact ⟨m1 ++ m2, by rw [h2, h1, List.append_assoc]⟩

theorem bad_strings {b : Build} {stamp : List Char} {table : List String} {v : String} (hm : v ∈ table) (hb : ¬XmlChars v) :
    ¬WellFormed (renderDoc b stamp (stringsSaved table)) := by
  intro hw
  refine hb fun c hc => Classical.byContradiction fun hn => ?_
  refine not_wellFormed b stamp (stringsSaved table)
    (.mk "sst" (some [("count", toString table.length), ("uniqueCount", toString (distinctCount table))]) none (table.map siNode)) rfl (v := v) ?_ hc hn hw
  rw [allTexts.eq_def]
  exact List.mem_append_right _ (mem_allTextss.mpr ⟨siNode v, List.mem_map_of_mem hm, by simp [siNode, allTexts, allTextss]⟩)

/-- **C104, one bad cell.** Once a cell was given a text with a character XML does not allow, no file saved later opens as XML: its shared
strings are not well-formed. Overwriting the cell, or deleting the sheet, does not help. -/
theorem C104_cell_spoils (hst : env.build.release = true → StampOk env.stamp) {ops : List WbOp} {s1 s2 s : Session} (h : Ran env theme ops s1) {i row col : Nat}
    {cells : List CellProps} (hi : i < s1.handles.length) (hw : s1.step env (.sheet i (.write row col cells)) = (.ok (), s2)) {ops' : List WbOp}
    (hr : s2.run env ops' = .ok s) {c : CellProps} {v : String} (hm : c ∈ cells) (hc : c.type = .auto ∨ c.type = .shareString) (hv : c.value = some v)
    (hb : ¬XmlChars v) (now : String) (exts : List (String × String)) :
    ∃ z text, s.x.toZip env now exts = .ok z ∧ ("xl/sharedStrings.xml", text) ∈ z ∧ ¬WellFormed text := by
  have hI := ran_inv hst h
  have hI2 : SessInv env theme s2 := by have := hI.step hst (.sheet i (.write row col cells)); rwa [hw] at this
  have hv2 : v ∈ s2.x.strings.data := by
    simp only [Session.step, List.getElem?_eq_getElem hi] at hw
    split at hw
    · cases hw
    · next d table hrun =>
      cases hw
      simp only [SheetOp.run, Sheet.setRow] at hrun
      split at hrun
      · cases hrun
      · split at hrun
        · cases hrun
        · cases hrun
          exact typeCells_bad hm hc hv hb
  obtain ⟨more, hmore⟩ := strings_run hst ops' hI2 hr
  have hvs : v ∈ s.x.strings.data := by rw [hmore]; exact List.mem_append_left _ hv2
  have hIs := SessInv.run hst ops' hI2 hr
  obtain ⟨p, hp, hwr⟩ := hIs.written now
  have hne : s.x.strings.data ≠ [] := fun e => by rw [e] at hvs; cases hvs
  have c7 := (closedParts_book theme now s.x.rels.rels s.x.strings.data s.x.styles.data s.x.sheets s.x.view).2.2.2.2.2.2.1
  rw [if_neg hne] at c7
  have ha := hwr.parts _ _ _ c7
  have hn : ahas contentTypesName p.archive = false := by
    cases hx : ahas contentTypesName p.archive with
    | false => rfl
    | true => exact absurd ((hwr.names hIs _).mp ((ahas_iff _ _).mp hx)) (contentTypes_not_held hIs)
  refine ⟨_, _, by unfold Excel.toZip Pkg.toZip; simp only [hp, hn]; rfl, List.mem_append_left _ (List.mem_map.mpr ⟨_, mem_of_aget ha, rfl⟩), ?_⟩
  exact bad_strings hvs hb

theorem sheetNode_mem (k : Nat) (es : List SheetEntry) (e : SheetEntry) (h : e ∈ es) : ∃ i, sheetNode i e ∈ sheetNodes k es := by
  induction es generalizing k with
  | nil => cases h
  | cons a es ih =>
    rw [sheetNodes]
    rcases List.mem_cons.mp h with rfl | h
    · exact ⟨k, List.mem_cons_self ..⟩
    · obtain ⟨i, hi⟩ := ih (k + 1) h
      exact ⟨i, List.mem_cons_of_mem _ hi⟩

/-- **C104, one bad name.** As long as a sheet is listed whose name has a character XML does not allow, the workbook document of the file is
not well-formed. -/
theorem C104_name_spoils (hst : env.build.release = true → StampOk env.stamp) {ops : List WbOp} {s : Session} (h : Ran env theme ops s) {e : SheetEntry}
    (he : e ∈ s.x.sheets) (hb : ¬XmlChars e.name) (now : String) (exts : List (String × String)) :
    ∃ z text, s.x.toZip env now exts = .ok z ∧ ("xl/workbook.xml", text) ∈ z ∧ ¬WellFormed text := by
  have hI := ran_inv hst h
  obtain ⟨p, hp, hwr⟩ := hI.written now
  have ha := hwr.parts _ _ _ (closedParts_book theme now s.x.rels.rels s.x.strings.data s.x.styles.data s.x.sheets s.x.view).1
  have hn : ahas contentTypesName p.archive = false := by
    cases hx : ahas contentTypesName p.archive with
    | false => rfl
    | true => exact absurd ((hwr.names hI _).mp ((ahas_iff _ _).mp hx)) (contentTypes_not_held hI)
  refine ⟨_, _, by unfold Excel.toZip Pkg.toZip; simp only [hp, hn]; rfl, List.mem_append_left _ (List.mem_map.mpr ⟨_, mem_of_aget ha, rfl⟩), ?_⟩
  intro hw
  refine hb fun c hc => Classical.byContradiction fun hnc => ?_
  have hroot := (wf_savedBook asciiOnly (sheets := s.x.sheets) (view := s.x.view) (wf_workbookDoc asciiOnly) (by decide)).1.isRoot
  refine not_wellFormed env.build env.stamp (bookSaved s.x.sheets s.x.view) _ hroot (v := e.name) ?_ hc hnc hw
  obtain ⟨i, hi⟩ := sheetNode_mem 1 s.x.sheets e he
  have hsheets : Node.mk "sheets" none none (sheetNodes 1 s.x.sheets) ∈ placeBook s.x.sheets s.x.view
      [Node.mk "fileVersion" (some [("appName", "openxml-office"), ("lastEdited", "7"), ("lowestEdited", "7")]) none []] := by
    unfold placeBook
    simp only
    rw [(orderChildren_perm _ _ _).mem_iff, (insertNodeAfter_perm _ _ _).mem_iff]
    exact List.mem_cons_self ..
  rw [allTexts.eq_def]
  refine List.mem_append_right _ (mem_allTextss.mpr ⟨_, hsheets, ?_⟩)
  rw [allTexts.eq_def]
  refine List.mem_append_right _ (mem_allTextss.mpr ⟨_, hi, ?_⟩)
  simp [sheetNode, allTexts, present]

/-! ## Concrete cases -/

/-- A theme the files can hold. -/
def plainTheme : XDoc := XDoc.template "a:theme" "http://schemas.openxmlformats.org/drawingml/2006/main"

/-- What a history with texts of all kinds hands over: markup characters, an emoji, a renamed sheet, a failed call, a style. -/
def spokenOps : List WbOp :=
  [.add (some "<Q1> & \"Q2\""), .sheet 0 (.write 1 1 [{ value := some "a < b & \n😀" }, { value := some "12" }, { formula := some "A1&\"x\"" }]), .rename "no" "where",
   .rename "sheet1" "süß", .add none, .get "<Q1> & \"Q2\"", .hide "süß", .drop 0]

theorem spokenOps_ran : ∃ s, Ran env plainTheme spokenOps s ∧ (∀ op ∈ spokenOps, ∀ t ∈ givenTexts op, XmlChars t) := by
  refine ⟨endOf env plainTheme spokenOps, ⟨newExcel env plainTheme, new_eq env plainTheme, by kernel_rfl⟩, ?_⟩
  have : (spokenOps.all fun op => (givenTexts op).all fun t => t.toList.all fun c =>
      decide (c = '\t' ∨ c = '\n' ∨ c = '\r' ∨ (0x20 ≤ c.toNat ∧ c.toNat ≤ 0xD7FF) ∨ (0xE000 ≤ c.toNat ∧ c.toNat ≤ 0xFFFD) ∨ 0x10000 ≤ c.toNat)) = true := by
    decide +kernel
  intro op ho t ht c hc
  have h1 := List.all_eq_true.mp (List.all_eq_true.mp (List.all_eq_true.mp this op ho) t ht) c hc
  have h2 := of_decide_eq_true h1
  unfold XmlChar
  exact h2

/-- Example: the theorem applies to this history in a debug build. -/
example (u : Unicode) (stamp : List Char) : ∃ s exts z, Ran ⟨⟨false⟩, u, stamp, id⟩ plainTheme spokenOps s ∧ s.x.toZip ⟨⟨false⟩, u, stamp, id⟩ "2026-01-01" exts = .ok z ∧
    ∀ part ∈ z, WellFormed part.2 := by
  obtain ⟨s, h1, h2⟩ := spokenOps_ran (env := ⟨⟨false⟩, u, stamp, id⟩)
  obtain ⟨p, hp, _⟩ := (ran_inv (fun h => by cases h) h1).written "2026-01-01"
  have hd : DocX plainTheme := docX_template (by decide +kernel) ⟨xlit (by decide +kernel), by decide +kernel, by decide +kernel⟩ (by decide +kernel)
  obtain ⟨t, a, cs, d1, d2, d3, d4⟩ := hd
  obtain ⟨z, h3, h4⟩ := C104_file_wellformed (fun h => by cases h) (fun h => by cases h) d1.isRoot (ready_wf ⟨false⟩ d1 d2 (nodeX_mk d3 d4)) h1 h2 (now := "2026-01-01") (xlit (by decide +kernel))
    (exts := @List.eraseDups _ instBEqOfDecidableEq p.extPairs) (fun q hq => by
      rw [hp] at hq
      cases hq
      exact ⟨nodup_eraseDups _, fun _ => @List.mem_eraseDups _ instBEqOfDecidableEq _ _ _⟩)
  exact ⟨s, _, z, h1, h3, h4⟩

/-- **C104 is violated** in every environment: a cell with a control character, overwritten and its sheet deleted. -/
theorem C104_violated (hst : env.build.release = true → StampOk env.stamp) (now : String) (exts : List (String × String)) :
    ∃ s z text, Ran env theme [.add (some "a"), .sheet 0 (.write 1 1 [{ value := some "\x01" }]), .sheet 0 (.write 1 1 [{ value := some "x" }]), .delete 0] s ∧
      s.x.toZip env now exts = .ok z ∧ ("xl/sharedStrings.xml", text) ∈ z ∧ ¬WellFormed text := by
  have hbad : ¬XmlChars "\x01" := fun h => by
    have := h '\x01' (by decide)
    revert this
    unfold XmlChar
    decide
  have h1 : Ran env theme [.add (some "a")] (endOf env theme [.add (some "a")]) := ⟨newExcel env theme, new_eq env theme, by kernel_rfl⟩
  have hlen : (endOf env theme [.add (some "a")]).handles.length = 1 := by kernel_rfl
  have hone : 0 < (endOf env theme [.add (some "a")]).handles.length := by omega
  obtain ⟨z, text, hz⟩ := C104_cell_spoils (env := env) (theme := theme) hst (i := 0) (row := 1) (col := 1) (cells := [{ value := some "\x01" }])
    (s2 := endOf env theme [.add (some "a"), .sheet 0 (.write 1 1 [{ value := some "\x01" }])])
    (s := endOf env theme [.add (some "a"), .sheet 0 (.write 1 1 [{ value := some "\x01" }]), .sheet 0 (.write 1 1 [{ value := some "x" }]), .delete 0])
    (ops' := [.sheet 0 (.write 1 1 [{ value := some "x" }]), .delete 0]) h1 hone (by kernel_rfl) (by kernel_rfl) (List.mem_singleton.mpr rfl)
    (.inl rfl) rfl hbad now exts
  exact ⟨_, z, text, ⟨newExcel env theme, new_eq env theme, by kernel_rfl⟩, hz⟩

end Oxml
