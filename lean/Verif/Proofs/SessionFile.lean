import Verif.Proofs.SessionSave
import Verif.Props.Workbook
import Verif.Spec.Sessions
/-!
# What a session writes
-/
namespace Oxml
open Spec

theorem ran_inv {env : Env} {theme : XDoc} (hst : env.build.release = true → StampOk env.stamp) {ops : List WbOp} {s : Session}
    (h : Ran env theme ops s) : SessInv env theme s := by
  obtain ⟨x, hx, hr⟩ := h
  rw [new_eq env theme] at hx
  cases hx
  exact SessInv.run hst ops (newBook env theme) hr

/-- An open part closed as it is. -/
def openEntry (env : Env) (o : OpenDoc) : Entry :=
  { ext := o.ext, extType := o.extType, ctype := o.ctype, content := renderDoc env.build env.stamp o.doc }

/-- The parts written: those the workbook closes, those still open, the closed ones. -/
structure Written (env : Env) (theme : XDoc) (now : String) (x : Excel) (p : Pkg) : Prop where
  inv : p.Inv
  parts : ∀ n t d, aget n (closedParts theme now x.rels.rels x.strings.data x.styles.data x.sheets x.view) = some (t, d) →
    aget n p.archive = some (closedPart env t d)
  opened : ∀ n o, n ∉ akeys (closedParts theme now x.rels.rels x.strings.data x.styles.data x.sheets x.view) → aget n x.pkg.opened = some o →
    aget n p.archive = some (openEntry env o)
  closed : ∀ n, n ∉ akeys (closedParts theme now x.rels.rels x.strings.data x.styles.data x.sheets x.view) → aget n x.pkg.opened = none →
    aget n p.archive = aget n x.pkg.archive

theorem relsSaved_ne {env : Env} {theme : XDoc} {x : Excel} {hs : List SheetHandle} (h : BookInv env theme x hs) :
    relsSaved x.rels.rels x.strings.data ≠ [] := by
  obtain ⟨ws, h1, h2⟩ := h.rels
  rw [h1, relsSaved_eq (fun r hr => by obtain ⟨k, hk, _⟩ := h2 r hr; exact ⟨k, hk⟩)]
  simp

theorem SessInv.written {env : Env} {theme : XDoc} {s : Session} (h : SessInv env theme s) (now : String) :
    ∃ p, s.x.saved env now = .ok p ∧ Written env theme now s.x p := by
  have hb : BookInv env theme s.x s.handles := h
  obtain ⟨p', e, hc⟩ := saved_eq (styles := s.x.styles.data) (sheets := s.x.sheets) (view := s.x.view) now hb.sheets (relsSaved_ne hb)
  rw [← hb.fixed] at e
  refine ⟨_, e, ?_, ?_, ?_, ?_⟩
  · exact hc.inv.closeAll env _
  · intro n t d hn
    have hm := mem_akeys_of_aget hn
    rw [Pkg.closedForSave_closed (by rw [hc.opened, if_pos hm]), hc.archive, hn]
  · intro n o hn ho
    rw [Pkg.closedForSave_open (o := o) (by rw [hc.opened, if_neg hn]; exact ho)]
    rfl
  · intro n hn ho
    rw [Pkg.closedForSave_closed (by rw [hc.opened, if_neg hn]; exact ho), hc.archive, (aget_eq_none_iff _ _).mpr hn]

theorem closedParts_keys (theme : XDoc) (now : String) (rels : List Rel) (table : List String) (styles : Styles) (sheets : List SheetEntry)
    (view : Option BookView) : ∀ n ∈ akeys (closedParts theme now rels table styles sheets view), n ∈ baseNames := by
  intro n hn
  have h : akeys (closedParts theme now rels table styles sheets view) = ["xl/theme/theme1.xml"] ++
      (if table = [] then [] else ["xl/sharedStrings.xml"]) ++
        ["xl/styles.xml", "xl/_rels/workbook.xml.rels", "xl/workbook.xml", "docProps/core.xml", "_rels/.rels"] := by
    unfold closedParts bookParts; split <;> rfl
  rw [h] at hn
  simp only [baseNames]
  split at hn <;> simp at hn <;> simp <;> grind

/-- The names in the written package are those held before. -/
theorem Written.names {env : Env} {theme : XDoc} {now : String} {x : Excel} {hs : List SheetHandle} {p : Pkg} (hb : BookInv env theme x hs)
    (h : Written env theme now x p) (n : String) : n ∈ akeys p.archive ↔ holds x.pkg n := by
  by_cases hn : n ∈ akeys (closedParts theme now x.rels.rels x.strings.data x.styles.data x.sheets x.view)
  · obtain ⟨⟨t, d⟩, htd⟩ := (aget_isSome_iff n _).mpr hn
    have hbase := closedParts_keys _ _ _ _ _ _ _ n hn
    obtain ⟨o, ho⟩ := base_opened env theme hbase
    rw [← hb.sheets.base n hbase] at ho
    exact ⟨fun _ => holds_of_opened ho, fun _ => mem_akeys_of_aget (h.parts n t d htd)⟩
  · cases ho : aget n x.pkg.opened with
    | some o => exact ⟨fun _ => holds_of_opened ho, fun _ => mem_akeys_of_aget (h.opened n o hn ho)⟩
    | none =>
      have e := h.closed n hn ho
      rw [← aget_isSome_iff, e, aget_isSome_iff]
      unfold holds
      constructor
      · exact .inr
      · rintro (h | h)
        · exact absurd h ((aget_eq_none_iff _ _).mp ho)
        · exact h

theorem not_closedParts_sheet {theme : XDoc} {now : String} {rels : List Rel} {table : List String} {styles : Styles} {sheets : List SheetEntry}
    {view : Option BookView} (k : Nat) : sheetName k ∉ akeys (closedParts theme now rels table styles sheets view) :=
  fun h => sheetName_not_base k (closedParts_keys _ _ _ _ _ _ _ _ h)

theorem not_closedParts_sheetRels {theme : XDoc} {now : String} {rels : List Rel} {table : List String} {styles : Styles} {sheets : List SheetEntry}
    {view : Option BookView} (k : Nat) : sheetRelsName k ∉ akeys (closedParts theme now rels table styles sheets view) :=
  fun h => sheetRelsName_not_base k (closedParts_keys _ _ _ _ _ _ _ _ h)

theorem closedParts_book (theme : XDoc) (now : String) (rels : List Rel) (table : List String) (styles : Styles) (sheets : List SheetEntry)
    (view : Option BookView) :
    aget "xl/workbook.xml" (closedParts theme now rels table styles sheets view) = some (workbookTemplate, bookSaved sheets view) ∧
    aget "xl/_rels/workbook.xml.rels" (closedParts theme now rels table styles sheets view) = some (relsTemplate, relsDoc (relsSaved rels table)) ∧
    aget "_rels/.rels" (closedParts theme now rels table styles sheets view) = some (relsTemplate, relsDoc rootRelsList) ∧
    aget "xl/styles.xml" (closedParts theme now rels table styles sheets view) = some (styleTemplate, stylesSaved styles) ∧
    aget "xl/theme/theme1.xml" (closedParts theme now rels table styles sheets view) = some (themeTemplate theme, theme) ∧
    aget "docProps/core.xml" (closedParts theme now rels table styles sheets view) = some (coreTemplate, coreSaved now) ∧
    aget "xl/sharedStrings.xml" (closedParts theme now rels table styles sheets view) =
      (if table = [] then none else some (stringsTemplate, stringsSaved table)) ∧
    "xl/calcChain.xml" ∉ akeys (closedParts theme now rels table styles sheets view) := by
  unfold closedParts bookParts
  split <;> (refine ⟨rfl, rfl, rfl, rfl, rfl, rfl, rfl, ?_⟩) <;> simp [akeys]

/-! ## Ids -/

theorem noSpecials_rId (m : Nat) : NoSpecials (rId m) := noSpecials_append (by unfold NoSpecials; decide) (noSpecials_nat m)

theorem noSpecials_nextRelId (rels : List Rel) : NoSpecials (nextRelId rels) := noSpecials_rId _

theorem noSpecials_sheetName (k : Nat) : NoSpecials (sheetName k) :=
  noSpecials_append (noSpecials_append (by unfold NoSpecials; decide +kernel) (noSpecials_nat k)) (by unfold NoSpecials; decide +kernel)

/-- How one call changes relationships and listed ids. -/
theorem SessInv.step_links {env : Env} {theme : XDoc} (hst : env.build.release = true → StampOk env.stamp) {s : Session} (h : SessInv env theme s)
    (op : WbOp) :
    (∀ e ∈ (s.step env op).2.x.sheets, (∃ e' ∈ s.x.sheets, e'.relId = e.relId) ∨ e.relId = nextRelId s.x.rels.rels) ∧
    (∀ r ∈ (s.step env op).2.x.rels.rels, r ∈ s.x.rels.rels ∨ r = sheetRel (nextRelId s.x.rels.rels) (nextSheet s.x)) := by
  have hopen : ∀ name : Option String,
      (∀ e ∈ (s.open env name).2.x.sheets, (∃ e' ∈ s.x.sheets, e'.relId = e.relId) ∨ e.relId = nextRelId s.x.rels.rels) ∧
      (∀ r ∈ (s.open env name).2.x.rels.rels, r ∈ s.x.rels.rels ∨ r = sheetRel (nextRelId s.x.rels.rels) (nextSheet s.x)) := by
    intro name
    have hc := BookInv.openCase hst h name
    have hl : (∀ e ∈ (listed s.x name).sheets, (∃ e' ∈ s.x.sheets, e'.relId = e.relId) ∨ e.relId = nextRelId s.x.rels.rels) ∧
      (∀ r ∈ (listed s.x name).rels.rels, r ∈ s.x.rels.rels ∨ r = sheetRel (nextRelId s.x.rels.rels) (nextSheet s.x)) := by
      constructor
      · intro e he
        rcases List.mem_append.mp he with he | he
        · exact .inl ⟨e, he, rfl⟩
        · rw [List.mem_singleton.mp he]; exact .inr rfl
      · intro r hr
        rcases List.mem_append.mp hr with hr | hr
        · exact .inl hr
        · exact .inr (List.mem_singleton.mp hr)
    have hs : (∀ e ∈ s.x.sheets, (∃ e' ∈ s.x.sheets, e'.relId = e.relId) ∨ e.relId = nextRelId s.x.rels.rels) ∧
      (∀ r ∈ s.x.rels.rels, r ∈ s.x.rels.rels ∨ r = sheetRel (nextRelId s.x.rels.rels) (nextSheet s.x)) :=
      ⟨fun e he => .inl ⟨e, he, rfl⟩, fun r hr => .inl hr⟩
    unfold Session.open
    cases hos : s.x.openSheet env name with
    | mk r x1 =>
      rw [hos] at hc
      cases hc with
      | fresh p' h1 h2 h3 ha ho => exact hl
      | busyNew o h1 h2 => exact hl
      | dangling n h1 h2 => exact hs
      | busyOld n k o h1 h2 h3 => exact hs
      | reopened n k sh xd p' h1 h2 h3 h4 hi ha ho => exact hs
  have hself : (∀ e ∈ s.x.sheets, (∃ e' ∈ s.x.sheets, e'.relId = e.relId) ∨ e.relId = nextRelId s.x.rels.rels) ∧
      (∀ r ∈ s.x.rels.rels, r ∈ s.x.rels.rels ∨ r = sheetRel (nextRelId s.x.rels.rels) (nextSheet s.x)) :=
    ⟨fun e he => .inl ⟨e, he, rfl⟩, fun r hr => .inl hr⟩
  cases op with
  | add name => exact hopen name
  | get name => exact hopen (some name)
  | sheet i op =>
    simp only [Session.step]
    split
    · exact hself
    · split <;> exact hself
  | drop i =>
    simp only [Session.step]
    split <;> exact hself
  | delete i =>
    simp only [Session.step]
    split
    · exact hself
    · next g hg =>
      obtain ⟨k, _, e⟩ := h.deleteEq (env := env) (List.mem_of_getElem? hg)
      rw [e]
      exact ⟨fun e he => .inl ⟨e, (List.mem_filter.mp he).1, rfl⟩, fun r hr => .inl (List.mem_filter.mp hr).1⟩
  | rename old new =>
    simp only [Session.step]
    rcases renameSheet_cases s.x.sheets old new with ⟨_, m, e⟩ | ⟨_, a, en, b, h1, _, _, e⟩
    · rw [e]; exact hself
    · rw [e]
      refine ⟨?_, hself.2⟩
      intro e' he'
      left
      rw [h1]
      rcases List.mem_append.mp he' with hm | hm
      · exact ⟨e', List.mem_append_left _ hm, rfl⟩
      · rcases List.mem_cons.mp hm with hm | hm
        · subst hm; exact ⟨en, List.mem_append_right _ (List.mem_cons_self ..), rfl⟩
        · exact ⟨e', List.mem_append_right _ (List.mem_cons_of_mem _ hm), rfl⟩
  | active name =>
    refine ⟨?_, hself.2⟩
    intro e' he'
    obtain ⟨e, he, rfl⟩ := List.mem_map.mp he'
    exact .inl ⟨e, he, rfl⟩
  | hide name =>
    refine ⟨?_, hself.2⟩
    intro e' he'
    obtain ⟨e, he, rfl⟩ := List.mem_map.mp he'
    exact .inl ⟨e, he, rfl⟩
  | view op => exact hself
  | style g st =>
    simp only [Session.step]
    split <;> exact hself

/-- An invariant of single steps holds after a history. -/
theorem run_ind {env : Env} {P : Session → Prop} (hstep : ∀ s op, P s → P (s.step env op).2) (ops : List WbOp) {s s' : Session} (h : P s)
    (hr : s.run env ops = .ok s') : P s' := by
  induction ops generalizing s with
  | nil => cases hr; exact h
  | cons op ops ih =>
    rw [Session.run] at hr
    have h1 := hstep s op h
    split at hr
    · cases hr
    · next e => rw [e] at h1; exact ih h1 hr

/-- All ids are free of special characters. -/
def PlainIds (s : Session) : Prop := (∀ e ∈ s.x.sheets, NoSpecials e.relId) ∧ ∀ r ∈ s.x.rels.rels, NoSpecials r.id

theorem ran_plainIds {env : Env} {theme : XDoc} (hst : env.build.release = true → StampOk env.stamp) {ops : List WbOp} {s : Session}
    (h : Ran env theme ops s) : PlainIds s := by
  obtain ⟨x, hx, hr⟩ := h
  rw [new_eq env theme] at hx
  cases hx
  refine (run_ind (env := env) (P := fun s => SessInv env theme s ∧ PlainIds s) ?_ ops ⟨newBook env theme, ?_⟩ hr).2
  · rintro s op ⟨h1, h2⟩
    refine ⟨h1.step hst op, ?_, ?_⟩
    · intro e he
      rcases (h1.step_links hst op).1 e he with ⟨e', he', hid⟩ | hid
      · rw [← hid]; exact h2.1 e' he'
      · rw [hid]; exact noSpecials_nextRelId _
    · intro r hr
      rcases (h1.step_links hst op).2 r hr with hr | rfl
      · exact h2.2 r hr
      · exact noSpecials_nextRelId _
  · constructor
    · intro e he
      have : e ∈ [({ name := "sheet1", relId := "rId5", active := false, hide := false } : SheetEntry)] := he
      rw [List.mem_singleton] at this
      subst this
      unfold NoSpecials; decide
    · have : ∀ i ∈ ["rId1", "rId2", "rId3", "rId4", "rId5"], NoSpecials i := by unfold NoSpecials; decide
      intro r hr
      exact this r.id (List.mem_map_of_mem (f := Rel.id) hr)

/-! ## Reading back -/

theorem partDoc_eq {env : Env} {p : Pkg} {n : String} {e : Entry} {d : XmlDoc} (h : aget n p.archive = some e) (hd : readXml env.uni e.content = .ok d) :
    partDoc env p n = some d.toXDoc := by
  unfold partDoc
  simp only [h, hd]

theorem sheetRows_reload (env : Env) (sheets : List SheetEntry) (view : Option BookView) (hp : ∀ e ∈ sheets, NoSpecials e.relId) :
    sheetRows (reloadDoc env.build (bookSaved sheets view)) = numbered sheets := by
  have hx := wf_workbookDoc env.uni
  have hc : ∀ n ∈ workbookDoc.rootChildren, n.tag ∉ bookTags := by decide
  obtain ⟨hw, hch, hne⟩ := wf_savedBook env.uni (sheets := sheets) (view := view) hx (by decide)
  have hroot : (reloadDoc env.build (bookSaved sheets view)).root =
      some (reload (.mk "workbook" (some []) none (placeBook sheets view workbookDoc.rootChildren))) := by
    unfold reloadDoc bookSaved; rw [hw.isRoot]; rfl
  have h1 : sheetElements (reloadDoc env.build (bookSaved sheets view)) = (sheetNodes 1 sheets).map reload := by
    unfold sheetElements XDoc.rootChildren
    rw [hroot]
    simp only
    rw [reload_children_of_none rfl]
    simp only [Node.children]
    rw [filter_reload, placeBook_filter _ _ _ hc, if_neg (by decide), if_pos rfl]
    simp only [List.map_cons, List.map_nil, List.flatMap_cons, List.flatMap_nil, List.append_nil]
    rw [reload_children_of_none rfl]
    rfl
  unfold sheetRows numbered
  rw [h1]
  clear h1 hroot hw hch hne
  generalize 1 = k
  induction sheets generalizing k with
  | nil => rfl
  | cons e es ih =>
    have hr := fun key => reload_attr (wf_sheetNode env.uni k e) key
    obtain ⟨a1, a2, a3, _⟩ := sheetNode_attrs k e
    rw [sheetNodes, List.map_cons, List.map_cons, hr, hr, hr, a1, a2, a3, List.zipIdx_cons, List.map_cons, ih (fun e he => hp e (by simp [he]))]
    congr 1
    have e2 : escStr (toString k) = toString k := escStr_eq_self (noSpecials_nat k)
    have e3 : escStr e.relId = e.relId := escStr_eq_self (hp e (by simp))
    refine Prod.ext ?_ (Prod.ext ?_ ?_)
    · exact congrArg some e2
    · rfl
    · exact congrArg some e3

/-- Relationships without special characters come back as they were. -/
theorem rels_same (env : Env) (hst : env.build.release = true → StampOk env.stamp) (rels : List Rel) (hne : rels ≠ [])
    (hp : ∀ r ∈ rels, escRel r = r) :
    ∃ d, readXml env.uni (renderDoc env.build env.stamp (relsDoc rels)) = .ok d ∧
      loadRels d.toXDoc = (.ok rels, (d.toXDoc.popTag "Relationship").2) := by
  obtain ⟨x', d, h1, h2, h3, _⟩ := rels_reload env hst (wf_relsTemplate env.uni) (by intro c hc; cases hc) rels hne
  rw [saveRels_nonempty rels hne] at h1
  cases h1
  refine ⟨d, h2, ?_⟩
  rw [h3, List.map_congr_left hp, List.map_id']

theorem escRel_sheet (id : String) (k : Nat) (h : NoSpecials id) : escRel (sheetRel id k) = sheetRel id k := by
  rw [escRel_eq_iff]
  refine ⟨h, noSpecials_slash (noSpecials_sheetName k), ?_, (fun m hm => by cases hm)⟩
  change NoSpecials worksheetContent.type
  unfold NoSpecials; decide +kernel

theorem escRel_base : ∀ r ∈ baseRels ++ rootRelsList, escRel r = r := by
  decide +kernel

/-- The workbook document and relationships of a saved session, read back. -/
theorem ran_read {env : Env} {theme : XDoc} (hst : env.build.release = true → StampOk env.stamp) {ops : List WbOp} {s : Session}
    (h : Ran env theme ops s) {now : String} {p : Pkg} (hp : Written env theme now s.x p) :
    (∃ d, partDoc env p "xl/workbook.xml" = some d ∧ d = reloadDoc env.build (bookSaved s.x.sheets s.x.view) ∧ sheetRows d = numbered s.x.sheets) ∧
    ∃ r, partDoc env p "xl/_rels/workbook.xml.rels" = some r ∧ (loadRels r).1 = .ok (relsSaved s.x.rels.rels s.x.strings.data) := by
  have hb : BookInv env theme s.x s.handles := ran_inv hst h
  have hpl := ran_plainIds hst h
  have hk := closedParts_book theme now s.x.rels.rels s.x.strings.data s.x.styles.data s.x.sheets s.x.view
  constructor
  · obtain ⟨hw, _, hne⟩ := wf_savedBook env.uni (sheets := s.x.sheets) (view := s.x.view) (wf_workbookDoc env.uni) (by decide)
    obtain ⟨d, hd1, hd2⟩ := read_doc env hst hw hne
    exact ⟨d.toXDoc, partDoc_eq (hp.parts _ _ _ hk.1) hd1, hd2, by rw [hd2]; exact sheetRows_reload env _ _ hpl.1⟩
  · have hall : ∀ r ∈ s.x.rels.rels, escRel r = r := by
      obtain ⟨ws, h1, h2⟩ := hb.rels
      intro r hr
      have hr0 := hr
      rw [h1] at hr
      rcases List.mem_append.mp hr with hr | hr
      · exact escRel_base r (List.mem_append_left _ hr)
      · obtain ⟨k, hk, _⟩ := h2 r hr
        have := hpl.2 r hr0
        rw [hk]
        exact escRel_sheet _ k this
    obtain ⟨d, hd1, hd2⟩ := rels_same env hst (relsSaved s.x.rels.rels s.x.strings.data) (relsSaved_ne hb) (by
      intro r hr
      apply hall
      unfold relsSaved at hr
      simp only [deleteRel_calc, deleteRel_strings] at hr
      split at hr
      · exact (List.mem_filter.mp (List.mem_filter.mp hr).1).1
      · exact (List.mem_filter.mp hr).1)
    exact ⟨d.toXDoc, partDoc_eq (hp.parts _ _ _ hk.2.1) hd1, by rw [hd2]⟩

end Oxml
