import Verif.Proofs.Navigate
import Verif.Proofs.SessionLinks
/-!
# Navigating a saved workbook
-/
namespace Oxml
open Spec

variable {env : Env} {theme : XDoc}

/-! ## Ids -/

/-- All ids are of the form the library gives. -/
def NumberedIds (s : Session) : Prop := (∀ e ∈ s.x.sheets, ∃ m, e.relId = rId m) ∧ ∀ r ∈ s.x.rels.rels, ∃ m, r.id = rId m

theorem nextRelId_form (rels : List Rel) : ∃ m, nextRelId rels = rId m := ⟨_, rfl⟩

theorem run_numbered (hst : env.build.release = true → StampOk env.stamp) {ops : List WbOp} {s s' : Session} (hI : SessInv env theme s) (h : NumberedIds s)
    (hr : s.run env ops = .ok s') : NumberedIds s' := by
  refine (run_ind (env := env) (P := fun s => SessInv env theme s ∧ NumberedIds s) ?_ ops ⟨hI, h⟩ hr).2
  rintro s op ⟨h1, h2⟩
  refine ⟨h1.step hst op, ?_, ?_⟩
  · intro e he
    rcases (h1.step_links hst op).1 e he with ⟨e', he', hid⟩ | hid
    · rw [← hid]; exact h2.1 e' he'
    · rw [hid]; exact nextRelId_form _
  · intro r hr
    rcases (h1.step_links hst op).2 r hr with hr | rfl
    · exact h2.2 r hr
    · exact nextRelId_form _

theorem numbered_new (env : Env) (theme : XDoc) : NumberedIds ⟨newExcel env theme, []⟩ := by
  constructor
  · intro e he
    have : e ∈ [({ name := "sheet1", relId := "rId5", active := false, hide := false } : SheetEntry)] := he
    rw [List.mem_singleton] at this
    subst this
    exact ⟨5, by decide +kernel⟩
  · intro r hr
    have : r.id ∈ [rId 1, rId 2, rId 3, rId 4, rId 5] := by
      rw [show [rId 1, rId 2, rId 3, rId 4, rId 5] = ["rId1", "rId2", "rId3", "rId4", "rId5"] from by decide +kernel]
      exact List.mem_map_of_mem (f := Rel.id) hr
    simp only [List.mem_cons, List.not_mem_nil, or_false] at this
    rcases this with h | h | h | h | h <;> exact ⟨_, h⟩

/-! ## The file -/

/-- A file saved from a session, with all the library knows about it. -/
structure FileOf (env : Env) (theme : XDoc) (s : Session) (now : String) (exts : List (String × String)) (p : Pkg) (z : Zip) : Prop where
  stamp : env.build.release = true → StampXml env.stamp
  sess : SessInv env theme s
  clean : FileX env s
  numbered : NumberedIds s
  date : XmlChars now
  written : Written env theme now s.x p
  order : HashSetOrder p.extPairs exts
  zip : z = p.archive.map (fun kv => (kv.1, kv.2.content)) ++ [(contentTypesName, renderDoc env.build env.stamp (contentTypesDoc exts p.overrides))]

variable {s : Session} {now : String} {exts : List (String × String)} {p : Pkg} {z : Zip}

theorem FileOf.notTypes (h : FileOf env theme s now exts p z) {n : String} {e : Entry} (he : aget n p.archive = some e) : n ≠ contentTypesName := by
  rintro rfl
  exact contentTypes_not_held h.sess ((h.written.names h.sess _).mp (mem_akeys_of_aget he))

theorem FileOf.part (h : FileOf env theme s now exts p z) {n : String} {e : Entry} (he : aget n p.archive = some e) {ns : List Char} {item : Item} :
    PartShows z n.toList ns item ↔ IsDocument e.content item ∧ item.attrOf "xmlns" = some ns := by
  rw [h.zip]
  constructor
  · rintro ⟨name, text, hm, hn, hi, ha⟩
    rw [String.toList_inj] at hn
    subst hn
    rw [zip_part h.written he (h.notTypes he) hm] at hi
    exact ⟨hi, ha⟩
  · rintro ⟨hi, ha⟩
    exact ⟨n, e.content, part_zip he, rfl, hi, ha⟩

theorem FileOf.types (h : FileOf env theme s now exts p z) {ns : List Char} {item : Item} :
    PartShows z "[Content_Types].xml".toList ns item ↔
      IsDocument (renderDoc env.build env.stamp (contentTypesDoc exts p.overrides)) item ∧ item.attrOf "xmlns" = some ns := by
  rw [h.zip]
  constructor
  · rintro ⟨name, text, hm, hn, hi, ha⟩
    rw [String.toList_inj] at hn
    subst hn
    rcases List.mem_append.mp hm with hm | hm
    · obtain ⟨kv, hkv, e⟩ := List.mem_map.mp hm
      exact absurd (congrArg Prod.fst e) (h.notTypes (aget_of_mem h.written.inv.archive hkv))
    · rw [List.mem_singleton] at hm
      cases hm
      exact ⟨hi, ha⟩
  · rintro ⟨hi, ha⟩
    exact ⟨_, _, List.mem_append_right _ (List.mem_singleton.mpr rfl), rfl, hi, ha⟩

/-- The part of a sheet. -/
theorem FileOf.sheet (h : FileOf env theme s now exts p z) {k : Nat} (hk : holds s.x.pkg (sheetName k)) :
    ∃ e x root, aget (sheetName k) p.archive = some e ∧ e.ctype = some worksheetContent.ctype ∧ e.content = renderDoc env.build env.stamp x ∧ DocX x ∧
      x.root = some root ∧ TextOrChildren root ∧ root.tag = "worksheet" ∧ aget defaultNsKey x.ns = some mainNs := by
  have hb : BookInv env theme s.x s.handles := h.sess
  have saved : ∀ {sh : Sheet} {xd : XDoc}, sh.save bareDoc = .ok xd → ∃ root, xd.root = some root ∧ root.tag = "worksheet" ∧ aget defaultNsKey xd.ns = some mainNs := by
    intro sh xd hs
    obtain ⟨ref, root0, rows, _, h2, h3, rfl⟩ := save_ok hs
    cases h2
    refine ⟨.mk "worksheet" (some []) none (placeSheetParts ref sh.cols sh.views rows []), ?_, rfl, ?_⟩
    · unfold XDoc.mapRootChildren
      rw [(wf_bareDoc asciiOnly).isRoot]
      rfl
    · unfold XDoc.mapRootChildren
      rw [(wf_bareDoc asciiOnly).isRoot]
      rfl
  cases ho : aget (sheetName k) s.x.pkg.opened with
  | some o =>
    obtain ⟨ht, hr⟩ := hb.sheets.opened k o ho
    refine ⟨openEntry env o, o.doc, ?_⟩
    have hx := h.clean.opened k o ho
    obtain ⟨root, h1, h2, h3, h4⟩ : ∃ root, o.doc.root = some root ∧ TextOrChildren root ∧ root.tag = "worksheet" ∧ aget defaultNsKey o.doc.ns = some mainNs := by
      rcases hr with hr | ⟨sh, xd, h1, hr⟩
      · rw [hr]
        exact ⟨_, (wf_bareDoc asciiOnly).isRoot, toc_leaf, rfl, rfl⟩
      · obtain ⟨root, e1, e2, e3⟩ := saved h1
        rw [hr]
        refine ⟨reload root, by simp [reloadDoc, e1], toc_reload root, ?_, ?_⟩
        · rw [reload_tag, e2]
        · exact (release_default _ _).trans e3
    refine ⟨root, h.written.opened _ _ (not_closedParts_sheet k) ho, ?_, rfl, hx, h1, h2, h3, h4⟩
    rw [ht]
    rfl
  | none =>
    have hcl := h.written.closed _ (not_closedParts_sheet k) ho
    obtain ⟨e, he⟩ : ∃ e, aget (sheetName k) s.x.pkg.archive = some e := by
      cases ha : aget (sheetName k) s.x.pkg.archive with
      | some e => exact ⟨e, rfl⟩
      | none => exact absurd hk (not_holds.mpr ⟨ho, ha⟩)
    obtain ⟨sh, xd, e1, e2, e3⟩ := h.clean.closed k e he
    obtain ⟨root, r1, r2, r3⟩ := saved e1
    subst e2
    exact ⟨_, xd, root, hcl.trans he, rfl, rfl, e3, r1, toc_sheet e1 r1, r2, r3⟩

/-- Names and content types read the same everywhere. -/
theorem FileOf.calm (h : FileOf env theme s now exts p z) {n : String} {e : Entry} (he : aget n p.archive = some e) : CalmName n ∧ ∀ c ∈ e.ctype, CalmName c := by
  have hb : BookInv env theme s.x s.handles := h.sess
  have hw := h.written
  obtain ⟨c1, c2, c3, c4, c5, c6, c7, c8⟩ := closedParts_book theme now s.x.rels.rels s.x.strings.data s.x.styles.data s.x.sheets s.x.view
  have one : ∀ ct : String, CalmName ct → ∀ c ∈ some ct, CalmName c := by
    intro ct hc c hm
    cases hm
    exact hc
  have closedCase : ∀ t d, aget n (closedParts theme now s.x.rels.rels s.x.strings.data s.x.styles.data s.x.sheets s.x.view) = some (t, d) →
      e = closedPart env t d := fun t d hc => Option.some.inj (he.symm.trans (hw.parts n t d hc))
  rcases hb.sheets.only n ((hw.names hb n).mp (mem_akeys_of_aget he)) with hbase | ⟨k, rfl | rfl⟩
  · simp only [baseNames, List.mem_cons, List.not_mem_nil, or_false] at hbase
    refine ⟨calm_lit (by rcases hbase with rfl | rfl | rfl | rfl | rfl | rfl | rfl | rfl <;> decide +kernel), ?_⟩
    rcases hbase with rfl | rfl | rfl | rfl | rfl | rfl | rfl | rfl
    · rw [closedCase _ _ c3]; exact nofun
    · rw [closedCase _ _ c6]; exact one _ (calm_lit (t := coreContent.ctype) (by decide +kernel))
    · rw [closedCase _ _ c1]; exact one _ (calm_lit (t := workbookContent.ctype) (by decide +kernel))
    · rw [closedCase _ _ c2]; exact nofun
    · rw [closedCase _ _ c5]; exact one _ (calm_lit (t := themeContent.ctype) (by decide +kernel))
    · by_cases ht : s.x.strings.data = []
      · rw [if_pos ht] at c7
        have hop : aget "xl/sharedStrings.xml" s.x.pkg.opened = some (openFrom 5 stringsTemplate stringsTemplate.doc) := hb.sheets.base _ (by decide)
        have := hw.opened _ _ ((aget_eq_none_iff _ _).mp c7) hop
        rw [he] at this
        rw [Option.some.inj this]
        exact one _ (calm_lit (t := sharedStringContent.ctype) (by decide +kernel))
      · rw [if_neg ht] at c7
        rw [closedCase _ _ c7]; exact one _ (calm_lit (t := sharedStringContent.ctype) (by decide +kernel))
    · have hop : aget "xl/calcChain.xml" s.x.pkg.opened = some (openFrom 6 calcTemplate calcTemplate.doc) := hb.sheets.base _ (by decide)
      have := hw.opened _ _ c8 hop
      rw [he] at this
      rw [Option.some.inj this]
      exact one _ (calm_lit (t := calcChainContent.ctype) (by decide +kernel))
    · rw [closedCase _ _ c4]; exact one _ (calm_lit (t := styleContent.ctype) (by decide +kernel))
  · refine ⟨calm_sheetName k, ?_⟩
    obtain ⟨e', x, root, he', hc, _⟩ := h.sheet ((hw.names hb _).mp (mem_akeys_of_aget he))
    rw [he] at he'
    cases he'
    rw [hc]
    exact one _ (calm_lit (t := worksheetContent.ctype) (by decide +kernel))
  · refine ⟨calm_sheetRelsName k, ?_⟩
    have hs : holds s.x.pkg (sheetName k) := by
      refine Classical.byContradiction fun hn => ?_
      have h1 := hb.sheets.noRels k hn
      have h2 := hb.sheets.relsClosed k
      exact not_holds.mpr ⟨h1, h2⟩ ((hw.names hb _).mp (mem_akeys_of_aget he))
    obtain ⟨hr, ho⟩ := hb.sheets.rels k hs
    have := hw.opened _ _ (not_closedParts_sheetRels k) ho
    rw [he] at this
    rw [Option.some.inj this]
    exact nofun

theorem overrides_at : ∀ {a : List (String × Entry)}, (akeys a).Nodup → ∀ {n : String} {e : Entry} {c : String}, aget n a = some e → e.ctype = some c →
    (a.filterMap (fun kv => kv.2.ctype.map (fun c => ("/" ++ kv.1, c)))).filter (fun o => decide (o.1 = "/" ++ n)) = [("/" ++ n, c)] := by
  have slash : ∀ {a b : String}, "/" ++ a = "/" ++ b → a = b := by
    intro a b h
    have := congrArg String.toList h
    rw [String.toList_append, String.toList_append, List.append_cancel_left_eq] at this
    exact String.toList_inj.mp this
  have none : ∀ (a : List (String × Entry)) (n : String), n ∉ akeys a →
      (a.filterMap (fun kv => kv.2.ctype.map (fun c => ("/" ++ kv.1, c)))).filter (fun o => decide (o.1 = "/" ++ n)) = [] := by
    intro a n hn
    rw [List.filter_eq_nil_iff]
    intro o ho h
    obtain ⟨kv, hkv, hq⟩ := List.mem_filterMap.mp ho
    obtain ⟨c, _, rfl⟩ := Option.map_eq_some_iff.mp hq
    exact hn (slash (of_decide_eq_true h) ▸ List.mem_map_of_mem (f := Prod.fst) hkv)
  intro a
  induction a with
  | nil => intro _ n e c h; cases h
  | cons kv a ih =>
    obtain ⟨m, em⟩ := kv
    intro hn n e c he hc
    rw [akeys, List.map_cons, List.nodup_cons] at hn
    rw [aget] at he
    split at he
    · next hm =>
      subst hm
      cases he
      rw [List.filterMap_cons, hc, Option.map_some]
      simp only
      rw [List.filter_cons_of_pos (by simp), none a m hn.1]
    · next hm =>
      have := ih hn.2 he hc
      rw [List.filterMap_cons]
      split
      · exact this
      · next o ho =>
        obtain ⟨c', _, rfl⟩ := Option.map_eq_some_iff.mp ho
        rw [List.filter_cons_of_neg]
        · exact this
        · intro h
          exact hm (slash (of_decide_eq_true h))

theorem FileOf.typesX (h : FileOf env theme s now exts p z) :
    (∀ e ∈ exts, XmlChars e.1 ∧ XmlChars e.2) ∧ (∀ e ∈ p.overrides, XmlChars e.1 ∧ XmlChars e.2) ∧ ∀ o ∈ p.overrides, CalmName o.1 ∧ CalmName o.2 := by
  have hpart : ∀ kv ∈ p.archive, _ := fun kv hkv => h.clean.part h.sess h.date h.written (aget_of_mem h.written.inv.archive hkv)
  refine ⟨?_, ?_, ?_⟩
  · intro q hq
    obtain ⟨kv, hkv, rfl⟩ := List.mem_map.mp ((h.order.mem q).mp hq)
    exact ⟨(hpart kv hkv).1.2.1, (hpart kv hkv).1.2.2.1⟩
  · intro q hq
    obtain ⟨kv, hkv, hq⟩ := List.mem_filterMap.mp hq
    obtain ⟨c, hc, rfl⟩ := Option.map_eq_some_iff.mp hq
    exact ⟨xml_append (xlit (by decide +kernel)) (hpart kv hkv).1.1, (hpart kv hkv).1.2.2.2 c hc⟩
  · intro q hq
    obtain ⟨kv, hkv, hq⟩ := List.mem_filterMap.mp hq
    obtain ⟨c, hc, rfl⟩ := Option.map_eq_some_iff.mp hq
    have := h.calm (aget_of_mem h.written.inv.archive hkv)
    exact ⟨calm_append (calm_lit (by decide +kernel)) this.1, this.2 c hc⟩

theorem FileOf.typeOf (h : FileOf env theme s now exts p z) {types : Item}
    (ht : IsDocument (renderDoc env.build env.stamp (contentTypesDoc exts p.overrides)) types) {n : String} {e : Entry} {c : String}
    (he : aget n p.archive = some e) (hc : e.ctype = some c) : Spec.typeOf types n.toList = some c.toList := by
  obtain ⟨h1, h2, h3⟩ := h.typesX
  exact typeOf_read (types_read h1 h2 h3 h.stamp ht) (overrides_at h.written.inv.archive he hc)

/-! ## Opening the file -/

theorem calm_rootRels : ∀ r ∈ rootRelsList, CalmRel r := by
  intro r hr
  simp only [rootRelsList, List.mem_cons, List.not_mem_nil, or_false] at hr
  rcases hr with rfl | rfl
  · exact ⟨calm_lit (by decide +kernel), calm_lit (by decide +kernel), calm_lit (by decide +kernel), rfl⟩
  · exact ⟨calm_lit (by decide +kernel), calm_lit (by decide +kernel), calm_lit (by decide +kernel), rfl⟩

theorem BookInv.relForm {x : Excel} {hs : List SheetHandle} (h : BookInv env theme x hs) {r : Rel} (hr : r ∈ x.rels.rels) :
    r ∈ baseRels ∨ ∃ k, r = sheetRel r.id k := by
  obtain ⟨ws, h1, h2⟩ := h.rels
  rw [h1] at hr
  rcases List.mem_append.mp hr with hr | hr
  · exact .inl hr
  · obtain ⟨k, hk, _⟩ := h2 r hr
    exact .inr ⟨k, hk⟩

theorem FileOf.calmRels (h : FileOf env theme s now exts p z) : ∀ r ∈ relsSaved s.x.rels.rels s.x.strings.data, CalmRel r := by
  intro r hr
  have hr := (relsSaved_sub _ _).subset hr
  obtain ⟨m, hm⟩ := h.numbered.2 r hr
  have hid : CalmName r.id := by rw [hm]; exact calm_rId m
  rcases BookInv.relForm h.sess hr with hb | ⟨k, hk⟩
  · have : ∀ r ∈ baseRels, r.target.toList.all (fun c => decide (c ≠ '\r' ∧ c ≠ '\n' ∧ c ≠ '\t')) = true ∧
        r.type.toList.all (fun c => decide (c ≠ '\r' ∧ c ≠ '\n' ∧ c ≠ '\t')) = true ∧ r.mode = none := by decide +kernel
    obtain ⟨b1, b2, b3⟩ := this r hb
    exact ⟨hid, calm_lit b1, calm_lit b2, b3⟩
  · rw [hk]
    exact ⟨hid, calm_append (calm_lit (by decide +kernel)) (calm_sheetName k), calm_lit (t := worksheetContent.type) (by decide +kernel), rfl⟩

theorem FileOf.relsX (h : FileOf env theme s now exts p z) : ∀ r ∈ relsSaved s.x.rels.rels s.x.strings.data, RelX r :=
  fun r hr => h.clean.rels r ((relsSaved_sub _ _).subset hr)

theorem FileOf.rootRel (root : Item) (hr : relationships root = rootRelsList.map seenRel) :
    (relationships root).filter (fun r => decide (r.type = some officeDocumentRel)) = [seenRel (relTo "rId2" "/xl/workbook.xml" workbookContent)] ∧
      (seenRel (relTo "rId2" "/xl/workbook.xml" workbookContent)).leads [] = some "xl/workbook.xml".toList := by
  rw [hr]
  decide +kernel

/-- What opening the file finds. -/
theorem FileOf.opens (h : FileOf env theme s now exts p z) {types book rels : Item} {main : List Char} :
    OpensFile z types main book rels ↔ main = "xl/workbook.xml".toList ∧ IsDocument (renderDoc env.build env.stamp (contentTypesDoc exts p.overrides)) types ∧
      IsDocument (renderDoc env.build env.stamp (bookSaved s.x.sheets s.x.view)) book ∧
      IsDocument (renderDoc env.build env.stamp (relsDoc (relsSaved s.x.rels.rels s.x.strings.data))) rels := by
  obtain ⟨c1, c2, c3, _⟩ := closedParts_book theme now s.x.rels.rels s.x.strings.data s.x.styles.data s.x.sheets s.x.view
  have p1 := h.written.parts _ _ _ c1
  have p2 := h.written.parts _ _ _ c2
  have p3 := h.written.parts _ _ _ c3
  have r1 : relsPartOf [] = "_rels/.rels".toList := by decide +kernel
  have r2 : relsPartOf "xl/workbook.xml".toList = "xl/_rels/workbook.xml.rels".toList := by decide +kernel
  obtain ⟨t1, t2, t3⟩ := h.typesX
  constructor
  · rintro ⟨o1, ⟨root, r, o2, o3, o4⟩, o5, o6, o7⟩
    rw [r1, h.part p3] at o2
    obtain ⟨f1, f2⟩ := FileOf.rootRel root (rels_read relX_root calm_rootRels h.stamp o2.1)
    rw [f1] at o3
    cases o3
    rw [f2] at o4
    cases o4
    rw [r2, h.part p2] at o7
    rw [h.part p1] at o5
    exact ⟨rfl, (h.types.mp o1).1, o5.1, o7.1⟩
  · rintro ⟨rfl, o1, o2, o3⟩
    obtain ⟨root, hroot⟩ := (docX_rels relX_root).wellFormed h.stamp
    obtain ⟨f1, f2⟩ := FileOf.rootRel root (rels_read relX_root calm_rootRels h.stamp hroot)
    refine ⟨h.types.mpr ⟨o1, types_space t1 t2 h.stamp o1⟩, ⟨root, _, ?_, f1, f2⟩, ?_, h.typeOf o1 p1 rfl, ?_⟩
    · rw [r1, h.part p3]
      exact ⟨hroot, rels_space relX_root h.stamp hroot⟩
    · rw [h.part p1]
      exact ⟨o2, book_space h.clean.sheets h.clean.view h.stamp o2⟩
    · rw [r2, h.part p2]
      exact ⟨o3, rels_space h.relsX h.stamp o3⟩

theorem FileOf.opened (h : FileOf env theme s now exts p z) : ∃ types main book rels, OpensFile z types main book rels := by
  obtain ⟨t1, t2, _⟩ := h.typesX
  obtain ⟨types, ht⟩ := (docX_contentTypes t1 t2).wellFormed h.stamp
  obtain ⟨book, hb⟩ := (docX_book h.clean.sheets h.clean.view).wellFormed h.stamp
  obtain ⟨rels, hr⟩ := (docX_rels h.relsX).wellFormed h.stamp
  exact ⟨types, _, book, rels, h.opens.mpr ⟨rfl, ht, hb, hr⟩⟩

/-! ## Finding a sheet -/

theorem filter_unique {α β : Type} [DecidableEq β] {l : List α} {f : α → β} (hn : (l.map f).Nodup) {a : α} (ha : a ∈ l) :
    l.filter (fun x => decide (f x = f a)) = [a] := by
  induction l with
  | nil => cases ha
  | cons b l ih =>
    rw [List.map_cons, List.nodup_cons] at hn
    rcases List.mem_cons.mp ha with rfl | ha
    · rw [List.filter_cons_of_pos (by simp)]
      congr 1
      rw [List.filter_eq_nil_iff]
      intro x hx e
      exact hn.1 (of_decide_eq_true e ▸ List.mem_map_of_mem hx)
    · rw [List.filter_cons_of_neg, ih hn.2 ha]
      intro e
      exact hn.1 (of_decide_eq_true e ▸ List.mem_map_of_mem ha)

theorem find_rel {rels : List Rel} (hn : (rels.map Rel.id).Nodup) {r : Rel} (hr : r ∈ rels) :
    (rels.map seenRel).filter (fun q => decide (q.id = some r.id.toList)) = [seenRel r] := by
  rw [filter_one (p := fun q => decide (q.id = r.id)) (by intro q _; simp [seenRel, String.toList_inj]), filter_unique hn hr]
  rfl

theorem find_sheet {sheets : List SheetEntry} (hn : (names sheets).Nodup) (hc : ∀ e ∈ sheets, CalmName e.name) {e : SheetEntry} (he : e ∈ sheets) :
    (sheets.map seenEntry).filter (fun q => decide (q.name = some e.name.toList)) = [seenEntry e] := by
  rw [filter_one (p := fun q => decide (q.name = e.name)), filter_unique (f := SheetEntry.name) hn he]
  · rfl
  · intro q hq
    simp [seenEntry, calm_reads (hc q hq), String.toList_inj]

/-- A listed sheet is found, and nothing else under its name. -/
theorem FileOf.finds (h : FileOf env theme s now exts p z) (hn : (names s.x.sheets).Nodup) (hc : ∀ e ∈ s.x.sheets, CalmName e.name) {e : SheetEntry} (he : e ∈ s.x.sheets)
    {k : Nat} (hk : sheetRel e.relId k ∈ s.x.rels.rels) {en : Entry} (hen : aget (sheetName k) p.archive = some en) {sheet : Item} :
    FindsSheet z e.name.toList sheet ↔ IsDocument en.content sheet := by
  have hb : BookInv env theme s.x s.handles := h.sess
  obtain ⟨en', x, root, f1, f2, f3, f4, f5, f6, f7, f8⟩ := h.sheet (BookInv.rel_holds hb hk)
  rw [hen] at f1
  cases f1
  obtain ⟨m, hm⟩ := h.numbered.1 e he
  have hid : seenEntry e = ⟨some e.name.toList, some e.relId.toList, if e.hide then some "hidden".toList else none⟩ := by
    unfold seenEntry
    rw [calm_reads (hc e he), hm, calm_reads (calm_rId m)]
  have hnd : ((relsSaved s.x.rels.rels s.x.strings.data).map Rel.id).Nodup := hb.ids.sublist ((relsSaved_sub _ _).map _)
  have hrel : ∀ {rels : Item}, IsDocument (renderDoc env.build env.stamp (relsDoc (relsSaved s.x.rels.rels s.x.strings.data))) rels →
      (relationships rels).filter (fun r => decide (r.id = some e.relId.toList)) = [seenRel (sheetRel e.relId k)] := by
    intro rels hr
    rw [rels_read h.relsX h.calmRels h.stamp hr]
    exact find_rel hnd (sheet_kept hb hk s.x.strings.data)
  have hlead : ∀ source, (seenRel (sheetRel e.relId k)).leads source = some (sheetName k).toList := by
    intro source
    unfold FoundRel.leads
    rw [if_neg (by simp [seenRel])]
    exact congrArg some (resolved_sheet source k)
  have htype : (seenRel (sheetRel e.relId k)).type = some worksheetRel := by
    change some worksheetContent.type.toList = some worksheetRel
    decide +kernel
  constructor
  · rintro ⟨types, main, book, rels, e', id, r, part, o1, o2, o3, o4, o5, o6, o7, o8, o9⟩
    obtain ⟨rfl, d1, d2, d3⟩ := h.opens.mp o1
    rw [book_read h.clean.sheets h.clean.view h.stamp d2, find_sheet hn hc he, hid] at o2
    cases o2
    cases o3
    rw [hrel d3] at o4
    cases o4
    rw [hlead] at o6
    cases o6
    exact ((h.part hen).mp o8).1
  · intro hi
    obtain ⟨types, main, book, rels, o1⟩ := h.opened
    obtain ⟨rfl, d1, d2, d3⟩ := h.opens.mp o1
    have hi' : IsDocument (renderDoc env.build env.stamp x) sheet := f3 ▸ hi
    refine ⟨types, _, book, rels, seenEntry e, _, _, _, o1, ?_, ?_, hrel d3, htype, hlead _, ?_, (h.part hen).mpr ⟨hi, ?_⟩, ?_⟩
    · rw [book_read h.clean.sheets h.clean.view h.stamp d2, find_sheet hn hc he]
    · rw [hid]
    · exact h.typeOf d1 hen f2
    · exact f4.space f5 f6 h.stamp hi' f8 (calm_lit (by decide +kernel))
    · rw [← f7]
      exact showsRoot_named (f4.reads f5 f6 h.stamp hi').1

/-- The strings found. -/
theorem FileOf.strings (h : FileOf env theme s now exts p z) {strings : List (List Char)} :
    FindsStrings z strings ↔ strings = s.x.strings.data.map (fun t => lineEnds t.toList) := by
  have hb : BookInv env theme s.x s.handles := h.sess
  obtain ⟨_, _, _, _, _, _, c7, _⟩ := closedParts_book theme now s.x.rels.rels s.x.strings.data s.x.styles.data s.x.sheets s.x.view
  obtain ⟨ws, w1, w2⟩ := hb.rels
  have hno : ∀ l : List Rel, (∀ r ∈ l, r.type ≠ sharedStringContent.type) → (l.map seenRel).filter (fun r => decide (r.type = some stringsRel)) = [] := by
    intro l hl
    rw [List.filter_eq_nil_iff]
    intro q hq e
    obtain ⟨r, hr, rfl⟩ := List.mem_map.mp hq
    have e := Option.some.inj (of_decide_eq_true e)
    exact hl r hr (String.toList_inj.mp (e.trans (by decide +kernel)))
  have hws : ∀ r ∈ ws, r.type ≠ sharedStringContent.type := by
    intro r hr e
    obtain ⟨k, hk, _⟩ := w2 r hr
    rw [hk] at e
    revert e
    change worksheetContent.type ≠ sharedStringContent.type
    decide +kernel
  have hrel : ∀ {rels : Item}, IsDocument (renderDoc env.build env.stamp (relsDoc (relsSaved s.x.rels.rels s.x.strings.data))) rels →
      (relationships rels).filter (fun r => decide (r.type = some stringsRel)) =
        if s.x.strings.data = [] then [] else [seenRel (relTo "rId2" "/xl/sharedStrings.xml" sharedStringContent)] := by
    intro rels hr
    rw [rels_read h.relsX h.calmRels h.stamp hr, w1, relsSaved_eq (fun r hr => by obtain ⟨k, hk, _⟩ := w2 r hr; exact ⟨k, hk⟩)]
    rw [List.map_append, List.filter_append, hno ws hws, List.append_nil]
    split <;> decide +kernel
  have hlead : (seenRel (relTo "rId2" "/xl/sharedStrings.xml" sharedStringContent)).leads "xl/workbook.xml".toList = some "xl/sharedStrings.xml".toList := by
    decide +kernel
  constructor
  · rintro ⟨types, main, book, rels, o1, o2⟩
    obtain ⟨rfl, d1, d2, d3⟩ := h.opens.mp o1
    rw [hrel d3] at o2
    by_cases ht : s.x.strings.data = []
    · rw [if_pos ht] at o2
      rcases o2 with ⟨_, rfl⟩ | ⟨r, part, sst, q, _⟩
      · rw [ht]; rfl
      · cases q
    · rw [if_neg ht] at o2 c7
      rcases o2 with ⟨q, _⟩ | ⟨r, part, sst, q1, q2, q3, q4, q5, q6⟩
      · cases q
      · cases q1
        rw [hlead] at q2
        cases q2
        rw [h.part (h.written.parts _ _ _ c7)] at q4
        rw [q6]
        exact table_strings h.clean.strings h.stamp q4.1
  · rintro rfl
    obtain ⟨types, main, book, rels, o1⟩ := h.opened
    obtain ⟨rfl, d1, d2, d3⟩ := h.opens.mp o1
    refine ⟨types, _, book, rels, o1, ?_⟩
    rw [hrel d3]
    by_cases ht : s.x.strings.data = []
    · rw [if_pos ht, ht]
      exact .inl ⟨rfl, rfl⟩
    · rw [if_neg ht] at c7 ⊢
      have hx := docX_strings h.clean.strings
      have hr : (stringsSaved s.x.strings.data).root = some (.mk "sst" (some [("count", toString s.x.strings.data.length), ("uniqueCount", toString (distinctCount s.x.strings.data))]) none (s.x.strings.data.map siNode)) := rfl
      have ht : TextOrChildren (.mk "sst" (some [("count", toString s.x.strings.data.length), ("uniqueCount", toString (distinctCount s.x.strings.data))]) none (s.x.strings.data.map siNode)) := by
        refine toc_mk fun c hc => ?_
        obtain ⟨t, _, rfl⟩ := List.mem_map.mp hc
        exact toc_si t
      obtain ⟨sst, hs⟩ := hx.wellFormed (b := env.build) h.stamp
      have hp := h.written.parts _ _ _ c7
      refine .inr ⟨_, _, sst, rfl, hlead, h.typeOf d1 hp rfl, (h.part hp).mpr ⟨hs, ?_⟩, ?_, ?_⟩
      · exact hx.space hr ht h.stamp hs (uri := sharedStringContent.ns) rfl (calm_lit (by decide +kernel))
      · exact showsRoot_named (hx.reads hr ht h.stamp hs).1
      · exact (table_strings h.clean.strings h.stamp hs).symm

end Oxml
