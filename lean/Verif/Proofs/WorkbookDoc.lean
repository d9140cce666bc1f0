import Verif.Spec.Workbook
import Verif.Proofs.WorksheetLoad
import Verif.Proofs.StyleLoad
/-!
# The workbook document: saving and loading
-/
namespace Oxml
open Spec

theorem order_book_filter (cs : List Node) (tag : String) :
    (orderChildren Node.tag workbookOrder cs).filter (fun n => n.tag = tag) = cs.filter (fun n => n.tag = tag) :=
  (C12_order_children Node.tag workbookOrder cs (by decide +kernel) (by decide +kernel)).2.2 tag

/-- The `bookViews` element written. -/
def bookViewsNodes (view : Option BookView) : List Node :=
  match view with
  | some v => [.mk "bookViews" none none [bookViewNode v]]
  | none => []

/-- The children of the saved root, by name. -/
theorem placeBook_filter (sheets : List SheetEntry) (view : Option BookView) (cs : List Node) (hc : ∀ n ∈ cs, n.tag ∉ bookTags) (tag : String) :
    (placeBook sheets view cs).filter (fun n => n.tag = tag) =
      if tag = "bookViews" then bookViewsNodes view
      else if tag = "sheets" then [.mk "sheets" none none (sheetNodes 1 sheets)]
      else cs.filter (fun n => n.tag = tag) := by
  have hb : cs.filter (fun n => n.tag = "bookViews") = [] := by
    rw [List.filter_eq_nil_iff]; intro n hn h
    exact hc n hn (by simp only [decide_eq_true_eq] at h; simp [bookTags, h])
  have hs : cs.filter (fun n => n.tag = "sheets") = [] := by
    rw [List.filter_eq_nil_iff]; intro n hn h
    exact hc n hn (by simp only [decide_eq_true_eq] at h; simp [bookTags, h])
  unfold placeBook
  rw [order_book_filter]
  by_cases h1 : tag = "bookViews"
  · subst h1
    rw [if_pos rfl, insertNodeAfter_filter _ _ _ _ (by simp [Node.tag])]
    cases view with
    | none => exact hb
    | some v => exact insertNodeAfter_filter_new _ _ _ _ (by simp [Node.tag]) hb
  · rw [if_neg h1]
    by_cases h2 : tag = "sheets"
    · subst h2
      rw [if_pos rfl, insertNodeAfter_filter_new _ _ _ _ (by simp [Node.tag])]
      cases view with
      | none => exact hs
      | some v => rw [insertNodeAfter_filter _ _ _ _ (by simp [Node.tag])]; exact hs
    · rw [if_neg h2, insertNodeAfter_filter _ _ _ _ (by simp [Node.tag, Ne.symm h2])]
      cases view with
      | none => rfl
      | some v => rw [insertNodeAfter_filter _ _ _ _ (by simp [Node.tag, Ne.symm h1])]

theorem saveBook_ok {sheets : List SheetEntry} {view : Option BookView} {x : XDoc} {root : Node} (hr : x.root = some root) :
    saveBook sheets view x = .ok (x.mapRootChildren (placeBook sheets view)) := by
  unfold saveBook; rw [hr]

theorem sheetNode_keys (i : Nat) (e : SheetEntry) :
    (akeys [("name", some e.name), ("sheetId", some (toString i)), ("r:id", some e.relId),
      ("state", if e.hide then some "hidden" else none)]).Nodup := by
  simp only [akeys, List.map_cons, List.map_nil]; decide +kernel

theorem sheetNode_plain (i : Nat) (e : SheetEntry) :
    plainKeys (akeys [("name", some e.name), ("sheetId", some (toString i)), ("r:id", some e.relId),
      ("state", if e.hide then some "hidden" else none)]) = true := by
  simp only [akeys, List.map_cons, List.map_nil]; decide +kernel

theorem wf_sheetNode (u : Unicode) (i : Nat) (e : SheetEntry) : WfNode u (sheetNode i e) :=
  wfNode_present (by decide +kernel) (sheetNode_plain i e) (sheetNode_keys i e) trivial

theorem sheetNode_attrs (i : Nat) (e : SheetEntry) :
    (sheetNode i e).attr? "name" = some e.name ∧ (sheetNode i e).attr? "sheetId" = some (toString i) ∧
    (sheetNode i e).attr? "r:id" = some e.relId ∧ (sheetNode i e).attr? "state" = (if e.hide then some "hidden" else none) := by
  unfold sheetNode Node.attr? Node.attrs
  cases e.hide <;> refine ⟨?_, ?_, ?_, ?_⟩ <;> simp [present, aget]

theorem mem_sheetNodes (k : Nat) (es : List SheetEntry) (n : Node) (h : n ∈ sheetNodes k es) : ∃ i e, e ∈ es ∧ n = sheetNode i e := by
  induction es generalizing k with
  | nil => cases h
  | cons e es ih =>
    rw [sheetNodes, List.mem_cons] at h
    cases h with
    | inl h => exact ⟨k, e, by simp, h⟩
    | inr h =>
      obtain ⟨i, e', h1, h2⟩ := ih _ h
      exact ⟨i, e', by simp [h1], h2⟩

theorem sheetNodes_get (k : Nat) (es : List SheetEntry) (i : Nat) : (sheetNodes k es)[i]? = (es[i]?).map (sheetNode (k + i)) := by
  induction es generalizing k i with
  | nil => rfl
  | cons e es ih =>
    rw [sheetNodes]
    cases i with
    | zero => rfl
    | succ i =>
      simp only [List.getElem?_cons_succ]
      rw [ih, show k + 1 + i = k + (i + 1) from by omega]

theorem bookViewTable_keys (v : BookView) : (akeys (bookViewTable v)).Nodup ∧ plainKeys (akeys (bookViewTable v)) = true := by
  simp only [bookViewTable, akeys, List.map_cons, List.map_nil]; decide +kernel

theorem wf_bookViewNode (u : Unicode) (v : BookView) : WfNode u (bookViewNode v) :=
  wfNode_present (by decide +kernel) (bookViewTable_keys v).2 (bookViewTable_keys v).1 trivial

/-- The saved document is well-formed. -/
theorem wf_savedBook (u : Unicode) {sheets : List SheetEntry} {view : Option BookView} {x : XDoc} {t : String} {a : Option Attrs} {cs : List Node}
    (hx : WfDoc u x (.mk t a none cs)) (hc : ∀ n ∈ cs, n.tag ∉ bookTags) :
    WfDoc u (x.mapRootChildren (placeBook sheets view)) (.mk t a none (placeBook sheets view cs)) ∧
      (x.mapRootChildren (placeBook sheets view)).rootChildren = placeBook sheets view cs ∧ placeBook sheets view cs ≠ [] := by
  refine ⟨⟨?_, ⟨hx.names.1, hx.names.2.1, ?_⟩, hx.ns, hx.uris⟩, ?_, ?_⟩
  · unfold XDoc.mapRootChildren; rw [hx.isRoot]; rfl
  · rw [wfNodes_iff]
    apply mem_mem_of_filters
    intro tag n hn
    rw [placeBook_filter _ _ _ hc] at hn
    split at hn
    · unfold bookViewsNodes at hn
      split at hn
      · rw [List.mem_singleton] at hn; subst hn
        exact wfNode_bare (by decide +kernel) ⟨wf_bookViewNode u _, trivial⟩
      · cases hn
    · split at hn
      · rw [List.mem_singleton] at hn; subst hn
        refine wfNode_bare (by decide +kernel) (wfNodes_iff.mpr ?_)
        intro n hn
        obtain ⟨i, e, _, rfl⟩ := mem_sheetNodes _ _ _ hn
        exact wf_sheetNode u i e
      · exact wfNodes_iff.mp hx.names.2.2 n (List.mem_filter.mp hn).1
  · rw [rootChildren_mapRoot hx.isRoot, (DocWith.mk hx.isRoot).children]
  · intro he
    have := placeBook_filter sheets view cs hc "sheets"
    rw [he] at this
    cases this

/-! ### Loading back -/

theorem u8flag (b : Bool) (x y : String) (hx : normalizeBoolU8 (attrReload x) = 1) (hy : normalizeBoolU8 (attrReload y) = 0) :
    normalizeBoolU8 (attrReload (if b then x else y)) = if b then 1 else 0 := by
  cases b
  · exact hy
  · exact hx

theorem loadBookView_reload (u : Unicode) (v : BookView) (hf : FitsBook (some v)) :
    ∃ a, (reload (bookViewNode v)).attrs = some a ∧ loadBookView a = .ok (reloadBookView v) := by
  obtain ⟨a, ha, hk⟩ := reload_present (wf_bookViewNode u v) (bookViewTable_keys v).1
  refine ⟨a, ha, ?_⟩
  have n1 : normalizeBoolU8 (attrReload "1") = 1 := by decide +kernel
  have n0 : normalizeBoolU8 (attrReload "0") = 0 := by decide +kernel
  have r0 : parseI16 (attrReload "0") = some 0 := by decide +kernel
  have r1 : parseI16 (attrReload "1") = some 1 := by decide +kernel
  unfold loadBookView
  simp only [hk]
  have e1 : (aget "tabRatio" (bookViewTable v)).join =
    (match v.dateGrouping with | some b => some (boolXmlFlag b) | none => v.tabRatio.map toString) := rfl
  have e2 : (aget "autoFilterDateGrouping" (bookViewTable v)).join = none := rfl
  have e3 : (aget "activeTab" (bookViewTable v)).join = v.activeTab := rfl
  have e4 : (aget "firstSheet" (bookViewTable v)).join = v.firstSheet := rfl
  have e5 : (aget "showSheetTabs" (bookViewTable v)).join = some (if v.hideTabs then "0" else "1") := rfl
  have e6 : (aget "visibility" (bookViewTable v)).join = v.visibility := rfl
  have e7 : (aget "minimized" (bookViewTable v)).join = some (boolXmlFlag v.minimize) := rfl
  have e8 : (aget "showHorizontalScroll" (bookViewTable v)).join = some (if v.hideHorizontal then "0" else "1") := rfl
  have e9 : (aget "showVerticalScroll" (bookViewTable v)).join = some (if v.hideVertical then "0" else "1") := rfl
  rw [e1, e2, e3, e4, e5, e6, e7, e8, e9]
  have hr : parseOpt parseI16 ((match v.dateGrouping with | some b => some (boolXmlFlag b) | none => v.tabRatio.map toString : Option String).map attrReload) =
      .ok (match v.dateGrouping with | some b => some (if b then 1 else 0) | none => v.tabRatio) := by
    cases hd : v.dateGrouping with
    | some b => cases b <;> simp [boolXmlFlag, parseOpt, r0, r1]
    | none => exact parseOpt_map (fun x hx => by rw [attrReload_int]; exact parseI16_toString (hf v x rfl hx).1 (hf v x rfl hx).2)
  rw [hr]
  unfold reloadBookView boolXmlFlag
  cases v.hideTabs <;> cases v.minimize <;> cases v.hideHorizontal <;> cases v.hideVertical <;> simp [n0, n1] <;> (cases v.dateGrouping <;> rfl)

theorem loadSheetEntry_reload (u : Unicode) (i : Nat) (e : SheetEntry) :
    ∃ a, (reload (sheetNode i e)).attrs = some a ∧ loadSheetEntry a = .ok (reloadSheetEntry e) := by
  obtain ⟨a, ha, hk⟩ := reload_present (wf_sheetNode u i e) (sheetNode_keys i e)
  refine ⟨a, ha, ?_⟩
  have h1 : attrReload "hidden" = "hidden" := by decide +kernel
  unfold loadSheetEntry
  simp only [hk]
  cases hh : e.hide <;> simp [aget, reloadSheetEntry, hh, h1]

theorem loadSheetEntries_reload (u : Unicode) (k : Nat) (es : List SheetEntry) :
    mapRes loadSheetEntry (((sheetNodes k es).map reload).filterMap Node.attrs) = .ok (es.map reloadSheetEntry) := by
  induction es generalizing k with
  | nil => rfl
  | cons e es ih =>
    obtain ⟨a, ha, hl⟩ := loadSheetEntry_reload u k e
    rw [sheetNodes, List.map_cons, List.filterMap_cons_some ha, mapRes, hl, ih]
    rfl

/-- **Reload.** What a saved workbook document gives when it is read and loaded. -/
theorem reload_book (env : Env) (hst : env.build.release = true → StampOk env.stamp) {sheets : List SheetEntry} {view : Option BookView}
    {x : XDoc} {t : String} {a : Option Attrs} {cs : List Node} (hf : FitsBook view) (hx : WfDoc env.uni x (.mk t a none cs))
    (hc : ∀ n ∈ cs, n.tag ∉ bookTags) :
    ∃ x' d, saveBook sheets view x = .ok x' ∧ readXml env.uni (renderDoc env.build env.stamp x') = .ok d ∧
      d.toXDoc = reloadDoc env.build x' ∧ (loadBook d.toXDoc).1 = .ok (sheets.map reloadSheetEntry, view.map reloadBookView) := by
  obtain ⟨hw, hch, hne⟩ := wf_savedBook env.uni (sheets := sheets) (view := view) hx hc
  obtain ⟨d, hd1, hd2⟩ := read_doc env hst hw hne
  refine ⟨_, d, saveBook_ok hx.isRoot, hd1, hd2, ?_⟩
  rw [hd2]
  have hroot : (reloadDoc env.build (x.mapRootChildren (placeBook sheets view))).root =
      some (reload (.mk t a none (placeBook sheets view cs))) := by
    unfold reloadDoc; rw [hw.isRoot]; rfl
  have hp : ∀ tag, ((reloadDoc env.build (x.mapRootChildren (placeBook sheets view))).popTag tag).1 =
      ((placeBook sheets view cs).filter (fun n => n.tag = tag)).map reload := by
    intro tag
    unfold XDoc.popTag XDoc.rootChildren
    rw [hroot]
    simp only
    rw [reload_children_of_none rfl, ← filter_reload]
    rfl
  unfold loadBook
  simp only
  rw [popTag_other (by decide) _ hroot, hp, hp, placeBook_filter _ _ _ hc, placeBook_filter _ _ _ hc, if_pos rfl, if_neg (by decide), if_pos rfl]
  have h2 : mapRes loadSheetEntry (((([Node.mk "sheets" none none (sheetNodes 1 sheets)].map reload).getLast?.map Node.children).getD []).filterMap Node.attrs)
      = .ok (sheets.map reloadSheetEntry) := by
    simp only [List.map_cons, List.map_nil, List.getLast?_singleton, Option.map_some, Option.getD_some]
    rw [reload_children_of_none rfl]
    exact loadSheetEntries_reload env.uni 1 sheets
  cases view with
  | none =>
    simp only [bookViewsNodes, List.map_nil, List.getLast?_nil, Option.map_none, Option.getD_none, loadBookViews]
    rw [h2]
  | some v =>
    obtain ⟨av, ha, hl⟩ := loadBookView_reload env.uni v hf
    have h3 : loadBookViews none ((((bookViewsNodes (some v)).map reload).getLast?.map Node.children).getD []) = .ok (some (reloadBookView v)) := by
      simp only [bookViewsNodes, List.map_cons, List.map_nil, List.getLast?_singleton, Option.map_some, Option.getD_some]
      rw [reload_children_of_none rfl]
      simp only [Node.children, List.map_cons, List.map_nil, loadBookViews]
      rw [ha]
      simp only [hl]
    rw [h3]
    simp only
    rw [h2]
    rfl

/-- Loading leaves none of the elements kept in memory. -/
theorem loadBook_unmanaged {x x' : XDoc} {r : List SheetEntry × Option BookView} (h : loadBook x = (.ok r, x')) :
    ∀ n ∈ x'.rootChildren, n.tag ∉ bookTags := by
  unfold loadBook at h
  simp only at h
  split at h
  · cases h
  · split at h
    · cases h
    · cases h
      intro n hn
      cases hr : x.root with
      | none =>
        unfold XDoc.popTag XDoc.mapRootChildren at hn
        rw [hr] at hn
        simp [XDoc.rootChildren] at hn
      | some root =>
        obtain ⟨r1, hr1⟩ := popTag_root hr "bookViews"
        have e1 : (x.popTag "bookViews").2.rootChildren = x.rootChildren.filter (fun n => n.tag ≠ "bookViews") :=
          rootChildren_mapRoot hr _
        have e2 : ((x.popTag "bookViews").2.popTag "sheets").2.rootChildren =
            (x.popTag "bookViews").2.rootChildren.filter (fun n => n.tag ≠ "sheets") :=
          rootChildren_mapRoot hr1 _
        rw [e2, e1, List.mem_filter, List.mem_filter] at hn
        simp only [decide_eq_true_eq] at hn
        simp [bookTags, hn.1.2, hn.2]

end Oxml
