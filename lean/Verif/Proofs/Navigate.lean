import Verif.Spec.Navigate
import Verif.Proofs.ElsewhereParts
import Verif.Props.Targets
import Verif.Props.Elsewhere
/-!
# Finding the parts of a saved workbook
-/
namespace Oxml
open Spec

variable {env : Env} {theme : XDoc}

/-! ## Paths -/

theorem splitPath_join : ∀ {segs : List (List Char)}, segs ≠ [] → (∀ s ∈ segs, '/' ∉ s) → splitPath (joinPath segs) = segs := by
  have one : ∀ s : List Char, '/' ∉ s → splitPath s = [s] := by
    intro s hs
    induction s with
    | nil => rfl
    | cons c s ih =>
      rw [splitPath, if_neg (fun h => hs (by rw [h]; simp)), ih (fun h => hs (by simp [h]))]
  have two : ∀ (s : List Char) (t : List Char), '/' ∉ s → splitPath (s ++ '/' :: t) = s :: splitPath t := by
    intro s t hs
    induction s with
    | nil => rw [List.nil_append, splitPath, if_pos rfl]
    | cons c s ih =>
      rw [List.cons_append, splitPath, if_neg (fun h => hs (by rw [h]; simp)), ih (fun h => hs (by simp [h]))]
  intro segs
  induction segs with
  | nil => intro h; exact absurd rfl h
  | cons s ss ih =>
    intro _ hs
    cases ss with
    | nil => exact one s (hs s (by simp))
    | cons s' ss =>
      rw [joinPath_cons s (by simp), two s _ (hs s (by simp)), ih (by simp) (fun x hx => hs x (by simp [hx]))]

theorem resolved_root (source : List Char) {segs : List (List Char)} (hne : segs ≠ []) (hs : ∀ s ∈ segs, Seg s) :
    resolved source ('/' :: joinPath segs) = joinPath segs := by
  unfold resolved
  simp only
  rw [splitPath_join hne (fun s h => (hs s h).2.1)]
  congr 1
  unfold normal
  rw [foldl_normal hs]
  rfl

theorem digits_noslash (k : Nat) : ∀ c ∈ (toString k).toList, c ≠ '/' := by
  intro c hc h
  subst h
  rw [toList_toString_nat] at hc
  have := Nat.isDigit_of_mem_toDigits (by decide) (by decide) hc
  revert this
  decide

theorem sheetName_join (k : Nat) : (sheetName k).toList = joinPath ["xl".toList, "worksheets".toList, "sheet".toList ++ (toString k).toList ++ ".xml".toList] := by
  unfold sheetName
  rw [String.toList_append, String.toList_append]
  rw [joinPath, joinPath, joinPath]
  rw [show "xl/worksheets/sheet".toList = "xl".toList ++ '/' :: ("worksheets".toList ++ '/' :: "sheet".toList) from by decide +kernel]
  simp
  all_goals simp

theorem resolved_sheet (source : List Char) (k : Nat) : resolved source ("/" ++ sheetName k).toList = (sheetName k).toList := by
  rw [String.toList_append, sheetName_join]
  refine resolved_root source (by simp) ?_
  intro s hs
  simp only [List.mem_cons, List.not_mem_nil, or_false] at hs
  rcases hs with rfl | rfl | rfl
  · exact ⟨by decide, by decide, by decide, by decide⟩
  · exact ⟨by decide, by decide, by decide, by decide⟩
  · refine ⟨by simp, ?_, ?_, ?_⟩
    · intro h
      rcases List.mem_append.mp h with h | h
      · rcases List.mem_append.mp h with h | h
        · revert h; decide
        · exact digits_noslash k _ h rfl
      · revert h; decide
    · intro h
      have := congrArg List.length h
      simp at this
    · intro h
      have := congrArg List.length h
      simp at this

/-! ## Texts that read the same -/

theorem calm_reads {t : String} (h : CalmName t) : Reading.xml.attr t.toList = t.toList := by
  obtain ⟨h1, h2, h3⟩ := h
  change (lineEnds t.toList).map _ = _
  rw [lineEnds_self h1]
  conv => rhs; rw [← List.map_id t.toList]
  refine List.map_congr_left fun c hc => ?_
  unfold whiteToSpace
  rw [if_neg]
  · rfl
  · rintro (rfl | rfl | rfl)
    · exact h3 hc
    · exact h2 hc
    · exact h1 hc

theorem calm_append {a b : String} (h1 : CalmName a) (h2 : CalmName b) : CalmName (a ++ b) := by
  unfold CalmName
  rw [String.toList_append]
  refine ⟨?_, ?_, ?_⟩ <;> intro h <;> rcases List.mem_append.mp h with h | h
  · exact h1.1 h
  · exact h2.1 h
  · exact h1.2.1 h
  · exact h2.2.1 h
  · exact h1.2.2 h
  · exact h2.2.2 h

theorem calm_nat (k : Nat) : CalmName (toString k) := by
  refine ⟨?_, ?_, ?_⟩ <;> intro h <;> refine nat_black k _ h ?_ <;> (unfold White; decide)

theorem calm_lit {t : String} (h : t.toList.all (fun c => decide (c ≠ '\r' ∧ c ≠ '\n' ∧ c ≠ '\t')) = true) : CalmName t := by
  rw [List.all_eq_true] at h
  refine ⟨fun hm => ?_, fun hm => ?_, fun hm => ?_⟩ <;> have := of_decide_eq_true (h _ hm)
  · exact this.1 rfl
  · exact this.2.1 rfl
  · exact this.2.2 rfl

theorem calm_rId (m : Nat) : CalmName (rId m) := calm_append (calm_lit (by decide +kernel)) (calm_nat m)
theorem calm_sheetName (k : Nat) : CalmName (sheetName k) := calm_append (calm_append (calm_lit (by decide +kernel)) (calm_nat k)) (calm_lit (by decide +kernel))
theorem calm_sheetRelsName (k : Nat) : CalmName (sheetRelsName k) :=
  calm_append (calm_append (calm_lit (by decide +kernel)) (calm_nat k)) (calm_lit (by decide +kernel))

/-! ## Roots -/

theorem showsRoot_attr {r : Reading} {ns : Attrs} {root : Node} {i : Item} (h : ShowsRoot r ns root i)
    (hd : ((declAttrs ns ++ root.attrs.getD []).map Prod.fst).Nodup) (k : String) :
    i.attrOf k = (aget k (declAttrs ns ++ root.attrs.getD [])).map (fun v => r.attr v.toList) := by
  obtain ⟨t, a, v, cs⟩ := root
  cases i with
  | text _ => simp [ShowsRoot] at h
  | elem m kvs content =>
    rw [ShowsRoot] at h
    rw [Item.attrOf, findKey_perm h.2.1 (readKeys_nodup hd), find_attrsRead]
    rfl

theorem showsRoot_named {r : Reading} {ns : Attrs} {root : Node} {i : Item} (h : ShowsRoot r ns root i) : i.named root.tag = true := by
  obtain ⟨t, a, v, cs⟩ := root
  cases i with
  | text _ => simp [ShowsRoot] at h
  | elem m kvs content =>
    rw [ShowsRoot] at h
    rw [Item.named, decide_eq_true_eq]
    exact h.1

/-- A document read: as `DocX.reads`, with the attributes of the root. -/
theorem DocX.readsRoot {x : XDoc} (h : DocX x) {root : Node} (hr : x.root = some root) (ht : TextOrChildren root) {b : Build} {stamp : List Char}
    (hs : b.release = true → StampXml stamp) {item : Item} (hi : IsDocument (renderDoc b stamp x) item) :
    ShowsRoot Reading.xml (releaseNs b x.ns) root item ∧ XmlReady (releaseNs b x.ns) root := by
  refine ⟨(h.reads hr ht hs hi).1, ?_⟩
  obtain ⟨t, a, cs, h1, h2, h3, h4⟩ := h
  have e := h1.isRoot
  rw [hr] at e
  cases e
  exact ready_wf b h1 h2 (nodeX_mk h3 h4)

theorem decl_default (ns : Attrs) : aget "xmlns" (declAttrs ns) = aget defaultNsKey ns := by
  induction ns with
  | nil => rfl
  | cons kv ns ih =>
    obtain ⟨k, v⟩ := kv
    rw [declAttrs, List.map_cons, aget, aget]
    by_cases h : k = defaultNsKey
    · rw [if_pos h, if_pos (show declName k = "xmlns" by rw [h]; decide)]
    · rw [if_neg h, if_neg]
      · exact ih
      · unfold declName
        rw [if_neg h]
        intro e
        have := congrArg (fun s : String => s.toList.length) e
        simp only [String.toList_append, List.length_append] at this
        rw [show "xmlns:".toList.length = 6 from by decide +kernel, show "xmlns".toList.length = 5 from by decide +kernel] at this
        omega

theorem release_default (b : Build) (ns : Attrs) : aget defaultNsKey (releaseNs b ns) = aget defaultNsKey ns := by
  unfold releaseNs
  split
  · exact aget_ainsert_ne (k := "dvmo") (j := defaultNsKey) (by decide) _ _
  · rfl

theorem aget_append_left {k v : String} {a b : Attrs} (h : aget k a = some v) : aget k (a ++ b) = some v := by
  induction a with
  | nil => cases h
  | cons kv a ih =>
    obtain ⟨x, y⟩ := kv
    rw [List.cons_append]
    rw [aget] at h ⊢
    split at h
    · next e => rw [if_pos e]; exact h
    · next e => rw [if_neg e]; exact ih h

/-- The default namespace of a document read. -/
theorem DocX.space {x : XDoc} (h : DocX x) {root : Node} (hr : x.root = some root) (ht : TextOrChildren root) {b : Build} {stamp : List Char}
    (hs : b.release = true → StampXml stamp) {item : Item} (hi : IsDocument (renderDoc b stamp x) item) {uri : String}
    (hu : aget defaultNsKey x.ns = some uri) (hc : CalmName uri) : item.attrOf "xmlns" = some uri.toList := by
  obtain ⟨h1, h2⟩ := h.readsRoot hr ht hs hi
  rw [showsRoot_attr h1 h2.apart, aget_append_left ((decl_default _).trans ((release_default b _).trans hu)), Option.map_some, calm_reads hc]

/-! ## Relationships -/

structure CalmRel (r : Rel) : Prop where
  id : CalmName r.id
  target : CalmName r.target
  type : CalmName r.type
  mode : r.mode = none

/-- A relationship as found. -/
def seenRel (r : Rel) : FoundRel := ⟨some r.id.toList, some r.target.toList, some r.type.toList, none⟩

theorem toc_rels (rels : List Rel) : TextOrChildren (.mk "Relationships" (some []) none (rels.map relNode)) := by
  refine toc_mk fun c hc => ?_
  obtain ⟨r, _, rfl⟩ := List.mem_map.mp hc
  exact toc_leaf

theorem relsDoc_root (rels : List Rel) : (relsDoc rels).root = some (.mk "Relationships" (some []) none (rels.map relNode)) := rfl

theorem shows_map {α β : Type} {r : Reading} {l : List α} {f : α → Node} {g : Item → β} {g' : α → β} {items : List Item} (h : ShowsAll r (l.map f) items)
    (hg : ∀ a ∈ l, ∀ i, Shows r (f a) i → g i = g' a) : items.map g = l.map g' := by
  induction l generalizing items with
  | nil => simp only [List.map_nil, ShowsAll] at h; subst h; rfl
  | cons a l ih =>
    rw [List.map_cons] at h
    cases items with
    | nil => simp [ShowsAll] at h
    | cons i is =>
      rw [ShowsAll] at h
      rw [List.map_cons, List.map_cons, hg a (by simp) i h.1, ih h.2 (fun a ha => hg a (by simp [ha]))]

theorem filter_tag {cs : List Node} {tag : String} (h : ∀ c ∈ cs, c.tag = tag) : cs.filter (fun n => n.tag = tag) = cs := by
  rw [List.filter_eq_self]
  exact fun c hc => decide_eq_true (h c hc)

theorem rels_read {rels : List Rel} (hx : ∀ r ∈ rels, RelX r) (hc : ∀ r ∈ rels, CalmRel r) {b : Build} {stamp : List Char} (hs : b.release = true → StampXml stamp)
    {item : Item} (hi : IsDocument (renderDoc b stamp (relsDoc rels)) item) : relationships item = rels.map seenRel := by
  obtain ⟨h1, h2⟩ := (docX_rels hx).reads (relsDoc_root rels) (toc_rels rels) hs hi
  have hk := showsRoot_kids "Relationship" h1
  rw [Node.children, filter_tag (by intro c hc; obtain ⟨r, _, rfl⟩ := List.mem_map.mp hc; rfl)] at hk
  refine shows_map hk fun r hr i hi => ?_
  obtain ⟨c1, c2, c3, c4⟩ := hc r hr
  have hn : (((relNode r).attrs.getD []).map Prod.fst).Nodup := distinct_attrs (distinct_kids h2 (List.mem_map_of_mem hr))
  rw [shows_attr hi hn, shows_attr hi hn, shows_attr hi hn, shows_attr hi hn]
  have : relNode r = .mk "Relationship" (some [("Id", r.id), ("Target", r.target), ("Type", r.type)]) none [] := by
    unfold relNode; rw [c4]; rfl
  rw [this]
  unfold seenRel
  congr 1
  · exact congrArg some (calm_reads c1)
  · exact congrArg some (calm_reads c2)
  · exact congrArg some (calm_reads c3)

theorem rels_space {rels : List Rel} (hx : ∀ r ∈ rels, RelX r) {b : Build} {stamp : List Char} (hs : b.release = true → StampXml stamp)
    {item : Item} (hi : IsDocument (renderDoc b stamp (relsDoc rels)) item) : item.attrOf "xmlns" = some packageRelsNs :=
  (docX_rels hx).space (relsDoc_root rels) (toc_rels rels) hs hi (uri := relsContent.ns) rfl (calm_lit (by decide +kernel))

/-! ## Content types -/

theorem types_toc (exts ovs : List (String × String)) {root : Node} (h : (contentTypesDoc exts ovs).root = some root) : TextOrChildren root := by
  cases h
  refine toc_mk fun c hc => ?_
  rcases List.mem_append.mp hc with hc | hc <;> obtain ⟨_, _, rfl⟩ := List.mem_map.mp hc <;> exact toc_leaf

theorem types_space {exts ovs : List (String × String)} (h1 : ∀ e ∈ exts, XmlChars e.1 ∧ XmlChars e.2) (h2 : ∀ e ∈ ovs, XmlChars e.1 ∧ XmlChars e.2)
    {b : Build} {stamp : List Char} (hs : b.release = true → StampXml stamp)
    {item : Item} (hi : IsDocument (renderDoc b stamp (contentTypesDoc exts ovs)) item) : item.attrOf "xmlns" = some typesNs :=
  (docX_contentTypes h1 h2).space rfl (types_toc exts ovs rfl) hs hi (uri := contentTypesNs) rfl (calm_lit (by decide +kernel))

theorem filter_one {α β : Type} {l : List α} {f : α → β} {p : α → Bool} {g : β → Bool} (h : ∀ a ∈ l, g (f a) = p a) : (l.map f).filter g = (l.filter p).map f := by
  induction l with
  | nil => rfl
  | cons a l ih =>
    rw [List.map_cons, List.filter_cons, List.filter_cons, h a (by simp), ih (fun a ha => h a (by simp [ha]))]
    split <;> rfl

theorem types_read {exts ovs : List (String × String)} (h1 : ∀ e ∈ exts, XmlChars e.1 ∧ XmlChars e.2) (h2 : ∀ e ∈ ovs, XmlChars e.1 ∧ XmlChars e.2)
    (hc : ∀ o ∈ ovs, CalmName o.1 ∧ CalmName o.2) {b : Build} {stamp : List Char} (hs : b.release = true → StampXml stamp)
    {item : Item} (hi : IsDocument (renderDoc b stamp (contentTypesDoc exts ovs)) item) :
    (item.kids "Override").map (fun o => (o.attrOf "PartName", o.attrOf "ContentType")) = ovs.map (fun o => (some o.1.toList, some o.2.toList)) := by
  obtain ⟨s1, s2⟩ := (docX_contentTypes h1 h2).reads rfl (types_toc exts ovs rfl) hs hi
  have hk := showsRoot_kids "Override" s1
  rw [Node.children, List.filter_append, List.filter_eq_nil_iff.mpr (by intro c hc; obtain ⟨e, _, rfl⟩ := List.mem_map.mp hc; simp [Node.tag]), List.nil_append,
    filter_tag (by intro c hc; obtain ⟨e, _, rfl⟩ := List.mem_map.mp hc; rfl)] at hk
  refine shows_map hk fun o ho i hi => ?_
  have hn := distinct_attrs (distinct_kids s2 (List.mem_append_right _ (List.mem_map_of_mem (f := fun o : String × String => Node.mk "Override" (some [("PartName", o.1), ("ContentType", o.2)]) none []) ho)))
  rw [shows_attr hi hn, shows_attr hi hn]
  exact Prod.ext (congrArg some (calm_reads (hc o ho).1)) (congrArg some (calm_reads (hc o ho).2))

/-- The type found of a part. -/
theorem typeOf_read {item : Item} {ovs : List (String × String)}
    (h : (item.kids "Override").map (fun o => (o.attrOf "PartName", o.attrOf "ContentType")) = ovs.map (fun o => (some o.1.toList, some o.2.toList)))
    {n c : String} (hu : ovs.filter (fun o => decide (o.1 = "/" ++ n)) = [("/" ++ n, c)]) : typeOf item n.toList = some c.toList := by
  have key : ((item.kids "Override").filter (fun o => decide (o.attrOf "PartName" = some ('/' :: n.toList)))).map
      (fun o => (o.attrOf "PartName", o.attrOf "ContentType")) = [(some ("/" ++ n).toList, some c.toList)] := by
    rw [← filter_one (f := fun o : Item => (o.attrOf "PartName", o.attrOf "ContentType")) (g := fun q => decide (q.1 = some ('/' :: n.toList))) (fun _ _ => rfl), h,
      filter_one (p := fun o => decide (o.1 = "/" ++ n)), hu]
    · rfl
    · intro o _
      have : ("/" ++ n).toList = '/' :: n.toList := by rw [String.toList_append]; rfl
      rw [← this]
      simp only [Option.some_inj, String.toList_inj]
  unfold typeOf
  generalize (item.kids "Override").filter (fun o => decide (o.attrOf "PartName" = some ('/' :: n.toList))) = l at key
  match l, key with
  | [o], key =>
    simp only [List.map_cons, List.map_nil, List.cons.injEq, and_true, Prod.mk.injEq] at key
    exact key.2
  | [], key => cases key
  | _ :: _ :: _, key => simp at key

/-! ## The list of sheets -/

/-- A sheet as listed. -/
def seenEntry (e : SheetEntry) : ListedSheet :=
  ⟨some (Reading.xml.attr e.name.toList), some (Reading.xml.attr e.relId.toList), if e.hide then some "hidden".toList else none⟩

theorem book_root (sheets : List SheetEntry) (view : Option BookView) :
    (bookSaved sheets view).root = some (.mk "workbook" (some []) none (placeBook sheets view workbookDoc.rootChildren)) :=
  (wf_savedBook asciiOnly (sheets := sheets) (view := view) (wf_workbookDoc asciiOnly) (by decide)).1.isRoot

theorem toc_book (sheets : List SheetEntry) (view : Option BookView) :
    TextOrChildren (.mk "workbook" (some []) none (placeBook sheets view workbookDoc.rootChildren)) := by
  have hc : ∀ n ∈ workbookDoc.rootChildren, n.tag ∉ bookTags := by decide
  refine toc_mk fun c hm => ?_
  have hm : c ∈ (placeBook sheets view workbookDoc.rootChildren).filter (fun n => n.tag = c.tag) := List.mem_filter.mpr ⟨hm, by simp⟩
  rw [placeBook_filter _ _ _ hc] at hm
  split at hm
  · unfold bookViewsNodes at hm
    split at hm
    · rw [List.mem_singleton] at hm
      subst hm
      refine toc_mk fun c hc => ?_
      rw [List.mem_singleton] at hc
      subst hc
      exact toc_leaf
    · cases hm
  · split at hm
    · rw [List.mem_singleton] at hm
      subst hm
      refine toc_mk fun c hc => ?_
      obtain ⟨i, e, he, rfl⟩ := mem_sheetNodes _ _ _ hc
      exact toc_leaf
    · have hm := (List.mem_filter.mp hm).1
      have : workbookDoc.rootChildren = [Node.mk "fileVersion" (some [("appName", "openxml-office"), ("lastEdited", "7"), ("lowestEdited", "7")]) none []] := rfl
      rw [this, List.mem_singleton] at hm
      subst hm
      exact toc_leaf

theorem book_prefixes {b : Build} {cs : List Node} {item : Item} (h : ShowsRoot Reading.xml (releaseNs b workbookDoc.ns) (.mk "workbook" (some []) none cs) item) :
    item.prefixes officeRelsNs = ["r".toList] := by
  cases item with
  | text _ => simp [ShowsRoot] at h
  | elem m kvs content =>
    rw [ShowsRoot] at h
    have hp := h.2.1.filterMap (fun kv => if kv.2 = officeRelsNs ∧ kv.1.take 6 = "xmlns:".toList then some (kv.1.drop 6) else none)
    have he : (attrsRead Reading.xml (declAttrs (releaseNs b workbookDoc.ns) ++ (some ([] : Attrs)).getD [])).filterMap
        (fun kv => if kv.2 = officeRelsNs ∧ kv.1.take 6 = "xmlns:".toList then some (kv.1.drop 6) else none) = ["r".toList] := by
      obtain ⟨_ | _⟩ := b <;> decide +kernel
    rw [he] at hp
    exact List.perm_singleton.mp hp

theorem shows_entries {items : List Item} {sheets : List SheetEntry} : ∀ {k : Nat}, ShowsAll Reading.xml (sheetNodes k sheets) items →
    items.map (fun i => (⟨i.attrOf "name", i.attrOf "r:id", i.attrOf "state"⟩ : ListedSheet)) = sheets.map seenEntry := by
  induction sheets generalizing items with
  | nil => intro k h; simp only [sheetNodes, ShowsAll] at h; subst h; rfl
  | cons e es ih =>
    intro k h
    rw [sheetNodes] at h
    cases items with
    | nil => simp [ShowsAll] at h
    | cons i is =>
      rw [ShowsAll] at h
      obtain ⟨a1, _, a3, a4⟩ := sheetNode_attrs k e
      have hn : (((sheetNode k e).attrs.getD []).map Prod.fst).Nodup := by
        unfold sheetNode
        cases e.hide <;> simp [present, Node.attrs]
      rw [List.map_cons, List.map_cons, ih h.2, shows_attr h.1 hn, shows_attr h.1 hn, shows_attr h.1 hn, a1, a3, a4]
      congr 1
      unfold seenEntry
      congr 1
      cases e.hide
      · rfl
      · exact congrArg some (calm_reads (calm_lit (t := "hidden") (by decide +kernel)))

theorem book_read {sheets : List SheetEntry} {view : Option BookView} (hs : ∀ e ∈ sheets, XmlChars e.name ∧ XmlChars e.relId) (hv : ∀ v ∈ view, BookViewX v)
    {b : Build} {stamp : List Char} (hst : b.release = true → StampXml stamp) {item : Item} (hi : IsDocument (renderDoc b stamp (bookSaved sheets view)) item) :
    sheetList item = sheets.map seenEntry := by
  obtain ⟨h1, h2⟩ := (docX_book hs hv).reads (book_root sheets view) (toc_book sheets view) hst hi
  have hk := showsRoot_kids "sheets" h1
  have hc : ∀ n ∈ workbookDoc.rootChildren, n.tag ∉ bookTags := by decide
  rw [Node.children, placeBook_filter _ _ _ hc, if_neg (by decide), if_pos rfl] at hk
  have hp := book_prefixes h1
  have hr : ∀ i, Item.attrIn item officeRelsNs "id" i = i.attrOf "r:id" := by
    intro i
    unfold Item.attrIn
    rw [hp, List.findSome?_cons, List.findSome?_nil, show String.ofList ("r".toList ++ ':' :: "id".toList) = "r:id" from by decide +kernel]
    cases i.attrOf "r:id" <;> rfl
  unfold sheetList
  simp only [hr]
  match hl : item.kids "sheets", hk with
  | [i], hk =>
    rw [ShowsAll] at hk
    rw [List.flatMap_cons, List.flatMap_nil, List.append_nil]
    have hk2 := shows_kids "sheet" hk.1
    rw [Node.children, filter_tag (by intro c hc; obtain ⟨k, e, _, rfl⟩ := mem_sheetNodes _ _ _ hc; rfl)] at hk2
    exact shows_entries hk2
  | [], hk => simp [ShowsAll] at hk
  | _ :: _ :: _, hk => simp [ShowsAll] at hk

theorem book_space {sheets : List SheetEntry} {view : Option BookView} (hs : ∀ e ∈ sheets, XmlChars e.name ∧ XmlChars e.relId) (hv : ∀ v ∈ view, BookViewX v)
    {b : Build} {stamp : List Char} (hst : b.release = true → StampXml stamp) {item : Item} (hi : IsDocument (renderDoc b stamp (bookSaved sheets view)) item) :
    item.attrOf "xmlns" = some spreadsheetNs :=
  (docX_book hs hv).space (book_root sheets view) (toc_book sheets view) hst hi (uri := mainNs) rfl (calm_lit (by decide +kernel))

end Oxml
