import Verif.Spec.ForeignSaved
import Verif.Proofs.ForeignSheet
import Verif.Proofs.ElsewhereParts
import Verif.Props.SheetXml
/-!
# Towards C111: cells in the text of a saved sheet
-/
namespace Oxml
open Spec

theorem itemOf_named (n : Node) (tag : String) : (itemOf n).named tag = decide (n.tag = tag) := by
  obtain ⟨t, a, v, cs⟩ := n
  cases v <;> simp only [itemOf, Item.named, Node.tag, String.toList_inj] <;> exact decide_eq_decide.mpr Iff.rfl

theorem itemsOf_filter (tag : String) : ∀ cs : List Node, (itemsOf cs).filter (Item.named tag) = itemsOf (cs.filter (fun n => n.tag = tag))
  | [] => rfl
  | c :: cs => by
    rw [itemsOf]
    by_cases h : c.tag = tag
    · rw [List.filter_cons_of_pos (by simp [itemOf_named, h]), List.filter_cons_of_pos (by simp [h]), itemsOf, itemsOf_filter tag cs]
    · rw [List.filter_cons_of_neg (by simp [itemOf_named, h]), List.filter_cons_of_neg (by simp [h]), itemsOf_filter tag cs]

/-- The cells found in the text written for a saved sheet, whatever else the document has. -/
theorem saved_cells {s : Sheet} {x xd : XDoc} {t : String} {a : Option Attrs} {cs : List Node} (hx : WfDoc asciiOnly x (.mk t a none cs)) (hm : ∀ n ∈ cs, n.tag ∉ managedTags)
    (hu : ∀ kv ∈ x.ns, UriXml kv.2) (h : s.save x = .ok xd) {b : Build} {stamp : List Char} (hs : b.release = true → StampXml stamp) {item : Item}
    (hi : IsDocument (renderDoc b stamp xd) item) : seenCells item = (cellPlaces s).map (fun p => seenOf false p.1 p.2.1 p.2.2) := by
  obtain ⟨cs', hw, hcs, _⟩ := wf_saved asciiOnly hx hm h
  have hns : xd.ns = x.ns := by
    obtain ⟨_, _, _, _, _, _, rfl⟩ := save_ok h
    rfl
  have htx : ∀ v ∈ allTexts (.mk t a none cs'), XmlChars v := fun v hv c hc => Classical.byContradiction fun hn =>
    not_wellFormed b stamp xd _ hw.isRoot hv hc hn ⟨_, hi⟩
  have hr := ready_wf b hw (by rw [hns]; exact hu) htx
  have hitem := document_unique hi (document_write b stamp xd _ hw.isRoot hr hs)
  obtain ⟨ref, root, rows, _, h2, h3, rfl⟩ := save_ok h
  rw [hx.isRoot] at h2
  cases h2
  have e : cs' = placeSheetParts ref s.cols s.views rows cs := by
    have := hw.isRoot
    unfold XDoc.mapRootChildren at this
    rw [hx.isRoot] at this
    simp only [Option.map_some, Node.withChildren, Node.children] at this
    cases this
    rfl
  have hd : ∀ c ∈ cs', DistinctAttrs c := fun c hc => distinct_kids (n := .mk t a none cs') hr.distinct hc
  have hkids : item.kids "sheetData" = itemsOf (dataNodes rows) := by
    rw [hitem, rootItem]
    simp only [Item.kids]
    rw [itemsOf_filter, e, place_filter _ _ _ _ _ hm, if_neg (by decide), if_neg (by decide), if_neg (by decide), if_pos rfl]
  unfold seenCells cellPlaces
  rw [hkids]
  cases hdata : s.data with
  | none =>
    rw [hdata] at h3
    subst h3
    rfl
  | some d =>
    rw [hdata] at h3
    obtain ⟨nodes, rfl, hn⟩ := h3
    simp only [dataNodes, itemsOf, List.flatMap_cons, List.flatMap_nil, List.append_nil, Option.getD_some]
    have hrows : ∀ n ∈ nodes, n.tag = "row" := by
      apply mapRes_all hn
      intro x _ y hy
      obtain ⟨cs, _, rfl⟩ := rowNode_ok hy
      rfl
    have hk2 : (itemOf (.mk "sheetData" none none nodes)).kids "row" = itemsOf nodes := by
      rw [itemOf]
      simp only [Item.kids]
      rw [itemsOf_filter, filter_all hrows]
    have htoc : TextOrChildrens nodes := toc_iff.mpr fun c hc => by
      obtain ⟨kv, _, e⟩ := mapRes_mem hn c hc
      exact toc_row e
    have hsh : ShowsAll Reading.xml (nodes.map (seenNode false)) (itemsOf nodes) := by
      have : nodes.map (seenNode false) = nodes := by
        rw [show seenNode false = id from rfl, List.map_id]
      rw [this]
      exact shows_itemsOf nodes htoc
    have hdd : DistinctAttrs (.mk "sheetData" none none nodes) := by
      refine hd _ ?_
      have hm : Node.mk "sheetData" none none nodes ∈ (placeSheetParts ref s.cols s.views (some nodes) cs).filter (fun n => n.tag = "sheetData") := by
        rw [place_filter _ _ _ _ _ hm, if_neg (by decide), if_neg (by decide), if_neg (by decide), if_pos rfl]
        exact List.mem_singleton.mpr rfl
      rw [e]
      exact (List.mem_filter.mp hm).1
    have hdr : ∀ n ∈ nodes, DistinctAttrs (seenNode false n) := fun n hnm => distinct_kids hdd hnm
    have := mapRes_shows hn hsh (F := fun row => (row.kids "c").map (seenCell row)) (G := fun kv => (kv.2.cells.getD []).map (fun c => seenOf false kv.1 c.1 c.2)) (by
      intro x _ n hnm hx i hi
      exact row_seen hx hi (hdr n hnm))
    rw [hk2, List.flatMap_def, this, List.map_flatMap, List.flatMap_def]
    congr 1
    apply List.map_congr_left
    intro kv _
    rw [List.map_map]
    rfl

/-! ## The sheet opened -/

theorem holds_lines {i : Item} (h : HoldsText i) : '\r' ∉ i.words := by
  obtain ⟨n, kvs, rfl | ⟨t, ht, rfl⟩⟩ := h
  · simp [Item.words]
  · simpa [Item.words, Item.chars] using ht.lines.2

/-- What is known of the cells other programs see in a common sheet. -/
theorem common_seen {sheet : Item} (h : CommonSheet sheet) {sc : SeenCell} (hs : sc ∈ seenCells sheet) :
    ∃ r c ref, sc.row = some (Nat.toDigits 10 r) ∧ sc.ref = some ref ∧ RefText ref r c ∧ '\r' ∉ sc.text ∧ '\r' ∉ sc.formulas.flatten ∧
      (sc.type = some "inlineStr".toList → sc.formulas = []) := by
  unfold seenCells at hs
  obtain ⟨row, hrow, hs⟩ := List.mem_flatMap.mp hs
  obtain ⟨d, hd, hrow⟩ := List.mem_flatMap.mp hrow
  obtain ⟨i, hi, rfl⟩ := List.mem_map.mp hs
  rw [kids_elements] at hrow hi
  obtain ⟨_, r, hr, hcs, _⟩ := h.rows d hd row (List.mem_filter.mp hrow).1
  obtain ⟨_, hc⟩ := hcs i (List.mem_filter.mp hi).1
  obtain ⟨ref, col, h1, h2, _⟩ := hc.ref
  refine ⟨r, col, ref, hr, h1, h2, ?_⟩
  have hcont := hc.content
  simp only [seenCell]
  by_cases ht : i.attrOf "t" = some "inlineStr".toList
  · rw [if_pos ht] at hcont
    obtain ⟨s, t, k1, k2, k3, k4, k5⟩ := hcont
    have hkids : ∀ tag, i.kids tag = if s.named tag then [s] else [] := by
      intro tag
      rw [kids_elements, k1]
      simp [List.filter_cons]
    have hf : i.kids "f" = [] := by rw [hkids, named_other k2 (by decide)]; rfl
    rw [if_pos ht, hf, hkids, k2]
    refine ⟨?_, by simp, fun _ => rfl⟩
    have := holds_lines k5
    simpa [stringWords_elements, k3, k4] using this
  · rw [if_neg ht] at hcont
    rw [if_neg ht]
    have hmem : ∀ tag, ∀ c ∈ i.kids tag, '\r' ∉ c.words := fun tag c hc => by
      rw [kids_elements] at hc
      exact holds_lines (hcont.1 c (List.mem_filter.mp hc).1).1
    refine ⟨fun hm => ?_, fun hm => ?_, fun e => absurd e ht⟩
    · obtain ⟨c, hc, hm⟩ := List.mem_flatMap.mp hm
      exact hmem "v" c hc hm
    · obtain ⟨l, hl, hm⟩ := List.mem_flatten.mp hm
      obtain ⟨c, hc, rfl⟩ := List.mem_map.mp hl
      exact hmem "f" c hc hm

/-- A cell that was held and saved says what it said. -/
theorem same_saved {sheet : Item} (h : CommonSheet sheet) {sc : SeenCell} (hs : sc ∈ seenCells sheet) {r c : Nat} {ref : List Char} (hr : RefText ref r c)
    (href : sc.ref = some ref) {y : CellProps} (hy : HeldAs y sc) : SameCell sc (seenOf false r c y) := by
  obtain ⟨r', c', ref', k1, k2, k3, k4, k5, k6⟩ := common_seen h hs
  rw [href] at k2
  cases k2
  obtain ⟨e1, e2⟩ := refText_inj k3 hr
  subst e1 e2
  have hty : y.type.text.toList = sc.type.getD "n".toList := by
    have := hy.type
    revert this
    cases y.type <;> simp only [typeCode, CellType.text, Option.map_some, Option.map_none] <;> intro e <;> first | exact Option.some.inj e | cases e
  refine ⟨k1.symm, ?_, ?_, ?_, ?_, ?_⟩
  · rw [href]
    have := (refText_eq (t := String.ofList ref) (by rwa [String.toList_ofList])).1
    simp only [seenOf]
    rw [← this, String.toList_ofList]
  · rw [← hy.style]
    simp only [seenOf]
    cases y.style <;> rfl
  · rw [← hty]
    simp only [seenOf]
    cases y.type <;> rfl
  · simp only [seenOf]
    split
    · next ht =>
      rw [ht] at hty
      have : sc.type = some "inlineStr".toList := by
        cases e : sc.type with
        | none => rw [e] at hty; revert hty; decide +kernel
        | some v => rw [e] at hty; exact congrArg some hty.symm
      rw [k6 this]
    · have hf := hy.formula
      rw [← hf] at k5 ⊢
      cases e : y.formula with
      | none => simp
      | some f =>
        rw [e] at k5
        simp only [Option.map_some, Option.toList_some, List.flatten_cons, List.flatten_nil, List.append_nil, Option.getD_some]
        exact lineEnds_self k5
  · simp only [seenOf]
    rw [← hy.value] at k4 ⊢
    exact lineEnds_self k4

/-! ## Strings -/

theorem attrsX_insert {a : Attrs} {k v : String} (hv : XmlChars v) (ha : AttrsX (some a)) : AttrsX (some (ainsert k v a)) := by
  intro kv hkv
  rcases mem_ainsert hkv with rfl | h
  · exact hv
  · exact ha kv h

/-- The document of the strings as saved. -/
theorem sst_doc {x xd : XDoc} {t : String} {a : Option Attrs} {cs : List Node} (hx : WfDoc asciiOnly x (.mk t a none cs)) {table : List String}
    (h : if table = [] then xd = x else saveStrings x table = .ok xd) :
    ∃ a', WfDoc asciiOnly xd (.mk t a' none (cs ++ table.map siNode)) ∧ xd.ns = x.ns ∧ (AttrsX a → AttrsX a') := by
  have hsi : WfNodes asciiOnly (table.map siNode) := wfNodes_iff.mpr (by
    intro c hc
    obtain ⟨s, _, rfl⟩ := List.mem_map.mp hc
    exact wf_siNode asciiOnly s)
  split at h
  · next e =>
    subst e h
    exact ⟨a, by simpa using hx, rfl, id⟩
  · cases a with
    | some a =>
      have hroot : (x.insertRootAttrs [("count", toString table.length), ("uniqueCount", toString (distinctCount table))]).root =
          some (.mk t (some (ainsert "uniqueCount" (toString (distinctCount table)) (ainsert "count" (toString table.length) a))) none cs) := by
        rw [insertRootAttrs_doc hx.isRoot]; rfl
      have hn : (x.insertRootAttrs [("count", toString table.length), ("uniqueCount", toString (distinctCount table))]).ns = x.ns := by
        rw [insertRootAttrs_doc hx.isRoot]
      unfold saveStrings at h
      rw [appendAll_doc hroot] at h
      cases h
      exact ⟨_, ⟨rfl, ⟨hx.names.1, wfAttrs_insert (wfAttrs_insert hx.names.2.1 _ (validName_ascii _ (by decide +kernel)) (by decide +kernel)) _
        (validName_ascii _ (by decide +kernel)) (by decide +kernel), wfNodes_append.mpr ⟨hx.names.2.2, hsi⟩⟩, by rw [hn]; exact hx.ns, by rw [hn]; exact hx.uris⟩, hn,
        fun ha => attrsX_insert (xml_nat _) (attrsX_insert (xml_nat _) ha)⟩
    | none =>
      have hroot : (x.insertRootAttrs [("count", toString table.length), ("uniqueCount", toString (distinctCount table))]) = x := by
        unfold XDoc.insertRootAttrs
        rw [hx.isRoot]
        have := hx.isRoot
        cases x; cases this; rfl
      unfold saveStrings at h
      rw [hroot, appendAll_doc hx.isRoot] at h
      cases h
      exact ⟨_, wfDoc_append hx hsi, rfl, id⟩

/-- The strings found in the text written for a string table, whatever else the document has. -/
theorem saved_sst {x xd : XDoc} {t : String} {a : Option Attrs} {cs : List Node} (hx : WfDoc asciiOnly x (.mk t a none cs)) (hm : ∀ c ∈ cs, c.tag ≠ "si")
    (hu : ∀ kv ∈ x.ns, UriXml kv.2) {table : List String} (h : if table = [] then xd = x else saveStrings x table = .ok xd) {b : Build} {stamp : List Char}
    (hs : b.release = true → StampXml stamp) {item : Item} (hi : IsDocument (renderDoc b stamp xd) item) :
    sharedStrings item = table.map (fun t => lineEnds t.toList) := by
  obtain ⟨a', hw, hns, _⟩ := sst_doc hx h
  have htx : ∀ v ∈ allTexts (.mk t a' none (cs ++ table.map siNode)), XmlChars v := fun v hv c hc => Classical.byContradiction fun hn =>
    not_wellFormed b stamp xd _ hw.isRoot hv hc hn ⟨_, hi⟩
  have hr := ready_wf b hw (by rw [hns]; exact hu) htx
  have hitem := document_unique hi (document_write b stamp xd _ hw.isRoot hr hs)
  have hkids : item.kids "si" = itemsOf (table.map siNode) := by
    rw [hitem, rootItem]
    simp only [Item.kids]
    rw [itemsOf_filter, List.filter_append, List.filter_eq_nil_iff.mpr (fun c hc => by simpa using hm c hc), List.nil_append,
      filter_all (fun n hn => by obtain ⟨t, _, rfl⟩ := List.mem_map.mp hn; rfl)]
  unfold sharedStrings
  rw [hkids]
  refine items_seen (shows_itemsOf _ (toc_iff.mpr fun c hc => ?_))
  obtain ⟨t, _, rfl⟩ := List.mem_map.mp hc
  exact toc_si t

/-- The strings other programs find in the saved file of an opened workbook. -/
theorem strings_text {env : Env} {theme : XDoc} {z z' : Zip} {ops : List WbOp} {x : Excel} {s : Session} {now : String} {exts : List (String × String)}
    (hsx : env.build.release = true → StampXml env.stamp) (hz : (akeys z).Nodup) (hr : RanOn env theme z ops x s)
    (hpn : ∀ d0, zipDoc env z x.strings.path = some d0 → PlainNames d0) (hs : s.x.toZip env now exts = .ok z') :
    ∃ text, aget x.strings.path z' = some text ∧ ∀ sst, IsDocument text sst → sharedStrings sst = s.x.strings.data.map (fun t => lineEnds t.toList) := by
  obtain ⟨p, o1, o2, o3, o4, o5, o6, o7, o8, r1, r2, q, d1, d2, d3, d4, d6, d7, d8, keep, keep0, hp, hb, hq, W, S, hown, hct⟩ := saved_base hz hr hs
  obtain ⟨-, -, -, -, -, e6, -⟩ := own_paths hown
  have hn : x.strings.path ∈ ownParts x := by simp [ownParts]
  have hpl : PlainNames o6.doc := by
    rcases source_zip hp (hct _ hn) hb.strSource with ⟨_, h2⟩ | ⟨c, d, h1, h2, h3⟩
    · rw [h2]
      obtain ⟨t, a, cs, k1, k2, _⟩ := docX_stringsTemplate
      exact ⟨t, a, cs, k1, k2⟩
    · rw [h3]
      exact hpn _ (zipDoc_eq h1 h2)
  obtain ⟨t0, a0, cs0, hw0, hu⟩ := hpl
  obtain ⟨t, a, cs, hw, hm⟩ := WfRoot.pop (u := asciiOnly) ⟨t0, a0, cs0, hw0⟩ "si"
  refine ⟨renderDoc env.build env.stamp d6, ?_, fun sst hi => saved_sst hw hm hu W.strings hsx hi⟩
  have hst := S.strings
  rw [e6] at hst
  rw [toZip_aget hq (hct _ hn), hst]
  rfl

end Oxml
