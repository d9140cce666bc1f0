import Verif.Proofs.FileTexts
import Verif.Proofs.StylesFit
/-!
# Lemmas for C104: the texts of a session and of its parts
-/
namespace Oxml
open Spec

/-! ## Sheets -/

structure CellX (c : CellProps) : Prop where
  formula : OptX c.formula
  value : OptX c.value
  metadata : OptX c.metadata

structure RowX (r : RowData) : Prop where
  height : OptX r.props.height
  span : OptX r.props.span
  cells : ∀ kv ∈ r.cells.getD [], CellX kv.2

structure SheetX (s : Sheet) : Prop where
  views : ∀ v ∈ s.views, XmlChars v.workbookViewId ∧ OptX v.topLeftCell ∧ OptX v.view
  cols : ∀ c ∈ s.cols.getD [], OptX c.width
  rows : ∀ kv ∈ s.data.getD [], RowX kv.2

theorem sheetX_empty : SheetX emptySheet := by
  refine ⟨?_, by simp [emptySheet], by simp [emptySheet]⟩
  intro v hv
  rw [show emptySheet.views = [{}] from rfl, List.mem_singleton] at hv
  subst hv
  exact ⟨xlit (by decide +kernel), optX_none, optX_none⟩

theorem xml_columnRef {n : Nat} {s : String} (h : getColumnRef n = .ok s) : XmlChars s := by
  by_cases hn : n = 0
  · subst hn; cases h
  · rw [getColumnRef_pos n hn] at h
    cases h
    intro c hc
    rw [String.toList_ofList] at hc
    have := columnRefLoop_upper n n [] (by simp) c hc
    unfold isUpperLetter at this
    refine xc c ?_
    have h1 : 'A'.toNat = 65 := by decide
    have h2 : 'Z'.toNat = 90 := by decide
    simp only [Char.le_def, UInt32.le_iff_toNat_le] at this
    have e : c.toNat = c.val.toNat := rfl
    have e1 : 'A'.val.toNat = 65 := by decide
    have e2 : 'Z'.val.toNat = 90 := by decide
    omega

theorem xml_one : XmlChars "1" := xlit (by decide +kernel)

theorem nodeX_cell {row : Nat} {kv : Nat × CellProps} {n : Node} (hc : CellX kv.2) (h : cellNode row kv = .ok n) : NodeX n := by
  unfold cellNode at h
  split at h
  · cases h
  · rename_i ref href
    cases h
    refine nodeX_mk (attrsX_present ⟨optX_some (xml_append (xml_columnRef href) (xml_nat _)), optX_map _ xml_nat, ?_, optX_map _ xml_nat, hc.metadata,
      optX_map _ (fun _ => xml_one), trivial⟩) ?_
    · split
      · refine optX_some ?_
        cases kv.2.type <;> exact xlit (by decide +kernel)
      · exact optX_none
    · have hv : XmlChars (kv.2.value.getD "") := by
        cases hv : kv.2.value with
        | none => exact nofun
        | some v => exact hc.value v hv
      unfold cellChildren
      split
      · exact nodesX_one (nodeX_mk attrsX_none (nodesX_one (nodeX_text attrsX_none hv)))
      · refine nodesX_append ?_ (nodesX_one (nodeX_text attrsX_none hv))
        split
        · exact nodesX_nil
        · rename_i f hf
          exact nodesX_one (nodeX_text attrsX_none (hc.formula f hf))

theorem nodeX_row {kv : Nat × RowData} {n : Node} (hr : RowX kv.2) (h : rowNode kv = .ok n) : NodeX n := by
  unfold rowNode at h
  split at h
  · cases h
  · rename_i cs hcs
    cases h
    refine nodeX_mk (attrsX_present ⟨optX_some (xml_nat _), hr.span, optX_map _ (fun _ => xml_one), optX_map _ xml_nat, optX_map _ (fun _ => xml_one), hr.height,
      optX_map _ (fun _ => xml_one), optX_map _ xml_nat, optX_map _ (fun _ => xml_one), optX_map _ (fun _ => xml_one), optX_map _ (fun _ => xml_one),
      optX_map _ (fun _ => xml_one), trivial⟩) ?_
    intro c hc
    obtain ⟨x, hx, e⟩ := mapRes_mem hcs c hc
    exact nodeX_cell (hr.cells x hx) e

theorem nodeX_col {c : ColProps} (h : OptX c.width) : NodeX (colNode c) :=
  nodeX_mk (attrsX_present ⟨optX_some (xml_nat _), optX_some (xml_nat _), optX_map _ (fun _ => xml_one), h, optX_map _ xml_nat, optX_map _ (fun _ => xml_one),
    optX_map _ (fun _ => xml_one), trivial⟩) nodesX_nil

theorem nodeX_view {v : View} (h : XmlChars v.workbookViewId ∧ OptX v.topLeftCell ∧ OptX v.view) : NodeX (viewNode v) :=
  nodeX_mk (attrsX_present ⟨optX_some h.1, optX_map _ xml_flag, optX_map _ xml_flag, optX_map _ xml_flag, optX_map _ xml_flag, optX_map _ xml_flag,
    optX_map _ xml_flag, optX_map _ xml_flag, optX_map _ xml_flag, optX_map _ xml_flag, optX_map _ xml_flag, optX_map _ xml_flag, h.2.1, h.2.2,
    optX_map _ xml_int, optX_map _ xml_int, optX_map _ xml_int, optX_map _ xml_int, trivial⟩) nodesX_nil

theorem xml_dimension {s : Sheet} {ref : String} (h : s.dimensionRef = .ok ref) : XmlChars ref := by
  unfold Sheet.dimensionRef at h
  split at h
  · cases h; exact xlit (by decide +kernel)
  · split at h
    · rename_i a b ha hb
      cases h
      exact xml_append (xml_append (xml_append (xml_append (xml_columnRef ha) (xml_nat _)) (xlit (by decide +kernel))) (xml_columnRef hb)) (xml_nat _)
    · cases h
    · cases h

theorem bare_uris : ∀ kv ∈ bareDoc.ns, UriXml kv.2 := by
  have : bareDoc.ns = [(defaultNsKey, mainNs), ("r", "http://schemas.openxmlformats.org/officeDocument/2006/relationships")] := by decide +kernel
  rw [this]
  intro kv hkv
  simp only [List.mem_cons, List.not_mem_nil, or_false] at hkv
  rcases hkv with rfl | rfl
  · exact ⟨xlit (by decide +kernel), by decide +kernel, by decide +kernel⟩
  · exact ⟨xlit (by decide +kernel), by decide +kernel, by decide +kernel⟩

theorem docX_bare : DocX bareDoc := ⟨_, _, _, wf_bareDoc asciiOnly, bare_uris, attrsX_nil, nodesX_nil⟩

theorem SheetX.save {s : Sheet} (hs : SheetX s) {x : XDoc} (h : s.save bareDoc = .ok x) : DocX x := by
  obtain ⟨cs', hw, hcs, _⟩ := wf_saved asciiOnly (wf_bareDoc asciiOnly) bare_unmanaged h
  obtain ⟨ref, root, rows, h1, h2, h3, rfl⟩ := save_ok h
  rw [(wf_bareDoc asciiOnly).isRoot] at h2
  cases h2
  have e : cs' = placeSheetParts ref s.cols s.views rows [] := by
    have := hw.isRoot
    unfold XDoc.mapRootChildren at this
    rw [(wf_bareDoc asciiOnly).isRoot] at this
    simp only [Option.map_some, Node.withChildren, Node.children] at this
    cases this
    rfl
  refine ⟨_, _, cs', hw, bare_uris, attrsX_nil, ?_⟩
  rw [e]
  unfold placeSheetParts
  simp only
  refine nodesX_perm (orderChildren_perm _ _ _) ?_
  have b1 : ∀ c ∈ ([] : List Node) ++ [Node.mk "dimension" (some [("ref", ref)]) none []], NodeX c :=
    nodesX_append nodesX_nil (nodesX_one (nodeX_mk (attrsX_one (xml_dimension h1)) nodesX_nil))
  have b2 : ∀ c ∈ (match s.cols with
      | some (c :: rest) => insertNodeAfter (Node.mk "cols" none none ((c :: rest).map colNode)) "sheetFormatPr" (([] : List Node) ++ [Node.mk "dimension" (some [("ref", ref)]) none []])
      | _ => ([] : List Node) ++ [Node.mk "dimension" (some [("ref", ref)]) none []]), NodeX c := by
    split
    · rename_i c rest hc
      exact nodesX_insert (nodeX_mk attrsX_none (nodesX_map (fun a ha => nodeX_col (hs.cols a (by rw [hc]; exact ha))))) b1
    · exact b1
  have b3 : ∀ c ∈ insertNodeAfter (Node.mk "sheetViews" none none (s.views.reverse.map viewNode)) "dimension" _, NodeX c :=
    nodesX_insert (nodeX_mk attrsX_none (nodesX_map (fun v hv => nodeX_view (hs.views v (List.mem_reverse.mp hv))))) b2
  split
  · rename_i ns
    refine nodesX_insert (nodeX_mk attrsX_none ?_) b3
    cases hd : s.data with
    | none => rw [hd] at h3; cases h3
    | some d =>
      rw [hd] at h3
      obtain ⟨ns', e', hm⟩ := h3
      cases e'
      intro c hc
      obtain ⟨kv, hkv, e⟩ := mapRes_mem hm c hc
      exact nodeX_row (hs.rows kv (by rw [hd]; exact hkv)) e
  · exact b3

/-! ## Calls on a sheet -/

theorem optX_toList {o : Option String} (h : ∀ t ∈ o.toList, XmlChars t) : OptX o := fun v hv => h v (Option.mem_toList.mpr hv)

theorem cellX_texts {c : CellProps} (h : ∀ t ∈ cellTexts c, XmlChars t) : CellX c := by
  unfold cellTexts at h
  exact ⟨optX_toList fun t ht => h t (by simp only [List.mem_append]; exact .inl (.inl ht)),
    optX_toList fun t ht => h t (by simp only [List.mem_append]; exact .inl (.inr ht)),
    optX_toList fun t ht => h t (by simp only [List.mem_append]; exact .inr ht)⟩

theorem stringId_x {table : List String} {v : String} (ht : ∀ t ∈ table, XmlChars t) (hv : XmlChars v) :
    (∀ t ∈ (getStringId table v).1, XmlChars t) ∧ XmlChars (getStringId table v).2 := by
  unfold getStringId
  split
  · exact ⟨ht, xml_nat _⟩
  · refine ⟨?_, xml_nat _⟩
    intro t h
    rcases List.mem_append.mp h with h | h
    · exact ht t h
    · rw [List.mem_singleton] at h; subst h; exact hv

theorem typeCell_x {table : List String} {c : CellProps} (ht : ∀ t ∈ table, XmlChars t) (hc : CellX c) :
    CellX (typeCell table c).1 ∧ ∀ t ∈ (typeCell table c).2, XmlChars t := by
  unfold typeCell
  split
  · exact ⟨⟨hc.formula, hc.value, hc.metadata⟩, ht⟩
  · rename_i v hv
    have hx := stringId_x ht (hc.value v hv)
    split
    · split
      · exact ⟨⟨hc.formula, hc.value, hc.metadata⟩, ht⟩
      · split
        · exact ⟨⟨hc.formula, optX_some xml_one, hc.metadata⟩, ht⟩
        · exact ⟨⟨hc.formula, optX_some (xlit (by decide +kernel)), hc.metadata⟩, ht⟩
        · exact ⟨⟨hc.formula, optX_some hx.2, hc.metadata⟩, hx.1⟩
    · exact ⟨⟨hc.formula, optX_some hx.2, hc.metadata⟩, hx.1⟩
    · refine ⟨⟨hc.formula, optX_some ?_, hc.metadata⟩, ht⟩
      split
      · exact xlit (by decide +kernel)
      · exact xml_one
    · exact ⟨hc, ht⟩

theorem typeCells_x {cells : List CellProps} {table : List String} (ht : ∀ t ∈ table, XmlChars t) (hc : ∀ c ∈ cells, CellX c) :
    (∀ c ∈ (typeCells table cells).1, CellX c) ∧ ∀ t ∈ (typeCells table cells).2, XmlChars t := by
  induction cells generalizing table with
  | nil => exact ⟨nofun, ht⟩
  | cons c cs ih =>
    have h1 := typeCell_x ht (hc c (by simp))
    have h2 := ih h1.2 (fun d hd => hc d (List.mem_cons_of_mem _ hd))
    rw [typeCells]
    refine ⟨?_, h2.2⟩
    intro d hd
    rcases List.mem_cons.mp hd with rfl | hd
    · exact h1.1
    · exact h2.1 d hd

theorem placeCells_mem {b : Build} {cells : List CellProps} {col : Nat} {placed : List (Nat × CellProps)} (h : placeCells b col cells = .ok placed) :
    ∀ kv ∈ placed, kv.2 ∈ cells := by
  induction cells generalizing col placed with
  | nil => cases h; exact nofun
  | cons c cs ih =>
    rw [placeCells] at h
    split at h
    · cases h
    · split at h
      · cases h
      · rename_i rest hrest
        cases h
        intro kv hkv
        rcases List.mem_cons.mp hkv with rfl | hkv
        · simp
        · exact List.mem_cons_of_mem _ (ih hrest kv hkv)

theorem cellsX_extend {m l : List (Nat × CellProps)} (hm : ∀ kv ∈ m, CellX kv.2) (hl : ∀ kv ∈ l, CellX kv.2) : ∀ kv ∈ extendMap m l, CellX kv.2 := by
  intro kv hkv
  rcases mem_extendMap hkv with h | h
  · exact hl kv h
  · exact hm kv h

theorem rowsX_insert {d : SheetRows} {r : Nat} {rd : RowData} (hd : ∀ kv ∈ d, RowX kv.2) (hr : RowX rd) : ∀ kv ∈ sinsert r rd d, RowX kv.2 := by
  intro kv hkv
  rcases mem_sinsert hkv with rfl | h
  · exact hr
  · exact hd kv h

theorem rowsX_get {d : SheetRows} {r : Nat} {rd : RowData} (hd : ∀ kv ∈ d, RowX kv.2) (h : aget r d = some rd) : RowX rd := hd _ (mem_of_aget h)

theorem SheetX.setRow {s s' : Sheet} {b : Build} {table table' : List String} {row col : Nat} {cells : List CellProps} (hs : SheetX s)
    (ht : ∀ t ∈ table, XmlChars t) (hc : ∀ c ∈ cells, CellX c) (h : s.setRow b table row col cells = .ok (s', table')) :
    SheetX s' ∧ ∀ t ∈ table', XmlChars t := by
  unfold Sheet.setRow at h
  split at h
  · cases h
  · split at h
    · cases h
    · rename_i placed hp
      cases h
      have hx := typeCells_x ht hc
      have hpx : ∀ kv ∈ placed, CellX kv.2 := fun kv hkv => hx.1 _ (placeCells_mem hp kv hkv)
      refine ⟨⟨hs.views, hs.cols, ?_⟩, hx.2⟩
      simp only [Option.getD_some]
      unfold putCells
      have hrows := hs.rows
      split
      · intro kv hkv
        rw [List.mem_singleton] at hkv
        subst hkv
        exact ⟨optX_none, optX_none, cellsX_extend nofun hpx⟩
      · rename_i d hd
        rw [hd] at hrows
        split
        · exact rowsX_insert hrows ⟨optX_none, optX_none, cellsX_extend nofun hpx⟩
        · rename_i rd hrd
          have hr := rowsX_get hrows hrd
          exact rowsX_insert hrows ⟨hr.height, hr.span, cellsX_extend hr.cells hpx⟩

theorem SheetX.setRowProps {s : Sheet} {row : Nat} {p : RowProps} (hs : SheetX s) (h1 : OptX p.height) (h2 : OptX p.span) : SheetX (s.setRowProps row p) := by
  refine ⟨hs.views, hs.cols, ?_⟩
  unfold Sheet.setRowProps
  simp only [Option.getD_some]
  have hrows := hs.rows
  split
  · intro kv hkv
    rw [List.mem_singleton] at hkv
    subst hkv
    exact ⟨h1, h2, nofun⟩
  · rename_i d hd
    rw [hd] at hrows
    split
    · exact rowsX_insert hrows ⟨h1, h2, nofun⟩
    · rename_i rd hrd
      exact rowsX_insert hrows ⟨h1, h2, (rowsX_get hrows hrd).cells⟩

theorem splitCol_x {col : Nat} {r : ColProps} (h : OptX r.width) : (∀ c ∈ (splitCol col r).1, OptX c.width) ∧ ∀ c ∈ (splitCol col r).2, OptX c.width := by
  unfold splitCol
  repeat' split
  all_goals simp [h, optX_none]

theorem SheetX.setColumn {s : Sheet} {col : Nat} {p : Option ColProps} (hs : SheetX s) (hp : ∀ q ∈ p, OptX q.width) : SheetX (s.setColumn col p) := by
  unfold Sheet.setColumn
  split
  · exact hs
  · rename_i cs hcs
    refine ⟨hs.views, ?_, hs.rows⟩
    have hc := hs.cols
    rw [hcs] at hc
    simp only [Option.getD_some] at hc ⊢
    intro c hm
    rcases List.mem_append.mp hm with hm | hm
    · rcases List.mem_append.mp hm with hm | hm
      · obtain ⟨r, hr, hm⟩ := List.mem_flatMap.mp hm
        exact (splitCol_x (hc r hr)).1 c hm
      · cases p with
        | none => cases hm
        | some q =>
          rw [List.mem_singleton] at hm
          subst hm
          exact hp q rfl
    · obtain ⟨r, hr, hm⟩ := List.mem_flatMap.mp hm
      exact (splitCol_x (hc r hr)).2 c hm

theorem SheetX.run {b : Build} {s s' : Sheet} {table table' : List String} {op : SheetOp} (hs : SheetX s) (ht : ∀ t ∈ table, XmlChars t)
    (ho : ∀ t ∈ op.texts, XmlChars t) (h : op.run b (s, table) = .ok (s', table')) : SheetX s' ∧ ∀ t ∈ table', XmlChars t := by
  cases op with
  | write r c cells =>
    refine hs.setRow ht (fun d hd => cellX_texts fun t h => ho t ?_) h
    exact List.mem_flatMap.mpr ⟨d, hd, h⟩
  | rowProps r p =>
    cases h
    refine ⟨hs.setRowProps (optX_toList fun t h => ho t ?_) (optX_toList fun t h => ho t ?_), ht⟩
    · exact List.mem_append_left _ h
    · exact List.mem_append_right _ h
  | column c p =>
    cases h
    refine ⟨hs.setColumn ?_, ht⟩
    rintro q ⟨⟩
    exact optX_toList fun t h => ho t h

end Oxml
