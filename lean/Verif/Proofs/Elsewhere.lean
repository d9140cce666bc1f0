import Verif.Spec.Elsewhere
import Verif.Proofs.SheetXml
import Verif.Proofs.FileSession
import Verif.Proofs.Unambiguous
import Verif.Proofs.SessionCells
/-!
# Lemmas for C105
-/
namespace Oxml
open Spec

/-! ## Items in place of elements -/

theorem kids_of_shows {r : Reading} (tag : String) {cs : List Node} {l : List Item} (h : ShowsAll r cs l) :
    ShowsAll r (cs.filter (fun n => n.tag = tag)) (l.filter (Item.named tag)) := by
  induction cs generalizing l with
  | nil => rw [ShowsAll] at h; subst h; simp [ShowsAll]
  | cons c cs ih =>
    cases l with
    | nil => simp [ShowsAll] at h
    | cons i l =>
      rw [ShowsAll] at h
      obtain ⟨t, a, v, ds⟩ := c
      cases i with
      | text _ => simp [Shows] at h
      | elem n kvs content =>
        have hn : n = t.toList := by have := h.1; rw [Shows] at this; exact this.1
        have he : Item.named tag (.elem n kvs content) = decide (t = tag) := by
          simp [Item.named, hn, String.toList_inj]
        by_cases e : t = tag
        · rw [List.filter_cons_of_pos (by simp [Node.tag, e]), List.filter_cons_of_pos (by rw [he]; simp [e]), ShowsAll]
          exact ⟨h.1, ih h.2⟩
        · rw [List.filter_cons_of_neg (by simp [Node.tag, e]), List.filter_cons_of_neg (by rw [he]; simp [e])]
          exact ih h.2

theorem textRead_kids (r : Reading) (tag : String) (v : Option String) : (textRead r v).filter (Item.named tag) = [] := by
  unfold textRead
  split
  · rfl
  · split
    · rfl
    · rfl

theorem shows_kids {r : Reading} (tag : String) {n : Node} {i : Item} (h : Shows r n i) : ShowsAll r (n.children.filter (fun n => n.tag = tag)) (i.kids tag) := by
  obtain ⟨t, a, v, cs⟩ := n
  cases i with
  | text _ => simp [Shows] at h
  | elem m kvs content =>
    rw [Shows] at h
    obtain ⟨_, _, rest, rfl, h3⟩ := h
    rw [Item.kids, List.filter_append, textRead_kids, List.nil_append]
    exact kids_of_shows tag h3

theorem showsRoot_kids {r : Reading} {ns : Attrs} (tag : String) {n : Node} {i : Item} (h : ShowsRoot r ns n i) :
    ShowsAll r (n.children.filter (fun n => n.tag = tag)) (i.kids tag) := by
  obtain ⟨t, a, v, cs⟩ := n
  cases i with
  | text _ => simp [ShowsRoot] at h
  | elem m kvs content =>
    rw [ShowsRoot] at h
    obtain ⟨_, _, rest, rfl, h3⟩ := h
    rw [Item.kids, List.filter_append, textRead_kids, List.nil_append]
    exact kids_of_shows tag h3

theorem findKey_perm {l l' : List (List Char × List Char)} (hp : l.Perm l') (hn : (l'.map Prod.fst).Nodup) (k : List Char) :
    l.find? (fun kv => decide (kv.1 = k)) = l'.find? (fun kv => decide (kv.1 = k)) := by
  have hn' : (l.map Prod.fst).Nodup := (hp.map Prod.fst).nodup_iff.mpr hn
  have key : ∀ (l : List (List Char × List Char)), (l.map Prod.fst).Nodup → ∀ kv ∈ l, kv.1 = k → l.find? (fun kv => decide (kv.1 = k)) = some kv := by
    intro l hl kv hm he
    induction l with
    | nil => cases hm
    | cons x l ih =>
      rw [List.map_cons, List.nodup_cons] at hl
      rcases List.mem_cons.mp hm with rfl | hm
      · rw [List.find?_cons_of_pos (by simpa using he)]
      · rw [List.find?_cons_of_neg ?_]
        · exact ih hl.2 hm
        · intro hx
          have hx := of_decide_eq_true hx
          exact hl.1 (hx.trans he.symm ▸ List.mem_map_of_mem hm)
  cases h : l'.find? (fun kv => decide (kv.1 = k)) with
  | none =>
    rw [List.find?_eq_none] at h ⊢
    exact fun x hx => h x (hp.mem_iff.mp hx)
  | some kv =>
    have h1 := List.mem_of_find?_eq_some h
    have h2 : kv.1 = k := by simpa using List.find?_some h
    exact key l hn' kv (hp.mem_iff.mpr h1) h2

theorem find_attrsRead (r : Reading) (a : Attrs) (k : String) :
    ((attrsRead r a).find? (fun kv => decide (kv.1 = k.toList))).map Prod.snd = (aget k a).map (fun v => r.attr v.toList) := by
  induction a with
  | nil => rfl
  | cons kv a ih =>
    obtain ⟨x, v⟩ := kv
    rw [aget]
    by_cases e : x = k
    · subst e
      simp [attrsRead]
    · rw [if_neg e, ← ih, attrsRead, List.map_cons, List.find?_cons_of_neg (by simpa [String.toList_inj] using e)]
      rfl

theorem readKeys_nodup {r : Reading} {a : Attrs} (h : (a.map Prod.fst).Nodup) : ((attrsRead r a).map Prod.fst).Nodup := by
  have : (attrsRead r a).map Prod.fst = (a.map Prod.fst).map String.toList := by simp [attrsRead]
  rw [this]
  exact nodup_toList h

theorem shows_attr {r : Reading} {n : Node} {i : Item} (h : Shows r n i) (hd : ((n.attrs.getD []).map Prod.fst).Nodup) (k : String) :
    i.attrOf k = (n.attr? k).map (fun v => r.attr v.toList) := by
  obtain ⟨t, a, v, cs⟩ := n
  cases i with
  | text _ => simp [Shows] at h
  | elem m kvs content =>
    rw [Shows] at h
    have : (Node.mk t a v cs).attr? k = aget k (a.getD []) := by
      cases a <;> rfl
    rw [Item.attrOf, this, findKey_perm h.2.1 (readKeys_nodup hd), find_attrsRead]

theorem shows_words {r : Reading} (hr : r.text [] = []) {n : Node} {i : Item} (h : Shows r n i) (hc : n.children = []) :
    i.words = r.text (n.value.getD "").toList := by
  obtain ⟨t, a, v, cs⟩ := n
  cases i with
  | text _ => simp [Shows] at h
  | elem m kvs content =>
    rw [Shows] at h
    obtain ⟨_, _, rest, rfl, h3⟩ := h
    cases hc
    rw [ShowsAll] at h3
    subst h3
    cases v with
    | none => simp [textRead, Item.words, Node.value, hr]
    | some v =>
      by_cases e : v = ""
      · subst e; simp [textRead, Item.words, Node.value, hr]
      · simp [textRead, Item.words, Node.value, e, Item.chars]

theorem showsAll_map {α : Type} {r : Reading} {f : Item → α} {g : Node → α} {cs : List Node} {l : List Item} (h : ShowsAll r cs l)
    (hfg : ∀ n ∈ cs, ∀ i, Shows r n i → f i = g n) : l.map f = cs.map g := by
  induction cs generalizing l with
  | nil => rw [ShowsAll] at h; subst h; rfl
  | cons c cs ih =>
    cases l with
    | nil => simp [ShowsAll] at h
    | cons i l =>
      rw [ShowsAll] at h
      rw [List.map_cons, List.map_cons, hfg c (List.mem_cons_self ..) i h.1, ih h.2 (fun n hn => hfg n (List.mem_cons_of_mem _ hn))]

theorem showsAll_flatMap {α : Type} {r : Reading} {f : Item → List α} {g : Node → List α} {cs : List Node} {l : List Item} (h : ShowsAll r cs l)
    (hfg : ∀ n ∈ cs, ∀ i, Shows r n i → f i = g n) : l.flatMap f = cs.flatMap g := by
  rw [List.flatMap_def, List.flatMap_def, showsAll_map h hfg]

theorem distinct_mem {cs : List Node} (h : DistinctAttrss cs) {c : Node} (hc : c ∈ cs) : DistinctAttrs c := by
  induction cs with
  | nil => cases hc
  | cons d cs ih =>
    rw [DistinctAttrss] at h
    rcases List.mem_cons.mp hc with rfl | hc
    · exact h.1
    · exact ih h.2 hc

theorem distinct_kids {n c : Node} (h : DistinctAttrs n) (hc : c ∈ n.children) : DistinctAttrs c := by
  obtain ⟨t, a, v, cs⟩ := n
  rw [DistinctAttrs] at h
  exact distinct_mem h.2 hc

theorem distinct_attrs {n : Node} (h : DistinctAttrs n) : ((n.attrs.getD []).map Prod.fst).Nodup := by
  obtain ⟨t, a, v, cs⟩ := n
  rw [DistinctAttrs] at h
  exact h.1

/-! ## Elements written once or read and written again -/

/-- The element as saved, or as read again. -/
def seenNode (again : Bool) (n : Node) : Node := if again then reload n else n

/-- Its text. -/
def seenText (again : Bool) (v : String) : List Char := if again then trimXml v.toList else v.toList

theorem seenNode_tag (b : Bool) (n : Node) : (seenNode b n).tag = n.tag := by
  cases b
  · rfl
  · exact reload_tag n

theorem seenNode_children {b : Bool} {n : Node} (h : n.value = none) : (seenNode b n).children = n.children.map (seenNode b) := by
  cases b
  · exact (List.map_id _).symm
  · exact reload_children_of_none h

theorem seenNode_filter (b : Bool) (tag : String) (cs : List Node) :
    (cs.map (seenNode b)).filter (fun n => n.tag = tag) = (cs.filter (fun n => n.tag = tag)).map (seenNode b) := by
  induction cs with
  | nil => rfl
  | cons c cs ih =>
    by_cases e : c.tag = tag
    · rw [List.map_cons, List.filter_cons_of_pos (by simpa [seenNode_tag] using e), List.filter_cons_of_pos (by simpa using e), List.map_cons, ih]
    · rw [List.map_cons, List.filter_cons_of_neg (by simpa [seenNode_tag] using e), List.filter_cons_of_neg (by simpa using e), ih]

theorem seenNode_text {b : Bool} {tag v : String} : (seenNode b (.mk tag none (some v) [])).children = [] ∧
    ((seenNode b (.mk tag none (some v) [])).value.getD "").toList = seenText b v := by
  cases b
  · exact ⟨rfl, rfl⟩
  · refine ⟨rfl, ?_⟩
    change ((reloadText v).getD "").toList = trimXml v.toList
    unfold reloadText
    split
    · rename_i h; rw [h]; rfl
    · simp

/-! ## Cells -/

/-- An attribute value as saved, or as read again. -/
def seenAttr (again : Bool) (v : String) : String := if again then attrReload v else v

theorem seenNode_attr (b : Bool) {tag : String} {tbl : List (String × Option String)} {cs : List Node}
    (hw : WfNode asciiOnly (.mk tag (some (present tbl)) none cs)) (hn : (akeys tbl).Nodup) (k : String) :
    (seenNode b (.mk tag (some (present tbl)) none cs)).attr? k = (aget k tbl).join.map (seenAttr b) := by
  cases b
  · rw [show (seenNode false (.mk tag (some (present tbl)) none cs)).attr? k = aget k (present tbl) from rfl, aget_present hn]
    cases (aget k tbl).join <;> rfl
  · obtain ⟨a, ha, hk⟩ := reload_present hw hn
    exact (attr?_eq ha k).trans (hk k)

/-- Texts that stay as they are in attributes. -/
def AttrSafe (v : String) : Prop := NoSpecials v ∧ ∀ c ∈ v.toList, ¬White c

theorem quiet_read (b : Bool) {v : String} (h : AttrSafe v) : Reading.xml.attr (seenAttr b v).toList = v.toList := by
  have he : seenAttr b v = v := by
    cases b
    · rfl
    · exact escStr_eq_self h.1
  rw [he]
  have hcr : '\r' ∉ v.toList := fun hm => h.2 _ hm (by unfold White; decide)
  change (lineEnds v.toList).map whiteToSpace = v.toList
  rw [lineEnds_self hcr]
  refine (List.map_congr_left (g := id) ?_).trans (List.map_id _)
  intro c hc
  have := h.2 c hc
  unfold whiteToSpace
  rw [if_neg]
  · rfl
  · rintro (rfl | rfl | rfl) <;> exact this (by unfold White; decide)

theorem quiet_nat (n : Nat) : AttrSafe (toString n) := by
  refine ⟨noSpecials_nat n, fun c hc hw => ?_⟩
  rw [toList_toString_nat] at hc
  have hd := isDigit_of_mem_decimal hc
  rcases hw with rfl | rfl | rfl | rfl <;> revert hd <;> decide

theorem quiet_ref (row : Nat) {col : Nat} (h : col ≠ 0) : AttrSafe (cellRef row col) := by
  refine ⟨noSpecials_cellRef row h, fun c hc hw => ?_⟩
  obtain ⟨l, h1, _, h3, _⟩ := cellRef_text (row := row) h
  rw [h1] at hc
  rcases List.mem_append.mp hc with hc | hc
  · have hu := h3 c hc
    rcases hw with rfl | rfl | rfl | rfl <;> revert hu <;> (unfold isUpperLetter; decide)
  · have hd := isDigit_of_mem_decimal hc
    rcases hw with rfl | rfl | rfl | rfl <;> revert hd <;> decide

theorem quiet_type (t : CellType) : AttrSafe t.text := by
  cases t <;> (unfold AttrSafe NoSpecials White CellType.text; decide +kernel)

/-- What is found for a cell of a sheet. -/
def seenOf (again : Bool) (row col : Nat) (x : CellProps) : SeenCell :=
  { row := some (Nat.toDigits 10 row), ref := some (cellRef row col).toList, style := x.style.map (Nat.toDigits 10),
    type := if x.type ≠ .number then some x.type.text.toList else none,
    formulas := if x.type = .inlineString then [] else (x.formula.map (fun f => lineEnds (seenText again f))).toList,
    text := lineEnds (seenText again (x.value.getD "")) }

theorem words_seen {b : Bool} {tag v : String} {i : Item} (h : Shows Reading.xml (seenNode b (.mk tag none (some v) [])) i) :
    i.words = lineEnds (seenText b v) := by
  rw [shows_words rfl h seenNode_text.1, seenNode_text.2]
  rfl

theorem shows_named {r : Reading} {n : Node} {i : Item} (h : Shows r n i) (tag : String) : i.named tag = decide (n.tag = tag) := by
  obtain ⟨t, a, v, cs⟩ := n
  cases i with
  | text _ => simp [Shows] at h
  | elem m kvs content =>
    rw [Shows] at h
    rw [Item.named, h.1]
    exact decide_eq_decide.mpr String.toList_inj

theorem seenText_empty (b : Bool) : seenText b "" = [] := by cases b <;> decide +kernel

/-- A string item with one text. -/
theorem stringWords_seen {b : Bool} {tag v : String} {i : Item} (h : Shows Reading.xml (seenNode b (.mk tag none none [.mk "t" none (some v) []])) i) :
    stringWords i = lineEnds (seenText b v) := by
  have hsh : ∃ m kvs j, i = .elem m kvs [j] ∧ Shows Reading.xml (seenNode b (.mk "t" none (some v) [])) j := by
    have hn : ∃ a, seenNode b (.mk tag none none [.mk "t" none (some v) []]) = .mk tag a none [seenNode b (.mk "t" none (some v) [])] := by
      cases b
      · exact ⟨_, rfl⟩
      · exact ⟨_, rfl⟩
    obtain ⟨a, hn⟩ := hn
    rw [hn] at h
    cases i with
    | text _ => simp [Shows] at h
    | elem m kvs content =>
      rw [Shows] at h
      obtain ⟨_, _, rest, e, h3⟩ := h
      cases rest with
      | nil => simp [ShowsAll] at h3
      | cons j rest =>
        rw [ShowsAll, ShowsAll] at h3
        obtain ⟨h4, rfl⟩ := h3
        exact ⟨m, kvs, j, by rw [e]; rfl, h4⟩
  obtain ⟨m, kvs, j, rfl, hj⟩ := hsh
  have : j.named "t" = true := by rw [shows_named hj, seenNode_tag]; rfl
  simp only [stringWords, List.flatMap_cons, List.flatMap_nil, List.append_nil]
  rw [if_pos this]
  exact words_seen hj

theorem cell_seen {b : Bool} {r : Nat} {kv : Nat × CellProps} {n : Node} (h : cellNode r kv = .ok n) {rowItem i : Item} (hi : Shows Reading.xml (seenNode b n) i)
    (hd : DistinctAttrs (seenNode b n)) (hr : rowItem.attrOf "r" = some (Nat.toDigits 10 r)) : seenCell rowItem i = seenOf b r kv.1 kv.2 := by
  obtain ⟨name, hn, rfl⟩ := cellNode_ok h
  have h0 : kv.1 ≠ 0 := by
    intro h0
    rw [h0] at hn
    cases hn
  have hat : ∀ k, i.attrOf k = ((aget k (cellTable (name ++ toString r) kv.2)).join.map (seenAttr b)).map (fun v => Reading.xml.attr v.toList) := by
    intro k
    rw [shows_attr hi (distinct_attrs hd) k, seenNode_attr b (wf_cellNode _ _ _) (cellTable_keys _ _)]
  have e1 : i.attrOf "r" = some (cellRef r kv.1).toList := by
    rw [hat, show (aget "r" (cellTable (name ++ toString r) kv.2)).join = some (name ++ toString r) from rfl, getColumnRef_name hn]
    exact congrArg some (quiet_read b (quiet_ref r h0))
  have e2 : i.attrOf "s" = kv.2.style.map (Nat.toDigits 10) := by
    rw [hat, show (aget "s" (cellTable (name ++ toString r) kv.2)).join = kv.2.style.map toString from rfl]
    cases kv.2.style with
    | none => rfl
    | some k => exact congrArg some ((quiet_read b (quiet_nat k)).trans (toList_toString_nat k))
  have e3 : i.attrOf "t" = if kv.2.type ≠ .number then some kv.2.type.text.toList else none := by
    rw [hat, show (aget "t" (cellTable (name ++ toString r) kv.2)).join = if kv.2.type ≠ .number then some kv.2.type.text else none from rfl]
    split
    · exact congrArg some (quiet_read b (quiet_type _))
    · rfl
  have hkids : ∀ tag, ShowsAll Reading.xml (((cellChildren kv.2).filter (fun n => n.tag = tag)).map (seenNode b)) (i.kids tag) := by
    intro tag
    have := shows_kids tag hi
    rw [seenNode_children (by rfl), seenNode_filter] at this
    exact this
  have hinl : i.attrOf "t" = some "inlineStr".toList ↔ kv.2.type = .inlineString := by
    rw [e3]
    cases kv.2.type <;> decide +kernel
  unfold seenCell seenOf
  rw [hr, e1, e2]
  simp only [hinl]
  rw [e3]
  by_cases ht : kv.2.type = .inlineString
  · have hc : cellChildren kv.2 = [.mk "is" none none [.mk "t" none (some (kv.2.value.getD "")) []]] := by
      unfold cellChildren; rw [ht]
    have hf := hkids "f"
    rw [hc, show ([Node.mk "is" none none [.mk "t" none (some (kv.2.value.getD "")) []]].filter (fun n => n.tag = "f")) = [] from rfl] at hf
    have hs := hkids "is"
    rw [hc, show ([Node.mk "is" none none [.mk "t" none (some (kv.2.value.getD "")) []]].filter (fun n => n.tag = "is")) =
      [Node.mk "is" none none [.mk "t" none (some (kv.2.value.getD "")) []]] from rfl] at hs
    rw [if_pos ht, if_pos ht]
    congr 1
    · rw [List.map_nil, ShowsAll] at hf
      rw [hf]; rfl
    · rw [showsAll_flatMap hs (g := fun _ => lineEnds (seenText b (kv.2.value.getD "")))]
      · simp
      · intro n hn j hj
        rw [List.map_cons, List.map_nil, List.mem_singleton] at hn
        subst hn
        exact stringWords_seen hj
  · have hc : cellChildren kv.2 = (match kv.2.formula with
        | none => []
        | some f => [Node.mk "f" none (some f) []]) ++ [.mk "v" none (some (kv.2.value.getD "")) []] := by
      unfold cellChildren
      cases h : kv.2.type <;> first | rfl | exact absurd h ht
    rw [if_neg ht, if_neg ht]
    have hf := hkids "f"
    have hv := hkids "v"
    rw [hc] at hf hv
    have hf' : ((match kv.2.formula with
        | none => []
        | some f => [Node.mk "f" none (some f) []]) ++ [Node.mk "v" none (some (kv.2.value.getD "")) []]).filter (fun n => n.tag = "f") =
          (kv.2.formula.map (fun f => Node.mk "f" none (some f) [])).toList := by
      cases kv.2.formula <;> rfl
    have hv' : ((match kv.2.formula with
        | none => []
        | some f => [Node.mk "f" none (some f) []]) ++ [Node.mk "v" none (some (kv.2.value.getD "")) []]).filter (fun n => n.tag = "v") =
          [Node.mk "v" none (some (kv.2.value.getD "")) []] := by
      cases kv.2.formula <;> rfl
    rw [hf'] at hf
    rw [hv'] at hv
    congr 1
    · cases hfo : kv.2.formula with
      | none =>
        rw [hfo] at hf
        simp only [Option.map_none, Option.toList_none, List.map_nil, ShowsAll] at hf
        rw [hf]; rfl
      | some f =>
        rw [hfo] at hf
        rw [showsAll_map hf (g := fun _ => lineEnds (seenText b f))]
        · rfl
        · intro n hn j hj
          simp only [Option.map_some, Option.toList_some, List.map_cons, List.map_nil, List.mem_singleton] at hn
          subst hn
          exact words_seen hj
    · rw [showsAll_flatMap hv (g := fun _ => lineEnds (seenText b (kv.2.value.getD "")))]
      · simp
      · intro n hn j hj
        rw [List.map_cons, List.map_nil, List.mem_singleton] at hn
        subst hn
        exact words_seen hj

/-! ## The cells of a sheet -/

/-- Rows, columns and cells of a sheet in the order they are written. -/
def cellPlaces (s : Sheet) : List (Nat × Nat × CellProps) :=
  (s.data.getD []).flatMap (fun kv => (kv.2.cells.getD []).map (fun c => (kv.1, c.1, c.2)))

theorem mapRes_shows {α β : Type} {b : Bool} {r : Reading} {f : α → Res Node} {l : List α} {ns : List Node} {items : List Item} (h : mapRes f l = .ok ns)
    (hs : ShowsAll r (ns.map (seenNode b)) items) {F : Item → β} {G : α → β}
    (he : ∀ x ∈ l, ∀ n ∈ ns, f x = .ok n → ∀ i, Shows r (seenNode b n) i → F i = G x) : items.map F = l.map G := by
  induction l generalizing ns items with
  | nil =>
    cases h
    rw [List.map_nil, ShowsAll] at hs
    subst hs
    rfl
  | cons a l ih =>
    rw [mapRes] at h
    split at h
    · cases h
    · rename_i n hn
      split at h
      · cases h
      · rename_i ns' hns
        cases h
        cases items with
        | nil => simp [ShowsAll] at hs
        | cons i items =>
          rw [List.map_cons, ShowsAll] at hs
          rw [List.map_cons, List.map_cons, he a (List.mem_cons_self ..) n (List.mem_cons_self ..) hn i hs.1,
            ih hns hs.2 (fun x hx m hm => he x (List.mem_cons_of_mem _ hx) m (List.mem_cons_of_mem _ hm))]

theorem filter_all {l : List Node} {tag : String} (h : ∀ n ∈ l, n.tag = tag) : l.filter (fun n => n.tag = tag) = l :=
  List.filter_eq_self.mpr fun n hn => by simpa using h n hn

theorem row_seen {b : Bool} {kv : Nat × RowData} {n : Node} (h : rowNode kv = .ok n) {i : Item} (hi : Shows Reading.xml (seenNode b n) i)
    (hd : DistinctAttrs (seenNode b n)) : (i.kids "c").map (seenCell i) = (kv.2.cells.getD []).map (fun c => seenOf b kv.1 c.1 c.2) := by
  obtain ⟨cs, hcs, rfl⟩ := rowNode_ok h
  have hr : i.attrOf "r" = some (Nat.toDigits 10 kv.1) := by
    rw [shows_attr hi (distinct_attrs hd) "r", seenNode_attr b (wf_rowNode _ h) (rowTable_keys _ _),
      show (aget "r" (rowTable kv.1 kv.2.props)).join = some (toString kv.1) from rfl]
    exact congrArg some ((quiet_read b (quiet_nat kv.1)).trans (toList_toString_nat kv.1))
  have hk := shows_kids "c" hi
  have hch : (seenNode b (.mk "row" (some (present (rowTable kv.1 kv.2.props))) none cs)).children = cs.map (seenNode b) := seenNode_children (by rfl)
  have hc : ∀ n ∈ cs, n.tag = "c" := by
    apply mapRes_all hcs
    intro x _ y hy
    obtain ⟨name, _, rfl⟩ := cellNode_ok hy
    rfl
  rw [hch, seenNode_filter, filter_all hc] at hk
  refine mapRes_shows hcs hk ?_
  intro x _ n hn hx j hj
  exact cell_seen hx hj (distinct_kids hd (by rw [hch]; exact List.mem_map_of_mem hn)) hr

theorem place_tags {ref : String} {cols : Option (List ColProps)} {views : List View} {rows : Option (List Node)} :
    (placeSheetParts ref cols views rows []).filter (fun n => n.tag = "sheetData") = dataNodes rows := by
  rw [place_filter _ _ _ _ _ (by simp), if_neg (by decide), if_neg (by decide), if_neg (by decide), if_pos rfl]

/-- The cells another program finds are the cells of the sheet saved. -/
theorem cells_seen {b : Bool} {s : Sheet} {xd : XDoc} (h : s.save bareDoc = .ok xd) {root : Node} (hroot : xd.root = some root) {ns : Attrs} {item : Item}
    (hs : ShowsRoot Reading.xml ns (seenNode b root) item) (hd : DistinctAttrs (seenNode b root)) :
    seenCells item = (cellPlaces s).map (fun p => seenOf b p.1 p.2.1 p.2.2) := by
  obtain ⟨ref, root0, rows, _, h2, h3, rfl⟩ := save_ok h
  cases h2
  have hr : root = .mk "worksheet" (some []) none (placeSheetParts ref s.cols s.views rows []) := by
    unfold XDoc.mapRootChildren at hroot
    rw [(wf_bareDoc asciiOnly).isRoot] at hroot
    cases hroot
    rfl
  subst hr
  have hch : (seenNode b (.mk "worksheet" (some []) none (placeSheetParts ref s.cols s.views rows []))).children =
    (placeSheetParts ref s.cols s.views rows []).map (seenNode b) := seenNode_children (by rfl)
  have hk := showsRoot_kids "sheetData" hs
  rw [hch, seenNode_filter, place_tags] at hk
  unfold seenCells cellPlaces
  cases hdata : s.data with
  | none =>
    rw [hdata] at h3
    subst h3
    simp only [dataNodes, List.map_nil, ShowsAll] at hk
    rw [hk]
    rfl
  | some d =>
    rw [hdata] at h3
    obtain ⟨nodes, rfl, hn⟩ := h3
    simp only [dataNodes, List.map_cons, List.map_nil] at hk
    cases hkid : item.kids "sheetData" with
    | nil => rw [hkid] at hk; simp [ShowsAll] at hk
    | cons j l =>
      rw [hkid, ShowsAll, ShowsAll] at hk
      obtain ⟨hj, rfl⟩ := hk
      have hk2 := shows_kids "row" hj
      have hrows : ∀ n ∈ nodes, n.tag = "row" := by
        apply mapRes_all hn
        intro x _ y hy
        obtain ⟨cs, _, rfl⟩ := rowNode_ok hy
        rfl
      have hch2 : (seenNode b (.mk "sheetData" none none nodes)).children = nodes.map (seenNode b) := seenNode_children (by rfl)
      rw [hch2, seenNode_filter, filter_all hrows] at hk2
      have hdd : DistinctAttrs (seenNode b (.mk "sheetData" none none nodes)) := by
        refine distinct_kids hd ?_
        rw [hch]
        have hm : Node.mk "sheetData" none none nodes ∈ (placeSheetParts ref s.cols s.views (some nodes) []).filter (fun n => n.tag = "sheetData") := by
          rw [place_tags]
          exact List.mem_singleton.mpr rfl
        exact List.mem_map_of_mem (List.mem_filter.mp hm).1
      have hdr : ∀ n ∈ nodes, DistinctAttrs (seenNode b n) := by
        intro n hnm
        refine distinct_kids hdd ?_
        rw [hch2]
        exact List.mem_map_of_mem hnm
      have := mapRes_shows hn hk2 (F := fun row => (row.kids "c").map (seenCell row)) (G := fun kv => (kv.2.cells.getD []).map (fun c => seenOf b kv.1 c.1 c.2)) (by
        intro x _ n hnm hx i hi
        exact row_seen hx hi (hdr n hnm))
      simp only [List.flatMap_cons, List.flatMap_nil, List.append_nil, Option.getD_some]
      rw [List.flatMap_def, this, List.map_flatMap, List.flatMap_def]
      congr 1
      apply List.map_congr_left
      intro kv _
      rw [List.map_map]
      rfl

/-- A cell of a sorted sheet is at one place. -/
theorem cellPlaces_at {s : Sheet} (hs : SortedSheet s) (r c : Nat) :
    (cellPlaces s).filter (fun p => decide (p.1 = r ∧ p.2.1 = c)) = ((cellAt s r c).map (fun x => (r, c, x))).toList := by
  have one : ∀ {V : Type} (l : List (Nat × V)), SortedKeys l → ∀ k, l.filter (fun kv => decide (kv.1 = k)) = ((aget k l).map (fun v => (k, v))).toList := by
    intro V l hl k
    induction l with
    | nil => rfl
    | cons kv l ih =>
      obtain ⟨k', v⟩ := kv
      have hl' := List.pairwise_cons.mp hl
      rw [aget]
      by_cases e : k' = k
      · subst e
        rw [List.filter_cons_of_pos (by simp), if_pos rfl]
        have : l.filter (fun kv => decide (kv.1 = k')) = [] := by
          rw [List.filter_eq_nil_iff]
          intro x hx hx'
          have := hl'.1 x.1 (List.mem_map_of_mem hx)
          have hx' := of_decide_eq_true hx'
          omega
        rw [this]; rfl
      · rw [List.filter_cons_of_neg (by simpa using e), if_neg e, ih hl'.2]
  unfold cellPlaces cellAt
  cases hd : s.data with
  | none => rfl
  | some d =>
    obtain ⟨h1, h2⟩ := hs d hd
    simp only [Option.getD_some]
    have key : ∀ l : SheetRows, (l.flatMap (fun kv => (kv.2.cells.getD []).map (fun c => (kv.1, c.1, c.2)))).filter (fun p => decide (p.1 = r ∧ p.2.1 = c)) =
        (l.filter (fun kv => decide (kv.1 = r))).flatMap (fun kv => ((kv.2.cells.getD []).filter (fun x => decide (x.1 = c))).map (fun c => (kv.1, c.1, c.2))) := by
      intro l
      induction l with
      | nil => rfl
      | cons kv l ih =>
        rw [List.flatMap_cons, List.filter_append, ih]
        by_cases e : kv.1 = r
        · rw [List.filter_cons_of_pos (by simpa using e), List.flatMap_cons, List.filter_map]
          congr 2
          apply List.filter_congr
          intro x _
          simp [e]
        · rw [List.filter_cons_of_neg (by simpa using e), List.filter_eq_nil_iff.mpr, List.nil_append]
          intro x hx
          obtain ⟨y, _, rfl⟩ := List.mem_map.mp hx
          simp [e]
    rw [key, one d h1 r]
    cases ha : aget r d with
    | none => rfl
    | some rd =>
      simp only [Option.map_some, Option.toList_some, List.flatMap_cons, List.flatMap_nil, List.append_nil]
      cases hc : rd.cells with
      | none => rfl
      | some cs =>
        simp only [Option.getD_some]
        rw [one cs (h2 r rd cs ha hc) c]
        cases aget c cs <;> rfl

theorem places_pos {s : Sheet} {x xd : XDoc} (h : s.save x = .ok xd) : ∀ p ∈ cellPlaces s, p.2.1 ≠ 0 := by
  obtain ⟨_, _, rows, _, _, h3, _⟩ := save_ok h
  intro p hp h0
  obtain ⟨kv, hkv, hp⟩ := List.mem_flatMap.mp hp
  obtain ⟨c, hc, rfl⟩ := List.mem_map.mp hp
  cases hd : s.data with
  | none => rw [hd] at hkv; cases hkv
  | some d =>
    rw [hd] at h3 hkv
    obtain ⟨ns, _, hn⟩ := h3
    obtain ⟨n, _, hn⟩ := mapRes_mem' hn kv hkv
    obtain ⟨cs, hcs, _⟩ := rowNode_ok hn
    obtain ⟨m, _, hm⟩ := mapRes_mem' hcs c hc
    obtain ⟨name, hname, _⟩ := cellNode_ok hm
    simp only at h0
    rw [h0] at hname
    cases hname

/-- The cells found under a reference. -/
theorem cells_at {b : Bool} {s : Sheet} (hs : SortedSheet s) {x xd : XDoc} (h : s.save x = .ok xd) {t : List Char} {r c : Nat} (ht : RefText t r c) :
    ((cellPlaces s).map (fun p => seenOf b p.1 p.2.1 p.2.2)).filter (fun q => decide (q.ref = some t)) = ((cellAt s r c).map (seenOf b r c)).toList := by
  rw [List.filter_map]
  have : (cellPlaces s).filter ((fun q : SeenCell => decide (q.ref = some t)) ∘ fun p => seenOf b p.1 p.2.1 p.2.2) =
      (cellPlaces s).filter (fun p => decide (p.1 = r ∧ p.2.1 = c)) := by
    apply List.filter_congr
    intro p hp
    simp only [Function.comp, seenOf]
    refine decide_eq_decide.mpr ?_
    constructor
    · intro e
      have h1 := cellRef_text (row := p.1) (places_pos h p hp)
      rw [Option.some.inj e] at h1
      exact refText_inj h1 ht
    · rintro ⟨e1, e2⟩
      have := (refText_eq (t := String.ofList t) (by rwa [String.toList_ofList])).1
      rw [e1, e2, ← this, String.toList_ofList]
  rw [this, cellPlaces_at hs]
  cases cellAt s r c <;> rfl

/-! ## Strings -/

theorem items_seen {table : List String} {l : List Item} (hk : ShowsAll Reading.xml (table.map siNode) l) :
    l.map stringWords = table.map (fun t => lineEnds t.toList) := by
  induction table generalizing l with
  | nil => rw [List.map_nil, ShowsAll] at hk; subst hk; rfl
  | cons t table ih =>
    cases l with
    | nil => simp [ShowsAll] at hk
    | cons i l =>
      rw [List.map_cons, ShowsAll] at hk
      rw [List.map_cons, List.map_cons, ih hk.2]
      congr 1
      exact stringWords_seen (b := false) hk.1

theorem strings_seen {table : List String} {ns : Attrs} {root : Node} (hroot : (stringsSaved table).root = some root) {item : Item}
    (hs : ShowsRoot Reading.xml ns root item) : sharedStrings item = table.map (fun t => lineEnds t.toList) := by
  have hr : root = .mk "sst" (some [("count", toString table.length), ("uniqueCount", toString (distinctCount table))]) none (table.map siNode) := by
    cases hroot
    rfl
  subst hr
  have hk := showsRoot_kids "si" hs
  rw [show (Node.mk "sst" (some [("count", toString table.length), ("uniqueCount", toString (distinctCount table))]) none (table.map siNode)).children = table.map siNode from rfl,
    filter_all (fun n hn => by obtain ⟨t, _, rfl⟩ := List.mem_map.mp hn; rfl)] at hk
  exact items_seen hk

theorem digits_inj {i j : Nat} (h : Nat.toDigits 10 i = Nat.toDigits 10 j) : i = j := by
  refine toString_nat_inj ?_
  rw [← String.toList_inj, toList_toString_nat, toList_toString_nat, h]

theorem sharedString_at {strings : List (List Char)} {i : Nat} {t : List Char} (h : strings[i]? = some t) : sharedString strings (Nat.toDigits 10 i) = some t := by
  have hi : i < strings.length := by
    refine Classical.byContradiction fun hn => ?_
    rw [List.getElem?_eq_none (Nat.le_of_not_lt hn)] at h
    cases h
  unfold sharedString
  have hf : (List.range strings.length).find? (fun k => decide (Nat.toDigits 10 k = Nat.toDigits 10 i)) = some i := by
    cases he : (List.range strings.length).find? (fun k => decide (Nat.toDigits 10 k = Nat.toDigits 10 i)) with
    | none =>
      rw [List.find?_eq_none] at he
      exact absurd (decide_eq_true rfl) (he i (List.mem_range.mpr hi))
    | some k =>
      have hk : Nat.toDigits 10 k = Nat.toDigits 10 i := by simpa using List.find?_some he
      rw [digits_inj hk]
  rw [hf]
  exact h

/-! ## Values -/

theorem float_black {s : List Char} (h : FloatText s) : ∀ c ∈ s, ¬White c := by
  obtain ⟨sign, body, rfl, hs, hb⟩ := h
  have hsign : ∀ s : List Char, SignText s → ∀ c ∈ s, ¬White c := by
    intro s hs c hc
    rcases hs with rfl | rfl | rfl
    · cases hc
    · have : c = '+' := by simpa using hc
      subst this; unfold White; decide
    · have : c = '-' := by simpa using hc
      subst this; unfold White; decide
  have hdig : ∀ s : List Char, DigitText s → ∀ c ∈ s, ¬White c := by
    intro s hs c hc hw
    have := hs c hc
    rcases hw with rfl | rfl | rfl | rfl <;> revert this <;> decide
  have hexp : ∀ s : List Char, ExponentText s → ∀ c ∈ s, ¬White c := by
    intro s hs c hc
    rcases hs with rfl | ⟨e, sg, ds, rfl, h1, h2, h3, _⟩
    · cases hc
    · rcases List.mem_cons.mp hc with rfl | hc
      · rcases h1 with rfl | rfl <;> (unfold White; decide)
      · rcases List.mem_append.mp hc with hc | hc
        · exact hsign _ h2 c hc
        · exact hdig _ h3 c hc
  intro c hc
  rcases List.mem_append.mp hc with hc | hc
  · exact hsign _ hs c hc
  · rcases hb with hw | ⟨ip, exp, h1, h2, h3⟩
    · have hl : asciiLower c ∈ "infinityan".toList := by
        have hm : asciiLower c ∈ body.map asciiLower := List.mem_map.mpr ⟨c, hc, rfl⟩
        rcases hw with h | h | h <;> rw [h] at hm <;> revert hm <;> generalize asciiLower c = x <;> simp <;> grind
      intro hw
      rcases hw with rfl | rfl | rfl | rfl <;> revert hl <;> decide
    · rcases h3 with ⟨rfl, _⟩ | ⟨fp, h4, rfl, _⟩
      · rcases List.mem_append.mp hc with hc | hc
        · exact hdig _ h1 c hc
        · exact hexp _ h2 c hc
      · rcases List.mem_append.mp hc with hc | hc
        · exact hdig _ h1 c hc
        · rcases List.mem_cons.mp hc with rfl | hc
          · unfold White; decide
          · rcases List.mem_append.mp hc with hc | hc
            · exact hdig _ h4 c hc
            · exact hexp _ h2 c hc

theorem trim_black {s : List Char} (h : ∀ c ∈ s, ¬White c) : trimXml s = s := by
  have hd : ∀ l : List Char, (∀ c ∈ l, ¬White c) → l.dropWhile isXmlSpace = l := by
    intro l hl
    cases l with
    | nil => rfl
    | cons c l =>
      rw [List.dropWhile_cons_of_neg]
      intro hx
      refine hl c (List.mem_cons_self ..) ?_
      simp only [isXmlSpace, Bool.or_eq_true, decide_eq_true_eq] at hx
      rcases hx with ((rfl | rfl) | rfl) | rfl <;> (unfold White; decide)
  unfold trimXml
  rw [hd s h, hd s.reverse (fun c hc => h c (List.mem_reverse.mp hc)), List.reverse_reverse]

/-- Texts without white space are found as they are. -/
theorem seen_black (b : Bool) {v : String} (h : ∀ c ∈ v.toList, ¬White c) : lineEnds (seenText b v) = v.toList := by
  have : seenText b v = v.toList := by
    cases b
    · rfl
    · exact trim_black h
  rw [this]
  exact lineEnds_self (fun hm => h _ hm (by unfold White; decide))

theorem seen_clean {b : Bool} {v : String} (h : b = true → trimXml v.toList = v.toList) : lineEnds (seenText b v) = lineEnds v.toList := by
  cases b
  · rfl
  · rw [show seenText true v = trimXml v.toList from rfl, h rfl]

theorem nat_black (n : Nat) : ∀ c ∈ (toString n).toList, ¬White c := (quiet_nat n).2

theorem number_nonempty {s : List Char} (h : NumberText s) : s ≠ [] := by
  obtain ⟨_, c, hc, _⟩ := h
  exact List.ne_nil_of_mem hc

theorem holds_shared {table : List String} {strings : List (List Char)} (ht : strings = table.map (fun t => lineEnds t.toList)) {b : Bool} {row col : Nat} {st : CellProps}
    {v t : String} (h1 : st.type = .shareString) (h2 : st.value = some t) (h3 : IndexOf table t v) :
    (seenOf b row col st).holds strings = .text (lineEnds v.toList) := by
  obtain ⟨i, rfl, hi⟩ := h3
  have e1 : (seenOf b row col st).text = Nat.toDigits 10 i := by
    simp only [seenOf, h2, Option.getD_some]
    rw [seen_black b (nat_black i), toList_toString_nat]
  have e2 : (seenOf b row col st).type = some "s".toList := by
    simp only [seenOf, h1]; rfl
  have hs : strings[i]? = some (lineEnds v.toList) := by
    rw [ht, List.getElem?_map, hi]; rfl
  unfold SeenCell.holds
  rw [e1, e2]
  simp only [Option.getD_some]
  rw [if_neg (by decide), if_neg (by decide), if_neg (by decide), if_neg (by decide), if_pos trivial, sharedString_at hs]

theorem holds_number {strings : List (List Char)} {b : Bool} {row col : Nat} {st : CellProps} {v : String} (h1 : st.type = .number) (h2 : st.value = some v)
    (h3 : NumberText v.toList) : (seenOf b row col st).holds strings = .number v.toList := by
  have e1 : (seenOf b row col st).text = v.toList := by
    simp only [seenOf, h2, Option.getD_some]
    exact seen_black b (float_black h3.1)
  have e2 : (seenOf b row col st).type = none := by
    simp only [seenOf, h1]; rfl
  unfold SeenCell.holds
  rw [e1, e2]
  simp only [Option.getD_none]
  rw [if_pos trivial, if_neg (number_nonempty h3), if_pos h3]

theorem holds_bool {strings : List (List Char)} {b : Bool} {row col : Nat} {st : CellProps} {f : Bool} (h1 : st.type = .boolean)
    (h2 : st.value = some (if f then "1" else "0")) : (seenOf b row col st).holds strings = .bool f := by
  have hb : ∀ c ∈ (if f then "1" else "0" : String).toList, ¬White c := by
    cases f
    · exact nat_black 0
    · exact nat_black 1
  have e1 : (seenOf b row col st).text = (if f then "1" else "0" : String).toList := by
    simp only [seenOf, h2, Option.getD_some]
    exact seen_black b hb
  have e2 : (seenOf b row col st).type = some "b".toList := by
    simp only [seenOf, h1]; rfl
  unfold SeenCell.holds
  rw [e1, e2]
  simp only [Option.getD_some]
  rw [if_neg (by decide), if_pos trivial]
  cases f
  · rw [if_neg (by decide), if_pos (by decide)]
  · rw [if_pos (by decide)]

/-- The cell found for a cell given to the library. -/
theorem found_stored {table : List String} {strings : List (List Char)} (ht : strings = table.map (fun t => lineEnds t.toList)) {b : Bool} {row col : Nat}
    {given st : CellProps} (h : StoredAs table given st) (hn : NumbersAreNumbers given) (hb : b = true → CleanEdges given) :
    FoundAs strings row given (seenOf b row col st) := by
  obtain ⟨hf, hsty, _, _, _, _, hv⟩ := h
  have hform : (st.type = .inlineString ↔ given.type = .inlineString ∧ given.value ≠ none) →
      (seenOf b row col st).formulas = wantedFormulas given := by
    intro hi
    simp only [seenOf, wantedFormulas, hi]
    split
    · rfl
    · rw [hf]
      cases hg : given.formula with
      | none => rfl
      | some f => simp only [Option.map_some]; rw [seen_clean (fun e => (hb e).1 f hg)]
  refine ⟨rfl, by simp only [seenOf, hsty], ?_, ?_⟩
  · refine hform ?_
    cases hg : given.value with
    | none =>
      rw [hg] at hv
      simp [hv.1]
    | some v =>
      rw [hg] at hv
      simp only at hv
      cases hty : given.type <;> rw [hty] at hv <;> simp only at hv
      · rcases hv with ⟨_, h, _⟩ | ⟨_, h, _⟩ | ⟨_, h, _⟩ | ⟨_, _, _, h, _⟩ <;> simp [h]
      all_goals simp [hv.1]
  · unfold wantedValue
    cases hg : given.value with
    | none =>
      rw [hg] at hv
      have e1 : (seenOf b row col st).text = [] := by
        simp only [seenOf, hv.2, Option.getD_none, seenText_empty]; rfl
      have e2 : (seenOf b row col st).type = none := by simp only [seenOf, hv.1]; rfl
      unfold SeenCell.holds
      rw [e1, e2]
      simp
    | some v =>
      rw [hg] at hv
      simp only at hv ⊢
      have hnum : (given.type = .number ∨ given.type = .auto ∧ FloatText v.toList) → NumberText v.toList := hn v hg
      have htext : ∀ (ty : CellType), given.type = ty → ty = .string ∨ ty = .inlineString ∨ ty = .error → st.value = some v →
          (seenOf b row col st).text = lineEnds v.toList := by
        intro ty e1 e2 e3
        simp only [seenOf, e3, Option.getD_some]
        exact seen_clean (fun e => (hb e).2 v hg (by rw [e1]; exact e2))
      cases hty : given.type <;> rw [hty] at hv <;> simp only at hv ⊢
      · rcases hv with ⟨h1, h2, h3⟩ | ⟨h1, h2, h3⟩ | ⟨h1, h2, h3⟩ | ⟨h0, h1, h2, h3, t, h4, h5⟩
        · rw [if_pos h1]
          exact holds_number h2 h3 (hnum (.inr ⟨hty, h1⟩))
        · subst h1
          rw [if_neg (fun h => by have := (isFloatText_iff "true").mpr h; revert this; decide +kernel), if_pos rfl]
          exact holds_bool (f := true) h2 h3
        · subst h1
          rw [if_neg (fun h => by have := (isFloatText_iff "false").mpr h; revert this; decide +kernel), if_neg (by decide), if_pos rfl]
          exact holds_bool (f := false) h2 h3
        · rw [if_neg h0, if_neg h1, if_neg h2]
          exact holds_shared ht h3 h4 h5
      · exact holds_number hv.1 hv.2 (hnum (.inl hty))
      · refine holds_bool hv.1 ?_
        rw [hv.2]
        by_cases hm : v.toList.map asciiLower ∈ ["false".toList, "0".toList, []]
        · rw [if_pos hm, decide_eq_false (fun h => h hm)]; rfl
        · rw [if_neg hm, decide_eq_true hm]; rfl
      · have e1 := htext _ hty (.inl rfl) hv.2
        have e2 : (seenOf b row col st).type = some "str".toList := by simp only [seenOf, hv.1]; rfl
        unfold SeenCell.holds
        rw [e1, e2]
        simp only [Option.getD_some]
        rw [if_neg (by decide), if_neg (by decide), if_neg (by decide), if_pos (by decide)]
      · obtain ⟨h1, t, h2, h3⟩ := hv
        exact holds_shared ht h1 h2 h3
      · have e1 := htext _ hty (.inr (.inl rfl)) hv.2
        have e2 : (seenOf b row col st).type = some "inlineStr".toList := by simp only [seenOf, hv.1]; rfl
        unfold SeenCell.holds
        rw [e1, e2]
        simp only [Option.getD_some]
        rw [if_neg (by decide), if_neg (by decide), if_neg (by decide), if_pos (by decide)]
      · have e1 := htext _ hty (.inr (.inr rfl)) hv.2
        have e2 : (seenOf b row col st).type = some "e".toList := by simp only [seenOf, hv.1]; rfl
        unfold SeenCell.holds
        rw [e1, e2]
        simp only [Option.getD_some]
        rw [if_neg (by decide), if_neg (by decide), if_pos (by decide)]

end Oxml
