import Verif.Proofs.Worksheet
import Verif.Proofs.XmlSpec
import Verif.Props.Xml
/-!
# What closing a sheet writes
-/
namespace Oxml
open Spec

theorem mapRes_get {α β : Type} {f : α → Res β} {l : List α} {r : List β} (h : mapRes f l = .ok r) :
    r.length = l.length ∧ ∀ (i : Nat) (x : α) (y : β), l[i]? = some x → r[i]? = some y → f x = .ok y := by
  induction l generalizing r with
  | nil => cases h; simp
  | cons a as ih =>
    rw [mapRes] at h
    cases ha : f a with
    | error e => rw [ha] at h; cases h
    | ok b =>
      rw [ha] at h
      simp only at h
      cases hs : mapRes f as with
      | error e => rw [hs] at h; cases h
      | ok bs =>
        rw [hs] at h
        cases h
        obtain ⟨h1, h2⟩ := ih hs
        refine ⟨by simp [h1], ?_⟩
        intro i x y hx hy
        cases i with
        | zero => simp at hx hy; subst hx; subst hy; exact ha
        | succ j => simp at hx hy; exact h2 j x y hx hy

theorem mem_of_getElem? {α : Type} {l : List α} {i : Nat} {x : α} (h : l[i]? = some x) : x ∈ l := by
  obtain ⟨hi, rfl⟩ := List.getElem?_eq_some_iff.mp h
  exact List.getElem_mem hi

theorem mapRes_all {α β : Type} {f : α → Res β} {l : List α} {r : List β} (h : mapRes f l = .ok r) (P : β → Prop)
    (hP : ∀ x ∈ l, ∀ y, f x = .ok y → P y) : ∀ y ∈ r, P y := by
  intro y hy
  obtain ⟨h1, h2⟩ := mapRes_get h
  obtain ⟨i, hi, rfl⟩ := List.mem_iff_getElem.mp hy
  have hi' : i < l.length := by omega
  exact hP l[i] (List.getElem_mem hi') _ (h2 i _ _ (List.getElem?_eq_getElem hi') (List.getElem?_eq_getElem hi))

/-! ### Attribute tables -/

theorem akeys_present (tbl : List (String × Option String)) : (akeys (present tbl)).Sublist (akeys tbl) := by
  induction tbl with
  | nil => exact List.Sublist.refl _
  | cons kv tbl ih =>
    obtain ⟨k, v⟩ := kv
    cases v with
    | none => exact ih.cons _
    | some v => exact ih.cons₂ k

theorem aget_present {tbl : List (String × Option String)} (h : (akeys tbl).Nodup) (k : String) :
    aget k (present tbl) = (aget k tbl).join := by
  induction tbl with
  | nil => rfl
  | cons kv tbl ih =>
    obtain ⟨j, v⟩ := kv
    have hj : j ∉ akeys tbl := (List.nodup_cons.mp h).1
    have hn := (List.nodup_cons.mp h).2
    by_cases hk : j = k
    · subst hk
      cases v with
      | none =>
        have e : present ((j, none) :: tbl) = present tbl := rfl
        rw [e, ih hn]
        simp only [aget, if_true, Option.join]
        rw [(aget_eq_none_iff _ _).mpr hj]
        rfl
      | some v =>
        have e : present ((j, some v) :: tbl) = (j, v) :: present tbl := rfl
        rw [e]; simp [aget]
    · cases v with
      | none =>
        have e : present ((j, none) :: tbl) = present tbl := rfl
        rw [e, ih hn]; simp [aget, hk]
      | some v =>
        have e : present ((j, some v) :: tbl) = (j, v) :: present tbl := rfl
        rw [e]; simp [aget, hk, ih hn]

/-! ### References -/

theorem colRef_text {n : Nat} {name : String} (h : getColumnRef n = .ok name) (row : Nat) :
    RefText (name ++ toString row).toList row n := by
  by_cases h0 : n = 0
  · subst h0; cases h
  · rw [getColumnRef_pos n h0] at h
    cases h
    refine ⟨columnRefLoop n n [], ?_, columnRefLoop_ne_nil n n (Nat.le_refl _) h0, columnRefLoop_upper n n [] (by simp),
      columnValue_columnRefLoop n n (Nat.le_refl _)⟩
    rw [String.toList_append, String.toList_ofList, toList_toString_nat]

theorem dimensionRef_text {s : Sheet} {ref : String} (h : s.dimensionRef = .ok ref) :
    (s.data.bind rowBounds = none ∧ ref = "A1") ∨
    ∃ r1 r2, s.data.bind rowBounds = some (r1, r2) ∧ s.dim.1 ≠ 0 ∧ s.dim.2 ≠ 0 ∧ RangeText ref r1 s.dim.1 r2 s.dim.2 := by
  unfold Sheet.dimensionRef at h
  split at h
  · rename_i hn; cases h; exact Or.inl ⟨hn, rfl⟩
  · rename_i r1 r2 hb
    split at h
    · rename_i a b ha hb'
      cases h
      refine Or.inr ⟨r1, r2, hb, ?_, ?_, a.toList ++ Nat.toDigits 10 r1, (b ++ toString r2).toList, ?_, ?_, colRef_text hb' r2⟩
      · intro h0; rw [h0] at ha; cases ha
      · intro h0; rw [h0] at hb'; cases hb'
      · simp only [String.toList_append, toList_toString_nat]
        simp
      · have := colRef_text ha r1
        rwa [String.toList_append, toList_toString_nat] at this
    · cases h
    · cases h

/-! ### Children of the root -/

theorem insertNodeAfter_filter (P : Node → Bool) (new : Node) (t : String) (cs : List Node) (h : P new = false) :
    (insertNodeAfter new t cs).filter P = cs.filter P := by
  unfold insertNodeAfter
  split
  · rename_i i _
    rw [List.filter_append, List.filter_cons_of_neg (by simp [h]), ← List.filter_append, List.take_append_drop]
  · rw [List.filter_append]; simp [h]

theorem insertNodeAfter_filter_new (P : Node → Bool) (new : Node) (t : String) (cs : List Node) (h : P new = true)
    (hc : cs.filter P = []) : (insertNodeAfter new t cs).filter P = [new] := by
  have hc' : ∀ x ∈ cs, P x = false := fun x hx => by
    have := List.filter_eq_nil_iff.mp hc x hx
    simpa using this
  unfold insertNodeAfter
  split
  · rename_i i _
    rw [List.filter_append, List.filter_cons_of_pos h, List.filter_eq_nil_iff.mpr, List.filter_eq_nil_iff.mpr]
    · rfl
    · intro x hx; simp [hc' x (List.mem_of_mem_drop hx)]
    · intro x hx; simp [hc' x (List.mem_of_mem_take hx)]
  · rw [List.filter_append, hc]; simp [h]

theorem insertNodeAfter_perm (new : Node) (t : String) (cs : List Node) : (insertNodeAfter new t cs).Perm (new :: cs) := by
  unfold insertNodeAfter
  split
  · rename_i i _
    refine List.perm_middle.trans ?_
    rw [List.take_append_drop]
  · exact List.perm_append_comm

theorem order_filter (cs : List Node) (tag : String) :
    (orderChildren Node.tag worksheetOrder cs).filter (fun n => n.tag = tag) = cs.filter (fun n => n.tag = tag) :=
  (C12_order_children Node.tag worksheetOrder cs (by decide +kernel) (by decide +kernel)).2.2 tag

/-- Insertion of the columns. -/
def putCols (cols : Option (List ColProps)) (cs : List Node) : List Node :=
  match cols with
  | some (c :: rest) => insertNodeAfter (.mk "cols" none none ((c :: rest).map colNode)) "sheetFormatPr" cs
  | _ => cs

/-- Insertion of the rows. -/
def putData (rows : Option (List Node)) (cs : List Node) : List Node :=
  match rows with
  | some ns => insertNodeAfter (.mk "sheetData" none none ns) "cols" cs
  | none => cs

/-- The children before they are put in order. -/
def placedParts (dimRef : String) (cols : Option (List ColProps)) (views : List View) (rows : Option (List Node)) (cs : List Node) : List Node :=
  putData rows (insertNodeAfter (.mk "sheetViews" none none (views.reverse.map viewNode)) "dimension"
    (putCols cols (cs ++ [.mk "dimension" (some [("ref", dimRef)]) none []])))

theorem placeSheetParts_eq (dimRef : String) (cols : Option (List ColProps)) (views : List View) (rows : Option (List Node)) (cs : List Node) :
    placeSheetParts dimRef cols views rows cs = orderChildren Node.tag worksheetOrder (placedParts dimRef cols views rows cs) := rfl

/-- The `cols` element written, if any. -/
def colsNodes (cols : Option (List ColProps)) : List Node :=
  match cols with
  | some (c :: rest) => [.mk "cols" none none ((c :: rest).map colNode)]
  | _ => []

/-- The `sheetData` element written, if any. -/
def dataNodes (rows : Option (List Node)) : List Node :=
  match rows with
  | some ns => [.mk "sheetData" none none ns]
  | none => []

theorem putCols_filter (cols : Option (List ColProps)) (cs : List Node) (P : Node → Bool) (hP : ∀ n : Node, n.tag = "cols" → P n = false) :
    (putCols cols cs).filter P = cs.filter P := by
  unfold putCols
  split
  · exact insertNodeAfter_filter _ _ _ _ (hP _ rfl)
  · rfl

theorem putCols_filter_new (cols : Option (List ColProps)) (cs : List Node) (P : Node → Bool) (hP : ∀ n : Node, n.tag = "cols" → P n = true)
    (hc : cs.filter P = []) : (putCols cols cs).filter P = colsNodes cols := by
  unfold putCols colsNodes
  split
  · exact insertNodeAfter_filter_new _ _ _ _ (hP _ rfl) hc
  · exact hc

theorem putData_filter (rows : Option (List Node)) (cs : List Node) (P : Node → Bool) (hP : ∀ n : Node, n.tag = "sheetData" → P n = false) :
    (putData rows cs).filter P = cs.filter P := by
  unfold putData
  split
  · exact insertNodeAfter_filter _ _ _ _ (hP _ rfl)
  · rfl

theorem putData_filter_new (rows : Option (List Node)) (cs : List Node) (P : Node → Bool) (hP : ∀ n : Node, n.tag = "sheetData" → P n = true)
    (hc : cs.filter P = []) : (putData rows cs).filter P = dataNodes rows := by
  unfold putData dataNodes
  split
  · exact insertNodeAfter_filter_new _ _ _ _ (hP _ rfl) hc
  · exact hc

theorem append_filter (n : Node) (cs : List Node) (P : Node → Bool) (h : P n = false) : (cs ++ [n]).filter P = cs.filter P := by
  rw [List.filter_append]; simp [h]

theorem placedParts_unmanaged (dimRef : String) (cols : Option (List ColProps)) (views : List View) (rows : Option (List Node)) (cs : List Node)
    (P : Node → Bool) (hP : ∀ n : Node, n.tag ∈ managedTags → P n = false) :
    (placedParts dimRef cols views rows cs).filter P = cs.filter P := by
  unfold placedParts
  rw [putData_filter _ _ _ (fun n h => hP n (by rw [h]; decide)), insertNodeAfter_filter _ _ _ _ (hP _ (by simp [Node.tag, managedTags])),
    putCols_filter _ _ _ (fun n h => hP n (by rw [h]; decide)), append_filter _ _ _ (hP _ (by simp [Node.tag, managedTags]))]

theorem placedParts_managed (dimRef : String) (cols : Option (List ColProps)) (views : List View) (rows : Option (List Node)) (cs : List Node)
    (hc : ∀ n ∈ cs, n.tag ∉ managedTags) (tag : String) :
    (placedParts dimRef cols views rows cs).filter (fun n => n.tag = tag) =
      if tag = "dimension" then [Node.mk "dimension" (some [("ref", dimRef)]) none []]
      else if tag = "cols" then colsNodes cols
      else if tag = "sheetViews" then [Node.mk "sheetViews" none none (views.reverse.map viewNode)]
      else if tag = "sheetData" then dataNodes rows
      else cs.filter (fun n => n.tag = tag) := by
  have hnone : tag ∈ managedTags → cs.filter (fun n => n.tag = tag) = [] := by
    intro ht
    rw [List.filter_eq_nil_iff]
    intro n hn he
    exact hc n hn (by simp only [decide_eq_true_eq] at he; rw [he]; exact ht)
  have no : ∀ t, t ≠ tag → ∀ n : Node, n.tag = t → decide (n.tag = tag) = false := by
    intro t ht n hn; simp [hn, ht]
  have yes : ∀ n : Node, n.tag = tag → decide (n.tag = tag) = true := by
    intro n hn; simp [hn]
  have s1 : ∀ l, "dimension" ≠ tag → (l ++ [Node.mk "dimension" (some [("ref", dimRef)]) none []]).filter (fun n => n.tag = tag) =
      l.filter (fun n => n.tag = tag) := fun l h => append_filter _ _ _ (no _ h _ rfl)
  have s2 : ∀ l, "cols" ≠ tag → (putCols cols l).filter (fun n => n.tag = tag) = l.filter (fun n => n.tag = tag) :=
    fun l h => putCols_filter _ _ _ (no _ h)
  have s3 : ∀ l, "sheetViews" ≠ tag → (insertNodeAfter (.mk "sheetViews" none none (views.reverse.map viewNode)) "dimension" l).filter
      (fun n => n.tag = tag) = l.filter (fun n => n.tag = tag) := fun l h => insertNodeAfter_filter _ _ _ _ (no _ h _ rfl)
  have s4 : ∀ l, "sheetData" ≠ tag → (putData rows l).filter (fun n => n.tag = tag) = l.filter (fun n => n.tag = tag) :=
    fun l h => putData_filter _ _ _ (no _ h)
  unfold placedParts
  by_cases a1 : tag = "dimension"
  · rw [if_pos a1, s4 _ (by rw [a1]; decide), s3 _ (by rw [a1]; decide), s2 _ (by rw [a1]; decide), List.filter_append,
      hnone (by rw [a1]; decide), a1]
    rfl
  · rw [if_neg a1]
    by_cases a2 : tag = "cols"
    · rw [if_pos a2, s4 _ (by rw [a2]; decide), s3 _ (by rw [a2]; decide)]
      exact putCols_filter_new _ _ _ (fun n hn => yes n (hn.trans a2.symm)) (by rw [s1 _ (Ne.symm a1)]; exact hnone (by rw [a2]; decide))
    · rw [if_neg a2]
      by_cases a3 : tag = "sheetViews"
      · rw [if_pos a3, s4 _ (by rw [a3]; decide)]
        exact insertNodeAfter_filter_new _ _ _ _ (yes _ a3.symm) (by rw [s2 _ (Ne.symm a2), s1 _ (Ne.symm a1)]; exact hnone (by rw [a3]; decide))
      · rw [if_neg a3]
        by_cases a4 : tag = "sheetData"
        · rw [if_pos a4]
          exact putData_filter_new _ _ _ (fun n hn => yes n (hn.trans a4.symm))
            (by rw [s3 _ (Ne.symm a3), s2 _ (Ne.symm a2), s1 _ (Ne.symm a1)]; exact hnone (by rw [a4]; decide))
        · rw [if_neg a4, s4 _ (Ne.symm a4), s3 _ (Ne.symm a3), s2 _ (Ne.symm a2), s1 _ (Ne.symm a1)]

theorem place_filter (dimRef : String) (cols : Option (List ColProps)) (views : List View) (rows : Option (List Node)) (cs : List Node)
    (hc : ∀ n ∈ cs, n.tag ∉ managedTags) (tag : String) :
    (placeSheetParts dimRef cols views rows cs).filter (fun n => n.tag = tag) =
      if tag = "dimension" then [Node.mk "dimension" (some [("ref", dimRef)]) none []]
      else if tag = "cols" then colsNodes cols
      else if tag = "sheetViews" then [Node.mk "sheetViews" none none (views.reverse.map viewNode)]
      else if tag = "sheetData" then dataNodes rows
      else cs.filter (fun n => n.tag = tag) := by
  rw [placeSheetParts_eq, order_filter, placedParts_managed _ _ _ _ _ hc]

/-- What a successful save consists of. -/
theorem save_ok {s : Sheet} {x x' : XDoc} (h : s.save x = .ok x') :
    ∃ ref root rows, s.dimensionRef = .ok ref ∧ x.root = some root ∧
      (match s.data with | none => rows = none | some d => ∃ ns, rows = some ns ∧ mapRes rowNode d = .ok ns) ∧
      x' = x.mapRootChildren (placeSheetParts ref s.cols s.views rows) := by
  unfold Sheet.save at h
  split at h
  · cases h
  · rename_i ref href
    split at h
    · cases h
    · rename_i root hroot
      split at h
      · rename_i hd
        cases h
        exact ⟨ref, root, none, href, hroot, by rw [hd], rfl⟩
      · rename_i d hd
        split at h
        · cases h
        · rename_i ns hns
          cases h
          exact ⟨ref, root, some ns, href, hroot, by rw [hd]; exact ⟨ns, rfl, hns⟩, rfl⟩

theorem rootChildren_mapRoot {x : XDoc} {root : Node} (h : x.root = some root) (f : List Node → List Node) :
    (x.mapRootChildren f).rootChildren = f x.rootChildren := by
  unfold XDoc.mapRootChildren XDoc.rootChildren
  rw [h]
  cases root with
  | mk t a v cs => rfl

/-! ### Rows and cells -/

theorem rowTable_keys (r : Nat) (p : RowProps) : (akeys (rowTable r p)).Nodup := by
  simp only [rowTable, akeys, List.map_cons, List.map_nil]; decide +kernel

theorem cellTable_keys (ref : String) (c : CellProps) : (akeys (cellTable ref c)).Nodup := by
  simp only [cellTable, akeys, List.map_cons, List.map_nil]; decide +kernel

theorem cellNode_ok {row : Nat} {kv : Nat × CellProps} {n : Node} (h : cellNode row kv = .ok n) :
    ∃ name, getColumnRef kv.1 = .ok name ∧ n = .mk "c" (some (present (cellTable (name ++ toString row) kv.2))) none (cellChildren kv.2) := by
  unfold cellNode at h
  split at h
  · cases h
  · rename_i name hn; cases h; exact ⟨name, hn, rfl⟩

theorem rowNode_ok {kv : Nat × RowData} {n : Node} (h : rowNode kv = .ok n) :
    ∃ cs, mapRes (cellNode kv.1) (kv.2.cells.getD []) = .ok cs ∧ n = .mk "row" (some (present (rowTable kv.1 kv.2.props))) none cs := by
  unfold rowNode at h
  split at h
  · cases h
  · rename_i cs hcs; cases h; exact ⟨cs, hcs, rfl⟩

theorem rows_increasing {s : Sheet} (hs : SortedSheet s) {d : SheetRows} (hd : s.data = some d) {ns : List Node} (h : mapRes rowNode d = .ok ns) :
    Increasing ns := by
  obtain ⟨hsd, hsc⟩ := hs d hd
  obtain ⟨hl, hg⟩ := mapRes_get h
  refine ⟨akeys d, hsd, by simp [akeys, hl], ?_⟩
  intro i num row hnum hrow
  rw [akeys, List.getElem?_map] at hnum
  cases hdi : d[i]? with
  | none => rw [hdi] at hnum; cases hnum
  | some kv =>
    rw [hdi] at hnum
    cases hnum
    obtain ⟨cs, hcs, rfl⟩ := rowNode_ok (hg i kv row hdi hrow)
    refine ⟨rfl, ?_, ?_⟩
    · simp only [Node.attr?, Node.attrs]
      rw [aget_present (rowTable_keys _ _)]
      rfl
    · obtain ⟨hl2, hg2⟩ := mapRes_get hcs
      have hsk : SortedKeys (kv.2.cells.getD []) := by
        cases hc : kv.2.cells with
        | none => exact sorted_nil
        | some c0 =>
          exact hsc kv.1 kv.2 c0 (aget_of_mem hsd.nodup (mem_of_getElem? hdi)) hc
      refine ⟨akeys (kv.2.cells.getD []), hsk, by simp [akeys, hl2, Node.children], ?_⟩
      intro j col cell hcol hcell
      rw [akeys, List.getElem?_map] at hcol
      cases hcj : (kv.2.cells.getD [])[j]? with
      | none => rw [hcj] at hcol; cases hcol
      | some ckv =>
        rw [hcj] at hcol
        cases hcol
        obtain ⟨name, hn, rfl⟩ := cellNode_ok (hg2 j ckv cell hcj hcell)
        refine ⟨rfl, name ++ toString kv.1, ?_, colRef_text hn _⟩
        simp only [Node.attr?, Node.attrs]
        rw [aget_present (cellTable_keys _ _)]
        rfl

/-! ### Row bounds -/

theorem rowBounds_some {d : SheetRows} {r1 r2 : Nat} (h : rowBounds d = some (r1, r2)) (hs : SortedKeys d) :
    (∀ k ∈ akeys d, r1 ≤ k ∧ k ≤ r2) ∧ r1 ∈ akeys d ∧ r2 ∈ akeys d := by
  unfold rowBounds at h
  split at h
  · rename_i a b ha hb
    cases h
    have h1 : a ∈ d := List.mem_of_mem_head? (by rw [ha]; rfl)
    have h2 : b ∈ d := List.mem_of_getLast? hb
    refine ⟨?_, List.mem_map.mpr ⟨a, h1, rfl⟩, List.mem_map.mpr ⟨b, h2, rfl⟩⟩
    intro k hk
    unfold SortedKeys at hs
    constructor
    · cases d with
      | nil => cases ha
      | cons x xs =>
        cases ha
        simp only [akeys, List.map_cons, List.mem_cons] at hk
        rcases hk with rfl | hk
        · exact Nat.le_refl _
        · exact Nat.le_of_lt ((List.pairwise_cons.mp hs).1 k hk)
    · obtain ⟨ys, rfl⟩ := List.getLast?_eq_some_iff.mp hb
      simp only [akeys, List.map_append, List.map_cons, List.map_nil, List.mem_append, List.mem_singleton] at hk
      rcases hk with hk | rfl
      · rw [akeys, List.map_append, List.pairwise_append] at hs
        exact Nat.le_of_lt (hs.2.2 k hk b.1 (by simp))
      · exact Nat.le_refl _
  · cases h

theorem rowBounds_none {d : SheetRows} (h : rowBounds d = none) : d = [] := by
  unfold rowBounds at h
  cases d with
  | nil => rfl
  | cons x xs =>
    rw [List.head?_cons, List.getLast?_cons] at h
    simp at h

theorem cellAt_row {s : Sheet} {d : SheetRows} (hd : s.data = some d) {r c : Nat} {x : CellProps} (h : cellAt s r c = some x) : r ∈ akeys d := by
  unfold cellAt at h
  rw [hd] at h
  simp only at h
  cases ha : aget r d with
  | none => rw [ha] at h; cases h
  | some rd => exact mem_akeys_of_aget ha

end Oxml
