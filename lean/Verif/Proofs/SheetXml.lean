import Verif.Spec.SheetXml
import Verif.Proofs.ExistingSheets
import Verif.Props.WorksheetFile
/-!
# Cells of a worksheet document and cells of the loaded sheet
-/
namespace Oxml
open Spec

/-! ## References -/

/-- The reference of a cell. -/
def cellRef (row col : Nat) : String := String.ofList (columnRefLoop col col []) ++ toString row

theorem getColumnRef_name {col : Nat} {name : String} (h : getColumnRef col = .ok name) (row : Nat) : name ++ toString row = cellRef row col := by
  by_cases h0 : col = 0
  · subst h0; cases h
  · rw [getColumnRef_pos col h0] at h
    cases h
    rfl

theorem refText_eq {t : String} {row col : Nat} (h : RefText t.toList row col) : t = cellRef row col ∧ col ≠ 0 := by
  obtain ⟨l, h1, h2, h3, h4⟩ := h
  have hpos := columnValue_pos h2 (fun c hc => letter_of_upper (h3 c hc))
  have h0 : col ≠ 0 := by omega
  have hl : l = columnRefLoop col col [] :=
    columnValue_inj h3 (columnRefLoop_upper col col [] (by simp)) (h4.trans (columnValue_columnRefLoop col col (Nat.le_refl _)).symm)
  refine ⟨String.toList_inj.mp ?_, h0⟩
  rw [h1, cellRef, String.toList_append, String.toList_ofList, ← hl, toList_toString_nat]

theorem cellRef_text {row col : Nat} (h : col ≠ 0) : RefText (cellRef row col).toList row col := colRef_text (getColumnRef_pos col h) row

theorem digit_not_upper {c : Char} (h : c.isDigit = true) : ¬ isUpperLetter c := by
  intro hu
  have h1 := (Char.le_iff_toNat _ _).mp hu.1
  simp only [Char.isDigit, Bool.and_eq_true, decide_eq_true_eq] at h
  have h2 : c.toNat ≤ 57 := h.2
  have : 'A'.toNat = 65 := rfl
  omega

/-- A reference names one cell. -/
theorem refText_inj {t : List Char} {r c r' c' : Nat} (h : RefText t r c) (h' : RefText t r' c') : r = r' ∧ c = c' := by
  obtain ⟨l, h1, h2, h3, h4⟩ := h
  obtain ⟨l', h1', h2', h3', h4'⟩ := h'
  have key : ∀ (l : List Char) (n : Nat), (∀ c ∈ l, isUpperLetter c) →
      (l ++ Nat.toDigits 10 n).takeWhile (fun c => decide ('A' ≤ c ∧ c ≤ 'Z')) = l ∧ (l ++ Nat.toDigits 10 n).dropWhile (fun c => decide ('A' ≤ c ∧ c ≤ 'Z')) = Nat.toDigits 10 n := by
    intro l n hl
    induction l with
    | nil =>
      rw [List.nil_append]
      cases hd : Nat.toDigits 10 n with
      | nil => exact ⟨rfl, rfl⟩
      | cons d ds =>
        have : ¬ ('A' ≤ d ∧ d ≤ 'Z') := digit_not_upper (isDigit_of_mem_decimal (n := n) (by rw [hd]; simp))
        simp [this]
    | cons x xs ih =>
      have hx : 'A' ≤ x ∧ x ≤ 'Z' := hl x (by simp)
      obtain ⟨i1, i2⟩ := ih (fun c hc => hl c (by simp [hc]))
      rw [List.cons_append, List.takeWhile_cons_of_pos (by simpa using hx), List.dropWhile_cons_of_pos (by simpa using hx), i1, i2]
      exact ⟨rfl, rfl⟩
  have k1 := key l r h3
  have k2 := key l' r' h3'
  rw [← h1] at k1
  rw [← h1'] at k2
  have el : l = l' := k1.1.symm.trans k2.1
  have ed : Nat.toDigits 10 r = Nat.toDigits 10 r' := k1.2.symm.trans k2.2
  refine ⟨?_, by rw [← h4, ← h4', el]⟩
  have : toString r = toString r' := by rw [← String.toList_inj, toList_toString_nat, toList_toString_nat, ed]
  exact toString_nat_inj this

theorem noSpecials_cellRef (row : Nat) {col : Nat} (h : col ≠ 0) : NoSpecials (cellRef row col) := by
  rw [← getColumnRef_name (getColumnRef_pos col h)]
  exact noSpecials_append (noSpecials_colRef (getColumnRef_pos col h)) (noSpecials_nat row)

/-! ## Lists -/

theorem aget_extendMap {V : Type} (k : Nat) (l : List (Nat × V)) (h : (l.map Prod.fst).Nodup) : aget k (extendMap [] l) = aget k l := by
  suffices H : ∀ (l m : List (Nat × V)), SortedKeys m → (l.map Prod.fst).Nodup → aget k (extendMap m l) = (aget k l).or (aget k m) by
    rw [H l [] List.Pairwise.nil h]
    simp [aget]
  intro l
  induction l with
  | nil => intro m _ _; simp [extendMap, aget]
  | cons kv l ih =>
    intro m hm hn
    rw [List.map_cons, List.nodup_cons] at hn
    have : extendMap m (kv :: l) = extendMap (sinsert kv.1 kv.2 m) l := rfl
    rw [this, ih _ (sorted_sinsert _ _ _ hm) hn.2, aget_sinsert _ _ _ _ hm]
    obtain ⟨k', v⟩ := kv
    simp only [aget]
    by_cases e : k' = k
    · subst e
      have : aget k' l = none := by
        cases ha : aget k' l with
        | none => rfl
        | some w => exact absurd (List.mem_map_of_mem (f := Prod.fst) (mem_of_aget ha)) hn.1
      simp [this]
    · simp [e]

/-- Without the keys being different: an entry comes from the list. -/
theorem mem_of_aget_extendMap {V : Type} {k : Nat} {v : V} {l : List (Nat × V)} (h : aget k (extendMap [] l) = some v) : (k, v) ∈ l := by
  suffices H : ∀ (l m : List (Nat × V)), SortedKeys m → aget k (extendMap m l) = some v → (k, v) ∈ l ∨ aget k m = some v by
    rcases H l [] List.Pairwise.nil h with h | h
    · exact h
    · cases h
  intro l
  induction l with
  | nil => intro m _ h; exact .inr h
  | cons kv l ih =>
    intro m hm h
    have : extendMap m (kv :: l) = extendMap (sinsert kv.1 kv.2 m) l := rfl
    rw [this] at h
    rcases ih _ (sorted_sinsert _ _ _ hm) h with h | h
    · exact .inl (List.mem_cons_of_mem _ h)
    · rw [aget_sinsert _ _ _ _ hm] at h
      split at h
      · next e => cases h; exact .inl (by rw [← e]; exact List.mem_cons_self)
      · exact .inr h

theorem mapRes_mem' {α β : Type} {f : α → Res β} {l : List α} {r : List β} (h : mapRes f l = .ok r) : ∀ x ∈ l, ∃ y ∈ r, f x = .ok y := by
  intro x hx
  obtain ⟨h1, h2⟩ := mapRes_get h
  obtain ⟨i, hi, rfl⟩ := List.mem_iff_getElem.mp hx
  have hi' : i < r.length := by omega
  exact ⟨r[i], List.getElem_mem hi', h2 i _ _ (List.getElem?_eq_getElem hi) (List.getElem?_eq_getElem hi')⟩

theorem mapRes_images {α β γ : Type} {f : α → Res β} {l : List α} {r : List β} (h : mapRes f l = .ok r) (g : β → γ) (k : α → γ)
    (he : ∀ x ∈ l, ∀ y, f x = .ok y → g y = k x) : r.map g = l.map k := by
  obtain ⟨h1, h2⟩ := mapRes_get h
  apply List.ext_getElem (by simp [h1])
  intro i i1 i2
  rw [List.length_map] at i1 i2
  rw [List.getElem_map, List.getElem_map]
  exact he _ (List.getElem_mem i2) _ (h2 i _ _ (List.getElem?_eq_getElem i2) (List.getElem?_eq_getElem i1))

/-! ## One cell -/

/-- What the cell of a sheet is saved as. -/
def shownOf (ref : String) (x : CellProps) : Shown :=
  { ref := some ref, style := (x.style.map toString).getD "0", type := x.type.text,
    formula := if x.type = .inlineString then "" else (x.formula.bind reloadText).getD "", formulaKind := [],
    text := (x.value.bind reloadText).getD "", cellMeta := x.commentId.map toString, valueMeta := x.metadata.map attrReload, phonetic := x.placeHolder.isSome }

theorem attr?_eq {n : Node} {a : Attrs} (h : n.attrs = some a) (k : String) : n.attr? k = aget k a := by
  cases n; cases h; rfl

/-- The element written for a cell. -/
theorem shown_reload {row : Nat} {kv : Nat × CellProps} {n : Node} (h : cellNode row kv = .ok n) : shown (reload n) = shownOf (cellRef row kv.1) kv.2 := by
  obtain ⟨name, hn, rfl⟩ := cellNode_ok h
  obtain ⟨a, ha, hk⟩ := reload_present (wf_cellNode ⟨fun _ => false⟩ (name ++ toString row) kv.2) (cellTable_keys _ _)
  have hat : ∀ k, (reload (.mk "c" (some (present (cellTable (name ++ toString row) kv.2))) none (cellChildren kv.2))).attr? k =
      (aget k (cellTable (name ++ toString row) kv.2)).join.map attrReload := fun k => (attr?_eq ha k).trans (hk k)
  have e1 : (aget "r" (cellTable (name ++ toString row) kv.2)).join = some (name ++ toString row) := rfl
  have e2 : (aget "s" (cellTable (name ++ toString row) kv.2)).join = kv.2.style.map toString := rfl
  have e3 : (aget "cm" (cellTable (name ++ toString row) kv.2)).join = kv.2.commentId.map toString := rfl
  have e4 : (aget "t" (cellTable (name ++ toString row) kv.2)).join = if kv.2.type ≠ .number then some kv.2.type.text else none := rfl
  have e5 : (aget "vm" (cellTable (name ++ toString row) kv.2)).join = kv.2.metadata := rfl
  have e6 : (aget "ph" (cellTable (name ++ toString row) kv.2)).join = kv.2.placeHolder.map (fun _ => "1") := rfl
  have h0 : kv.1 ≠ 0 := by
    intro h0
    rw [h0] at hn
    cases hn
  have hns : attrReload (name ++ toString row) = cellRef row kv.1 := by
    rw [getColumnRef_name hn]
    exact escStr_eq_self (noSpecials_cellRef row h0)
  have hnat : ∀ o : Option Nat, (o.map toString).map attrReload = o.map toString := by
    intro o
    cases o with
    | none => rfl
    | some k => exact congrArg some (attrReload_nat k)
  have hflag : attrReload "1" = "1" := by decide +kernel
  unfold shown shownOf
  simp only [hat, e1, e2, e3, e4, e5, e6, Option.map_some, hns, hnat]
  have ety : (Option.map attrReload (if kv.2.type ≠ .number then some kv.2.type.text else none)).getD "n" = kv.2.type.text := by
    cases kv.2.type <;> decide +kernel
  have einl : (Option.map attrReload (if kv.2.type ≠ .number then some kv.2.type.text else none)) = some "inlineStr" ↔ kv.2.type = .inlineString := by
    cases kv.2.type <;> decide +kernel
  have eph : (decide (Option.map attrReload (Option.map (fun _ => "1") kv.2.placeHolder) = some "1") ||
      decide (Option.map attrReload (Option.map (fun _ => "1") kv.2.placeHolder) = some "true")) = kv.2.placeHolder.isSome := by
    cases kv.2.placeHolder with
    | none => rfl
    | some _ => simp [hflag]
  rw [ety, eph]
  have hch : (reload (.mk "c" (some (present (cellTable (name ++ toString row) kv.2))) none (cellChildren kv.2))).children = (cellChildren kv.2).map reload :=
    reload_children_of_none rfl
  simp only [einl, childOf, textOf, hch]
  by_cases ht : kv.2.type = .inlineString
  · have hc : cellChildren kv.2 = [.mk "is" none none [.mk "t" none (some (kv.2.value.getD "")) []]] := by
      unfold cellChildren; rw [ht]
    rw [hc]
    simp [ht, reload, reloads, List.find?, Node.tag, Node.children, inlineText, Node.value, reloadText_getD, String.join]
  · have hc : cellChildren kv.2 = (match kv.2.formula with
        | none => []
        | some f => [Node.mk "f" none (some f) []]) ++ [.mk "v" none (some (kv.2.value.getD "")) []] := by
      unfold cellChildren
      cases h : kv.2.type <;> first | rfl | exact absurd h ht
    rw [hc]
    cases kv.2.formula with
    | none => simp [ht, reload, List.find?, Node.tag, Node.value, reloadText_getD]
    | some f => simp [ht, reload, List.find?, Node.tag, Node.value, Node.attrs, reloadAttrs, reloadText_getD]

theorem bind_reload_of_trimmed {o : Option String} (h : ∀ t, o = some t → Trimmed t) : o.bind reloadText = o := by
  cases o with
  | none => rfl
  | some t => exact (reloadText_iff t).mpr (h t rfl)

/-- The children of a cell that is no inline string. -/
theorem loadCellChildren_plain {base c : CellProps} {l : List Node} (h : loadCellChildren base l = .ok c) (hv : ∀ n ∈ l, n.tag = "v" ∨ n.tag = "f")
    (hn : (l.map Node.tag).Nodup) : c = { base with
      value := match l.find? (fun n => n.tag = "v") with | none => base.value | some n => n.value,
      formula := match l.find? (fun n => n.tag = "f") with | none => base.formula | some n => n.value } := by
  induction l generalizing base with
  | nil => cases h; rfl
  | cons n l ih =>
    unfold loadCellChildren at h
    rw [List.map_cons, List.nodup_cons] at hn
    have hno : ∀ t, n.tag = t → l.find? (fun n => n.tag = t) = none := by
      intro t e
      rw [List.find?_eq_none]
      intro m hm hm'
      exact hn.1 (by rw [e, ← of_decide_eq_true hm']; exact List.mem_map_of_mem hm)
    rcases hv n (by simp) with e | e
    · rw [loadCellChild, if_pos e] at h
      rw [ih h (fun m hm => hv m (by simp [hm])) hn.2]
      simp [e, hno "v" e]
    · have e' : n.tag ≠ "v" := by rw [e]; decide
      rw [loadCellChild, if_neg e', if_pos e] at h
      rw [ih h (fun m hm => hv m (by simp [hm])) hn.2]
      simp [e, hno "f" e]

theorem parseOpt_nat {max : Nat} {o : Option String} {r : Option Nat} (h : parseOpt (parseUInt max) o = .ok r) (hn : ∀ v, o = some v → ∃ k : Nat, v = toString k) :
    o = r.map toString := by
  cases o with
  | none => cases h; rfl
  | some v =>
    obtain ⟨k, rfl⟩ := hn v rfl
    unfold parseOpt at h
    by_cases hk : k ≤ max
    · simp only [parseUInt_toString _ _ hk] at h
      cases h; rfl
    · have : parseUInt max (toString k) = none := by
        unfold parseUInt
        rw [toList_toString_nat, unsignedDigits_of_digits _ Nat.toDigits_ne_nil (fun c hc => isDigit_of_mem_decimal hc)]
        simp only [Nat.ofDigitChars_ten_toDigits, hk, if_false]
      simp only [this] at h
      cases h

/-- A plain cell, loaded. -/
theorem loadCell_shown {env : Env} {row col : Nat} {n : Node} {x : CellProps} (hp : PlainCell row n) (h : loadCell env n = .ok (col, x)) :
    col ≠ 0 ∧ n.attr? "r" = some (cellRef row col) ∧ shown n = shownOf (cellRef row col) x := by
  unfold loadCell at h
  cases ha : n.attrs with
  | none => rw [ha] at h; cases h
  | some a =>
  rw [ha] at h
  simp only at h
  obtain ⟨t, col', hr, htx, hle⟩ := hp.ref
  rw [attr?_eq ha] at hr
  rw [hr] at h
  simp only at h
  have hcol : getColumnIndex env.build env.uni t = .ok col' := by
    obtain ⟨l, h1, h2, h3, h4⟩ := htx
    have e : t = String.ofList (l ++ Nat.toDigits 10 row) := by rw [← h1, String.ofList_toList]
    rw [e, getColumnIndex_letters _ _ l _ h2 (fun c hc => letter_of_upper (h3 c hc))
      (fun c hc => isAlphabetic_of_isDigit _ (isDigit_of_mem_decimal (List.mem_of_mem_head? hc))), h4, if_pos (by omega)]
  rw [hcol] at h
  simp only at h
  split at h
  case h_2 => cases h
  next st cm hst hcm =>
  split at h
  · cases h
  next x' hc =>
  cases h
  obtain ⟨e, h0⟩ := refText_eq htx
  subst e
  have hat := attr?_eq ha
  refine ⟨h0, by rw [hat, hr], ?_⟩
  have es := parseOpt_nat hst (fun v hv => hp.style v (by rw [hat, hv]))
  have ec := parseOpt_nat hcm (fun v hv => hp.indices "cm" (by simp) v (by rw [hat, hv]))
  have hty : ∀ v, aget "t" a = some v → v ∈ ["b", "e", "n", "s", "str", "inlineStr"] := fun v hv => hp.type v (by rw [hat, hv])
  have hvm : (aget "vm" a).map attrReload = aget "vm" a := by
    cases hv : aget "vm" a with
    | none => rfl
    | some v =>
      obtain ⟨i, rfl⟩ := hp.indices "vm" (by simp) v (by rw [hat, hv])
      exact congrArg some (attrReload_nat i)
  have hph : (decide (aget "ph" a = some "1") || decide (aget "ph" a = some "true")) = (flag1 (aget "ph" a)).isSome := by
    have := hp.phonetic
    rw [hat] at this
    unfold flag1
    by_cases e : aget "ph" a = some "1"
    · simp [e]
    · simp [e, this]
  have ety : (aget "t" a).getD "n" = (((aget "t" a).map CellType.parse).getD .number).text := by
    cases ht : aget "t" a with
    | none => rfl
    | some v =>
      have := hty v ht
      simp only [List.mem_cons, List.not_mem_nil, or_false] at this
      rcases this with rfl | rfl | rfl | rfl | rfl | rfl <;> rfl
  have einl : aget "t" a = some "inlineStr" ↔ ((aget "t" a).map CellType.parse).getD .number = .inlineString := by
    cases ht : aget "t" a with
    | none => simp
    | some v =>
      have := hty v ht
      simp only [List.mem_cons, List.not_mem_nil, or_false] at this
      rcases this with rfl | rfl | rfl | rfl | rfl | rfl <;> decide +kernel
  have hcont := hp.content
  rw [hat] at hcont
  unfold shown
  simp only [hat, hr]
  by_cases hi : aget "t" a = some "inlineStr"
  · rw [if_pos hi] at hcont
    obtain ⟨a', w, b, tx, cs, hch, htr⟩ := hcont
    have hi' := einl.mp hi
    rw [hch] at hc
    simp only [loadCellChildren, loadCellChild, Node.tag, Node.children, List.head?_cons, Node.value] at hc
    have : x = { cellOfAttrs a st cm with value := tx } := by
      simpa using (Except.ok.inj hc).symm
    subst this
    simp only [shownOf, cellOfAttrs, hi', if_pos hi, childOf, textOf, hch, ety, ← es, ← ec, hvm, hph, bind_reload_of_trimmed htr]
    simp [List.find?, Node.tag, inlineText, Node.children, Node.value, String.join]
  · rw [if_neg hi] at hcont
    have hi' : ((aget "t" a).map CellType.parse).getD .number ≠ .inlineString := fun e => hi (einl.mpr e)
    have := loadCellChildren_plain hc hcont.tags hcont.once
    subst this
    simp only [shownOf, cellOfAttrs, if_neg hi, childOf, textOf, ety, ← es, ← ec, hvm, hph]
    congr 1
    · refine Eq.trans ?_ (if_neg hi').symm
      cases hf : n.children.find? (fun c => c.tag = "f") with
      | none => rfl
      | some m =>
        have := bind_reload_of_trimmed (fun t ht => hcont.texts m (List.mem_of_find?_eq_some hf) t ht)
        simp [this]
    · cases hf : n.children.find? (fun c => c.tag = "f") with
      | none => rfl
      | some m => exact hcont.kind m (List.mem_of_find?_eq_some hf) (by simpa using List.find?_some hf)
    · cases hf : n.children.find? (fun c => c.tag = "v") with
      | none => rfl
      | some m =>
        have := bind_reload_of_trimmed (fun t ht => hcont.texts m (List.mem_of_find?_eq_some hf) t ht)
        simp [this]

/-! ## All cells -/

/-- What the document shows is what the sheet holds. -/
def ShowsSheet (x : XDoc) (sh : Sheet) : Prop :=
  ∀ v, v ∈ (cellElements x).map shown ↔ ∃ r c y, c ≠ 0 ∧ cellAt sh r c = some y ∧ v = shownOf (cellRef r c) y

theorem mem_cells {x : XDoc} {v : Shown} : v ∈ (cellElements x).map shown ↔ ∃ row ∈ rowElements x, ∃ n ∈ row.children, v = shown n := by
  simp only [cellElements, List.mem_map, List.mem_flatMap]
  constructor
  · rintro ⟨n, ⟨row, h1, h2⟩, rfl⟩; exact ⟨row, h1, n, h2, rfl⟩
  · rintro ⟨row, h1, n, h2, rfl⟩; exact ⟨n, ⟨row, h1, h2⟩, rfl⟩

theorem rowElements_last {x : XDoc} (h : (x.rootChildren.filter (fun n => n.tag = "sheetData")).length ≤ 1) :
    rowElements x = match (x.rootChildren.filter (fun n => n.tag = "sheetData")).getLast? with | none => [] | some n => n.children := by
  unfold rowElements
  cases e : x.rootChildren.filter (fun n => n.tag = "sheetData") with
  | nil => rfl
  | cons a l =>
    rw [e] at h
    cases l with
    | nil => simp
    | cons b l => simp at h

/-- A plain document, loaded. -/
theorem load_shown {env : Env} {x x' : XDoc} {sh : Sheet} (h : Sheet.load env x = (.ok sh, x')) (hp : PlainSheet x) : ShowsSheet x sh := by
  obtain ⟨_, hd, _, _⟩ := load_ok h
  have hrows := rowElements_last hp.one
  unfold dataOf at hd
  cases hl : (x.rootChildren.filter (fun n => n.tag = "sheetData")).getLast? with
  | none =>
    rw [hl] at hd hrows
    have e1 := (Prod.mk.inj (Except.ok.inj hd)).1
    intro v
    rw [mem_cells, hrows]
    constructor
    · rintro ⟨_, h, _⟩; cases h
    · rintro ⟨r, c, y, _, hy, _⟩
      simp [cellAt, ← e1] at hy
  | some nd =>
    rw [hl] at hd hrows
    simp only at hd hrows
    split at hd
    · cases hd
    next rows hm =>
    have e1 := (Prod.mk.inj (Except.ok.inj hd)).1
    rw [← hrows] at hm
    -- one row
    have hone : ∀ n ∈ rowElements x, ∀ y, loadRow env n = .ok y → n.attr? "r" = some (toString y.1) ∧ (∀ c ∈ n.children, PlainCell y.1 c) ∧
        (n.children.map (fun c => c.attr? "r")).Nodup ∧ mapRes (loadCell env) n.children = .ok y.2.2 := by
      intro n hn y hy
      obtain ⟨row, h1, h2, h3⟩ := hp.rows n hn
      unfold loadRow at hy
      cases ha : n.attrs with
      | none => rw [ha] at hy; cases hy
      | some a =>
      rw [ha] at hy
      simp only at hy
      rw [attr?_eq ha] at h1
      rw [h1] at hy
      simp only at hy
      split at hy
      · cases hy
      next k hk =>
      have := parseOpt_nat (o := some (toString row)) (r := some k) (max := u32Max) (by unfold parseOpt; simp only [hk]) (fun v hv => ⟨row, (Option.some.inj hv).symm⟩)
      have : row = k := toString_nat_inj (Option.some.inj this)
      subst this
      split at hy
      · cases hy
      split at hy
      · cases hy
      next cs hcs =>
      cases hy
      exact ⟨by rw [attr?_eq ha, h1], h2, h3, hcs⟩
    have hnod : (rows.map Prod.fst).Nodup := by
      have := hp.distinct
      rw [← mapRes_images hm (fun y => some (toString y.1)) (fun n => n.attr? "r") (fun n hn y hy => (hone n hn y hy).1.symm)] at this
      rw [List.Nodup, List.pairwise_map] at this ⊢
      exact this.imp (fun h e => h (by rw [e]))
    have hcells : ∀ n ∈ rowElements x, ∀ y, loadRow env n = .ok y → (y.2.2.map Prod.fst).Nodup := by
      intro n hn y hy
      obtain ⟨_, g2, g3, g4⟩ := hone n hn y hy
      rw [← mapRes_images g4 (fun kv => some (cellRef y.1 kv.1)) (fun n => n.attr? "r") (fun c hc kv hkv => (loadCell_shown (g2 c hc) hkv).2.1.symm)] at g3
      rw [List.Nodup, List.pairwise_map] at g3 ⊢
      exact g3.imp (fun h e => h (by rw [e]))
    have hat : ∀ r c y, cellAt sh r c = some y ↔ ∃ p cs, (r, p, cs) ∈ rows ∧ (c, y) ∈ cs := by
      intro r c y
      unfold cellAt
      rw [← e1]
      simp only
      have hk : (List.map Prod.fst (rows.map (fun r => (r.1, rowDataOf r.2.1 r.2.2)))).Nodup := by
        rw [List.map_map]; exact hnod
      rw [aget_extendMap _ _ hk]
      constructor
      · intro hy
        split at hy
        · cases hy
        next rd hrd =>
        obtain ⟨⟨r', p, cs⟩, hm', e⟩ := List.mem_map.mp (mem_of_aget hrd)
        cases e
        simp only [rowDataOf] at hy
        split at hy
        · cases hy
        next cs' hcs' =>
        split at hcs'
        · cases hcs'
          exact ⟨p, cs, hm', mem_of_aget_extendMap hy⟩
        · cases hcs'
      · rintro ⟨p, cs, h1, h2⟩
        rw [aget_of_mem (v := rowDataOf p cs) hk (List.mem_map.mpr ⟨_, h1, rfl⟩)]
        obtain ⟨n, hn, hy⟩ := mapRes_mem hm _ h1
        have hc := hcells n hn _ hy
        have hg : aget c (extendMap [] cs) = some y := by rw [aget_extendMap _ _ hc]; exact aget_of_mem hc h2
        simp only [rowDataOf]
        have : (extendMap [] cs).length > 0 := by
          cases e : extendMap [] cs with
          | nil => rw [e] at hg; cases hg
          | cons a l => simp
        rw [if_pos this]
        exact hg
    intro v
    rw [mem_cells]
    constructor
    · rintro ⟨row, hr, n, hn, rfl⟩
      obtain ⟨y, hy, hy'⟩ := mapRes_mem' hm row hr
      obtain ⟨_, g2, _, g4⟩ := hone row hr y hy'
      obtain ⟨kv, hkv, hkv'⟩ := mapRes_mem' g4 n hn
      obtain ⟨k1, _, k3⟩ := loadCell_shown (g2 n hn) hkv'
      exact ⟨y.1, kv.1, kv.2, k1, (hat _ _ _).mpr ⟨y.2.1, y.2.2, hy, hkv⟩, k3⟩
    · rintro ⟨r, c, y, _, hy, rfl⟩
      obtain ⟨p, cs, h1, h2⟩ := (hat r c y).mp hy
      obtain ⟨row, hr, hrow⟩ := mapRes_mem hm _ h1
      obtain ⟨_, g2, _, g4⟩ := hone row hr _ hrow
      obtain ⟨n, hn, hn'⟩ := mapRes_mem g4 _ h2
      exact ⟨row, hr, n, hn, (loadCell_shown (g2 n hn) hn').2.2.symm⟩

/-- A saved sheet. -/
theorem save_shown {env : Env} {x x' : XDoc} {sh : Sheet} (hsv : Saveable env sh x) (h : sh.save x = .ok x') : ShowsSheet (reloadDoc env.build x') sh := by
  obtain ⟨t, a, cs, hw, hcs⟩ := hsv.doc
  have hch : (reloadDoc env.build x').rootChildren = x'.rootChildren.map reload := by
    obtain ⟨cs', hw', _⟩ := wf_saved env.uni hw hcs h
    unfold XDoc.rootChildren reloadDoc
    rw [hw'.isRoot]
    simp only [Option.map_some, reload, Node.children, reloads_eq]
  obtain ⟨ref, root, rows, h1, h2, h3, rfl⟩ := save_ok h
  have hcs' : ∀ n ∈ x.rootChildren, n.tag ∉ managedTags := by
    intro n hn
    unfold XDoc.rootChildren at hn
    rw [hw.isRoot] at hn
    exact hcs n hn
  have hrows : rowElements (reloadDoc env.build (x.mapRootChildren (placeSheetParts ref sh.cols sh.views rows))) = (rows.getD []).map reload := by
    unfold rowElements
    rw [hch, filter_reload, rootChildren_mapRoot h2, place_filter _ _ _ _ _ hcs']
    simp only [String.reduceEq, if_false, if_true]
    cases rows with
    | none => rfl
    | some ns =>
      simp only [dataNodes, List.map_cons, List.map_nil, List.flatMap_cons, List.flatMap_nil, List.append_nil, Option.getD_some]
      exact reload_children_of_none rfl
  intro v
  rw [mem_cells, hrows]
  cases hd : sh.data with
  | none =>
    rw [hd] at h3
    simp only at h3
    subst h3
    constructor
    · rintro ⟨_, h, _⟩; cases h
    · rintro ⟨r, c, y, _, hy, _⟩
      simp [cellAt, hd] at hy
  | some d =>
    rw [hd] at h3
    obtain ⟨ns, rfl, hm⟩ := h3
    obtain ⟨hs1, hs2⟩ := hsv.sorted d hd
    have hn1 := hs1.nodup
    constructor
    · rintro ⟨row', hr, n', hn, rfl⟩
      obtain ⟨row, hrow, rfl⟩ := List.mem_map.mp hr
      obtain ⟨kv, hkv, hkv'⟩ := mapRes_mem hm row hrow
      obtain ⟨cells, hc1, rfl⟩ := rowNode_ok hkv'
      rw [reload_children_of_none rfl] at hn
      obtain ⟨n, hn1', rfl⟩ := List.mem_map.mp hn
      obtain ⟨kc, hkc, hkc'⟩ := mapRes_mem hc1 n hn1'
      have hg : aget kv.1 d = some kv.2 := aget_of_mem hn1 hkv
      cases hcl : kv.2.cells with
      | none => rw [hcl] at hkc; cases hkc
      | some l =>
        rw [hcl] at hkc
        refine ⟨kv.1, kc.1, kc.2, ?_, ?_, shown_reload hkc'⟩
        · intro h0
          obtain ⟨name, hname, _⟩ := cellNode_ok hkc'
          rw [h0] at hname
          cases hname
        · unfold cellAt
          simp only [hd, hg, hcl]
          exact aget_of_mem (hs2 _ _ _ hg hcl).nodup hkc
    · rintro ⟨r, c, y, _, hy, rfl⟩
      unfold cellAt at hy
      simp only [hd] at hy
      split at hy
      · cases hy
      next rd hrd =>
      split at hy
      · cases hy
      next l hl =>
      obtain ⟨row, hrow, hrow'⟩ := mapRes_mem' hm _ (mem_of_aget hrd)
      obtain ⟨cells, hc1, rfl⟩ := rowNode_ok hrow'
      simp only [hl, Option.getD_some] at hc1
      obtain ⟨n, hn, hn'⟩ := mapRes_mem' hc1 _ (mem_of_aget hy)
      refine ⟨_, List.mem_map.mpr ⟨_, hrow, rfl⟩, reload n, ?_, (shown_reload hn').symm⟩
      rw [reload_children_of_none rfl]
      exact List.mem_map.mpr ⟨n, hn, rfl⟩

theorem Spec.PlainSheet.named {x : XDoc} (h : PlainSheet x) : ColumnsNamed x := by
  intro n hn ht row hrow c hc ref href
  have hr : row ∈ rowElements x := List.mem_flatMap.mpr ⟨n, List.mem_filter.mpr ⟨hn, by simpa using ht⟩, hrow⟩
  obtain ⟨k, _, h2, _⟩ := h.rows row hr
  obtain ⟨t, col, h3, ⟨l, h4, h5, h6, h7⟩, h8⟩ := (h2 c hc).ref
  rw [href] at h3
  cases h3
  exact ⟨l, _, h4, h5, (fun ch hch => letter_of_upper (h6 ch hch)), (fun ch hch => isDigit_of_mem_decimal hch), by omega⟩

end Oxml
