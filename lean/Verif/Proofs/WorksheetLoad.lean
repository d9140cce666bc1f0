import Verif.Proofs.WorksheetSave
import Verif.Proofs.DocOps
import Verif.Props.Conversions
/-!
# Loading a saved sheet
-/
namespace Oxml
open Spec

/-! ### Texts without special characters -/

theorem noSpecials_nat (n : Nat) : NoSpecials (toString n) := by
  intro c hc
  rw [toList_toString_nat] at hc
  have hd := isDigit_of_mem_decimal hc
  refine ⟨?_, ?_, ?_, ?_, ?_⟩ <;> rintro rfl <;> revert hd <;> decide

theorem noSpecials_append {a b : String} (ha : NoSpecials a) (hb : NoSpecials b) : NoSpecials (a ++ b) := by
  intro c hc
  rw [String.toList_append] at hc
  rcases List.mem_append.mp hc with h | h
  · exact ha c h
  · exact hb c h

theorem noSpecials_int (z : Int) : NoSpecials (toString z) := by
  cases z with
  | ofNat n => exact noSpecials_nat n
  | negSucc n =>
    have : toString (Int.negSucc n) = "-" ++ toString (n + 1) := rfl
    rw [this]
    refine noSpecials_append ?_ (noSpecials_nat _)
    intro c hc
    have : c = '-' := by simpa using hc
    subst this; decide

theorem noSpecials_float {t : String} (h : FloatText t.toList) : NoSpecials t := by
  obtain ⟨sign, body, he, hs, hb⟩ := h
  have hsign : ∀ s : List Char, SignText s → ∀ c ∈ s, c ≠ '<' ∧ c ≠ '>' ∧ c ≠ '&' ∧ c ≠ '\'' ∧ c ≠ '"' := by
    intro s hs c hc
    rcases hs with rfl | rfl | rfl
    · cases hc
    · have : c = '+' := by simpa using hc
      subst this; decide
    · have : c = '-' := by simpa using hc
      subst this; decide
  have hdig : ∀ s : List Char, DigitText s → ∀ c ∈ s, c ≠ '<' ∧ c ≠ '>' ∧ c ≠ '&' ∧ c ≠ '\'' ∧ c ≠ '"' := by
    intro s hs c hc
    have := hs c hc
    refine ⟨?_, ?_, ?_, ?_, ?_⟩ <;> rintro rfl <;> revert this <;> decide
  have hexp : ∀ s : List Char, ExponentText s → ∀ c ∈ s, c ≠ '<' ∧ c ≠ '>' ∧ c ≠ '&' ∧ c ≠ '\'' ∧ c ≠ '"' := by
    intro s hs c hc
    rcases hs with rfl | ⟨e, sg, ds, rfl, h1, h2, h3, _⟩
    · cases hc
    · rcases List.mem_cons.mp hc with rfl | hc
      · rcases h1 with rfl | rfl <;> decide
      · rcases List.mem_append.mp hc with hc | hc
        · exact hsign _ h2 c hc
        · exact hdig _ h3 c hc
  intro c hc
  rw [he] at hc
  rcases List.mem_append.mp hc with hc | hc
  · exact hsign _ hs c hc
  · rcases hb with hw | ⟨ip, exp, h1, h2, h3⟩
    · have hl : asciiLower c ∈ "infinityan".toList := by
        have hm : asciiLower c ∈ body.map asciiLower := List.mem_map.mpr ⟨c, hc, rfl⟩
        rcases hw with h | h | h <;> rw [h] at hm <;> revert hm <;> generalize asciiLower c = x <;> simp <;> grind
      refine ⟨?_, ?_, ?_, ?_, ?_⟩ <;> rintro rfl <;> revert hl <;> decide
    · rcases h3 with ⟨rfl, _⟩ | ⟨fp, h4, rfl, _⟩
      · rcases List.mem_append.mp hc with hc | hc
        · exact hdig _ h1 c hc
        · exact hexp _ h2 c hc
      · rcases List.mem_append.mp hc with hc | hc
        · exact hdig _ h1 c hc
        · rcases List.mem_cons.mp hc with rfl | hc
          · decide
          · rcases List.mem_append.mp hc with hc | hc
            · exact hdig _ h4 c hc
            · exact hexp _ h2 c hc

theorem noSpecials_colRef {n : Nat} {name : String} (h : getColumnRef n = .ok name) : NoSpecials name := by
  by_cases h0 : n = 0
  · subst h0; cases h
  · rw [getColumnRef_pos n h0] at h
    cases h
    intro c hc
    rw [String.toList_ofList] at hc
    have := columnRefLoop_upper n n [] (by simp) c hc
    refine ⟨?_, ?_, ?_, ?_, ?_⟩ <;> rintro rfl <;> revert this <;> unfold isUpperLetter <;> decide

theorem attrReload_eq (v : String) : attrReload v = escStr v := rfl

theorem attrReload_nat (n : Nat) : attrReload (toString n) = toString n := escStr_eq_self (noSpecials_nat n)
theorem attrReload_int (n : Int) : attrReload (toString n) = toString n := escStr_eq_self (noSpecials_int n)

theorem parseUInt_toString' {max n : Nat} (h : n ≤ max) : parseUInt max (toString n) = some n := parseUInt_toString max n h

theorem parseI16_toString {z : Int} (h1 : -32768 ≤ z) (h2 : z ≤ 32767) : parseI16 (toString z) = some z := by
  cases z with
  | ofNat n =>
    have e : toString (Int.ofNat n) = toString n := rfl
    rw [e]
    have hn : n ≤ 32767 := by have h3 : (n : Int) ≤ 32767 := h2; omega
    unfold parseI16
    split
    · rename_i ds hds
      exfalso
      rw [toList_toString_nat] at hds
      have : ('-' : Char) ∈ Nat.toDigits 10 n := by rw [hds]; simp
      have := isDigit_of_mem_decimal this
      revert this; decide
    · rw [parseUInt_toString 32767 n hn]
      rfl
  | negSucc n =>
    have e : (toString (Int.negSucc n)).toList = '-' :: Nat.toDigits 10 (n + 1) := by
      have : toString (Int.negSucc n) = "-" ++ toString (n + 1) := rfl
      rw [this, String.toList_append, toList_toString_nat]; rfl
    unfold parseI16
    rw [e]
    have hn : Nat.ofDigitChars 10 (Nat.toDigits 10 (n + 1)) 0 = n + 1 := by
      exact Nat.ofDigitChars_toDigits (by decide) (by decide)
    simp only
    rw [hn, if_pos]
    · rw [Int.negSucc_eq]; rfl
    · refine ⟨?_, by omega⟩
      unfold digits1
      simp only [Bool.and_eq_true, List.all_eq_true]
      refine ⟨?_, fun c hc => isDigit_of_mem_decimal hc⟩
      have : Nat.toDigits 10 (n + 1) ≠ [] := Nat.toDigits_ne_nil
      cases hd : Nat.toDigits 10 (n + 1) with
      | nil => exact absurd hd this
      | cons _ _ => rfl

theorem parseF32_canonical {env : Env} {t : String} (h : Canonical env t) : parseF32 env.show32 t = some t := by
  unfold parseF32
  rw [if_pos ((isFloatText_iff t).mpr h.1), h.2]

theorem attrReload_canonical {env : Env} {t : String} (h : Canonical env t) : attrReload t = t := escStr_eq_self (noSpecials_float h.1)

/-! ### Attributes of a reloaded element -/

/-- Names usable as attribute names, whatever the Unicode tables. -/
def plainKeys (ks : List String) : Bool := ks.all (fun k => isValidXmlName ⟨fun _ => false⟩ k && !isNsKey k)

theorem wfNode_present {u : Unicode} {tag : String} {tbl : List (String × Option String)} {v : Option String} {cs : List Node}
    (ht : isValidXmlName ⟨fun _ => false⟩ tag = true) (hk : plainKeys (akeys tbl) = true) (hn : (akeys tbl).Nodup)
    (hc : WfNodes u cs) : WfNode u (.mk tag (some (present tbl)) v cs) := by
  refine wfNode_attrs ht ?_ (hn.sublist (akeys_present tbl)) hc
  rw [List.all_eq_true]
  intro k hk'
  exact List.all_eq_true.mp hk k ((akeys_present tbl).subset hk')

theorem reload_present {u : Unicode} {tag : String} {tbl : List (String × Option String)} {cs : List Node}
    (h : WfNode u (.mk tag (some (present tbl)) none cs)) (hn : (akeys tbl).Nodup) :
    ∃ a, (reload (.mk tag (some (present tbl)) none cs)).attrs = some a ∧ ∀ k, aget k a = (aget k tbl).join.map attrReload := by
  refine ⟨_, reload_attrs_some _, ?_⟩
  intro k
  have := aget_reloadAttrs h.2.1 k
  simp only [Node.attrs]
  rw [this, Option.getD_some, aget_present hn]
  rfl

theorem parseOpt_map {α : Type} {parse : String → Option α} {f : α → String} {o : Option α} (h : ∀ v, o = some v → parse (attrReload (f v)) = some v) :
    parseOpt parse ((o.map f).map attrReload) = .ok o := by
  cases o with
  | none => rfl
  | some v => simp only [Option.map_some, parseOpt, h v rfl]

theorem flag1_map (o : Option Bool) : flag1 ((o.map (fun _ => "1")).map attrReload) = o.map (fun _ => true) := by
  cases o with
  | none => rfl
  | some b =>
    have : attrReload "1" = "1" := by decide +kernel
    simp [flag1, this]

theorem boolFlag_map (o : Option Bool) : ((o.map boolXmlFlag).map attrReload).map normalizeBool = o := by
  cases o with
  | none => rfl
  | some b => cases b <;> decide +kernel

/-! ### Columns -/

theorem colTable_keys (c : ColProps) : (akeys (colTable c)).Nodup ∧ plainKeys (akeys (colTable c)) = true := by
  simp only [colTable, akeys, List.map_cons, List.map_nil]; decide +kernel

theorem wf_colNode (u : Unicode) (c : ColProps) : WfNode u (colNode c) :=
  wfNode_present (by decide +kernel) (colTable_keys c).2 (colTable_keys c).1 trivial

theorem loadCol_reload (env : Env) (c : ColProps) (h1 : c.min ≤ u16Max) (h2 : c.max ≤ u16Max) (h3 : ∀ g, c.style = some g → g ≤ u32Max)
    (h4 : ∀ t, c.width = some t → Canonical env t) : loadCol env (reload (colNode c)) = .ok (reloadCol c) := by
  obtain ⟨a, ha, hk⟩ := reload_present (wf_colNode env.uni c) (colTable_keys c).1
  unfold loadCol colNode
  rw [ha]
  simp only [hk]
  have e1 : (aget "min" (colTable c)).join = some (toString c.min) := rfl
  have e2 : (aget "max" (colTable c)).join = some (toString c.max) := rfl
  have e3 : (aget "style" (colTable c)).join = c.style.map toString := rfl
  have e4 : (aget "outlineLevel" (colTable c)).join = none := rfl
  have e5 : (aget "customWidth" (colTable c)).join = c.width.map (fun _ => "1") := rfl
  have e6 : (aget "width" (colTable c)).join = c.width := rfl
  have e7 : (aget "hidden" (colTable c)).join = c.hidden.map (fun _ => "1") := rfl
  have e8 : (aget "bestFit" (colTable c)).join = c.bestFit.map (fun _ => "1") := rfl
  have e9 : (aget "collapsed" (colTable c)).join = none := rfl
  rw [e1, e2, e3, e4, e5, e6, e7, e8, e9]
  rw [parseOpt_map (fun v hv => by rw [attrReload_nat]; exact parseUInt_toString _ _ (h3 v hv)), flag1_map, flag1_map]
  simp only [Option.map_some, Option.map_none, parseOpt, attrReload_nat, parseUInt_toString _ _ h1, parseUInt_toString _ _ h2]
  have ew : attrReload "1" = "1" := by decide +kernel
  cases hw : c.width with
  | none => simp [reloadCol, hw, flag1]
  | some w =>
    simp only [Option.map_some, ew, if_true, attrReload_canonical (h4 w hw), parseF32_canonical (h4 w hw)]
    simp [reloadCol, hw, flag1]

/-! ### Views -/

theorem viewTable_keys (v : View) : (akeys (viewTable v)).Nodup ∧ plainKeys (akeys (viewTable v)) = true := by
  simp only [viewTable, akeys, List.map_cons, List.map_nil]; decide +kernel

theorem wf_viewNode (u : Unicode) (v : View) : WfNode u (viewNode v) :=
  wfNode_present (by decide +kernel) (viewTable_keys v).2 (viewTable_keys v).1 trivial

theorem loadView_reload (u : Unicode) (v : View)
    (hz : ∀ z, (v.zoomScale = some z ∨ v.zoomScaleNormal = some z ∨ v.zoomScalePageLayout = some z ∨ v.zoomScaleSheetLayout = some z) →
      -32768 ≤ z ∧ z ≤ 32767) : loadView (reload (viewNode v)) = .ok (reloadView v) := by
  obtain ⟨a, ha, hk⟩ := reload_present (wf_viewNode u v) (viewTable_keys v).1
  unfold loadView
  rw [if_neg (by rw [reload_tag]; simp [viewNode, Node.tag])]
  unfold viewNode
  rw [ha]
  simp only [hk]
  have e1 : (aget "workbookViewId" (viewTable v)).join = some v.workbookViewId := rfl
  have e2 : (aget "zoomScale" (viewTable v)).join = v.zoomScale.map toString := rfl
  have e3 : (aget "zoomScaleNormal" (viewTable v)).join = v.zoomScaleNormal.map toString := rfl
  have e4 : (aget "zoomScaleSheetLayoutView" (viewTable v)).join = v.zoomScaleSheetLayout.map toString := rfl
  have e5 : (aget "zoomScalePageLayoutView" (viewTable v)).join = v.zoomScalePageLayout.map toString := rfl
  have e6 : (aget "topLeftCell" (viewTable v)).join = v.topLeftCell := rfl
  have e7 : (aget "view" (viewTable v)).join = v.view := rfl
  have f1 : (aget "defaultGridColor" (viewTable v)).join = v.defaultGridColor.map boolXmlFlag := rfl
  have f2 : (aget "rightToLeft" (viewTable v)).join = v.rightToLeft.map boolXmlFlag := rfl
  have f3 : (aget "showFormulas" (viewTable v)).join = v.showFormulas.map boolXmlFlag := rfl
  have f4 : (aget "showGridLines" (viewTable v)).join = v.showGridLines.map boolXmlFlag := rfl
  have f5 : (aget "showOutlineSymbols" (viewTable v)).join = v.showOutlineSymbols.map boolXmlFlag := rfl
  have f6 : (aget "showRowColHeaders" (viewTable v)).join = v.showRowColHeaders.map boolXmlFlag := rfl
  have f7 : (aget "showRuler" (viewTable v)).join = v.showRuler.map boolXmlFlag := rfl
  have f8 : (aget "showWhiteSpace" (viewTable v)).join = v.showWhiteSpace.map boolXmlFlag := rfl
  have f9 : (aget "showZeros" (viewTable v)).join = v.showZeros.map boolXmlFlag := rfl
  have f10 : (aget "tabSelected" (viewTable v)).join = v.tabSelected.map boolXmlFlag := rfl
  have f11 : (aget "windowProtection" (viewTable v)).join = v.windowProtection.map boolXmlFlag := rfl
  rw [e1, e2, e3, e4, e5, e6, e7, f1, f2, f3, f4, f5, f6, f7, f8, f9, f10, f11]
  have z : ∀ o : Option Int, (∀ x, o = some x → -32768 ≤ x ∧ x ≤ 32767) → parseOpt parseI16 ((o.map toString).map attrReload) = .ok o :=
    fun o ho => parseOpt_map (fun x hx => by rw [attrReload_int]; exact parseI16_toString (ho x hx).1 (ho x hx).2)
  rw [z _ (fun x hx => hz x (Or.inl hx)), z _ (fun x hx => hz x (Or.inr (Or.inl hx))), z _ (fun x hx => hz x (Or.inr (Or.inr (Or.inr hx)))),
    z _ (fun x hx => hz x (Or.inr (Or.inr (Or.inl hx))))]
  simp only [Option.map_some, boolFlag_map]
  rfl

/-! ### Cells -/

theorem plain_cellTable (ref : String) (c : CellProps) : plainKeys (akeys (cellTable ref c)) = true := by
  simp only [cellTable, akeys, List.map_cons, List.map_nil]; decide +kernel

theorem plain_rowTable (r : Nat) (p : RowProps) : plainKeys (akeys (rowTable r p)) = true := by
  simp only [rowTable, akeys, List.map_cons, List.map_nil]; decide +kernel

theorem wf_cellChildren (u : Unicode) (c : CellProps) : WfNodes u (cellChildren c) := by
  unfold cellChildren
  split
  · exact ⟨wfNode_bare (by decide +kernel) ⟨wfNode_bare (by decide +kernel) trivial, trivial⟩, trivial⟩
  · cases c.formula with
    | none => exact ⟨wfNode_bare (by decide +kernel) trivial, trivial⟩
    | some f => exact ⟨wfNode_bare (by decide +kernel) trivial, wfNode_bare (by decide +kernel) trivial, trivial⟩

theorem wf_cellNode (u : Unicode) (ref : String) (c : CellProps) :
    WfNode u (.mk "c" (some (present (cellTable ref c))) none (cellChildren c)) :=
  wfNode_present (by decide +kernel) (plain_cellTable ref c) (cellTable_keys ref c) (wf_cellChildren u c)

theorem reloadText_getD (o : Option String) : reloadText (o.getD "") = o.bind reloadText := by
  cases o with
  | none => rfl
  | some v => rfl

theorem loadChildren_reload (base c : CellProps) (hb : base.formula = none) (hv : base.value = none) :
    loadCellChildren base ((cellChildren c).map reload) =
      .ok { base with formula := if c.type = .inlineString then none else c.formula.bind reloadText, value := c.value.bind reloadText } := by
  cases base with
  | mk f0 v0 t0 h0 s0 m0 c0 p0 =>
  simp only at hb hv
  subst hb hv
  by_cases ht : c.type = .inlineString
  · unfold cellChildren
    rw [ht]
    simp only [List.map_cons, List.map_nil, reload, reloads, loadCellChildren, loadCellChild, Node.tag, Node.children, if_true,
      List.head?_cons, Node.value, reloadText_getD]
    simp
  · have hc : cellChildren c = (match c.formula with
        | none => []
        | some f => [Node.mk "f" none (some f) []]) ++ [.mk "v" none (some (c.value.getD "")) []] := by
      unfold cellChildren
      cases h : c.type <;> first | rfl | exact absurd h ht
    rw [hc, if_neg ht]
    cases c.formula with
    | none =>
      simp [reload, loadCellChildren, loadCellChild, Node.tag, Node.value, reloadText_getD]
    | some f =>
      simp [reload, loadCellChildren, loadCellChild, Node.tag, Node.value, reloadText_getD]

theorem parse_text (t : CellType) : CellType.parse t.text = t := by cases t <;> decide +kernel

theorem attrReload_type (t : CellType) : attrReload t.text = t.text := by cases t <;> decide +kernel

theorem loadCell_reload (env : Env) (row : Nat) (kv : Nat × CellProps) (n : Node) (hr : row ≤ u32Max) (h2 : kv.1 ≤ u16Max)
    (h3 : ∀ g, kv.2.style = some g → g ≤ u32Max) (h4 : ∀ g, kv.2.commentId = some g → g ≤ usizeMax) (h : cellNode row kv = .ok n) :
    loadCell env (reload n) = .ok (kv.1, reloadCell kv.2) := by
  obtain ⟨name, hn, rfl⟩ := cellNode_ok h
  obtain ⟨a, ha, hk⟩ := reload_present (wf_cellNode env.uni (name ++ toString row) kv.2) (cellTable_keys _ _)
  unfold loadCell
  rw [ha]
  simp only [hk]
  have e1 : (aget "r" (cellTable (name ++ toString row) kv.2)).join = some (name ++ toString row) := rfl
  have e2 : (aget "s" (cellTable (name ++ toString row) kv.2)).join = kv.2.style.map toString := rfl
  have e3 : (aget "cm" (cellTable (name ++ toString row) kv.2)).join = kv.2.commentId.map toString := rfl
  rw [e1, e2, e3]
  have hns : attrReload (name ++ toString row) = name ++ toString row :=
    escStr_eq_self (noSpecials_append (noSpecials_colRef hn) (noSpecials_nat row))
  have h1 : 1 ≤ kv.1 := by
    apply Classical.byContradiction
    intro h0
    have h0 : kv.1 = 0 := by omega
    rw [h0] at hn
    cases hn
  obtain ⟨name', hn', hi⟩ := C04_cell_ref_roundtrip env.build env.uni row kv.1 hr h1 h2
  rw [hn] at hn'
  cases hn'
  have hci : getColumnIndex env.build env.uni (name ++ toString row) = .ok kv.1 := by
    unfold getCellIndex at hi
    cases hx : extractDigits (name ++ toString row) with
    | error e => rw [hx] at hi; cases hi
    | ok r =>
      rw [hx] at hi
      cases hg : getColumnIndex env.build env.uni (name ++ toString row) with
      | error e => rw [hg] at hi; cases hi
      | ok col => rw [hg] at hi; cases hi; rfl
  simp only [Option.map_some, hns, hci]
  rw [parseOpt_map (fun v hv => by rw [attrReload_nat]; exact parseUInt_toString _ _ (h3 v hv)),
    parseOpt_map (fun v hv => by rw [attrReload_nat]; exact parseUInt_toString _ _ (h4 v hv))]
  simp only
  rw [reload_children_of_none rfl]
  simp only [Node.children]
  rw [loadChildren_reload _ _ rfl rfl]
  simp only
  congr 2
  unfold cellOfAttrs reloadCell
  simp only [hk]
  have e4 : (aget "t" (cellTable (name ++ toString row) kv.2)).join = if kv.2.type ≠ .number then some kv.2.type.text else none := rfl
  have e5 : (aget "vm" (cellTable (name ++ toString row) kv.2)).join = kv.2.metadata := rfl
  have e6 : (aget "ph" (cellTable (name ++ toString row) kv.2)).join = kv.2.placeHolder.map (fun _ => "1") := rfl
  rw [e4, e5, e6, flag1_map]
  congr 1
  by_cases ht : kv.2.type = .number
  · simp [ht]
  · simp [ht, attrReload_type, parse_text]

/-! ### Rows -/

theorem loadRowProps_reload (env : Env) (r : Nat) (p : RowProps) (a : Attrs) (hk : ∀ k, aget k a = (aget k (rowTable r p)).join.map attrReload)
    (h1 : ∀ g, p.style = some g → g ≤ u32Max) (h2 : ∀ g, p.groupLevel = some g → g ≤ u8Max)
    (h3 : ∀ t, p.height = some t → Canonical env t) : loadRowProps env a = .ok (reloadRowProps p) := by
  unfold loadRowProps
  simp only [hk]
  have e1 : (aget "customFormat" (rowTable r p)).join = p.style.map (fun _ => "1") := rfl
  have e2 : (aget "s" (rowTable r p)).join = p.style.map toString := rfl
  have e3 : (aget "customHeight" (rowTable r p)).join = p.height.map (fun _ => "1") := rfl
  have e4 : (aget "ht" (rowTable r p)).join = p.height := rfl
  have e5 : (aget "outlineLevel" (rowTable r p)).join = p.groupLevel.map toString := rfl
  have e6 : (aget "hidden" (rowTable r p)).join = p.hidden.map (fun _ => "1") := rfl
  have e7 : (aget "thickTop" (rowTable r p)).join = p.thickTop.map (fun _ => "1") := rfl
  have e8 : (aget "thickBot" (rowTable r p)).join = p.thickBottom.map (fun _ => "1") := rfl
  have e9 : (aget "collapsed" (rowTable r p)).join = p.collapsed.map (fun _ => "1") := rfl
  have e10 : (aget "ph" (rowTable r p)).join = p.placeHolder.map (fun _ => "1") := rfl
  have e11 : (aget "spans" (rowTable r p)).join = p.span := rfl
  rw [e1, e2, e3, e4, e5, e6, e7, e8, e9, e10, e11, flag1_map, flag1_map, flag1_map, flag1_map, flag1_map]
  have ew : attrReload "1" = "1" := by decide +kernel
  have s1 : parseOpt (parseUInt u32Max) (if (p.style.map (fun _ => "1")).map attrReload = some "1" then (p.style.map toString).map attrReload else none)
      = .ok p.style := by
    cases hs : p.style with
    | none => rfl
    | some g => simp only [Option.map_some, ew, if_true, parseOpt, attrReload_nat, parseUInt_toString _ _ (h1 g hs)]
  have s2 : parseOpt (parseF32 env.show32) (if (p.height.map (fun _ => "1")).map attrReload = some "1" then p.height.map attrReload else none)
      = .ok p.height := by
    cases hs : p.height with
    | none => rfl
    | some t => simp [ew, parseOpt, attrReload_canonical (h3 t hs), parseF32_canonical (h3 t hs)]
  rw [s1, s2, parseOpt_map (fun v hv => by rw [attrReload_nat]; exact parseUInt_toString _ _ (h2 v hv))]
  rfl

theorem wf_rowNode (u : Unicode) {kv : Nat × RowData} {n : Node} (h : rowNode kv = .ok n) : WfNode u n := by
  obtain ⟨cs, hcs, rfl⟩ := rowNode_ok h
  refine wfNode_present (by decide +kernel) (plain_rowTable _ _) (rowTable_keys _ _) (wfNodes_iff.mpr ?_)
  apply mapRes_all hcs
  intro x _ y hy
  obtain ⟨name, _, rfl⟩ := cellNode_ok hy
  exact wf_cellNode u _ _

/-- Two lists of results, entry by entry. -/
theorem mapRes_compose {α β γ : Type} {f : α → Res β} {g : β → Res γ} {k : α → γ} {l : List α} {r : List β} (h : mapRes f l = .ok r)
    (hk : ∀ x ∈ l, ∀ y, f x = .ok y → g y = .ok (k x)) : mapRes g r = .ok (l.map k) := by
  induction l generalizing r with
  | nil => cases h; rfl
  | cons a as ih =>
    rw [mapRes] at h
    cases ha : f a with
    | error e => rw [ha] at h; cases h
    | ok b =>
      rw [ha] at h
      simp only at h
      cases hs : mapRes f as with
      | error e => rw [hs] at h; cases h
      | ok bs =>
        rw [hs] at h
        cases h
        rw [mapRes, hk a (by simp) b ha, ih hs (fun x hx => hk x (by simp [hx]))]
        rfl

theorem mapRes_reload {γ : Type} {g : Node → Res γ} (l : List Node) (r : List γ) (h : mapRes (fun n => g (reload n)) l = .ok r) :
    mapRes g (l.map reload) = .ok r := by
  induction l generalizing r with
  | nil => exact h
  | cons a as ih =>
    rw [mapRes] at h
    rw [List.map_cons, mapRes]
    cases ha : g (reload a) with
    | error e => rw [ha] at h; cases h
    | ok b =>
      rw [ha] at h
      simp only at h ⊢
      cases hs : mapRes (fun n => g (reload n)) as with
      | error e => rw [hs] at h; cases h
      | ok bs => rw [hs] at h; cases h; rw [ih bs hs]

theorem loadRow_reload (env : Env) (kv : Nat × RowData) (n : Node) (hr : kv.1 ≤ u32Max)
    (h1 : ∀ g, kv.2.props.style = some g → g ≤ u32Max) (h2 : ∀ g, kv.2.props.groupLevel = some g → g ≤ u8Max)
    (h3 : ∀ t, kv.2.props.height = some t → Canonical env t)
    (h4 : ∀ cs, kv.2.cells = some cs → ∀ c ∈ cs, c.1 ≤ u16Max ∧ (∀ g, c.2.style = some g → g ≤ u32Max) ∧
      (∀ g, c.2.commentId = some g → g ≤ usizeMax)) (h : rowNode kv = .ok n) :
    loadRow env (reload n) = .ok (kv.1, reloadRowProps kv.2.props, (kv.2.cells.getD []).map (fun c => (c.1, reloadCell c.2))) := by
  have hwf := wf_rowNode env.uni h
  obtain ⟨cs, hcs, rfl⟩ := rowNode_ok h
  obtain ⟨a, ha, hk⟩ := reload_present hwf (rowTable_keys _ _)
  unfold loadRow
  rw [ha]
  simp only
  have e1 : aget "r" a = some (toString kv.1) := by
    rw [hk]
    have : (aget "r" (rowTable kv.1 kv.2.props)).join = some (toString kv.1) := rfl
    rw [this, Option.map_some, attrReload_nat]
  rw [e1]
  simp only [parseUInt_toString _ _ hr, loadRowProps_reload env kv.1 kv.2.props a hk h1 h2 h3]
  rw [reload_children_of_none rfl]
  simp only [Node.children]
  have : mapRes (loadCell env) (cs.map reload) = .ok ((kv.2.cells.getD []).map (fun c => (c.1, reloadCell c.2))) := by
    apply mapRes_reload
    refine mapRes_compose hcs ?_
    intro c hc y hy
    have hcs' : ∃ l, kv.2.cells = some l ∧ c ∈ l := by
      cases hl : kv.2.cells with
      | none => rw [hl] at hc; cases hc
      | some l => rw [hl] at hc; exact ⟨l, rfl, hc⟩
    obtain ⟨l, hl, hcl⟩ := hcs'
    obtain ⟨b2, b3, b4⟩ := h4 l hl c hcl
    exact loadCell_reload env kv.1 c y hr b2 b3 b4 hy
  rw [this]

/-! ### Sorted maps are rebuilt -/

theorem sinsert_last {V : Type} (m : List (Nat × V)) (k : Nat) (v : V) (h : ∀ j ∈ akeys m, j < k) : sinsert k v m = m ++ [(k, v)] := by
  induction m with
  | nil => rfl
  | cons kv m ih =>
    obtain ⟨j, w⟩ := kv
    have hj : j < k := h j (by simp [akeys])
    have ih' := ih (fun i hi => h i (by simp only [akeys, List.map_cons, List.mem_cons]; exact Or.inr hi))
    unfold sinsert
    rw [if_neg (by omega), if_neg (by omega), ih']
    rfl

theorem extendMap_sorted {V : Type} (l : List (Nat × V)) (h : SortedKeys l) : extendMap [] l = l := by
  suffices H : ∀ (l m : List (Nat × V)), SortedKeys (m ++ l) → extendMap m l = m ++ l by
    have := H l [] (by simpa using h)
    simpa using this
  intro l
  induction l with
  | nil => intro m _; simp [extendMap]
  | cons kv l ih =>
    intro m hm
    have e : extendMap m (kv :: l) = extendMap (sinsert kv.1 kv.2 m) l := rfl
    have hlt : ∀ j ∈ akeys m, j < kv.1 := by
      intro j hj
      unfold SortedKeys at hm
      rw [akeys, List.map_append, List.pairwise_append] at hm
      exact hm.2.2 j hj kv.1 (by simp)
    rw [e, sinsert_last m kv.1 kv.2 hlt, ih]
    · simp
    · simpa using hm

theorem akeys_map {V W : Type} (f : V → W) (l : List (Nat × V)) : akeys (l.map (fun kv => (kv.1, f kv.2))) = akeys l := by
  induction l with
  | nil => rfl
  | cons kv l ih => simp [akeys] at ih ⊢

theorem sorted_map {V W : Type} (f : V → W) {l : List (Nat × V)} (h : SortedKeys l) : SortedKeys (l.map (fun kv => (kv.1, f kv.2))) := by
  unfold SortedKeys; rw [akeys_map]; exact h

theorem aget_map_snd {V W : Type} (f : V → W) (l : List (Nat × V)) (k : Nat) :
    aget k (l.map (fun kv => (kv.1, f kv.2))) = (aget k l).map f := by
  induction l with
  | nil => rfl
  | cons kv l ih =>
    obtain ⟨j, v⟩ := kv
    simp only [List.map_cons, aget]
    split
    · rfl
    · exact ih

/-! ### The whole sheet -/

/-- What `Sheet.load` makes of the last `cols` element. -/
def colsOf (env : Env) (n : Option Node) : Res (Option (List ColProps)) :=
  match n with
  | none => .ok none
  | some n =>
    match mapRes (loadCol env) n.children with
    | .error e => .error e
    | .ok cs => .ok (some cs)

def dataOf (env : Env) (n : Option Node) : Res (Option SheetRows × (Nat × Nat)) :=
  match n with
  | none => .ok (none, dimDefault)
  | some n =>
    match mapRes (loadRow env) n.children with
    | .error e => .error e
    | .ok rows =>
      .ok (some (extendMap [] (rows.map (fun r => (r.1, rowDataOf r.2.1 r.2.2)))),
        rows.foldl (fun d r => r.2.2.foldl (fun d kv => dimAdd d kv.1) d) dimDefault)

def viewsOf (n : Option Node) : Res (List View) :=
  match n with
  | none => .ok [{}]
  | some n =>
    match mapRes loadView n.children with
    | .error e => .error e
    | .ok vs => .ok ({} :: vs)

theorem popTag_other {x : XDoc} {t t' : String} (h : t ≠ t') (root : Node) (hr : x.root = some root) :
    ((x.popTag t).2.popTag t').1 = (x.popTag t').1 := by
  unfold XDoc.popTag
  simp only
  rw [rootChildren_mapRoot hr, List.filter_filter]
  have : x.rootChildren = root.children := by unfold XDoc.rootChildren; rw [hr]
  rw [this]
  apply List.filter_congr
  intro n _
  by_cases hn : n.tag = t'
  · simp [hn, Ne.symm h]
  · simp [hn]

theorem popTag_root {x : XDoc} {root : Node} (hr : x.root = some root) (t : String) :
    ∃ root', (x.popTag t).2.root = some root' := by
  unfold XDoc.popTag XDoc.mapRootChildren
  rw [hr]; exact ⟨_, rfl⟩

/-- Loading, from the last element of each managed kind. -/
theorem load_of (env : Env) {x : XDoc} {root : Node} (hr : x.root = some root) {cols : Option (List ColProps)} {data : Option SheetRows}
    {dim : Nat × Nat} {views : List View}
    (h1 : colsOf env (root.children.filter (fun n => n.tag = "cols")).getLast? = .ok cols)
    (h2 : dataOf env (root.children.filter (fun n => n.tag = "sheetData")).getLast? = .ok (data, dim))
    (h3 : viewsOf (root.children.filter (fun n => n.tag = "sheetViews")).getLast? = .ok views) :
    (Sheet.load env x).1 = .ok { dim := dim, views := views, cols := cols, data := data } := by
  have hp : ∀ t, (x.popTag t).1 = root.children.filter (fun n => n.tag = t) := by
    intro t; unfold XDoc.popTag XDoc.rootChildren; rw [hr]
  obtain ⟨r1, hr1⟩ := popTag_root hr "dimension"
  obtain ⟨r2, hr2⟩ := popTag_root hr1 "cols"
  obtain ⟨r3, hr3⟩ := popTag_root hr2 "sheetData"
  have e1 : ((x.popTag "dimension").2.popTag "cols").1 = root.children.filter (fun n => n.tag = "cols") := by
    rw [popTag_other (by decide) root hr, hp]
  have e2 : (((x.popTag "dimension").2.popTag "cols").2.popTag "sheetData").1 = root.children.filter (fun n => n.tag = "sheetData") := by
    rw [popTag_other (by decide) r1 hr1, popTag_other (by decide) root hr, hp]
  have e3 : ((((x.popTag "dimension").2.popTag "cols").2.popTag "sheetData").2.popTag "sheetViews").1 =
      root.children.filter (fun n => n.tag = "sheetViews") := by
    rw [popTag_other (by decide) r2 hr2, popTag_other (by decide) r1 hr1, popTag_other (by decide) root hr, hp]
  have f1 : loadCols env (x.popTag "dimension").2 = (.ok cols, ((x.popTag "dimension").2.popTag "cols").2) := by
    unfold loadCols; rw [e1]; exact Prod.ext h1 rfl
  have f2 : loadData env ((x.popTag "dimension").2.popTag "cols").2 =
      (.ok (data, dim), (((x.popTag "dimension").2.popTag "cols").2.popTag "sheetData").2) := by
    unfold loadData; rw [e2]; exact Prod.ext h2 rfl
  have f3 : loadViews (((x.popTag "dimension").2.popTag "cols").2.popTag "sheetData").2 =
      (.ok views, ((((x.popTag "dimension").2.popTag "cols").2.popTag "sheetData").2.popTag "sheetViews").2) := by
    unfold loadViews; rw [e3]; exact Prod.ext h3 rfl
  unfold Sheet.load
  simp only [f1, f2, f3]

theorem filter_reload (cs : List Node) (t : String) :
    (cs.map reload).filter (fun n => n.tag = t) = (cs.filter (fun n => n.tag = t)).map reload := by
  rw [List.filter_map]
  congr 1
  apply List.filter_congr
  intro n _
  simp [Function.comp, reload_tag]

theorem mem_mem_of_filters {P : Node → Prop} {l : List Node} (h : ∀ t, ∀ n ∈ l.filter (fun n => n.tag = t), P n) : ∀ n ∈ l, P n := by
  intro n hn
  exact h n.tag n (by simp [hn])

theorem cellsOf_map (f : CellProps → CellProps) (l : List (Nat × CellProps)) (hs : SortedKeys l) :
    (if (extendMap [] (l.map (fun kv => (kv.1, f kv.2)))).length > 0 then some (extendMap [] (l.map (fun kv => (kv.1, f kv.2)))) else none) =
      match l with
      | [] => none
      | c :: cs => some ((c :: cs).map (fun kv => (kv.1, f kv.2))) := by
  rw [extendMap_sorted _ (sorted_map f hs)]
  cases l <;> simp

theorem rowDataOf_reload (rd : RowData) (hs : ∀ cs, rd.cells = some cs → SortedKeys cs) :
    rowDataOf (reloadRowProps rd.props) ((rd.cells.getD []).map (fun c => (c.1, reloadCell c.2))) = reloadRow rd := by
  unfold rowDataOf reloadRow
  cases hc : rd.cells with
  | none => simp [extendMap]
  | some cs =>
    have := cellsOf_map reloadCell cs (hs cs hc)
    simp only [Option.getD_some]
    rw [this]
    cases cs <;> rfl

theorem mapRes_ok_map {α β : Type} {f : α → Res β} {g : α → β} (l : List α) (h : ∀ x ∈ l, f x = .ok (g x)) : mapRes f l = .ok (l.map g) := by
  induction l with
  | nil => rfl
  | cons a as ih =>
    rw [mapRes, h a (by simp), ih (fun x hx => h x (by simp [hx]))]
    rfl

theorem wf_saved (u : Unicode) {s : Sheet} {x x' : XDoc} {t : String} {a : Option Attrs} {cs : List Node}
    (hx : WfDoc u x (.mk t a none cs)) (hc : ∀ n ∈ cs, n.tag ∉ managedTags) (h : s.save x = .ok x') :
    ∃ cs', WfDoc u x' (.mk t a none cs') ∧ x'.rootChildren = cs' ∧ cs' ≠ [] := by
  obtain ⟨ref, root, rows, h1, h2, h3, rfl⟩ := save_ok h
  rw [hx.isRoot] at h2
  cases h2
  refine ⟨placeSheetParts ref s.cols s.views rows cs, ⟨?_, ⟨hx.names.1, hx.names.2.1, ?_⟩, hx.ns, hx.uris⟩, ?_, ?_⟩
  · unfold XDoc.mapRootChildren; rw [hx.isRoot]; rfl
  · rw [wfNodes_iff]
    apply mem_mem_of_filters
    intro tag n hn
    rw [place_filter _ _ _ _ _ hc] at hn
    split at hn
    · rw [List.mem_singleton] at hn; subst hn
      exact wfNode_attrs (by decide +kernel) (by simp only [akeys, List.map_cons, List.map_nil]; decide +kernel) (by simp [akeys]) trivial
    · split at hn
      · unfold colsNodes at hn
        split at hn
        · rw [List.mem_singleton] at hn; subst hn
          refine wfNode_bare (by decide +kernel) (wfNodes_iff.mpr ?_)
          intro n hn
          obtain ⟨c, _, rfl⟩ := List.mem_map.mp hn
          exact wf_colNode u c
        · cases hn
      · split at hn
        · rw [List.mem_singleton] at hn; subst hn
          refine wfNode_bare (by decide +kernel) (wfNodes_iff.mpr ?_)
          intro n hn
          obtain ⟨c, _, rfl⟩ := List.mem_map.mp hn
          exact wf_viewNode u c
        · split at hn
          · unfold dataNodes at hn
            split at hn
            · rw [List.mem_singleton] at hn; subst hn
              refine wfNode_bare (by decide +kernel) (wfNodes_iff.mpr ?_)
              cases hd : s.data with
              | none => rw [hd] at h3; cases h3
              | some d =>
                rw [hd] at h3
                obtain ⟨ns, hns, hm⟩ := h3
                cases hns
                exact mapRes_all hm _ (fun kv _ n hn => wf_rowNode u hn)
            · cases hn
          · exact wfNodes_iff.mp hx.names.2.2 n (List.mem_filter.mp hn).1
  · rw [rootChildren_mapRoot hx.isRoot, (DocWith.mk hx.isRoot).children]
  · intro he
    have := place_filter ref s.cols s.views rows cs hc "dimension"
    rw [he] at this
    cases this

/-- **Reload.** Saving a sheet into a document, writing the file, reading it and loading the sheet gives exactly
`reloadSheet`. -/
theorem reload_sheet (env : Env) (hst : env.build.release = true → StampOk env.stamp) {s : Sheet} {x x' : XDoc} {t : String}
    {a : Option Attrs} {cs : List Node} (hs : SortedSheet s) (hf : FitsTypes env s) (hx : WfDoc env.uni x (.mk t a none cs))
    (hc : ∀ n ∈ cs, n.tag ∉ managedTags) (h : s.save x = .ok x') :
    ∃ d, readXml env.uni (renderDoc env.build env.stamp x') = .ok d ∧ d.toXDoc = reloadDoc env.build x' ∧
      (Sheet.load env d.toXDoc).1 = .ok (reloadSheet s) := by
  obtain ⟨cs', hw, hcs', hne⟩ := wf_saved env.uni hx hc h
  obtain ⟨d, hd1, hd2⟩ := read_doc env hst hw hne
  refine ⟨d, hd1, hd2, ?_⟩
  rw [hd2]
  obtain ⟨ref, root, rows, h1, h2, h3, rfl⟩ := save_ok h
  rw [hx.isRoot] at h2
  cases h2
  have hcs : cs' = placeSheetParts ref s.cols s.views rows cs := by
    rw [← hcs', rootChildren_mapRoot hx.isRoot, (DocWith.mk hx.isRoot).children]
  have hroot : (reloadDoc env.build (x.mapRootChildren (placeSheetParts ref s.cols s.views rows))).root =
      some (reload (.mk t a none cs')) := by
    unfold reloadDoc; rw [hw.isRoot]; rfl
  have hch : (reload (.mk t a none cs')).children = cs'.map reload := reload_children_of_none rfl
  have hfil : ∀ tag, ((reload (.mk t a none cs')).children.filter (fun n => n.tag = tag)) =
      ((placeSheetParts ref s.cols s.views rows cs).filter (fun n => n.tag = tag)).map reload := by
    intro tag; rw [hch, filter_reload, hcs]
  refine load_of env hroot (cols := (reloadSheet s).cols) (data := (reloadSheet s).data) (dim := (reloadSheet s).dim)
    (views := (reloadSheet s).views) ?_ ?_ ?_
  · rw [hfil, place_filter _ _ _ _ _ hc, if_neg (by decide), if_pos rfl]
    unfold colsNodes reloadSheet
    cases hcol : s.cols with
    | none => rfl
    | some l =>
      cases l with
      | nil => rfl
      | cons c rest =>
        simp only [List.map_cons, List.map_nil, List.getLast?_singleton, colsOf]
        rw [reload_children_of_none rfl]
        simp only [Node.children]
        have : mapRes (loadCol env) (((colNode c) :: rest.map colNode).map reload) = .ok ((c :: rest).map reloadCol) := by
          apply mapRes_reload
          have e : (colNode c) :: rest.map colNode = (c :: rest).map colNode := rfl
          rw [e]
          refine mapRes_compose (f := fun c => .ok (colNode c)) (mapRes_ok_map _ (fun _ _ => rfl)) ?_
          intro y hy n hn
          cases hn
          obtain ⟨b1, b2, b3, b4⟩ := hf.cols _ hcol y hy
          exact loadCol_reload env y b1 b2 b3 b4
        rw [this]; rfl
  · rw [hfil, place_filter _ _ _ _ _ hc, if_neg (by decide), if_neg (by decide), if_neg (by decide), if_pos rfl]
    unfold dataNodes reloadSheet
    cases hdat : s.data with
    | none => rw [hdat] at h3; cases h3; rfl
    | some dd =>
      rw [hdat] at h3
      obtain ⟨ns, hns, hm⟩ := h3
      cases hns
      simp only [List.map_cons, List.map_nil, List.getLast?_singleton, dataOf]
      rw [reload_children_of_none rfl]
      simp only [Node.children]
      have : mapRes (loadRow env) (ns.map reload) = .ok (dd.map (fun kv =>
          (kv.1, reloadRowProps kv.2.props, (kv.2.cells.getD []).map (fun c => (c.1, reloadCell c.2))))) := by
        apply mapRes_reload
        refine mapRes_compose hm ?_
        intro kv hkv n hn
        obtain ⟨b1, ⟨b2, b3, b4⟩, b5⟩ := hf.rows _ hdat kv hkv
        exact loadRow_reload env kv n b1 b2 b3 b4 b5 hn
      rw [this]
      simp only [List.map_map, Option.map_some, Option.getD_some]
      have e1 : List.map ((fun r : Nat × RowProps × List (Nat × CellProps) => (r.1, rowDataOf r.2.1 r.2.2)) ∘ fun kv : Nat × RowData =>
          (kv.1, reloadRowProps kv.2.props, (kv.2.cells.getD []).map (fun c => (c.1, reloadCell c.2)))) dd =
          dd.map (fun kv => (kv.1, reloadRow kv.2)) := by
        apply List.map_congr_left
        intro kv hkv
        simp only [Function.comp]
        rw [rowDataOf_reload]
        intro cs hcs
        exact (hs dd hdat).2 kv.1 kv.2 cs (aget_of_mem (hs dd hdat).1.nodup hkv) hcs
      rw [e1, extendMap_sorted _ (sorted_map reloadRow (hs dd hdat).1)]
      congr 2
      unfold dimOfRows
      rw [List.foldl_map]
      simp only [List.foldl_map]
  · rw [hfil, place_filter _ _ _ _ _ hc, if_neg (by decide), if_neg (by decide), if_pos rfl]
    simp only [List.map_cons, List.map_nil, List.getLast?_singleton, viewsOf]
    rw [reload_children_of_none rfl]
    simp only [Node.children]
    have : mapRes loadView ((s.views.reverse.map viewNode).map reload) = .ok (s.views.reverse.map reloadView) := by
      apply mapRes_reload
      refine mapRes_compose (f := fun v => .ok (viewNode v)) (mapRes_ok_map _ (fun _ _ => rfl)) ?_
      intro v hv n hn
      cases hn
      exact loadView_reload env.uni v (hf.views v (List.mem_reverse.mp hv))
    rw [this]; rfl

end Oxml
