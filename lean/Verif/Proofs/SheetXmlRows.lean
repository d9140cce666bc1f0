import Verif.Proofs.SheetXml
/-!
# Rows, columns and views of a worksheet document and those of the loaded sheet
-/
namespace Oxml
open Spec

variable {env : Env}

/-! ## One row -/

/-- What row properties are saved as. -/
def rowSaidOf (p : RowProps) : RowSaid :=
  { hidden := p.hidden.isSome, thickTop := p.thickTop.isSome, thickBottom := p.thickBottom.isSome, collapsed := p.collapsed.isSome,
    phonetic := p.placeHolder.isSome, height := p.height, style := p.style.map toString, level := (p.groupLevel.map toString).getD "0" }

theorem nat_opt (o : Option Nat) : (o.map toString).map attrReload = o.map toString := by
  cases o with
  | none => rfl
  | some k => exact congrArg some (attrReload_nat k)

theorem flag_opt (o : Option Bool) : (o.map (fun _ => "1")).map attrReload = o.map (fun _ => "1") := by
  have : attrReload "1" = "1" := by decide +kernel
  cases o with
  | none => rfl
  | some k => exact congrArg some this

theorem flag_true {α : Type} (o : Option α) : (decide (o.map (fun _ => "1") = some "1") || decide (o.map (fun _ => "1") = some "true")) = o.isSome := by
  cases o <;> simp

theorem rowSaid_reload {kv : Nat × RowData} {n : Node} (hf : RowPropsFit env kv.2.props) (h : rowNode kv = .ok n) :
    (reload n).attr? "r" = some (toString kv.1) ∧ rowSaid (reload n) = rowSaidOf kv.2.props := by
  have hwf := wf_rowNode env.uni h
  obtain ⟨cs, hcs, rfl⟩ := rowNode_ok h
  obtain ⟨a, ha, hk⟩ := reload_present hwf (rowTable_keys _ _)
  have hat := attr?_eq ha
  generalize kv.2.props = p at *
  have e0 : (aget "r" (rowTable kv.1 p)).join = some (toString kv.1) := rfl
  have e1 : (aget "customFormat" (rowTable kv.1 p)).join = p.style.map (fun _ => "1") := rfl
  have e2 : (aget "s" (rowTable kv.1 p)).join = p.style.map toString := rfl
  have e3 : (aget "customHeight" (rowTable kv.1 p)).join = p.height.map (fun _ => "1") := rfl
  have e4 : (aget "ht" (rowTable kv.1 p)).join = p.height := rfl
  have e5 : (aget "outlineLevel" (rowTable kv.1 p)).join = p.groupLevel.map toString := rfl
  have e6 : (aget "hidden" (rowTable kv.1 p)).join = p.hidden.map (fun _ => "1") := rfl
  have e7 : (aget "thickTop" (rowTable kv.1 p)).join = p.thickTop.map (fun _ => "1") := rfl
  have e8 : (aget "thickBot" (rowTable kv.1 p)).join = p.thickBottom.map (fun _ => "1") := rfl
  have e9 : (aget "collapsed" (rowTable kv.1 p)).join = p.collapsed.map (fun _ => "1") := rfl
  have e10 : (aget "ph" (rowTable kv.1 p)).join = p.placeHolder.map (fun _ => "1") := rfl
  have ew : attrReload "1" = "1" := by decide +kernel
  have hh : p.height.map attrReload = p.height := by
    cases e : p.height with
    | none => rfl
    | some t => exact congrArg some (attrReload_canonical (hf.2.2 t e))
  refine ⟨by rw [hat, hk, e0, Option.map_some, attrReload_nat], ?_⟩
  unfold rowSaid rowSaidOf trueAttr
  simp only [hat, hk, e1, e2, e3, e4, e5, e6, e7, e8, e9, e10, nat_opt, flag_opt, flag_true, hh]
  congr 1
  · cases p.height <;> simp [ew]
  · cases p.style <;> simp [ew]

theorem flag1_true {o : Option String} (h : o ≠ some "true") : (decide (o = some "1") || decide (o = some "true")) = (flag1 o).isSome := by
  unfold flag1
  by_cases e : o = some "1"
  · simp [e]
  · simp [e, h]

theorem parseF32_plain {o r : Option String} (h : parseOpt (parseF32 env.show32) o = .ok r) (hc : ∀ v, o = some v → Canonical env v) : o = r := by
  cases o with
  | none => cases h; rfl
  | some v =>
    unfold parseOpt at h
    simp only [parseF32_canonical (hc v rfl)] at h
    cases h; rfl

theorem rowSaid_load {n : Node} {a : Attrs} {p : RowProps} (ha : n.attrs = some a) (hp : PlainRow env n) (h : loadRowProps env a = .ok p) :
    rowSaid n = rowSaidOf p := by
  have hat := attr?_eq ha
  unfold loadRowProps at h
  split at h
  case h_2 => cases h
  next st ht gl h1 h2 h3 =>
  cases h
  have hf : ∀ k ∈ ["hidden", "thickTop", "thickBot", "collapsed", "ph", "customFormat", "customHeight"],
      (decide (aget k a = some "1") || decide (aget k a = some "true")) = (flag1 (aget k a)).isSome := by
    intro k hk
    exact flag1_true (by rw [← hat]; exact hp.flags k hk)
  have hb : ∀ k ∈ ["hidden", "thickTop", "thickBot", "collapsed", "ph", "customFormat", "customHeight"],
      (decide (aget k a = some "1") || decide (aget k a = some "true")) = decide (aget k a = some "1") := by
    intro k hk
    have := hp.flags k hk
    rw [hat] at this
    simp [this]
  have s1 := parseOpt_nat h1 (fun v hv => by
    split at hv
    · exact hp.nums "s" (by simp) v (by rw [hat, hv])
    · cases hv)
  have s2 := parseF32_plain h2 (fun v hv => by
    split at hv
    · exact hp.height v (by rw [hat, hv])
    · cases hv)
  have s3 := parseOpt_nat h3 (fun v hv => hp.nums "outlineLevel" (by simp) v (by rw [hat, hv]))
  unfold rowSaid rowSaidOf trueAttr
  simp only [hat]
  rw [hf "hidden" (by simp), hf "thickTop" (by simp), hf "thickBot" (by simp), hf "collapsed" (by simp), hf "ph" (by simp), hb "customFormat" (by simp),
    hb "customHeight" (by simp), ← s1, ← s2, s3]
  simp only [decide_eq_true_eq]
  congr 1
  cases gl with
  | none => rfl
  | some g => cases g <;> rfl

/-! ## All rows -/

theorem loadRow_ok {n : Node} {y : Nat × RowProps × List (Nat × CellProps)} (h : loadRow env n = .ok y) (hr : ∃ row : Nat, n.attr? "r" = some (toString row)) :
    n.attr? "r" = some (toString y.1) ∧ ∃ a, n.attrs = some a ∧ loadRowProps env a = .ok y.2.1 := by
  obtain ⟨row, h1⟩ := hr
  unfold loadRow at h
  cases ha : n.attrs with
  | none => rw [ha] at h; cases h
  | some a =>
  rw [ha] at h
  simp only at h
  rw [attr?_eq ha] at h1 ⊢
  rw [h1] at h
  simp only at h
  split at h
  · cases h
  next k hk =>
  have := parseOpt_nat (o := some (toString row)) (r := some k) (max := u32Max) (by unfold parseOpt; simp only [hk]) (fun v hv => ⟨row, (Option.some.inj hv).symm⟩)
  have : row = k := toString_nat_inj (Option.some.inj this)
  subst this
  split at h
  · cases h
  next p hp =>
  split at h
  · cases h
  cases h
  exact ⟨h1, a, rfl, hp⟩

theorem rowSaidAt_load {x x' : XDoc} {sh : Sheet} (h : Sheet.load env x = (.ok sh, x')) (hn : NumberedRows x) (hp : ∀ n ∈ rowElements x, PlainRow env n) (r : Nat) :
    rowSaidAt x r = rowSaidOf (rowPropsAt sh r) := by
  obtain ⟨_, hd, _, _⟩ := load_ok h
  have hrows := rowElements_last hn.one
  unfold dataOf at hd
  cases hl : (x.rootChildren.filter (fun n => n.tag = "sheetData")).getLast? with
  | none =>
    rw [hl] at hd hrows
    have e1 := (Prod.mk.inj (Except.ok.inj hd)).1
    unfold rowSaidAt rowPropsAt
    rw [hrows, ← e1]
    rfl
  | some nd =>
    rw [hl] at hd hrows
    simp only at hd hrows
    split at hd
    · cases hd
    next rows hm =>
    have e1 := (Prod.mk.inj (Except.ok.inj hd)).1
    rw [← hrows] at hm
    have hnod : (rows.map Prod.fst).Nodup := by
      have := hn.distinct
      rw [← mapRes_images hm (fun y => some (toString y.1)) (fun n => n.attr? "r") (fun n hm y hy => (loadRow_ok hy (hn.nums n hm)).1.symm)] at this
      rw [List.Nodup, List.pairwise_map] at this ⊢
      exact this.imp (fun h e => h (by rw [e]))
    have hk : (List.map Prod.fst (rows.map (fun r => (r.1, rowDataOf r.2.1 r.2.2)))).Nodup := by
      rw [List.map_map]; exact hnod
    unfold rowSaidAt rowPropsAt
    rw [← e1]
    simp only
    rw [aget_extendMap _ _ hk]
    cases hf : (rowElements x).find? (fun n => n.attr? "r" = some (toString r)) with
    | none =>
      cases ha : aget r (rows.map (fun r => (r.1, rowDataOf r.2.1 r.2.2))) with
      | none => rfl
      | some rd =>
        obtain ⟨y, hy, e⟩ := List.mem_map.mp (mem_of_aget ha)
        cases e
        obtain ⟨n, hn', hy'⟩ := mapRes_mem hm y hy
        have := List.find?_eq_none.mp hf n hn'
        exact absurd (loadRow_ok hy' (hn.nums n hn')).1 (by simpa using this)
    | some n =>
      have hn' := List.mem_of_find?_eq_some hf
      obtain ⟨y, hy, hy'⟩ := mapRes_mem' hm n hn'
      obtain ⟨g1, a, g2, g3⟩ := loadRow_ok hy' (hn.nums n hn')
      have hr : n.attr? "r" = some (toString r) := by simpa using List.find?_some hf
      rw [g1] at hr
      have hr := toString_nat_inj (Option.some.inj hr)
      rw [aget_of_mem (v := rowDataOf y.2.1 y.2.2) hk (List.mem_map.mpr ⟨y, hy, by rw [hr]⟩)]
      exact rowSaid_load g2 (hp n hn') g3

/-- The children of a saved document. -/
theorem saved_children {x x' : XDoc} {sh : Sheet} (hsv : Saveable env sh x) (h : sh.save x = .ok x') :
    ∃ ref rows, (match sh.data with | none => rows = none | some d => ∃ ns, rows = some ns ∧ mapRes rowNode d = .ok ns) ∧ ∀ tag,
      ((reloadDoc env.build x').rootChildren.filter (fun n => n.tag = tag)) =
        (if tag = "dimension" then [Node.mk "dimension" (some [("ref", ref)]) none []]
        else if tag = "cols" then colsNodes sh.cols
        else if tag = "sheetViews" then [Node.mk "sheetViews" none none (sh.views.reverse.map viewNode)]
        else if tag = "sheetData" then dataNodes rows
        else x.rootChildren.filter (fun n => n.tag = tag)).map reload := by
  obtain ⟨t, a, cs, hw, hcs⟩ := hsv.doc
  have hch : (reloadDoc env.build x').rootChildren = x'.rootChildren.map reload := by
    obtain ⟨cs', hw', _⟩ := wf_saved env.uni hw hcs h
    unfold XDoc.rootChildren reloadDoc
    rw [hw'.isRoot]
    simp only [Option.map_some, reload, Node.children, reloads_eq]
  obtain ⟨ref, root, rows, h1, h2, h3, rfl⟩ := save_ok h
  have hcs' : ∀ n ∈ x.rootChildren, n.tag ∉ managedTags := by
    intro n hn
    unfold XDoc.rootChildren at hn
    rw [hw.isRoot] at hn
    exact hcs n hn
  refine ⟨ref, rows, h3, fun tag => ?_⟩
  rw [hch, filter_reload, rootChildren_mapRoot h2, place_filter _ _ _ _ _ hcs']

theorem rowSaidAt_save {x x' : XDoc} {sh : Sheet} (hsv : Saveable env sh x) (h : sh.save x = .ok x') (r : Nat) :
    rowSaidAt (reloadDoc env.build x') r = rowSaidOf (rowPropsAt sh r) := by
  obtain ⟨ref, rows, h3, hf⟩ := saved_children hsv h
  have hrows : rowElements (reloadDoc env.build x') = (rows.getD []).map reload := by
    unfold rowElements
    rw [hf]
    simp only [String.reduceEq, if_false, if_true]
    cases rows with
    | none => rfl
    | some ns =>
      simp only [dataNodes, List.map_cons, List.map_nil, List.flatMap_cons, List.flatMap_nil, List.append_nil, Option.getD_some]
      exact reload_children_of_none rfl
  unfold rowSaidAt rowPropsAt
  rw [hrows]
  cases hd : sh.data with
  | none =>
    rw [hd] at h3
    simp only at h3
    subst h3
    rfl
  | some d =>
    rw [hd] at h3
    obtain ⟨ns, rfl, hm⟩ := h3
    have hn1 := (hsv.sorted d hd).1.nodup
    simp only [Option.getD_some]
    cases hfd : (ns.map reload).find? (fun n => n.attr? "r" = some (toString r)) with
    | none =>
      cases ha : aget r d with
      | none => rfl
      | some rd =>
        obtain ⟨n, hn, hn'⟩ := mapRes_mem' hm _ (mem_of_aget ha)
        have := List.find?_eq_none.mp hfd (reload n) (List.mem_map.mpr ⟨n, hn, rfl⟩)
        exact absurd (rowSaid_reload (hsv.fits.1 d hd _ (mem_of_aget ha)).2.1 hn').1 (by simpa using this)
    | some n' =>
      obtain ⟨n, hn, rfl⟩ := List.mem_map.mp (List.mem_of_find?_eq_some hfd)
      obtain ⟨kv, hkv, hkv'⟩ := mapRes_mem hm n hn
      obtain ⟨g1, g2⟩ := rowSaid_reload (hsv.fits.1 d hd _ hkv).2.1 hkv'
      have hr : (reload n).attr? "r" = some (toString r) := by simpa using List.find?_some hfd
      rw [g1] at hr
      have hr := toString_nat_inj (Option.some.inj hr)
      rw [aget_of_mem (v := kv.2) hn1 (by rw [← hr]; exact hkv)]
      exact g2

/-! ## Columns -/

/-- What a column range is saved as. -/
def colSaidOf (c : ColProps) : ColSaid :=
  { min := toString c.min, max := toString c.max, width := c.width, hidden := c.hidden.isSome, bestFit := c.bestFit.isSome,
    style := (c.style.map toString).getD "0", level := "0", collapsed := false }

theorem colSaid_reload {c : ColProps} (hf : ColFit env c) : colSaid (reload (colNode c)) = colSaidOf c := by
  obtain ⟨a, ha, hk⟩ := reload_present (wf_colNode env.uni c) (colTable_keys c).1
  have hat := attr?_eq ha
  have e1 : (aget "min" (colTable c)).join = some (toString c.min) := rfl
  have e2 : (aget "max" (colTable c)).join = some (toString c.max) := rfl
  have e3 : (aget "style" (colTable c)).join = c.style.map toString := rfl
  have e4 : (aget "outlineLevel" (colTable c)).join = none := rfl
  have e5 : (aget "customWidth" (colTable c)).join = c.width.map (fun _ => "1") := rfl
  have e6 : (aget "width" (colTable c)).join = c.width := rfl
  have e7 : (aget "hidden" (colTable c)).join = c.hidden.map (fun _ => "1") := rfl
  have e8 : (aget "bestFit" (colTable c)).join = c.bestFit.map (fun _ => "1") := rfl
  have e9 : (aget "collapsed" (colTable c)).join = none := rfl
  have ew : attrReload "1" = "1" := by decide +kernel
  have hh : c.width.map attrReload = c.width := by
    cases e : c.width with
    | none => rfl
    | some t => exact congrArg some (attrReload_canonical (hf.2.2.2 t e))
  unfold colNode at hat ⊢
  unfold colSaid colSaidOf trueAttr
  simp only [hat, hk, e1, e2, e3, e4, e5, e6, e7, e8, e9, nat_opt, flag_opt, flag_true, hh, Option.map_some, attrReload_nat, Option.map_none, Option.getD_some,
    Option.getD_none]
  congr 1
  cases c.width <;> simp [ew]

theorem colSaid_load {n : Node} {c : ColProps} (hp : PlainCol env n) (h : loadCol env n = .ok c) :
    { colSaid n with level := "0", collapsed := false } = colSaidOf c := by
  unfold loadCol at h
  cases ha : n.attrs with
  | none => rw [ha] at h; cases h
  | some a =>
  rw [ha] at h
  simp only at h
  have hat := attr?_eq ha
  split at h
  case h_2 => cases h
  next mn mx st gl w h1 h2 h3 h4 h5 =>
  cases h
  have hf : ∀ k ∈ ["hidden", "bestFit", "collapsed", "customWidth"],
      (decide (aget k a = some "1") || decide (aget k a = some "true")) = (flag1 (aget k a)).isSome := by
    intro k hk
    exact flag1_true (by rw [← hat]; exact hp.flags k hk)
  have hcw : (decide (aget "customWidth" a = some "1") || decide (aget "customWidth" a = some "true")) = decide (aget "customWidth" a = some "1") := by
    have := hp.flags "customWidth" (by simp)
    rw [hat] at this
    simp [this]
  have s1 := parseOpt_nat h1 (fun v hv => hp.nums "min" (by simp) v (by rw [hat, hv]))
  have s2 := parseOpt_nat h2 (fun v hv => hp.nums "max" (by simp) v (by rw [hat, hv]))
  have s3 := parseOpt_nat h3 (fun v hv => hp.nums "style" (by simp) v (by rw [hat, hv]))
  have s5 : (if aget "customWidth" a = some "1" then aget "width" a else none) = w := by
    split at h5
    · next e =>
      rw [if_pos e]
      cases hw : aget "width" a with
      | none => rw [hw] at h5; cases h5
      | some v =>
        rw [hw] at h5
        exact parseF32_plain h5 (fun v' hv => hp.width v' (by rw [hat, hw, hv]))
    · next e =>
      rw [if_neg e]
      cases h5; rfl
  unfold colSaid colSaidOf trueAttr
  simp only [hat]
  rw [hf "hidden" (by simp), hf "bestFit" (by simp), hcw, s1, s2, s3]
  simp only [decide_eq_true_eq, s5]
  congr 1
  · cases mn <;> rfl
  · cases mx <;> rfl

theorem colElements_load {x x' : XDoc} {sh : Sheet} (h : Sheet.load env x = (.ok sh, x')) (h1 : (x.rootChildren.filter (fun n => n.tag = "cols")).length ≤ 1)
    (hp : ∀ n ∈ colElements x, PlainCol env n) :
    (colElements x).map (fun n => { colSaid n with level := "0", collapsed := false }) = (sh.cols.getD []).map colSaidOf := by
  obtain ⟨hc, _, _, _⟩ := load_ok h
  unfold colElements at hp ⊢
  cases e : x.rootChildren.filter (fun n => n.tag = "cols") with
  | nil =>
    rw [e] at hc
    have hc : (none : Option (List ColProps)) = sh.cols := Except.ok.inj hc
    rw [← hc]; rfl
  | cons nd l =>
    cases l with
    | cons _ _ => rw [e] at h1; simp at h1
    | nil =>
      rw [e] at hc hp
      simp only [List.getLast?_singleton, colsOf] at hc
      simp only [List.flatMap_cons, List.flatMap_nil, List.append_nil] at hp ⊢
      split at hc
      · cases hc
      next cs hm =>
      have hc := Except.ok.inj hc
      rw [← hc, Option.getD_some]
      exact (mapRes_images hm _ _ (fun n hn y hy => (colSaid_load (hp n hn) hy).symm)).symm

theorem colElements_save {x x' : XDoc} {sh : Sheet} (hsv : Saveable env sh x) (h : sh.save x = .ok x') :
    (colElements (reloadDoc env.build x')).map colSaid = (sh.cols.getD []).map colSaidOf := by
  obtain ⟨ref, rows, _, hf⟩ := saved_children hsv h
  unfold colElements
  rw [hf]
  simp only [String.reduceEq, if_false, if_true]
  cases hc : sh.cols with
  | none => rfl
  | some l =>
    cases l with
    | nil => rfl
    | cons c l =>
      simp only [colsNodes, List.map_cons, List.map_nil, List.flatMap_cons, List.flatMap_nil, List.append_nil, Option.getD_some]
      rw [reload_children_of_none rfl]
      simp only [Node.children, List.map_cons, List.map_map]
      rw [colSaid_reload (hsv.fits.cols _ hc c (by simp))]
      congr 1
      apply List.map_congr_left
      intro y hy
      exact colSaid_reload (hsv.fits.cols _ hc y (by simp [hy]))

/-! ## Views -/

/-- What a view is saved as. -/
def viewSaidOf (v : View) : ViewSaid :=
  { window := some (attrReload v.workbookViewId),
    switches := [v.windowProtection, v.showFormulas, v.showGridLines, v.showRowColHeaders, v.showZeros, v.rightToLeft, v.tabSelected, v.showRuler, v.showWhiteSpace,
      v.showOutlineSymbols, v.defaultGridColor],
    numbers := [v.zoomScale.map toString, v.zoomScaleNormal.map toString, v.zoomScaleSheetLayout.map toString, v.zoomScalePageLayout.map toString],
    topLeft := v.topLeftCell.map attrReload, kind := v.view.map attrReload }

theorem switch_opt (o : Option Bool) : ((o.map boolXmlFlag).map attrReload).map (fun v => decide (v = "1") || decide (v = "true")) = o := by
  cases o with
  | none => rfl
  | some b => cases b <;> decide +kernel

theorem int_opt (o : Option Int) : (o.map toString).map attrReload = o.map toString := by
  cases o with
  | none => rfl
  | some k => exact congrArg some (attrReload_int k)

theorem viewSaid_reload (v : View) : viewSaid (reload (viewNode v)) = viewSaidOf v := by
  obtain ⟨a, ha, hk⟩ := reload_present (wf_viewNode ⟨fun _ => false⟩ v) (viewTable_keys v).1
  have hat := attr?_eq ha
  have e1 : (aget "workbookViewId" (viewTable v)).join = some v.workbookViewId := rfl
  have e2 : (aget "zoomScale" (viewTable v)).join = v.zoomScale.map toString := rfl
  have e3 : (aget "zoomScaleNormal" (viewTable v)).join = v.zoomScaleNormal.map toString := rfl
  have e4 : (aget "zoomScaleSheetLayoutView" (viewTable v)).join = v.zoomScaleSheetLayout.map toString := rfl
  have e5 : (aget "zoomScalePageLayoutView" (viewTable v)).join = v.zoomScalePageLayout.map toString := rfl
  have e6 : (aget "topLeftCell" (viewTable v)).join = v.topLeftCell := rfl
  have e7 : (aget "view" (viewTable v)).join = v.view := rfl
  have f1 : (aget "defaultGridColor" (viewTable v)).join = v.defaultGridColor.map boolXmlFlag := rfl
  have f2 : (aget "rightToLeft" (viewTable v)).join = v.rightToLeft.map boolXmlFlag := rfl
  have f3 : (aget "showFormulas" (viewTable v)).join = v.showFormulas.map boolXmlFlag := rfl
  have f4 : (aget "showGridLines" (viewTable v)).join = v.showGridLines.map boolXmlFlag := rfl
  have f5 : (aget "showOutlineSymbols" (viewTable v)).join = v.showOutlineSymbols.map boolXmlFlag := rfl
  have f6 : (aget "showRowColHeaders" (viewTable v)).join = v.showRowColHeaders.map boolXmlFlag := rfl
  have f7 : (aget "showRuler" (viewTable v)).join = v.showRuler.map boolXmlFlag := rfl
  have f8 : (aget "showWhiteSpace" (viewTable v)).join = v.showWhiteSpace.map boolXmlFlag := rfl
  have f9 : (aget "showZeros" (viewTable v)).join = v.showZeros.map boolXmlFlag := rfl
  have f10 : (aget "tabSelected" (viewTable v)).join = v.tabSelected.map boolXmlFlag := rfl
  have f11 : (aget "windowProtection" (viewTable v)).join = v.windowProtection.map boolXmlFlag := rfl
  unfold viewNode at hat ⊢
  unfold viewSaid viewSaidOf viewSwitches viewNumbers
  simp only [List.map_cons, List.map_nil, hat, hk, e1, e2, e3, e4, e5, e6, e7, f1, f2, f3, f4, f5, f6, f7, f8, f9, f10, f11, switch_opt, int_opt, Option.map_some]

theorem normal_switch {o : Option String} (h : ∀ v, o = some v → v ∈ ["0", "1", "true", "false"]) :
    o.map (fun v => decide (v = "1") || decide (v = "true")) = o.map normalizeBool := by
  cases o with
  | none => rfl
  | some v =>
    have := h v rfl
    simp only [List.mem_cons, List.not_mem_nil, or_false] at this
    rcases this with rfl | rfl | rfl | rfl <;> decide +kernel

theorem parseI16_nat {o : Option String} {r : Option Int} (h : parseOpt parseI16 o = .ok r) (hn : ∀ v, o = some v → ∃ k : Nat, v = toString k) :
    o = r.map toString := by
  cases o with
  | none => cases h; rfl
  | some v =>
    obtain ⟨k, rfl⟩ := hn v rfl
    unfold parseOpt at h
    have e : toString k = toString (k : Int) := rfl
    by_cases hk : k ≤ 32767
    · rw [e] at h
      simp only [parseI16_toString (z := (k : Int)) (by omega) (by omega)] at h
      cases h; rfl
    · have : parseI16 (toString k) = none := by
        unfold parseI16
        split
        · next ds e =>
          rw [toList_toString_nat] at e
          have : ('-').isDigit = true := isDigit_of_mem_decimal (n := k) (by rw [e]; simp)
          cases this
        · have : parseUInt 32767 (toString k) = none := by
            unfold parseUInt
            rw [toList_toString_nat, unsignedDigits_of_digits _ Nat.toDigits_ne_nil (fun c hc => isDigit_of_mem_decimal hc)]
            simp only [Nat.ofDigitChars_ten_toDigits, hk, if_false]
          rw [this]; rfl
      simp only [this] at h
      cases h

theorem plain_opt {o : Option String} (h : ∀ v, o = some v → NoSpecials v) : o.map attrReload = o := by
  cases o with
  | none => rfl
  | some v => exact congrArg some (escStr_eq_self (h v rfl))

theorem viewSaid_load {n : Node} {v : View} (hp : PlainView n) (h : loadView n = .ok v) : viewSaid n = viewSaidOf v := by
  unfold loadView at h
  split at h
  · cases h
  cases ha : n.attrs with
  | none => rw [ha] at h; cases h
  | some a =>
  rw [ha] at h
  simp only at h
  have hat := attr?_eq ha
  split at h
  · cases h
  next id hid =>
  split at h
  case h_2 => cases h
  next z1 z2 z3 z4 h1 h2 h3 h4 =>
  cases h
  have hs : ∀ k ∈ viewSwitches, (aget k a).map (fun v => decide (v = "1") || decide (v = "true")) = (aget k a).map normalizeBool := by
    intro k hk
    exact normal_switch (fun v hv => hp.switches k hk v (by rw [hat, hv]))
  have n1 := parseI16_nat h1 (fun v hv => hp.numbers "zoomScale" (by simp [viewNumbers]) v (by rw [hat, hv]))
  have n2 := parseI16_nat h2 (fun v hv => hp.numbers "zoomScaleNormal" (by simp [viewNumbers]) v (by rw [hat, hv]))
  have n3 := parseI16_nat h3 (fun v hv => hp.numbers "zoomScaleSheetLayoutView" (by simp [viewNumbers]) v (by rw [hat, hv]))
  have n4 := parseI16_nat h4 (fun v hv => hp.numbers "zoomScalePageLayoutView" (by simp [viewNumbers]) v (by rw [hat, hv]))
  have t1 := plain_opt (o := aget "topLeftCell" a) (fun v hv => hp.texts "topLeftCell" (by simp) v (by rw [hat, hv]))
  have t2 := plain_opt (o := aget "view" a) (fun v hv => hp.texts "view" (by simp) v (by rw [hat, hv]))
  have t3 : attrReload id = id := escStr_eq_self (hp.texts "workbookViewId" (by simp) id (by rw [hat, hid]))
  unfold viewSaid viewSaidOf
  simp only [hat, hid, t1, t2, t3, ← n1, ← n2, ← n3, ← n4]
  congr 1
  · rw [List.map_congr_left hs]
    rfl
  · simp only [viewNumbers, List.map_cons, List.map_nil, hat]

theorem viewElements_load {x x' : XDoc} {sh : Sheet} (h : Sheet.load env x = (.ok sh, x')) (h1 : (x.rootChildren.filter (fun n => n.tag = "sheetViews")).length ≤ 1)
    (hp : ∀ n ∈ viewElements x, PlainView n) : sh.views.map viewSaidOf = bareView :: (viewElements x).map viewSaid := by
  obtain ⟨_, _, hv, _⟩ := load_ok h
  have hb : viewSaidOf {} = bareView := by decide +kernel
  unfold viewElements at hp ⊢
  cases e : x.rootChildren.filter (fun n => n.tag = "sheetViews") with
  | nil =>
    rw [e] at hv
    have hv : [({} : View)] = sh.views := Except.ok.inj hv
    rw [← hv, List.map_cons, hb]; rfl
  | cons nd l =>
    cases l with
    | cons _ _ => rw [e] at h1; simp at h1
    | nil =>
      rw [e] at hv hp
      simp only [List.getLast?_singleton, viewsOf] at hv
      simp only [List.flatMap_cons, List.flatMap_nil, List.append_nil] at hp ⊢
      split at hv
      · cases hv
      next vs hm =>
      have hv := Except.ok.inj hv
      rw [← hv, List.map_cons, hb]
      congr 1
      exact mapRes_images hm _ _ (fun n hn y hy => (viewSaid_load (hp n hn) hy).symm)

theorem viewElements_save {x x' : XDoc} {sh : Sheet} (hsv : Saveable env sh x) (h : sh.save x = .ok x') :
    viewElements (reloadDoc env.build x') = sh.views.reverse.map (fun v => reload (viewNode v)) := by
  obtain ⟨ref, rows, _, hf⟩ := saved_children hsv h
  unfold viewElements
  rw [hf]
  simp only [String.reduceEq, if_false, if_true, List.map_cons, List.map_nil, List.flatMap_cons, List.flatMap_nil, List.append_nil]
  rw [reload_children_of_none rfl]
  simp only [Node.children, List.map_map]
  rfl

end Oxml
