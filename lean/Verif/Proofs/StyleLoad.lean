import Verif.Proofs.Style
import Verif.Proofs.WorksheetLoad
/-!
# Styles after saving and loading
-/
namespace Oxml
open Spec

theorem numFmtKind_parse_text (x : NumFmtKind) : NumFmtKind.parse x.text = x := by cases x <;> decide +kernel
theorem fontScheme_parse_text (x : FontScheme) : FontScheme.parse x.text = x := by cases x <;> decide +kernel
theorem patternType_parse_text (x : PatternType) : PatternType.parse x.text = x := by cases x <;> decide +kernel
theorem borderKind_parse_text (x : BorderKind) : BorderKind.parse x.text = x := by cases x <;> decide +kernel
theorem colorKind_parse_text (x : ColorKind) : ColorKind.parse x.text = x := by cases x <;> decide +kernel
theorem hAlign_parse_text (x : HAlign) : HAlign.parse x.text = x := by cases x <;> decide +kernel
theorem vAlign_parse_text (x : VAlign) : VAlign.parse x.text = x := by cases x <;> decide +kernel

theorem attrReload_fontScheme (x : FontScheme) : attrReload x.text = x.text := by cases x <;> decide +kernel
theorem attrReload_patternType (x : PatternType) : attrReload x.text = x.text := by cases x <;> decide +kernel
theorem attrReload_borderKind (x : BorderKind) : attrReload x.text = x.text := by cases x <;> decide +kernel
theorem attrReload_hAlign (x : HAlign) : attrReload x.text = x.text := by cases x <;> decide +kernel
theorem attrReload_vAlign (x : VAlign) : attrReload x.text = x.text := by cases x <;> decide +kernel

/-! ### Single elements -/

/-- An element with one plain attribute. -/
theorem wf_one {u : Unicode} {tag k v : String} {cs : List Node} (ht : isValidXmlName ⟨fun _ => false⟩ tag = true)
    (hk : plainKeys [k] = true) (hc : WfNodes u cs) : WfNode u (.mk tag (some [(k, v)]) none cs) := by
  refine wfNode_attrs ht ?_ (by simp [akeys]) hc
  simpa [plainKeys, akeys] using hk

theorem reload_one {u : Unicode} {tag k v : String} {cs : List Node} (h : WfNode u (.mk tag (some [(k, v)]) none cs)) (k' : String) :
    (reload (.mk tag (some [(k, v)]) none cs)).attr? k' = if k = k' then some (attrReload v) else none := by
  rw [reload_attr h]
  simp only [Node.attr?, Node.attrs, aget]
  split <;> rfl

theorem wf_colorNode (u : Unicode) {tag : String} (c : Color) (ht : isValidXmlName ⟨fun _ => false⟩ tag = true) : WfNode u (colorNode tag c) := by
  refine wf_one ht ?_ trivial
  cases c.kind <;> decide +kernel

theorem loadColor_reload {tag : String} (c : Color) (ht : isValidXmlName ⟨fun _ => false⟩ tag = true) :
    loadColor (reload (colorNode tag c)) = some (reloadColor c) := by
  have h := reload_one (wf_colorNode ⟨fun _ => false⟩ c ht)
  unfold loadColor
  unfold colorNode
  simp only [h]
  cases c with
  | mk kind value => cases kind <;> simp [ColorKind.text, reloadColor]

theorem wf_valNode (u : Unicode) {tag v : String} (ht : isValidXmlName ⟨fun _ => false⟩ tag = true) : WfNode u (valNode tag v) :=
  wf_one ht (by decide +kernel) trivial

theorem reload_valNode {tag v : String} (ht : isValidXmlName ⟨fun _ => false⟩ tag = true) : (reload (valNode tag v)).attr? "val" = some (attrReload v) := by
  have h := reload_one (wf_valNode ⟨fun _ => false⟩ (v := v) ht) "val"
  unfold valNode
  rw [h, if_pos rfl]

theorem tag_valNode (tag v : String) : (reload (valNode tag v)).tag = tag := by rw [reload_tag]; rfl

theorem wf_bareLeaf (u : Unicode) {tag : String} (ht : isValidXmlName ⟨fun _ => false⟩ tag = true) : WfNode u (.mk tag none none []) :=
  wfNode_bare ht trivial

theorem wf_numFmtNode (u : Unicode) (f : NumFmt) : WfNode u (numFmtNode f) :=
  wfNode_attrs (by decide +kernel) (by simp only [akeys, List.map_cons, List.map_nil]; decide +kernel) (by simp [akeys]) trivial

theorem loadNumFmt_reload (f : NumFmt) (h : f.id ≤ usizeMax) : loadNumFmt (reload (numFmtNode f)) = .ok (some (reloadNumFmt f)) := by
  have hk := reload_attr (wf_numFmtNode ⟨fun _ => false⟩ f)
  have h0 := reload_attrs_some (numFmtNode f)
  unfold loadNumFmt
  have hg : ∀ k, aget k (reloadAttrs (numFmtNode f).attrs) = ((numFmtNode f).attr? k).map escStr := by
    intro k
    rw [← hk k]
    unfold Node.attr?
    rw [h0]
  rw [h0]
  simp only [hg]
  have e1 : (numFmtNode f).attr? "numFmtId" = some (toString f.id) := rfl
  have e2 : (numFmtNode f).attr? "formatCode" = some f.code := rfl
  rw [e1, e2]
  simp only [Option.map_some]
  rw [show escStr (toString f.id) = toString f.id from attrReload_nat f.id, parseUInt_toString' h]
  rfl

/-! ### Fonts -/

theorem wf_fontNode (u : Unicode) (f : Font) : WfNode u (fontNode f) := by
  refine wfNode_bare (by decide +kernel) (wfNodes_iff.mpr ?_)
  intro n hn
  simp only [List.mem_append, List.mem_cons, List.not_mem_nil, or_false] at hn
  rcases hn with (((hn | hn) | hn) | hn) | rfl | rfl | rfl | rfl | rfl
  · split at hn
    · rw [List.mem_singleton] at hn; subst hn; exact wf_bareLeaf u (by decide +kernel)
    · cases hn
  · split at hn
    · rw [List.mem_singleton] at hn; subst hn; exact wf_bareLeaf u (by decide +kernel)
    · cases hn
  · split at hn
    · rw [List.mem_singleton] at hn; subst hn; exact wf_bareLeaf u (by decide +kernel)
    · cases hn
  · split at hn
    · rw [List.mem_singleton] at hn; subst hn; exact wf_valNode u (by decide +kernel)
    · cases hn
  · exact wf_valNode u (by decide +kernel)
  · exact wf_colorNode u _ (by decide +kernel)
  · exact wf_valNode u (by decide +kernel)
  · exact wf_valNode u (by decide +kernel)
  · exact wf_valNode u (by decide +kernel)

theorem loadFontItems_cons {f f' : Font} {n : Node} {ns : List Node} (h : loadFontItem f n = .ok f') :
    loadFontItems f (n :: ns) = loadFontItems f' ns := by
  rw [loadFontItems, h]

theorem loadFontItems_append (f : Font) (a b : List Node) :
    loadFontItems f (a ++ b) = match loadFontItems f a with | .error e => .error e | .ok g => loadFontItems g b := by
  induction a generalizing f with
  | nil => rfl
  | cons n ns ih =>
    rw [List.cons_append, loadFontItems, loadFontItems]
    cases loadFontItem f n with
    | error e => rfl
    | ok g => exact ih g

theorem loadFontItem_leaf (f : Font) (tag : String) :
    loadFontItem f (reload (.mk tag none none [])) = loadFontItem f (.mk tag (some []) none []) := by
  have : reload (.mk tag none none []) = .mk tag (some []) none [] := by simp [reload, reloads, reloadAttrs]
  rw [this]

theorem font_flags (f : Font) : loadFontItems {} (((if f.bold then [Node.mk "b" none none []] else []) ++ (if f.italic then [Node.mk "i" none none []] else [])
    ++ (if f.underline then [Node.mk "u" none none []] else []) ++ (if f.doubleUnderline then [valNode "u" "double"] else [])).map reload) =
      .ok { bold := f.bold, doubleUnderline := f.doubleUnderline } := by
  cases f with
  | mk a b c d e bold dbl italic under =>
    simp only
    cases bold <;> cases italic <;> cases under <;> cases dbl <;> rfl

theorem font_rest (g f : Font) (h1 : f.size ≤ u8Max) (h2 : f.family ≤ u32Max) :
    loadFontItems g ([valNode "sz" (toString f.size), colorNode "color" f.color, valNode "name" f.name, valNode "family" (toString f.family),
        valNode "scheme" f.scheme.text].map reload) =
      .ok { g with name := attrReload f.name, size := f.size, color := reloadColor f.color, family := f.family, scheme := f.scheme } := by
  have t (tag v : String) := tag_valNode tag v
  have tc : (reload (colorNode "color" f.color)).tag = "color" := by rw [reload_tag]; rfl
  simp only [List.map_cons, List.map_nil]
  rw [loadFontItems_cons (f' := { g with size := f.size }), loadFontItems_cons (f' := { g with size := f.size, color := reloadColor f.color }),
    loadFontItems_cons (f' := { g with size := f.size, color := reloadColor f.color, name := attrReload f.name }),
    loadFontItems_cons (f' := { g with size := f.size, color := reloadColor f.color, name := attrReload f.name, family := f.family }),
    loadFontItems_cons (f' := { g with size := f.size, color := reloadColor f.color, name := attrReload f.name, family := f.family, scheme := f.scheme })]
  · rfl
  · unfold loadFontItem
    simp [t, reload_valNode (tag := "scheme") (by decide +kernel), attrReload_fontScheme, fontScheme_parse_text]
  · unfold loadFontItem
    simp only [t, reload_valNode (tag := "family") (by decide +kernel), attrReload_nat, parseUInt_toString' h2]
    simp
  · unfold loadFontItem
    simp [t, reload_valNode (tag := "name") (by decide +kernel)]
  · unfold loadFontItem
    simp [tc, loadColor_reload f.color (tag := "color") (by decide +kernel)]
  · unfold loadFontItem
    simp only [t, reload_valNode (tag := "sz") (by decide +kernel), attrReload_nat, parseUInt_toString' h1]
    simp

theorem loadFont_reload (f : Font) (h1 : f.size ≤ u8Max) (h2 : f.family ≤ u32Max) : loadFont (reload (fontNode f)) = .ok (reloadFont f) := by
  unfold loadFont
  rw [reload_children_of_none rfl]
  simp only [fontNode, Node.children]
  rw [List.map_append, loadFontItems_append, font_flags]
  simp only
  rw [font_rest _ _ h1 h2]
  rfl

/-! ### Fills -/

theorem wf_fillNode (u : Unicode) (f : Fill) : WfNode u (fillNode f) := by
  refine wfNode_bare (by decide +kernel) ⟨wf_one (by decide +kernel) (by decide +kernel) (wfNodes_iff.mpr ?_), trivial⟩
  intro n hn
  rw [List.mem_append] at hn
  rcases hn with hn | hn
  · cases hf : f.foreground with
    | none => rw [hf] at hn; cases hn
    | some c =>
      rw [hf] at hn
      simp only [Option.map_some, Option.toList_some, List.mem_singleton] at hn
      subst hn; exact wf_colorNode u c (by decide +kernel)
  · cases hf : f.background with
    | none => rw [hf] at hn; cases hn
    | some c =>
      rw [hf] at hn
      simp only [Option.map_some, Option.toList_some, List.mem_singleton] at hn
      subst hn; exact wf_colorNode u c (by decide +kernel)

theorem loadFillItem_fg (f : Fill) (c : Color) :
    loadFillItem f (reload (colorNode "fgColor" c)) = .ok { f with foreground := some (reloadColor c) } := by
  unfold loadFillItem
  rw [reload_attrs_some, loadColor_reload c (by decide +kernel), reload_tag]
  simp [colorNode, Node.tag]

theorem loadFillItem_bg (f : Fill) (c : Color) :
    loadFillItem f (reload (colorNode "bgColor" c)) = .ok { f with background := some (reloadColor c) } := by
  unfold loadFillItem
  rw [reload_attrs_some, loadColor_reload c (by decide +kernel), reload_tag]
  simp [colorNode, Node.tag]

theorem loadFill_reload (f : Fill) : loadFill (reload (fillNode f)) = .ok (reloadFill f) := by
  have hw := (wf_fillNode ⟨fun _ => false⟩ f).2.2.1
  have e : (reload (fillNode f)).children = [reload (.mk "patternFill" (some [("patternType", f.pattern.text)]) none
      ((f.foreground.map (colorNode "fgColor")).toList ++ (f.background.map (colorNode "bgColor")).toList))] := by
    rw [reload_children_of_none rfl]; rfl
  unfold loadFill
  rw [e]
  simp only [List.head?_cons]
  rw [reload_one hw, if_pos rfl, attrReload_patternType]
  simp only [patternType_parse_text]
  rw [reload_children_of_none rfl]
  simp only [Node.children]
  cases f with
  | mk p bg fg =>
    cases bg <;> cases fg <;>
      simp [loadFillItems, loadFillItem_fg, loadFillItem_bg, reloadFill]

/-! ### Borders -/

theorem wf_sideNode (u : Unicode) {tag : String} (s : BorderSide) (ht : isValidXmlName ⟨fun _ => false⟩ tag = true) : WfNode u (sideNode tag s) := by
  unfold sideNode
  split
  · refine wf_one ht (by decide +kernel) (wfNodes_iff.mpr ?_)
    intro n hn
    cases hc : s.color with
    | none => rw [hc] at hn; cases hn
    | some c =>
      rw [hc] at hn
      simp only [Option.map_some, Option.toList_some, List.mem_singleton] at hn
      subst hn; exact wf_colorNode u c (by decide +kernel)
  · exact wf_bareLeaf u ht

theorem tag_sideNode (tag : String) (s : BorderSide) : (reload (sideNode tag s)).tag = tag := by
  rw [reload_tag]; unfold sideNode; split <;> rfl

theorem loadSide_reload {tag : String} (s : BorderSide) (ht : isValidXmlName ⟨fun _ => false⟩ tag = true) :
    loadSide {} (reload (sideNode tag s)) = reloadSide s := by
  have hw := wf_sideNode ⟨fun _ => false⟩ s ht
  unfold loadSide
  by_cases hs : s.style = .none
  · rw [reload_attr hw]
    have : (sideNode tag s).attr? "style" = none := by unfold sideNode; rw [if_neg (by simp [hs])]; rfl
    rw [this]
    simp [reloadSide, hs]
  · have e : sideNode tag s = .mk tag (some [("style", s.style.text)]) none (s.color.map (colorNode "color")).toList := by
      unfold sideNode; rw [if_pos hs]
    rw [e] at hw ⊢
    rw [reload_one hw, if_pos rfl, attrReload_borderKind]
    simp only [borderKind_parse_text]
    rw [reload_children_of_none rfl]
    simp only [Node.children]
    rw [if_pos hs]
    unfold reloadSide
    rw [if_neg hs]
    cases s with
    | mk color style =>
      cases color with
      | none => simp
      | some c => simp [loadColor_reload c (tag := "color") (by decide +kernel)]

theorem wf_borderNode (u : Unicode) (x : Border) : WfNode u (borderNode x) := by
  refine wfNode_bare (by decide +kernel) ?_
  exact ⟨wf_sideNode u _ (by decide +kernel), wf_sideNode u _ (by decide +kernel), wf_sideNode u _ (by decide +kernel),
    wf_sideNode u _ (by decide +kernel), wf_sideNode u _ (by decide +kernel), trivial⟩

theorem loadBorder_reload (x : Border) : loadBorder (reload (borderNode x)) = .ok (reloadBorder x) := by
  unfold loadBorder
  rw [reload_children_of_none rfl]
  simp only [borderNode, Node.children, List.map_cons, List.map_nil]
  have a1 := loadSide_reload x.left (tag := "left") (by decide +kernel)
  have a2 := loadSide_reload x.right (tag := "right") (by decide +kernel)
  have a3 := loadSide_reload x.top (tag := "top") (by decide +kernel)
  have a4 := loadSide_reload x.bottom (tag := "bottom") (by decide +kernel)
  have a5 := loadSide_reload x.diagonal (tag := "diagonal") (by decide +kernel)
  simp [loadBorderItems, loadBorderItem, tag_sideNode, a1, a2, a3, a4, a5, reloadBorder]

/-! ### Cell formats -/

theorem xfTable_keys (b : Bool) (x : Xf) : (akeys (xfTable b x)).Nodup ∧ plainKeys (akeys (xfTable b x)) = true := by
  simp only [xfTable, akeys, List.map_cons, List.map_nil]; decide +kernel

theorem alignTable_keys (x : Xf) : (akeys (alignTable x)).Nodup ∧ plainKeys (akeys (alignTable x)) = true := by
  simp only [alignTable, akeys, List.map_cons, List.map_nil]; decide +kernel

theorem wf_alignNode (u : Unicode) (x : Xf) : WfNode u (.mk "alignment" (some (present (alignTable x))) none []) :=
  wfNode_present (by decide +kernel) (alignTable_keys x).2 (alignTable_keys x).1 trivial

theorem wf_xfNode (u : Unicode) (b : Bool) (x : Xf) : WfNode u (xfNode b x) := by
  refine wfNode_present (by decide +kernel) (xfTable_keys b x).2 (xfTable_keys b x).1 ?_
  split
  · exact ⟨wf_alignNode u x, trivial⟩
  · trivial

theorem trimUni_nat (n : Nat) : trimUni (toString n) = toString n := by
  have hd : ∀ l : List Char, (∀ c ∈ l, c.isDigit = true) → l.dropWhile isUniSpace = l := by
    intro l hl
    cases l with
    | nil => rfl
    | cons c cs =>
      rw [List.dropWhile_cons, if_neg]
      intro hs
      have h1 := hl c (by simp)
      simp [isUniSpace] at hs
      simp [Char.isDigit, UInt32.le_iff_toNat_le] at h1
      omega
  have h0 : ∀ c ∈ (toString n).toList, c.isDigit = true := fun c hc => isDigit_of_mem_decimal (n := n) (by rwa [toList_toString_nat] at hc)
  unfold trimUni
  rw [hd _ h0, hd _ (fun c hc => h0 c (List.mem_reverse.mp hc)), List.reverse_reverse, String.ofList_toList]

theorem normalizeBoolU8_nat (n : Nat) : normalizeBoolU8 (toString n) = flag01 n := by
  unfold normalizeBoolU8 flag01
  rw [trimUni_nat]
  have h1 : toString n ≠ "true" := by
    intro h
    have : 't' ∈ (toString n).toList := by rw [h]; decide +kernel
    rw [toList_toString_nat] at this
    have := isDigit_of_mem_decimal this
    revert this; decide
  have h2 : toString n = "1" ↔ n = 1 := by
    rw [show "1" = toString 1 from by decide +kernel]
    exact ⟨fun h => toString_nat_inj h, fun h => by rw [h]⟩
  simp only [h1, h2, false_or]

theorem positive_flag (n : Nat) : (((positive n).map attrReload).map normalizeBoolU8).getD 0 = flag01 n := by
  unfold positive
  by_cases h : n > 0
  · rw [if_pos h]
    simp only [Option.map_some, Option.getD_some, attrReload_nat, normalizeBoolU8_nat]
  · rw [if_neg h]
    have : n = 0 := by omega
    rw [this]; rfl

theorem loadAlign_reload (b : Bool) (x base : Xf) (h1 : base.wrap = 0) (h2 : base.vertical = .none) (h3 : base.horizontal = .none) :
    loadAlign base (reload (xfNode b x)) = { base with wrap := flag01 x.wrap, vertical := x.vertical, horizontal := x.horizontal } := by
  unfold loadAlign
  rw [reload_children_of_none rfl]
  simp only [xfNode, Node.children]
  by_cases h : x.wrap > 0 ∨ x.vertical ≠ .none ∨ x.horizontal ≠ .none
  · rw [if_pos h]
    simp only [List.map_cons, List.map_nil, List.head?_cons]
    have hk := reload_attr (wf_alignNode ⟨fun _ => false⟩ x)
    have e : ∀ k, (Node.mk "alignment" (some (present (alignTable x))) none []).attr? k = (aget k (alignTable x)).join := by
      intro k; exact aget_present (alignTable_keys x).1 k
    simp only [hk, e]
    have e1 : (aget "wrapText" (alignTable x)).join = positive x.wrap := rfl
    have e2 : (aget "vertical" (alignTable x)).join = if x.vertical ≠ .none then some x.vertical.text else none := rfl
    have e3 : (aget "horizontal" (alignTable x)).join = if x.horizontal ≠ .none then some x.horizontal.text else none := rfl
    rw [e1, e2, e3, h1, h2, h3]
    have f1 := positive_flag x.wrap
    rw [show attrReload = escStr from funext attrReload_eq] at f1
    rw [f1]
    have f2 : ((Option.map escStr (if x.vertical ≠ .none then some x.vertical.text else none)).map VAlign.parse).getD .none = x.vertical := by
      split
      · simp only [Option.map_some, Option.getD_some]
        rw [← attrReload_eq, attrReload_vAlign, vAlign_parse_text]
      · rename_i hn
        exact (Classical.not_not.mp hn).symm
    have f3 : ((Option.map escStr (if x.horizontal ≠ .none then some x.horizontal.text else none)).map HAlign.parse).getD .none = x.horizontal := by
      split
      · simp only [Option.map_some, Option.getD_some]
        rw [← attrReload_eq, attrReload_hAlign, hAlign_parse_text]
      · rename_i hn
        exact (Classical.not_not.mp hn).symm
    rw [f2, f3]
  · rw [if_neg h]
    simp only [List.map_nil, List.head?_nil]
    have g1 : x.wrap = 0 := by
      have : ¬ x.wrap > 0 := fun hh => h (Or.inl hh)
      omega
    have g2 : x.vertical = .none := Classical.not_not.mp (fun hh => h (Or.inr (Or.inl hh)))
    have g3 : x.horizontal = .none := Classical.not_not.mp (fun hh => h (Or.inr (Or.inr hh)))
    cases base
    simp only at h1 h2 h3
    rw [g1, g2, g3, h1, h2, h3]
    rfl

theorem u16Attr_nat {a : Attrs} {k : String} {n : Nat} (h : aget k a = some (toString n)) (hn : n ≤ u16Max) : u16Attr a k = .ok n := by
  unfold u16Attr
  rw [h]
  simp only
  rw [parseUInt_toString' hn]

theorem loadXf_reload (b : Bool) (x : Xf) (h : XfFit x) : loadXf (reload (xfNode b x)) = .ok (reloadXf b x) := by
  obtain ⟨h1, h2, h3, h4, h5⟩ := h
  obtain ⟨a, ha, hk⟩ := reload_present (wf_xfNode ⟨fun _ => false⟩ b x) (xfTable_keys b x).1
  unfold loadXf
  have ha' : (reload (xfNode b x)).attrs = some a := ha
  rw [ha']
  simp only
  have e1 : aget "numFmtId" a = some (toString x.numFmtId) := by
    rw [hk]; exact congrArg some (attrReload_nat _)
  have e2 : aget "fontId" a = some (toString x.fontId) := by
    rw [hk]; exact congrArg some (attrReload_nat _)
  have e3 : aget "fillId" a = some (toString x.fillId) := by
    rw [hk]; exact congrArg some (attrReload_nat _)
  have e4 : aget "borderId" a = some (toString x.borderId) := by
    rw [hk]; exact congrArg some (attrReload_nat _)
  have e5 : u16Attr a "xfId" = .ok (if b then x.formatId else 0) := by
    cases b with
    | true =>
      have : aget "xfId" a = some (toString x.formatId) := by rw [hk]; exact congrArg some (attrReload_nat _)
      exact u16Attr_nat this h1
    | false =>
      have : aget "xfId" a = none := by rw [hk]; rfl
      unfold u16Attr; rw [this]; rfl
  rw [u16Attr_nat e1 h2, u16Attr_nat e2 h3, u16Attr_nat e3 h4, u16Attr_nat e4 h5, e5]
  simp only
  rw [loadAlign_reload b x _ rfl rfl rfl]
  have g : ∀ key n, (aget key (xfTable b x)).join = positive n → flagAttr a key = flag01 n := by
    intro key n hh
    unfold flagAttr
    rw [hk, hh]
    exact positive_flag n
  rw [g "applyProtection" x.applyProtection rfl, g "applyAlignment" x.applyAlignment rfl, g "applyBorder" x.applyBorder rfl,
    g "applyFill" x.applyFill rfl, g "applyFont" x.applyFont rfl, g "applyNumberFormat" x.applyNumFmt rfl]
  rfl

/-! ### The whole part -/

theorem placeStyles_filter (st : Styles) (cs : List Node) (hc : ∀ n ∈ cs, n.tag ∉ styleTags) (tag : String) :
    (placeStyles st cs).filter (fun n => n.tag = tag) =
      if tag = "numFmts" then [countedNode "numFmts" (st.numFmts.map numFmtNode)]
      else if tag = "fonts" then [countedNode "fonts" (st.fonts.map fontNode)]
      else if tag = "fills" then [countedNode "fills" (st.fills.map fillNode)]
      else if tag = "borders" then [countedNode "borders" (st.borders.map borderNode)]
      else if tag = "cellXfs" then [countedNode "cellXfs" (st.xfs.map (xfNode true))]
      else if tag = "cellStyleXfs" then [countedNode "cellStyleXfs" (st.styleXfs.map (xfNode false))]
      else cs.filter (fun n => n.tag = tag) := by
  have hnone : tag ∈ styleTags → cs.filter (fun n => n.tag = tag) = [] := by
    intro ht
    rw [List.filter_eq_nil_iff]
    intro n hn he
    simp only [decide_eq_true_eq] at he
    exact hc n hn (he ▸ ht)
  have no : ∀ (t : String) (ns : List Node), t ≠ tag → decide ((countedNode t ns).tag = tag) = false := by
    intro t ns h; simpa [countedNode, Node.tag] using h
  have yes : ∀ (t : String) (ns : List Node), tag = t → decide ((countedNode t ns).tag = tag) = true := by
    intro t ns h; simp [countedNode, Node.tag, h]
  have s : ∀ (t : String) (ns : List Node) (after : String) (l : List Node), t ≠ tag →
      (insertNodeAfter (countedNode t ns) after l).filter (fun n => n.tag = tag) = l.filter (fun n => n.tag = tag) :=
    fun t ns after l h => insertNodeAfter_filter _ _ _ _ (no t ns h)
  have s0 : ∀ (t : String) (ns : List Node) (l : List Node), t ≠ tag →
      (countedNode t ns :: l).filter (fun n => n.tag = tag) = l.filter (fun n => n.tag = tag) := by
    intro t ns l h
    rw [List.filter_cons, if_neg]
    rw [no t ns h]; decide
  unfold placeStyles
  simp only
  by_cases a1 : tag = "numFmts"
  · rw [if_pos a1, s _ _ _ _ (by rw [a1]; decide), s _ _ _ _ (by rw [a1]; decide), s _ _ _ _ (by rw [a1]; decide), s _ _ _ _ (by rw [a1]; decide),
      s _ _ _ _ (by rw [a1]; decide), List.filter_cons, if_pos (yes _ _ a1), hnone (by rw [a1]; decide)]
  rw [if_neg a1]
  by_cases a2 : tag = "fonts"
  · rw [if_pos a2, s _ _ _ _ (by rw [a2]; decide), s _ _ _ _ (by rw [a2]; decide), s _ _ _ _ (by rw [a2]; decide), s _ _ _ _ (by rw [a2]; decide)]
    exact insertNodeAfter_filter_new _ _ _ _ (yes _ _ a2) (by rw [s0 _ _ _ (Ne.symm a1)]; exact hnone (by rw [a2]; decide))
  rw [if_neg a2]
  by_cases a3 : tag = "fills"
  · rw [if_pos a3, s _ _ _ _ (by rw [a3]; decide), s _ _ _ _ (by rw [a3]; decide), s _ _ _ _ (by rw [a3]; decide)]
    exact insertNodeAfter_filter_new _ _ _ _ (yes _ _ a3)
      (by rw [s _ _ _ _ (Ne.symm a2), s0 _ _ _ (Ne.symm a1)]; exact hnone (by rw [a3]; decide))
  rw [if_neg a3]
  by_cases a4 : tag = "borders"
  · rw [if_pos a4, s _ _ _ _ (by rw [a4]; decide), s _ _ _ _ (by rw [a4]; decide)]
    exact insertNodeAfter_filter_new _ _ _ _ (yes _ _ a4)
      (by rw [s _ _ _ _ (Ne.symm a3), s _ _ _ _ (Ne.symm a2), s0 _ _ _ (Ne.symm a1)]; exact hnone (by rw [a4]; decide))
  rw [if_neg a4]
  by_cases a5 : tag = "cellXfs"
  · rw [if_pos a5, s _ _ _ _ (by rw [a5]; decide)]
    exact insertNodeAfter_filter_new _ _ _ _ (yes _ _ a5)
      (by rw [s _ _ _ _ (Ne.symm a4), s _ _ _ _ (Ne.symm a3), s _ _ _ _ (Ne.symm a2), s0 _ _ _ (Ne.symm a1)]; exact hnone (by rw [a5]; decide))
  rw [if_neg a5]
  by_cases a6 : tag = "cellStyleXfs"
  · rw [if_pos a6]
    exact insertNodeAfter_filter_new _ _ _ _ (yes _ _ a6)
      (by rw [s _ _ _ _ (Ne.symm a5), s _ _ _ _ (Ne.symm a4), s _ _ _ _ (Ne.symm a3), s _ _ _ _ (Ne.symm a2), s0 _ _ _ (Ne.symm a1)]
          exact hnone (by rw [a6]; decide))
  rw [if_neg a6, s _ _ _ _ (Ne.symm a6), s _ _ _ _ (Ne.symm a5), s _ _ _ _ (Ne.symm a4), s _ _ _ _ (Ne.symm a3), s _ _ _ _ (Ne.symm a2), s0 _ _ _ (Ne.symm a1)]

theorem wf_countedNode {u : Unicode} {tag : String} {ns : List Node} (ht : isValidXmlName ⟨fun _ => false⟩ tag = true)
    (h : ∀ n ∈ ns, WfNode u n) : WfNode u (countedNode tag ns) :=
  wf_one ht (by decide +kernel) (wfNodes_iff.mpr h)

theorem wf_placeStyles {u : Unicode} (st : Styles) {cs : List Node} (hc : ∀ n ∈ cs, n.tag ∉ styleTags) (hw : WfNodes u cs) :
    WfNodes u (placeStyles st cs) := by
  rw [wfNodes_iff]
  apply mem_mem_of_filters
  intro tag n hn
  rw [placeStyles_filter st cs hc] at hn
  have step : ∀ {α : Type} (t : String) (f : α → Node) (l : List α), isValidXmlName ⟨fun _ => false⟩ t = true → (∀ x, WfNode u (f x)) →
      n ∈ [countedNode t (l.map f)] → WfNode u n := by
    intro α t f l h1 h2 h3
    rw [List.mem_singleton] at h3
    subst h3
    refine wf_countedNode h1 ?_
    intro m hm
    obtain ⟨x, _, rfl⟩ := List.mem_map.mp hm
    exact h2 x
  split at hn
  · exact step _ _ _ (by decide +kernel) (wf_numFmtNode u) hn
  split at hn
  · exact step _ _ _ (by decide +kernel) (wf_fontNode u) hn
  split at hn
  · exact step _ _ _ (by decide +kernel) (wf_fillNode u) hn
  split at hn
  · exact step _ _ _ (by decide +kernel) (wf_borderNode u) hn
  split at hn
  · exact step _ _ _ (by decide +kernel) (wf_xfNode u true) hn
  split at hn
  · exact step _ _ _ (by decide +kernel) (wf_xfNode u false) hn
  exact wfNodes_iff.mp hw n (List.mem_filter.mp hn).1

theorem lastWith_reload {b : Build} {x : XDoc} {t : String} {a : Option Attrs} {cs : List Node} (hx : DocWith x t a cs) (tag : String) {ns : List Node}
    (h : cs.filter (fun n => n.tag = tag) = [countedNode tag ns]) : lastWith (reloadDoc b x) tag = ns.map reload := by
  unfold lastWith
  rw [reloadDoc_rootChildren hx, filter_reload, h]
  simp only [List.map_cons, List.map_nil, List.getLast?_singleton]
  rw [reload_children_of_none rfl]
  rfl

theorem mapRes_reload_map {α β : Type} {g : Node → Res β} {f : α → Node} {k : α → β} (l : List α) (h : ∀ x ∈ l, g (reload (f x)) = .ok (k x)) :
    mapRes g ((l.map f).map reload) = .ok (l.map k) := by
  rw [List.map_map]
  have : ∀ l : List α, (∀ x ∈ l, g (reload (f x)) = .ok (k x)) → mapRes g (l.map (reload ∘ f)) = .ok (l.map k) := by
    intro l
    induction l with
    | nil => intro _; rfl
    | cons a as ih =>
      intro h
      rw [List.map_cons, mapRes, Function.comp, h a (by simp)]
      simp only
      rw [ih (fun x hx => h x (by simp [hx]))]
      rfl
  exact this l h

/-- **Reload.** Saving the tables into a document, writing the file, reading it and loading gives exactly `reloadStyles`. -/
theorem reload_styles (env : Env) (hst : env.build.release = true → StampOk env.stamp) {st : Styles} {x x' : XDoc} {t : String}
    {a : Option Attrs} {cs : List Node} (hf : StylesFit st) (hx : WfDoc env.uni x (.mk t a none cs))
    (hc : ∀ n ∈ cs, n.tag ∉ styleTags) (h : st.save x = .ok x') :
    ∃ d, readXml env.uni (renderDoc env.build env.stamp x') = .ok d ∧ d.toXDoc = reloadDoc env.build x' ∧
      (Styles.load d.toXDoc).1 = .ok (reloadStyles st) := by
  have hx' : x' = x.mapRootChildren (placeStyles st) := by
    unfold Styles.save at h
    rw [hx.isRoot] at h
    cases h; rfl
  have hroot : x'.root = some (.mk t a none (placeStyles st cs)) := by
    rw [hx']; unfold XDoc.mapRootChildren; rw [hx.isRoot]; rfl
  have hw : WfDoc env.uni x' (.mk t a none (placeStyles st cs)) := by
    refine ⟨hroot, ⟨hx.names.1, hx.names.2.1, wf_placeStyles st hc hx.names.2.2⟩, ?_, ?_⟩
    · rw [hx']; exact hx.ns
    · rw [hx']; exact hx.uris
  have hne : placeStyles st cs ≠ [] := by
    intro he
    have := placeStyles_filter st cs hc "fonts"
    rw [he] at this
    cases this
  obtain ⟨d, hd1, hd2⟩ := read_doc env hst hw hne
  refine ⟨d, hd1, hd2, ?_⟩
  rw [hd2]
  have hdw : DocWith x' t a (placeStyles st cs) := ⟨hroot⟩
  have f := placeStyles_filter st cs hc
  have l1 := lastWith_reload (b := env.build) hdw "numFmts" (f "numFmts")
  have l2 := lastWith_reload (b := env.build) hdw "fonts" (f "fonts")
  have l3 := lastWith_reload (b := env.build) hdw "fills" (f "fills")
  have l4 := lastWith_reload (b := env.build) hdw "borders" (f "borders")
  have l5 := lastWith_reload (b := env.build) hdw "cellStyleXfs" (f "cellStyleXfs")
  have l6 := lastWith_reload (b := env.build) hdw "cellXfs" (f "cellXfs")
  unfold Styles.load
  rw [l1, l2, l3, l4, l5, l6, mapRes_reload_map (k := fun x => some (reloadNumFmt x)) _ (fun x hx => loadNumFmt_reload x (hf.numFmts x hx)),
    mapRes_reload_map (k := reloadFont) _ (fun x hx => loadFont_reload x (hf.fonts x hx).1 (hf.fonts x hx).2),
    mapRes_reload_map (k := reloadFill) _ (fun x _ => loadFill_reload x), mapRes_reload_map (k := reloadBorder) _ (fun x _ => loadBorder_reload x),
    mapRes_reload_map (k := reloadXf false) _ (fun x hx => loadXf_reload false x (hf.styleXfs x hx)),
    mapRes_reload_map (k := reloadXf true) _ (fun x hx => loadXf_reload true x (hf.xfs x hx))]
  simp only [reloadStyles, List.filterMap_map]
  congr 2
  induction st.numFmts with
  | nil => rfl
  | cons a as ih => simp

end Oxml
