import Verif.Spec.SeenStyles
import Verif.Proofs.NavigateFile
/-!
# The styles of a saved workbook, as other programs find them
-/
namespace Oxml
open Spec

variable {env : Env} {theme : XDoc} {s : Session} {now : String} {exts : List (String × String)} {p : Pkg} {z : Zip}

/-! ## What a request leaves in the tables -/

/-- The format with the id, exactly. -/
def HasLook (st : Styles) (id : Nat) (s : StyleSetting) : Prop :=
  ∃ xf, st.xfs[id]? = some xf ∧ st.fonts[xf.fontId]? = some s.font ∧ st.fills[xf.fillId]? = some s.fill ∧ st.borders[xf.borderId]? = some s.border ∧
    (xf.horizontal = s.horizontal ∧ xf.vertical = s.vertical ∧ xf.wrap = bit s.wrapText) ∧
    (xf.applyFont = 1 ∨ xf.fontId = 0) ∧ (xf.applyFill = 1 ∨ xf.fillId = 0) ∧ (xf.applyBorder = 1 ∨ xf.borderId = 0) ∧
    xf.applyAlignment = bit (s.vertical ≠ .none ∨ s.horizontal ≠ .none ∨ s.wrapText = true) ∧ (s.numberFormat ≠ .custom → xf.numFmtId = 0)

theorem HasLook.mono {st st' : Styles} {id : Nat} {s : StyleSetting} (h : HasLook st id s) (he : Extends st st') : HasLook st' id s := by
  obtain ⟨xf, h1, h2, h3, h4, h5⟩ := h
  exact ⟨xf, he.xfs _ _ h1, he.fonts _ _ h2, he.fills _ _ h3, he.borders _ _ h4, h5⟩

theorem applyFlag_or {α : Type} (h : α → Nat) (l : List α) (x : α) : applyFlag h l x = 1 ∨ asU16 (findOrPush h l x).2 = 0 := by
  unfold applyFlag
  split
  · next hh => right; rw [hh.2]; rfl
  · exact .inl rfl

theorem hasLook_request {b : Build} {hs : Hashes} {st st' : Styles} {s : StyleSetting} {id : Nat} (hr : Room st)
    (hc : ClashFree b hs st s) (h : getStyleId b hs st s = .ok (st', id)) : HasLook st' id s := by
  obtain ⟨nf, n, a, hn, h1, h2, h3, h4, h5, h6, h7⟩ := getStyleId_ok h
  obtain ⟨c1, c2, c3, c4⟩ := hc
  obtain ⟨r1, r2, r3, r4⟩ := hr
  have hx := findOrPush_get (h := hs.xf) (l := st.xfs) (x := (finalXf hs st s n a)) (fun y hy he => c4 nf n a hn y hy he)
  refine ⟨finalXf hs st s n a, ?_, ?_, ?_, ?_, ⟨rfl, rfl, rfl⟩, applyFlag_or _ _ _, applyFlag_or _ _ _, applyFlag_or _ _ _, rfl, ?_⟩
  · rw [h6, h7, asU32_of_le (findOrPush_le _ _ _) r4]
    exact hx
  · rw [h2]
    have : (finalXf hs st s n a).fontId = (findOrPush hs.font st.fonts s.font).2 := asU16_of_le (findOrPush_le _ _ _) r1
    simp only [this]
    exact findOrPush_get (fun y hy he => c1 y (by simp [hy]) _ (by simp) he)
  · rw [h3]
    have : (finalXf hs st s n a).fillId = (findOrPush hs.fill st.fills s.fill).2 := asU16_of_le (findOrPush_le _ _ _) r2
    simp only [this]
    exact findOrPush_get (fun y hy he => c2 y (by simp [hy]) _ (by simp) he)
  · rw [h4]
    have : (finalXf hs st s n a).borderId = (findOrPush hs.border st.borders s.border).2 := asU16_of_le (findOrPush_le _ _ _) r3
    simp only [this]
    exact findOrPush_get (fun y hy he => c3 y (by simp [hy]) _ (by simp) he)
  · intro hk
    rw [numFmtPart, if_neg hk] at hn
    cases hn
    rfl

/-! ## Tables -/

theorem entryAt_digits {α : Type} {l : List α} {i : Nat} {a : α} (h : l[i]? = some a) : entryAt l (Nat.toDigits 10 i) = some a := by
  have hi : i < l.length := by
    refine Classical.byContradiction fun hn => ?_
    rw [List.getElem?_eq_none (Nat.le_of_not_lt hn)] at h
    cases h
  unfold entryAt
  have hf : (List.range l.length).find? (fun k => decide (Nat.toDigits 10 k = Nat.toDigits 10 i)) = some i := by
    cases he : (List.range l.length).find? (fun k => decide (Nat.toDigits 10 k = Nat.toDigits 10 i)) with
    | none =>
      rw [List.find?_eq_none] at he
      exact absurd (decide_eq_true rfl) (he i (List.mem_range.mpr hi))
    | some k =>
      have hk : Nat.toDigits 10 k = Nat.toDigits 10 i := by simpa using List.find?_some he
      rw [digits_inj hk]
  rw [hf]
  exact h

theorem showsAll_get {r : Reading} : ∀ {ns : List Node} {is : List Item}, ShowsAll r ns is → ∀ {k : Nat} {n : Node}, ns[k]? = some n → ∃ i, is[k]? = some i ∧ Shows r n i
  | [], _, _, k, n, hk => by simp at hk
  | m :: ns, [], h, _, _, _ => by simp [ShowsAll] at h
  | m :: ns, i :: is, h, k, n, hk => by
    rw [ShowsAll] at h
    cases k with
    | zero => simp at hk; subst hk; exact ⟨i, rfl, h.1⟩
    | succ k => exact showsAll_get h.2 hk

theorem showsAll_one {r : Reading} {n : Node} {is : List Item} (h : ShowsAll r [n] is) : ∃ i, is = [i] ∧ Shows r n i := by
  match is, h with
  | [i], h => rw [ShowsAll] at h; exact ⟨i, rfl, h.1⟩
  | [], h => simp [ShowsAll] at h
  | _ :: _ :: _, h => rw [ShowsAll] at h; simp [ShowsAll] at h

theorem showsAll_none {r : Reading} {is : List Item} (h : ShowsAll r [] is) : is = [] := by
  rw [ShowsAll] at h
  exact h


/-! ## The document -/

/-- What the template holds besides the tables. -/
def styleOthers : List Node := styleRest.rootChildren

theorem others_tags : ∀ n ∈ styleOthers, n.tag ∉ styleTags := by decide +kernel

theorem styles_root (st : Styles) : (stylesSaved st).root = some (.mk "styleSheet" (some []) none (placeStyles st styleOthers)) := rfl

theorem toc_color (tag : String) (c : Color) : TextOrChildren (colorNode tag c) := toc_leaf

theorem toc_colors {tag : String} {c : Option Color} : ∀ n ∈ (c.map (colorNode tag)).toList, TextOrChildren n := by
  intro n hn
  cases c with
  | none => cases hn
  | some c => rw [Option.map_some, Option.toList_some, List.mem_singleton] at hn; subst hn; exact toc_leaf

theorem toc_side (tag : String) (s : BorderSide) : TextOrChildren (sideNode tag s) := by
  unfold sideNode
  split
  · exact toc_mk toc_colors
  · exact toc_leaf

theorem toc_font (f : Font) : TextOrChildren (fontNode f) := by
  refine toc_mk fun c hc => ?_
  have leaf : c.value = none ∧ c.children = [] := by
    unfold valNode colorNode at hc
    simp only [List.mem_append, List.mem_cons, List.not_mem_nil, or_false] at hc
    rcases hc with (((hc | hc) | hc) | hc) | hc
    · split at hc
      · rw [List.mem_singleton] at hc; subst hc; exact ⟨rfl, rfl⟩
      · cases hc
    · split at hc
      · rw [List.mem_singleton] at hc; subst hc; exact ⟨rfl, rfl⟩
      · cases hc
    · split at hc
      · rw [List.mem_singleton] at hc; subst hc; exact ⟨rfl, rfl⟩
      · cases hc
    · split at hc
      · rw [List.mem_singleton] at hc; subst hc; exact ⟨rfl, rfl⟩
      · cases hc
    · rcases hc with rfl | rfl | rfl | rfl | rfl <;> exact ⟨rfl, rfl⟩
  obtain ⟨t, a, v, cs⟩ := c
  obtain ⟨_, rfl⟩ := leaf
  exact toc_leaf

theorem toc_fill (f : Fill) : TextOrChildren (fillNode f) := by
  refine toc_mk fun c hc => ?_
  rw [List.mem_singleton] at hc
  subst hc
  refine toc_mk fun c hc => ?_
  rcases List.mem_append.mp hc with hc | hc <;> exact toc_colors _ hc

theorem toc_border (b : Border) : TextOrChildren (borderNode b) := by
  refine toc_mk fun c hc => ?_
  simp only [List.mem_cons, List.not_mem_nil, or_false] at hc
  rcases hc with rfl | rfl | rfl | rfl | rfl <;> exact toc_side _ _

theorem toc_xf (e : Bool) (x : Xf) : TextOrChildren (xfNode e x) := by
  refine toc_mk fun c hc => ?_
  split at hc
  · rw [List.mem_singleton] at hc; subst hc; exact toc_leaf
  · cases hc

theorem toc_counted {α : Type} {tag : String} {l : List α} {f : α → Node} (h : ∀ a ∈ l, TextOrChildren (f a)) : TextOrChildren (countedNode tag (l.map f)) := by
  refine toc_mk fun c hc => ?_
  obtain ⟨a, ha, rfl⟩ := List.mem_map.mp hc
  exact h a ha

theorem toc_styles (st : Styles) : TextOrChildren (.mk "styleSheet" (some []) none (placeStyles st styleOthers)) := by
  refine toc_mk fun c hm => ?_
  have hm : c ∈ (placeStyles st styleOthers).filter (fun n => n.tag = c.tag) := List.mem_filter.mpr ⟨hm, by simp⟩
  rw [placeStyles_filter _ _ others_tags] at hm
  have one : ∀ {n : Node}, c ∈ [n] → TextOrChildren n → TextOrChildren c := by
    intro n h hn
    rw [List.mem_singleton] at h
    rw [h]; exact hn
  split at hm
  · exact one hm (toc_counted fun f _ => toc_leaf)
  split at hm
  · exact one hm (toc_counted fun f _ => toc_font f)
  split at hm
  · exact one hm (toc_counted fun f _ => toc_fill f)
  split at hm
  · exact one hm (toc_counted fun f _ => toc_border f)
  split at hm
  · exact one hm (toc_counted fun f _ => toc_xf _ f)
  split at hm
  · exact one hm (toc_counted fun f _ => toc_xf _ f)
  · obtain ⟨hm, _⟩ := List.mem_filter.mp hm
    have flat : ∀ n ∈ styleOthers, n.value = none ∧ ∀ c ∈ n.children, c.children = [] := by
      have : styleOthers.all (fun n => n.value.isNone && n.children.all (fun c => c.children.isEmpty)) = true := by decide +kernel
      intro n hn
      have := List.all_eq_true.mp this n hn
      rw [Bool.and_eq_true, List.all_eq_true] at this
      exact ⟨by simpa using this.1, fun c hc => by simpa using this.2 c hc⟩
    obtain ⟨t, a, v, cs⟩ := c
    obtain ⟨h1, h2⟩ := flat _ hm
    cases h1
    refine toc_mk fun c hc => ?_
    obtain ⟨t', a', v', cs'⟩ := c
    have := h2 _ hc
    cases this
    exact toc_leaf

/-- The styles read. -/
theorem styles_reads {st : Styles} (h : StylesX st) {b : Build} {stamp : List Char} (hs : b.release = true → StampXml stamp) {item : Item}
    (hi : IsDocument (renderDoc b stamp (stylesSaved st)) item) :
    ShowsRoot Reading.xml (releaseNs b (stylesSaved st).ns) (.mk "styleSheet" (some []) none (placeStyles st styleOthers)) item ∧
      DistinctAttrs (.mk "styleSheet" (some []) none (placeStyles st styleOthers)) :=
  (docX_styles h).reads (styles_root st) (toc_styles st) hs hi

/-- The entry of a table read. -/
theorem entry_reads {α : Type} {st : Styles} {b : Build} {item : Item}
    (h : ShowsRoot Reading.xml (releaseNs b (stylesSaved st).ns) (.mk "styleSheet" (some []) none (placeStyles st styleOthers)) item ∧
      DistinctAttrs (.mk "styleSheet" (some []) none (placeStyles st styleOthers))) {table entry : String} {l : List α} {f : α → Node}
    (ht : (placeStyles st styleOthers).filter (fun n => n.tag = table) = [countedNode table (l.map f)]) (hf : ∀ a, (f a).tag = entry) {k : Nat} {a : α}
    (ha : l[k]? = some a) : ∃ i, styleEntry item table entry (Nat.toDigits 10 k) = some i ∧ Shows Reading.xml (f a) i ∧ DistinctAttrs (f a) := by
  have hk := showsRoot_kids table h.1
  rw [Node.children, ht] at hk
  obtain ⟨t, e1, e2⟩ := showsAll_one hk
  have hk2 := shows_kids entry e2
  rw [countedNode, Node.children, filter_tag (by intro c hc; obtain ⟨r, _, rfl⟩ := List.mem_map.mp hc; exact hf r)] at hk2
  have hg : (l.map f)[k]? = some (f a) := by rw [List.getElem?_map, ha]; rfl
  obtain ⟨i, i1, i2⟩ := showsAll_get hk2 hg
  refine ⟨i, ?_, i2, ?_⟩
  · unfold styleEntry
    rw [e1, List.flatMap_cons, List.flatMap_nil, List.append_nil]
    exact entryAt_digits i1
  · have hm : countedNode table (l.map f) ∈ placeStyles st styleOthers := by
      have : countedNode table (l.map f) ∈ (placeStyles st styleOthers).filter (fun n => n.tag = table) := by rw [ht]; simp
      exact (List.mem_filter.mp this).1
    exact distinct_kids (distinct_kids h.2 hm) (List.mem_map_of_mem (List.mem_of_getElem? ha))

/-! ## Entries -/

/-- The children of a tag, read. -/
theorem kids_read {n : Node} {i : Item} (h : Shows Reading.xml n i) (hd : DistinctAttrs n) (tag : String) {ns : List Node}
    (hn : n.children.filter (fun n => n.tag = tag) = ns) : ShowsAll Reading.xml ns (i.kids tag) ∧ ∀ m ∈ ns, DistinctAttrs m := by
  have := shows_kids tag h
  rw [hn] at this
  refine ⟨this, fun m hm => distinct_kids hd ?_⟩
  rw [← hn] at hm
  exact (List.mem_filter.mp hm).1

theorem attr_read {n : Node} {i : Item} (h : Shows Reading.xml n i) (hd : DistinctAttrs n) (k : String) :
    i.attrOf k = (n.attr? k).map (fun v => Reading.xml.attr v.toList) := shows_attr h (distinct_attrs hd) k

theorem digits_read (k : Nat) : Reading.xml.attr (toString k).toList = Nat.toDigits 10 k := by
  rw [calm_reads (calm_nat k), toList_toString_nat]

theorem lit_read {t : String} (h : t.toList.all (fun c => decide (c ≠ '\r' ∧ c ≠ '\n' ∧ c ≠ '\t')) = true) : Reading.xml.attr t.toList = t.toList :=
  calm_reads (calm_lit h)

theorem color_read {tag : String} {c : Color} {i : Item} (h : Shows Reading.xml (colorNode tag c) i) (hd : DistinctAttrs (colorNode tag c)) :
    seenColor i = wantedColor c := by
  unfold seenColor
  rw [attr_read h hd, attr_read h hd, attr_read h hd, attr_read h hd, attr_read h hd]
  obtain ⟨kind, value⟩ := c
  cases kind <;> rfl

theorem colors_read {tag : String} {c : Option Color} {is : List Item} (h : ShowsAll Reading.xml (c.map (colorNode tag)).toList is)
    (hd : ∀ m ∈ (c.map (colorNode tag)).toList, DistinctAttrs m) : is.map seenColor = (c.map wantedColor).toList := by
  cases c with
  | none => rw [showsAll_none h]; rfl
  | some c =>
    obtain ⟨i, rfl, hi⟩ := showsAll_one h
    exact congrArg (fun x => [x]) (color_read hi (hd _ (by simp)))

theorem filter_colors (tag : String) (c : Option Color) (tag' : String) :
    ((c.map (colorNode tag)).toList).filter (fun n => n.tag = tag') = if tag = tag' then (c.map (colorNode tag)).toList else [] := by
  cases c with
  | none => simp
  | some c =>
    by_cases h : tag = tag'
    · simp [colorNode, Node.tag, h]
    · simp [colorNode, Node.tag, h]

theorem side_read {tag : String} {b : BorderSide} {i : Item} (h : Shows Reading.xml (sideNode tag b) i) (hd : DistinctAttrs (sideNode tag b)) :
    (⟨(i.attrOf "style").getD "none".toList, (i.kids "color").map seenColor⟩ : SeenSide) = wantedSide b := by
  unfold wantedSide
  rw [attr_read h hd]
  unfold sideNode at h hd ⊢
  by_cases hn : b.style = .none
  · rw [if_neg (by simpa using hn)] at h hd ⊢
    rw [if_pos hn, hn, showsAll_none (kids_read h hd "color" rfl).1]
    rfl
  · rw [if_pos hn] at h hd ⊢
    rw [if_neg hn]
    obtain ⟨k1, k2⟩ := kids_read h hd "color" (filter_colors "color" b.color "color")
    rw [if_pos rfl] at k1 k2
    rw [colors_read k1 k2]
    congr 1
    change Reading.xml.attr b.style.text.toList = _
    rw [lit_read (by cases b.style <;> decide +kernel)]
    cases b.style <;> rfl

theorem side_tag (tag : String) (b : BorderSide) : (sideNode tag b).tag = tag := by
  unfold sideNode
  split <;> rfl

theorem border_read {x : Border} {i : Item} (h : Shows Reading.xml (borderNode x) i) (hd : DistinctAttrs (borderNode x)) :
    seenSides "left" i = [wantedSide x.left] ∧ seenSides "right" i = [wantedSide x.right] ∧ seenSides "top" i = [wantedSide x.top] ∧
      seenSides "bottom" i = [wantedSide x.bottom] ∧ seenSides "diagonal" i = [wantedSide x.diagonal] := by
  have key : ∀ tag b, (borderNode x).children.filter (fun n => n.tag = tag) = [sideNode tag b] → seenSides tag i = [wantedSide b] := by
    intro tag b hf
    obtain ⟨k1, k2⟩ := kids_read h hd tag hf
    obtain ⟨j, e, hj⟩ := showsAll_one k1
    unfold seenSides
    rw [e]
    exact congrArg (fun x => [x]) (side_read hj (k2 _ (by simp)))
  refine ⟨key _ _ ?_, key _ _ ?_, key _ _ ?_, key _ _ ?_, key _ _ ?_⟩ <;> simp [borderNode, Node.children, side_tag]

theorem fill_read {st : StyleSetting} {i : Item} (h : Shows Reading.xml (fillNode st.fill) i) (hd : DistinctAttrs (fillNode st.fill)) :
    seenFills i = [wantedFill st] := by
  obtain ⟨k1, k2⟩ := kids_read h hd "patternFill" (List.filter_eq_self.mpr (by
    intro c hc
    rw [fillNode, Node.children, List.mem_singleton] at hc
    subst hc
    exact decide_eq_true rfl))
  obtain ⟨j, e, hj⟩ := showsAll_one k1
  have hdj := k2 _ (List.mem_singleton.mpr rfl)
  unfold seenFills
  rw [e]
  refine congrArg (fun x => [x]) ?_
  obtain ⟨f1, f2⟩ := kids_read hj hdj "fgColor" (ns := (st.fill.foreground.map (colorNode "fgColor")).toList) (by
    rw [Node.children, List.filter_append, filter_colors, filter_colors, if_pos rfl, if_neg (by decide), List.append_nil])
  obtain ⟨b1, b2⟩ := kids_read hj hdj "bgColor" (ns := (st.fill.background.map (colorNode "bgColor")).toList) (by
    rw [Node.children, List.filter_append, filter_colors, filter_colors, if_neg (by decide), if_pos rfl, List.nil_append])
  dsimp only
  rw [attr_read hj hdj, colors_read f1 f2, colors_read b1 b2]
  unfold wantedFill
  congr 1
  · change Reading.xml.attr st.pattern.text.toList = _
    rw [lit_read (by cases st.pattern <;> decide +kernel)]
    cases st.pattern <;> rfl
  · unfold StyleSetting.fill wantedRgb
    cases st.foreground <;> rfl
  · unfold StyleSetting.fill wantedRgb
    cases st.background <;> rfl

theorem val_read {tag v : String} {i : Item} (h : Shows Reading.xml (valNode tag v) i) (hd : DistinctAttrs (valNode tag v)) :
    i.attrOf "val" = some (Reading.xml.attr v.toList) := attr_read h hd "val"

theorem flag_read {tag : String} {on : Bool} {is : List Item} (h : ShowsAll Reading.xml (if on then [.mk tag none none []] else []) is)
    (hd : ∀ m ∈ (if on then [Node.mk tag none none []] else []), DistinctAttrs m) : is.any switchedOn = on := by
  cases on with
  | false => rw [showsAll_none h]; rfl
  | true =>
    obtain ⟨i, rfl, hi⟩ := showsAll_one h
    have := attr_read hi (hd _ (by simp)) "val"
    rw [List.any_cons, List.any_nil, Bool.or_false]
    unfold switchedOn
    rw [this]
    exact decide_eq_true (show (none : Option (List Char)) ∉ [some "0".toList, some "false".toList] by decide)

theorem font_filter (f : Font) (tag : String) : (fontNode f).children.filter (fun n => n.tag = tag) =
    if tag = "b" then (if f.bold then [.mk "b" none none []] else [])
    else if tag = "i" then (if f.italic then [.mk "i" none none []] else [])
    else if tag = "u" then (if f.underline then [.mk "u" none none []] else []) ++ (if f.doubleUnderline then [valNode "u" "double"] else [])
    else if tag = "sz" then [valNode "sz" (toString f.size)]
    else if tag = "color" then [colorNode "color" f.color]
    else if tag = "name" then [valNode "name" f.name]
    else if tag = "family" then [valNode "family" (toString f.family)]
    else if tag = "scheme" then [valNode "scheme" f.scheme.text]
    else [] := by
  have opt : ∀ (on : Bool) (n : Node), (if on then [n] else []).filter (fun n => n.tag = tag) = if tag = n.tag then (if on then [n] else []) else [] := by
    intro on n
    cases on <;> by_cases h : tag = n.tag <;> simp [h, eq_comm]
  rw [fontNode, Node.children, List.filter_append, List.filter_append, List.filter_append, List.filter_append, opt, opt, opt, opt]
  have tags : (Node.mk "b" none none []).tag = "b" ∧ (Node.mk "i" none none []).tag = "i" ∧ (Node.mk "u" none none []).tag = "u" ∧
      (valNode "u" "double").tag = "u" := ⟨rfl, rfl, rfl, rfl⟩
  rw [tags.1, tags.2.1, tags.2.2.1, tags.2.2.2]
  by_cases h1 : tag = "b"
  · subst h1; simp [valNode, colorNode, Node.tag]
  by_cases h2 : tag = "i"
  · subst h2; simp [valNode, colorNode, Node.tag]
  by_cases h3 : tag = "u"
  · subst h3; simp [valNode, colorNode, Node.tag]
  rw [if_neg h1, if_neg h2, if_neg h3, if_neg h3, if_neg h1, if_neg h2, if_neg h3]
  by_cases h4 : tag = "sz"
  · subst h4; simp [valNode, colorNode, Node.tag]
  by_cases h5 : tag = "color"
  · subst h5; simp [valNode, colorNode, Node.tag]
  by_cases h6 : tag = "name"
  · subst h6; simp [valNode, colorNode, Node.tag]
  by_cases h7 : tag = "family"
  · subst h7; simp [valNode, colorNode, Node.tag]
  by_cases h8 : tag = "scheme"
  · subst h8; simp [valNode, colorNode, Node.tag]
  rw [if_neg h4, if_neg h5, if_neg h6, if_neg h7, if_neg h8]
  simp [valNode, colorNode, Node.tag, Ne.symm h4, Ne.symm h5, Ne.symm h6, Ne.symm h7, Ne.symm h8]

theorem font_read {st : StyleSetting} {i : Item} (h : Shows Reading.xml (fontNode st.font) i) (hd : DistinctAttrs (fontNode st.font)) :
    seenFont i = wantedFont st := by
  have kids := fun tag => kids_read h hd tag (font_filter st.font tag)
  have one : ∀ tag v, (fontNode st.font).children.filter (fun n => n.tag = tag) = [valNode tag v] → (i.kids tag).map (Item.attrOf "val") = [some (Reading.xml.attr v.toList)] := by
    intro tag v hf
    obtain ⟨k1, k2⟩ := kids_read h hd tag hf
    obtain ⟨j, e, hj⟩ := showsAll_one k1
    rw [e]
    exact congrArg (fun x => [x]) (val_read hj (k2 _ (by simp)))
  have nothing : ∀ tag, tag ∉ ["b", "i", "u", "sz", "color", "name", "family", "scheme"] → i.kids tag = [] := by
    intro tag ht
    simp only [List.mem_cons, List.not_mem_nil, or_false, not_or] at ht
    obtain ⟨t1, t2, t3, t4, t5, t6, t7, t8⟩ := ht
    have := (kids tag).1
    rw [if_neg t1, if_neg t2, if_neg t3, if_neg t4, if_neg t5, if_neg t6, if_neg t7, if_neg t8] at this
    exact showsAll_none this
  unfold seenFont wantedFont
  congr 1
  · exact one "name" st.fontFamily (font_filter _ _)
  · rw [one "sz" (toString st.fontSize) (font_filter _ _), digits_read]
  · obtain ⟨k1, k2⟩ := kids "color"
    obtain ⟨j, e, hj⟩ := showsAll_one (n := colorNode "color" st.textColor) k1
    rw [e]
    exact congrArg (fun x => [x]) (color_read hj (k2 _ (List.mem_singleton.mpr rfl)))
  · exact flag_read (kids "b").1 (kids "b").2
  · exact flag_read (kids "i").1 (kids "i").2
  · obtain ⟨k1, k2⟩ := kids "u"
    have k1 : ShowsAll Reading.xml ((if st.underline then [Node.mk "u" none none []] else []) ++ (if st.doubleUnderline then [valNode "u" "double"] else [])) (i.kids "u") := k1
    have k2 : ∀ m ∈ (if st.underline then [Node.mk "u" none none []] else []) ++ (if st.doubleUnderline then [valNode "u" "double"] else []), DistinctAttrs m := k2
    have s1 : ∀ j, Shows Reading.xml (Node.mk "u" none none []) j → DistinctAttrs (Node.mk "u" none none []) → (j.attrOf "val").getD "single".toList = "single".toList := by
      intro j hj hd
      rw [attr_read hj hd]
      rfl
    have s2 : ∀ j, Shows Reading.xml (valNode "u" "double") j → DistinctAttrs (valNode "u" "double") → (j.attrOf "val").getD "single".toList = "double".toList := by
      intro j hj hd
      rw [val_read hj hd, lit_read (by decide +kernel)]
      rfl
    cases hu : st.underline <;> cases hw : st.doubleUnderline <;> rw [hu, hw] at k1 k2
    · rw [showsAll_none k1]; rfl
    · obtain ⟨j, e, hj⟩ := showsAll_one (n := valNode "u" "double") k1
      rw [e]
      exact congrArg (fun x => [x]) (s2 j hj (k2 _ (by simp)))
    · obtain ⟨j, e, hj⟩ := showsAll_one (n := Node.mk "u" none none []) k1
      rw [e]
      exact congrArg (fun x => [x]) (s1 j hj (k2 _ (by simp)))
    · generalize i.kids "u" = is at k1
      change ShowsAll Reading.xml [Node.mk "u" none none [], valNode "u" "double"] is at k1
      match is, k1 with
      | j :: js, k1 =>
        rw [ShowsAll] at k1
        obtain ⟨j', rfl, hj'⟩ := showsAll_one k1.2
        rw [List.map_cons, List.map_cons, List.map_nil, s1 j k1.1 (k2 _ (by simp)), s2 j' hj' (k2 _ (by simp))]
        rfl
      | [], k1 => simp [ShowsAll] at k1
  · obtain ⟨k1, k2⟩ := kids "scheme"
    obtain ⟨j, e, hj⟩ := showsAll_one (n := valNode "scheme" "none") k1
    rw [e, List.any_cons, List.any_nil, Bool.or_false, val_read hj (k2 _ (List.mem_singleton.mpr rfl)), lit_read (by decide +kernel)]
    decide
  · rw [List.flatMap_cons, List.flatMap_cons, List.flatMap_cons, List.flatMap_cons, List.flatMap_cons, List.flatMap_cons, List.flatMap_nil,
      nothing "strike" (by decide), nothing "outline" (by decide), nothing "shadow" (by decide), nothing "condense" (by decide), nothing "extend" (by decide),
      nothing "vertAlign" (by decide)]
    rfl

/-! ## Cell formats -/

theorem xf_attr {x : Xf} {i : Item} (h : Shows Reading.xml (xfNode true x) i) (hd : DistinctAttrs (xfNode true x)) {k : String} {v : Option String}
    (hk : (aget k (xfTable true x)).join = v) : i.attrOf k = v.map (fun v => Reading.xml.attr v.toList) := by
  rw [attr_read h hd, ← hk]
  congr 1
  exact aget_present (by simp [akeys, xfTable]) k

theorem xf_ids {x : Xf} {i : Item} (h : Shows Reading.xml (xfNode true x) i) (hd : DistinctAttrs (xfNode true x)) :
    i.attrOf "numFmtId" = some (Nat.toDigits 10 x.numFmtId) ∧ i.attrOf "fontId" = some (Nat.toDigits 10 x.fontId) ∧
      i.attrOf "fillId" = some (Nat.toDigits 10 x.fillId) ∧ i.attrOf "borderId" = some (Nat.toDigits 10 x.borderId) := by
  refine ⟨?_, ?_, ?_, ?_⟩ <;> rw [xf_attr h hd rfl] <;> exact congrArg some (digits_read _)

theorem xf_flags {x : Xf} {i : Item} (h : Shows Reading.xml (xfNode true x) i) (hd : DistinctAttrs (xfNode true x)) :
    (x.applyFont = 1 → i.attrOf "applyFont" = some "1".toList) ∧ (x.applyFill = 1 → i.attrOf "applyFill" = some "1".toList) ∧
      (x.applyBorder = 1 → i.attrOf "applyBorder" = some "1".toList) ∧ (x.applyAlignment = 1 → i.attrOf "applyAlignment" = some "1".toList) := by
  have key : ∀ k n, (aget k (xfTable true x)).join = positive n → n = 1 → i.attrOf k = some "1".toList := by
    intro k n hk hn
    rw [xf_attr h hd hk, hn]
    exact congrArg some (lit_read (t := "1") (by decide))
  exact ⟨key _ _ rfl, key _ _ rfl, key _ _ rfl, key _ _ rfl⟩

theorem align_read {st : StyleSetting} {x : Xf} (h1 : x.horizontal = st.horizontal) (h2 : x.vertical = st.vertical) (h3 : x.wrap = bit st.wrapText) {i : Item}
    (h : Shows Reading.xml (xfNode true x) i) (hd : DistinctAttrs (xfNode true x)) :
    seenAlignment i = wantedAlignment st ∧ (st.vertical ≠ .none ∨ st.horizontal ≠ .none ∨ st.wrapText = true ∨ i.kids "alignment" = []) := by
  by_cases hc : x.wrap > 0 ∨ x.vertical ≠ .none ∨ x.horizontal ≠ .none
  · obtain ⟨k1, k2⟩ := kids_read h hd "alignment" (ns := [.mk "alignment" (some (present (alignTable x))) none []]) (by
      rw [xfNode, Node.children, if_pos hc]
      exact List.filter_eq_self.mpr (by intro c hc; rw [List.mem_singleton] at hc; subst hc; exact decide_eq_true rfl))
    obtain ⟨j, e, hj⟩ := showsAll_one k1
    have hdj := k2 _ (List.mem_singleton.mpr rfl)
    have at' : ∀ k v, (aget k (alignTable x)).join = v → j.attrOf k = v.map (fun v => Reading.xml.attr v.toList) := by
      intro k v hk
      rw [attr_read hj hdj, ← hk]
      congr 1
      exact aget_present (by simp [akeys, alignTable]) k
    constructor
    · unfold seenAlignment wantedAlignment
      rw [e]
      refine (SeenAlignment.mk.injEq ..).mpr ⟨?_, ?_, ?_⟩
      · change (j.attrOf "horizontal").getD _ = _
        rw [at' "horizontal" _ rfl, ← h1]
        simp only [alignTable]
        cases x.horizontal <;> first | rfl | exact lit_read (by decide)
      · change (j.attrOf "vertical").getD _ = _
        rw [at' "vertical" _ rfl, ← h2]
        simp only [alignTable]
        cases x.vertical <;> first | rfl | exact lit_read (by decide)
      · change decide (j.attrOf "wrapText" ∈ [some "1".toList, some "true".toList]) = _
        have hw : j.attrOf "wrapText" = (positive x.wrap).map (fun v => Reading.xml.attr v.toList) := at' "wrapText" _ rfl
        cases hb : st.wrapText
        · rw [h3, hb] at hw
          rw [decide_eq_false_iff_not, hw]
          decide
        · rw [h3, hb, show (positive (bit true)).map (fun v => Reading.xml.attr v.toList) = some (Reading.xml.attr "1".toList) from rfl,
            lit_read (by decide)] at hw
          rw [decide_eq_true_eq, hw]
          decide
    · rw [h1, h2, h3] at hc
      rcases hc with hc | hc | hc
      · right; right; left
        cases hw : st.wrapText
        · rw [hw] at hc; simp [bit] at hc
        · rfl
      · exact .inl hc
      · exact .inr (.inl hc)
  · have k1 := (kids_read h hd "alignment" (ns := []) (by rw [xfNode, Node.children, if_neg hc]; rfl)).1
    have e := showsAll_none k1
    refine ⟨?_, .inr (.inr (.inr e))⟩
    rw [not_or, not_or] at hc
    obtain ⟨c1, c2, c3⟩ := hc
    have c2 : x.vertical = .none := Classical.byContradiction c2
    have c3 : x.horizontal = .none := Classical.byContradiction c3
    unfold seenAlignment wantedAlignment
    rw [e, ← h1, ← h2, c2, c3]
    have : st.wrapText = false := by
      cases hw : st.wrapText
      · rfl
      · rw [hw] at h3; simp [bit] at h3; omega
    rw [this]
    rfl

/-! ## The styles of the file -/

theorem looks_read {st : Styles} (hx : StylesX st) {b : Build} {stamp : List Char} (hs : b.release = true → StampXml stamp) {item : Item}
    (hi : IsDocument (renderDoc b stamp (stylesSaved st)) item) {id : Nat} {setting : StyleSetting} (h : HasLook st id setting) :
    LooksElsewhere item (Nat.toDigits 10 id) setting ∧
      (setting.numberFormat ≠ .custom → ∃ xf, styleEntry item "cellXfs" "xf" (Nat.toDigits 10 id) = some xf ∧ xf.attrOf "numFmtId" = some "0".toList) := by
  have hd := styles_reads hx hs hi
  obtain ⟨xf, h1, h2, h3, h4, ⟨h5, h6, h7⟩, h8, h9, h10, h11, h12⟩ := h
  obtain ⟨i, e1, e2, e3⟩ := entry_reads hd (table := "cellXfs") (entry := "xf") (placeStyles_filter st _ others_tags _) (fun _ => rfl) h1
  obtain ⟨fo, f1, f2, f3⟩ := entry_reads hd (table := "fonts") (entry := "font") (placeStyles_filter st _ others_tags _) (fun _ => rfl) h2
  obtain ⟨fi, g1, g2, g3⟩ := entry_reads hd (table := "fills") (entry := "fill") (placeStyles_filter st _ others_tags _) (fun _ => rfl) h3
  obtain ⟨bo, b1, b2, b3⟩ := entry_reads hd (table := "borders") (entry := "border") (placeStyles_filter st _ others_tags _) (fun _ => rfl) h4
  obtain ⟨i1, i2, i3, i4⟩ := xf_ids e2 e3
  obtain ⟨a1, a2, a3, a4⟩ := xf_flags e2 e3
  obtain ⟨s1, s2, s3, s4, s5⟩ := border_read b2 b3
  obtain ⟨l1, l2⟩ := align_read h5 h6 h7 e2 e3
  have zero : ∀ {n : Nat} {k : String}, i.attrOf k = some (Nat.toDigits 10 n) → n = 0 → i.attrOf k = some "0".toList := by
    intro n k hk hn
    rw [hk, hn]
    rfl
  refine ⟨⟨i, fo, fi, bo, e1, ?_, ?_, ?_, font_read f2 f3, fill_read g2 g3, s1, s2, s3, s4, s5, l1, ?_, ?_, ?_, ?_⟩, fun hk => ⟨i, e1, zero i1 (h12 hk)⟩⟩
  · rw [i2]; exact f1
  · rw [i3]; exact g1
  · rw [i4]; exact b1
  · exact h8.imp a1 (zero i2)
  · exact h9.imp a2 (zero i3)
  · exact h10.imp a3 (zero i4)
  · by_cases hq : setting.vertical ≠ .none ∨ setting.horizontal ≠ .none ∨ setting.wrapText = true
    · refine .inl (a4 ?_)
      rw [h11]
      simp only [bit, decide_eq_true hq, if_true]
    · right
      rcases l2 with l | l | l | l
      · exact absurd (.inl l) hq
      · exact absurd (.inr (.inl l)) hq
      · exact absurd (.inr (.inr l)) hq
      · exact l

/-- Other programs find the styles of the session. -/
theorem FileOf.styles (h : FileOf env theme s now exts p z) {styles : Item} :
    FindsStyles z styles ↔ IsDocument (renderDoc env.build env.stamp (stylesSaved s.x.styles.data)) styles := by
  have hb : BookInv env theme s.x s.handles := h.sess
  obtain ⟨_, _, _, c4, _⟩ := closedParts_book theme now s.x.rels.rels s.x.strings.data s.x.styles.data s.x.sheets s.x.view
  have hp := h.written.parts _ _ _ c4
  obtain ⟨ws, w1, w2⟩ := hb.rels
  have hno : ∀ l : List Rel, (∀ r ∈ l, r.type ≠ styleContent.type) → (l.map seenRel).filter (fun r => decide (r.type = some stylesRel)) = [] := by
    intro l hl
    rw [List.filter_eq_nil_iff]
    intro q hq e
    obtain ⟨r, hr, rfl⟩ := List.mem_map.mp hq
    have e := Option.some.inj (of_decide_eq_true e)
    exact hl r hr (String.toList_inj.mp (e.trans (by decide +kernel)))
  have hws : ∀ r ∈ ws, r.type ≠ styleContent.type := by
    intro r hr e
    obtain ⟨k, hk, _⟩ := w2 r hr
    rw [hk] at e
    revert e
    change worksheetContent.type ≠ styleContent.type
    decide +kernel
  have hrel : ∀ {rels : Item}, IsDocument (renderDoc env.build env.stamp (relsDoc (relsSaved s.x.rels.rels s.x.strings.data))) rels →
      (relationships rels).filter (fun r => decide (r.type = some stylesRel)) = [seenRel (relTo "rId4" "/xl/styles.xml" styleContent)] := by
    intro rels hr
    rw [rels_read h.relsX h.calmRels h.stamp hr, w1, relsSaved_eq (fun r hr => by obtain ⟨k, hk, _⟩ := w2 r hr; exact ⟨k, hk⟩)]
    rw [List.map_append, List.filter_append, hno ws hws, List.append_nil]
    split <;> decide +kernel
  have hlead : (seenRel (relTo "rId4" "/xl/styles.xml" styleContent)).leads "xl/workbook.xml".toList = some "xl/styles.xml".toList := by
    decide +kernel
  constructor
  · rintro ⟨types, main, book, rels, r, part, o1, q1, q2, q3, q4, q5⟩
    obtain ⟨rfl, d1, d2, d3⟩ := h.opens.mp o1
    rw [hrel d3] at q1
    cases q1
    rw [hlead] at q2
    cases q2
    rw [h.part hp] at q4
    exact q4.1
  · intro hi
    obtain ⟨types, main, book, rels, o1⟩ := h.opened
    obtain ⟨rfl, d1, d2, d3⟩ := h.opens.mp o1
    refine ⟨types, _, book, rels, _, _, o1, hrel d3, hlead, h.typeOf d1 hp rfl, (h.part hp).mpr ⟨hi, ?_⟩, ?_⟩
    · exact (docX_styles h.clean.styles).space (styles_root _) (toc_styles _) h.stamp hi (uri := mainNs) rfl (calm_lit (by decide +kernel))
    · exact showsRoot_named (styles_reads h.clean.styles h.stamp hi).1

end Oxml
