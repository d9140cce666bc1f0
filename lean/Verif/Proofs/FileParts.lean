import Verif.Proofs.FileClean
/-!
# Lemmas for C104: the parts the workbook writes itself, and the session
-/
namespace Oxml
open Spec

/-! ## Styles -/

def SideX (s : BorderSide) : Prop := ∀ c ∈ s.color, XmlChars c.value

structure StylesX (st : Styles) : Prop where
  numFmts : ∀ f ∈ st.numFmts, XmlChars f.code
  fonts : ∀ f ∈ st.fonts, XmlChars f.name ∧ XmlChars f.color.value
  fills : ∀ f ∈ st.fills, (∀ c ∈ f.background, XmlChars c.value) ∧ ∀ c ∈ f.foreground, XmlChars c.value
  borders : ∀ b ∈ st.borders, SideX b.left ∧ SideX b.right ∧ SideX b.top ∧ SideX b.bottom ∧ SideX b.diagonal

theorem nodeX_color {tag : String} {c : Color} (h : XmlChars c.value) : NodeX (colorNode tag c) := nodeX_mk (attrsX_one h) nodesX_nil

theorem nodeX_counted {tag : String} {cs : List Node} (h : ∀ c ∈ cs, NodeX c) : NodeX (countedNode tag cs) := nodeX_mk (attrsX_one (xml_nat _)) h

theorem nodeX_val {tag v : String} (h : XmlChars v) : NodeX (valNode tag v) := nodeX_mk (attrsX_one h) nodesX_nil

theorem nodeX_bare {tag : String} : NodeX (.mk tag none none []) := nodeX_mk attrsX_none nodesX_nil

theorem nodeX_font {f : Font} (h : XmlChars f.name ∧ XmlChars f.color.value) : NodeX (fontNode f) := by
  have opt : ∀ (b : Bool) (n : Node), NodeX n → ∀ c ∈ (if b then [n] else []), NodeX c := by
    intro b n hn
    split
    · exact nodesX_one hn
    · exact nodesX_nil
  refine nodeX_mk attrsX_none (nodesX_append (nodesX_append (nodesX_append (nodesX_append (opt _ _ nodeX_bare) (opt _ _ nodeX_bare)) (opt _ _ nodeX_bare))
    (opt _ _ (nodeX_val (xlit (by decide +kernel))))) ?_)
  refine nodesX_cons (nodeX_val (xml_nat _)) (nodesX_cons (nodeX_color h.2) (nodesX_cons (nodeX_val h.1) (nodesX_cons (nodeX_val (xml_nat _)) (nodesX_one (nodeX_val ?_)))))
  cases f.scheme <;> exact xlit (by decide +kernel)

theorem nodesX_colors {tag : String} {o : Option Color} (h : ∀ c ∈ o, XmlChars c.value) : ∀ c ∈ (o.map (colorNode tag)).toList, NodeX c := by
  cases o with
  | none => exact nodesX_nil
  | some c => exact nodesX_one (nodeX_color (h c rfl))

theorem nodeX_fill {f : Fill} (h : (∀ c ∈ f.background, XmlChars c.value) ∧ ∀ c ∈ f.foreground, XmlChars c.value) : NodeX (fillNode f) := by
  refine nodeX_mk attrsX_none (nodesX_one (nodeX_mk (attrsX_one ?_) (nodesX_append (nodesX_colors h.2) (nodesX_colors h.1))))
  cases f.pattern <;> exact xlit (by decide +kernel)

theorem nodeX_side {tag : String} {s : BorderSide} (h : SideX s) : NodeX (sideNode tag s) := by
  unfold sideNode
  split
  · refine nodeX_mk (attrsX_one ?_) (nodesX_colors h)
    cases s.style <;> exact xlit (by decide +kernel)
  · exact nodeX_bare

theorem nodeX_border {b : Border} (h : SideX b.left ∧ SideX b.right ∧ SideX b.top ∧ SideX b.bottom ∧ SideX b.diagonal) : NodeX (borderNode b) :=
  nodeX_mk attrsX_none (nodesX_cons (nodeX_side h.1) (nodesX_cons (nodeX_side h.2.1) (nodesX_cons (nodeX_side h.2.2.1) (nodesX_cons (nodeX_side h.2.2.2.1)
    (nodesX_one (nodeX_side h.2.2.2.2))))))

theorem optX_positive (n : Nat) : OptX (positive n) := by
  unfold positive
  split
  · exact optX_some (xml_nat _)
  · exact optX_none

theorem optX_if {c : Prop} [Decidable c] {v : String} (h : XmlChars v) : OptX (if c then some v else none) := by
  split
  · exact optX_some h
  · exact optX_none

theorem nodeX_xf (b : Bool) (x : Xf) : NodeX (xfNode b x) := by
  refine nodeX_mk (attrsX_present ⟨optX_some (xml_nat _), optX_some (xml_nat _), optX_some (xml_nat _), optX_some (xml_nat _), optX_if (xml_nat _), optX_positive _,
    optX_positive _, optX_positive _, optX_positive _, optX_positive _, optX_positive _, trivial⟩) ?_
  split
  · refine nodesX_one (nodeX_mk (attrsX_present ⟨optX_positive _, optX_if ?_, optX_if ?_, trivial⟩) nodesX_nil)
    · cases x.vertical <;> exact xlit (by decide +kernel)
    · cases x.horizontal <;> exact xlit (by decide +kernel)
  · exact nodesX_nil

theorem StylesX.place {st : Styles} (h : StylesX st) {cs : List Node} (hc : ∀ c ∈ cs, NodeX c) : ∀ c ∈ placeStyles st cs, NodeX c := by
  unfold placeStyles
  simp only
  refine nodesX_insert (nodeX_counted (nodesX_map fun x _ => nodeX_xf _ x)) (nodesX_insert (nodeX_counted (nodesX_map fun x _ => nodeX_xf _ x))
    (nodesX_insert (nodeX_counted (nodesX_map fun x hx => nodeX_border (h.borders x hx))) (nodesX_insert (nodeX_counted (nodesX_map fun x hx => nodeX_fill (h.fills x hx)))
      (nodesX_insert (nodeX_counted (nodesX_map fun x hx => nodeX_font (h.fonts x hx))) (nodesX_cons (nodeX_counted (nodesX_map fun x hx => ?_)) hc)))))
  exact nodeX_mk (attrsX_cons (xml_nat _) (attrsX_one (h.numFmts x hx))) nodesX_nil

theorem stylesX_new : StylesX newStyles := by
  refine ⟨by simp [newStyles], ?_, ?_, ?_⟩
  · intro f hf
    simp only [newStyles, List.mem_singleton] at hf
    subst hf
    exact ⟨xlit (by decide +kernel), xlit (by decide +kernel)⟩
  · intro f hf
    simp only [newStyles, List.mem_cons, List.not_mem_nil, or_false] at hf
    rcases hf with rfl | rfl <;> exact ⟨by simp, by simp⟩
  · intro f hf
    simp only [newStyles, List.mem_singleton] at hf
    subst hf
    unfold SideX
    simp

theorem findOrPush_new {α : Type} {h : α → Nat} {l : List α} {x y : α} (hm : y ∈ (findOrPush h l x).1) : y ∈ l ∨ y = x := by
  unfold findOrPush at hm
  split at hm
  · exact .inl hm
  · rcases List.mem_append.mp hm with h | h
    · exact .inl h
    · exact .inr (List.mem_singleton.mp h)

theorem sideX_texts {s : BorderSide} (h : ∀ t ∈ sideTexts s, XmlChars t) : SideX s := by
  intro c hc
  refine h _ ?_
  unfold sideTexts
  rw [Option.mem_toList, show s.color = some c from hc]
  rfl

theorem StylesX.get {b : Build} {hs : Hashes} {st st' : Styles} {s : StyleSetting} {id : Nat} (h : StylesX st) (ht : ∀ t ∈ settingTexts s, XmlChars t)
    (hg : getStyleId b hs st s = .ok (st', id)) : StylesX st' := by
  unfold getStyleId at hg
  split at hg
  · cases hg
  · rename_i numFmts numFmtId applyNumFmt hn
    simp only [settingTexts, List.mem_append] at ht
    cases hg
    refine ⟨?_, ?_, ?_, ?_⟩
    · intro f hf
      simp only at hf
      unfold numFmtPart at hn
      split at hn
      · split at hn
        · cases hn
        · rename_i code hcode
          split at hn
          · split at hn
            · cases hn
            · cases hn; exact h.numFmts f hf
          · cases hn
            rcases List.mem_append.mp hf with hf | hf
            · exact h.numFmts f hf
            · rw [List.mem_singleton] at hf
              subst hf
              exact ht code (by simp [hcode])
      · cases hn; exact h.numFmts f hf
    · intro f hf
      rcases findOrPush_new hf with hf | rfl
      · exact h.fonts f hf
      · exact ⟨ht _ (by simp [StyleSetting.font]), ht _ (by simp [StyleSetting.font])⟩
    · intro f hf
      rcases findOrPush_new hf with hf | rfl
      · exact h.fills f hf
      · constructor
        · intro c hc
          simp only [StyleSetting.fill, Option.mem_def, Option.map_eq_some_iff] at hc
          obtain ⟨v, hv, rfl⟩ := hc
          exact ht _ (by simp [hv])
        · intro c hc
          simp only [StyleSetting.fill, Option.mem_def, Option.map_eq_some_iff] at hc
          obtain ⟨v, hv, rfl⟩ := hc
          exact ht _ (by simp [hv])
    · intro f hf
      rcases findOrPush_new hf with hf | rfl
      · exact h.borders f hf
      · simp only [StyleSetting.border]
        exact ⟨sideX_texts fun t h => ht t (by simp only [h, true_or, or_true]), sideX_texts fun t h => ht t (by simp only [h, true_or, or_true]),
          sideX_texts fun t h => ht t (by simp only [h, true_or, or_true]), sideX_texts fun t h => ht t (by simp only [h, true_or, or_true]),
          sideX_texts fun t h => ht t (by simp only [h, true_or, or_true])⟩

/-! ## The workbook's own documents -/

theorem uri_main : UriXml mainNs := ⟨xlit (by decide +kernel), by decide +kernel, by decide +kernel⟩

theorem docX_template {tag uri : String} (ht : isValidXmlName ⟨fun _ => false⟩ tag = true) (hu : UriXml uri) (hq : '"' ∉ uri.toList) : DocX (XDoc.template tag uri) := by
  refine ⟨_, _, _, wfDoc_template (u := asciiOnly) ht hq, ?_, attrsX_nil, nodesX_nil⟩
  intro kv hkv
  simp only [XDoc.template, List.mem_singleton] at hkv
  subst hkv
  exact hu

theorem docX_styles {st : Styles} (h : StylesX st) : DocX (stylesSaved st) := by
  obtain ⟨t, a, cs, hw⟩ := wf_styleDoc asciiOnly
  have hr : styleDoc.root = some (.mk t a none cs) := hw.isRoot
  have hx : NodeX (.mk t a none cs) := by
    have : ∀ r, styleDoc.root = some r → ∀ x ∈ allTexts r, x.toList.all (fun x => decide (0x20 ≤ x.toNat ∧ x.toNat < 128)) = true := by
      intro r hr
      cases hr
      decide +kernel
    intro x hx
    exact xlit (this _ hr x hx)
  refine DocX.withChildren (wf_filter hw _) ?_ ?_ rfl (wf_placeStyles st (fun n hn => by simpa using (List.mem_filter.mp hn).2)
    (wfNodes_iff.mpr fun c hc => wfNodes_iff.mp hw.names.2.2 c (List.mem_filter.mp hc).1)) (h.place ?_)
  · intro kv hkv
    change kv ∈ [(defaultNsKey, mainNs)] at hkv
    rw [List.mem_singleton] at hkv
    subst hkv
    exact uri_main
  · intro kv hkv
    exact hx _ (by rw [allTexts.eq_def]; exact List.mem_append_left _ (List.mem_map_of_mem hkv))
  · intro c hc x hxc
    refine hx x ?_
    simp only [allTexts]
    exact List.mem_append_right _ (mem_allTextss.mpr ⟨c, (List.mem_filter.mp hc).1, hxc⟩)

def BookViewX (v : BookView) : Prop := OptX v.activeTab ∧ OptX v.firstSheet ∧ OptX v.visibility

theorem nodeX_bookView {v : BookView} (h : BookViewX v) : NodeX (bookViewNode v) := by
  have z : ∀ b : Bool, OptX (some (if b then "0" else "1")) := by
    intro b
    cases b <;> exact optX_some (xlit (by decide +kernel))
  refine nodeX_mk (attrsX_present ⟨h.1, h.2.1, ?_, optX_some (xml_flag _), h.2.2, z _, z _, z _, trivial⟩) nodesX_nil
  simp only
  split
  · exact optX_some (xml_flag _)
  · exact optX_map _ xml_int

theorem docX_book {sheets : List SheetEntry} {view : Option BookView} (hs : ∀ e ∈ sheets, XmlChars e.name ∧ XmlChars e.relId) (hv : ∀ v ∈ view, BookViewX v) :
    DocX (bookSaved sheets view) := by
  have hw := wf_savedBook asciiOnly (sheets := sheets) (view := view) (wf_workbookDoc asciiOnly) (by decide)
  refine ⟨_, _, _, hw.1, ?_, attrsX_nil, ?_⟩
  · intro kv hkv
    change kv ∈ [(defaultNsKey, mainNs), ("r", "http://schemas.openxmlformats.org/officeDocument/2006/relationships")] at hkv
    simp only [List.mem_cons, List.not_mem_nil, or_false] at hkv
    rcases hkv with rfl | rfl
    · exact uri_main
    · exact ⟨xlit (by decide +kernel), by decide +kernel, by decide +kernel⟩
  · unfold placeBook
    simp only
    refine nodesX_perm (orderChildren_perm _ _ _) (nodesX_insert (nodeX_mk attrsX_none ?_) ?_)
    · intro c hc
      obtain ⟨i, e, he, rfl⟩ := mem_sheetNodes _ _ _ hc
      exact nodeX_mk (attrsX_present ⟨optX_some (hs e he).1, optX_some (xml_nat _), optX_some (hs e he).2, optX_if (xlit (by decide +kernel)), trivial⟩) nodesX_nil
    · have hb : ∀ c ∈ [Node.mk "fileVersion" (some [("appName", "openxml-office"), ("lastEdited", "7"), ("lowestEdited", "7")]) none []], NodeX c :=
        nodesX_one (nodeX_mk (attrsX_cons (xlit (by decide +kernel)) (attrsX_cons (xlit (by decide +kernel)) (attrsX_one (xlit (by decide +kernel))))) nodesX_nil)
      split
      · exact nodesX_insert (nodeX_mk attrsX_none (nodesX_one (nodeX_bookView (hv _ rfl)))) hb
      · exact hb

def RelX (r : Rel) : Prop := XmlChars r.id ∧ XmlChars r.target ∧ XmlChars r.type ∧ OptX r.mode

theorem docX_relsTemplate : DocX relsTemplate.doc := docX_template (by decide +kernel) ⟨xlit (by decide +kernel), by decide +kernel, by decide +kernel⟩ (by decide +kernel)

theorem docX_rels {rels : List Rel} (h : ∀ r ∈ rels, RelX r) : DocX (relsDoc rels) := by
  have hw : WfDoc asciiOnly relsTemplate.doc (.mk "Relationships" (some []) none []) := wfDoc_template (by decide +kernel) (by decide +kernel)
  refine DocX.withChildren hw ?_ attrsX_nil rfl (wfNodes_append.mpr ⟨trivial, wfNodes_iff.mpr ?_⟩) (nodesX_append nodesX_nil (nodesX_map ?_))
  · intro kv hkv
    change kv ∈ [(defaultNsKey, relsContent.ns)] at hkv
    rw [List.mem_singleton] at hkv
    subst hkv
    exact ⟨xlit (by decide +kernel), by decide +kernel, by decide +kernel⟩
  · intro c hc
    obtain ⟨r, _, rfl⟩ := List.mem_map.mp hc
    exact wf_relNode _ r
  · intro r hr
    obtain ⟨h1, h2, h3, h4⟩ := h r hr
    unfold relNode
    refine nodeX_mk ?_ nodesX_nil
    cases hm : r.mode with
    | none => exact attrsX_cons h1 (attrsX_cons h2 (attrsX_one h3))
    | some m => exact attrsX_cons h1 (attrsX_cons h2 (attrsX_cons h3 (attrsX_one (h4 m hm))))

theorem docX_strings {table : List String} (h : ∀ t ∈ table, XmlChars t) : DocX (stringsSaved table) := by
  refine ⟨"sst", some [("count", toString table.length), ("uniqueCount", toString (distinctCount table))], table.map siNode, ⟨rfl, ?_, ?_, ?_⟩, ?_,
    attrsX_cons (xml_nat _) (attrsX_one (xml_nat _)), nodesX_map ?_⟩
  · refine wfNode_attrs (by decide +kernel) (by simp only [akeys, List.map_cons, List.map_nil]; decide +kernel) (by simp [akeys]) (wfNodes_iff.mpr ?_)
    intro c hc
    obtain ⟨s, _, rfl⟩ := List.mem_map.mp hc
    exact wf_siNode _ s
  · exact (wfDoc_template (u := asciiOnly) (tag := "sst") (uri := sharedStringContent.ns) (by decide +kernel) (by decide +kernel)).ns
  · exact (wfDoc_template (u := asciiOnly) (tag := "sst") (uri := sharedStringContent.ns) (by decide +kernel) (by decide +kernel)).uris
  · intro kv hkv
    change kv ∈ [(defaultNsKey, sharedStringContent.ns)] at hkv
    rw [List.mem_singleton] at hkv
    subst hkv
    exact ⟨xlit (by decide +kernel), by decide +kernel, by decide +kernel⟩
  · intro s hs
    exact nodeX_mk attrsX_none (nodesX_one (nodeX_text attrsX_none (h s hs)))

theorem docX_core {now : String} (h : XmlChars now) : DocX (coreSaved now) := by
  refine ⟨_, _, _, wf_coreSaved asciiOnly now, ?_, attrsX_nil, ?_⟩
  · have : ∀ kv ∈ coreDoc.ns, kv.2.toList.all (fun x => decide (0x20 ≤ x.toNat ∧ x.toNat < 128)) = true ∧ '<' ∉ kv.2.toList ∧ '&' ∉ kv.2.toList := by decide +kernel
    intro kv hkv
    exact ⟨xlit (this kv hkv).1, (this kv hkv).2⟩
  · have a1 : AttrsX (some [("xsi:type", "dcterms:W3CDTF")]) := attrsX_one (xlit (by decide +kernel))
    exact nodesX_cons (nodeX_text attrsX_nil (xlit (by decide +kernel))) (nodesX_cons (nodeX_text attrsX_nil (xlit (by decide +kernel)))
      (nodesX_cons (nodeX_text a1 h) (nodesX_one (nodeX_text a1 h))))

theorem docX_contentTypes {exts ovs : List (String × String)} (h1 : ∀ e ∈ exts, XmlChars e.1 ∧ XmlChars e.2) (h2 : ∀ e ∈ ovs, XmlChars e.1 ∧ XmlChars e.2) :
    DocX (contentTypesDoc exts ovs) := by
  refine ⟨_, _, _, wf_contentTypesDoc asciiOnly exts ovs, ?_, attrsX_nil, nodesX_append (nodesX_map fun e he => ?_) (nodesX_map fun e he => ?_)⟩
  · intro kv hkv
    change kv ∈ [(defaultNsKey, contentTypesNs)] at hkv
    rw [List.mem_singleton] at hkv
    subst hkv
    exact ⟨xlit (by decide +kernel), by decide +kernel, by decide +kernel⟩
  · exact nodeX_mk (attrsX_cons (h1 e he).1 (attrsX_one (h1 e he).2)) nodesX_nil
  · exact nodeX_mk (attrsX_cons (h2 e he).1 (attrsX_one (h2 e he).2)) nodesX_nil

theorem docX_calc : DocX calcTemplate.doc := docX_template (by decide +kernel) ⟨xlit (by decide +kernel), by decide +kernel, by decide +kernel⟩ (by decide +kernel)

end Oxml
