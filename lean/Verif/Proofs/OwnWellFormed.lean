import Verif.Proofs.StillWellFormed
import Verif.Proofs.StylesFit
import Verif.Proofs.CycleFile
/-!
# Own parts of opened workbooks stay well-formed XML (C113)
-/
namespace Oxml
open Spec

/-! ## What the session does to what the book holds -/

/-- The texts of what the book holds besides strings and sheets are of XML characters. -/
structure BookX (x : Excel) : Prop where
  sheets : ∀ e ∈ x.sheets, XmlChars e.name ∧ XmlChars e.relId
  relsPath : XmlChars x.rels.path
  rels : ∀ r ∈ x.rels.rels, RelX r
  root : ∀ r ∈ x.rootRels.rels, RelX r
  view : ∀ v ∈ x.view, BookViewX v
  styles : StylesX x.styles.data
  chain : ∀ e ∈ x.chain.data, XmlChars e.1 ∧ XmlChars e.2.1

theorem beforeSub_mem {pat s p : List Char} (h : beforeSub pat s = some p) : ∀ c ∈ p, c ∈ s := by
  induction s generalizing p with
  | nil =>
    unfold beforeSub at h
    split at h
    · cases h; exact (fun _ h => nomatch h)
    · cases h
  | cons a s ih =>
    unfold beforeSub at h
    split at h
    · cases h; exact (fun _ h => nomatch h)
    · rw [Option.map_eq_some_iff] at h
      obtain ⟨q, hq, rfl⟩ := h
      intro c hc
      rcases List.mem_cons.mp hc with rfl | hc
      · exact List.mem_cons_self ..
      · exact List.mem_cons_of_mem _ (ih hq c hc)

theorem xml_chars {s : String} {l : List Char} (h : s.toList = l) (hl : ∀ c ∈ l, XmlChar c) : XmlChars s := fun c hc => hl c (by rw [← h]; exact hc)

theorem relativePath_x {f d : String} (hf : XmlChars f) (h : relativePath f = .ok d) : XmlChars d := by
  unfold relativePath at h
  split at h
  · cases h
  · cases h; exact xlit (by decide +kernel)
  · next c cs e =>
    split at h
    · have h := Except.ok.inj h
      subst h
      refine xml_chars String.toList_ofList ?_
      intro k hk
      rcases List.mem_append.mp hk with hk | hk
      · exact hf k (beforeSub_mem e k ((List.dropLast_sublist _).subset hk))
      · rw [List.mem_singleton] at hk
        subst hk
        exact xlit (s := "/") (by decide +kernel) '/' (by decide +kernel)
    · cases h

theorem resolveTarget_x {f t p : String} (hf : XmlChars f) (ht : XmlChars t) (h : resolveTarget f t = .ok p) : XmlChars p := by
  unfold resolveTarget at h
  split at h
  · cases h
  · next d hd =>
    split at h
    · next rest e =>
      have h := Except.ok.inj h
      subst h
      refine xml_chars String.toList_ofList fun c hc => ht c ?_
      rw [e]
      exact List.mem_cons_of_mem _ hc
    · have h := Except.ok.inj h
      subst h
      exact xml_append (relativePath_x hf hd) ht

/-- The texts of a content type's entry. -/
def ContentX (c : Content) : Prop := XmlChars c.path ∧ XmlChars c.name ∧ XmlChars c.ext ∧ XmlChars c.type

theorem partPath_x {c : Content} (hc : ContentX c) {p n : Option String} (hp : OptX p) (hn : OptX n) : XmlChars (partPath c p n) := by
  have h1 : XmlChars (p.getD c.path) := by
    cases p with
    | none => exact hc.1
    | some v => exact hp v rfl
  have h2 : XmlChars (n.getD c.name) := by
    cases n with
    | none => exact hc.2.1
    | some v => exact hn v rfl
  exact xml_append (xml_append (xml_append (xml_append h1 (xlit (by decide +kernel))) h2) (xlit (by decide +kernel))) hc.2.2.1

theorem newRel_x {R : List Rel} (hR : ∀ r ∈ R, RelX r) {c : Content} (hc : ContentX c) {p n : Option String} (hp : OptX p) (hn : OptX n) :
    ∀ r ∈ (newRel R c p n).1, RelX r := by
  intro r hr
  rcases List.mem_append.mp hr with hr | hr
  · exact hR r hr
  · rw [List.mem_singleton] at hr
    subst hr
    exact ⟨xml_rId _, xml_append (xlit (by decide +kernel)) (partPath_x hc hp hn), hc.2.2.2, optX_none⟩

theorem targetByType_x {f : String} {R R' : List Rel} {t n : String} {c : Content} {dir nm : Option String} (hf : XmlChars f) (hR : ∀ r ∈ R, RelX r) (hc : ContentX c)
    (hp : OptX dir) (hn : OptX nm) (h : targetByType f R t c dir nm = (.ok n, R')) : XmlChars n ∧ ∀ r ∈ R', RelX r := by
  unfold targetByType at h
  split at h
  · next r hr =>
    simp only [Prod.mk.injEq] at h
    obtain ⟨h1, rfl⟩ := h
    exact ⟨resolveTarget_x hf (hR r (List.mem_of_find?_eq_some hr)).2.1 h1, hR⟩
  · simp only [Prod.mk.injEq, Except.ok.injEq] at h
    obtain ⟨rfl, rfl⟩ := h
    exact ⟨partPath_x hc hp hn, newRel_x hR hc hp hn⟩

theorem contentX_of {c : Content} (h : [c.path, c.name, c.ext, c.type].all (fun t => t.toList.all (fun x => decide (0x20 ≤ x.toNat ∧ x.toNat < 128))) = true) : ContentX c := by
  have := List.all_eq_true.mp h
  exact ⟨xlit (this _ (by simp)), xlit (this _ (by simp)), xlit (this _ (by simp)), xlit (this _ (by simp))⟩

theorem BookX.sheetFile {x : Excel} (h : BookX x) {name : Option String} (hn : OptX name) : BookX (x.sheetFile name).2 := by
  unfold Excel.sheetFile
  split
  · split <;> exact h
  · split
    · exact h
    · next dir hd =>
      have hdir := relativePath_x h.relsPath hd
      have hw : ContentX worksheetContent := contentX_of (by decide +kernel)
      refine ⟨?_, h.relsPath, newRel_x h.rels hw (optX_some (xml_append hdir hw.1)) (optX_some (xml_append hw.2.1 (xml_nat _))), h.root, h.view, h.styles, h.chain⟩
      intro e he
      rcases List.mem_append.mp he with he | he
      · exact h.sheets e he
      · rw [List.mem_singleton] at he
        subst he
        refine ⟨?_, xml_rId _⟩
        cases name with
        | none => exact xml_append hw.2.1 (xml_nat _)
        | some v => exact hn v rfl

theorem BookX.pkg {x : Excel} (h : BookX x) (p : Pkg) : BookX { x with pkg := p } := ⟨h.sheets, h.relsPath, h.rels, h.root, h.view, h.styles, h.chain⟩

theorem BookX.open {env : Env} {s : Session} (h : BookX s.x) {name : Option String} (hn : OptX name) : BookX (s.open env name).2.x := by
  unfold Session.open
  rw [openSheet_eq]
  have h1 := h.sheetFile hn
  cases hf : s.x.sheetFile name with
  | mk r x1 =>
    rw [hf] at h1
    cases r with
    | error e => exact h1
    | ok pn =>
      obtain ⟨path, nm⟩ := pn
      have h2 : BookX (openAt env x1 path nm).2 := by
        unfold openAt
        split
        · exact h1.pkg _
        · split
          · exact h1.pkg _
          · split
            · exact h1.pkg _
            · split
              · exact h1.pkg _
              · split <;> exact h1.pkg _
      simp only
      split <;> next e => rw [e] at h2; exact h2

theorem BookX.step {env : Env} {s : Session} {op : WbOp} (h : BookX s.x) (ht : ∀ t ∈ givenTexts op, XmlChars t) : BookX (s.step env op).2.x := by
  have hsheets : ∀ l : List SheetEntry, (∀ e ∈ l, XmlChars e.name ∧ XmlChars e.relId) → BookX { s.x with sheets := l } :=
    fun l hl => ⟨hl, h.relsPath, h.rels, h.root, h.view, h.styles, h.chain⟩
  cases op with
  | add name => exact h.open fun t ht' => ht t (by rw [givenTexts, Option.mem_toList]; exact ht')
  | get m => exact h.open (optX_some (ht m (by simp [givenTexts])))
  | sheet i op =>
    unfold Session.step
    simp only
    split
    · exact h
    · split <;> exact ⟨h.sheets, h.relsPath, h.rels, h.root, h.view, h.styles, h.chain⟩
  | drop i =>
    unfold Session.step
    simp only
    split
    · exact h
    · exact ⟨h.sheets, h.relsPath, h.rels, h.root, h.view, h.styles, h.chain⟩
  | delete i =>
    unfold Session.step
    simp only
    split
    · exact h
    · exact ⟨fun e he => h.sheets e (List.mem_filter.mp he).1, h.relsPath, fun e he => h.rels e (List.mem_filter.mp he).1, h.root, h.view, h.styles, h.chain⟩
  | rename old new =>
    simp only [Session.step]
    rcases renameSheet_cases s.x.sheets old new with ⟨_, m, e⟩ | ⟨_, a, en, b, h1, _, _, e⟩
    · rw [e]; exact h
    · rw [e]
      apply hsheets
      have hs := h.sheets
      rw [h1] at hs
      intro e' he'
      rcases List.mem_append.mp he' with hm | hm
      · exact hs e' (List.mem_append_left _ hm)
      · rcases List.mem_cons.mp hm with hm | hm
        · subst hm
          exact ⟨ht new (by simp [givenTexts]), (hs en (by simp)).2⟩
        · exact hs e' (List.mem_append_right _ (List.mem_cons_of_mem _ hm))
  | active m =>
    apply hsheets
    intro e' he'
    obtain ⟨e, he, rfl⟩ := List.mem_map.mp he'
    exact h.sheets e he
  | hide m =>
    apply hsheets
    intro e' he'
    obtain ⟨e, he, rfl⟩ := List.mem_map.mp he'
    have := h.sheets e he
    first | exact this | (split <;> exact this)
  | view v => exact ⟨h.sheets, h.relsPath, h.rels, h.root, viewX_run v h.view, h.styles, h.chain⟩
  | style g st =>
    simp only [Session.step]
    split
    · exact h
    · next hg => exact ⟨h.sheets, h.relsPath, h.rels, h.root, h.view, h.styles.get ht hg, h.chain⟩

theorem BookX.run {env : Env} {ops : List WbOp} {s s' : Session} (hr : s.run env ops = .ok s') (hs : BookX s.x) (ho : ∀ op ∈ ops, ∀ t ∈ givenTexts op, XmlChars t) :
    BookX s'.x := by
  induction ops generalizing s with
  | nil => cases hr; exact hs
  | cons op ops ih => exact ih (run_cons hr) (hs.step (ho op (by simp))) (fun o h => ho o (by simp [h]))

/-! ## Styles as loaded -/

theorem DeepX.attr? {n : Node} (h : DeepX n) (k : String) : OptX (n.attr? k) := by
  cases ha : n.attrs with
  | none => unfold Node.attr?; rw [ha]; exact optX_none
  | some a => unfold Node.attr?; rw [ha]; exact h.attr ha k

theorem none_x : ∀ c ∈ (none : Option Color), XmlChars c.value := fun _ h => nomatch h

theorem loadColor_x {n : Node} (h : DeepX n) : ∀ c ∈ loadColor n, XmlChars c.value := by
  intro c hc
  unfold loadColor at hc
  split at hc
  · next v hv => cases hc; exact h.attr? _ v hv
  · split at hc
    · next v hv => cases hc; exact h.attr? _ v hv
    · rw [Option.mem_def, Option.map_eq_some_iff] at hc
      obtain ⟨v, hv, rfl⟩ := hc
      exact h.attr? _ v hv

/-- The texts of a font. -/
def FontX (f : Font) : Prop := XmlChars f.name ∧ XmlChars f.color.value

theorem loadFontItem_x {f f' : Font} {n : Node} (hn : DeepX n) (hf : FontX f) (h : loadFontItem f n = .ok f') : FontX f' := by
  unfold loadFontItem at h
  split at h
  · cases h; exact hf
  · split at h
    · cases h; exact hf
    · split at h
      · cases h; exact hf
      · split at h
        · split at h
          · cases h; exact hf
          · split at h
            · cases h
            · cases h; exact hf
        · split at h
          · cases h
            refine ⟨hf.1, ?_⟩
            show XmlChars ((loadColor n).getD f.color).value
            cases hc : loadColor n with
            | none => exact hf.2
            | some c => exact loadColor_x hn c hc
          · split at h
            · cases h
              refine ⟨?_, hf.2⟩
              show XmlChars ((n.attr? "val").getD f.name)
              cases hc : n.attr? "val" with
              | none => exact hf.1
              | some c => exact hn.attr? _ c hc
            · split at h
              · split at h
                · cases h; exact hf
                · split at h
                  · cases h
                  · cases h; exact hf
              · split at h
                · cases h; exact hf
                · cases h

theorem loadFontItems_x {f f' : Font} {ns : List Node} (hn : ∀ n ∈ ns, DeepX n) (hf : FontX f) (h : loadFontItems f ns = .ok f') : FontX f' := by
  induction ns generalizing f with
  | nil => cases h; exact hf
  | cons n ns ih =>
    unfold loadFontItems at h
    split at h
    · cases h
    · next e => exact ih (fun m hm => hn m (List.mem_cons_of_mem _ hm)) (loadFontItem_x (hn n (List.mem_cons_self ..)) hf e) h

/-- The texts of a fill. -/
def FillX (f : Fill) : Prop := (∀ c ∈ f.background, XmlChars c.value) ∧ ∀ c ∈ f.foreground, XmlChars c.value

theorem orElse_x {o o' : Option Color} (h : ∀ c ∈ o, XmlChars c.value) (h' : ∀ c ∈ o', XmlChars c.value) : ∀ c ∈ o.orElse (fun _ => o'), XmlChars c.value := by
  cases o with
  | none => exact h'
  | some c => exact h

theorem loadFillItems_x {f f' : Fill} {ns : List Node} (hn : ∀ n ∈ ns, DeepX n) (hf : FillX f) (h : loadFillItems f ns = .ok f') : FillX f' := by
  induction ns generalizing f with
  | nil => cases h; exact hf
  | cons n ns ih =>
    unfold loadFillItems at h
    split at h
    · cases h
    · next e =>
      refine ih (fun m hm => hn m (List.mem_cons_of_mem _ hm)) ?_ h
      have hx := loadColor_x (hn n (List.mem_cons_self ..))
      unfold loadFillItem at e
      split at e
      · cases e; exact hf
      · split at e
        · cases e; exact ⟨hf.1, orElse_x hx hf.2⟩
        · split at e
          · cases e; exact ⟨orElse_x hx hf.1, hf.2⟩
          · cases e

theorem loadFill_x {f : Fill} {n : Node} (hn : DeepX n) (h : loadFill n = .ok f) : FillX f := by
  unfold loadFill at h
  split at h
  · cases h; exact ⟨none_x, none_x⟩
  · next p hp =>
    split at h
    · cases h; exact ⟨none_x, none_x⟩
    · exact loadFillItems_x (fun m hm => (hn.child (List.mem_of_mem_head? hp)).child hm) ⟨none_x, none_x⟩ h

theorem loadSide_x {s : BorderSide} {n : Node} (hn : DeepX n) (hs : SideX s) : SideX (loadSide s n) := by
  unfold loadSide
  split
  · exact hs
  · split
    · split
      · exact hs
      · next c hc => exact orElse_x (loadColor_x (hn.child (List.mem_of_mem_head? hc))) hs
    · exact hs

/-- The texts of a border. -/
def BorderX (b : Border) : Prop := SideX b.left ∧ SideX b.right ∧ SideX b.top ∧ SideX b.bottom ∧ SideX b.diagonal

theorem loadBorderItems_x {f f' : Border} {ns : List Node} (hn : ∀ n ∈ ns, DeepX n) (hf : BorderX f) (h : loadBorderItems f ns = .ok f') : BorderX f' := by
  induction ns generalizing f with
  | nil => cases h; exact hf
  | cons n ns ih =>
    unfold loadBorderItems at h
    split at h
    · cases h
    · next e =>
      refine ih (fun m hm => hn m (List.mem_cons_of_mem _ hm)) ?_ h
      have hx := hn n (List.mem_cons_self ..)
      obtain ⟨h1, h2, h3, h4, h5⟩ := hf
      unfold loadBorderItem at e
      split at e
      · cases e; exact ⟨loadSide_x hx h1, h2, h3, h4, h5⟩
      · split at e
        · cases e; exact ⟨h1, loadSide_x hx h2, h3, h4, h5⟩
        · split at e
          · cases e; exact ⟨h1, h2, loadSide_x hx h3, h4, h5⟩
          · split at e
            · cases e; exact ⟨h1, h2, h3, loadSide_x hx h4, h5⟩
            · split at e
              · cases e; exact ⟨h1, h2, h3, h4, loadSide_x hx h5⟩
              · cases e

theorem lastWith_x {x : XDoc} {tag : String} (h : ∀ n ∈ x.rootChildren, DeepX n) : ∀ n ∈ lastWith x tag, DeepX n := by
  unfold lastWith
  split
  · exact (fun _ h => nomatch h)
  · next n hn => exact fun m hm => (h n (List.mem_filter.mp (List.mem_of_mem_getLast? hn)).1).child hm

theorem stylesX_load {x : XDoc} {st : Styles} (hx : ∀ n ∈ x.rootChildren, DeepX n) (h : (Styles.load x).1 = .ok st) : StylesX st := by
  unfold Styles.load at h
  split at h
  · next e1 e2 e3 e4 e5 e6 =>
    have h := Except.ok.inj h
    subst h
    refine ⟨?_, ?_, ?_, ?_⟩
    · intro f hf
      obtain ⟨o, ho, e⟩ := List.mem_filterMap.mp hf
      obtain ⟨n, hn, e'⟩ := mapRes_mem e1 o ho
      have e : o = some f := e
      subst e
      have hd := lastWith_x hx n hn
      unfold loadNumFmt at e'
      split at e'
      · cases e'
      · next a ha =>
        split at e'
        · cases e'
        · split at e'
          · cases e'
          · split at e'
            · cases e'
            · next code hcode => cases e'; exact hd.attr ha _ code hcode
    · intro f hf
      obtain ⟨n, hn, e'⟩ := mapRes_mem e2 f hf
      exact loadFontItems_x (fun m hm => (lastWith_x hx n hn).child hm) ⟨xlit (by decide +kernel), xlit (by decide +kernel)⟩ e'
    · intro f hf
      obtain ⟨n, hn, e'⟩ := mapRes_mem e3 f hf
      exact loadFill_x (lastWith_x hx n hn) e'
    · intro f hf
      obtain ⟨n, hn, e'⟩ := mapRes_mem e4 f hf
      exact loadBorderItems_x (f := {}) (fun m hm => (lastWith_x hx n hn).child hm) ⟨none_x, none_x, none_x, none_x, none_x⟩ e'
  all_goals cases h

/-! ## Documents -/

/-- A document all of whose texts are of XML characters, deeply. -/
def DeepDoc (x : XDoc) : Prop :=
  ∃ t a cs, WfDoc asciiOnly x (.mk t a none cs) ∧ (∀ kv ∈ x.ns, UriXml kv.2) ∧ AttrsX a ∧ ∀ c ∈ cs, DeepX c

theorem DeepDoc.docX {x : XDoc} (h : DeepDoc x) : DocX x := by
  obtain ⟨t, a, cs, h1, h2, h3, h4⟩ := h
  exact ⟨t, a, cs, h1, h2, h3, fun c hc => DeepX.nodeX c (h4 c hc)⟩

theorem DeepDoc.children {x : XDoc} (h : DeepDoc x) : ∀ n ∈ x.rootChildren, DeepX n := by
  obtain ⟨t, a, cs, h1, _, _, h4⟩ := h
  have : x.rootChildren = cs := by unfold XDoc.rootChildren; rw [h1.isRoot]; rfl
  rw [this]
  exact h4

mutual
/-- Plain texts everywhere. -/
def plainDeep : Node → Bool
  | .mk _ a v cs => (a.getD []).all (fun kv => kv.2.toList.all (fun x => decide (0x20 ≤ x.toNat ∧ x.toNat < 128))) &&
      v.toList.all (fun v => v.toList.all (fun x => decide (0x20 ≤ x.toNat ∧ x.toNat < 128))) && plainDeeps cs
def plainDeeps : List Node → Bool
  | [] => true
  | c :: cs => plainDeep c && plainDeeps cs
end

mutual
theorem plainDeep_x : ∀ n : Node, plainDeep n = true → DeepX n
  | .mk _ a v cs, h => by
    simp only [plainDeep, Bool.and_eq_true] at h
    refine ⟨fun kv hkv => xlit (List.all_eq_true.mp h.1.1 kv hkv), fun w hw => xlit (List.all_eq_true.mp h.1.2 w (Option.mem_toList.mpr hw)), plainDeeps_x cs h.2⟩
theorem plainDeeps_x : ∀ cs : List Node, plainDeeps cs = true → DeepXs cs
  | [], _ => trivial
  | c :: cs, h => by
    simp only [plainDeeps, Bool.and_eq_true] at h
    exact ⟨plainDeep_x c h.1, plainDeeps_x cs h.2⟩
end

theorem deepDoc_of {x : XDoc} (hw : ∃ t a cs, WfDoc asciiOnly x (.mk t a none cs)) (hp : ∀ r ∈ x.root, plainDeep r = true)
    (hu : ∀ kv ∈ x.ns, kv.2.toList.all (fun x => decide (0x20 ≤ x.toNat ∧ x.toNat < 128)) = true ∧ '<' ∉ kv.2.toList ∧ '&' ∉ kv.2.toList) : DeepDoc x := by
  obtain ⟨t, a, cs, h⟩ := hw
  have := plainDeep_x _ (hp _ h.isRoot)
  exact ⟨t, a, cs, h, fun kv hkv => ⟨xlit (hu kv hkv).1, (hu kv hkv).2⟩, this.1, deepXs_iff.mp this.2.2⟩

theorem deepDoc_styles : DeepDoc styleDoc := deepDoc_of (wf_styleDoc _) (by decide +kernel) (by decide +kernel)
theorem deepDoc_calc : DeepDoc calcTemplate.doc := deepDoc_of ⟨_, _, _, wf_calcTemplate _⟩ (by decide +kernel) (by decide +kernel)
theorem deepDoc_rels : DeepDoc relsTemplate.doc := deepDoc_of ⟨"Relationships", some [], [], wfDoc_template (by decide +kernel) (by decide +kernel)⟩ (by decide +kernel) (by decide +kernel)
theorem deepDoc_book : DeepDoc workbookDoc := deepDoc_of ⟨_, _, _, wf_workbookDoc _⟩ (by decide +kernel) (by decide +kernel)
theorem deepDoc_core : DeepDoc coreDoc := deepDoc_of (wf_coreDoc _) (by decide +kernel) (by decide +kernel)

/-- The styles part as saved. -/
theorem docX_stylesOf {x d : XDoc} {st st' : Styles} (hx : DeepDoc x) (hl : (Styles.load x).1 = .ok st) (hs : StylesX st') (h : st'.save (Styles.load x).2 = .ok d) :
    DocX d := by
  obtain ⟨t, a, cs, hw, hu, ha, hc⟩ := hx
  have e : (Styles.load x).2 = x.mapRootChildren (fun cs => cs.filter (fun n => n.tag ∉ styleTags)) := by
    unfold Styles.load at hl ⊢
    split at hl
    · rfl
    all_goals cases hl
  rw [e] at h
  have hw' := wf_filter hw (fun n => n.tag ∉ styleTags)
  unfold Styles.save at h
  rw [hw'.isRoot] at h
  cases h
  refine DocX.withChildren hw' hu ha rfl (wf_placeStyles st' (fun n hn => by simpa using (List.mem_filter.mp hn).2) ?_) (hs.place ?_)
  · exact wfNodes_iff.mpr fun c hc => wfNodes_iff.mp hw.names.2.2 c (List.mem_filter.mp hc).1
  · exact fun c hm => DeepX.nodeX c (hc c (List.mem_filter.mp hm).1)

/-- The chain as loaded. -/
theorem chainX_load {x : XDoc} {l : List CalcEntry} (hx : ∀ n ∈ x.rootChildren, DeepX n) (hl : (loadCalc x).1 = .ok l) : ∀ e ∈ l, XmlChars e.1 ∧ XmlChars e.2.1 := by
  intro e he
  unfold loadCalc at hl
  obtain ⟨n, hn, e'⟩ := mapRes_mem hl e he
  have hd : DeepX n := by
    have := (List.mem_filter.mp hn).1
    unfold XDoc.popTag at this
    exact hx n (List.mem_filter.mp this).1
  cases hat : n.attrs with
  | none => rw [hat] at e'; cases e'
  | some a =>
    rw [hat] at e'
    simp only [Option.getD_some] at e'
    split at e'
    · next r i hr hi => cases e'; exact ⟨hd.attr hat _ _ hr, hd.attr hat _ _ hi⟩
    · cases e'

/-- The calculation chain as saved. -/
theorem docX_chainOf {x d : XDoc} {l : List CalcEntry} (hx : DeepDoc x) (hl : ∀ e ∈ l, XmlChars e.1 ∧ XmlChars e.2.1)
    (h : if l = [] then d = (loadCalc x).2 else saveCalc (loadCalc x).2 l = .ok d) : DocX d := by
  obtain ⟨t, a, cs, hw, hu, ha, hc⟩ := hx
  have hw' : WfDoc asciiOnly (loadCalc x).2 (.mk t a none (cs.filter (fun n => n.tag ≠ "c"))) := wf_filter hw _
  have hc' : ∀ c ∈ cs.filter (fun n => n.tag ≠ "c"), NodeX c := fun c hm => DeepX.nodeX c (hc c (List.mem_filter.mp hm).1)
  split at h
  · rw [h]; exact ⟨t, a, _, hw', hu, ha, hc'⟩
  · next hne =>
    have hns : d.ns = x.ns := by
      unfold saveCalc at h
      rw [appendAll_doc hw'.isRoot] at h
      cases h
      rfl
    refine ⟨t, a, _, (wf_calc hw' hne h).1, by rw [hns]; exact hu, ha, nodesX_append hc' (nodesX_map fun e he => nodeX_mk ?_ nodesX_nil)⟩
    exact attrsX_cons (hl e he).1 (attrsX_one (hl e he).2)

/-! ## Relationships -/

theorem relsX_load {x : XDoc} {l : List Rel} (hx : ∀ n ∈ x.rootChildren, DeepX n) (hl : (loadRels x).1 = .ok l) : ∀ r ∈ l, RelX r := by
  intro r hr
  unfold loadRels at hl
  obtain ⟨n, hn, e'⟩ := mapRes_mem hl r hr
  have hd : DeepX n := by
    unfold XDoc.popTag at hn
    exact hx n (List.mem_filter.mp hn).1
  unfold loadRel at e'
  split at e'
  · cases e'
  · next a hat =>
    split at e'
    · next i t y hi ht hy => cases e'; exact ⟨hd.attr hat _ _ hi, hd.attr hat _ _ ht, hd.attr hat _ _ hy, hd.attr hat _⟩
    all_goals cases e'

theorem nodeX_rel {r : Rel} (h : RelX r) : NodeX (relNode r) := by
  obtain ⟨h1, h2, h3, h4⟩ := h
  unfold relNode
  refine nodeX_mk ?_ nodesX_nil
  cases hm : r.mode with
  | none => exact attrsX_cons h1 (attrsX_cons h2 (attrsX_one h3))
  | some m => exact attrsX_cons h1 (attrsX_cons h2 (attrsX_cons h3 (attrsX_one (h4 m hm))))

/-- A relationship part as saved. -/
theorem docX_relsOf {x d : XDoc} {l : List Rel} {k : Bool} (hx : DeepDoc x) (hl : ∀ r ∈ l, RelX r) (h : saveRels (loadRels x).2 l = .ok (d, k)) : DocX d := by
  obtain ⟨t, a, cs, hw, hu, ha, hc⟩ := hx
  have hw' : WfDoc asciiOnly (loadRels x).2 (.mk t a none (cs.filter (fun n => n.tag ≠ "Relationship"))) := wf_filter hw _
  have hc' : ∀ c ∈ cs.filter (fun n => n.tag ≠ "Relationship"), NodeX c := fun c hm => DeepX.nodeX c (hc c (List.mem_filter.mp hm).1)
  unfold saveRels at h
  rw [hw'.isRoot] at h
  simp only [appendAll_doc hw'.isRoot, Except.ok.injEq, Prod.mk.injEq] at h
  rw [← h.1]
  refine ⟨t, a, _, wfDoc_append hw' (wfNodes_iff.mpr ?_), hu, ha, nodesX_append hc' (nodesX_map fun r hr => nodeX_rel (hl r hr))⟩
  intro c hm
  obtain ⟨r, _, rfl⟩ := List.mem_map.mp hm
  exact wf_relNode _ r

/-! ## The workbook -/

theorem loadBookViews_x {v v' : Option BookView} {ns : List Node} (hv : ∀ w ∈ v, BookViewX w) (hn : ∀ n ∈ ns, DeepX n) (h : loadBookViews v ns = .ok v') :
    ∀ w ∈ v', BookViewX w := by
  induction ns generalizing v with
  | nil => cases h; exact hv
  | cons n ns ih =>
    have hn' : ∀ m ∈ ns, DeepX m := fun m hm => hn m (List.mem_cons_of_mem _ hm)
    unfold loadBookViews at h
    split at h
    · exact ih hv hn' h
    · next a hat =>
      split at h
      · cases h
      · next w hw =>
        refine ih ?_ hn' h
        rintro _ ⟨⟩
        unfold loadBookView at hw
        split at hw
        · cases hw
        · cases hw
          have hd := hn n (List.mem_cons_self ..)
          exact ⟨hd.attr hat _, hd.attr hat _, hd.attr hat _⟩

theorem lastChildren_x {l : List Node} (h : ∀ n ∈ l, DeepX n) : ∀ c ∈ (l.getLast?.map Node.children).getD [], DeepX c := by
  cases hl : l.getLast? with
  | none => exact (fun _ h => nomatch h)
  | some n => exact fun c hc => (h n (List.mem_of_mem_getLast? hl)).child hc

theorem bookX_load {x : XDoc} {l : List SheetEntry} {v : Option BookView} (hx : DeepDoc x) (h : (loadBook x).1 = .ok (l, v)) :
    (∀ e ∈ l, XmlChars e.name ∧ XmlChars e.relId) ∧ (∀ w ∈ v, BookViewX w) ∧
      ∃ t a cs, WfDoc asciiOnly (loadBook x).2 (.mk t a none cs) ∧ (∀ kv ∈ (loadBook x).2.ns, UriXml kv.2) ∧ AttrsX a ∧ (∀ n ∈ cs, n.tag ∉ bookTags) ∧ ∀ c ∈ cs, NodeX c := by
  obtain ⟨t, a, cs, hw, hu, ha, hc⟩ := hx
  have hch : x.rootChildren = cs := by unfold XDoc.rootChildren; rw [hw.isRoot]; rfl
  have hw1 : WfDoc asciiOnly (x.popTag "bookViews").2 (.mk t a none (cs.filter (fun n => n.tag ≠ "bookViews"))) := wf_filter hw _
  have hch1 : (x.popTag "bookViews").2.rootChildren = cs.filter (fun n => n.tag ≠ "bookViews") := by unfold XDoc.rootChildren; rw [hw1.isRoot]; rfl
  have hw2 : WfDoc asciiOnly ((x.popTag "bookViews").2.popTag "sheets").2 (.mk t a none ((cs.filter (fun n => n.tag ≠ "bookViews")).filter (fun n => n.tag ≠ "sheets"))) :=
    wf_filter hw1 _
  have p1 : ∀ n ∈ (x.popTag "bookViews").1, DeepX n := by
    intro n hn
    have : n ∈ x.rootChildren := (List.mem_filter.mp hn).1
    rw [hch] at this
    exact hc n this
  have p2 : ∀ n ∈ ((x.popTag "bookViews").2.popTag "sheets").1, DeepX n := by
    intro n hn
    have : n ∈ (x.popTag "bookViews").2.rootChildren := (List.mem_filter.mp hn).1
    rw [hch1] at this
    exact hc n (List.mem_filter.mp this).1
  unfold loadBook at h ⊢
  simp only at h ⊢
  split at h
  · cases h
  · next view hv =>
    split at h
    · cases h
    · next sheets hs =>
      cases h
      refine ⟨?_, loadBookViews_x (v := none) (by intro w h; cases h) (lastChildren_x p1) hv, t, a, _, hw2, hu, ha, ?_, ?_⟩
      · intro e he
        obtain ⟨at', hat, e'⟩ := mapRes_mem hs e he
        obtain ⟨n, hn, hna⟩ := List.mem_filterMap.mp hat
        have hd := lastChildren_x p2 n hn
        unfold loadSheetEntry at e'
        split at e'
        · cases e'
        · next nm hnm =>
          split at e'
          · cases e'
          · next id hid => cases e'; exact ⟨hd.attr hna _ _ hnm, hd.attr hna _ _ hid⟩
      · intro n hn
        have h1 := List.mem_filter.mp hn
        have h2 := List.mem_filter.mp h1.1
        simp only [bookTags, List.mem_cons, List.not_mem_nil, or_false, not_or]
        exact ⟨by simpa using h2.2, by simpa using h1.2⟩
      · exact fun c hm => DeepX.nodeX c (hc c (List.mem_filter.mp (List.mem_filter.mp hm).1).1)

/-- The workbook part as saved. -/
theorem docX_bookOf {x d : XDoc} {l l' : List SheetEntry} {v v' : Option BookView} (hx : DeepDoc x) (hl : (loadBook x).1 = .ok (l, v))
    (hs : ∀ e ∈ l', XmlChars e.name ∧ XmlChars e.relId) (hv : ∀ w ∈ v', BookViewX w) (h : saveBook l' v' (loadBook x).2 = .ok d) : DocX d := by
  obtain ⟨-, -, t, a, cs, hw, hu, ha, hc, hcx⟩ := bookX_load hx hl
  unfold saveBook at h
  rw [hw.isRoot] at h
  cases h
  refine ⟨t, a, _, (wf_savedBook asciiOnly hw hc).1, hu, ha, ?_⟩
  unfold placeBook
  simp only
  refine nodesX_perm (orderChildren_perm _ _ _) (nodesX_insert (nodeX_mk attrsX_none ?_) ?_)
  · intro c hc
    obtain ⟨i, e, he, rfl⟩ := mem_sheetNodes _ _ _ hc
    exact nodeX_mk (attrsX_present ⟨optX_some (hs e he).1, optX_some (xml_nat _), optX_some (hs e he).2, optX_if (xlit (by decide +kernel)), trivial⟩) nodesX_nil
  · cases v' with
    | none => exact hcx
    | some w => exact nodesX_insert (nodeX_mk attrsX_none (nodesX_one (nodeX_bookView (hv w rfl)))) hcx

theorem DeepX.withValue {n : Node} {v : String} (h : DeepX n) (hv : XmlChars v) : DeepX (n.withValue v) := by
  obtain ⟨t, a, w, cs⟩ := n
  exact ⟨h.1, optX_some hv, h.2.2⟩

theorem mapFirst_x {p : Node → Bool} {f : Node → Node} (hf : ∀ n, DeepX n → DeepX (f n)) {l : List Node} (h : ∀ n ∈ l, DeepX n) : ∀ n ∈ mapFirst p f l, DeepX n := by
  induction l with
  | nil => exact h
  | cons c l ih =>
    unfold mapFirst
    have h1 := h c (List.mem_cons_self ..)
    have h2 : ∀ n ∈ l, DeepX n := fun n hn => h n (List.mem_cons_of_mem _ hn)
    split
    · exact List.forall_mem_cons.mpr ⟨hf c h1, h2⟩
    · exact List.forall_mem_cons.mpr ⟨h1, ih h2⟩

theorem mapCoreItem_x {tag : String} {f : Node → Node} (hf : ∀ n, DeepX n → DeepX (f n)) {n : Node} (h : DeepX n) : DeepX (n.mapCoreItem tag f) := by
  have item : ∀ m : Node, DeepX m → ∀ (p : Node → Bool) (g : Node → Node), (∀ n, DeepX n → DeepX (g n)) → DeepX (m.withChildren (mapFirst p g m.children)) := by
    intro m hm p g hg
    obtain ⟨t, a, w, cs⟩ := m
    exact ⟨hm.1, hm.2.1, deepXs_iff.mpr (mapFirst_x hg (deepXs_iff.mp hm.2.2))⟩
  unfold Node.mapCoreItem
  simp only
  split
  · exact item n h _ _ hf
  · exact item n h _ _ (fun m hm => item m hm _ _ hf)

/-- The core properties as saved. -/
theorem docX_coreOf {x d : XDoc} {now : String} (hx : DeepDoc x) (hn : XmlChars now) (h : saveCore now now x = .ok d) : DocX d := by
  obtain ⟨t, a, cs, hw, hu, ha, hc⟩ := hx
  unfold saveCore at h
  rw [hw.isRoot] at h
  have h := Except.ok.inj h
  have hf : ∀ n, DeepX n → DeepX (match n.value with | some _ => n | none => n.withValue now) := by
    intro n h
    split
    · exact h
    · exact h.withValue hn
  obtain ⟨c1, e1, w1, -⟩ := mapCoreItem_root hw.names "dcterms:modified" (f := fun n => n.withValue now) (fun n hn => wfNode_withValue hn _)
  obtain ⟨c2, e2, w2, -⟩ := mapCoreItem_root w1 "dcterms:created" (f := fun n => match n.value with | some _ => n | none => n.withValue now) (by
    intro n hn
    split
    · exact hn
    · exact wfNode_withValue hn _)
  have d1 : DeepX (.mk t a none c1) := by
    rw [← e1]
    exact mapCoreItem_x (fun n h => h.withValue hn) ⟨ha, optX_none, deepXs_iff.mpr hc⟩
  have d2 : DeepX (.mk t a none c2) := by
    rw [← e2]
    exact mapCoreItem_x hf d1
  rw [e1] at h
  have h := (congrArg (fun n => ({ ns := x.ns, root := some n } : XDoc)) e2).symm.trans h
  rw [← h]
  exact ⟨t, a, c2, ⟨rfl, w2, hw.ns, hw.uris⟩, hu, ha, fun c hm => DeepX.nodeX c (deepXs_iff.mp d2.2.2 c hm)⟩

end Oxml
