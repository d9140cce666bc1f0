import Verif.Proofs.FileParts
/-!
# Lemmas for C104: what a session keeps
-/
namespace Oxml
open Spec

variable {env : Env} {theme : XDoc}

/-- Everything a session holds can be written as XML. -/
structure FileX (env : Env) (s : Session) : Prop where
  strings : ∀ t ∈ s.x.strings.data, XmlChars t
  sheets : ∀ e ∈ s.x.sheets, XmlChars e.name ∧ XmlChars e.relId
  rels : ∀ r ∈ s.x.rels.rels, RelX r
  view : ∀ v ∈ s.x.view, BookViewX v
  styles : StylesX s.x.styles.data
  handles : ∀ h ∈ s.handles, SheetX h.data
  closed : ∀ k e, aget (sheetName k) s.x.pkg.archive = some e → ∃ (sh : Sheet) (xd : XDoc), sh.save bareDoc = .ok xd ∧ e = sheetPart env xd ∧ DocX xd
  opened : ∀ k o, aget (sheetName k) s.x.pkg.opened = some o → DocX o.doc

theorem xml_rId (m : Nat) : XmlChars (rId m) := xml_append (xlit (by decide +kernel)) (xml_nat m)

theorem xml_sheetName (k : Nat) : XmlChars (sheetName k) := xml_append (xml_append (xlit (by decide +kernel)) (xml_nat k)) (xlit (by decide +kernel))

theorem xml_sheetRelsName (k : Nat) : XmlChars (sheetRelsName k) := xml_append (xml_append (xlit (by decide +kernel)) (xml_nat k)) (xlit (by decide +kernel))

theorem relX_sheet (m k : Nat) : RelX (sheetRel (rId m) k) :=
  ⟨xml_rId m, xml_append (xlit (by decide +kernel)) (xml_sheetName k), xlit (s := worksheetContent.type) (by decide +kernel), optX_none⟩

theorem viewX_run {v : Option BookView} (op : ViewOp) (h : ∀ w ∈ v, BookViewX w) : ∀ w ∈ op.run v, BookViewX w := by
  have hd : BookViewX (v.getD {}) := by
    cases v with
    | none => exact ⟨optX_none, optX_none, optX_none⟩
    | some w => exact h w rfl
  cases op with
  | visibility b =>
    rintro _ ⟨⟩
    refine ⟨hd.1, hd.2.1, optX_some ?_⟩
    cases b <;> exact xlit (by decide +kernel)
  | minimize b => rintro _ ⟨⟩; exact hd
  | hideTabs b => rintro _ ⟨⟩; exact hd
  | hideVertical b => rintro _ ⟨⟩; exact hd
  | hideHorizontal b => rintro _ ⟨⟩; exact hd

theorem FileX.open {s : Session} (hst : env.build.release = true → StampOk env.stamp) (hI : SessInv env theme s) (h : FileX env s) (name : Option String)
    (hn : OptX name) : FileX env (s.open env name).2 := by
  have hc := BookInv.openCase hst hI name
  have hl : (∀ e ∈ (listed s.x name).sheets, XmlChars e.name ∧ XmlChars e.relId) ∧ ∀ r ∈ (listed s.x name).rels.rels, RelX r := by
    constructor
    · intro e he
      rcases List.mem_append.mp he with he | he
      · exact h.sheets e he
      · rw [List.mem_singleton] at he
        subst he
        refine ⟨?_, xml_rId _⟩
        cases name with
        | none => exact xml_append (xlit (by decide +kernel)) (xml_nat _)
        | some n => exact hn n rfl
    · intro r hr
      rcases List.mem_append.mp hr with hr | hr
      · exact h.rels r hr
      · rw [List.mem_singleton] at hr
        subst hr
        exact relX_sheet _ _
  unfold Session.open
  cases hos : s.x.openSheet env name with
  | mk r x1 =>
    rw [hos] at hc
    cases hc with
    | fresh p' h1 h2 h3 ha ho =>
      refine ⟨h.strings, hl.1, hl.2, h.view, h.styles, ?_, ?_, ?_⟩
      · intro g hg
        rcases List.mem_append.mp hg with hg | hg
        · exact h.handles g hg
        · rw [List.mem_singleton.mp hg]; exact sheetX_empty
      · intro k e he
        exact h.closed k e ((ha _).symm.trans he)
      · intro k o hk
        have hk := (ho _).symm.trans hk
        split at hk
        · cases hk; exact docX_bare
        · rw [if_neg (sheetName_ne_rels _ _)] at hk
          exact h.opened k o hk
    | busyNew o h1 h2 => exact ⟨h.strings, hl.1, hl.2, h.view, h.styles, h.handles, h.closed, h.opened⟩
    | dangling m h1 h2 => exact h
    | busyOld m k' o h1 h2 h3 => exact h
    | reopened m k' sh' xd' p' h1 h2 h3 h4 h5 h6 h7 =>
      refine ⟨h.strings, h.sheets, h.rels, h.view, h.styles, h.handles, ?_, ?_⟩
      · intro k e he
        have he := (h6 _).symm.trans he
        split at he
        · cases he
        · exact h.closed k e he
      · intro k o hk
        have hk := (h7 _).symm.trans hk
        split at hk
        · cases hk
          obtain ⟨sh, xd, e1, e2, e3⟩ := h.closed k' _ h4
          have := sheetPart_inj hst h3 e1 e2
          simp only [openFrom]
          rw [this]
          exact e3.reload _
        · exact h.opened k o hk

theorem FileX.drop {s : Session} (hI : SessInv env theme s) (h : FileX env s) {g : SheetHandle} (hg : g ∈ s.handles) {x' : Excel} {i : Nat}
    (ex : x'.pkg = dropSheet env s.x.pkg g) (h1 : x'.strings = s.x.strings) (h2 : ∀ e ∈ x'.sheets, e ∈ s.x.sheets) (h3 : ∀ r ∈ x'.rels.rels, r ∈ s.x.rels.rels)
    (h4 : x'.view = s.x.view) (h5 : x'.styles = s.x.styles) : FileX env ⟨x', s.handles.eraseIdx i⟩ := by
  have hb : BookInv env theme s.x s.handles := hI
  have hsub : ∀ g ∈ s.handles.eraseIdx i, SheetX g.data := fun g hg => h.handles g ((List.eraseIdx_sublist _ _).subset hg)
  have hpk : (∀ k e, aget (sheetName k) (dropSheet env s.x.pkg g).archive = some e → ∃ (sh : Sheet) (xd : XDoc), sh.save bareDoc = .ok xd ∧ e = sheetPart env xd ∧ DocX xd) ∧
      ∀ k o, aget (sheetName k) (dropSheet env s.x.pkg g).opened = some o → DocX o.doc := by
    obtain ⟨k', hk', hc⟩ := hb.sheets.dropCases hg
    rcases hc with ⟨_, _, _, e1⟩ | ⟨xd', q, hsv, _, e1, _, _, q1, q2⟩
    · rw [e1]; exact ⟨h.closed, h.opened⟩
    · rw [e1]
      constructor
      · intro k e he
        rw [q2] at he
        split at he
        · cases he
          exact ⟨_, _, hsv, rfl, (h.handles g hg).save hsv⟩
        · exact h.closed k e he
      · intro k o ho
        rw [q1] at ho
        split at ho
        · cases ho
        · exact h.opened k o ho
  exact ⟨by rw [h1]; exact h.strings, fun e he => h.sheets e (h2 e he), fun r hr => h.rels r (h3 r hr), by rw [h4]; exact h.view, by rw [h5]; exact h.styles, hsub,
    by rw [ex]; exact hpk.1, by rw [ex]; exact hpk.2⟩

theorem FileX.step {s : Session} (hst : env.build.release = true → StampOk env.stamp) (hI : SessInv env theme s) (h : FileX env s) (op : WbOp)
    (ht : ∀ t ∈ givenTexts op, XmlChars t) : FileX env (s.step env op).2 := by
  have hsheets : ∀ l : List SheetEntry, (∀ e ∈ l, XmlChars e.name ∧ XmlChars e.relId) → FileX env { s with x := { s.x with sheets := l } } :=
    fun l hl => ⟨h.strings, hl, h.rels, h.view, h.styles, h.handles, h.closed, h.opened⟩
  cases op with
  | add name => exact h.open hst hI name fun t ht' => ht t (by rw [givenTexts, Option.mem_toList]; exact ht')
  | get m => exact h.open hst hI (some m) (optX_some (ht m (by simp [givenTexts])))
  | sheet i o =>
    simp only [Session.step]
    split
    · exact h
    · next g hg =>
      split
      · exact h
      · next d table hr =>
        obtain ⟨r1, r2⟩ := (h.handles g (List.mem_of_getElem? hg)).run h.strings ht hr
        refine ⟨r2, h.sheets, h.rels, h.view, h.styles, ?_, h.closed, h.opened⟩
        intro g' hg'
        rcases List.mem_or_eq_of_mem_set hg' with h' | h'
        · exact h.handles g' h'
        · rw [h']; exact r1
  | drop i =>
    simp only [Session.step]
    split
    · exact h
    · next g hg => exact h.drop hI (List.mem_of_getElem? hg) rfl rfl (fun e he => he) (fun r hr => hr) rfl rfl
  | delete i =>
    simp only [Session.step]
    split
    · exact h
    · next g hg =>
      obtain ⟨k, _, e⟩ := hI.deleteEq (env := env) (List.mem_of_getElem? hg)
      refine h.drop hI (List.mem_of_getElem? hg) ?_ ?_ ?_ ?_ ?_ ?_ <;> rw [e]
      · intro e he; exact (List.mem_filter.mp he).1
      · intro e he; exact (List.mem_filter.mp he).1
  | rename old new =>
    simp only [Session.step]
    rcases renameSheet_cases s.x.sheets old new with ⟨_, m, e⟩ | ⟨_, a, en, b, h1, _, _, e⟩
    · rw [e]; exact h
    · rw [e]
      apply hsheets
      have hs := h.sheets
      rw [h1] at hs
      intro e' he'
      rcases List.mem_append.mp he' with hm | hm
      · exact hs e' (List.mem_append_left _ hm)
      · rcases List.mem_cons.mp hm with hm | hm
        · subst hm
          exact ⟨ht new (by simp [givenTexts]), (hs en (by simp)).2⟩
        · exact hs e' (List.mem_append_right _ (List.mem_cons_of_mem _ hm))
  | active m =>
    apply hsheets
    intro e' he'
    obtain ⟨e, he, rfl⟩ := List.mem_map.mp he'
    exact h.sheets e he
  | hide m =>
    apply hsheets
    intro e' he'
    obtain ⟨e, he, rfl⟩ := List.mem_map.mp he'
    have := h.sheets e he
    first | exact this | (split <;> exact this)
  | view v => exact ⟨h.strings, h.sheets, h.rels, viewX_run v h.view, h.styles, h.handles, h.closed, h.opened⟩
  | style g st =>
    simp only [Session.step]
    split
    · exact h
    · next styles _ hg => exact ⟨h.strings, h.sheets, h.rels, h.view, h.styles.get ht hg, h.handles, h.closed, h.opened⟩

theorem FileX.run (hst : env.build.release = true → StampOk env.stamp) (ops : List WbOp) {s s' : Session} (hI : SessInv env theme s) (h : FileX env s)
    (ht : ∀ op ∈ ops, ∀ t ∈ givenTexts op, XmlChars t) (hr : s.run env ops = .ok s') : FileX env s' := by
  induction ops generalizing s with
  | nil => cases hr; exact h
  | cons op ops ih =>
    exact ih (hI.step hst op) (h.step hst hI op (ht op (List.mem_cons_self ..))) (fun o ho => ht o (List.mem_cons_of_mem _ ho)) (run_cons hr)

theorem relX_base : ∀ r ∈ baseRels, RelX r := by
  intro r hr
  simp only [baseRels, List.mem_cons, List.not_mem_nil, or_false] at hr
  rcases hr with rfl | rfl | rfl | rfl <;> exact ⟨xlit (by decide +kernel), xlit (by decide +kernel), xlit (by decide +kernel), optX_none⟩

theorem relX_root : ∀ r ∈ rootRelsList, RelX r := by
  intro r hr
  simp only [rootRelsList, List.mem_cons, List.not_mem_nil, or_false] at hr
  rcases hr with rfl | rfl <;> exact ⟨xlit (by decide +kernel), xlit (by decide +kernel), xlit (by decide +kernel), optX_none⟩

theorem fileX_new : FileX env ⟨newExcel env theme, []⟩ := by
  refine ⟨(by intro t h; cases h), ?_, ?_, (by intro t h; cases h), stylesX_new, (by intro t h; cases h), ?_, ?_⟩
  · intro e he
    change e ∈ [_] at he
    rw [List.mem_singleton] at he
    subst he
    exact ⟨xlit (by decide +kernel), xlit (by decide +kernel)⟩
  · intro r hr
    change r ∈ baseRels ++ [sheetRel "rId5" 1] at hr
    rcases List.mem_append.mp hr with hr | hr
    · exact relX_base r hr
    · rw [List.mem_singleton] at hr
      subst hr
      exact ⟨xlit (by decide +kernel), xml_append (xlit (by decide +kernel)) (xml_sheetName 1), xlit (by decide +kernel), optX_none⟩
  · intro k e he
    have hm : (sheetName k, e) ∈ [(sheetName 1, sheetPart env emptySheetDoc)] := mem_of_aget he
    rw [List.mem_singleton] at hm
    exact ⟨emptySheet, emptySheetDoc, by rfl, (Prod.mk.inj hm).2, sheetX_empty.save (by rfl)⟩
  · intro k o ho
    have hm : sheetName k ∈ baseNames ++ [sheetRelsName 1] := mem_akeys_of_aget ho
    rcases List.mem_append.mp hm with h | h
    · exact absurd h (sheetName_not_base k)
    · exact absurd (List.mem_singleton.mp h) (sheetName_ne_rels k 1)

end Oxml
