import Verif.Proofs.Sessions
import Verif.Proofs.Workbook
import Verif.Props.Relations
/-!
# Workbook-level invariant of sessions that start from a new workbook
-/
namespace Oxml
open Spec

/-- The relationships every new workbook starts with. -/
def baseRels : List Rel :=
  [relTo "rId1" "/xl/theme/theme1.xml" themeContent, relTo "rId2" "/xl/sharedStrings.xml" sharedStringContent,
   relTo "rId3" "/xl/calcChain.xml" calcChainContent, relTo "rId4" "/xl/styles.xml" styleContent]

/-- The relationship to the k-th sheet part. -/
def sheetRel (id : String) (k : Nat) : Rel := { id := id, target := "/" ++ sheetName k, type := worksheetContent.type, mode := none }

/-- The workbook with what can change in a session. -/
def bookWith (env : Env) (theme : XDoc) (p : Pkg) (rels : List Rel) (table : List String) (styles : Styles) (sheets : List SheetEntry)
    (view : Option BookView) : Excel :=
  { newExcel env theme with
    pkg := p
    rels := { rels := rels, handle := 3, path := "xl/_rels/workbook.xml.rels" }
    strings := ⟨table, 5, "xl/sharedStrings.xml"⟩
    styles := ⟨styles, 7, "xl/styles.xml"⟩
    sheets := sheets
    view := view }

structure BookInv (env : Env) (theme : XDoc) (x : Excel) (hs : List SheetHandle) : Prop where
  sheets : SheetsInv env theme x.pkg hs
  fixed : x = bookWith env theme x.pkg x.rels.rels x.strings.data x.styles.data x.sheets x.view
  rels : ∃ ws, x.rels.rels = baseRels ++ ws ∧ ∀ r ∈ ws, ∃ k, r = sheetRel r.id k ∧ holds x.pkg (sheetName k)
  ids : (x.rels.rels.map Rel.id).Nodup
  entries : ∀ e ∈ x.sheets, e.relId ∉ baseRels.map Rel.id

theorem BookInv.relsPath {env : Env} {theme : XDoc} {x : Excel} {hs : List SheetHandle} (h : BookInv env theme x hs) :
    x.rels.path = "xl/_rels/workbook.xml.rels" := by rw [h.fixed]; rfl

theorem BookInv.dir {env : Env} {theme : XDoc} {x : Excel} {hs : List SheetHandle} (h : BookInv env theme x hs) :
    relativePath x.rels.path = .ok "xl/" := by rw [h.relsPath]; exact bookRels_dir

/-- What an entry's id leads to. -/
theorem BookInv.target {env : Env} {theme : XDoc} {x : Excel} {hs : List SheetHandle} (h : BookInv env theme x hs) {e : SheetEntry} (he : e ∈ x.sheets) :
    (e.relId ∉ x.rels.rels.map Rel.id ∧ targetById x.rels.path x.rels.rels e.relId = .ok none) ∨
    ∃ k, sheetRel e.relId k ∈ x.rels.rels ∧ holds x.pkg (sheetName k) ∧ targetById x.rels.path x.rels.rels e.relId = .ok (some (sheetName k)) := by
  obtain ⟨ws, h1, h2⟩ := h.rels
  unfold targetById
  cases hf : x.rels.rels.find? (fun r => r.id = e.relId) with
  | none =>
    refine .inl ⟨?_, rfl⟩
    intro hm
    obtain ⟨r, hr, hi⟩ := List.mem_map.mp hm
    have := List.find?_eq_none.mp hf r hr
    simp [hi] at this
  | some r =>
    have hm := List.mem_of_find?_eq_some hf
    have hid : r.id = e.relId := by simpa using List.find?_some hf
    have hw : r ∈ ws := by
      have hm' := hm
      rw [h1] at hm'
      rcases List.mem_append.mp hm' with hm' | hm'
      · exact absurd (List.mem_map.mpr ⟨r, hm', hid⟩) (h.entries e he)
      · exact hm'
    obtain ⟨k, hk, hh⟩ := h2 r hw
    rw [hid] at hk
    subst hk
    refine .inr ⟨k, hm, hh, ?_⟩
    simp only
    rw [show (sheetRel e.relId k).target = "/" ++ sheetName k from rfl, resolve_abs h.dir]

/-- The number and the workbook of a new sheet. -/
def nextSheet (x : Excel) : Nat := freeSheet x.pkg "xl/" (x.sheets.length + 1)

def newEntry (x : Excel) (name : Option String) : SheetEntry :=
  { name := name.getD ("sheet" ++ toString (nextSheet x)), relId := nextRelId x.rels.rels, active := false, hide := false }

def listed (x : Excel) (name : Option String) : Excel :=
  { x with rels := { x.rels with rels := x.rels.rels ++ [sheetRel (nextRelId x.rels.rels) (nextSheet x)] }
           sheets := x.sheets ++ [newEntry x name] }

theorem withSheet_eq (x : Excel) (name : Option String) : withSheet x "xl/" name = listed x name := by
  have h := newRel_sheet x.rels.rels (nextSheet x)
  have h1 := congrArg Prod.fst h
  have h2 := congrArg Prod.snd h
  unfold nextSheet at h1 h2
  unfold withSheet listed
  simp only [h1, h2]
  rfl

/-- The outcomes of opening a sheet. -/
inductive OpenCase (env : Env) (x : Excel) (hs : List SheetHandle) (name : Option String) : Res SheetHandle → Excel → Prop where
  | fresh (p' : Pkg) : (∀ n, name = some n → n ∉ names x.sheets) → ¬ holds x.pkg (sheetName (nextSheet x)) → p'.Inv →
      (∀ n, aget n p'.archive = aget n x.pkg.archive) →
      (∀ n, aget n p'.opened = if n = sheetName (nextSheet x) then some (openFrom x.pkg.nextHandle worksheetTemplate bareDoc)
        else if n = sheetRelsName (nextSheet x) then some (openFrom (x.pkg.nextHandle + 1) relsTemplate relsTemplate.doc) else aget n x.pkg.opened) →
      OpenCase env x hs name
        (.ok { handle := x.pkg.nextHandle, rels := ⟨[], x.pkg.nextHandle + 1, sheetRelsName (nextSheet x)⟩, data := emptySheet,
               path := sheetName (nextSheet x), name := (newEntry x name).name })
        { listed x name with pkg := p' }
  | busyNew (o : OpenDoc) : (∀ n, name = some n → n ∉ names x.sheets) → aget (sheetName (nextSheet x)) x.pkg.opened = some o →
      OpenCase env x hs name (.error (.fail "Please close the Existing object before creating new handle")) (listed x name)
  | dangling (n : String) : name = some n → n ∈ names x.sheets →
      OpenCase env x hs name (.error (.fail "Failed to Get Relationship path")) x
  | busyOld (n : String) (k : Nat) (o : OpenDoc) : name = some n → n ∈ names x.sheets → aget (sheetName k) x.pkg.opened = some o →
      OpenCase env x hs name (.error (.fail "Please close the Existing object before creating new handle")) x
  | reopened (n : String) (k : Nat) (s : Sheet) (xd : XDoc) (p' : Pkg) : name = some n → n ∈ names x.sheets → s.save bareDoc = .ok xd →
      aget (sheetName k) x.pkg.archive = some (sheetPart env xd) → p'.Inv →
      (∀ n, aget n p'.archive = if n = sheetName k then none else aget n x.pkg.archive) →
      (∀ n, aget n p'.opened = if n = sheetName k then some (openFrom x.pkg.nextHandle worksheetTemplate (reloadDoc env.build xd))
        else aget n x.pkg.opened) →
      OpenCase env x hs name (.error (.fail "Please close the Existing object before creating new handle")) { x with pkg := p' }

theorem BookInv.openCase {env : Env} {theme : XDoc} {x : Excel} {hs : List SheetHandle} (hst : env.build.release = true → StampOk env.stamp)
    (h : BookInv env theme x hs) (name : Option String) : OpenCase env x hs name (x.openSheet env name).1 (x.openSheet env name).2 := by
  rw [openSheet_eq]
  by_cases hl : ∀ n, name = some n → n ∉ names x.sheets
  · rcases sheetFile_new hl with ⟨e, h1, _⟩ | ⟨dir, h1, h2⟩
    · rw [h.dir] at h1; cases h1
    · rw [h.dir] at h1
      cases h1
      rw [h2, withSheet_eq, sheetPath_eq]
      simp only
      change OpenCase env x hs name (openAt env (listed x name) (sheetName (nextSheet x)) (newEntry x name).name).1
        (openAt env (listed x name) (sheetName (nextSheet x)) (newEntry x name).name).2
      cases ho : aget (sheetName (nextSheet x)) x.pkg.opened with
      | some o =>
        rw [openAt_busy (x := listed x name) ho]
        exact .busyNew o hl ho
      | none =>
        have hn : ¬ holds x.pkg (sheetName (nextSheet x)) := not_holds.mpr ⟨ho, freeSheet_free x.pkg _⟩
        obtain ⟨p', e, hi, ha, ho'⟩ := openAt_fresh (env := env) (x := listed x name) (nm := (newEntry x name).name) h.sheets.inv hn
          (h.sheets.noSheetRels hn)
        rw [e]
        exact .fresh p' hl hn hi ha ho'
  · obtain ⟨n, hn⟩ := Classical.not_forall.mp hl
    have hn1 : name = some n := Classical.byContradiction (fun hc => hn (fun h => absurd h hc))
    have hn2 : n ∈ names x.sheets := Classical.byContradiction (fun hc => hn (fun _ => hc))
    subst hn1
    obtain ⟨e, hf, he, _⟩ := find_name.1 hn2
    unfold Excel.sheetFile
    simp only [Option.bind_some, hf]
    rcases h.target he with ⟨_, ht⟩ | ⟨k, hk, hh, ht⟩
    · rw [ht]
      exact .dangling n rfl hn2
    · rw [ht]
      simp only
      cases ho : aget (sheetName k) x.pkg.opened with
      | some o =>
        rw [openAt_busy ho]
        exact .busyOld n k o rfl hn2 ho
      | none =>
        rcases holds_cases hh with ⟨o, ho'⟩ | ⟨en, ha⟩
        · rw [ho] at ho'; cases ho'
        · obtain ⟨s, xd, hs', rfl⟩ := h.sheets.closed k en ha
          obtain ⟨hr, hro⟩ := h.sheets.rels k hh
          obtain ⟨p', e', hi, ha', ho'⟩ := openAt_closed (nm := e.name) hst h.sheets.inv hs' ha hro
          rw [e']
          exact .reopened n k s xd p' rfl hn2 hs' ha hi ha' ho'

/-- Everything held stays held. -/
def Keeps (p p' : Pkg) : Prop := ∀ n, holds p n → holds p' n

theorem Keeps.refl (p : Pkg) : Keeps p p := fun _ h => h

theorem keeps_of {p p' : Pkg} (h : ∀ n, ¬ holds p' n → ¬ holds p n) : Keeps p p' :=
  fun n hn => Classical.byContradiction (fun hc => h n hc hn)

theorem OpenCase.keeps {env : Env} {x : Excel} {hs : List SheetHandle} {name : Option String} {r : Res SheetHandle} {x' : Excel}
    (h : OpenCase env x hs name r x') : Keeps x.pkg x'.pkg := by
  cases h with
  | fresh p' h1 h2 h3 ha ho =>
    apply keeps_of
    intro n hn
    change ¬ holds p' n at hn
    rw [not_holds] at hn ⊢
    rw [ha, ho] at hn
    obtain ⟨hn1, hn2⟩ := hn
    split at hn1
    · cases hn1
    · split at hn1
      · cases hn1
      · exact ⟨hn1, hn2⟩
  | busyNew => exact Keeps.refl _
  | dangling => exact Keeps.refl _
  | busyOld => exact Keeps.refl _
  | reopened n k s xd p' h1 h2 h3 h4 hi ha ho =>
    apply keeps_of
    intro n hn
    change ¬ holds p' n at hn
    rw [not_holds] at hn ⊢
    rw [ha, ho] at hn
    obtain ⟨hn1, hn2⟩ := hn
    split at hn1
    · cases hn1
    · next e => rw [if_neg e] at hn2; exact ⟨hn1, hn2⟩

theorem SheetsInv.drop_keeps {env : Env} {theme : XDoc} {p : Pkg} {hs : List SheetHandle} (hI : SheetsInv env theme p hs) {h : SheetHandle}
    (hm : h ∈ hs) : Keeps p (dropSheet env p h) := by
  obtain ⟨k, hk, hc⟩ := hI.dropCases hm
  rcases hc with ⟨_, _, _, e⟩ | ⟨xd, p', hsv, _, e, _, hi, ho, ha⟩
  · rw [e]; exact Keeps.refl _
  · rw [e]
    apply keeps_of
    intro n hn
    rw [not_holds] at hn ⊢
    rw [ha, ho] at hn
    obtain ⟨hn1, hn2⟩ := hn
    split at hn2
    · cases hn2
    · next e => rw [if_neg e] at hn1; exact ⟨hn1, hn2⟩

theorem BookInv.listed {env : Env} {theme : XDoc} {x : Excel} {hs hs' : List SheetHandle} (h : BookInv env theme x hs) {p' : Pkg} (name : Option String)
    (hk : Keeps x.pkg p') (hI : SheetsInv env theme p' hs') (hh : holds p' (sheetName (nextSheet x))) :
    BookInv env theme { listed x name with pkg := p' } hs' := by
  obtain ⟨ws, h1, h2⟩ := h.rels
  refine ⟨hI, ?_, ⟨ws ++ [sheetRel (nextRelId x.rels.rels) (nextSheet x)], ?_, ?_⟩, ?_, ?_⟩
  · unfold Oxml.listed
    rw [h.fixed]; rfl
  · change x.rels.rels ++ _ = _
    rw [h1, List.append_assoc]
  · intro r hr
    rcases List.mem_append.mp hr with hr | hr
    · obtain ⟨k, h3, h4⟩ := h2 r hr
      exact ⟨k, h3, hk _ h4⟩
    · rw [List.mem_singleton] at hr
      subst hr
      exact ⟨_, rfl, hh⟩
  · change ((x.rels.rels ++ [sheetRel (nextRelId x.rels.rels) (nextSheet x)]).map Rel.id).Nodup
    rw [List.map_append, List.nodup_append]
    refine ⟨h.ids, by simp, ?_⟩
    intro a ha b hb hab
    simp only [List.map_cons, List.map_nil, List.mem_singleton] at hb
    subst hab
    subst hb
    exact nextRelId_fresh x.rels.rels ha
  · intro e he
    rcases List.mem_append.mp he with he | he
    · exact h.entries e he
    · rw [List.mem_singleton] at he
      subst he
      intro hm
      apply nextRelId_fresh x.rels.rels
      have hm' : nextRelId x.rels.rels ∈ List.map Rel.id baseRels := hm
      have : List.map Rel.id baseRels ⊆ List.map Rel.id x.rels.rels := by
        rw [h1, List.map_append]; exact List.subset_append_left _ _
      exact this hm'

theorem BookInv.withPkg {env : Env} {theme : XDoc} {x : Excel} {hs hs' : List SheetHandle} (h : BookInv env theme x hs) {p' : Pkg}
    (hk : Keeps x.pkg p') (hI : SheetsInv env theme p' hs') : BookInv env theme { x with pkg := p' } hs' := by
  obtain ⟨ws, h1, h2⟩ := h.rels
  refine ⟨hI, by rw [h.fixed]; rfl, ⟨ws, h1, ?_⟩, h.ids, h.entries⟩
  intro r hr
  obtain ⟨k, h3, h4⟩ := h2 r hr
  exact ⟨k, h3, hk _ h4⟩

/-- The session invariant. -/
def SessInv (env : Env) (theme : XDoc) (s : Session) : Prop := BookInv env theme s.x s.handles

theorem SessInv.open {env : Env} {theme : XDoc} {s : Session} (hst : env.build.release = true → StampOk env.stamp)
    (h : SessInv env theme s) (name : Option String) : SessInv env theme (s.open env name).2 := by
  have hc := BookInv.openCase hst h name
  have hk := hc.keeps
  unfold Session.open
  cases hos : s.x.openSheet env name with
  | mk r x1 =>
    rw [hos] at hc hk
    cases hc with
    | fresh p' h1 h2 h3 ha ho =>
      exact BookInv.listed h name hk (h.sheets.fresh h2 h3 ha ho) (holds_of_opened (by rw [ho, if_pos rfl]))
    | busyNew o h1 h2 => exact BookInv.listed h name (Keeps.refl _) h.sheets (holds_of_opened h2)
    | dangling n h1 h2 => exact h
    | busyOld n k o h1 h2 h3 => exact h
    | reopened n k sh xd p' h1 h2 h3 h4 hi ha ho => exact BookInv.withPkg h hk (h.sheets.reopened h3 h4 hi ha ho)

theorem entries_sub {l l' : List SheetEntry} {ids : List String} (h : ∀ e ∈ l, e.relId ∉ ids) (hl : ∀ e ∈ l', ∃ e' ∈ l, e'.relId = e.relId) :
    ∀ e ∈ l', e.relId ∉ ids := by
  intro e he
  obtain ⟨e', h1, h2⟩ := hl e he
  rw [← h2]; exact h e' h1

theorem BookInv.withSheets {env : Env} {theme : XDoc} {x : Excel} {hs : List SheetHandle} (h : BookInv env theme x hs) {l : List SheetEntry}
    (hl : ∀ e ∈ l, ∃ e' ∈ x.sheets, e'.relId = e.relId) : BookInv env theme { x with sheets := l } hs :=
  ⟨h.sheets, by rw [h.fixed]; rfl, h.rels, h.ids, entries_sub h.entries hl⟩

theorem SessInv.drop {env : Env} {theme : XDoc} {s : Session} (h : SessInv env theme s) {i : Nat} {g : SheetHandle} (hg : s.handles[i]? = some g) :
    BookInv env theme { s.x with pkg := dropSheet env s.x.pkg g } (s.handles.eraseIdx i) :=
  BookInv.withPkg h (h.sheets.drop_keeps (List.mem_of_getElem? hg)) (h.sheets.dropped hg)

/-- The workbook after deleting through a handle. -/
theorem SessInv.deleteEq {env : Env} {theme : XDoc} {s : Session} (h : SessInv env theme s) {g : SheetHandle} (hg : g ∈ s.handles) :
    ∃ k, g.path = sheetName k ∧ (s.x.deleteSheet env g).2 =
      { s.x with sheets := s.x.sheets.filter (fun e => e.name ≠ g.name)
                 rels := { s.x.rels with rels := s.x.rels.rels.filter (fun r => r.target ≠ "/" ++ sheetName k) }
                 pkg := dropSheet env s.x.pkg g } := by
  obtain ⟨k, hr, h1, h2, h3, h4⟩ := h.sheets.handles g hg
  refine ⟨k, h1, ?_⟩
  have e := deleteSheet_pkg (env := env) h.sheets.inv h1 h2 (h1 ▸ h3) h4 (h.sheets.relsClosed k)
  rw [← e, ← deleteRel_sheet, ← h1]
  rfl

theorem base_target (r : Rel) (h : r ∈ baseRels) (k : Nat) : r.target ≠ "/" ++ sheetName k := by
  intro e
  have h1 : ∃ n ∈ baseNames, r.target = "/" ++ n := by
    simp only [baseRels, List.mem_cons, List.not_mem_nil, or_false] at h
    rcases h with rfl | rfl | rfl | rfl
    · exact ⟨"xl/theme/theme1.xml", by decide, by decide +kernel⟩
    · exact ⟨"xl/sharedStrings.xml", by decide, by decide +kernel⟩
    · exact ⟨"xl/calcChain.xml", by decide, by decide +kernel⟩
    · exact ⟨"xl/styles.xml", by decide, by decide +kernel⟩
  obtain ⟨n, hn, hr⟩ := h1
  rw [hr] at e
  have := congrArg String.toList e
  rw [String.toList_append, String.toList_append, List.append_cancel_left_eq] at this
  exact sheetName_ne_base hn (String.toList_inj.mp this)

theorem SessInv.delete {env : Env} {theme : XDoc} {s : Session} (h : SessInv env theme s) {i : Nat} {g : SheetHandle} (hg : s.handles[i]? = some g) :
    BookInv env theme (s.x.deleteSheet env g).2 (s.handles.eraseIdx i) := by
  obtain ⟨k, _, e⟩ := h.deleteEq (env := env) (List.mem_of_getElem? hg)
  rw [e]
  have hd := h.drop hg
  obtain ⟨ws, h1, h2⟩ := hd.rels
  refine ⟨hd.sheets, ?_, ⟨ws.filter (fun r => r.target ≠ "/" ++ sheetName k), ?_, ?_⟩, ?_, ?_⟩
  · have := BookInv.fixed h
    generalize s.x = x at this ⊢
    rw [this]; rfl
  · change s.x.rels.rels.filter _ = _
    change s.x.rels.rels = _ at h1
    have hb : baseRels.filter (fun r => r.target ≠ "/" ++ sheetName k) = baseRels := by
      rw [List.filter_eq_self]
      intro r hr
      exact decide_eq_true (base_target r hr k)
    rw [h1, List.filter_append, hb]
  · intro r hr
    exact h2 r (List.mem_filter.mp hr).1
  · exact hd.ids.sublist ((List.filter_sublist).map _)
  · intro e he
    exact BookInv.entries h e (List.mem_filter.mp he).1

theorem SessInv.step {env : Env} {theme : XDoc} {s : Session} (hst : env.build.release = true → StampOk env.stamp)
    (h : SessInv env theme s) (op : WbOp) : SessInv env theme (s.step env op).2 := by
  cases op with
  | add name => exact h.open hst name
  | get name => exact h.open hst (some name)
  | sheet i op =>
    simp only [Session.step]
    split
    · exact h
    · next g hg =>
      split
      · exact h
      · next d table hr =>
        exact ⟨h.sheets.setData hg, by
          have := BookInv.fixed h
          change ({ s.x with strings := { s.x.strings with data := table } } : Excel) = _
          generalize s.x = x at this ⊢
          rw [this]; rfl, h.rels, h.ids, h.entries⟩
  | drop i =>
    simp only [Session.step]
    split
    · exact h
    · next g hg => exact h.drop hg
  | delete i =>
    simp only [Session.step]
    split
    · exact h
    · next g hg => exact h.delete hg
  | rename old new =>
    simp only [Session.step]
    rcases renameSheet_cases s.x.sheets old new with ⟨_, m, e⟩ | ⟨_, a, en, b, h1, _, _, e⟩
    · rw [e]; exact h
    · rw [e]
      apply BookInv.withSheets h
      intro e' he'
      rw [h1]
      rcases List.mem_append.mp he' with hm | hm
      · exact ⟨e', List.mem_append_left _ hm, rfl⟩
      · rcases List.mem_cons.mp hm with hm | hm
        · subst hm; exact ⟨en, List.mem_append_right _ (List.mem_cons_self ..), rfl⟩
        · exact ⟨e', List.mem_append_right _ (List.mem_cons_of_mem _ hm), rfl⟩
  | active name =>
    apply BookInv.withSheets h
    intro e' he'
    obtain ⟨e, he, rfl⟩ := List.mem_map.mp he'
    exact ⟨e, he, rfl⟩
  | hide name =>
    apply BookInv.withSheets h
    intro e' he'
    obtain ⟨e, he, rfl⟩ := List.mem_map.mp he'
    exact ⟨e, he, rfl⟩
  | view op =>
    simp only [Session.step]
    exact ⟨h.sheets, by
      have := BookInv.fixed h
      change ({ s.x with view := op.run s.x.view } : Excel) = _
      generalize s.x = x at this ⊢
      rw [this]; rfl, h.rels, h.ids, h.entries⟩
  | style g st =>
    simp only [Session.step]
    split
    · exact h
    · next styles _ _ =>
      exact ⟨h.sheets, by
        have := BookInv.fixed h
        change ({ s.x with styles := { s.x.styles with data := styles } } : Excel) = _
        generalize s.x = x at this ⊢
        rw [this]; rfl, h.rels, h.ids, h.entries⟩

theorem SessInv.run {env : Env} {theme : XDoc} (hst : env.build.release = true → StampOk env.stamp) (ops : List WbOp) {s s' : Session}
    (h : SessInv env theme s) (hr : s.run env ops = .ok s') : SessInv env theme s' := by
  induction ops generalizing s with
  | nil => cases hr; exact h
  | cons op ops ih =>
    rw [Session.run] at hr
    have h1 := h.step hst op
    split at hr
    · cases hr
    · next e => rw [e] at h1; exact ih h1 hr

/-! ## The new workbook -/

theorem newSheets (env : Env) (theme : XDoc) : SheetsInv env theme (newPkg env theme) [] := by
  have hopen : ∀ k, aget (sheetName k) (newPkg env theme).opened = none := by
    intro k
    rw [aget_eq_none_iff]
    intro hm
    have : sheetName k ∈ baseNames ++ [sheetRelsName 1] := hm
    rcases List.mem_append.mp this with h | h
    · exact sheetName_not_base k h
    · exact sheetName_ne_rels k 1 (List.mem_singleton.mp h)
  have harch : ∀ n e, aget n (newPkg env theme).archive = some e → n = sheetName 1 ∧ e = sheetPart env emptySheetDoc := by
    intro n e h
    have hm : (n, e) ∈ [(sheetName 1, sheetPart env emptySheetDoc)] := mem_of_aget h
    rw [List.mem_singleton] at hm
    exact Prod.mk.inj hm
  have hh : ∀ n, holds (newPkg env theme) n → n ∈ baseNames ∨ n = sheetRelsName 1 ∨ n = sheetName 1 := by
    rintro n (h | h)
    · have : n ∈ baseNames ++ [sheetRelsName 1] := h
      rcases List.mem_append.mp this with h | h
      · exact .inl h
      · exact .inr (.inl (List.mem_singleton.mp h))
    · have : n ∈ [sheetName 1] := h
      exact .inr (.inr (List.mem_singleton.mp this))
  have hs1 : ∀ k, holds (newPkg env theme) (sheetName k) → k = 1 := by
    intro k h
    rcases hh _ h with h | h | h
    · exact absurd h (sheetName_not_base k)
    · exact absurd h (sheetName_ne_rels k 1)
    · exact sheetName_inj h
  refine ⟨?_, fun n hn => rfl, ?_, ?_, ?_, ?_, ?_, ?_, (fun h hm => by cases hm), List.Pairwise.nil⟩
  · refine ⟨?_, ?_, ?_, ?_, ?_⟩
    · change (baseNames ++ [sheetRelsName 1]).Nodup
      decide +kernel
    · change [sheetName 1].Nodup
      simp
    · intro n h1 h2
      have h2' : n ∈ [sheetName 1] := h2
      rw [List.mem_singleton] at h2'
      subst h2'
      exact (aget_eq_none_iff _ _).mp (hopen 1) h1
    · intro kv hm
      have : kv.2.handle ∈ [0, 1, 2, 3, 4, 5, 6, 7, 9] := List.mem_map_of_mem (f := fun kv : String × OpenDoc => kv.2.handle) hm
      change kv.2.handle < 10
      simp only [List.mem_cons, List.not_mem_nil, or_false] at this
      omega
    · change [0, 1, 2, 3, 4, 5, 6, 7, 9].Nodup
      decide
  · intro n hn
    rcases hh n hn with h | h | h
    · exact .inl h
    · exact .inr ⟨1, .inr h⟩
    · exact .inr ⟨1, .inl h⟩
  · intro k hk
    rw [hs1 k hk]
    exact ⟨9, rfl⟩
  · intro k hk
    rw [aget_eq_none_iff]
    intro hm
    have : sheetRelsName k ∈ baseNames ++ [sheetRelsName 1] := hm
    rcases List.mem_append.mp this with h | h
    · exact sheetRelsName_not_base k h
    · rw [sheetRelsName_inj (List.mem_singleton.mp h)] at hk
      exact hk (.inr (by change sheetName 1 ∈ [sheetName 1]; simp))
  · intro k
    rw [aget_eq_none_iff]
    intro hm
    have : sheetRelsName k ∈ [sheetName 1] := hm
    exact sheetName_ne_rels 1 k (List.mem_singleton.mp this).symm
  · intro k e he
    obtain ⟨_, rfl⟩ := harch _ _ he
    exact ⟨emptySheet, emptySheetDoc, by rfl, rfl⟩
  · intro k o ho
    rw [hopen k] at ho; cases ho

theorem newBook (env : Env) (theme : XDoc) : SessInv env theme ⟨newExcel env theme, []⟩ := by
  refine ⟨newSheets env theme, rfl, ⟨[sheetRel "rId5" 1], rfl, ?_⟩, ?_, ?_⟩
  · intro r hr
    rw [List.mem_singleton] at hr
    subst hr
    exact ⟨1, rfl, .inr (by change sheetName 1 ∈ [sheetName 1]; simp)⟩
  · change ["rId1", "rId2", "rId3", "rId4", "rId5"].Nodup
    decide
  · intro e he
    have : e ∈ [({ name := "sheet1", relId := "rId5", active := false, hide := false } : SheetEntry)] := he
    rw [List.mem_singleton] at this
    subst this
    decide

end Oxml
