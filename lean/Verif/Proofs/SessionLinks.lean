import Verif.Proofs.SessionFile
/-!
# Sheets, relationships and handles in careful sessions
-/
namespace Oxml
open Spec

/-- Every listed sheet has a relationship, and handles know the name of their sheet. -/
structure Linked (s : Session) : Prop where
  nodup : (names s.x.sheets).Nodup
  rel : ∀ e ∈ s.x.sheets, ∃ k, sheetRel e.relId k ∈ s.x.rels.rels
  same : ∀ e ∈ s.x.sheets, ∀ h ∈ s.handles, ∀ k, sheetRel e.relId k ∈ s.x.rels.rels → h.path = sheetName k → e.name = h.name
  has : ∀ h ∈ s.handles, ∃ e ∈ s.x.sheets, ∃ k, h.path = sheetName k ∧ sheetRel e.relId k ∈ s.x.rels.rels ∧ e.name = h.name

section
variable {env : Env} {theme : XDoc} {s : Session}

theorem BookInv.rel_holds {x : Excel} {hs : List SheetHandle} (h : BookInv env theme x hs) {id : String} {k : Nat} (hr : sheetRel id k ∈ x.rels.rels) :
    holds x.pkg (sheetName k) := by
  obtain ⟨ws, h1, h2⟩ := h.rels
  rw [h1] at hr
  rcases List.mem_append.mp hr with hr | hr
  · exact absurd rfl (base_target _ hr k)
  · obtain ⟨k', e, hk⟩ := h2 _ hr
    have e1 : ("/" ++ sheetName k).toList = ("/" ++ sheetName k').toList := congrArg String.toList (congrArg Rel.target e)
    rw [String.toList_append, String.toList_append, List.append_cancel_left_eq] at e1
    rw [String.toList_inj.mp e1]; exact hk

theorem sheetRel_inj {i j : String} {k l : Nat} (h : sheetRel i k = sheetRel j l) : i = j ∧ k = l := by
  refine ⟨congrArg Rel.id h, ?_⟩
  have e1 : ("/" ++ sheetName k).toList = ("/" ++ sheetName l).toList := congrArg String.toList (congrArg Rel.target h)
  rw [String.toList_append, String.toList_append, List.append_cancel_left_eq] at e1
  exact sheetName_inj (String.toList_inj.mp e1)

theorem Linked.opened (hL : Linked s) (hI : SessInv env theme s) (name : Option String) {p' : Pkg} {g : SheetHandle}
    (hg : g.path = sheetName (nextSheet s.x)) (hn : g.name = (newEntry s.x name).name) (hh : ¬ holds s.x.pkg (sheetName (nextSheet s.x)))
    (hnd : (names (listed s.x name).sheets).Nodup) : Linked ⟨{ listed s.x name with pkg := p' }, s.handles ++ [g]⟩ := by
  have hb : BookInv env theme s.x s.handles := hI
  have hfr : ∀ k, sheetRel (nextRelId s.x.rels.rels) k ∉ s.x.rels.rels := fun k hm =>
    nextRelId_fresh s.x.rels.rels (List.mem_map_of_mem (f := Rel.id) hm)
  have hold : ∀ e ∈ s.x.sheets, e.relId ≠ nextRelId s.x.rels.rels := by
    intro e he hid
    obtain ⟨k, hk⟩ := hL.rel e he
    rw [hid] at hk
    exact hfr k hk
  refine ⟨hnd, ?_, ?_, ?_⟩
  · intro e he
    rcases List.mem_append.mp he with he | he
    · obtain ⟨k, hk⟩ := hL.rel e he
      exact ⟨k, List.mem_append_left _ hk⟩
    · rw [List.mem_singleton] at he
      subst he
      exact ⟨_, List.mem_append_right _ (List.mem_singleton.mpr rfl)⟩
  · intro e he h hh' k hr hp
    rcases List.mem_append.mp he with he | he
    · have hr' : sheetRel e.relId k ∈ s.x.rels.rels := by
        rcases List.mem_append.mp hr with hr | hr
        · exact hr
        · exact absurd (sheetRel_inj (List.mem_singleton.mp hr)).1 (hold e he)
      rcases List.mem_append.mp hh' with hh' | hh'
      · exact hL.same e he h hh' k hr' hp
      · rw [List.mem_singleton] at hh'
        subst hh'
        rw [hg] at hp
        exact absurd (hp ▸ hb.rel_holds hr' : holds s.x.pkg (sheetName (nextSheet s.x))) hh
    · rw [List.mem_singleton] at he
      subst he
      have hk : k = nextSheet s.x := by
        rcases List.mem_append.mp hr with hr | hr
        · exact absurd hr (hfr k)
        · exact (sheetRel_inj (List.mem_singleton.mp hr)).2
      rcases List.mem_append.mp hh' with hh' | hh'
      · obtain ⟨k', _, h1, _, h3, _⟩ := hb.sheets.handles h hh'
        rw [← h1, hp, hk] at h3
        exact absurd (holds_of_opened h3) hh
      · rw [List.mem_singleton] at hh'
        subst hh'
        exact hn.symm
  · intro h hh'
    rcases List.mem_append.mp hh' with hh' | hh'
    · obtain ⟨e, he, k, h1, h2, h3⟩ := hL.has h hh'
      exact ⟨e, List.mem_append_left _ he, k, h1, List.mem_append_left _ h2, h3⟩
    · rw [List.mem_singleton] at hh'
      subst hh'
      exact ⟨newEntry s.x name, List.mem_append_right _ (List.mem_singleton.mpr rfl), _, hg, List.mem_append_right _ (List.mem_singleton.mpr rfl), hn.symm⟩

theorem Linked.open (hst : env.build.release = true → StampOk env.stamp) (hL : Linked s) (hI : SessInv env theme s) (name : Option String)
    (hnd : (names (s.open env name).2.x.sheets).Nodup) (hok : (∃ n, name = some n ∧ n ∈ names s.x.sheets) ∨ (s.open env name).1 = .ok ()) :
    Linked (s.open env name).2 := by
  have hc := BookInv.openCase hst hI name
  unfold Session.open at hnd hok ⊢
  cases hos : s.x.openSheet env name with
  | mk r x1 =>
    rw [hos] at hc hnd hok
    cases hc with
    | fresh p' h1 h2 h3 ha ho => exact hL.opened hI name rfl rfl h2 hnd
    | busyNew o h1 h2 =>
      rcases hok with ⟨n, hn, hm⟩ | hok
      · exact absurd hm (h1 n hn)
      · cases hok
    | dangling n h1 h2 => exact hL
    | busyOld n k o h1 h2 h3 => exact hL
    | reopened n k sh xd p' h1 h2 h3 h4 hi ha ho => exact ⟨hL.nodup, hL.rel, hL.same, hL.has⟩

/-- Entries of a list without duplicate names. -/
theorem entry_unique {l : List SheetEntry} (h : (names l).Nodup) {a b : SheetEntry} (ha : a ∈ l) (hb : b ∈ l) (hn : a.name = b.name) : a = b := by
  obtain ⟨i, hi⟩ := List.getElem?_of_mem ha
  obtain ⟨j, hj⟩ := List.getElem?_of_mem hb
  have e1 : (names l)[i]? = some a.name := by unfold names; rw [List.getElem?_map, hi]; rfl
  have e2 : (names l)[j]? = some b.name := by unfold names; rw [List.getElem?_map, hj]; rfl
  have hlt : i < (names l).length := by
    rw [List.getElem?_eq_some_iff] at e1; exact e1.1
  have : i = j := (List.getElem?_inj hlt h).mp (by rw [e1, e2, hn])
  subst this
  rw [hi] at hj
  exact Option.some.inj hj

/-- Two relationships of one entry have one target. -/
theorem sheetRel_unique (hI : SessInv env theme s) {id : String} {k l : Nat} (hk : sheetRel id k ∈ s.x.rels.rels) (hl : sheetRel id l ∈ s.x.rels.rels) : k = l := by
  obtain ⟨i, hi⟩ := List.getElem?_of_mem hk
  obtain ⟨j, hj⟩ := List.getElem?_of_mem hl
  have hn := BookInv.ids hI
  have e1 : (s.x.rels.rels.map Rel.id)[i]? = some id := by rw [List.getElem?_map, hi]; rfl
  have e2 : (s.x.rels.rels.map Rel.id)[j]? = some id := by rw [List.getElem?_map, hj]; rfl
  have hlt : i < (s.x.rels.rels.map Rel.id).length := by
    rw [List.getElem?_eq_some_iff] at e1; exact e1.1
  have : i = j := (List.getElem?_inj hlt hn).mp (by rw [e1, e2])
  subst this
  rw [hi] at hj
  exact (sheetRel_inj (Option.some.inj hj)).2

theorem path_ne_of_erase (hI : SessInv env theme s) {i : Nat} {g h : SheetHandle} (hg : s.handles[i]? = some g) (hh : h ∈ s.handles.eraseIdx i) :
    h.path ≠ g.path := by
  intro e
  have hn := (BookInv.sheets hI).nodup
  obtain ⟨j, hj, hjh⟩ := List.mem_eraseIdx_iff_getElem?.mp hh
  have e1 : (s.handles.map SheetHandle.path)[i]? = some g.path := by rw [List.getElem?_map, hg]; rfl
  have e2 : (s.handles.map SheetHandle.path)[j]? = some h.path := by rw [List.getElem?_map, hjh]; rfl
  have hlt : i < (s.handles.map SheetHandle.path).length := by
    rw [List.getElem?_eq_some_iff] at e1; exact e1.1
  exact hj ((List.getElem?_inj hlt hn).mp (by rw [e1, e2, e])).symm

/-- Which entries a delete keeps. -/
theorem Linked.kept (hL : Linked s) (hI : SessInv env theme s) {g : SheetHandle} (hg : g ∈ s.handles) {e : SheetEntry} (he : e ∈ s.x.sheets) {k : Nat}
    (hk : sheetRel e.relId k ∈ s.x.rels.rels) : e.name ≠ g.name ↔ sheetName k ≠ g.path := by
  constructor
  · intro h hp
    exact h (hL.same e he g hg k hk hp.symm)
  · intro h hn
    obtain ⟨e', he', k', h1, h2, h3⟩ := hL.has g hg
    have := entry_unique hL.nodup he he' (hn.trans h3.symm)
    subst this
    rw [sheetRel_unique hI hk h2] at h
    exact h h1.symm

theorem Linked.delete (hL : Linked s) (hI : SessInv env theme s) {i : Nat} {g : SheetHandle} (hg : s.handles[i]? = some g) :
    Linked ⟨(s.x.deleteSheet env g).2, s.handles.eraseIdx i⟩ := by
  have hm := List.mem_of_getElem? hg
  obtain ⟨k, hk, e⟩ := hI.deleteEq (env := env) hm
  rw [e]
  have hkeep : ∀ id l, sheetRel id l ∈ s.x.rels.rels → sheetName l ≠ g.path →
      sheetRel id l ∈ s.x.rels.rels.filter (fun r => r.target ≠ "/" ++ sheetName k) := by
    intro id l h1 h2
    refine List.mem_filter.mpr ⟨h1, ?_⟩
    simp only [decide_eq_true_eq, ne_eq]
    intro ht
    have e1 : ("/" ++ sheetName l).toList = ("/" ++ sheetName k).toList := congrArg String.toList ht
    rw [String.toList_append, String.toList_append, List.append_cancel_left_eq] at e1
    exact h2 (by rw [hk]; exact String.toList_inj.mp e1)
  refine ⟨?_, ?_, ?_, ?_⟩
  · exact hL.nodup.sublist ((List.filter_sublist).map _)
  · intro en hen
    obtain ⟨hen, hne⟩ := List.mem_filter.mp hen
    obtain ⟨l, hl⟩ := hL.rel en hen
    exact ⟨l, hkeep _ _ hl ((hL.kept hI hm hen hl).mp (by simpa using hne))⟩
  · intro en hen h hh l hl hp
    exact hL.same en (List.mem_filter.mp hen).1 h ((List.eraseIdx_sublist _ _).subset hh) l (List.mem_filter.mp hl).1 hp
  · intro h hh
    obtain ⟨en, hen, l, h1, h2, h3⟩ := hL.has h ((List.eraseIdx_sublist _ _).subset hh)
    have hp : sheetName l ≠ g.path := by rw [← h1]; exact path_ne_of_erase hI hg hh
    refine ⟨en, List.mem_filter.mpr ⟨hen, ?_⟩, l, h1, hkeep _ _ h2 hp, h3⟩
    simpa using (hL.kept hI hm hen h2).mpr hp

/-- Changing flags of entries. -/
theorem Linked.flags (hL : Linked s) (f : SheetEntry → SheetEntry) (hf : ∀ e, (f e).name = e.name ∧ (f e).relId = e.relId) :
    Linked { s with x := { s.x with sheets := s.x.sheets.map f } } := by
  refine ⟨?_, ?_, ?_, ?_⟩
  · have : names (s.x.sheets.map f) = names s.x.sheets := by
      unfold names
      rw [List.map_map]
      exact List.map_congr_left (fun e _ => (hf e).1)
    exact this ▸ hL.nodup
  · intro e he
    obtain ⟨e', he', rfl⟩ := List.mem_map.mp he
    rw [(hf e').2]; exact hL.rel e' he'
  · intro e he h hh k hk hp
    obtain ⟨e', he', rfl⟩ := List.mem_map.mp he
    rw [(hf e').2] at hk
    rw [(hf e').1]
    exact hL.same e' he' h hh k hk hp
  · intro h hh
    obtain ⟨e, he, k, h1, h2, h3⟩ := hL.has h hh
    exact ⟨f e, List.mem_map_of_mem he, k, h1, by rw [(hf e).2]; exact h2, by rw [(hf e).1]; exact h3⟩

/-- Fewer handles, or handles with other data. -/
theorem Linked.handles (hL : Linked s) {x : Excel} {hs : List SheetHandle} (h1 : x.sheets = s.x.sheets) (h2 : x.rels = s.x.rels)
    (h : ∀ g ∈ hs, ∃ g' ∈ s.handles, g'.path = g.path ∧ g'.name = g.name) : Linked ⟨x, hs⟩ := by
  refine ⟨by rw [h1]; exact hL.nodup, by rw [h1, h2]; exact hL.rel, ?_, ?_⟩
  · intro e he g hg k hk hp
    obtain ⟨g', hg', e1, e2⟩ := h g hg
    rw [← e2]
    simp only [h1, h2] at he hk
    exact hL.same e he g' hg' k hk (e1.trans hp)
  · intro g hg
    obtain ⟨g', hg', e1, e2⟩ := h g hg
    simp only [h1, h2, ← e1, ← e2]
    exact hL.has g' hg'

theorem Linked.step (hst : env.build.release = true → StampOk env.stamp) (hL : Linked s) (hI : SessInv env theme s) (op : WbOp)
    (hc : CarefulStep env s op) : Linked (s.step env op).2 := by
  obtain ⟨hnd, hc⟩ := hc
  cases op with
  | add name =>
    cases name with
    | none => exact hL.open hst hI none hnd (.inr hc)
    | some n => exact hL.open hst hI (some n) hnd (hc.imp (fun h => ⟨n, rfl, h⟩) id)
  | get n => exact hL.open hst hI (some n) hnd (hc.imp (fun h => ⟨n, rfl, h⟩) id)
  | sheet i op =>
    simp only [Session.step]
    split
    · exact hL
    · next g hg =>
      split
      · exact hL
      · next d table hr =>
        refine hL.handles rfl rfl ?_
        intro g' hg'
        rcases List.mem_or_eq_of_mem_set hg' with h | h
        · exact ⟨g', h, rfl, rfl⟩
        · subst h; exact ⟨g, List.mem_of_getElem? hg, rfl, rfl⟩
  | drop i =>
    simp only [Session.step]
    split
    · exact hL
    · next g hg =>
      exact hL.handles rfl rfl (fun g' hg' => ⟨g', (List.eraseIdx_sublist _ _).subset hg', rfl, rfl⟩)
  | delete i =>
    simp only [Session.step]
    split
    · exact hL
    · next g hg => exact hL.delete hI hg
  | rename old new =>
    simp only [Session.step] at hnd ⊢
    rcases renameSheet_cases s.x.sheets old new with ⟨_, m, e⟩ | ⟨_, a, en, b, h1, h0, h2, e⟩
    · rw [e]; exact hL
    · rw [e] at hnd ⊢
      have hen : en ∈ s.x.sheets := by rw [h1]; simp
      have hmem : ∀ e', e' ∈ s.x.sheets ↔ e' ∈ a ∨ e' = en ∨ e' ∈ b := by intro e'; rw [h1]; simp
      refine ⟨hnd, ?_, ?_, ?_⟩
      · intro e' he'
        rcases List.mem_append.mp he' with hm | hm
        · exact hL.rel e' ((hmem e').mpr (.inl hm))
        · rcases List.mem_cons.mp hm with hm | hm
          · subst hm; exact hL.rel en hen
          · exact hL.rel e' ((hmem e').mpr (.inr (.inr hm)))
      · intro e' he' h hh k hk hp
        rcases List.mem_append.mp he' with hm | hm
        · exact hL.same e' ((hmem e').mpr (.inl hm)) h hh k hk hp
        · rcases List.mem_cons.mp hm with hm | hm
          · subst hm
            have := hL.same en hen h hh k hk hp
            exact absurd (this.symm.trans h2) (hc h hh)
          · exact hL.same e' ((hmem e').mpr (.inr (.inr hm))) h hh k hk hp
      · intro h hh
        obtain ⟨e', he', k, g1, g2, g3⟩ := hL.has h hh
        refine ⟨e', ?_, k, g1, g2, g3⟩
        rcases (hmem e').mp he' with hm | hm | hm
        · exact List.mem_append_left _ hm
        · subst hm; exact absurd (g3.symm.trans h2) (hc h hh)
        · exact List.mem_append_right _ (List.mem_cons_of_mem _ hm)
  | active name => exact hL.flags _ (fun e => ⟨rfl, rfl⟩)
  | hide name => exact hL.flags _ (fun e => ⟨rfl, rfl⟩)
  | view op => exact ⟨hL.nodup, hL.rel, hL.same, hL.has⟩
  | style g st =>
    simp only [Session.step]
    split
    · exact hL
    · exact ⟨hL.nodup, hL.rel, hL.same, hL.has⟩

theorem Linked.run (hst : env.build.release = true → StampOk env.stamp) (ops : List WbOp) {s s' : Session} (hL : Linked s) (hI : SessInv env theme s)
    (hc : Careful env s ops) (hr : s.run env ops = .ok s') : Linked s' := by
  induction ops generalizing s with
  | nil => cases hr; exact hL
  | cons op ops ih =>
    obtain ⟨h1, h2⟩ := hc
    rw [Session.run] at hr
    have g1 := hL.step hst hI op h1
    have g2 := hI.step hst op
    split at hr
    · cases hr
    · next e => rw [e] at g1 g2 h2; exact ih g1 g2 h2 hr

theorem linked_new (env : Env) (theme : XDoc) : Linked ⟨newExcel env theme, []⟩ := by
  refine ⟨?_, ?_, (fun e he h hh => by cases hh), (fun h hh => by cases hh)⟩
  · change ["sheet1"].Nodup
    simp
  · intro e he
    have : e ∈ [({ name := "sheet1", relId := "rId5", active := false, hide := false } : SheetEntry)] := he
    rw [List.mem_singleton] at this
    subst this
    exact ⟨1, List.mem_append_right [relTo "rId1" "/xl/theme/theme1.xml" themeContent, relTo "rId2" "/xl/sharedStrings.xml" sharedStringContent,
              relTo "rId3" "/xl/calcChain.xml" calcChainContent, relTo "rId4" "/xl/styles.xml" styleContent] (List.mem_singleton.mpr rfl)⟩

end

theorem careful_ran {env : Env} {theme : XDoc} {ops : List WbOp} {s : Session} (h : RanCarefully env theme ops s) : Ran env theme ops s := by
  obtain ⟨x, h1, h2, _⟩ := h
  exact ⟨x, h1, h2⟩

theorem careful_linked {env : Env} {theme : XDoc} (hst : env.build.release = true → StampOk env.stamp) {ops : List WbOp} {s : Session}
    (h : RanCarefully env theme ops s) : Linked s := by
  obtain ⟨x, hx, hr, hc⟩ := h
  rw [new_eq env theme] at hx
  cases hx
  exact (linked_new env theme).run hst ops (newBook env theme) hc hr

end Oxml
