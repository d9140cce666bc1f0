import Verif.Proofs.SheetPaths
import Verif.Proofs.PkgEffects
import Verif.Proofs.NewBook
import Verif.Props.WorksheetFile
import Verif.Props.Package
/-!
# Invariants of sessions that start from a new workbook
-/
namespace Oxml
open Spec

/-! ## Package steps -/

theorem not_iff_not' {a b : Prop} : (¬ a ↔ ¬ b) ↔ (a ↔ b) :=
  ⟨fun h => ⟨fun ha => Classical.byContradiction (fun hb => h.mpr hb ha), fun hb => Classical.byContradiction (fun ha => h.mp ha hb)⟩,
   fun h => ⟨fun ha hb => ha (h.mpr hb), fun hb ha => hb (h.mp ha)⟩⟩

theorem holds_of_opened {p : Pkg} {n : String} {o : OpenDoc} (h : aget n p.opened = some o) : holds p n :=
  Or.inl (mem_akeys_of_aget h)

theorem holds_of_archive {p : Pkg} {n : String} {e : Entry} (h : aget n p.archive = some e) : holds p n :=
  Or.inr (mem_akeys_of_aget h)

theorem not_holds {p : Pkg} {n : String} : ¬ holds p n ↔ aget n p.opened = none ∧ aget n p.archive = none := by
  unfold holds
  rw [aget_eq_none_iff n, aget_eq_none_iff n]
  constructor
  · intro h; exact ⟨fun h1 => h (.inl h1), fun h1 => h (.inr h1)⟩
  · rintro ⟨h1, h2⟩ (h | h)
    · exact h1 h
    · exact h2 h

theorem holds_cases {p : Pkg} {n : String} (h : holds p n) : (∃ o, aget n p.opened = some o) ∨ ∃ e, aget n p.archive = some e := by
  cases ho : aget n p.opened with
  | some o => exact .inl ⟨o, rfl⟩
  | none =>
    cases ha : aget n p.archive with
    | some e => exact .inr ⟨e, rfl⟩
    | none => exact absurd h (not_holds.mpr ⟨ho, ha⟩)

theorem aget_append_single {V : Type} (m : List (String × V)) (k n : String) (v : V) (h : aget k m = none) :
    aget n (m ++ [(k, v)]) = if n = k then some v else aget n m := by
  rw [← ainsert_of_not_mem ((aget_eq_none_iff k m).mp h)]
  by_cases e : n = k
  · subst e; rw [aget_ainsert, if_pos rfl]
  · rw [aget_ainsert_ne (fun h => e h.symm), if_neg e]

/-- Writing back the document that is there. -/
theorem Pkg.Inv.update_same {p : Pkg} (hp : p.Inv) {m : String} {o : OpenDoc} (ho : aget m p.opened = some o) :
    p.update o.handle (fun _ => o.doc) = p := by
  have e : p.opened.map (fun kv => if kv.2.handle = o.handle then (kv.1, { kv.2 with doc := o.doc }) else kv) = p.opened := by
    conv => rhs; rw [← List.map_id p.opened]
    apply List.map_congr_left
    intro kv hkv
    split
    · rename_i h
      have h1 : aget kv.1 p.opened = some kv.2 := aget_of_mem hp.opened hkv
      have h2 := hp.handle_name h1 ho h
      rw [h2, ho] at h1
      cases h1
      rfl
    · rfl
  unfold Pkg.update
  rw [e]

/-- Closing a relationship part that lists nothing and was never closed. -/
theorem closeRels_noop {env : Env} {p : Pkg} (hp : p.Inv) {hr : Nat} {m : String}
    (ho : aget m p.opened = some (openFrom hr relsTemplate relsTemplate.doc)) (ha : aget m p.archive = none) :
    RelPart.close env p ⟨[], hr, m⟩ = (.ok (), p) := by
  have h1 : p.docOf hr = some relsTemplate.doc := hp.docOf ho
  have h2 : p.update hr (fun _ => relsTemplate.doc) = p := hp.update_same ho
  have h3 : saveRels relsTemplate.doc [] = .ok (relsTemplate.doc, false) := by rfl
  unfold RelPart.close
  simp only [h1, h3, h2, Pkg.delete_absent ha]
  rfl

/-! ## The invariant -/

/-- The documents of open sheet parts without a handle. -/
def SheetRest (env : Env) (d : XDoc) : Prop := d = bareDoc ∨ ∃ (s : Sheet) (x : XDoc), s.save bareDoc = .ok x ∧ d = reloadDoc env.build x

/-- What is open and closed in sessions from a new workbook. -/
structure SheetsInv (env : Env) (theme : XDoc) (p : Pkg) (hs : List SheetHandle) : Prop where
  inv : p.Inv
  base : ∀ n ∈ baseNames, aget n p.opened = aget n (newPkg env theme).opened
  only : ∀ n, holds p n → n ∈ baseNames ∨ ∃ k, n = sheetName k ∨ n = sheetRelsName k
  rels : ∀ k, holds p (sheetName k) → ∃ hr, aget (sheetRelsName k) p.opened = some (openFrom hr relsTemplate relsTemplate.doc)
  noRels : ∀ k, ¬ holds p (sheetName k) → aget (sheetRelsName k) p.opened = none
  relsClosed : ∀ k, aget (sheetRelsName k) p.archive = none
  closed : ∀ k e, aget (sheetName k) p.archive = some e → ∃ (s : Sheet) (x : XDoc), s.save bareDoc = .ok x ∧ e = sheetPart env x
  opened : ∀ k o, aget (sheetName k) p.opened = some o → o = openFrom o.handle worksheetTemplate o.doc ∧ SheetRest env o.doc
  handles : ∀ h ∈ hs, ∃ k hr, h.path = sheetName k ∧ h.rels = ⟨[], hr, sheetRelsName k⟩ ∧
    aget (sheetName k) p.opened = some (openFrom h.handle worksheetTemplate bareDoc) ∧
    aget (sheetRelsName k) p.opened = some (openFrom hr relsTemplate relsTemplate.doc)
  nodup : (hs.map SheetHandle.path).Nodup

theorem sheetName_ne_base {k : Nat} {n : String} (h : n ∈ baseNames) : n ≠ sheetName k := fun e => sheetName_not_base k (e ▸ h)
theorem sheetRelsName_ne_base {k : Nat} {n : String} (h : n ∈ baseNames) : n ≠ sheetRelsName k := fun e => sheetRelsName_not_base k (e ▸ h)

theorem base_opened (env : Env) (theme : XDoc) {n : String} (h : n ∈ baseNames) : ∃ o, aget n (newPkg env theme).opened = some o := by
  simp only [baseNames, List.mem_cons, List.not_mem_nil, or_false] at h
  rcases h with rfl | rfl | rfl | rfl | rfl | rfl | rfl | rfl <;> exact ⟨_, rfl⟩

theorem bare_unmanaged : ∀ n ∈ ([] : List Node), n.tag ∉ managedTags := by intro n h; cases h

/-- What a saved sheet reads as. -/
theorem read_saved (env : Env) (hst : env.build.release = true → StampOk env.stamp) {s : Sheet} {x : XDoc} (h : s.save bareDoc = .ok x) :
    ∃ d, readXml env.uni (renderDoc env.build env.stamp x) = .ok d ∧ d.toXDoc = reloadDoc env.build x := by
  obtain ⟨cs', hw, _, hne⟩ := wf_saved env.uni (wf_bareDoc env.uni) bare_unmanaged h
  exact read_doc env hst hw hne

/-! ## Opening -/

/-- What `WorkSheet::new` does once the path is known. -/
def openAt (env : Env) (x1 : Excel) (path nm : String) : Res SheetHandle × Excel :=
  match x1.pkg.openPart env (.ok worksheetTemplate) path with
  | (.error e, p2) => (.error e, { x1 with pkg := p2 })
  | (.ok h, p2) =>
    match sheetRelsPath path with
    | none => (.error (.panic "unwrap on None"), { x1 with pkg := p2 })
    | some rp =>
      match RelPart.new env p2 rp with
      | (.error e, p3) => (.error e, { x1 with pkg := p3 })
      | (.ok rels, p3) =>
        match p3.docOf h with
        | none => (.error (.fail "Failed to open Worksheet"), { x1 with pkg := (rels.close env p3).2 })
        | some d =>
          match Sheet.load env d with
          | (.error e, d') => (.error e, { x1 with pkg := (rels.close env (p3.update h (fun _ => d'))).2 })
          | (.ok s, d') =>
            (.ok { handle := h, rels := rels, data := s, path := path, name := nm },
              { x1 with pkg := p3.update h (fun _ => d') })

theorem openSheet_eq (env : Env) (x : Excel) (name : Option String) :
    x.openSheet env name = match x.sheetFile name with
      | (.error e, x1) => (.error e, x1)
      | (.ok (path, nm), x1) => openAt env x1 path nm := by
  unfold Excel.openSheet openAt
  rfl

theorem openAt_busy {env : Env} {x : Excel} {path nm : String} {o : OpenDoc} (h : aget path x.pkg.opened = some o) :
    openAt env x path nm = (.error (.fail "Please close the Existing object before creating new handle"), x) := by
  unfold openAt
  rw [openPart_busy h]

theorem openPart_inv {env : Env} {p p' : Pkg} {t : Template} {m : String} {h : Nat} (hp : p.Inv)
    (e : p.openPart env (.ok t) m = (.ok h, p')) : p'.Inv := by
  have := hp.openPart env (.ok t) m
  rw [e] at this
  exact this

/-- Registering an open document under a fresh name. -/
def Opened (p p' : Pkg) (m : String) (o : OpenDoc) : Prop :=
  p'.Inv ∧ (∀ n, aget n p'.opened = if n = m then some o else aget n p.opened) ∧ (∀ n, aget n p'.archive = aget n p.archive) ∧
    o.handle = p.nextHandle ∧ p'.nextHandle = p.nextHandle + 1

theorem open_fresh {env : Env} {p : Pkg} (hp : p.Inv) {t : Template} {m : String} (hm : ¬ holds p m) :
    ∃ p', p.openPart env (.ok t) m = (.ok p.nextHandle, p') ∧ Opened p p' m (openFrom p.nextHandle t t.doc) := by
  obtain ⟨ho, ha⟩ := not_holds.mp hm
  have e := openPart_fresh (env := env) (t := t) ho ha
  exact ⟨_, e, openPart_inv hp e, fun n => aget_append_single _ _ _ _ ho, fun n => rfl, rfl, rfl⟩

/-- A relationship part that does not exist yet. -/
theorem newRels_fresh {env : Env} {p : Pkg} (hp : p.Inv) {m : String} (hm : ¬ holds p m) :
    ∃ p', RelPart.new env p m = (.ok ⟨[], p.nextHandle, m⟩, p') ∧ Opened p p' m (openFrom p.nextHandle relsTemplate relsTemplate.doc) := by
  obtain ⟨p', e, hi, ho, ha, hh, hn⟩ := open_fresh (env := env) (t := relsTemplate) hp hm
  have hm' : aget m p'.opened = some (openFrom p.nextHandle relsTemplate relsTemplate.doc) := by rw [ho, if_pos rfl]
  have h1 : p'.docOf p.nextHandle = some relsTemplate.doc := hi.docOf hm'
  have h2 : p'.update p.nextHandle (fun _ => relsTemplate.doc) = p' := hi.update_same hm'
  refine ⟨p', ?_, hi, ho, ha, hh, hn⟩
  unfold RelPart.new
  simp only [e, h1, show loadRels relsTemplate.doc = (.ok [], relsTemplate.doc) from rfl, h2]

/-- Opening a sheet at a free place. -/
theorem openAt_fresh {env : Env} {x : Excel} (hp : x.pkg.Inv) {k : Nat} {nm : String} (h1 : ¬ holds x.pkg (sheetName k))
    (h2 : ¬ holds x.pkg (sheetRelsName k)) :
    ∃ p', openAt env x (sheetName k) nm =
        (.ok { handle := x.pkg.nextHandle, rels := ⟨[], x.pkg.nextHandle + 1, sheetRelsName k⟩, data := emptySheet, path := sheetName k, name := nm },
          { x with pkg := p' }) ∧
      p'.Inv ∧ (∀ n, aget n p'.archive = aget n x.pkg.archive) ∧
      (∀ n, aget n p'.opened = if n = sheetName k then some (openFrom x.pkg.nextHandle worksheetTemplate bareDoc)
        else if n = sheetRelsName k then some (openFrom (x.pkg.nextHandle + 1) relsTemplate relsTemplate.doc) else aget n x.pkg.opened) := by
  obtain ⟨p1, e1, i1, o1, a1, _, n1⟩ := open_fresh (env := env) (t := worksheetTemplate) hp h1
  have hr : ¬ holds p1 (sheetRelsName k) := by
    rw [not_holds, o1, a1, if_neg (sheetName_ne_rels k k).symm]
    exact not_holds.mp h2
  obtain ⟨p2, e2, i2, o2, a2, _, _⟩ := newRels_fresh (env := env) i1 hr
  have hs : aget (sheetName k) p2.opened = some (openFrom x.pkg.nextHandle worksheetTemplate worksheetDoc) := by
    rw [o2, if_neg (sheetName_ne_rels k k), o1, if_pos rfl]; rfl
  have hd : p2.docOf x.pkg.nextHandle = some worksheetDoc := i2.docOf hs
  refine ⟨p2.update x.pkg.nextHandle (fun _ => bareDoc), ?_, i2.update _ _, ?_, ?_⟩
  · unfold openAt
    simp only [e1, sheetRelsPath_eq, e2, hd, load_template, n1]
  · intro n
    rw [Pkg.update_archive, a2, a1]
  · intro n
    have := i2.aget_update hs (fun _ => bareDoc) n
    refine this.trans ?_
    by_cases e : n = sheetName k
    · rw [if_pos e, if_pos e]; rfl
    · rw [if_neg e, if_neg e, o2]
      by_cases e' : n = sheetRelsName k
      · rw [if_pos e', if_pos e', n1]
      · rw [if_neg e', if_neg e', o1, if_neg e]

/-- Opening a closed sheet whose relationship part never closed. -/
theorem openAt_closed {env : Env} (hst : env.build.release = true → StampOk env.stamp) {x : Excel} (hp : x.pkg.Inv) {k : Nat} {nm : String}
    {s : Sheet} {xd : XDoc} {r : OpenDoc} (hs : s.save bareDoc = .ok xd) (ha : aget (sheetName k) x.pkg.archive = some (sheetPart env xd))
    (hr : aget (sheetRelsName k) x.pkg.opened = some r) :
    ∃ p', openAt env x (sheetName k) nm = (.error (.fail "Please close the Existing object before creating new handle"), { x with pkg := p' }) ∧
      p'.Inv ∧ (∀ n, aget n p'.archive = if n = sheetName k then none else aget n x.pkg.archive) ∧
      (∀ n, aget n p'.opened = if n = sheetName k then some (openFrom x.pkg.nextHandle worksheetTemplate (reloadDoc env.build xd))
        else aget n x.pkg.opened) := by
  obtain ⟨d, hd, hd'⟩ := read_saved env hst hs
  have ho : aget (sheetName k) x.pkg.opened = none := by
    rw [aget_eq_none_iff]
    exact fun h => hp.disjoint _ h (mem_akeys_of_aget ha)
  have e := openPart_read (env := env) (t := .ok worksheetTemplate) ho ha hd
  have hi := openPart_inv hp e
  rw [hd'] at e hi
  have hr' : aget (sheetRelsName k) (x.pkg.opened ++ [(sheetName k, openFrom x.pkg.nextHandle worksheetTemplate (reloadDoc env.build xd))]) = some r := by
    rw [aget_append_single _ _ _ _ ho, if_neg (sheetName_ne_rels k k).symm]; exact hr
  refine ⟨_, ?_, hi, ?_, ?_⟩
  · unfold openAt
    rw [e]
    simp only [sheetRelsPath_eq]
    unfold RelPart.new
    rw [openPart_busy (o := r) hr']
  · intro n
    by_cases e : n = sheetName k
    · subst e; rw [if_pos rfl]; exact aget_aerase_self _ _
    · rw [if_neg e]; exact aget_aerase_ne (fun h => e h.symm) _
  · intro n; exact aget_append_single _ _ _ _ ho

/-! ## Closing -/

/-- Writing the sheet of a handle back. -/
theorem closeSheet_cases {env : Env} {p : Pkg} (hp : p.Inv) {h : SheetHandle}
    (ho : aget h.path p.opened = some (openFrom h.handle worksheetTemplate bareDoc)) :
    (∃ e, h.data.save bareDoc = .error e ∧ closeSheet env p h = (.error e, p)) ∨
    ∃ xd p', h.data.save bareDoc = .ok xd ∧ closeSheet env p h = (.ok (), p') ∧ p'.Inv ∧ p'.docOf h.handle = none ∧
      (∀ n, aget n p'.opened = if n = h.path then none else aget n p.opened) ∧
      ∀ n, aget n p'.archive = if n = h.path then some (sheetPart env xd) else aget n p.archive := by
  have hd : p.docOf h.handle = some bareDoc := hp.docOf ho
  unfold closeSheet
  simp only [hd]
  cases hs : h.data.save bareDoc with
  | error e => exact .inl ⟨e, rfl, rfl⟩
  | ok xd =>
    refine .inr ⟨xd, _, rfl, rfl, (hp.update _ _).close env _, ?_, fun n => (hp.update_close env ho xd n).1, fun n => (hp.update_close env ho xd n).2⟩
    apply Pkg.docOf_none
    intro n o hm hh
    have hi : ((p.update h.handle (fun _ => xd)).close env h.path).Inv := (hp.update _ _).close env _
    have h1 := aget_of_mem hi.opened hm
    have h2 := (hp.update_close env ho xd n).1
    change aget n ((p.update h.handle (fun _ => xd)).close env h.path).opened = _ at h2
    rw [h1] at h2
    by_cases e : n = h.path
    · rw [if_pos e] at h2; cases h2
    · rw [if_neg e] at h2
      exact e (hp.handle_name h2.symm ho hh)

/-- Dropping a handle. -/
theorem dropSheet_cases {env : Env} {p : Pkg} (hp : p.Inv) {h : SheetHandle} {k hr : Nat} (hk : h.path = sheetName k)
    (hrel : h.rels = ⟨[], hr, sheetRelsName k⟩) (ho : aget h.path p.opened = some (openFrom h.handle worksheetTemplate bareDoc))
    (hro : aget (sheetRelsName k) p.opened = some (openFrom hr relsTemplate relsTemplate.doc))
    (hra : aget (sheetRelsName k) p.archive = none) :
    (∃ e, h.data.save bareDoc = .error e ∧ closeSheet env p h = (.error e, p) ∧ dropSheet env p h = p) ∨
    ∃ xd p', h.data.save bareDoc = .ok xd ∧ closeSheet env p h = (.ok (), p') ∧ dropSheet env p h = p' ∧ dropSheet env p' h = p' ∧ p'.Inv ∧
      (∀ n, aget n p'.opened = if n = h.path then none else aget n p.opened) ∧
      ∀ n, aget n p'.archive = if n = h.path then some (sheetPart env xd) else aget n p.archive := by
  rcases closeSheet_cases (env := env) hp ho with ⟨e, h1, h2⟩ | ⟨xd, p', h1, h2, hi, hn, h3, h4⟩
  · refine .inl ⟨e, h1, h2, ?_⟩
    unfold dropSheet
    rw [h2, hrel, closeRels_noop hp hro hra]
  · have hne : sheetRelsName k ≠ h.path := by rw [hk]; exact (sheetName_ne_rels k k).symm
    have hro' : aget (sheetRelsName k) p'.opened = some (openFrom hr relsTemplate relsTemplate.doc) := by rw [h3, if_neg hne]; exact hro
    have hra' : aget (sheetRelsName k) p'.archive = none := by rw [h4, if_neg hne]; exact hra
    refine .inr ⟨xd, p', h1, h2, ?_, ?_, hi, h3, h4⟩
    · unfold dropSheet
      rw [h2, hrel, closeRels_noop hi hro' hra']
    · have hcl : closeSheet env p' h = (.ok (), p') := by
        unfold closeSheet
        rw [hn]
        simp only
        rw [Pkg.close_closed (by rw [h3, if_pos rfl])]
      unfold dropSheet
      rw [hcl, hrel, closeRels_noop hi hro' hra']

/-- Deleting through a handle does to the package what dropping it does. -/
theorem deleteSheet_pkg {env : Env} {x : Excel} {h : SheetHandle} {k hr : Nat} (hp : x.pkg.Inv) (hk : h.path = sheetName k)
    (hrel : h.rels = ⟨[], hr, sheetRelsName k⟩) (ho : aget h.path x.pkg.opened = some (openFrom h.handle worksheetTemplate bareDoc))
    (hro : aget (sheetRelsName k) x.pkg.opened = some (openFrom hr relsTemplate relsTemplate.doc))
    (hra : aget (sheetRelsName k) x.pkg.archive = none) :
    (x.deleteSheet env h).2.pkg = dropSheet env x.pkg h := by
  have hd : x.pkg.delete h.path = x.pkg := Pkg.delete_absent (by
    rw [aget_eq_none_iff]
    exact fun hm => hp.disjoint _ (mem_akeys_of_aget ho) hm)
  unfold Excel.deleteSheet
  simp only [hd]
  rcases dropSheet_cases (env := env) hp hk hrel ho hro hra with ⟨e, _, h2, h3⟩ | ⟨xd, p', _, h2, h3, h4, _⟩
  · rw [h2]
  · rw [h2, h3]; exact h4

/-! ## The invariant is kept -/

section
variable {env : Env} {theme : XDoc} {p : Pkg} {hs : List SheetHandle}

theorem SheetsInv.noSheetRels (hI : SheetsInv env theme p hs) {k : Nat} (h : ¬ holds p (sheetName k)) : ¬ holds p (sheetRelsName k) :=
  not_holds.mpr ⟨hI.noRels k h, hI.relsClosed k⟩

theorem SheetsInv.fresh (hI : SheetsInv env theme p hs) {p' : Pkg} {k h hr : Nat} {d : Sheet} {nm : String} (hk : ¬ holds p (sheetName k)) (hi : p'.Inv)
    (ha : ∀ n, aget n p'.archive = aget n p.archive)
    (ho : ∀ n, aget n p'.opened = if n = sheetName k then some (openFrom h worksheetTemplate bareDoc)
        else if n = sheetRelsName k then some (openFrom hr relsTemplate relsTemplate.doc) else aget n p.opened) :
    SheetsInv env theme p' (hs ++ [{ handle := h, rels := ⟨[], hr, sheetRelsName k⟩, data := d, path := sheetName k, name := nm }]) := by
  have hrk := hI.noSheetRels hk
  obtain ⟨hk1, hk2⟩ := not_holds.mp hk
  have ho1 : ∀ j, j ≠ k → aget (sheetName j) p'.opened = aget (sheetName j) p.opened := by
    intro j hj
    rw [ho, if_neg (fun e => hj (sheetName_inj e)), if_neg (sheetName_ne_rels j k)]
  have ho2 : ∀ j, j ≠ k → aget (sheetRelsName j) p'.opened = aget (sheetRelsName j) p.opened := by
    intro j hj
    rw [ho, if_neg (fun e => sheetName_ne_rels k j e.symm), if_neg (fun e => hj (sheetRelsName_inj e))]
  have ho3 : aget (sheetRelsName k) p'.opened = some (openFrom hr relsTemplate relsTemplate.doc) := by
    rw [ho, if_neg (fun e => sheetName_ne_rels k k e.symm), if_pos rfl]
  have hh : ∀ j, j ≠ k → (holds p' (sheetName j) ↔ holds p (sheetName j)) := by
    intro j hj
    rw [← not_iff_not', not_holds, not_holds, ho1 j hj, ha]
  refine ⟨hi, ?_, ?_, ?_, ?_, ?_, ?_, ?_, ?_, ?_⟩
  · intro n hn
    rw [ho, if_neg (sheetName_ne_base hn), if_neg (sheetRelsName_ne_base hn)]
    exact hI.base n hn
  · intro n hn
    by_cases e : n = sheetName k
    · exact .inr ⟨k, .inl e⟩
    by_cases e' : n = sheetRelsName k
    · exact .inr ⟨k, .inr e'⟩
    apply hI.only
    apply Classical.byContradiction
    intro hc
    rw [not_holds] at hc
    apply not_holds.mpr ?_ hn
    rw [ho, if_neg e, if_neg e', ha]
    exact hc
  · intro j hj
    by_cases e : j = k
    · subst e; exact ⟨hr, ho3⟩
    · rw [ho2 j e]; exact hI.rels j ((hh j e).mp hj)
  · intro j hj
    by_cases e : j = k
    · subst e
      exact absurd (holds_of_opened (by rw [ho, if_pos rfl])) hj
    · rw [ho2 j e]; exact hI.noRels j (fun h => hj ((hh j e).mpr h))
  · intro j; rw [ha]; exact hI.relsClosed j
  · intro j e he; rw [ha] at he; exact hI.closed j e he
  · intro j o hj
    by_cases e : j = k
    · subst e
      rw [ho, if_pos rfl] at hj
      cases hj
      exact ⟨rfl, .inl rfl⟩
    · rw [ho1 j e] at hj; exact hI.opened j o hj
  · intro g hg
    rcases List.mem_append.mp hg with hg | hg
    · obtain ⟨j, gr, h1, h2, h3, h4⟩ := hI.handles g hg
      have e : j ≠ k := by
        intro e; subst e
        rw [hk1] at h3; cases h3
      exact ⟨j, gr, h1, h2, by rw [ho1 j e]; exact h3, by rw [ho2 j e]; exact h4⟩
    · rw [List.mem_singleton] at hg
      subst hg
      exact ⟨k, hr, rfl, rfl, by rw [ho, if_pos rfl], ho3⟩
  · rw [List.map_append, List.nodup_append]
    refine ⟨hI.nodup, by simp, ?_⟩
    intro a ha' b hb hab
    simp only [List.map_cons, List.map_nil, List.mem_singleton] at hb
    subst hb
    subst hab
    obtain ⟨g, hg, hgp⟩ := List.mem_map.mp ha'
    obtain ⟨j, gr, h1, _, h3, _⟩ := hI.handles g hg
    rw [hgp] at h1
    rw [sheetName_inj h1, ← h1, h1] at hk1
    rw [h3] at hk1; cases hk1

/-- A closed sheet comes back open, without a handle. -/
theorem SheetsInv.reopened (hI : SheetsInv env theme p hs) {p' : Pkg} {k h : Nat} {s : Sheet} {xd : XDoc} (hs' : s.save bareDoc = .ok xd)
    (hk : aget (sheetName k) p.archive = some (sheetPart env xd)) (hi : p'.Inv)
    (ha : ∀ n, aget n p'.archive = if n = sheetName k then none else aget n p.archive)
    (ho : ∀ n, aget n p'.opened = if n = sheetName k then some (openFrom h worksheetTemplate (reloadDoc env.build xd)) else aget n p.opened) :
    SheetsInv env theme p' hs := by
  have hk1 : aget (sheetName k) p.opened = none := by
    rw [aget_eq_none_iff]
    exact fun h => hI.inv.disjoint _ h (mem_akeys_of_aget hk)
  have ho1 : ∀ j, j ≠ k → aget (sheetName j) p'.opened = aget (sheetName j) p.opened := by
    intro j hj
    rw [ho, if_neg (fun e => hj (sheetName_inj e))]
  have ho2 : ∀ j, aget (sheetRelsName j) p'.opened = aget (sheetRelsName j) p.opened := by
    intro j
    rw [ho, if_neg (fun e => sheetName_ne_rels k j e.symm)]
  have hh : ∀ n, (holds p' n ↔ holds p n) := by
    intro n
    by_cases e : n = sheetName k
    · subst e
      exact ⟨fun _ => holds_of_archive hk, fun _ => holds_of_opened (by rw [ho, if_pos rfl])⟩
    · rw [← not_iff_not', not_holds, not_holds, ho, ha, if_neg e, if_neg e]
  refine ⟨hi, ?_, ?_, ?_, ?_, ?_, ?_, ?_, ?_, hI.nodup⟩
  · intro n hn
    rw [ho, if_neg (sheetName_ne_base hn)]
    exact hI.base n hn
  · intro n hn; exact hI.only n ((hh n).mp hn)
  · intro j hj; rw [ho2]; exact hI.rels j ((hh _).mp hj)
  · intro j hj; rw [ho2]; exact hI.noRels j (fun h => hj ((hh _).mpr h))
  · intro j; rw [ha, if_neg (fun e => sheetName_ne_rels k j e.symm)]; exact hI.relsClosed j
  · intro j e he
    rw [ha] at he
    split at he
    · cases he
    · exact hI.closed j e he
  · intro j o hj
    by_cases e : j = k
    · subst e
      rw [ho, if_pos rfl] at hj
      cases hj
      exact ⟨rfl, .inr ⟨s, xd, hs', rfl⟩⟩
    · rw [ho1 j e] at hj; exact hI.opened j o hj
  · intro g hg
    obtain ⟨j, gr, h1, h2, h3, h4⟩ := hI.handles g hg
    have e : j ≠ k := by
      intro e; subst e
      rw [hk1] at h3; cases h3
    exact ⟨j, gr, h1, h2, by rw [ho1 j e]; exact h3, by rw [ho2]; exact h4⟩

theorem SheetsInv.dropCases (hI : SheetsInv env theme p hs) {h : SheetHandle} (hm : h ∈ hs) :
    ∃ k, h.path = sheetName k ∧
    ((∃ e, h.data.save bareDoc = .error e ∧ closeSheet env p h = (.error e, p) ∧ dropSheet env p h = p) ∨
    ∃ xd p', h.data.save bareDoc = .ok xd ∧ closeSheet env p h = (.ok (), p') ∧ dropSheet env p h = p' ∧ dropSheet env p' h = p' ∧ p'.Inv ∧
      (∀ n, aget n p'.opened = if n = h.path then none else aget n p.opened) ∧
      ∀ n, aget n p'.archive = if n = h.path then some (sheetPart env xd) else aget n p.archive) := by
  obtain ⟨k, hr, h1, h2, h3, h4⟩ := hI.handles h hm
  exact ⟨k, h1, dropSheet_cases hI.inv h1 h2 (h1 ▸ h3) h4 (hI.relsClosed k)⟩

theorem SheetsInv.sub (hI : SheetsInv env theme p hs) {hs' : List SheetHandle} (h : hs'.Sublist hs) : SheetsInv env theme p hs' :=
  { hI with handles := fun g hg => hI.handles g (h.subset hg), nodup := hI.nodup.sublist (h.map _) }

/-- Dropping a handle, or deleting through it. -/
theorem SheetsInv.dropped (hI : SheetsInv env theme p hs) {i : Nat} {h : SheetHandle} (hm : hs[i]? = some h) :
    SheetsInv env theme (dropSheet env p h) (hs.eraseIdx i) := by
  have hmem := List.mem_of_getElem? hm
  obtain ⟨k, hk, hc⟩ := hI.dropCases hmem
  rcases hc with ⟨_, _, _, e⟩ | ⟨xd, p', hsv, _, e, _, hi, ho, ha⟩
  · rw [e]; exact hI.sub (List.eraseIdx_sublist _ _)
  · rw [e]
    obtain ⟨k', hr, h1, h2, h3, h4⟩ := hI.handles h hmem
    rw [hk] at ho ha
    have ho1 : ∀ j, j ≠ k → aget (sheetName j) p'.opened = aget (sheetName j) p.opened := by
      intro j hj
      rw [ho, if_neg (fun e => hj (sheetName_inj e))]
    have ho2 : ∀ j, aget (sheetRelsName j) p'.opened = aget (sheetRelsName j) p.opened := by
      intro j
      rw [ho, if_neg (fun e => sheetName_ne_rels k j e.symm)]
    have hkk : k' = k := sheetName_inj (h1.symm.trans hk)
    subst hkk
    have hh : ∀ n, (holds p' n ↔ holds p n) := by
      intro n
      by_cases e : n = sheetName k'
      · subst e
        exact ⟨fun _ => holds_of_opened h3, fun _ => holds_of_archive (by rw [ha, if_pos rfl])⟩
      · rw [← not_iff_not', not_holds, not_holds, ho, ha, if_neg e, if_neg e]
    refine ⟨hi, ?_, ?_, ?_, ?_, ?_, ?_, ?_, ?_, hI.nodup.sublist ((List.eraseIdx_sublist _ _).map _)⟩
    · intro n hn
      rw [ho, if_neg (sheetName_ne_base hn)]
      exact hI.base n hn
    · intro n hn; exact hI.only n ((hh n).mp hn)
    · intro j hj; rw [ho2]; exact hI.rels j ((hh _).mp hj)
    · intro j hj; rw [ho2]; exact hI.noRels j (fun h => hj ((hh _).mpr h))
    · intro j; rw [ha, if_neg (fun e => sheetName_ne_rels k' j e.symm)]; exact hI.relsClosed j
    · intro j e he
      by_cases ej : j = k'
      · subst ej
        rw [ha, if_pos rfl] at he
        cases he
        exact ⟨h.data, xd, hsv, rfl⟩
      · rw [ha, if_neg (fun e => ej (sheetName_inj e))] at he
        exact hI.closed j e he
    · intro j o hj
      by_cases e : j = k'
      · subst e
        rw [ho, if_pos rfl] at hj
        cases hj
      · rw [ho1 j e] at hj; exact hI.opened j o hj
    · intro g hg
      obtain ⟨j, gr, g1, g2, g3, g4⟩ := hI.handles g ((List.eraseIdx_sublist _ _).subset hg)
      have e : j ≠ k' := by
        intro e; subst e
        have hnd := hI.nodup
        obtain ⟨a, hai, hag⟩ := List.mem_eraseIdx_iff_getElem?.mp hg
        have e1 : (hs.map SheetHandle.path)[a]? = some (sheetName j) := by rw [List.getElem?_map, hag]; exact congrArg some g1
        have e2 : (hs.map SheetHandle.path)[i]? = some (sheetName j) := by rw [List.getElem?_map, hm]; exact congrArg some hk
        have hlt := (List.getElem?_eq_some_iff.mp e1).1
        exact hai ((List.getElem?_inj hlt hnd).mp (e1.trans e2.symm))
      exact ⟨j, gr, g1, g2, by rw [ho1 j e]; exact g3, by rw [ho2]; exact g4⟩

theorem SheetsInv.setData (hI : SheetsInv env theme p hs) {i : Nat} {h : SheetHandle} {d : Sheet} (hm : hs[i]? = some h) :
    SheetsInv env theme p (hs.set i { h with data := d }) := by
  refine { hI with handles := ?_, nodup := ?_ }
  · intro g hg
    rcases List.mem_or_eq_of_mem_set hg with hg | hg
    · exact hI.handles g hg
    · subst hg; exact hI.handles h (List.mem_of_getElem? hm)
  · rw [List.map_set]
    have : (hs.map SheetHandle.path).set i h.path = hs.map SheetHandle.path := by
      apply List.ext_getElem?
      intro j
      rw [List.getElem?_set]
      split
      · rename_i e
        subst e
        rw [List.getElem?_map, hm]
        have := (List.getElem?_eq_some_iff.mp hm).1
        simp [this]
      · rfl
    change ((hs.map SheetHandle.path).set i h.path).Nodup
    rw [this]
    exact hI.nodup

end

end Oxml
