import Verif.Proofs.ExistingSheets
/-!
# Asking for a sheet of an existing workbook again
-/
namespace Oxml
open Spec

variable {env : Env}

theorem split_unique {a b a' b' : List Char} (h : a ++ '/' :: b = a' ++ '/' :: b') (hb : '/' ∉ b) (hb' : '/' ∉ b') : a = a' ∧ b = b' := by
  induction a generalizing a' with
  | nil =>
    cases a' with
    | nil => cases h; exact ⟨rfl, rfl⟩
    | cons c a' =>
      rw [List.nil_append, List.cons_append] at h
      cases h
      exact absurd (by simp) hb
  | cons c a ih =>
    cases a' with
    | nil =>
      rw [List.nil_append, List.cons_append] at h
      cases h
      exact absurd (by simp) hb'
    | cons c' a' =>
      rw [List.cons_append, List.cons_append] at h
      injection h with h1 h2
      obtain ⟨e1, e2⟩ := ih h2
      exact ⟨by rw [h1, e1], e2⟩

theorem isRelsOf_unique {n m path : String} (h : IsRelsOf n path) (h' : IsRelsOf m path) : n = m := by
  obtain ⟨d, b, e1, e2, e3⟩ := h
  obtain ⟨d', b', f1, f2, f3⟩ := h'
  obtain ⟨rfl, rfl⟩ := split_unique (e1.symm.trans f1) e2 f2
  exact String.toList_injective (e3.trans f3.symm)

/-! ## The relationship part while the handle is kept -/

/-- While the handle numbered `k` is kept, its relationships stay the same and their part open. -/
structure Holding (k : Nat) (rel0 : RelPart) (o : OpenDoc) (s : Session) : Prop where
  live : LiveSess s
  old : k < s.x.pkg.nextHandle
  held : ∀ g ∈ s.handles, g.handle = k → g.rels = rel0 ∧ Still rel0.path o s.x.pkg

theorem Holding.aside {k : Nat} {rel0 : RelPart} {o : OpenDoc} {s : Session} (h : Holding k rel0 o s) {i : Nat}
    {a g : SheetHandle} (hi : s.handles[i]? = some a) (hg : g ∈ s.handles.eraseIdx i) (hk : g.handle = k) :
    (g.rels = rel0 ∧ Still rel0.path o s.x.pkg) ∧ a.path ≠ rel0.path ∧ o.handle ≠ a.handle ∧ a.rels.path ≠ rel0.path ∧ o.handle ≠ a.rels.handle := by
  have hm := List.mem_of_mem_eraseIdx hg
  obtain ⟨h1, h2⟩ := h.held g hm hk
  obtain ⟨o1, o2, _, h4, _⟩ := LivePkg.others h.live hi
  have := h4 (g.rels.path, g.rels.handle) (List.mem_append_right _ (List.mem_flatMap.mpr ⟨g, hg, by simp⟩))
  rw [h1] at this
  obtain ⟨_, h5, h6⟩ := this
  exact ⟨⟨h1, h2⟩, Ne.symm h5, h2.handle_ne h.live.inv o1 (Ne.symm h5), Ne.symm h6, h2.handle_ne h.live.inv o2 (Ne.symm h6)⟩

theorem Holding.open {k : Nat} {rel0 : RelPart} {o : OpenDoc} {s : Session} (h : Holding k rel0 o s) (name : Option String) :
    Holding k rel0 o (s.open env name).2 := by
  obtain ⟨n1, n2⟩ := open_next (env := env) s name
  refine ⟨h.live.open env name, Nat.lt_of_lt_of_le h.old n1, ?_⟩
  intro g hg hk
  have : g ∈ s.handles := by
    rcases n2 with e | ⟨g', e, hnum⟩
    · rw [e] at hg; exact hg
    · rw [e] at hg
      rcases List.mem_append.mp hg with hg | hg
      · exact hg
      · rw [List.mem_singleton.mp hg] at hk
        have := h.old
        omega
  obtain ⟨a, b⟩ := h.held g this hk
  exact ⟨a, b.open h.live env name⟩

theorem Holding.step {k : Nat} {rel0 : RelPart} {o : OpenDoc} {s : Session} (h : Holding k rel0 o s) (op : WbOp) :
    Holding k rel0 o (s.step env op).2 := by
  have hlive := h.live.step env op
  have same : ∀ {s' : Session}, LiveSess s' → s'.x.pkg = s.x.pkg → s'.handles = s.handles → Holding k rel0 o s' := by
    intro s' h0 h1 h2
    exact ⟨h0, by rw [h1]; exact h.old, by rw [h1, h2]; exact h.held⟩
  cases op with
  | add name => exact h.open name
  | get name => exact h.open (some name)
  | sheet i op =>
    simp only [Session.step] at hlive ⊢
    cases hi : s.handles[i]? with
    | none => exact h
    | some a =>
      rw [hi] at hlive
      simp only at hlive ⊢
      cases hr : op.run env.build (a.data, s.x.strings.data) with
      | error e => exact h
      | ok st =>
        obtain ⟨d, table⟩ := st
        rw [hr] at hlive
        simp only at hlive ⊢
        refine ⟨hlive, h.old, ?_⟩
        intro g hg hk
        obtain ⟨j, hj⟩ := List.getElem?_of_mem hg
        rw [List.getElem?_set] at hj
        split at hj
        · split at hj
          · cases hj
            exact h.held a (List.mem_of_getElem? hi) hk
          · cases hj
        · exact h.held g (List.mem_of_getElem? hj) hk
  | drop i =>
    simp only [Session.step] at hlive ⊢
    cases hi : s.handles[i]? with
    | none => exact h
    | some a =>
      rw [hi] at hlive
      refine ⟨hlive, by simp only [dropSheet_next]; exact h.old, ?_⟩
      intro g hg hk
      obtain ⟨⟨h1, h2⟩, n1, n2, n3, n4⟩ := h.aside hi hg hk
      exact ⟨h1, h2.dropSheet env n1 n2 n3 n4⟩
  | delete i =>
    simp only [Session.step] at hlive ⊢
    cases hi : s.handles[i]? with
    | none => exact h
    | some a =>
      rw [hi] at hlive
      refine ⟨hlive, ?_, ?_⟩
      · simp only [Excel.deleteSheet, dropSheet_next, closeSheet_next]
        exact h.old
      · intro g hg hk
        obtain ⟨⟨h1, h2⟩, n1, n2, n3, n4⟩ := h.aside hi hg hk
        exact ⟨h1, ((h2.delete a.path).closeSheet env n1 n2).dropSheet env n1 n2 n3 n4⟩
  | rename old new =>
    simp only [Session.step] at hlive ⊢
    cases hr : renameSheet s.x.sheets old new with
    | error e => exact h
    | ok sheets => rw [hr] at hlive; exact same hlive rfl rfl
  | active name => exact same hlive rfl rfl
  | hide name => exact same hlive rfl rfl
  | view op => exact same hlive rfl rfl
  | style hs st =>
    simp only [Session.step] at hlive ⊢
    cases hr : getStyleId env.build hs s.x.styles.data st with
    | error e => exact h
    | ok p => rw [hr] at hlive; exact same hlive rfl rfl

theorem Holding.run {k : Nat} {rel0 : RelPart} {o : OpenDoc} {ops : List WbOp} {s s' : Session} (h : Holding k rel0 o s)
    (hr : s.run env ops = .ok s') : Holding k rel0 o s' := by
  induction ops generalizing s with
  | nil => cases hr; exact h
  | cons op ops ih => exact ih (h.step op) (run_cons hr)

/-- Dropping the handle writes the relationships to the archive, if there are any. -/
theorem drop_rels {s : Session} {i : Nat} {g : SheetHandle} {o : OpenDoc} {d' : XDoc} (hl : LiveSess s) (hg : s.handles[i]? = some g)
    (ho : Still g.rels.path o s.x.pkg) (hh : o.handle = g.rels.handle) (hs : saveRels o.doc g.rels.rels = .ok (d', true)) :
    QuietSess g.rels.path (some { ext := o.ext, extType := o.extType, ctype := o.ctype, content := renderDoc env.build env.stamp d' })
      (s.step env (.drop i)).2 := by
  obtain ⟨w1, w2, w3, w4, _⟩ := LivePkg.others hl hg
  simp only [Session.step, hg]
  refine ⟨⟨?_, ?_⟩, ?_⟩
  · have hi := Pkg.Inv.closeSheet hl.inv env g
    have hst : Still g.rels.path o (closeSheet env s.x.pkg g).2 := ho.closeSheet env w3 (ho.handle_ne hl.inv w1 w3)
    have hdoc := hi.docOf hst
    have hc : g.rels.close env (closeSheet env s.x.pkg g).2 =
        (.ok (), ((closeSheet env s.x.pkg g).2.update g.rels.handle (fun _ => d')).close env g.rels.path) := by
      unfold RelPart.close
      rw [← hh, hdoc]
      simp only [hs, if_true]
    show Quiet _ _ (dropSheet env s.x.pkg g)
    unfold dropSheet
    rw [hc, ← hh]
    have := Pkg.Inv.update_close hi env hst d' g.rels.path
    rw [if_pos rfl, if_pos rfl] at this
    exact ⟨this.1, this.2⟩
  · intro hm
    obtain ⟨k, hk⟩ := own_pair hm
    exact (w4 (g.rels.path, k) (List.mem_append_left _ hk)).2.2 rfl
  · intro a ha
    have h1 := (w4 (a.path, a.handle) (List.mem_append_right _ (List.mem_flatMap.mpr ⟨a, ha, by simp⟩))).2.2
    have h2 := (w4 (a.rels.path, a.rels.handle) (List.mem_append_right _ (List.mem_flatMap.mpr ⟨a, ha, by simp⟩))).2.2
    exact ⟨h1, h2⟩

/-! ## Asking again -/

/-- A sheet can be opened when both its parts are closed and can be read. -/
theorem openAt_ready {x1 : Excel} {path nm rp : String} {d dr : XDoc} {sh : Sheet} {rels : List Rel} (hi : x1.pkg.Inv)
    (h1 : aget path x1.pkg.opened = none) (h2 : Ready env x1.pkg worksheetTemplate path d) (h3 : sheetRelsPath path = some rp) (hne : rp ≠ path)
    (h4 : aget rp x1.pkg.opened = none) (h5 : Ready env x1.pkg relsTemplate rp dr) (h6 : (loadRels dr).1 = .ok rels)
    (h7 : (Sheet.load env d).1 = .ok sh) : ∃ g x2, openAt env x1 path nm = (.ok g, x2) ∧ g.data = sh ∧ g.path = path ∧ g.name = nm ∧ g.rels.rels = rels := by
  obtain ⟨hd, p2, ho1⟩ : ∃ hd p2, x1.pkg.openPart env (.ok worksheetTemplate) path = (.ok hd, p2) := by
    rcases h2 with ⟨a, _⟩ | ⟨e, dd, a, b, _⟩
    · exact ⟨_, _, openPart_fresh h1 a⟩
    · exact ⟨_, _, openPart_read h1 a b⟩
  obtain ⟨i1, w0, w1, ⟨o, w2, w3, w4⟩, w5⟩ := openPart_full hi ho1
  have s1 : Still path o p2 := w2
  have hdoc : o.doc = d := h2.source w4
  have h4' : aget rp p2.opened = none := by rw [(w5 rp hne).2]; exact h4
  have h5' : Ready env p2 relsTemplate rp dr := by unfold Ready at h5 ⊢; rw [(w5 rp hne).1]; exact h5
  obtain ⟨hd2, p3, ho2⟩ : ∃ hd p3, p2.openPart env (.ok relsTemplate) rp = (.ok hd, p3) := by
    rcases h5' with ⟨a, _⟩ | ⟨e, dd, a, b, _⟩
    · exact ⟨_, _, openPart_fresh h4' a⟩
    · exact ⟨_, _, openPart_read h4' a b⟩
  obtain ⟨i2, _, _, ⟨o2, v2, v3, v4⟩, _⟩ := openPart_full i1 ho2
  have hdoc2 : o2.doc = dr := h5'.source v4
  have hof : p3.docOf hd2 = some dr := by rw [← v3, ← hdoc2]; exact i2.docOf v2
  have hnew : RelPart.new env p2 rp = (.ok ⟨rels, hd2, rp⟩, p3.update hd2 (fun _ => (loadRels dr).2)) := by
    unfold RelPart.new
    rw [ho2]
    simp only [hof]
    split
    · next e' => rw [e'] at h6; cases h6
    · next e' => rw [e'] at h6 ⊢; cases h6; rfl
  have s2 := s1.relNew i1 env rp
  have i3 := i1.relNew env rp
  rw [hnew] at s2 i3
  have hof2 := i3.docOf s2
  rw [w3, hdoc] at hof2
  unfold openAt
  rw [ho1]
  simp only [h3, hnew, hof2]
  split
  · next e' => rw [e'] at h7; cases h7
  · next e' => rw [e'] at h7; cases h7; exact ⟨_, _, rfl, rfl, rfl, rfl, rfl⟩

/-- Asking for a sheet stored in a part. -/
theorem get_ready {s : Session} {name path rp : String} {d dr : XDoc} {sh : Sheet} {rels : List Rel} (hi : s.x.pkg.Inv) (hn : StoredIn s.x name path)
    (h1 : aget path s.x.pkg.opened = none) (h2 : Ready env s.x.pkg worksheetTemplate path d) (h3 : sheetRelsPath path = some rp) (hne : rp ≠ path)
    (h4 : aget rp s.x.pkg.opened = none) (h5 : Ready env s.x.pkg relsTemplate rp dr) (h6 : (loadRels dr).1 = .ok rels)
    (h7 : (Sheet.load env d).1 = .ok sh) :
    ∃ g s', s.step env (.get name) = (.ok (), s') ∧ s'.handles = s.handles ++ [g] ∧ g.data = sh ∧ g.path = path ∧ g.name = name ∧ g.rels.rels = rels := by
  obtain ⟨e, r, n1, n2, n3⟩ := hn
  have hf : s.x.sheetFile (some name) = (.ok (path, name), s.x) := by
    have hm : e.name = name := by have := List.find?_some n1; simpa using this
    unfold Excel.sheetFile
    simp only [Option.bind_some, n1]
    have ht : targetById s.x.rels.path s.x.rels.rels e.relId = .ok (some path) := by
      unfold targetById
      rw [n2]
      simp only [n3]
    rw [ht]
    simp only [hm]
  obtain ⟨g, x2, e1, e2, e3, e4, e5⟩ := openAt_ready (nm := name) hi h1 h2 h3 hne h4 h5 h6 h7
  refine ⟨g, ⟨x2, s.handles ++ [g]⟩, ?_, rfl, e2, e3, e4, e5⟩
  simp only [Session.step, Session.open]
  rw [openSheet_eq, hf]
  simp only [e1]

/-! ## Parts nobody closes -/

/-- The part is open, and no handle works on it. -/
structure Orphan (n : String) (o : OpenDoc) (s : Session) : Prop where
  live : LiveSess s
  still : Still n o s.x.pkg
  handles : ∀ g ∈ s.handles, g.path ≠ n ∧ g.rels.path ≠ n

theorem Orphan.open {n : String} {o : OpenDoc} {s : Session} (h : Orphan n o s) (name : Option String) : Orphan n o (s.open env name).2 := by
  refine ⟨h.live.open env name, h.still.open h.live env name, ?_⟩
  · cases e : s.open env name with
    | mk r s1 =>
      cases r with
      | error er =>
        have : s1.handles = s.handles := by
          unfold Session.open at e
          split at e
          · cases e; rfl
          · cases e
        rw [this]; exact h.handles
      | ok u =>
        obtain ⟨g, o', d, e1, _, _, _, c1, _, rp, ro, _, _, c2, c3, _⟩ := open_ok h.live e
        intro a ha
        rw [e1] at ha
        rcases List.mem_append.mp ha with ha | ha
        · exact h.handles a ha
        · rw [List.mem_singleton.mp ha]
          constructor
          · intro e'; rw [e', h.still] at c1; cases c1
          · intro e'; rw [← c2, e', h.still] at c3; cases c3

theorem Orphan.handle {n : String} {o : OpenDoc} {s : Session} (h : Orphan n o s) {i : Nat} {a : SheetHandle} (hi : s.handles[i]? = some a) :
    a.path ≠ n ∧ o.handle ≠ a.handle ∧ a.rels.path ≠ n ∧ o.handle ≠ a.rels.handle := by
  obtain ⟨h1, h2⟩ := h.handles a (List.mem_of_getElem? hi)
  obtain ⟨o1, o2, _⟩ := LivePkg.others h.live hi
  exact ⟨h1, h.still.handle_ne h.live.inv o1 h1, h2, h.still.handle_ne h.live.inv o2 h2⟩

theorem Orphan.step {n : String} {o : OpenDoc} {s : Session} (h : Orphan n o s) (op : WbOp) : Orphan n o (s.step env op).2 := by
  have hlive := h.live.step env op
  have same : ∀ {s' : Session}, LiveSess s' → s'.x.pkg = s.x.pkg → s'.handles = s.handles → Orphan n o s' := by
    intro s' h0 h1 h2
    exact ⟨h0, by rw [h1]; exact h.still, by rw [h2]; exact h.handles⟩
  cases op with
  | add name => exact h.open name
  | get name => exact h.open (some name)
  | sheet i op =>
    simp only [Session.step] at hlive ⊢
    cases hi : s.handles[i]? with
    | none => exact h
    | some a =>
      rw [hi] at hlive
      simp only at hlive ⊢
      cases hr : op.run env.build (a.data, s.x.strings.data) with
      | error e => exact h
      | ok st =>
        obtain ⟨d, table⟩ := st
        rw [hr] at hlive
        simp only at hlive ⊢
        refine ⟨hlive, h.still, ?_⟩
        intro g hg
        obtain ⟨j, hj⟩ := List.getElem?_of_mem hg
        rw [List.getElem?_set] at hj
        split at hj
        · split at hj
          · cases hj
            exact h.handles a (List.mem_of_getElem? hi)
          · cases hj
        · exact h.handles g (List.mem_of_getElem? hj)
  | drop i =>
    simp only [Session.step] at hlive ⊢
    cases hi : s.handles[i]? with
    | none => exact h
    | some a =>
      rw [hi] at hlive
      obtain ⟨n1, n2, n3, n4⟩ := h.handle hi
      exact ⟨hlive, h.still.dropSheet env n1 n2 n3 n4, fun g hg => h.handles g (List.mem_of_mem_eraseIdx hg)⟩
  | delete i =>
    simp only [Session.step] at hlive ⊢
    cases hi : s.handles[i]? with
    | none => exact h
    | some a =>
      rw [hi] at hlive
      obtain ⟨n1, n2, n3, n4⟩ := h.handle hi
      exact ⟨hlive, ((h.still.delete a.path).closeSheet env n1 n2).dropSheet env n1 n2 n3 n4, fun g hg => h.handles g (List.mem_of_mem_eraseIdx hg)⟩
  | rename old new =>
    simp only [Session.step] at hlive ⊢
    cases hr : renameSheet s.x.sheets old new with
    | error e => exact h
    | ok sheets => rw [hr] at hlive; exact same hlive rfl rfl
  | active name => exact same hlive rfl rfl
  | hide name => exact same hlive rfl rfl
  | view op => exact same hlive rfl rfl
  | style hs st =>
    simp only [Session.step] at hlive ⊢
    cases hr : getStyleId env.build hs s.x.styles.data st with
    | error e => exact h
    | ok p => rw [hr] at hlive; exact same hlive rfl rfl

theorem Orphan.run {n : String} {o : OpenDoc} {ops : List WbOp} {s s' : Session} (h : Orphan n o s) (hr : s.run env ops = .ok s') : Orphan n o s' := by
  induction ops generalizing s with
  | nil => cases hr; exact h
  | cons op ops ih => exact ih (h.step op) (run_cons hr)

/-- Dropping the handle of a sheet without relationships leaves the relationship part open. -/
theorem drop_orphan {s : Session} {i : Nat} {g : SheetHandle} {o : OpenDoc} {d' : XDoc} (hl : LiveSess s) (hg : s.handles[i]? = some g)
    (ho : Still g.rels.path o s.x.pkg) (hh : o.handle = g.rels.handle) (hs : saveRels o.doc g.rels.rels = .ok (d', false)) :
    Orphan g.rels.path { o with doc := d' } (s.step env (.drop i)).2 := by
  obtain ⟨w1, w2, w3, w4, _⟩ := LivePkg.others hl hg
  have hlive := hl.step env (.drop i)
  simp only [Session.step, hg] at hlive ⊢
  refine ⟨hlive, ?_, ?_⟩
  · have hi := Pkg.Inv.closeSheet hl.inv env g
    have hst : Still g.rels.path o (closeSheet env s.x.pkg g).2 := ho.closeSheet env w3 (ho.handle_ne hl.inv w1 w3)
    have hdoc := hi.docOf hst
    have hc : g.rels.close env (closeSheet env s.x.pkg g).2 =
        (.ok (), ((closeSheet env s.x.pkg g).2.update g.rels.handle (fun _ => d')).delete g.rels.path) := by
      unfold RelPart.close
      rw [← hh, hdoc]
      simp only [hs, Bool.false_eq_true, if_false]
    show Still _ _ (dropSheet env s.x.pkg g)
    unfold dropSheet
    rw [hc, ← hh]
    refine Still.delete ?_ _
    have := hi.aget_update hst (fun _ => d') g.rels.path
    rw [if_pos rfl] at this
    exact this
  · intro a ha
    have h1 := (w4 (a.path, a.handle) (List.mem_append_right _ (List.mem_flatMap.mpr ⟨a, ha, by simp⟩))).2.2
    have h2 := (w4 (a.rels.path, a.rels.handle) (List.mem_append_right _ (List.mem_flatMap.mpr ⟨a, ha, by simp⟩))).2.2
    exact ⟨h1, h2⟩

/-- A sheet whose relationship part is open cannot be asked for. -/
theorem get_busy {s : Session} {name path rp : String} {o : OpenDoc} (hl : LiveSess s) (hn : StoredIn s.x name path) (h3 : sheetRelsPath path = some rp)
    (hb : Still rp o s.x.pkg) : ∃ e, (s.step env (.get name)).1 = .error e := by
  cases e : s.step env (.get name) with
  | mk r s1 =>
    cases r with
    | error er => exact ⟨er, rfl⟩
    | ok u =>
      exfalso
      obtain ⟨g, o', d, e1, _, _, _, c1, _, rp', ro, c4, _, c2, c3, _⟩ := get_ok hl e
      have hp : g.path = path := by
        obtain ⟨e', r, n1, n2, n3⟩ := hn
        simp only [Session.step, Session.open] at e
        rw [openSheet_eq] at e
        have hm : name ∈ names s.x.sheets := by
          unfold names
          refine List.mem_map.mpr ⟨e', List.mem_of_find?_eq_some n1, ?_⟩
          have := List.find?_some n1; simpa using this
        obtain ⟨r', f1, f2⟩ := sheetFile_listed hm
        rw [f1] at e
        cases r' with
        | error er => cases e
        | ok pn =>
          obtain ⟨p', nm⟩ := pn
          obtain ⟨_, e2, _, _, f3, f4⟩ := f2 p' nm rfl
          rw [n1] at f3; cases f3
          unfold targetById at f4
          rw [n2] at f4
          simp only [n3] at f4
          cases f4
          simp only at e
          cases ha : openAt env s.x path nm with
          | mk ra x2 =>
            rw [ha] at e
            cases ra with
            | error er => cases e
            | ok g' =>
              cases e
              obtain ⟨_, _, _, _, _, h4, _⟩ := openAt_ok hl.inv ha
              have : g' = g := by
                have := List.append_cancel_left e1
                exact List.singleton_inj.mp this
              rw [← this]; exact h4
      rw [hp, h3] at c4
      cases c4
      rw [hb] at c3
      cases c3

end Oxml
