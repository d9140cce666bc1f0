import Verif.Spec.NewSheets
import Verif.Props.Sessions
/-!
# C99: adding a sheet
-/
namespace Oxml
open Spec

variable {env : Env} {theme : XDoc}

theorem freeSheetLoop_taken (p : Pkg) (dir : String) (fuel n j : Nat) (h1 : n ≤ j) (h2 : j < freeSheetLoop p dir fuel n) :
    sheetPath dir j ∈ akeys p.archive := by
  induction fuel generalizing n with
  | zero => rw [freeSheetLoop] at h2; omega
  | succ f ih =>
    rw [freeSheetLoop] at h2
    split at h2
    · next hc =>
      by_cases e : j = n
      · subst e
        unfold Pkg.checkFileExist at hc
        exact (ahas_iff _ _).mp hc
      · exact ih (n + 1) (by omega) h2
    · omega

theorem nextSheet_firstFree (x : Excel) : FirstFree x (nextSheet x) := by
  refine ⟨freeSheet_ge x.pkg "xl/" _, (aget_eq_none_iff _ _).mp (freeSheet_free x.pkg _), ?_⟩
  intro j h1 h2
  have := freeSheetLoop_taken x.pkg "xl/" _ _ j h1 h2
  rwa [sheetPath_eq] at this

theorem firstFree_unique {x : Excel} {j k : Nat} (hj : FirstFree x j) (hk : FirstFree x k) : j = k := by
  rcases Nat.lt_trichotomy j k with h | h | h
  · exact absurd (hk.2.2 j hj.1 h) hj.2.1
  · exact h
  · exact absurd (hj.2.2 k hk.1 h) hk.2.1

/-- What adding a sheet under a new name does. -/
theorem add_cases (hst : env.build.release = true → StampOk env.stamp) {s : Session} (h : SessInv env theme s) {name : Option String}
    (hn : ∀ n, name = some n → n ∉ names s.x.sheets) :
    (∃ p', ¬ holds s.x.pkg (sheetName (nextSheet s.x)) ∧ s.step env (.add name) = (.ok (), ⟨{ listed s.x name with pkg := p' }, s.handles ++
        [{ handle := s.x.pkg.nextHandle, rels := ⟨[], s.x.pkg.nextHandle + 1, sheetRelsName (nextSheet s.x)⟩, data := emptySheet,
           path := sheetName (nextSheet s.x), name := (newEntry s.x name).name }]⟩) ∧
        ∀ k, holds p' (sheetName k) → k = nextSheet s.x ∨ holds s.x.pkg (sheetName k)) ∨
    (∃ o, aget (sheetName (nextSheet s.x)) s.x.pkg.opened = some o ∧
      s.step env (.add name) = (.error (.fail "Please close the Existing object before creating new handle"), ⟨listed s.x name, s.handles⟩)) := by
  have hc := BookInv.openCase hst h name
  simp only [Session.step]
  unfold Session.open
  cases hos : s.x.openSheet env name with
  | mk r x1 =>
    rw [hos] at hc
    simp only at hc ⊢
    cases hc with
    | fresh p' h1 h2 h3 ha ho =>
      refine .inl ⟨p', h2, rfl, ?_⟩
      intro k hk
      by_cases e : k = nextSheet s.x
      · exact .inl e
      · refine .inr ?_
        apply Classical.byContradiction
        intro hnk
        apply not_holds.mpr _ hk
        rw [ha, ho, if_neg (fun e' => e (sheetName_inj e')), if_neg (sheetName_ne_rels _ _)]
        exact not_holds.mp hnk
    | busyNew o h1 h2 => exact .inr ⟨o, h2, rfl⟩
    | dangling n h1 h2 => exact absurd h2 (hn n h1)
    | busyOld n k o h1 h2 => exact absurd h2 (hn n h1)
    | reopened n k s' xd p' h1 h2 => exact absurd h2 (hn n h1)

theorem listed_leads {s : Session} (h : SessInv env theme s) (name : Option String) :
    SheetLeadsTo (listed s.x name) (newEntry s.x name) (sheetName (nextSheet s.x)) := by
  have hb : BookInv env theme s.x s.handles := h
  refine ⟨sheetRel (nextRelId s.x.rels.rels) (nextSheet s.x), ?_, ?_⟩
  · change (s.x.rels.rels ++ [sheetRel (nextRelId s.x.rels.rels) (nextSheet s.x)]).find? _ = _
    rw [List.find?_append, List.find?_eq_none.mpr]
    · simp [newEntry, sheetRel]
    · intro r hr he
      have : r.id = nextRelId s.x.rels.rels := by simpa [newEntry] using he
      exact nextRelId_fresh s.x.rels.rels (this ▸ List.mem_map_of_mem hr)
  · change resolveTarget s.x.rels.path ("/" ++ sheetName (nextSheet s.x)) = _
    rw [resolve_abs hb.dir]

/-- **C99, exactly when.** In every history of a new workbook a sheet with a new name is added unless the part it would get is open. -/
theorem C99_exact (hst : env.build.release = true → StampOk env.stamp) {ops : List WbOp} {s : Session} (h : Ran env theme ops s) {name : Option String}
    (hn : ∀ n, name = some n → n ∉ names s.x.sheets) :
    ∃ k, FirstFree s.x k ∧ (∀ j, FirstFree s.x j → j = k) ∧
      ((s.step env (.add name)).1 = .ok () ↔ sheetName k ∉ akeys s.x.pkg.opened) ∧
      ((s.step env (.add name)).1 = .ok () ∨ ∃ m, (s.step env (.add name)).1 = .error (.fail m)) := by
  refine ⟨nextSheet s.x, nextSheet_firstFree _, fun j hj => firstFree_unique hj (nextSheet_firstFree _), ?_⟩
  rcases add_cases hst (ran_inv hst h) hn with ⟨p', h1, h2, _⟩ | ⟨o, h1, h2⟩
  · rw [h2]
    exact ⟨⟨fun _ => (aget_eq_none_iff _ _).mp (not_holds.mp h1).1, fun _ => rfl⟩, Or.inl rfl⟩
  · rw [h2]
    refine ⟨⟨fun e => (by cases e), fun e => absurd (mem_akeys_of_aget h1) e⟩, .inr ⟨_, rfl⟩⟩

/-- **C99, the new sheet is its own.** When it succeeds, the sheet is listed last and empty, its part is new, and a sheet listed before leads to
it only if it led nowhere and has the id the new relationship got. -/
theorem C99_own (hst : env.build.release = true → StampOk env.stamp) {ops : List WbOp} {s : Session} (h : Ran env theme ops s) {name : Option String}
    (hn : ∀ n, name = some n → n ∉ names s.x.sheets) (hok : (s.step env (.add name)).1 = .ok ()) :
    ∃ k e g, (s.step env (.add name)).2.x.sheets = s.x.sheets ++ [e] ∧ (s.step env (.add name)).2.handles = s.handles ++ [g] ∧
      FirstFree s.x k ∧ ¬ holds s.x.pkg (sheetName k) ∧ g.path = sheetName k ∧ g.name = e.name ∧ g.data = emptySheet ∧
      e.active = false ∧ e.hide = false ∧ e.name = name.getD ("sheet" ++ toString k) ∧
      SheetLeadsTo (s.step env (.add name)).2.x e (sheetName k) ∧
      ∀ e' ∈ s.x.sheets, SheetLeadsTo (s.step env (.add name)).2.x e' (sheetName k) ↔ e'.relId = e.relId ∧ ∀ n, ¬ SheetLeadsTo s.x e' n := by
  have hI := ran_inv hst h
  have hb : BookInv env theme s.x s.handles := hI
  rcases add_cases hst hI hn with ⟨p', h1, h2, _⟩ | ⟨o, h1, h2⟩
  · rw [h2]
    refine ⟨nextSheet s.x, newEntry s.x name, _, rfl, rfl, nextSheet_firstFree _, h1, rfl, rfl, rfl, rfl, rfl, rfl, listed_leads hI name, ?_⟩
    intro e' he'
    have hfind : ∀ q : Rel → Bool, (listed s.x name).rels.rels.find? q =
        (s.x.rels.rels.find? q).or ([sheetRel (nextRelId s.x.rels.rels) (nextSheet s.x)].find? q) := by
      intro q
      change (s.x.rels.rels ++ [sheetRel (nextRelId s.x.rels.rels) (nextSheet s.x)]).find? q = _
      rw [List.find?_append]
    constructor
    · rintro ⟨r, hr1, hr2⟩
      change (listed s.x name).rels.rels.find? _ = _ at hr1
      change resolveTarget s.x.rels.path r.target = _ at hr2
      rw [hfind] at hr1
      cases hf : s.x.rels.rels.find? (fun r => r.id = e'.relId) with
      | some r' =>
        rw [hf] at hr1
        cases hr1
        exfalso
        rcases hb.target he' with ⟨hx, _⟩ | ⟨k, _, hk2, hk3⟩
        · have hid : r.id = e'.relId := by simpa using List.find?_some hf
          exact hx (hid ▸ List.mem_map_of_mem (List.mem_of_find?_eq_some hf))
        · unfold targetById at hk3
          rw [hf] at hk3
          simp only [hr2] at hk3
          rw [Except.ok.injEq, Option.some.injEq] at hk3
          rw [← hk3] at hk2
          exact h1 hk2
      | none =>
        rw [hf] at hr1
        simp only [Option.none_or] at hr1
        have hid : r.id = e'.relId := by simpa using List.find?_some hr1
        have hr : r = sheetRel (nextRelId s.x.rels.rels) (nextSheet s.x) := by simpa using List.mem_of_find?_eq_some hr1
        subst hr
        refine ⟨hid.symm, ?_⟩
        rintro n ⟨r, hr, _⟩
        rw [hf] at hr; cases hr
    · rintro ⟨hid, hno⟩
      have := listed_leads (env := env) (theme := theme) hI name
      unfold SheetLeadsTo at this ⊢
      rw [hid]
      exact this
  · rw [h2] at hok; cases hok

/-- **C99 fails**, and worse, when it does the new name is listed all the same, and leads to the part that is open: the sheet someone else writes to. -/
theorem C99_shared (hst : env.build.release = true → StampOk env.stamp) {ops : List WbOp} {s : Session} (h : Ran env theme ops s) {name : Option String}
    (hn : ∀ n, name = some n → n ∉ names s.x.sheets) {er : Err} (hfail : (s.step env (.add name)).1 = .error er) :
    ∃ k e, (s.step env (.add name)).2.x.sheets = s.x.sheets ++ [e] ∧ e.name = name.getD ("sheet" ++ toString k) ∧
      (s.step env (.add name)).2.handles = s.handles ∧ FirstFree s.x k ∧ sheetName k ∈ akeys s.x.pkg.opened ∧
      SheetLeadsTo (s.step env (.add name)).2.x e (sheetName k) ∧
      ∀ e' ∈ s.x.sheets, SheetLeadsTo s.x e' (sheetName k) → SheetLeadsTo (s.step env (.add name)).2.x e' (sheetName k) := by
  have hI := ran_inv hst h
  rcases add_cases hst hI hn with ⟨p', h1, h2, _⟩ | ⟨o, h1, h2⟩
  · rw [h2] at hfail; cases hfail
  · rw [h2]
    refine ⟨nextSheet s.x, newEntry s.x name, rfl, rfl, rfl, nextSheet_firstFree _, mem_akeys_of_aget h1, listed_leads hI name, ?_⟩
    rintro e' he' ⟨r, hr1, hr2⟩
    refine ⟨r, ?_, hr2⟩
    change (s.x.rels.rels ++ [sheetRel (nextRelId s.x.rels.rels) (nextSheet s.x)]).find? _ = _
    rw [List.find?_append, hr1]; rfl

/-! ## Without deletions -/

/-- All sheet parts have numbers up to the number of listed sheets. -/
def Within (s : Session) : Prop := ∀ k, holds s.x.pkg (sheetName k) → k ≤ s.x.sheets.length

theorem Within.nextSheet {s : Session} (h : Within s) : nextSheet s.x = s.x.sheets.length + 1 := by
  have hf := nextSheet_firstFree s.x
  apply firstFree_unique hf
  refine ⟨Nat.lt_succ_self _, ?_, fun j h1 h2 => by omega⟩
  intro hm
  have := h _ (.inr hm)
  omega

theorem Within.open (hst : env.build.release = true → StampOk env.stamp) {s : Session} (hI : SessInv env theme s) (h : Within s) (name : Option String) :
    Within (s.open env name).2 := by
  by_cases hn : ∀ n, name = some n → n ∉ names s.x.sheets
  · have hs : s.open env name = s.step env (.add name) := rfl
    rw [hs]
    rcases add_cases hst hI hn with ⟨p', h1, h2, h3⟩ | ⟨o, h1, h2⟩
    · rw [h2]
      intro k hk
      change k ≤ (s.x.sheets ++ [newEntry s.x name]).length
      rw [List.length_append, List.length_singleton]
      rcases h3 k hk with e | hk
      · rw [e, h.nextSheet]
        exact Nat.le_refl _
      · have := h k hk
        omega
    · rw [h2]
      intro k hk
      change k ≤ (s.x.sheets ++ [newEntry s.x name]).length
      rw [List.length_append, List.length_singleton]
      have := h k hk
      omega
  · have hc := BookInv.openCase hst hI name
    unfold Session.open
    cases hos : s.x.openSheet env name with
    | mk r x1 =>
      rw [hos] at hc
      simp only at hc ⊢
      cases hc with
      | fresh p' h1 => exact absurd h1 hn
      | busyNew o h1 => exact absurd h1 hn
      | dangling n h1 h2 => exact h
      | busyOld n k o h1 h2 => exact h
      | reopened n k s' xd p' h1 h2 h3 h4 h5 h6 h7 =>
        intro j hj
        apply h j
        change holds p' (sheetName j) at hj
        apply Classical.byContradiction
        intro hnj
        apply not_holds.mpr _ hj
        obtain ⟨n1, n2⟩ := not_holds.mp hnj
        have e : sheetName j ≠ sheetName k := by
          intro e; rw [e, h4] at n2; cases n2
        rw [h6, h7, if_neg e, if_neg e]
        exact ⟨n1, n2⟩

theorem Within.step (hst : env.build.release = true → StampOk env.stamp) {s : Session} (hI : SessInv env theme s) (h : Within s) {op : WbOp}
    (hd : ∀ i, op ≠ .delete i) : Within (s.step env op).2 := by
  cases op with
  | add name => exact h.open hst hI name
  | get name => exact h.open hst hI (some name)
  | delete i => exact absurd rfl (hd i)
  | drop i =>
    simp only [Session.step]
    split
    · exact h
    · next g hg =>
      intro k hk
      apply h k
      have hmem := List.mem_of_getElem? hg
      obtain ⟨j, hj, hc⟩ := hI.sheets.dropCases hmem
      obtain ⟨j', _, g1, _, g3, _⟩ := hI.sheets.handles g hmem
      rcases hc with ⟨_, _, _, e⟩ | ⟨xd, p', hsv, _, e, _, hi, ho, ha⟩
      · rw [e] at hk; exact hk
      · change holds (dropSheet env s.x.pkg g) (sheetName k) at hk
        rw [e] at hk
        by_cases ek : sheetName k = g.path
        · rw [ek, g1]; exact holds_of_opened g3
        · apply Classical.byContradiction
          intro hnk
          apply not_holds.mpr _ hk
          rw [ha, ho, if_neg ek, if_neg ek]
          exact not_holds.mp hnk
  | rename old new =>
    simp only [Session.step]
    rcases renameSheet_cases s.x.sheets old new with ⟨_, m, e⟩ | ⟨_, a, en, b, h1, _, _, e⟩
    · rw [e]; exact h
    · rw [e]
      intro k hk
      have := h k hk
      rw [h1] at this
      simpa using this
  | active name =>
    intro k hk
    have := h k hk
    simpa [Session.step, setActive] using this
  | hide name =>
    intro k hk
    have := h k hk
    simpa [Session.step, hideSheet] using this
  | sheet i op =>
    simp only [Session.step]
    split
    · exact h
    · split <;> exact h
  | view op => exact h
  | style g st =>
    simp only [Session.step]
    split <;> exact h

theorem Within.run (hst : env.build.release = true → StampOk env.stamp) (ops : List WbOp) (hd : DeletesNothing ops) {s s' : Session}
    (hI : SessInv env theme s) (h : Within s) (hr : s.run env ops = .ok s') : Within s' := by
  induction ops generalizing s with
  | nil => cases hr; exact h
  | cons op ops ih =>
    rw [Session.run] at hr
    have h1 := hI.step hst op
    have h2 := h.step hst hI (op := op) (fun i e => hd i (by rw [e]; exact List.mem_cons_self ..))
    split at hr
    · cases hr
    · next e =>
      rw [e] at h1 h2
      exact ih (fun i hi => hd i (List.mem_cons_of_mem _ hi)) h1 h2 hr

theorem within_new (env : Env) (theme : XDoc) : Within ⟨newExcel env theme, []⟩ := by
  intro k hk
  have hk' : holds (newPkg env theme) (sheetName k) := hk
  rcases hk' with h | h
  · have : sheetName k ∈ baseNames ++ [sheetRelsName 1] := h
    rcases List.mem_append.mp this with h | h
    · exact absurd h (sheetName_not_base k)
    · exact absurd (List.mem_singleton.mp h) (sheetName_ne_rels k 1)
  · have : sheetName k ∈ [sheetName 1] := h
    have := sheetName_inj (List.mem_singleton.mp this)
    subst this
    exact Nat.le_refl 1

/-- **C99, without deletions.** As long as no sheet was deleted, whatever else was done, failed, and is open, sheets with new names can be added. -/
theorem C99_partial (hst : env.build.release = true → StampOk env.stamp) {ops : List WbOp} {s : Session} (h : Ran env theme ops s)
    (hd : DeletesNothing ops) {name : Option String} (hn : ∀ n, name = some n → n ∉ names s.x.sheets) :
    (s.step env (.add name)).1 = .ok () := by
  have hI := ran_inv hst h
  obtain ⟨x, hx, hr⟩ := h
  rw [new_eq env theme] at hx
  cases hx
  have hw := Within.run hst ops hd (newBook env theme) (within_new env theme) hr
  rcases add_cases hst hI hn with ⟨p', h1, h2, _⟩ | ⟨o, h1, h2⟩
  · rw [h2]
  · have := hw _ (holds_of_opened h1)
    rw [hw.nextSheet] at this
    omega

/-- Example: open sheets, closed ones, failed calls, sheets asked for again and renamed; the next one is added. -/
example : ∃ s, Ran env theme [.add (some "a"), .add none, .rename "a" "b", .get "b", .drop 0, .rename "q" "r", .add (some "c")] s ∧
    DeletesNothing [.add (some "a"), .add none, .rename "a" "b", .get "b", .drop 0, .rename "q" "r", .add (some "c")] ∧
    "d" ∉ names s.x.sheets ∧ (s.step env (.add (some "d"))).2.handles.length = 3 := by
  refine ⟨endOf env theme [.add (some "a"), .add none, .rename "a" "b", .get "b", .drop 0, .rename "q" "r", .add (some "c")],
    ⟨newExcel env theme, new_eq env theme, by kernel_rfl⟩, ?_, ?_, ?_⟩
  · intro i h; simp at h
  · have : names (endOf env theme [.add (some "a"), .add none, .rename "a" "b", .get "b", .drop 0, .rename "q" "r", .add (some "c")]).x.sheets =
      ["sheet1", "b", "sheet3", "c"] := by kernel_rfl
    rw [this]; decide
  · kernel_rfl

/-- **C99 is false**: with one deletion, adding fails although the name is new, and then two names lead to one part. -/
theorem C99_violated (env : Env) (theme : XDoc) :
    ∃ s m e e', Ran env theme [.add (some "a"), .add (some "b"), .delete 0] s ∧ "c" ∉ names s.x.sheets ∧
      (s.step env (.add (some "c"))).1 = .error (.fail m) ∧ e ∈ (s.step env (.add (some "c"))).2.x.sheets ∧ e' ∈ (s.step env (.add (some "c"))).2.x.sheets ∧
      e.name = "b" ∧ e'.name = "c" ∧ SheetLeadsTo (s.step env (.add (some "c"))).2.x e (sheetName 3) ∧
      SheetLeadsTo (s.step env (.add (some "c"))).2.x e' (sheetName 3) := by
  refine ⟨endOf env theme [.add (some "a"), .add (some "b"), .delete 0], "Please close the Existing object before creating new handle",
    ⟨"b", "rId7", false, false⟩, ⟨"c", "rId8", false, false⟩, ⟨newExcel env theme, new_eq env theme, by kernel_rfl⟩, ?_, ?_, ?_, ?_, rfl, rfl, ?_, ?_⟩
  · have : names (endOf env theme [.add (some "a"), .add (some "b"), .delete 0]).x.sheets = ["sheet1", "b"] := by kernel_rfl
    rw [this]; decide
  · kernel_rfl
  · have : ((endOf env theme [.add (some "a"), .add (some "b"), .delete 0]).step env (.add (some "c"))).2.x.sheets =
      [⟨"sheet1", "rId5", false, false⟩, ⟨"b", "rId7", false, false⟩, ⟨"c", "rId8", false, false⟩] := by kernel_rfl
    rw [this]; decide
  · have : ((endOf env theme [.add (some "a"), .add (some "b"), .delete 0]).step env (.add (some "c"))).2.x.sheets =
      [⟨"sheet1", "rId5", false, false⟩, ⟨"b", "rId7", false, false⟩, ⟨"c", "rId8", false, false⟩] := by kernel_rfl
    rw [this]; decide
  · exact ⟨sheetRel "rId7" 3, by kernel_rfl, by kernel_rfl⟩
  · exact ⟨sheetRel "rId8" 3, by kernel_rfl, by kernel_rfl⟩

/-- **C99 is false** also when adding succeeds: a sheet renamed and then deleted through its handle stays listed, and takes the part of the next new
sheet for its own. -/
theorem C99_violated_dangling (env : Env) (theme : XDoc) :
    ∃ s e e', Ran env theme [.add (some "a"), .rename "a" "b", .delete 0] s ∧ (s.step env (.add (some "c"))).1 = .ok () ∧
      (s.step env (.add (some "c"))).2.x.sheets = [⟨"sheet1", "rId5", false, false⟩, e, e'] ∧ e.name = "b" ∧ e'.name = "c" ∧
      SheetLeadsTo (s.step env (.add (some "c"))).2.x e (sheetName 3) ∧ SheetLeadsTo (s.step env (.add (some "c"))).2.x e' (sheetName 3) := by
  refine ⟨endOf env theme [.add (some "a"), .rename "a" "b", .delete 0], ⟨"b", "rId6", false, false⟩, ⟨"c", "rId6", false, false⟩,
    ⟨newExcel env theme, new_eq env theme, by kernel_rfl⟩, ?_, ?_, rfl, rfl, ?_, ?_⟩
  · kernel_rfl
  · kernel_rfl
  · exact ⟨sheetRel "rId6" 3, by kernel_rfl, by kernel_rfl⟩
  · exact ⟨sheetRel "rId6" 3, by kernel_rfl, by kernel_rfl⟩

end Oxml
