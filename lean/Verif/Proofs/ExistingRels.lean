import Verif.Proofs.ExistingReopen
/-!
# The relationships to the workbook's own parts through a history
-/
namespace Oxml
open Spec

/-- The relationship list after asking for a sheet, and where the sheet is. -/
theorem sheetFile_shape (x : Excel) (name : Option String) :
    ((x.sheetFile name).2.rels = x.rels ∨ ∃ dir k, relativePath x.rels.path = .ok dir ∧
      (x.sheetFile name).2.rels = { x.rels with rels := x.rels.rels ++ [⟨nextRelId x.rels.rels, "/" ++ sheetPath dir k, worksheetContent.type, none⟩] }) ∧
    ∀ path nm, (x.sheetFile name).1 = .ok (path, nm) → (∃ r ∈ x.rels.rels, resolveTarget x.rels.path r.target = .ok path) ∨
      ∃ dir k, relativePath x.rels.path = .ok dir ∧ path = sheetPath dir k := by
  by_cases hl : ∃ n, name = some n ∧ n ∈ names x.sheets
  · obtain ⟨n, rfl, hn⟩ := hl
    obtain ⟨r, h1, h2⟩ := sheetFile_listed hn
    rw [h1]
    refine ⟨Or.inl rfl, ?_⟩
    intro path nm h
    obtain ⟨_, e, _, _, _, h3⟩ := h2 path nm h
    left
    unfold targetById at h3
    split at h3
    · cases h3
    · next r hr =>
      split at h3
      · cases h3
      · next t ht =>
        cases h3
        exact ⟨r, List.mem_of_find?_eq_some hr, ht⟩
  · have hno : ∀ n, name = some n → n ∉ names x.sheets := fun n e hn => hl ⟨n, e, hn⟩
    rcases sheetFile_new hno with ⟨e, h1, h2⟩ | ⟨dir, h1, h2⟩
    · rw [h2]; exact ⟨Or.inl rfl, fun _ _ h => by cases h⟩
    · rw [h2]
      refine ⟨Or.inr ⟨dir, freeSheet x.pkg dir (x.sheets.length + 1), h1, ?_⟩, ?_⟩
      · unfold withSheet newRel partPath sheetPath
        simp only [Option.getD_some, String.append_assoc]
      · intro path nm h
        cases h
        exact Or.inr ⟨dir, _, h1, rfl⟩

theorem noSlash_sheetPath {dir : String} (h : NoSlash dir) (k : Nat) : NoSlash (sheetPath dir k) := by
  unfold NoSlash sheetPath at *
  simp only [String.toList_append]
  cases hd : dir.toList with
  | nil =>
    simp only [List.nil_append]
    intro h'
    have : (worksheetContent.path.toList ++ "/".toList ++ worksheetContent.name.toList ++ (toString k).toList ++ ".".toList ++ worksheetContent.ext.toList).head? = some 'w' := rfl
    rw [this] at h'; cases h'
  | cons c cs =>
    rw [hd] at h
    simpa using h

theorem noSpecials_sheetPath {dir : String} (h : NoSpecials dir) (k : Nat) : NoSpecials (sheetPath dir k) := by
  unfold sheetPath
  refine noSpecials_append (noSpecials_append (noSpecials_append (noSpecials_append (noSpecials_append (noSpecials_append h ?_) ?_) ?_) (noSpecials_nat k)) ?_) ?_ <;>
    (unfold NoSpecials; decide +kernel)

/-- Relationships, names and directories without special characters or doubled slashes. -/
structure Orderly (s : Session) : Prop where
  dir : ∃ dir, relativePath s.x.rels.path = .ok dir ∧ NoSlash dir ∧ NoSpecials dir
  rels : ∀ r ∈ s.x.rels.rels, PlainRel r ∧ ∀ n, resolveTarget s.x.rels.path r.target = .ok n → NoSlash n
  handles : ∀ g ∈ s.handles, NoSlash g.path

theorem openAt_path {env : Env} {x1 : Excel} {path nm : String} {g : SheetHandle} (h : (openAt env x1 path nm).1 = .ok g) : g.path = path := by
  unfold openAt at h
  split at h
  · cases h
  · split at h
    · cases h
    · split at h
      · cases h
      · split at h
        · cases h
        · split at h
          · cases h
          · cases h; rfl

theorem open_newHandles (env : Env) (s : Session) (name : Option String) : ∀ g ∈ (s.open env name).2.handles, g ∈ s.handles ∨
    ∃ path nm, (s.x.sheetFile name).1 = .ok (path, nm) ∧ g.path = path := by
  intro g hg
  unfold Session.open at hg
  rw [openSheet_eq] at hg
  cases hf : s.x.sheetFile name with
  | mk r x1 =>
    rw [hf] at hg
    cases r with
    | error e => exact Or.inl hg
    | ok pn =>
      obtain ⟨path, nm⟩ := pn
      simp only at hg
      split at hg
      · exact Or.inl hg
      · next g' x2 e =>
        rcases List.mem_append.mp hg with hg | hg
        · exact Or.inl hg
        · rw [List.mem_singleton] at hg
          exact Or.inr ⟨path, nm, rfl, by rw [hg]; exact openAt_path (by rw [e])⟩

theorem open_rels (env : Env) (s : Session) (name : Option String) : (s.open env name).2.x.rels = (s.x.sheetFile name).2.rels := by
  unfold Session.open
  have h1 := openSheet_relPart env s.x name
  split <;> next e => rw [e] at h1; exact h1

theorem Orderly.open {s : Session} (h : Orderly s) (env : Env) (name : Option String) : Orderly (s.open env name).2 := by
  obtain ⟨h1, h2⟩ := sheetFile_shape s.x name
  obtain ⟨dir, d1, d2, d3⟩ := h.dir
  have hrel := open_rels env s name
  have hpath : (s.open env name).2.x.rels.path = s.x.rels.path := by
    rw [hrel]; rcases h1 with h1 | ⟨_, _, _, h1⟩ <;> rw [h1]
  refine ⟨⟨dir, by rw [hpath]; exact d1, d2, d3⟩, ?_, ?_⟩
  · intro r hr
    rw [hpath]
    rw [hrel] at hr
    rcases h1 with h1 | ⟨dir', k, e, h1⟩
    · rw [h1] at hr; exact h.rels r hr
    · rw [d1] at e; cases e
      rw [h1] at hr
      rcases List.mem_append.mp hr with hr | hr
      · exact h.rels r hr
      · rw [List.mem_singleton] at hr
        subst hr
        refine ⟨⟨noSpecials_nextRelId _, ?_, ?_, fun m hm => by cases hm⟩, ?_⟩
        · exact noSpecials_append (a := "/") (by unfold NoSpecials; decide +kernel) (noSpecials_sheetPath d3 k)
        · show NoSpecials worksheetContent.type
          unfold NoSpecials; decide +kernel
        · intro n hn
          rw [resolve_slash hn]
          exact noSlash_sheetPath d2 k
  · intro g hg
    rcases open_newHandles env s name g hg with hg | ⟨path, nm, e, rfl⟩
    · exact h.handles g hg
    · rcases h2 _ _ e with ⟨r, hr, e⟩ | ⟨dir', k, e, e2⟩
      · exact (h.rels r hr).2 _ e
      · rw [d1] at e; cases e
        rw [e2]; exact noSlash_sheetPath d2 k

theorem deleteRel_sub {R : List Rel} {f : String} : ∀ r ∈ deleteRel R f, r ∈ R := by
  intro r hr
  unfold deleteRel at hr
  exact (List.mem_filter.mp hr).1

theorem Orderly.step {s : Session} (h : Orderly s) (env : Env) (op : WbOp) : Orderly (s.step env op).2 := by
  cases op with
  | add name => exact h.open env name
  | get name => exact h.open env (some name)
  | sheet i op =>
    unfold Session.step
    simp only
    split
    · exact h
    · next g hg =>
      split
      · exact h
      · refine ⟨h.dir, h.rels, ?_⟩
        intro g' hg'
        rcases List.mem_or_eq_of_mem_set hg' with hg' | rfl
        · exact h.handles g' hg'
        · exact h.handles g (List.mem_of_getElem? hg)
  | drop i =>
    unfold Session.step
    simp only
    split
    · exact h
    · exact ⟨h.dir, h.rels, fun g hg => h.handles g (List.mem_of_mem_eraseIdx hg)⟩
  | delete i =>
    unfold Session.step
    simp only
    split
    · exact h
    · exact ⟨h.dir, fun r hr => h.rels r (deleteRel_sub r hr), fun g hg => h.handles g (List.mem_of_mem_eraseIdx hg)⟩
  | rename old new =>
    unfold Session.step
    simp only
    split <;> exact ⟨h.dir, h.rels, h.handles⟩
  | active name => exact ⟨h.dir, h.rels, h.handles⟩
  | hide name => exact ⟨h.dir, h.rels, h.handles⟩
  | view op => exact ⟨h.dir, h.rels, h.handles⟩
  | style hs st =>
    unfold Session.step
    simp only
    split <;> exact ⟨h.dir, h.rels, h.handles⟩

/-- The first relationship of the type leads to the part. -/
def Leads (R : List Rel) (file type n : String) : Prop := ∃ r, R.find? (fun r => r.type = type) = some r ∧ resolveTarget file r.target = .ok n

theorem Leads.append {R : List Rel} {file type n : String} (h : Leads R file type n) (l : List Rel) : Leads (R ++ l) file type n := by
  obtain ⟨r, h1, h2⟩ := h
  exact ⟨r, by rw [List.find?_append, h1]; rfl, h2⟩

theorem find_filter_keep {R : List Rel} {p q : Rel → Bool} {r : Rel} (h : R.find? p = some r) (hq : q r = true) : (R.filter q).find? p = some r := by
  induction R with
  | nil => cases h
  | cons a R ih =>
    by_cases ha : p a = true
    · rw [List.find?_cons_of_pos ha] at h
      cases h
      rw [List.filter_cons_of_pos hq, List.find?_cons_of_pos ha]
    · rw [List.find?_cons_of_neg ha] at h
      by_cases hqa : q a = true
      · rw [List.filter_cons_of_pos hqa, List.find?_cons_of_neg ha]; exact ih h
      · rw [List.filter_cons_of_neg hqa]; exact ih h

theorem deleteRel_plain {path : String} (hs : NoSlash path) (R : List Rel) : deleteRel R path = R.filter (fun r => r.target ≠ "/" ++ path) := by
  unfold deleteRel
  split
  · next e => exact absurd (by rw [e]; rfl) hs
  · rfl

theorem Leads.delete {R : List Rel} {file type n path : String} (h : Leads R file type n) (hn : path ≠ n) (hs : NoSlash path) :
    Leads (deleteRel R path) file type n := by
  obtain ⟨r, h1, h2⟩ := h
  refine ⟨r, ?_, h2⟩
  rw [deleteRel_plain hs]
  apply find_filter_keep h1
  simp only [decide_eq_true_eq]
  intro he
  rw [he] at h2
  exact hn (resolve_slash h2).symm

theorem Leads.step {s : Session} {type n : String} (h : Leads s.x.rels.rels s.x.rels.path type n) (hl : LiveSess s) (hr : Orderly s)
    (hn : n ∈ ownParts s.x) (env : Env) (op : WbOp) : Leads (s.step env op).2.x.rels.rels (s.step env op).2.x.rels.path type n := by
  have hopen : ∀ name, Leads (s.open env name).2.x.rels.rels (s.open env name).2.x.rels.path type n := by
    intro name
    rw [open_rels]
    rcases (sheetFile_shape s.x name).1 with e | ⟨_, _, _, e⟩
    · rw [e]; exact h
    · rw [e]; exact h.append _
  cases op with
  | add name => exact hopen name
  | get name => exact hopen (some name)
  | sheet i op =>
    unfold Session.step
    simp only
    split
    · exact h
    · split <;> exact h
  | drop i =>
    unfold Session.step
    simp only
    split <;> exact h
  | delete i =>
    unfold Session.step
    simp only
    split
    · exact h
    · next g hg =>
      have hg' := List.mem_of_getElem? hg
      refine h.delete ?_ (hr.handles g hg')
      rintro rfl
      have nd := hl.nodup
      rw [List.map_append, List.nodup_append] at nd
      refine nd.2.2 g.path ?_ g.path ?_ rfl
      · rw [← ownParts_pairs]; exact hn
      · exact List.mem_map.mpr ⟨(g.path, g.handle), List.mem_flatMap.mpr ⟨g, hg', by simp⟩, rfl⟩
  | rename old new =>
    unfold Session.step
    simp only
    split <;> exact h
  | active name => exact h
  | hide name => exact h
  | view op => exact h
  | style hs st =>
    unfold Session.step
    simp only
    split <;> exact h

/-- Through a history. -/
theorem leads_run {env : Env} {ops : List WbOp} {s s' : Session} (hl : LiveSess s) (ho : Orderly s) (hr : s.run env ops = .ok s') :
    Orderly s' ∧ ∀ type n, n ∈ ownParts s.x → Leads s.x.rels.rels s.x.rels.path type n → Leads s'.x.rels.rels s'.x.rels.path type n := by
  induction ops generalizing s with
  | nil => cases hr; exact ⟨ho, fun _ _ _ h => h⟩
  | cons op ops ih =>
    have key : (s.step env op).2.run env ops = .ok s' := by
      rw [Session.run] at hr
      split at hr
      · cases hr
      · next e => rw [e]; exact hr
    obtain ⟨h1, h2⟩ := ih (hl.step env op) (ho.step env op) key
    refine ⟨h1, ?_⟩
    intro type n hn h
    apply h2 _ _ _ (h.step hl ho hn env op)
    rw [ownParts_pairs, step_ownPairs, ← ownParts_pairs]; exact hn

end Oxml
