import Verif.Proofs.ExistingSave
/-!
# Parts of existing files: relationships that lead to them, and none lost
-/
namespace Oxml
open Spec

/-! ## Relationships of the workbook -/

theorem newSheet_path {dir : String} {k : Nat} : sheetPath dir k = dir ++ "worksheets/sheet" ++ toString k ++ ".xml" := by
  unfold sheetPath
  simp only [worksheetContent, String.append_assoc]
  rfl

/-- The relationships after asking for a sheet. -/
theorem sheetFile_rels {x : Excel} {name : Option String} : (x.sheetFile name).2.rels.path = x.rels.path ∧
    ∀ r ∈ (x.sheetFile name).2.rels.rels, r ∈ x.rels.rels ∨ ∃ path, NewSheetPart x path ∧ r.target = "/" ++ path := by
  by_cases hl : ∃ n, name = some n ∧ n ∈ names x.sheets
  · obtain ⟨n, rfl, hn⟩ := hl
    obtain ⟨r, h1, h2⟩ := sheetFile_listed hn
    rw [h1]
    exact ⟨rfl, fun r hr => Or.inl hr⟩
  · have hno : ∀ n, name = some n → n ∉ names x.sheets := fun n e hn => hl ⟨n, e, hn⟩
    rcases sheetFile_new hno with ⟨e, h1, h2⟩ | ⟨dir, h1, h2⟩
    · rw [h2]; exact ⟨rfl, fun r hr => Or.inl hr⟩
    · rw [h2]
      refine ⟨rfl, ?_⟩
      intro r hr
      unfold withSheet newRel at hr
      rcases List.mem_append.mp hr with hr | hr
      · exact Or.inl hr
      · right
        rw [List.mem_singleton] at hr
        refine ⟨sheetPath dir (freeSheet x.pkg dir (x.sheets.length + 1)), ⟨dir, _, h1, newSheet_path, freeSheet_free_at _ _ _⟩, ?_⟩
        rw [hr]
        unfold partPath sheetPath
        simp only [Option.getD_some, String.append_assoc]

theorem openSheet_relPart (env : Env) (x : Excel) (name : Option String) : (x.openSheet env name).2.rels = (x.sheetFile name).2.rels := by
  rw [openSheet_eq]
  cases hf : x.sheetFile name with
  | mk r x1 =>
    cases r with
    | error e => rfl
    | ok pn =>
      obtain ⟨path, nm⟩ := pn
      simp only
      unfold openAt
      split
      · rfl
      · split
        · rfl
        · split
          · rfl
          · split
            · rfl
            · split <;> rfl

theorem step_rels (env : Env) (s : Session) (op : WbOp) : (s.step env op).2.x.rels.path = s.x.rels.path ∧
    ∀ r ∈ (s.step env op).2.x.rels.rels, r ∈ s.x.rels.rels ∨ ∃ path, NewSheetPart s.x path ∧ r.target = "/" ++ path := by
  have hopen : ∀ name, (s.open env name).2.x.rels.path = s.x.rels.path ∧
      ∀ r ∈ (s.open env name).2.x.rels.rels, r ∈ s.x.rels.rels ∨ ∃ path, NewSheetPart s.x path ∧ r.target = "/" ++ path := by
    intro name
    have h1 := openSheet_relPart env s.x name
    have h2 := sheetFile_rels (x := s.x) (name := name)
    rw [← h1] at h2
    unfold Session.open
    split
    · next e => rw [e] at h2; exact h2
    · next e => rw [e] at h2; exact h2
  have same : ∀ r ∈ s.x.rels.rels, r ∈ s.x.rels.rels ∨ ∃ path, NewSheetPart s.x path ∧ r.target = "/" ++ path := fun r hr => Or.inl hr
  cases op with
  | add name => exact hopen name
  | get name => exact hopen (some name)
  | sheet i op =>
    unfold Session.step
    simp only
    split
    · exact ⟨rfl, same⟩
    · split <;> exact ⟨rfl, same⟩
  | drop i =>
    unfold Session.step
    simp only
    split <;> exact ⟨rfl, same⟩
  | delete i =>
    unfold Session.step
    simp only
    split
    · exact ⟨rfl, same⟩
    · next g _ =>
      refine ⟨rfl, ?_⟩
      intro r hr
      have hr' : r ∈ deleteRel s.x.rels.rels g.path := hr
      unfold deleteRel at hr'
      exact Or.inl ((List.mem_filter.mp hr').1)
  | rename old new =>
    unfold Session.step
    simp only
    split <;> exact ⟨rfl, same⟩
  | active name => exact ⟨rfl, same⟩
  | hide name => exact ⟨rfl, same⟩
  | view op => exact ⟨rfl, same⟩
  | style hs st =>
    unfold Session.step
    simp only
    split <;> exact ⟨rfl, same⟩

/-- The session does nothing to the part, and no relationship of the workbook leads to it. -/
structure Unrelated (n : String) (e : Entry) (s : Session) : Prop where
  quiet : QuietSess n (some e) s
  rels : ∀ r ∈ s.x.rels.rels, resolveTarget s.x.rels.path r.target ≠ .ok n

theorem Unrelated.leaves {n : String} {e : Entry} {s : Session} (h : Unrelated n e s) (hr : ∀ path, ¬ IsRelsOf n path) (op : WbOp) : LeavesAlone n s op := by
  have key : ∀ name path, AboutPart s.x name path → n ≠ path ∧ ¬ IsRelsOf n path := by
    intro name path ha
    refine ⟨?_, hr path⟩
    rintro rfl
    have hnew : ¬ NewSheetPart s.x n := by
      rintro ⟨_, _, _, _, h1⟩
      rw [h.quiet.book.pkg.kept] at h1
      cases h1
    unfold AboutPart at ha
    split at ha
    · split at ha
      · obtain ⟨e, r, _, h2, h3⟩ := ha
        exact h.rels r (List.mem_of_find?_eq_some h2) h3
      · exact hnew ha
    · exact hnew ha
  cases op with
  | add name => exact key name
  | get name => exact key (some name)
  | _ => trivial

theorem resolve_slash {file path : String} {t : String} (h : resolveTarget file ("/" ++ path) = .ok t) : t = path := by
  unfold resolveTarget at h
  split at h
  · cases h
  · have e : ("/" ++ path).toList = '/' :: path.toList := by simp [String.toList_append]
    rw [e] at h
    simp only [Except.ok.injEq] at h
    rw [← h, String.ofList_toList]

theorem Unrelated.step {n : String} {e : Entry} {s : Session} (h : Unrelated n e s) (hr : ∀ path, ¬ IsRelsOf n path) (env : Env) (op : WbOp) :
    Unrelated n e (s.step env op).2 := by
  refine ⟨h.quiet.step env (h.leaves hr op), ?_⟩
  obtain ⟨h1, h2⟩ := step_rels env s op
  intro r hr'
  rw [h1]
  rcases h2 r hr' with h3 | ⟨path, h3, h4⟩
  · exact h.rels r h3
  · rw [h4]
    intro h5
    have := resolve_slash h5
    subst this
    obtain ⟨_, _, _, _, h6⟩ := h3
    rw [h.quiet.book.pkg.kept] at h6
    cases h6

theorem Unrelated.run {n : String} {e : Entry} (hr : ∀ path, ¬ IsRelsOf n path) (env : Env) (ops : List WbOp) {s s' : Session} (h : Unrelated n e s)
    (hrun : s.run env ops = .ok s') : Unrelated n e s' := by
  induction ops generalizing s with
  | nil => cases hrun; exact h
  | cons op ops ih =>
    have h1 := h.step hr env op
    unfold Session.run at hrun
    split at hrun
    · cases hrun
    · next e => rw [e] at h1; exact ih h1 hrun

/-! ## No part is lost -/

theorem holds_update {p : Pkg} {n : String} (h : holds p n) (hd : Nat) (f : XDoc → XDoc) : holds (p.update hd f) n := by
  rcases h with h | h
  · exact Or.inl (by rw [Pkg.akeys_update]; exact h)
  · exact Or.inr h

theorem holds_delete {p : Pkg} {n m : String} (h : holds p n) {k : Nat} (ho : Owns p (m, k)) : holds (p.delete m) n := by
  by_cases hm : m = n
  · subst hm
    obtain ⟨o, h1, _⟩ := ho
    exact holds_of_opened h1
  · rcases holds_cases h with ⟨o, ho⟩ | ⟨e, he⟩
    · exact holds_of_opened ho
    · exact holds_of_archive ((aget_aerase_ne hm _).trans he)

theorem holds_relClose {p : Pkg} {n : String} (h : holds p n) (env : Env) {r : RelPart} (ho : Owns p (r.path, r.handle)) : holds (r.close env p).2 n := by
  unfold RelPart.close
  split
  · exact h
  · split
    · exact h
    · simp only
      split
      · exact holds_close (holds_update h _ _)
      · exact holds_delete (holds_update h _ _) (ho.update _ _)

theorem holds_closeSheet {p : Pkg} {n : String} (h : holds p n) (env : Env) (g : SheetHandle) : holds (closeSheet env p g).2 n := by
  unfold closeSheet
  split
  · exact holds_close h
  · split
    · exact h
    · exact holds_close (holds_update h _ _)

theorem holds_openPart {p p1 : Pkg} {n m : String} {env : Env} {t : Template} {hd : Nat} (hp : p.Inv) (h : holds p n)
    (e : p.openPart env (.ok t) m = (.ok hd, p1)) : holds p1 n := by
  obtain ⟨_, _, _, ⟨o, h1, _⟩, h2⟩ := openPart_full hp e
  by_cases hm : n = m
  · subst hm; exact holds_of_opened h1
  · rcases holds_cases h with ⟨o, ho⟩ | ⟨en, he⟩
    · exact holds_of_opened ((h2 n hm).2.trans ho)
    · exact holds_of_archive ((h2 n hm).1.trans he)

theorem holds_relNew {p p1 : Pkg} {n m : String} {env : Env} {r : RelPart} (hp : p.Inv) (h : holds p n) (e : RelPart.new env p m = (.ok r, p1)) :
    holds p1 n := by
  obtain ⟨_, _, _, _, ⟨o, _, _, _, h1⟩, h2⟩ := relNew_full hp e
  by_cases hm : n = m
  · subst hm; exact holds_of_opened h1
  · rcases holds_cases h with ⟨o, ho⟩ | ⟨en, he⟩
    · exact holds_of_opened ((h2 n hm).2.trans ho)
    · exact holds_of_archive ((h2 n hm).1.trans he)

theorem holds_step {env : Env} {s s' : Session} {op : WbOp} {n : String} (hl : LiveSess s) (h : holds s.x.pkg n) (e : s.step env op = (.ok (), s')) :
    holds s'.x.pkg n := by
  have hopen : ∀ name, s.open env name = (.ok (), s') → holds s'.x.pkg n := by
    intro name e
    unfold Session.open at e
    rw [openSheet_eq] at e
    have f1 := (sheetFile_pairs (x := s.x) (name := name)).1
    cases hf : s.x.sheetFile name with
    | mk r x1 =>
      rw [hf] at e f1
      simp only at f1
      cases r with
      | error e' => cases e
      | ok pn =>
        obtain ⟨path, nm⟩ := pn
        simp only at e
        cases ha : openAt env x1 path nm with
        | mk r x2 =>
          rw [ha] at e
          cases r with
          | error e' => cases e
          | ok g =>
            cases e
            simp only
            unfold openAt at ha
            have i1 : x1.pkg.Inv := by rw [f1]; exact hl.inv
            have g1 : holds x1.pkg n := by rw [f1]; exact h
            split at ha
            · cases ha
            · next hd p2 ho1 =>
              have g2 := holds_openPart i1 g1 ho1
              have i2 : p2.Inv := openPart_inv i1 ho1
              split at ha
              · cases ha
              · split at ha
                · cases ha
                · next rels p3 ho2 =>
                  have g3 := holds_relNew i2 g2 ho2
                  split at ha
                  · cases ha
                  · split at ha
                    · cases ha
                    · cases ha
                      exact holds_update g3 _ _
  cases op with
  | add name => exact hopen name e
  | get name => exact hopen (some name) e
  | sheet i op =>
    unfold Session.step at e
    simp only at e
    split at e
    · cases e; exact h
    · split at e
      · cases e
      · cases e; exact h
  | drop i =>
    unfold Session.step at e
    simp only at e
    split at e
    · cases e; exact h
    · next g hg =>
      cases e
      obtain ⟨_, h2, h3, _⟩ := LivePkg.others hl hg
      exact holds_relClose (holds_closeSheet h env g) env (h2.closeSheet env (Ne.symm h3))
  | delete i =>
    unfold Session.step at e
    simp only at e
    split at e
    · cases e; exact h
    · next g hg =>
      obtain ⟨h1, h2, h3, _⟩ := LivePkg.others hl hg
      have hs : s'.x.pkg = dropSheet env (closeSheet env (s.x.pkg.delete g.path) g).2 g := by rw [← (Prod.mk.inj e).2]; rfl
      rw [hs]
      have k1 := holds_closeSheet (holds_delete h h1) env g
      have k2 := (h2.delete g.path).closeSheet env (Ne.symm h3)
      exact holds_relClose (holds_closeSheet k1 env g) env (k2.closeSheet env (Ne.symm h3))
  | rename old new =>
    unfold Session.step at e
    simp only at e
    split at e
    · cases e
    · cases e; exact h
  | active name => cases e; exact h
  | hide name => cases e; exact h
  | view op => cases e; exact h
  | style hs st =>
    unfold Session.step at e
    simp only at e
    split at e
    · cases e
    · cases e; exact h

theorem allOk_live {env : Env} {s s' : Session} {ops : List WbOp} (hr : AllOk env s ops s') (hl : LiveSess s) : LiveSess s' := by
  induction hr with
  | done s => exact hl
  | more e _ ih =>
    have h1 := hl.step env ‹WbOp›
    rw [e] at h1
    exact ih h1

theorem holds_run {env : Env} {s s' : Session} {ops : List WbOp} {n : String} (hr : AllOk env s ops s') (hl : LiveSess s) (h : holds s.x.pkg n) :
    holds s'.x.pkg n ∧ LiveSess s' := by
  induction hr with
  | done s => exact ⟨h, hl⟩
  | more e _ ih =>
    have h1 := hl.step env ‹WbOp›
    rw [e] at h1
    exact ih h1 (holds_step hl h e)

/-- Everything held is in the saved package. -/
theorem saved_holds {env : Env} {s : Session} {now : String} {q : Pkg} {n : String} (hl : LiveSess s) (h : holds s.x.pkg n)
    (hs : s.x.saved env now = .ok q) : n ∈ akeys q.archive := by
  obtain ⟨o1, o2, o3, o4, o5, o6, o7, o8, A⟩ := hl.allHeld
  obtain ⟨_, _, _, _, _, _, _, _, _, _, S⟩ := saved_all A hs
  by_cases hn : n ∈ ownParts s.x
  · simp only [ownParts, List.mem_cons, List.not_mem_nil, or_false] at hn
    rcases hn with rfl | rfl | rfl | rfl | rfl | rfl | rfl | rfl
    · exact mem_akeys_of_aget S.root
    · exact mem_akeys_of_aget S.core
    · exact mem_akeys_of_aget S.book
    · exact mem_akeys_of_aget S.rels
    · exact mem_akeys_of_aget S.theme
    · exact mem_akeys_of_aget S.strings
    · exact mem_akeys_of_aget S.chain
    · exact mem_akeys_of_aget S.styles
  · have h1 := S.others n hn
    rcases holds_cases h with ⟨o, ho⟩ | ⟨e, he⟩
    · rw [ho] at h1; exact mem_akeys_of_aget h1
    · cases ho : aget n s.x.pkg.opened with
      | some o => rw [ho] at h1; exact mem_akeys_of_aget h1
      | none => rw [ho] at h1; rw [he] at h1; exact mem_akeys_of_aget h1

end Oxml
