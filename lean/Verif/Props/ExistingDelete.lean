import Verif.Props.ExistingReget
/-!
# C87: deleting a sheet of an existing workbook
-/
namespace Oxml
open Spec

variable {env : Env} {theme : XDoc} {z z' z'' : Zip} {ops : List WbOp} {x : Excel} {s : Session} {now : String} {exts exts' : List (String × String)}
  {i : Nat} {g : SheetHandle}

theorem delete_x (hg : s.handles[i]? = some g) : (s.step env (.delete i)).2.x = (s.x.deleteSheet env g).2 := by
  simp only [Session.step, hg]

/-- Deleting a sheet does nothing to any other part, whether it is open or closed. -/
theorem delete_others (hl : LiveSess s) (hg : s.handles[i]? = some g) {n : String} (h1 : n ≠ g.path) (h2 : n ≠ g.rels.path) :
    aget n (s.step env (.delete i)).2.x.pkg.opened = aget n s.x.pkg.opened ∧
      (aget n s.x.pkg.opened = none → aget n (s.step env (.delete i)).2.x.pkg.archive = aget n s.x.pkg.archive) := by
  rw [delete_x hg]
  obtain ⟨w1, w2, _⟩ := LivePkg.others hl hg
  cases ho : aget n s.x.pkg.opened with
  | some o =>
    have hst : Still n o s.x.pkg := ho
    have a := hst.handle_ne hl.inv w1 (Ne.symm h1)
    have b := hst.handle_ne hl.inv w2 (Ne.symm h2)
    exact ⟨((hst.delete g.path).closeSheet env (Ne.symm h1) a).dropSheet env (Ne.symm h1) a (Ne.symm h2) b, fun h => by cases h⟩
  | none =>
    have hq : Quiet n (aget n s.x.pkg.archive) s.x.pkg := ⟨ho, rfl⟩
    have := ((hq.delete (Ne.symm h1)).closeSheet env g).dropSheet env (Ne.symm h2)
    exact ⟨this.shut, fun _ => this.kept⟩

/-- The saved relationships of the workbook always lead to the styles. -/
theorem final_styles (hz : (akeys z).Nodup) (hr : RanOn env theme z ops x s) (hp : PlainRels x) :
    finalRels s.x ≠ [] ∧ ∀ r ∈ finalRels s.x, PlainRel r := by
  obtain ⟨p, _, _, _, _, _, _, _, _, _, _, _, hb⟩ := openFile_book hz hr.1
  obtain ⟨ho, hl⟩ := leads_run (s := ⟨x, []⟩) hb.live (plainRels_orderly hp) hr.2
  have hown := (own_run hb.live hr.2).1
  obtain ⟨rdir, hrd, _⟩ := hp.dir
  obtain ⟨R2, R3, R4, t5, t6, t7, t8⟩ := hb.targets
  obtain ⟨l5, m5, em5⟩ := targetByType_leads ⟨_, hrd⟩ t5
  obtain ⟨l6, m6, em6⟩ := targetByType_leads ⟨_, hrd⟩ t6
  obtain ⟨l7, m7, em7⟩ := targetByType_leads ⟨_, hrd⟩ t7
  obtain ⟨l8, m8, em8⟩ := targetByType_leads ⟨_, hrd⟩ t8
  have l7 : Leads x.rels.rels x.rels.path calcChainContent.type x.chain.path := em8 ▸ l7.append m8
  have l6 : Leads x.rels.rels x.rels.path sharedStringContent.type x.strings.path := em8 ▸ (em7 ▸ l6.append m7 : Leads R4 _ _ _).append m8
  have k8 := hl _ _ (by simp [ownParts]) l8
  obtain ⟨-, -, -, -, -, pe6, pe7, -⟩ := own_paths hown
  have nd := hb.nodup
  have n6 : x.strings.path ≠ x.styles.path := by simp [ownParts] at nd; simp_all
  have n7 : x.chain.path ≠ x.styles.path := by simp [ownParts] at nd; simp_all
  have noslash : ∀ {t n : String}, Leads x.rels.rels x.rels.path t n → NoSlash n := by
    rintro t n ⟨r, e1, e2⟩
    exact (hp.rels r (List.mem_of_find?_eq_some e1)).2 n e2
  have k : Leads (finalRels s.x) s.x.rels.path styleContent.type x.styles.path := by
    unfold finalRels stringRels chainRels
    rw [pe6, pe7]
    have h1 : Leads (if s.x.chain.data = [] then deleteRel s.x.rels.rels x.chain.path else s.x.rels.rels) s.x.rels.path styleContent.type x.styles.path := by
      split
      · exact k8.delete n7 (noslash l7)
      · exact k8
    split
    · exact h1.delete n6 (noslash l6)
    · exact h1
  refine ⟨k.ne_nil, ?_⟩
  intro r hr
  have sub : ∀ {R : List Rel} {p : String}, ∀ r ∈ deleteRel R p, r ∈ R := by
    intro R p r h; exact (List.mem_filter.mp h).1
  have : r ∈ s.x.rels.rels := by
    unfold finalRels stringRels chainRels at hr
    split at hr
    · have hr := sub r hr
      split at hr
      · exact sub r hr
      · exact hr
    · split at hr
      · exact sub r hr
      · exact hr
  exact (ho.rels r this).1

/-- **C87, what holds.** After deleting a sheet through its handle the saved file lists exactly the other sheets, in their order; none of the workbook's
relationships there has the target "/" followed by the sheet's part; and every part other than the workbook's own, the sheet's and the sheet's relationship part
is as if the sheet had not been deleted. -/
theorem C87_partial (hst : env.build.release = true → StampOk env.stamp) (hz : (akeys z).Nodup) (hr : RanOn env theme z ops x s) (ht : TidyParts env z x)
    (hp : PlainRels x) (hg : s.handles[i]? = some g) (hnp : ∀ m, (s.step env (.delete i)).1 ≠ .error (.panic m))
    (hs : s.x.toZip env now exts = .ok z') (hs' : (s.step env (.delete i)).2.x.toZip env now exts' = .ok z'') :
    (∃ d, zipDoc env z'' x.book.path = some d ∧ sheetLines d = writtenLines (s.x.sheets.filter (fun e => e.name ≠ g.name))) ∧
    (∃ d rels, zipDoc env z'' x.rels.path = some d ∧ (loadRels d).1 = .ok rels ∧ ∀ r ∈ rels, r.target ≠ "/" ++ g.path) ∧
    ∀ n, n ∉ ownParts x → n ≠ g.path → n ≠ g.rels.path → n ≠ contentTypesName → aget n z'' = aget n z' := by
  have hr' : RanOn env theme z (ops ++ [.delete i]) x (s.step env (.delete i)).2 := ⟨hr.1, run_snoc hr.2 hnp⟩
  obtain ⟨p, _, _, _, _, _, _, _, _, _, _, _, hb⟩ := openFile_book hz hr.1
  have hl : LiveSess s := hb.live.run env ops hr.2
  have hl' : LiveSess (s.step env (.delete i)).2 := hl.step env _
  obtain ⟨ho, -⟩ := leads_run (s := ⟨x, []⟩) hb.live (plainRels_orderly hp) hr.2
  refine ⟨?_, ?_, ?_⟩
  · obtain ⟨d, h1, h2, -⟩ := C82_sheets_partial hst hz hr' ht hs'
    refine ⟨d, h1, ?_⟩
    rw [h2, delete_x hg]; rfl
  · obtain ⟨h1, h2⟩ := final_styles hz hr' hp
    obtain ⟨d, h3, h4⟩ := saved_rels_doc hst hz hr' ht hs' h1
    rw [plain_map h2] at h4
    refine ⟨d, _, h3, h4, ?_⟩
    intro r hr
    have sub : ∀ {R : List Rel} {p : String}, ∀ r ∈ deleteRel R p, r ∈ R := by
      intro R p r h; exact (List.mem_filter.mp h).1
    have : r ∈ (s.step env (.delete i)).2.x.rels.rels := by
      unfold finalRels stringRels chainRels at hr
      split at hr
      · have hr := sub r hr
        split at hr
        · exact sub r hr
        · exact hr
      · split at hr
        · exact sub r hr
        · exact hr
    rw [delete_x hg] at this
    have hm : r ∈ deleteRel s.x.rels.rels g.path := this
    rw [deleteRel_plain (ho.handles g (List.mem_of_getElem? hg))] at hm
    exact of_decide_eq_true (List.mem_filter.mp hm).2
  · intro n h1 h2 h3 h4
    have hown : n ∉ ownParts s.x := by rw [ownParts_pairs, (own_run hb.live hr.2).1, ← ownParts_pairs]; exact h1
    have hown' : n ∉ ownParts (s.step env (.delete i)).2.x := by rw [ownParts_pairs, (own_run hb.live hr'.2).1, ← ownParts_pairs]; exact h1
    obtain ⟨k1, k2⟩ := delete_others (env := env) hl hg h2 h3
    unfold Excel.toZip at hs hs'
    split at hs
    · cases hs
    · next q e =>
      split at hs'
      · cases hs'
      · next q' e' =>
        rw [toZip_aget hs h4, toZip_aget hs' h4]
        obtain ⟨_, _, _, _, _, _, _, _, A⟩ := hl.allHeld
        obtain ⟨_, _, _, _, _, _, _, _, _, _, S⟩ := saved_all A e
        obtain ⟨_, _, _, _, _, _, _, _, A'⟩ := hl'.allHeld
        obtain ⟨_, _, _, _, _, _, _, _, _, _, S'⟩ := saved_all A' e'
        have a := S.others n hown
        have b := S'.others n hown'
        rw [k1] at b
        cases ho : aget n s.x.pkg.opened with
        | some o => rw [ho] at a b; rw [a, b]
        | none => rw [ho] at a b; simp only at a b; rw [a, b, k2 ho]

/-- **C87 is violated, always**: the part of the deleted sheet is in the saved file, whatever the file, the history and the sheet. -/
theorem C87_violated (hz : (akeys z).Nodup) (hr : RanOn env theme z ops x s) (hg : s.handles[i]? = some g)
    (hs : (s.step env (.delete i)).2.x.toZip env now exts = .ok z') : g.path ∈ akeys z' := by
  obtain ⟨p, _, _, _, _, _, _, _, _, _, _, _, hb⟩ := openFile_book hz hr.1
  have hl : LiveSess s := hb.live.run env ops hr.2
  obtain ⟨h1, h2, h3, _⟩ := LivePkg.others hl hg
  have hh : holds (s.step env (.delete i)).2.x.pkg g.path := by
    rw [delete_x hg]
    obtain ⟨o, ho, _⟩ := id h1
    have k1 := holds_closeSheet (holds_delete (holds_of_opened ho) h1) env g
    have k2 := (h2.delete g.path).closeSheet env (Ne.symm h3)
    exact holds_relClose (holds_closeSheet k1 env g) env (k2.closeSheet env (Ne.symm h3))
  unfold Excel.toZip at hs
  split at hs
  · cases hs
  · next q e =>
    by_cases hn : g.path = contentTypesName
    · rw [hn]
      obtain ⟨_, rfl⟩ := toZip_ok hs
      simp [akeys]
    · have h3 := saved_holds (hl.step env _) hh e
      rw [← aget_isSome_iff, toZip_aget hs hn]
      obtain ⟨e, he⟩ := (aget_isSome_iff _ _).mpr h3
      exact ⟨_, by rw [he]; rfl⟩

theorem deleteRel_keeps {R : List Rel} {p : String} {r : Rel} (h : r ∈ R) (hn : NoSlash r.target) : r ∈ deleteRel R p := by
  refine List.mem_filter.mpr ⟨h, ?_⟩
  simp only [decide_eq_true_eq]
  rintro e
  apply hn
  rw [e]
  split
  · next h => rw [h]; rfl
  · simp [String.toList_append]

/-- **C87 is violated in the relationships too**, for every sheet whose relationship has a relative target, as other programs write it: the relationship is
in the saved file. -/
theorem C87_violated_relationship (hst : env.build.release = true → StampOk env.stamp) (hz : (akeys z).Nodup) (hr : RanOn env theme z ops x s)
    (ht : TidyParts env z x) (hp : PlainRels x) (hg : s.handles[i]? = some g) (hnp : ∀ m, (s.step env (.delete i)).1 ≠ .error (.panic m))
    (hs : (s.step env (.delete i)).2.x.toZip env now exts = .ok z') {r : Rel} (hm : r ∈ s.x.rels.rels) (hrel : NoSlash r.target) :
    ∃ d rels, zipDoc env z' x.rels.path = some d ∧ (loadRels d).1 = .ok rels ∧ r ∈ rels := by
  have hr' : RanOn env theme z (ops ++ [.delete i]) x (s.step env (.delete i)).2 := ⟨hr.1, run_snoc hr.2 hnp⟩
  obtain ⟨h1, h2⟩ := final_styles hz hr' hp
  obtain ⟨d, h3, h4⟩ := saved_rels_doc hst hz hr' ht hs h1
  rw [plain_map h2] at h4
  refine ⟨d, _, h3, h4, ?_⟩
  have k : r ∈ (s.step env (.delete i)).2.x.rels.rels := by rw [delete_x hg]; exact deleteRel_keeps hm hrel
  unfold finalRels stringRels chainRels
  split
  · apply deleteRel_keeps _ hrel
    split
    · exact deleteRel_keeps k hrel
    · exact k
  · split
    · exact deleteRel_keeps k hrel
    · exact k

/-! ## Examples -/

/-- The hypotheses of the theorems above, computed. -/
def exDelChk (x : Excel) (s : Session) (g : SheetHandle) : Bool :=
  exFacts exFull x && decide (g.path = "xl/worksheets/sheet1.xml") && decide (names s.x.sheets = ["A", "B"]) &&
    decide ((s.step exEnv (.delete 0)).1 = .ok ()) &&
    (match s.x.toZip exEnv "now" exExts with | .ok _ => true | .error _ => false) &&
    (match (s.step exEnv (.delete 0)).2.x.toZip exEnv "now" exExts with | .ok _ => true | .error _ => false) &&
    decide ("worksheets/sheet1.xml" ∈ s.x.rels.rels.map Rel.target)

/-- The sheet "A" is opened. -/
def exDel : Bool :=
  match Excel.openFile exEnv exTheme exFull with
  | .error _ => false
  | .ok x =>
    match Session.run exEnv ⟨x, []⟩ [.get "A"] with
    | .error _ => false
    | .ok s => match s.handles[0]? with
      | none => false
      | some g => exDelChk x s g

/-- In a workbook with the sheets "A" and "B", whose relationships have relative targets, "A" is deleted: the saved file lists "B" only, but has the part and the
relationship of "A". -/
example : ∃ x s g z' r, RanOn exEnv exTheme exFull [.get "A"] x s ∧ s.handles[0]? = some g ∧
    (s.step exEnv (.delete 0)).2.x.toZip exEnv "now" exExts = .ok z' ∧ g.path = "xl/worksheets/sheet1.xml" ∧ g.path ∈ akeys z' ∧
    r.target = "worksheets/sheet1.xml" ∧ r ∈ s.x.rels.rels ∧
    (∃ d rels, zipDoc exEnv z' x.rels.path = some d ∧ (loadRels d).1 = .ok rels ∧ r ∈ rels) ∧
    (∃ d, zipDoc exEnv z' x.book.path = some d ∧ sheetLines d = writtenLines (s.x.sheets.filter (fun e => e.name ≠ g.name))) ∧ names s.x.sheets = ["A", "B"] := by
  have h : exDel = true := by decide +kernel
  unfold exDel at h
  split at h
  · cases h
  · next x hx =>
    split at h
    · cases h
    · next s hrun =>
      split at h
      · cases h
      · next g hg =>
        simp only [exDelChk, Bool.and_eq_true, decide_eq_true_eq] at h
        obtain ⟨⟨⟨⟨⟨⟨k1, k2⟩, k3⟩, k4⟩, k5⟩, k6⟩, k7⟩ := h
        obtain ⟨f1, f2, _⟩ := exFacts_sound k1
        obtain ⟨r, hr1, hr2⟩ := List.mem_map.mp k7
        have hn : (akeys exFull).Nodup := by decide +kernel
        have hnp : ∀ m, (s.step exEnv (.delete 0)).1 ≠ .error (.panic m) := by intro m; rw [k4]; intro h; cases h
        split at k5
        · next z1 e1 =>
          split at k6
          · next z2 e2 =>
            exact ⟨x, s, g, z2, r, ⟨hx, hrun⟩, hg, e2, k2, C87_violated hn ⟨hx, hrun⟩ hg e2, hr2, hr1,
              C87_violated_relationship (fun h => by cases h) hn ⟨hx, hrun⟩ f1 f2 hg hnp e2 hr1 (by rw [hr2]; unfold NoSlash; decide +kernel),
              (C87_partial (fun h => by cases h) hn ⟨hx, hrun⟩ f1 f2 hg hnp e1 e2).1, k3⟩
          · cases k6
        · cases k5

end Oxml
