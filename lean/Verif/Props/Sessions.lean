import Verif.Proofs.SessionLinks
import Verif.Proofs.Reopen
import Verif.Proofs.SheetTotal
import Verif.Props.Workbook
/-!
# C44, C46–C48, C50, C65: what whole sessions leave in the saved file
-/
namespace Oxml
open Spec

variable {env : Env} {theme : XDoc}

/-- Where a history ends in a new workbook, for examples. -/
def endOf (env : Env) (theme : XDoc) (ops : List WbOp) : Session :=
  (Session.run env ⟨newExcel env theme, []⟩ ops).toOption.getD ⟨newExcel env theme, []⟩

theorem run_snoc {s s' : Session} {ops : List WbOp} {op : WbOp} (h : s.run env ops = .ok s') (hnp : ∀ m, (s'.step env op).1 ≠ .error (.panic m)) :
    s.run env (ops ++ [op]) = .ok (s'.step env op).2 := by
  induction ops generalizing s with
  | nil =>
    cases h
    rw [List.nil_append, Session.run]
    split
    · next m s1 hs => rw [hs] at hnp; exact absurd rfl (hnp m)
    · next s1 _ hs => rw [hs]; rfl
  | cons o ops ih =>
    rw [List.cons_append, Session.run]
    rw [Session.run] at h
    split at h
    · cases h
    · exact ih h

theorem ran_snoc {s : Session} {ops : List WbOp} {op : WbOp} (h : Ran env theme ops s) (hnp : ∀ m, (s.step env op).1 ≠ .error (.panic m)) :
    Ran env theme (ops ++ [op]) (s.step env op).2 := by
  obtain ⟨x, hx, hr⟩ := h
  exact ⟨x, hx, run_snoc hr hnp⟩

/-! ## C65: a session can always be saved -/

theorem contentTypes_not_held {s : Session} (h : SessInv env theme s) : ¬ holds s.x.pkg contentTypesName := by
  intro hh
  have hb : BookInv env theme s.x s.handles := h
  rcases hb.sheets.only _ hh with h1 | ⟨k, h1 | h1⟩
  · revert h1; decide
  · have := congrArg (fun s : String => s.toList.take 15) h1
    simp only [take_sheetName] at this
    revert this; decide +kernel
  · have := congrArg (fun s : String => s.toList.take 15) h1
    simp only [take_sheetRelsName] at this
    revert this; decide +kernel

/-- **C65.** Whatever was done to a new workbook, saving succeeds. -/
theorem C65_saves (hst : env.build.release = true → StampOk env.stamp) {ops : List WbOp} {s : Session} (h : Ran env theme ops s) (now : String)
    (exts : List (String × String)) : ∃ z, s.x.toZip env now exts = .ok z := by
  have hI := ran_inv hst h
  obtain ⟨p, e, hw⟩ := hI.written now
  have hn : ahas contentTypesName p.archive = false := by
    cases hx : ahas contentTypesName p.archive with
    | false => rfl
    | true => exact absurd ((hw.names hI _).mp ((ahas_iff _ _).mp hx)) (contentTypes_not_held hI)
  unfold Excel.toZip Pkg.toZip
  simp only [e, hn]
  exact ⟨_, rfl⟩

/-- Example: a history with failed calls, open handles, cells and a deletion. -/
example : ∃ s, Ran env theme [.add (some "a"), .rename "q" "r", .sheet 0 (.write 3 2 [{ value := some "x" }]), .add none, .delete 0, .rename "a" "b"] s :=
  ⟨endOf env theme [.add (some "a"), .rename "q" "r", .sheet 0 (.write 3 2 [{ value := some "x" }]), .add none, .delete 0, .rename "a" "b"],
    newExcel env theme, new_eq env theme, by kernel_rfl⟩

/-! ## C44: listed sheets resolve -/

/-- **C44, order and numbers.** The saved workbook document lists the sheets in order, numbered from 1, with their relationship ids. -/
theorem C44_order (hst : env.build.release = true → StampOk env.stamp) {ops : List WbOp} {s : Session} (h : Ran env theme ops s) (now : String) :
    ∃ p d, s.x.saved env now = .ok p ∧ partDoc env p "xl/workbook.xml" = some d ∧ sheetRows d = numbered s.x.sheets := by
  obtain ⟨p, e, hw⟩ := (ran_inv hst h).written now
  obtain ⟨⟨d, hd, _, hr⟩, _⟩ := ran_read hst h hw
  exact ⟨p, d, e, hd, hr⟩

theorem find_id {l : List Rel} (hn : (l.map Rel.id).Nodup) {r : Rel} (hr : r ∈ l) : l.find? (fun q => q.id = r.id) = some r := by
  induction l with
  | nil => cases hr
  | cons a l ih =>
    rw [List.map_cons, List.nodup_cons] at hn
    rcases List.mem_cons.mp hr with rfl | hr
    · rw [List.find?_cons_of_pos]; simp
    · rw [List.find?_cons_of_neg, ih hn.2 hr]
      simp only [decide_eq_true_eq]
      intro e
      exact hn.1 (e ▸ List.mem_map_of_mem hr)

theorem relsSaved_sub (rels : List Rel) (table : List String) : (relsSaved rels table).Sublist rels := by
  unfold relsSaved
  simp only [deleteRel_calc, deleteRel_strings]
  split
  · exact (List.filter_sublist).trans List.filter_sublist
  · exact List.filter_sublist

theorem sheet_kept {x : Excel} {hs : List SheetHandle} (hb : BookInv env theme x hs) {id : String} {k : Nat} (h : sheetRel id k ∈ x.rels.rels)
    (table : List String) : sheetRel id k ∈ relsSaved x.rels.rels table := by
  obtain ⟨ws, h1, h2⟩ := hb.rels
  rw [h1] at h ⊢
  rw [relsSaved_eq (fun r hr => by obtain ⟨k, hk, _⟩ := h2 r hr; exact ⟨k, hk⟩)]
  rcases List.mem_append.mp h with h | h
  · exact absurd rfl (base_target _ h k)
  · exact List.mem_append_right _ h

/-- What a listed sheet with a relationship resolves to in the saved relationships. -/
theorem saved_target {x : Excel} {hs : List SheetHandle} (hb : BookInv env theme x hs) {id : String} {k : Nat} (h : sheetRel id k ∈ x.rels.rels)
    (table : List String) : targetById "xl/_rels/workbook.xml.rels" (relsSaved x.rels.rels table) id = .ok (some (sheetName k)) := by
  have hf := find_id (hb.ids.sublist ((relsSaved_sub x.rels.rels table).map Rel.id)) (sheet_kept hb h table)
  unfold targetById
  rw [show (sheetRel id k).id = id from rfl] at hf
  rw [hf]
  simp only
  rw [show (sheetRel id k).target = "/" ++ sheetName k from rfl, resolve_abs bookRels_dir]

/-- **C44, partial.** In histories whose calls keep names distinct, whose sheet additions succeed and that rename no sheet with an open
handle, every sheet element's id resolves to a part of the saved package. Missing: other histories, see `C44_violated`. -/
theorem C44_partial (hst : env.build.release = true → StampOk env.stamp) {ops : List WbOp} {s : Session} (h : RanCarefully env theme ops s)
    (now : String) :
    ∃ p d r rels, s.x.saved env now = .ok p ∧ partDoc env p "xl/workbook.xml" = some d ∧ sheetRows d = numbered s.x.sheets ∧
      partDoc env p "xl/_rels/workbook.xml.rels" = some r ∧ (loadRels r).1 = .ok rels ∧
      ∀ e ∈ s.x.sheets, ∃ n, targetById "xl/_rels/workbook.xml.rels" rels e.relId = .ok (some n) ∧ n ∈ akeys p.archive := by
  have hr := careful_ran h
  have hI := ran_inv hst hr
  have hb : BookInv env theme s.x s.handles := hI
  obtain ⟨p, e, hw⟩ := hI.written now
  obtain ⟨⟨d, hd, _, hrow⟩, r, hr1, hr2⟩ := ran_read hst hr hw
  refine ⟨p, d, r, _, e, hd, hrow, hr1, hr2, ?_⟩
  intro en hen
  obtain ⟨k, hk⟩ := (careful_linked hst h).rel en hen
  exact ⟨sheetName k, saved_target hb hk _, (hw.names hb _).mpr (hb.rel_holds hk)⟩

def carefulOps : List WbOp :=
  [.add (some "a"), .rename "sheet1" "first", .add (some "b"), .sheet 1 (.write 3 2 [{ value := some "x" }]), .drop 1, .rename "b" "c", .delete 0]

theorem noHandle {s : Session} {l : List String} {old : String} (h : s.handles.map SheetHandle.name = l) (hl : old ∉ l) :
    ∀ g ∈ s.handles, g.name ≠ old := by
  intro g hg e
  exact hl (h ▸ e ▸ List.mem_map_of_mem hg)

/-- Example: a history of additions, renamings, writes and a deletion. -/
theorem careful_example (env : Env) (theme : XDoc) : RanCarefully env theme carefulOps (endOf env theme carefulOps) := by
  refine ⟨newExcel env theme, new_eq env theme, by kernel_rfl, ?_⟩
  have nd : ∀ (s : Session) (op : WbOp) (l : List String), names (s.step env op).2.x.sheets = l → l.Nodup → (names (s.step env op).2.x.sheets).Nodup := by
    intro s op l h hl; rw [h]; exact hl
  refine ⟨⟨nd _ _ ["sheet1", "a"] (by kernel_rfl) (by decide), Or.inr (by kernel_rfl)⟩, ?_⟩
  refine ⟨⟨nd _ _ ["first", "a"] (by kernel_rfl) (by decide), noHandle (l := ["a"]) (by kernel_rfl) (by decide)⟩, ?_⟩
  refine ⟨⟨nd _ _ ["first", "a", "b"] (by kernel_rfl) (by decide), Or.inr (by kernel_rfl)⟩, ?_⟩
  refine ⟨⟨nd _ _ ["first", "a", "b"] (by kernel_rfl) (by decide), trivial⟩, ?_⟩
  refine ⟨⟨nd _ _ ["first", "a", "b"] (by kernel_rfl) (by decide), trivial⟩, ?_⟩
  refine ⟨⟨nd _ _ ["first", "a", "c"] (by kernel_rfl) (by decide), noHandle (l := ["a"]) (by kernel_rfl) (by decide)⟩, ?_⟩
  exact ⟨⟨nd _ _ ["first", "c"] (by kernel_rfl) (by decide), trivial⟩, trivial⟩

/-- **C44 fails.** Renaming a sheet and deleting it through its handle leaves it listed with an id no relationship has. -/
theorem C44_violated (env : Env) (theme : XDoc) (hst : env.build.release = true → StampOk env.stamp) (now : String) :
    ∃ s p d r rels, Ran env theme [.add (some "a"), .rename "a" "b", .delete 0] s ∧ s.x.saved env now = .ok p ∧
      partDoc env p "xl/workbook.xml" = some d ∧ (some "2", some "b", some "rId6") ∈ sheetRows d ∧
      partDoc env p "xl/_rels/workbook.xml.rels" = some r ∧ (loadRels r).1 = .ok rels ∧
      targetById "xl/_rels/workbook.xml.rels" rels "rId6" = .ok none := by
  have hR : Ran env theme [.add (some "a"), .rename "a" "b", .delete 0] (endOf env theme [.add (some "a"), .rename "a" "b", .delete 0]) :=
    ⟨newExcel env theme, new_eq env theme, by kernel_rfl⟩
  obtain ⟨p, e, hw⟩ := (ran_inv hst hR).written now
  obtain ⟨⟨d, hd, _, hrow⟩, r, hr1, hr2⟩ := ran_read hst hR hw
  refine ⟨_, p, d, r, _, hR, e, hd, ?_, hr1, hr2, ?_⟩
  · have : numbered (endOf env theme [.add (some "a"), .rename "a" "b", .delete 0]).x.sheets =
        [(some "1", some "sheet1", some "rId5"), (some "2", some "b", some "rId6")] := by kernel_rfl
    rw [hrow, this]
    simp
  · kernel_rfl

/-! ## C46: a deleted sheet in the saved file -/

/-- **C46, partial.** After deleting through a handle the sheet's name is no longer listed, the other sheets are listed in order, no
relationship leads to the part, and every other sheet part is saved as without the deletion. Missing: the part itself stays,
see `C46_violated`. -/
theorem C46_partial (hst : env.build.release = true → StampOk env.stamp) {ops : List WbOp} {s : Session} (h : Ran env theme ops s) {i : Nat}
    {g : SheetHandle} (hg : s.handles[i]? = some g) (hnp : ∀ m, (s.step env (.delete i)).1 ≠ .error (.panic m)) (now : String) :
    ∃ p p' d r rels, s.x.saved env now = .ok p ∧ (s.step env (.delete i)).2.x.saved env now = .ok p' ∧
      partDoc env p' "xl/workbook.xml" = some d ∧ sheetRows d = numbered (s.x.sheets.filter (fun e => e.name ≠ g.name)) ∧
      partDoc env p' "xl/_rels/workbook.xml.rels" = some r ∧ (loadRels r).1 = .ok rels ∧ (∀ q ∈ rels, q.target ≠ "/" ++ g.path) ∧
      ∀ k, sheetName k ≠ g.path → aget (sheetName k) p'.archive = aget (sheetName k) p.archive := by
  have hI := ran_inv hst h
  have hb : BookInv env theme s.x s.handles := hI
  have hrun := ran_snoc h hnp
  have hI' := ran_inv hst hrun
  have hm := List.mem_of_getElem? hg
  obtain ⟨k, hk, e⟩ := hI.deleteEq (env := env) hm
  have hx : (s.step env (.delete i)).2.x = (s.x.deleteSheet env g).2 := by
    simp only [Session.step, hg]
  obtain ⟨p, ep, hw⟩ := hI.written now
  obtain ⟨p', ep', hw'⟩ := hI'.written now
  obtain ⟨⟨d, hd, _, hrow⟩, r, hr1, hr2⟩ := ran_read hst hrun hw'
  refine ⟨p, p', d, r, _, ep, ep', hd, ?_, hr1, hr2, ?_, ?_⟩
  · rw [hrow, hx, e]
  · intro q hq
    have := (relsSaved_sub _ _).subset hq
    rw [hx, e] at this
    have := (List.mem_filter.mp this).2
    rw [hk]
    exact of_decide_eq_true this
  · intro j hj
    have hpk : (s.step env (.delete i)).2.x.pkg = dropSheet env s.x.pkg g := by rw [hx, e]
    have ho : aget (sheetName j) (dropSheet env s.x.pkg g).opened = aget (sheetName j) s.x.pkg.opened ∧
        aget (sheetName j) (dropSheet env s.x.pkg g).archive = aget (sheetName j) s.x.pkg.archive := by
      obtain ⟨_, _, hc⟩ := hb.sheets.dropCases hm
      rcases hc with ⟨_, _, _, e1⟩ | ⟨xd, q, _, _, e1, _, _, h1, h2⟩
      · rw [e1]; exact ⟨rfl, rfl⟩
      · rw [e1, h1, h2, if_neg hj, if_neg hj]; exact ⟨rfl, rfl⟩
    cases hop : aget (sheetName j) s.x.pkg.opened with
    | some o =>
      rw [hw.opened _ o (not_closedParts_sheet j) hop]
      exact hw'.opened _ o (not_closedParts_sheet j) (by rw [hpk, ho.1]; exact hop)
    | none =>
      rw [hw.closed _ (not_closedParts_sheet j) hop]
      rw [hw'.closed _ (not_closedParts_sheet j) (by rw [hpk, ho.1]; exact hop), hpk, ho.2]

def twoSheets : List WbOp := [.add (some "a"), .add (some "b"), .sheet 0 (.write 1 1 [{ value := some "x" }])]

/-- Example: a history with a handle to delete through. -/
example : ∃ g, (endOf env theme twoSheets).handles[0]? = some g ∧ g.name = "a" ∧ Ran env theme twoSheets (endOf env theme twoSheets) ∧
    ∀ m, ((endOf env theme twoSheets).step env (.delete 0)).1 ≠ .error (.panic m) := by
  refine ⟨(endOf env theme twoSheets).handles[0]?.getD ⟨0, ⟨[], 0, ""⟩, emptySheet, "", ""⟩,
    by kernel_rfl, by kernel_rfl, ⟨newExcel env theme, new_eq env theme, by kernel_rfl⟩, ?_⟩
  have : ((endOf env theme twoSheets).step env (.delete 0)).1 = .ok () := by kernel_rfl
  intro m
  rw [this]
  exact fun h => by cases h

/-- **C46 fails, always.** The part of a sheet deleted through a handle is in the saved package. -/
theorem C46_violated (hst : env.build.release = true → StampOk env.stamp) {ops : List WbOp} {s : Session} (h : Ran env theme ops s) {i : Nat}
    {g : SheetHandle} (hg : s.handles[i]? = some g) (hnp : ∀ m, (s.step env (.delete i)).1 ≠ .error (.panic m)) (now : String) :
    ∃ p', (s.step env (.delete i)).2.x.saved env now = .ok p' ∧ g.path ∈ akeys p'.archive := by
  have hI := ran_inv hst h
  have hb : BookInv env theme s.x s.handles := hI
  have hrun := ran_snoc h hnp
  have hI' := ran_inv hst hrun
  have hb' : BookInv env theme (s.step env (.delete i)).2.x _ := hI'
  have hm := List.mem_of_getElem? hg
  obtain ⟨k, hk, e⟩ := hI.deleteEq (env := env) hm
  obtain ⟨p', ep', hw'⟩ := hI'.written now
  refine ⟨p', ep', (hw'.names hb' _).mpr ?_⟩
  have hx : (s.step env (.delete i)).2.x = (s.x.deleteSheet env g).2 := by
    simp only [Session.step, hg]
  rw [hx, e]
  obtain ⟨_, _, h1, _, h3, _⟩ := hb.sheets.handles g hm
  exact hb.sheets.drop_keeps hm _ (by rw [h1]; exact holds_of_opened h3)

/-! ## C47: opening a sheet again -/

/-- **C47 fails, always.** In no session of a new workbook can a listed sheet be opened: not after its handle was dropped, nor the
sheet the library made. -/
theorem C47_violated (hst : env.build.release = true → StampOk env.stamp) {ops : List WbOp} {s : Session} (h : Ran env theme ops s) {n : String}
    (hn : n ∈ names s.x.sheets) : ∃ m, (s.step env (.get n)).1 = .error (.fail m) := by
  have hc := BookInv.openCase hst (ran_inv hst h) (some n)
  simp only [Session.step, Session.open]
  cases hos : s.x.openSheet env (some n) with
  | mk res x1 =>
    rw [hos] at hc
    cases hc with
    | fresh p' h1 => exact absurd hn (h1 n rfl)
    | busyNew o h1 => exact absurd hn (h1 n rfl)
    | dangling m _ _ => exact ⟨_, rfl⟩
    | busyOld m k o _ _ _ => exact ⟨_, rfl⟩
    | reopened m k sh xd p' _ _ _ _ _ _ _ => exact ⟨_, rfl⟩

/-- Example: a sheet whose handle was dropped. -/
example : ∃ s, Ran env theme [.add (some "a"), .sheet 0 (.write 1 1 [{ value := some "x" }]), .drop 0] s ∧ "a" ∈ names s.x.sheets := by
  refine ⟨endOf env theme [.add (some "a"), .sheet 0 (.write 1 1 [{ value := some "x" }]), .drop 0], ⟨newExcel env theme, new_eq env theme, by kernel_rfl⟩, ?_⟩
  have : names (endOf env theme [.add (some "a"), .sheet 0 (.write 1 1 [{ value := some "x" }]), .drop 0]).x.sheets = ["sheet1", "a"] := by kernel_rfl
  rw [this]; decide

/-! ## C48: opening a saved workbook -/

/-- **C48 fails, always.** No file saved from a new workbook, whatever was done to it, can be opened by the library. -/
theorem C48_violated (hst : env.build.release = true → StampOk env.stamp) {ops : List WbOp} {s : Session} (h : Ran env theme ops s) (now : String)
    (exts : List (String × String)) {z : Zip} (hz : s.x.toZip env now exts = .ok z) (theme' : XDoc) (x : Excel) :
    Excel.openFile env theme' z ≠ .ok x := by
  have hI := ran_inv hst h
  have hb : BookInv env theme s.x s.handles := hI
  obtain ⟨p, e, hw⟩ := hI.written now
  unfold Excel.toZip at hz
  rw [e] at hz
  simp only at hz
  unfold Excel.openFile
  cases hp : Pkg.ofZip env z with
  | error err => exact fun h => by cases h
  | ok q =>
    have hs : Excel.start env theme' q ≠ .ok x → (match Excel.start env theme' q with
        | .error e => (.error (Excel.failedStart env q e) : Res Excel)
        | .ok x => .ok x) ≠ .ok x := by
      intro h1
      split
      · exact fun h => by cases h
      · next hy => exact hy ▸ h1
    refine hs ?_
    have hent : ∀ n e', n ≠ contentTypesName → aget n p.archive = some e' → ∃ e'', aget n q.archive = some e'' ∧ e''.content = e'.content := by
      intro n e' hn he
      have h1 := ofZip_content hp hn
      rw [toZip_aget hz hn, he] at h1
      cases hq : aget n q.archive with
      | none => rw [hq] at h1; cases h1
      | some e'' => rw [hq] at h1; exact ⟨e'', rfl, Option.some.inj h1⟩
    have hk := closedParts_book theme now s.x.rels.rels s.x.strings.data s.x.styles.data s.x.sheets s.x.view
    obtain ⟨er, hr1, hr2⟩ := hent _ _ (by decide) (hw.parts _ _ _ hk.2.2.1)
    obtain ⟨eb, hb1, hb2⟩ := hent _ _ (by decide) (hw.parts _ _ _ hk.2.1)
    have hcalc : aget "xl/calcChain.xml" s.x.pkg.opened = some (openFrom 6 calcTemplate calcTemplate.doc) := hb.sheets.base _ (by decide)
    obtain ⟨ec, hc1, hc2⟩ := hent _ _ (by decide) (hw.opened _ _ hk.2.2.2.2.2.2.2 hcalc)
    obtain ⟨dr, h2, h3⟩ := rels_same env hst rootRelsList (by decide) (fun r hr => escRel_base r (List.mem_append_right _ hr))
    obtain ⟨_, r, h4, h5⟩ := ran_read hst h hw
    unfold partDoc at h4
    rw [hw.parts _ _ _ hk.2.1] at h4
    simp only at h4
    obtain ⟨ws, hw1, hw2⟩ := hb.rels
    cases hrd : readXml env.uni (closedPart env relsTemplate (relsDoc (relsSaved s.x.rels.rels s.x.strings.data))).content with
    | error err => rw [hrd] at h4; cases h4
    | ok db =>
      rw [hrd] at h4
      cases h4
      have hun := readXml_selfClosing env.build env.uni hst (wf_calcTemplate env.uni) rfl
      refine start_fails (Pkg.Inv.ofZip (toZip_nodup hw.inv hz) hp) (ws := ws) (fun r hr => by obtain ⟨k, hk, _⟩ := hw2 r hr; exact ⟨k, hk⟩)
        s.x.strings.data hr1 (dr := dr) (by rw [hr2]; exact h2) (by rw [h3]) hb1 (db := db) (by rw [hb2]; exact hrd) (by rw [← hw1]; exact h5) hc1 ?_ x
      intro d
      rw [hc2]
      change readXml env.uni (renderDoc env.build env.stamp calcTemplate.doc) ≠ _
      rw [hun]
      exact fun h => by cases h

/-- Example: the hypotheses hold for every history, so for the empty one. -/
example (hst : env.build.release = true → StampOk env.stamp) : ∃ s z, Ran env theme [] s ∧ s.x.toZip env "now" [] = .ok z := by
  have hR : Ran env theme [] ⟨newExcel env theme, []⟩ := ⟨newExcel env theme, new_eq env theme, rfl⟩
  obtain ⟨z, hz⟩ := C65_saves hst hR "now" []
  exact ⟨_, z, hR, hz⟩

/-! ## C50: deleting through a handle -/

/-- **C50, partial.** In careful histories deleting through a handle delists exactly the sheets whose id leads to the handle's part.
Missing: other histories, see `C50_violated`. -/
theorem C50_partial (hst : env.build.release = true → StampOk env.stamp) {ops : List WbOp} {s : Session} (h : RanCarefully env theme ops s) {i : Nat}
    {g : SheetHandle} (hg : s.handles[i]? = some g) (e : SheetEntry) :
    e ∈ (s.step env (.delete i)).2.x.sheets ↔ e ∈ s.x.sheets ∧ targetById s.x.rels.path s.x.rels.rels e.relId ≠ .ok (some g.path) := by
  have hI := ran_inv hst (careful_ran h)
  have hL := careful_linked hst h
  have hb : BookInv env theme s.x s.handles := hI
  have hm := List.mem_of_getElem? hg
  have hx : (s.step env (.delete i)).2.x.sheets = s.x.sheets.filter (fun e => e.name ≠ g.name) := by
    simp only [Session.step, hg]; rfl
  rw [hx, List.mem_filter]
  apply and_congr_right
  intro he
  obtain ⟨k, hk⟩ := hL.rel e he
  rw [decide_eq_true_eq, hL.kept hI hm he hk]
  rcases hb.target he with ⟨h1, _⟩ | ⟨k', hk', _, ht⟩
  · exact absurd (List.mem_map_of_mem (f := Rel.id) hk) h1
  · rw [ht, sheetRel_unique hI hk hk']
    simp

/-- Example: the handle left by a careful history leads to a listed sheet. -/
example : ∃ g e, (endOf env theme [.add (some "a"), .add (some "b")]).handles[1]? = some g ∧
    e ∈ (endOf env theme [.add (some "a"), .add (some "b")]).x.sheets ∧
    targetById (endOf env theme [.add (some "a"), .add (some "b")]).x.rels.path (endOf env theme [.add (some "a"), .add (some "b")]).x.rels.rels e.relId =
      .ok (some g.path) := by
  refine ⟨(endOf env theme [.add (some "a"), .add (some "b")]).handles[1]?.getD ⟨0, ⟨[], 0, ""⟩, emptySheet, "", ""⟩, ⟨"b", "rId7", false, false⟩,
    by kernel_rfl, ?_, by kernel_rfl⟩
  have : (endOf env theme [.add (some "a"), .add (some "b")]).x.sheets =
    [⟨"sheet1", "rId5", false, false⟩, ⟨"a", "rId6", false, false⟩, ⟨"b", "rId7", false, false⟩] := by kernel_rfl
  rw [this]; simp

/-- **C50 fails.** A handle whose sheet was renamed deletes another sheet that took the old name, and keeps its own. -/
theorem C50_violated (env : Env) (theme : XDoc) :
    ∃ s g, Ran env theme [.add (some "a"), .rename "a" "b", .add (some "a")] s ∧ s.handles[0]? = some g ∧
      s.x.sheets = [⟨"sheet1", "rId5", false, false⟩, ⟨"b", "rId6", false, false⟩, ⟨"a", "rId7", false, false⟩] ∧
      targetById s.x.rels.path s.x.rels.rels "rId6" = .ok (some g.path) ∧
      (s.step env (.delete 0)).1 = .ok () ∧ names (s.step env (.delete 0)).2.x.sheets = ["sheet1", "b"] := by
  refine ⟨endOf env theme [.add (some "a"), .rename "a" "b", .add (some "a")],
    (endOf env theme [.add (some "a"), .rename "a" "b", .add (some "a")]).handles[0]?.getD ⟨0, ⟨[], 0, ""⟩, emptySheet, "", ""⟩,
    ⟨newExcel env theme, new_eq env theme, by kernel_rfl⟩, by kernel_rfl, by kernel_rfl, by kernel_rfl, by kernel_rfl, by kernel_rfl⟩

end Oxml
