import Verif.Proofs.SheetRefused
import Verif.Props.SheetLayout
/-!
# C92: sheets the library refuses to read
-/
namespace Oxml
open Spec

variable {env : Env} {theme : XDoc} {z z' : Zip} {ops : List WbOp} {x : Excel} {path : String} {s : Session} {now : String} {exts : List (String × String)} {d0 : XDoc}

/-- What the saved file holds of a sheet that was refused. -/
theorem refused_saved (hz : (akeys z).Nodup) (h : RefusedSheet env theme z ops path x s) (hown : path ∉ ownParts x) (h0 : zipDoc env z path = some d0)
    (hs : s.x.toZip env now exts = .ok z') : ∃ d, (d = d0 ∨ d = (Sheet.load env d0).2) ∧ aget path z' = some (renderDoc env.build env.stamp d) ∧
      ((∀ n, IsRelsOf n path → n ∉ ownParts x ∧ aget n z = none) → d = (Sheet.load env d0).2) := by
  obtain ⟨ops0, name, s0, e, s1, ops1, -, ⟨hopen, hrun0⟩, hn, hst, hget, hrun1⟩ := h
  obtain ⟨p, _, _, _, _, _, _, _, _, _, _, hp, hb⟩ := openFile_book hz hopen
  have hl0 : LiveSess s0 := hb.live.run env ops0 hrun0
  have quiet : ∀ n, n ∉ ownParts x → (n = path ∨ IsRelsOf n path) → QuietSess n (aget n p.archive) s0 := by
    intro n hno hnp
    have hq0 : QuietSess n (aget n p.archive) ⟨x, []⟩ := ⟨⟨⟨hb.openOnly _ hno, hb.others _ hno⟩, hno⟩, fun g hg => by cases hg⟩
    exact hq0.run env ops0 (hn n hnp) hrun0
  have hq := quiet path hown (.inl rfl)
  have hct : path ≠ contentTypesName := by
    intro ec
    have hr : Ready env s0.x.pkg worksheetTemplate path worksheetTemplate.doc := by
      refine .inl ⟨?_, rfl⟩
      rw [hq.book.pkg.kept, ec]
      exact (aget_eq_none_iff _ _).mpr (ofZip_no_types hp)
    obtain ⟨_, ⟨rp, hrp⟩, _⟩ := get_refused hl0 hst hq.book.pkg.shut hq.handles hr hget
    rw [ec] at hrp
    have hno : sheetRelsPath contentTypesName = none := by decide +kernel
    rw [hno] at hrp; cases hrp
  have hr : Ready env s0.x.pkg worksheetTemplate path d0 := by
    have := ready_of_zipDoc (t := worksheetTemplate) hp hct h0
    unfold Ready at this ⊢
    rw [hq.book.pkg.kept]; exact this
  obtain ⟨o, ⟨rp, hrp⟩, horph, hdoc, hrel⟩ := get_refused hl0 hst hq.book.pkg.shut hq.handles hr hget
  have ho := horph.run hrun1
  have hown' : path ∉ ownParts s.x := by
    have h1 := step_ownPairs env s0 (.get name)
    rw [hget] at h1
    rw [ownParts_pairs, (own_run horph.live hrun1).1, h1, (own_run hb.live hrun0).1]; exact hown
  refine ⟨o.doc, hdoc, ?_, ?_⟩
  · unfold Excel.toZip at hs
    split at hs
    · cases hs
    · next q eq =>
      rw [toZip_aget hs hct, ho.saved hown' eq]
      rfl
  · intro hfree
    have hir := isRelsOf_of_path hrp
    obtain ⟨f1, f2⟩ := hfree rp hir
    have hqr := quiet rp f1 (.inr hir)
    have hne : rp ≠ path := by
      intro e'
      obtain ⟨dir, base, g1, _, g3⟩ := hir
      rw [e', g1] at g3
      have := congrArg List.length g3
      simp only [List.length_append, List.length_cons] at this
      have : "/_rels/".toList.length = 7 := by decide
      omega
    refine hrel ⟨rp, relsTemplate.doc, [], hrp, hne, hqr.book.pkg.shut, .inl ⟨?_, rfl⟩, by decide +kernel⟩
    rw [hqr.book.pkg.kept]
    by_cases ec : rp = contentTypesName
    · rw [ec]; exact (aget_eq_none_iff _ _).mpr (ofZip_no_types hp)
    · have := ofZip_content hp ec
      rw [f2] at this
      cases hx : aget rp p.archive with
      | none => rfl
      | some e => rw [hx] at this; cases this

/-- **C92, violated.** Whatever the file and the calls: when the call asking for a sheet fails, the sheet has no relationships and its columns are as programs write
them, the saved sheet has neither rows nor columns any more. -/
theorem C92_violated_always (hz : (akeys z).Nodup) (h : RefusedSheet env theme z ops path x s) (hown : path ∉ ownParts x) (h0 : zipDoc env z path = some d0)
    (hcols : ∀ n ∈ colElements d0, SoundCol env n) (hrel : ∀ n, IsRelsOf n path → n ∉ ownParts x ∧ aget n z = none)
    (hs : s.x.toZip env now exts = .ok z') : ∃ d, aget path z' = some (renderDoc env.build env.stamp d) ∧ rowElements d = [] ∧ colElements d = [] := by
  obtain ⟨d, _, h2, h3⟩ := refused_saved hz h hown h0 hs
  rw [h3 hrel] at h2
  exact ⟨_, h2, load_loses hcols⟩

/-- **C92, violated.** Asking for a sheet with a row without number or a cell without reference, which the format allows, always fails. -/
theorem C92_violated_unnumbered {s0 : Session} {name : String} (hz : (akeys z).Nodup) (h : RanOn env theme z ops x s0) (hn : NeverAsks env path ⟨x, []⟩ ops)
    (hown : path ∉ ownParts x) (hst : StoredIn s0.x name path) (h0 : zipDoc env z path = some d0)
    (h1 : (d0.rootChildren.filter (fun n => n.tag = "sheetData")).length ≤ 1) (h2 : Unnumbered d0) : ∃ e, (s0.step env (.get name)).1 = .error e := by
  obtain ⟨hopen, hrun0⟩ := h
  obtain ⟨p, _, _, _, _, _, _, _, _, _, _, hp, hb⟩ := openFile_book hz hopen
  have hl0 : LiveSess s0 := hb.live.run env ops hrun0
  have hq0 : QuietSess path (aget path p.archive) ⟨x, []⟩ := ⟨⟨⟨hb.openOnly _ hown, hb.others _ hown⟩, hown⟩, fun g hg => by cases hg⟩
  have hq := hq0.run env ops hn hrun0
  cases e : s0.step env (.get name) with
  | mk r s1 =>
    cases r with
    | error er => exact ⟨er, rfl⟩
    | ok u =>
      exfalso
      simp only [Session.step, Session.open] at e
      rw [openSheet_eq, sheetFile_stored hst] at e
      simp only at e
      cases ha : openAt env s0.x path name with
      | mk ra x2 =>
        rw [ha] at e
        cases ra with
        | error er => cases e
        | ok g =>
          obtain ⟨o, d, hsrc, hload, _, _, _, _, rp, ro, hrp, _⟩ := openAt_ok hl0.inv ha
          have hct : path ≠ contentTypesName := by
            intro ec
            rw [ec] at hrp
            have hno : sheetRelsPath contentTypesName = none := by decide +kernel
            rw [hno] at hrp; cases hrp
          have hr : Ready env s0.x.pkg worksheetTemplate path d0 := by
            have := ready_of_zipDoc (t := worksheetTemplate) hp hct h0
            unfold Ready at this ⊢
            rw [hq.book.pkg.kept]; exact this
          rw [hr.source hsrc] at hload
          exact load_unnumbered h1 h2 hload

/-- **C92 (partial).** Whatever the reason of the failure and the calls after it: everything in the sheet the library does not manage is in the saved file, tag by tag
in the order of the file, if there is any. (The other parts: C81.) -/
theorem C92_partial (hst : env.build.release = true → StampOk env.stamp) (hz : (akeys z).Nodup) (h : RefusedSheet env theme z ops path x s) (hown : path ∉ ownParts x)
    (h0 : zipDoc env z path = some d0) (ht : Tidy d0) (hu : ∃ n ∈ d0.rootChildren, n.tag ∉ managedTags) (hs : s.x.toZip env now exts = .ok z') :
    ∃ d, zipDoc env z' path = some d ∧ ∀ tag, tag ∉ managedTags →
      d.rootChildren.filter (fun n => n.tag = tag) = (d0.rootChildren.filter (fun n => n.tag = tag)).map reload := by
  obtain ⟨d, hd, h2, _⟩ := refused_saved hz h hown h0 hs
  have hthin : Thinned d0 d := by
    rcases hd with rfl | rfl
    · exact .refl _
    · exact load_thins _
  have hkeep : ∀ tag, tag ∉ managedTags → d.rootChildren.filter (fun n => n.tag = tag) = d0.rootChildren.filter (fun n => n.tag = tag) := by
    intro tag htag
    rcases hd with rfl | rfl
    · rfl
    · exact load_keeps _ _ htag
  obtain ⟨p, rfl⟩ := hthin
  obtain ⟨c, dd, z1, z2, z3⟩ := of_zipDoc h0
  obtain ⟨tg, a, cs, hroot⟩ := ht.root
  have hw : WfDoc env.uni d0 (.mk tg a none cs) := by
    have hu := ht.uris
    rw [← z3] at hroot hu ⊢
    exact (Reachable.read z2).wf hroot hu
  have hw1 := wf_filter hw p
  have hch : (d0.mapRootChildren (fun l => l.filter p)).rootChildren = cs.filter p := by
    unfold XDoc.rootChildren; rw [hw1.isRoot]; rfl
  have hne : cs.filter p ≠ [] := by
    intro e
    obtain ⟨n, n1, n2⟩ := hu
    have := hkeep n.tag n2
    rw [hch, e] at this
    have hm : n ∈ d0.rootChildren.filter (fun m => m.tag = n.tag) := List.mem_filter.mpr ⟨n1, by simp⟩
    rw [← this] at hm
    cases hm
  obtain ⟨dd', r1, r2⟩ := read_doc env hst hw1 hne
  refine ⟨_, zipDoc_eq h2 r1, ?_⟩
  intro tag htag
  rw [r2, ← hkeep tag htag]
  have hr : (reloadDoc env.build (d0.mapRootChildren (fun l => l.filter p))).rootChildren = (cs.filter p).map reload := by
    unfold reloadDoc XDoc.rootChildren
    rw [hw1.isRoot]
    exact reload_children_of_none rfl
  rw [hr, hch, filter_reload]

/-! ## Examples -/

/-- Two rows, the second without number and reference. -/
def exBareText : List Char :=
  "<worksheet><sheetData><row r=\"1\"><c r=\"A1\"><v>5</v></c></row><row><c><v>7</v></c></row></sheetData>".toList ++
  "<autoFilter ref=\"A1:A2\"/></worksheet>".toList

/-- The cells of the sheet. -/
def exBareCells : List Shown := [⟨some "A1", "0", "n", "", [], "5", none, none, false⟩, ⟨none, "0", "n", "", [], "7", none, none, false⟩]

/-- Asking for the sheet fails; what is then saved, computed. -/
def exRefused (z : Zip) (chk : Excel → Zip → Bool) : Bool :=
  match Excel.openFile exEnv exTheme z with
  | .error _ => false
  | .ok x =>
    match Session.step exEnv ⟨x, []⟩ (.get "A") with
    | (.error (.fail _), s) =>
      match s.x.toZip exEnv "now" exExts with
      | .ok z' => exStored ⟨x, []⟩ && decide ("xl/worksheets/sheet1.xml" ∉ ownParts x) && chk x z'
      | .error _ => false
    | _ => false

theorem exRefused_sound {z : Zip} {chk : Excel → Zip → Bool} (h : exRefused z chk = true) :
    ∃ x s z', RefusedSheet exEnv exTheme z [.get "A"] "xl/worksheets/sheet1.xml" x s ∧ "xl/worksheets/sheet1.xml" ∉ ownParts x ∧
      s.x.toZip exEnv "now" exExts = .ok z' ∧ chk x z' = true ∧ StoredIn x "A" "xl/worksheets/sheet1.xml" := by
  unfold exRefused at h
  split at h
  · cases h
  · next x hx =>
    split at h
    · next m s hs =>
      split at h
      · next z' hz' =>
        simp only [Bool.and_eq_true, decide_eq_true_eq] at h
        obtain ⟨⟨h1, h2⟩, h3⟩ := h
        exact ⟨x, s, z', ⟨[], "A", ⟨x, []⟩, m, s, [], rfl, ⟨hx, rfl⟩, fun _ _ => trivial, exStored_sound h1, hs, rfl⟩, h2, hz', h3, exStored_sound h1⟩
      · cases h
    · cases h

/-- The filter is still there, the rows are not. -/
def exRefusedChk (x : Excel) (z' : Zip) : Bool :=
  decide ((zipDoc exEnv z' "xl/worksheets/sheet1.xml").map (fun d => (cellElements d).map shown) = some []) &&
    decide ((zipDoc exEnv z' "xl/worksheets/sheet1.xml").map (fun d => d.rootChildren.map Node.tag) = some ["autoFilter"]) &&
    decide ("xl/worksheets/_rels/sheet1.xml.rels" ∉ ownParts x)

theorem exRefused_run : exRefused (exBookWith exBareText) exRefusedChk = true := by decide +kernel

theorem exBare_facts : zipDoc exEnv (exBookWith exBareText) "xl/worksheets/sheet1.xml" = some (exDoc (exBookWith exBareText)) ∧ Tidy (exDoc (exBookWith exBareText)) ∧
    (cellElements (exDoc (exBookWith exBareText))).map shown = exBareCells := by
  have h : (exDocChk (exBookWith exBareText) && decide ((cellElements (exDoc (exBookWith exBareText))).map shown = exBareCells)) = true := by decide +kernel
  obtain ⟨h1, h2⟩ := Bool.and_eq_true_iff.mp h
  obtain ⟨d1, d2, _⟩ := exDocChk_sound h1
  exact ⟨d1, d2, of_decide_eq_true h2⟩

/-- **C92 is violated**: a failed call empties the sheet in the saved file. -/
theorem C92_violated : ¬ RefusalHarmless exEnv exTheme := by
  intro h
  obtain ⟨x, s, z', h1, h2, h3, h4, _⟩ := exRefused_sound exRefused_run
  obtain ⟨d1, d2, d3⟩ := exBare_facts
  obtain ⟨d, e1, e2⟩ := h _ _ _ x s "now" exExts z' _ (by decide +kernel) h1 h2 d1 d2 h3
  simp only [exRefusedChk, Bool.and_eq_true, decide_eq_true_eq] at h4
  rw [e1] at h4
  have := Option.some.inj h4.1.1
  simp only at this
  rw [this, d3] at e2
  cases e2

/-- The hypotheses of the theorems above hold of that sheet. -/
example : ∃ x s z', RefusedSheet exEnv exTheme (exBookWith exBareText) [.get "A"] "xl/worksheets/sheet1.xml" x s ∧ "xl/worksheets/sheet1.xml" ∉ ownParts x ∧
    zipDoc exEnv (exBookWith exBareText) "xl/worksheets/sheet1.xml" = some (exDoc (exBookWith exBareText)) ∧ Tidy (exDoc (exBookWith exBareText)) ∧
    Unnumbered (exDoc (exBookWith exBareText)) ∧ ((exDoc (exBookWith exBareText)).rootChildren.filter (fun n => n.tag = "sheetData")).length ≤ 1 ∧
    (∃ n ∈ (exDoc (exBookWith exBareText)).rootChildren, n.tag ∉ managedTags) ∧ (∀ n ∈ colElements (exDoc (exBookWith exBareText)), SoundCol exEnv n) ∧
    (∀ n, IsRelsOf n "xl/worksheets/sheet1.xml" → n ∉ ownParts x ∧ aget n (exBookWith exBareText) = none) ∧ s.x.toZip exEnv "now" exExts = .ok z' ∧
    StoredIn x "A" "xl/worksheets/sheet1.xml" := by
  obtain ⟨x, s, z', h1, h2, h3, h4, h5⟩ := exRefused_sound exRefused_run
  obtain ⟨d1, d2, _⟩ := exBare_facts
  simp only [exRefusedChk, Bool.and_eq_true, decide_eq_true_eq] at h4
  have hd : ((rowElements (exDoc (exBookWith exBareText))).any (fun n => (n.attr? "r").isNone) &&
      decide (((exDoc (exBookWith exBareText)).rootChildren.filter (fun n => n.tag = "sheetData")).length ≤ 1) &&
      (exDoc (exBookWith exBareText)).rootChildren.any (fun n => decide (n.tag ∉ managedTags)) && decide (colElements (exDoc (exBookWith exBareText)) = [])) = true := by
    decide +kernel
  simp only [Bool.and_eq_true, decide_eq_true_eq, List.any_eq_true, Option.isNone_iff_eq_none] at hd
  obtain ⟨⟨⟨⟨n, n1, n2⟩, k2⟩, k3⟩, k4⟩ := hd
  refine ⟨x, s, z', h1, h2, d1, d2, ⟨n, n1, .inl n2⟩, k2, k3, (by rw [k4]; intro n hn; cases hn), fun n hn => ?_, h3, h5⟩
  have hr : IsRelsOf "xl/worksheets/_rels/sheet1.xml.rels" "xl/worksheets/sheet1.xml" := ⟨"xl/worksheets".toList, "sheet1.xml".toList, by decide, by decide, by decide⟩
  rw [isRelsOf_unique hn hr]
  exact ⟨h4.2, by decide +kernel⟩

end Oxml
