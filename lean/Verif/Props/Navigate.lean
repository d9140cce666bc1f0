import Verif.Proofs.NavigateFile
import Verif.Proofs.KernelRfl
/-!
# C106: other programs find the sheets of a saved workbook by their names

From the root relationships, as `Verif.Spec.Navigate` says; the library's own reader plays no part.
-/
namespace Oxml
open Spec

variable {env : Env} {theme : XDoc}

/-! ## Following a sheet through a history -/

theorem named_step (hst : env.build.release = true → StampOk env.stamp) {s : Session} (hL : Linked s) (hI : SessInv env theme s) {op : WbOp} {e : SheetEntry}
    (he : e ∈ s.x.sheets) {k : Nat} (hk : sheetRel e.relId k ∈ s.x.rels.rels) {n : String} (hn : nameAfter env s e.name op = some n) :
    ∃ e' ∈ (s.step env op).2.x.sheets, e'.name = n ∧ sheetRel e'.relId k ∈ (s.step env op).2.x.rels.rels := by
  have hopen : ∀ name : Option String, ∃ e' ∈ (s.open env name).2.x.sheets, e'.name = e.name ∧ sheetRel e'.relId k ∈ (s.open env name).2.x.rels.rels := by
    intro name
    have hc := BookInv.openCase hst hI name
    unfold Session.open
    cases hos : s.x.openSheet env name with
    | mk r x1 =>
      rw [hos] at hc
      cases hc with
      | fresh p' h1 h2 h3 ha ho => exact ⟨e, List.mem_append_left _ he, rfl, List.mem_append_left _ hk⟩
      | busyNew o h1 h2 => exact ⟨e, List.mem_append_left _ he, rfl, List.mem_append_left _ hk⟩
      | dangling n h1 h2 => exact ⟨e, he, rfl, hk⟩
      | busyOld n k o h1 h2 h3 => exact ⟨e, he, rfl, hk⟩
      | reopened n k sh xd p' h1 h2 h3 h4 hi ha ho => exact ⟨e, he, rfl, hk⟩
  cases op with
  | add name => cases hn; exact hopen name
  | get n => cases hn; exact hopen (some n)
  | sheet i op =>
    cases hn
    simp only [Session.step]
    split
    · exact ⟨e, he, rfl, hk⟩
    · split
      · exact ⟨e, he, rfl, hk⟩
      · exact ⟨e, he, rfl, hk⟩
  | drop i =>
    cases hn
    simp only [Session.step]
    split <;> exact ⟨e, he, rfl, hk⟩
  | delete i =>
    simp only [nameAfter] at hn
    simp only [Session.step]
    split
    · next hg =>
      rw [hg] at hn
      cases hn
      exact ⟨e, he, rfl, hk⟩
    · next g hg =>
      rw [hg] at hn
      simp only at hn
      split at hn
      · cases hn
      · next hne =>
        cases hn
        have hm := List.mem_of_getElem? hg
        obtain ⟨j, hj, eq⟩ := hI.deleteEq (env := env) hm
        rw [eq]
        have hp := (hL.kept hI hm he hk).mp (fun h => hne h.symm)
        refine ⟨e, List.mem_filter.mpr ⟨he, by simpa using fun h => hne h.symm⟩, rfl, List.mem_filter.mpr ⟨hk, ?_⟩⟩
        simp only [decide_eq_true_eq, ne_eq]
        intro ht
        have e1 : ("/" ++ sheetName k).toList = ("/" ++ sheetName j).toList := congrArg String.toList ht
        rw [String.toList_append, String.toList_append, List.append_cancel_left_eq] at e1
        exact hp (by rw [hj]; exact String.toList_inj.mp e1)
  | rename old new =>
    simp only [nameAfter] at hn
    rcases renameSheet_cases s.x.sheets old new with ⟨_, m, eq⟩ | ⟨_, a, en, b, h1, h0, h2, eq⟩
    · have hs : s.step env (.rename old new) = (.error (.fail m), s) := by simp only [Session.step, eq]
      rw [if_neg (fun h => by rw [hs] at h; cases h.2)] at hn
      cases hn
      rw [hs]
      exact ⟨e, he, rfl, hk⟩
    · have hs : s.step env (.rename old new) = (.ok (), { s with x := { s.x with sheets := a ++ { en with name := new } :: b } }) := by
        simp only [Session.step, eq]
      have hen : en ∈ s.x.sheets := by rw [h1]; simp
      by_cases ho : old = e.name
      · rw [if_pos ⟨ho, by rw [hs]⟩] at hn
        cases hn
        rw [hs]
        have := entry_unique hL.nodup he hen (by rw [h2, ho])
        subst this
        exact ⟨{ e with name := n }, by simp, rfl, hk⟩
      · rw [if_neg (fun h => ho h.1)] at hn
        cases hn
        rw [hs]
        refine ⟨e, ?_, rfl, hk⟩
        rw [h1] at he
        simp only [List.mem_append, List.mem_cons] at he ⊢
        rcases he with h | h | h
        · exact .inl h
        · subst h; exact absurd h2.symm ho
        · exact .inr (.inr h)
  | active name =>
    cases hn
    exact ⟨_, List.mem_map_of_mem he, rfl, hk⟩
  | hide name =>
    cases hn
    exact ⟨_, List.mem_map_of_mem he, rfl, hk⟩
  | view op => cases hn; exact ⟨e, he, rfl, hk⟩
  | style g st =>
    cases hn
    simp only [Session.step]
    split <;> exact ⟨e, he, rfl, hk⟩

theorem named_run (hst : env.build.release = true → StampOk env.stamp) (ops : List WbOp) {s s' : Session} (hL : Linked s) (hI : SessInv env theme s)
    (hc : Careful env s ops) (hr : s.run env ops = .ok s') {e : SheetEntry} (he : e ∈ s.x.sheets) {k : Nat} (hk : sheetRel e.relId k ∈ s.x.rels.rels) {n : String}
    (hn : finalName env s e.name ops = some n) : ∃ e' ∈ s'.x.sheets, e'.name = n ∧ sheetRel e'.relId k ∈ s'.x.rels.rels := by
  induction ops generalizing s e with
  | nil => cases hr; cases hn; exact ⟨e, he, rfl, hk⟩
  | cons op ops ih =>
    obtain ⟨h1, h2⟩ := hc
    rw [finalName] at hn
    obtain ⟨n1, e1, hn⟩ := Option.bind_eq_some_iff.mp hn
    obtain ⟨e', he', e2, hk'⟩ := named_step hst hL hI he hk e1
    rw [Session.run] at hr
    have g1 := hL.step hst hI op h1
    have g2 := hI.step hst op
    subst e2
    split at hr
    · cases hr
    · next eq => rw [eq] at g1 g2 h2 he' hk' hn; exact ih g1 g2 h2 hr he' hk' hn

theorem careful_append {ops ops' : List WbOp} {s s' : Session} (hr : s.run env ops = .ok s') (hc : Careful env s (ops ++ ops')) :
    Careful env s ops ∧ Careful env s' ops' := by
  induction ops generalizing s with
  | nil => cases hr; exact ⟨trivial, hc⟩
  | cons op ops ih =>
    rw [List.cons_append, Careful] at hc
    rw [Session.run] at hr
    split at hr
    · cases hr
    · next eq =>
      rw [eq] at hc
      obtain ⟨a, b⟩ := ih hr hc.2
      refine ⟨⟨hc.1, ?_⟩, b⟩
      rw [eq]
      exact a

/-! ## The file -/

theorem savedFile (hst : env.build.release = true → StampOk env.stamp) (hsx : env.build.release = true → StampXml env.stamp) {ops : List WbOp} {s : Session}
    (h : Ran env theme ops s) (ht : ∀ op ∈ ops, ∀ t ∈ givenTexts op, XmlChars t) {now : String} (hnow : XmlChars now) {exts : List (String × String)}
    (he : ∀ p, s.x.saved env now = .ok p → HashSetOrder p.extPairs exts) {z : Zip} (hz : s.x.toZip env now exts = .ok z) :
    ∃ p, FileOf env theme s now exts p z := by
  have hI := ran_inv hst h
  obtain ⟨p, hp, e⟩ := mem_zip hz
  obtain ⟨p', hp', hw⟩ := hI.written now
  rw [hp] at hp'
  cases hp'
  obtain ⟨x, hx, hr⟩ := h
  rw [new_eq env theme] at hx
  cases hx
  exact ⟨p, hsx, hI, FileX.run hst ops (newBook env theme) fileX_new ht hr, run_numbered hst (newBook env theme) (numbered_new env theme) hr, hnow, hw, he p hp, e⟩

/-- **C106, the list.** After any history from a new workbook with texts XML allows, other programs can open the file, and the sheets it lists
for them are the library's, in order, names as XML reads attributes, hidden ones marked. -/
theorem C106_listed (hst : env.build.release = true → StampOk env.stamp) (hsx : env.build.release = true → StampXml env.stamp) {ops : List WbOp} {s : Session}
    (h : Ran env theme ops s) (ht : ∀ op ∈ ops, ∀ t ∈ givenTexts op, XmlChars t) {now : String} (hnow : XmlChars now) {exts : List (String × String)}
    (he : ∀ p, s.x.saved env now = .ok p → HashSetOrder p.extPairs exts) :
    ∃ z, s.x.toZip env now exts = .ok z ∧ (∃ types main book rels, OpensFile z types main book rels) ∧
      ∀ types main book rels, OpensFile z types main book rels →
        (sheetList book).map (fun l => (l.name, l.state)) =
          s.x.sheets.map (fun e => (some (Reading.xml.attr e.name.toList), if e.hide then some "hidden".toList else none)) := by
  obtain ⟨z, hz⟩ := C65_saves hst h now exts
  obtain ⟨p, hf⟩ := savedFile hst hsx h ht hnow he hz
  refine ⟨z, hz, hf.opened, fun types main book rels ho => ?_⟩
  obtain ⟨_, _, hb, _⟩ := hf.opens.mp ho
  rw [book_read hf.clean.sheets hf.clean.view hf.stamp hb, List.map_map]
  rfl

/-- **C106, every sheet.** After a careful history in which no sheet is named with a tab or line break, other programs find a worksheet under
exactly the names the library lists. -/
theorem C106_sheets_partial (hst : env.build.release = true → StampOk env.stamp) (hsx : env.build.release = true → StampXml env.stamp) {ops : List WbOp} {s : Session}
    (h : RanCarefully env theme ops s) (ht : ∀ op ∈ ops, ∀ t ∈ givenTexts op, XmlChars t) (hc : ∀ n ∈ names s.x.sheets, CalmName n) {now : String}
    (hnow : XmlChars now) {exts : List (String × String)} (he : ∀ p, s.x.saved env now = .ok p → HashSetOrder p.extPairs exts) :
    ∃ z, s.x.toZip env now exts = .ok z ∧ ∀ name : String, (∃ sheet, FindsSheet z name.toList sheet) ↔ name ∈ names s.x.sheets := by
  have hr := careful_ran h
  have hL := careful_linked hst h
  obtain ⟨z, hz⟩ := C65_saves hst hr now exts
  obtain ⟨p, hf⟩ := savedFile hst hsx hr ht hnow he hz
  have hc' : ∀ e ∈ s.x.sheets, CalmName e.name := fun e he => hc _ (List.mem_map_of_mem he)
  refine ⟨z, hz, fun name => ⟨?_, ?_⟩⟩
  · rintro ⟨sheet, types, main, book, rels, e, id, r, part, o1, o2, _⟩
    obtain ⟨_, _, hb, _⟩ := hf.opens.mp o1
    rw [book_read hf.clean.sheets hf.clean.view hf.stamp hb] at o2
    have hm : e ∈ (s.x.sheets.map seenEntry).filter (fun e => decide (e.name = some name.toList)) := by rw [o2]; simp
    obtain ⟨hm, hd⟩ := List.mem_filter.mp hm
    obtain ⟨en, hen, rfl⟩ := List.mem_map.mp hm
    have hd := Option.some.inj (of_decide_eq_true hd)
    rw [calm_reads (hc' en hen)] at hd
    rw [← String.toList_inj.mp hd]
    exact List.mem_map_of_mem hen
  · intro hn
    obtain ⟨e, he, rfl⟩ := mem_names.mp hn
    obtain ⟨k, hk⟩ := hL.rel e he
    obtain ⟨en, x, root, f1, f2, f3, f4, _⟩ := hf.sheet (BookInv.rel_holds hf.sess hk)
    obtain ⟨sheet, hs⟩ := f4.wellFormed (b := env.build) hsx
    exact ⟨sheet, (hf.finds hL.nodup hc' he hk f1).mpr (f3 ▸ hs)⟩

/-- Other programs find the sheet of a dropped handle under the name it has in the end, in the part of the handle. -/
theorem finds_dropped (hst : env.build.release = true → StampOk env.stamp) (hsx : env.build.release = true → StampXml env.stamp) {ops ops' : List WbOp} {x : Excel}
    {s s' : Session} (hx : Excel.new env theme = .ok x) (hr : Session.run env ⟨x, []⟩ ops = .ok s) {i : Nat} {h : SheetHandle}
    (hi : s.handles[i]? = some h) (hr' : (s.step env (.drop i)).2.run env ops' = .ok s') (hca : Careful env ⟨x, []⟩ (ops ++ .drop i :: ops'))
    (ht : ∀ op ∈ ops ++ ops', ∀ t ∈ givenTexts op, XmlChars t) (hc : ∀ n ∈ names s'.x.sheets, CalmName n) {name : String}
    (hn : finalName env (s.step env (.drop i)).2 h.name ops' = some name) {now : String} (hnow : XmlChars now) {exts : List (String × String)}
    (he : ∀ p, s'.x.saved env now = .ok p → HashSetOrder p.extPairs exts) {z : Zip} (hz : s'.x.toZip env now exts = .ok z) :
    ∃ p text, FileOf env theme s' now exts p z ∧ (h.path, text) ∈ z ∧ WellFormed text ∧ ∀ sheet, FindsSheet z name.toList sheet ↔ IsDocument text sheet := by
  rw [new_eq env theme] at hx
  cases hx
  have hI0 := newBook env theme
  obtain ⟨ca1, ca2⟩ := careful_append hr hca
  obtain ⟨ca2, ca3⟩ := ca2
  have hI : SessInv env theme s := run_ind (P := SessInv env theme) (fun s op h => h.step hst op) ops hI0 hr
  have hL : Linked s := (linked_new env theme).run hst ops hI0 ca1 hr
  have hI1 : SessInv env theme (s.step env (.drop i)).2 := hI.step hst _
  have hL1 := hL.step hst hI _ ca2
  have hI2 : SessInv env theme s' := run_ind (P := SessInv env theme) (fun s op h => h.step hst op) ops' hI1 hr'
  have hL2 := hL1.run hst ops' hI1 ca3 hr'
  have hdrop : (s.step env (.drop i)).2 = ⟨{ s.x with pkg := dropSheet env s.x.pkg h }, s.handles.eraseIdx i⟩ := by
    simp only [Session.step, hi]
  obtain ⟨e0, he0, k, q1, q2, q3⟩ := hL.has h (List.mem_of_getElem? hi)
  obtain ⟨e', he', rfl, hk'⟩ := named_run hst ops' hL1 hI1 ca3 hr' (e := e0) (by rw [hdrop]; exact he0) (k := k) (by rw [hdrop]; exact q2) (by rw [q3]; exact hn)
  have hfile : ∃ p, FileOf env theme s' now exts p z := by
    obtain ⟨p, hp, ez⟩ := mem_zip hz
    obtain ⟨p', hp', hw⟩ := hI2.written now
    rw [hp] at hp'
    cases hp'
    have hX : FileX env s := FileX.run hst ops hI0 fileX_new (fun o ho => ht o (List.mem_append_left _ ho)) hr
    have hX1 : FileX env (s.step env (.drop i)).2 := hX.step hst hI _ (by simp [givenTexts])
    have hN : NumberedIds s := run_numbered hst hI0 (numbered_new env theme) hr
    have hN1 : NumberedIds (s.step env (.drop i)).2 := by rw [hdrop]; exact hN
    exact ⟨p, hsx, hI2, FileX.run hst ops' hI1 hX1 (fun o ho => ht o (List.mem_append_right _ ho)) hr', run_numbered hst hI1 hN1 hr', hnow, hw, he p hp, ez⟩
  obtain ⟨p, hfo⟩ := hfile
  obtain ⟨en, xd, root, f1, f2, f3, f4, _⟩ := hfo.sheet (BookInv.rel_holds hI2 hk')
  have hc' : ∀ e ∈ s'.x.sheets, CalmName e.name := fun e he => hc _ (List.mem_map_of_mem he)
  have hfind : ∀ sheet, FindsSheet z e'.name.toList sheet ↔ IsDocument en.content sheet := fun sheet => hfo.finds hL2.nodup hc' he' hk' f1
  refine ⟨p, en.content, hfo, by rw [q1, hfo.zip]; exact part_zip f1, ?_, hfind⟩
  rw [f3]
  exact f4.wellFormed hsx

/-- **C106, partial.** A sheet is written through its handle, the handle is dropped, the session goes on and the workbook is saved; the calls are
careful (names stay distinct, additions succeed, no sheet with an open handle is renamed) and no name has a tab or line break. Under the
name the sheet has in the end other programs find exactly one worksheet, and in it, with the shared strings they find, the cells written:
none where nothing was written, and exactly one where something was, with the value last written. Missing: other histories
(`C106_violated`), names with tabs or line breaks (`C106_violated_names`), and what is missing in C105. -/
theorem C106_partial (hst : env.build.release = true → StampOk env.stamp) (hsx : env.build.release = true → StampXml env.stamp) {ops ops' : List WbOp} {x : Excel}
    {s s' : Session} (hx : Excel.new env theme = .ok x) (hr : Session.run env ⟨x, []⟩ ops = .ok s) (hf : FittingOps env ops) {i : Nat} {h : SheetHandle}
    (hi : s.handles[i]? = some h) (hr' : (s.step env (.drop i)).2.run env ops' = .ok s') (hca : Careful env ⟨x, []⟩ (ops ++ .drop i :: ops'))
    (ht : ∀ op ∈ ops ++ ops', ∀ t ∈ givenTexts op, XmlChars t) (hc : ∀ n ∈ names s'.x.sheets, CalmName n) {name : String}
    (hn : finalName env (s.step env (.drop i)).2 h.name ops' = some name) {now : String} (hnow : XmlChars now) {exts : List (String × String)}
    (he : ∀ p, s'.x.saved env now = .ok p → HashSetOrder p.extPairs exts) :
    ∃ z, s'.x.toZip env now exts = .ok z ∧ (∃ sheet strings, FindsSheet z name.toList sheet ∧ FindsStrings z strings) ∧
      ∀ sheet strings, FindsSheet z name.toList sheet → FindsStrings z strings → ∀ row col ref, RefText ref row col →
        (lastWritten row col (writesTo env h.path ⟨x, []⟩ ops) = none → (seenCells sheet).filter (fun c => decide (c.ref = some ref)) = []) ∧
        ∀ given, lastWritten row col (writesTo env h.path ⟨x, []⟩ ops) = some given → NumbersAreNumbers given →
          (CleanEdges given ∨ NoReopen env (s.step env (.drop i)).2 ops') →
          ∃ c, (seenCells sheet).filter (fun c => decide (c.ref = some ref)) = [c] ∧ FoundAs strings row given c := by
  obtain ⟨z, hz, m1, m2, hcells⟩ := C105_partial hst hsx hx hr hf hi hr' ht now exts
  obtain ⟨p, text, hfo, hm, ⟨sheet0, hs0⟩, hfind⟩ := finds_dropped hst hsx hx hr hi hr' hca ht hc hn hnow he hz
  refine ⟨z, hz, ⟨sheet0, _, (hfind sheet0).mpr hs0, hfo.strings.mpr rfl⟩, ?_⟩
  intro sheet strings d1 d2 row col ref hrt
  obtain ⟨stext, t1, sst, t2⟩ := m2
  obtain ⟨es, g1, _, g2⟩ := strings_found hsx hfo.sess hfo.clean hfo.written
  have := hcells text stext sheet sst hm t1 ((hfind sheet).mp d1) t2 row col ref hrt
  have hst : sharedStrings sst = strings := by
    rw [hfo.strings.mp d2]
    rw [hfo.zip] at t1
    rw [zip_part hfo.written g1 (by decide +kernel) t1] at t2
    exact g2 sst t2
  rw [hst] at this
  exact this

/-! ## What is not found -/

theorem attr_calm (t : List Char) : ∀ c ∈ Reading.xml.attr t, c ≠ '\r' ∧ c ≠ '\n' ∧ c ≠ '\t' := by
  intro c hc
  obtain ⟨d, _, rfl⟩ := List.mem_map.mp (show c ∈ (lineEnds t).map whiteToSpace from hc)
  unfold whiteToSpace
  split
  · decide
  · next h =>
    exact ⟨fun e => h (.inr (.inr e)), fun e => h (.inr (.inl e)), fun e => h (.inl e)⟩

/-- **C106 fails, always, for names with tabs or line breaks.** They are written as they are, and read as spaces: other programs find no sheet
under such a name. -/
theorem C106_violated_names (hst : env.build.release = true → StampOk env.stamp) (hsx : env.build.release = true → StampXml env.stamp) {ops : List WbOp} {s : Session}
    (h : Ran env theme ops s) (ht : ∀ op ∈ ops, ∀ t ∈ givenTexts op, XmlChars t) {now : String} (hnow : XmlChars now) {exts : List (String × String)}
    (he : ∀ p, s.x.saved env now = .ok p → HashSetOrder p.extPairs exts) {name : String} (hn : ¬CalmName name) :
    ∃ z, s.x.toZip env now exts = .ok z ∧ ∀ sheet, ¬FindsSheet z name.toList sheet := by
  obtain ⟨z, hz⟩ := C65_saves hst h now exts
  obtain ⟨p, hf⟩ := savedFile hst hsx h ht hnow he hz
  refine ⟨z, hz, ?_⟩
  rintro sheet ⟨types, main, book, rels, e, id, r, part, o1, o2, _⟩
  obtain ⟨_, _, hb, _⟩ := hf.opens.mp o1
  rw [book_read hf.clean.sheets hf.clean.view hf.stamp hb] at o2
  have hm : e ∈ (s.x.sheets.map seenEntry).filter (fun e => decide (e.name = some name.toList)) := by rw [o2]; simp
  obtain ⟨hm, hd⟩ := List.mem_filter.mp hm
  obtain ⟨en, hen, rfl⟩ := List.mem_map.mp hm
  have hd : Reading.xml.attr en.name.toList = name.toList := Option.some.inj (of_decide_eq_true hd)
  refine hn ⟨fun hm => ?_, fun hm => ?_, fun hm => ?_⟩ <;> rw [← hd] at hm
  · exact (attr_calm _ _ hm).1 rfl
  · exact (attr_calm _ _ hm).2.1 rfl
  · exact (attr_calm _ _ hm).2.2 rfl

/-- **C106 fails.** A sheet renamed and then deleted through its handle stays listed, and other programs find no sheet behind the entry. -/
theorem C106_violated (env : Env) (theme : XDoc) (hst : env.build.release = true → StampOk env.stamp) (hsx : env.build.release = true → StampXml env.stamp) {now : String}
    (hnow : XmlChars now) {exts : List (String × String)} :
    ∃ s, Ran env theme [.add (some "a"), .rename "a" "b", .delete 0] s ∧ names s.x.sheets = ["sheet1", "b"] ∧
      ((∀ p, s.x.saved env now = .ok p → HashSetOrder p.extPairs exts) → ∃ z, s.x.toZip env now exts = .ok z ∧ ∀ sheet, ¬FindsSheet z "b".toList sheet) := by
  have hR : Ran env theme [.add (some "a"), .rename "a" "b", .delete 0] (endOf env theme [.add (some "a"), .rename "a" "b", .delete 0]) :=
    ⟨newExcel env theme, new_eq env theme, by kernel_rfl⟩
  refine ⟨_, hR, by kernel_rfl, fun he => ?_⟩
  have hsh : (endOf env theme [.add (some "a"), .rename "a" "b", .delete 0]).x.sheets.map (fun e => (e.name, e.relId)) = [("sheet1", "rId5"), ("b", "rId6")] := by kernel_rfl
  have hids : (endOf env theme [.add (some "a"), .rename "a" "b", .delete 0]).x.rels.rels.map Rel.id = ["rId1", "rId2", "rId3", "rId4", "rId5"] := by kernel_rfl
  generalize endOf env theme [.add (some "a"), .rename "a" "b", .delete 0] = s at hR hsh hids he
  obtain ⟨z, hz⟩ := C65_saves hst hR now exts
  have ht : ∀ op ∈ [WbOp.add (some "a"), .rename "a" "b", .delete 0], ∀ t ∈ givenTexts op, XmlChars t := by
    intro op ho t ht
    have hm : t ∈ [WbOp.add (some "a"), .rename "a" "b", .delete 0].flatMap givenTexts := List.mem_flatMap.mpr ⟨op, ho, ht⟩
    rw [show [WbOp.add (some "a"), .rename "a" "b", .delete 0].flatMap givenTexts = ["a", "a", "b"] from rfl] at hm
    simp only [List.mem_cons, List.not_mem_nil, or_false] at hm
    rcases hm with rfl | rfl | rfl <;> exact xlit (by decide +kernel)
  obtain ⟨p, hf⟩ := savedFile hst hsx hR ht hnow he hz
  refine ⟨z, hz, ?_⟩
  rintro sheet ⟨types, main, book, rels, e, id, r, part, o1, o2, o3, o4, _⟩
  obtain ⟨_, _, hb, hr⟩ := hf.opens.mp o1
  rw [book_read hf.clean.sheets hf.clean.view hf.stamp hb] at o2
  rw [rels_read hf.relsX hf.calmRels hf.stamp hr] at o4
  have hm : e ∈ (s.x.sheets.map seenEntry).filter (fun e => decide (e.name = some "b".toList)) := by rw [o2]; simp
  obtain ⟨hm, hd⟩ := List.mem_filter.mp hm
  obtain ⟨en, hen, rfl⟩ := List.mem_map.mp hm
  have hd : Reading.xml.attr en.name.toList = "b".toList := Option.some.inj (of_decide_eq_true hd)
  have hm2 : (en.name, en.relId) ∈ [("sheet1", "rId5"), ("b", "rId6")] := hsh ▸ List.mem_map_of_mem (f := fun e : SheetEntry => (e.name, e.relId)) hen
  simp only [List.mem_cons, List.not_mem_nil, or_false, Prod.mk.injEq] at hm2
  rcases hm2 with ⟨h1, h2⟩ | ⟨h1, h2⟩
  · rw [h1] at hd
    exact absurd hd (by decide +kernel)
  · have hid : id = "rId6".toList := by
      have : some (Reading.xml.attr en.relId.toList) = some id := o3
      rw [h2] at this
      rw [← Option.some.inj this]
      decide +kernel
    have hm3 : r ∈ ((relsSaved s.x.rels.rels s.x.strings.data).map seenRel).filter (fun r => decide (r.id = some id)) := by rw [o4]; simp
    obtain ⟨hm3, hd3⟩ := List.mem_filter.mp hm3
    obtain ⟨q, hq, rfl⟩ := List.mem_map.mp hm3
    have hd3 : q.id.toList = id := Option.some.inj (of_decide_eq_true hd3)
    have hq' : q.id ∈ ["rId1", "rId2", "rId3", "rId4", "rId5"] := hids ▸ List.mem_map_of_mem (f := Rel.id) ((relsSaved_sub _ _).subset hq)
    rw [hid, String.toList_inj] at hd3
    rw [hd3] at hq'
    exact absurd hq' (by decide +kernel)

/-! ## Cases -/

theorem some_order (hst : env.build.release = true → StampOk env.stamp) {ops : List WbOp} {s : Session} (h : Ran env theme ops s) (now : String) :
    ∃ exts, ∀ p, s.x.saved env now = .ok p → HashSetOrder p.extPairs exts := by
  obtain ⟨p, hp, _⟩ := (ran_inv hst h).written now
  refine ⟨@List.eraseDups _ instBEqOfDecidableEq p.extPairs, fun q hq => ?_⟩
  rw [hp] at hq
  cases hq
  exact ⟨nodup_eraseDups _, fun _ => @List.mem_eraseDups _ instBEqOfDecidableEq _ _ _⟩

theorem wordOps_careful (theme : XDoc) : Careful C32_env ⟨newExcel C32_env theme, []⟩ (wordOps ++ [.drop 0, .rename "a" "c", .get "c"]) := by
  have nd : ∀ (s : Session) (op : WbOp) (l : List String), names (s.step C32_env op).2.x.sheets = l → l.Nodup → (names (s.step C32_env op).2.x.sheets).Nodup := by
    intro s op l h hl; rw [h]; exact hl
  have has : ∀ (s : Session) (l : List String), names s.x.sheets = l → "c" ∈ l → "c" ∈ names s.x.sheets := by
    intro s l h hl; rw [h]; exact hl
  refine ⟨⟨nd _ _ ["sheet1", "a"] (by kernel_rfl) (by decide), Or.inr (by kernel_rfl)⟩, ?_⟩
  refine ⟨⟨nd _ _ ["sheet1", "a"] (by kernel_rfl) (by decide), trivial⟩, ?_⟩
  refine ⟨⟨nd _ _ ["sheet1", "a"] (by kernel_rfl) (by decide), trivial⟩, ?_⟩
  refine ⟨⟨nd _ _ ["sheet1", "c"] (by kernel_rfl) (by decide), noHandle (l := []) (by kernel_rfl) (by decide)⟩, ?_⟩
  refine ⟨⟨nd _ _ ["sheet1", "c"] (by kernel_rfl) (by decide), Or.inl (has _ ["sheet1", "c"] (by kernel_rfl) (by decide))⟩, trivial⟩

/-- Example: the sheet is written as "a", renamed to "c" and opened again before saving; other programs find the text in B3 of "c". -/
example : ∃ exts z, (endOf C32_env theme (wordOps ++ [.drop 0, .rename "a" "c", .get "c"])).x.toZip C32_env "" exts = .ok z ∧
    ∃ sheet strings c, FindsSheet z "c".toList sheet ∧ FindsStrings z strings ∧ (seenCells sheet).filter (fun c => decide (c.ref = some "B3".toList)) = [c] ∧
      c.holds strings = .text "5 < 6 & \n".toList := by
  obtain ⟨h, hi, hp, hn⟩ : ∃ h, (endOf C32_env theme wordOps).handles[0]? = some h ∧ h.path = "xl/worksheets/sheet2.xml" ∧ h.name = "a" :=
    ⟨(endOf C32_env theme wordOps).handles[0]?.getD ⟨0, ⟨[], 0, ""⟩, emptySheet, "", ""⟩, by kernel_rfl, by kernel_rfl, by kernel_rfl⟩
  have hR : Ran C32_env theme (wordOps ++ [.drop 0, .rename "a" "c", .get "c"]) (endOf C32_env theme (wordOps ++ [.drop 0, .rename "a" "c", .get "c"])) :=
    ⟨newExcel C32_env theme, new_eq C32_env theme, by kernel_rfl⟩
  obtain ⟨exts, he⟩ := some_order (fun h => by cases h) hR ""
  have r1 : Session.run C32_env ⟨newExcel C32_env theme, []⟩ wordOps = .ok (endOf C32_env theme wordOps) := by kernel_rfl
  have r2 : ((endOf C32_env theme wordOps).step C32_env (.drop 0)).2.run C32_env [.rename "a" "c", .get "c"] =
      .ok (endOf C32_env theme (wordOps ++ [.drop 0, .rename "a" "c", .get "c"])) := by kernel_rfl
  have r3 : names (endOf C32_env theme (wordOps ++ [.drop 0, .rename "a" "c", .get "c"])).x.sheets = ["sheet1", "c"] := by kernel_rfl
  have r4 : finalName C32_env ((endOf C32_env theme wordOps).step C32_env (.drop 0)).2 "a" [.rename "a" "c", .get "c"] = some "c" := by kernel_rfl
  have r5 : lastWritten 3 2 (writesTo C32_env "xl/worksheets/sheet2.xml" ⟨newExcel C32_env theme, []⟩ wordOps) = some { value := some "5 < 6 & \r\n" } := by kernel_rfl
  generalize endOf C32_env theme (wordOps ++ [.drop 0, .rename "a" "c", .get "c"]) = s' at *
  generalize endOf C32_env theme wordOps = s at *
  obtain ⟨z, hz, ⟨sheet, strings, w1, w2⟩, hall⟩ := C106_partial (fun h => by cases h) (fun h => by cases h) (new_eq C32_env theme) r1 wordOps_fit hi r2 (wordOps_careful theme)
    wordOps_texts
    (by
      rw [r3]
      intro n hn
      simp only [List.mem_cons, List.not_mem_nil, or_false] at hn
      rcases hn with rfl | rfl <;> exact calm_lit (by decide +kernel))
    (by rw [hn]; exact r4) (now := "") (xlit (by decide +kernel)) he
  refine ⟨exts, z, hz, sheet, strings, ?_⟩
  rw [hp] at hall
  obtain ⟨c, hc, hf⟩ := (hall sheet strings w1 w2 3 2 _ refText_b3).2 { value := some "5 < 6 & \r\n" } r5
    (by
      intro v hv ht
      cases hv
      rcases ht with ht | ⟨_, ht⟩
      · cases ht
      · exact absurd ((isFloatText_iff "5 < 6 & \r\n").mpr ht) (by decide +kernel))
    (.inl ⟨(fun f h => by cases h), fun v _ h => by rcases h with h | h | h <;> cases h⟩)
  refine ⟨c, w1, w2, hc, ?_⟩
  rw [hf.value]
  unfold wantedValue
  simp only
  rw [if_neg (fun h => by have := (isFloatText_iff "5 < 6 & \r\n").mpr h; revert this; decide +kernel), if_neg (by decide), if_neg (by decide)]
  congr 1

/-- Example: a history as in C44 meets the hypotheses of `C106_sheets_partial`. -/
example (env : Env) (theme : XDoc) : ∃ s, RanCarefully env theme carefulOps s ∧ names s.x.sheets = ["first", "c"] ∧ (∀ n ∈ names s.x.sheets, CalmName n) ∧
    ∀ op ∈ carefulOps, ∀ t ∈ givenTexts op, XmlChars t := by
  have hn : names (endOf env theme carefulOps).x.sheets = ["first", "c"] := by kernel_rfl
  refine ⟨_, careful_example env theme, hn, ?_, ?_⟩
  · rw [hn]
    intro n hn
    simp only [List.mem_cons, List.not_mem_nil, or_false] at hn
    rcases hn with rfl | rfl <;> exact calm_lit (by decide +kernel)
  · intro op ho t ht
    have hm : t ∈ carefulOps.flatMap givenTexts := List.mem_flatMap.mpr ⟨op, ho, ht⟩
    have hall : (carefulOps.flatMap givenTexts).all (fun t => t.toList.all (fun x => decide (0x20 ≤ x.toNat ∧ x.toNat < 128))) = true := by decide +kernel
    exact xlit (List.all_eq_true.mp hall t hm)

/-- Example: a sheet named with a tab. -/
example (env : Env) (theme : XDoc) : ∃ s, Ran env theme [.add (some "a\tb")] s ∧ names s.x.sheets = ["sheet1", "a\tb"] ∧ ¬CalmName "a\tb" :=
  ⟨endOf env theme [.add (some "a\tb")], ⟨newExcel env theme, new_eq env theme, by kernel_rfl⟩, by kernel_rfl, fun h => h.2.2 (by decide +kernel)⟩

end Oxml
