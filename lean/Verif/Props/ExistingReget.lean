import Verif.Props.ExistingTexts -- only to build one after the other: both need much memory
import Verif.Props.Order -- only to build one after the other: both need much memory
import Verif.Proofs.ExistingReget
import Verif.Props.ExistingSheets
/-!
# C47, C86: a sheet of an existing workbook opened again, in the same session and from the saved file
-/
namespace Oxml
open Spec

variable {env : Env} {theme : XDoc} {z z' : Zip} {ops : List WbOp} {x : Excel} {path rp : String} {edits : List SheetOp} {s : Session} {now : String}
  {exts : List (String × String)} {d0 dr : XDoc}

theorem relsOf_slash (h : IsRelsOf rp path) : rp ≠ contentTypesName := by
  obtain ⟨dir, base, _, _, e⟩ := h
  intro h'
  have h1 : '/' ∈ rp.toList := by rw [e]; simp
  rw [h'] at h1
  exact absurd h1 (by decide +kernel)

theorem mapRes_ne {α β : Type} {f : α → Res β} {l : List α} {r : List β} (h : mapRes f l = .ok r) (hl : l ≠ []) : r ≠ [] := by
  cases l with
  | nil => exact absurd rfl hl
  | cons a l =>
    simp only [mapRes] at h
    split at h
    · cases h
    · split at h
      · cases h
      · cases h; simp

/-- The relationship part of an edited sheet while the handle is kept. -/
theorem rels_held (hz : (akeys z).Nodup) {ops0 ops1 : List WbOp} {name : String} {i : Nat} {s3 : Session}
    (h : EditRun env theme z path edits x ops0 name ops1 i s3) (hrp : IsRelsOf rp path) (hn0 : NeverAsks env rp ⟨x, []⟩ ops0) :
    sheetRelsPath path = some rp ∧ rp ≠ path ∧ ∃ p s2 g ro, Pkg.ofZip env z = .ok p ∧ Source env p relsTemplate rp ro ∧ LiveSess s2 ∧ s2.handles[i]? = some g ∧
      g.rels.path = rp ∧ (loadRels ro.doc).1 = .ok g.rels.rels ∧ ro.handle = g.rels.handle ∧
      Still g.rels.path { ro with doc := (loadRels ro.doc).2 } s2.x.pkg ∧ s3 = (s2.step env (.drop i)).2 := by
  obtain ⟨s0, s1, g0, s2, g, ⟨hopen, hrun0⟩, hget, hh, hpath, hrun1, hfit, rfl, hg, hgh, rfl⟩ := h
  obtain ⟨p, _, _, _, _, _, _, _, _, _, _, hp, hb⟩ := openFile_book hz hopen
  have hl0 : LiveSess s0 := hb.live.run env ops0 hrun0
  obtain ⟨g', o, d1, e1, -, -, hoh, -, hstill, rp', ro, hrp', hnp, hrpath, hclosed, hsrc, hload, hroh, hrstill⟩ := get_ok hl0 hget
  have eg : g' = g0 := by
    rw [hh] at e1
    exact (List.singleton_inj.mp (List.append_cancel_left e1)).symm
  subst eg
  subst hpath
  obtain rfl := isRelsOf_unique hrp (isRelsOf_of_path hrp')
  have hown : rp ∉ ownParts x := by
    intro hm
    have hm' : rp ∈ ownParts s0.x := by rw [ownParts_pairs, (own_run hb.live hrun0).1]; exact hm
    obtain ⟨k, hk⟩ := own_pair hm'
    exact (hl0.owns (rp, k) (List.mem_append_left _ hk)).isOpen hclosed
  have hq0 : QuietSess rp (aget rp p.archive) ⟨x, []⟩ :=
    ⟨⟨⟨hb.openOnly _ hown, hb.others _ hown⟩, hown⟩, fun g hg => by cases hg⟩
  have hq1 := hq0.run env ops0 hn0 hrun0
  have hl1 : LiveSess s1 := by have := hl0.step env (.get name); rw [hget] at this; exact this
  have hold : Holding g'.handle g'.rels { ro with doc := (loadRels ro.doc).2 } s1 := by
    refine ⟨hl1, ?_, ?_⟩
    · rw [← hoh]; exact hl1.inv.handleLt (g'.path, { o with doc := d1 }) (mem_of_aget hstill)
    · intro a ha hk
      obtain ⟨j, hj⟩ := List.getElem?_of_mem ha
      have hj' : s1.handles[s0.handles.length]? = some g' := by rw [e1]; simp
      by_cases hne : j = s0.handles.length
      · subst hne
        have : a = g' := Option.some.inj (hj.symm.trans hj')
        subst this
        rw [hrpath]
        exact ⟨rfl, hrstill⟩
      · have h1 := (LivePkg.path_inj hl1 hj hj' hne).1
        obtain ⟨o1, _⟩ := LivePkg.others hl1 hj
        exact absurd (hoh.trans hk.symm) (hstill.handle_ne hl1.inv o1 h1)
  have hold2 := hold.run hrun1
  obtain ⟨k1, k2⟩ := hold2.held g (List.mem_of_getElem? hg) hgh
  refine ⟨hrp', hnp, p, s2, g, ro, hp, ?_, hold2.live, hg, by rw [k1]; exact hrpath, by rw [k1]; exact hload, by rw [k1]; exact hroh, by rw [k1]; exact k2, rfl⟩
  unfold Source at hsrc ⊢
  rw [hq1.book.pkg.kept] at hsrc
  exact hsrc

/-- The relationship part of an edited sheet once the handle is dropped. -/
theorem rels_closed (hst : env.build.release = true → StampOk env.stamp) (hz : (akeys z).Nodup) {ops0 ops1 : List WbOp} {name : String}
    {i : Nat} {s3 : Session} (h : EditRun env theme z path edits x ops0 name ops1 i s3) (hrp : IsRelsOf rp path) (hn0 : NeverAsks env rp ⟨x, []⟩ ops0)
    (h0 : zipDoc env z rp = some dr) (ht : Tidy dr) (hne : ∃ n ∈ dr.rootChildren, n.tag = "Relationship") :
    sheetRelsPath path = some rp ∧ rp ≠ path ∧ ∃ rels ent dd, (loadRels dr).1 = .ok rels ∧ QuietSess rp (some ent) s3 ∧
      readXml env.uni ent.content = .ok dd ∧ (loadRels dd.toXDoc).1 = .ok (rels.map escRel) := by
  obtain ⟨hrp', hnp, p, s2, g, ro, hp, hsrc, hl, hg, hpath, hload, hroh, hstill, rfl⟩ := rels_held hz h hrp hn0
  have hdoc : ro.doc = dr := (ready_of_zipDoc (t := relsTemplate) hp (relsOf_slash hrp) h0).source hsrc
  subst hdoc
  obtain ⟨c, dd, z1, z2, z3⟩ := of_zipDoc h0
  obtain ⟨tg, a, cs, hroot⟩ := ht.root
  have hw : WfDoc env.uni ro.doc (.mk tg a none cs) := by
    have hu := ht.uris
    rw [← z3] at hroot hu ⊢
    exact (Reachable.read z2).wf hroot hu
  obtain ⟨t', a', cs', hw', hcs'⟩ := WfRoot.pop ⟨_, _, _, hw⟩ "Relationship"
  have hrels : g.rels.rels ≠ [] := by
    refine mapRes_ne hload ?_
    obtain ⟨n, n1, n2⟩ := hne
    intro e
    have : n ∈ (ro.doc.popTag "Relationship").1 := List.mem_filter.mpr ⟨n1, by simp [n2]⟩
    rw [e] at this; cases this
  obtain ⟨x', dd', w1, w2, w3, _⟩ := rels_reload env hst hw' hcs' g.rels.rels hrels
  have := drop_rels (env := env) (o := { ro with doc := (loadRels ro.doc).2 }) (d' := x') hl hg hstill hroh w1
  rw [hpath] at this
  exact ⟨hrp', hnp, g.rels.rels, _, dd', hload, this, w2, by rw [w3]⟩

/-- **C47 fails for existing workbooks too** where a sheet has no relationship part: once its handle was dropped, asking for it fails whatever is done in
between. -/
theorem C47_violated_existing (hz : (akeys z).Nodup) {ops0 ops1 ops2 : List WbOp} {name name' : String} {i : Nat} {s3 : Session}
    (h : EditRun env theme z path edits x ops0 name ops1 i s3) (hrp : IsRelsOf rp path) (hn0 : NeverAsks env rp ⟨x, []⟩ ops0) (h0 : aget rp z = none)
    (hrun : s3.run env ops2 = .ok s) (hn : StoredIn s.x name' path) : ∃ e, (s.step env (.get name')).1 = .error e := by
  obtain ⟨hrp', hnp, p, s2, g, ro, hp, hsrc, hl, hg, hpath, hload, hroh, hstill, rfl⟩ := rels_held hz h hrp hn0
  rcases source_zip hp (relsOf_slash hrp) hsrc with ⟨_, hdoc⟩ | ⟨c, d, h1, _⟩
  · have hrels : g.rels.rels = [] := by
      rw [hdoc] at hload
      have : (loadRels relsTemplate.doc).1 = .ok [] := rfl
      rw [this] at hload
      exact (Except.ok.inj hload).symm
    have hs : saveRels (loadRels ro.doc).2 g.rels.rels = .ok ((loadRels relsTemplate.doc).2, false) := by
      rw [hdoc, hrels]; rfl
    have ho := drop_orphan (env := env) (o := { ro with doc := (loadRels ro.doc).2 }) hl hg hstill hroh hs
    have ho2 := ho.run hrun
    rw [hpath] at ho2
    exact get_busy ho2.live hn hrp' ho2.still
  · rw [h0] at h1; cases h1

theorem apart_sheet (h : EditedApart env theme z ops path edits x s) : EditedSheet env theme z ops path edits x s := by
  obtain ⟨ops0, name, ops1, i, s3, ops2, h1, h2, h3, h4⟩ := h
  exact ⟨ops0, name, ops1, i, s3, ops2, h1, h2, h3, (h4 path (Or.inl rfl)).1, (h4 path (Or.inl rfl)).2⟩

theorem run_split {s s1 : Session} {a b : List WbOp} (h : s.run env a = .ok s1) : s.run env (a ++ b) = s1.run env b := by
  induction a generalizing s with
  | nil => cases h; rfl
  | cons op a ih =>
    rw [List.cons_append]
    have h1 := run_cons h
    rw [Session.run] at h ⊢
    split at h
    · cases h
    · next hs => simp only [hs] at h1 ⊢; exact ih h1

/-- The history of an edit is a history. -/
theorem edited_ran (h : EditedSheet env theme z ops path edits x s) : RanOn env theme z ops x s := by
  obtain ⟨ops0, name, ops1, i, s3, ops2, rfl, ⟨s0, s1, h0, s2, g, ⟨hopen, hrun0⟩, hget, _, _, hrun1, _, _, hg, _, rfl⟩, hrun2, _⟩ := h
  refine ⟨hopen, ?_⟩
  rw [run_split hrun0]
  have e1 : s0.run env (.get name :: (ops1 ++ .drop i :: ops2)) = s1.run env (ops1 ++ .drop i :: ops2) := by
    simp only [Session.run, hget]
  have e2 : s2.run env (.drop i :: ops2) = (s2.step env (.drop i)).2.run env ops2 := by
    simp only [Session.run, Session.step, hg]
  rw [e1, run_split hrun1, e2, hrun2]

/-- What a session and its file hold of an edited sheet and its relationships. -/
theorem apart_quiet (hst : env.build.release = true → StampOk env.stamp) (he : PrintsF32 env) (hz : (akeys z).Nodup)
    (h : EditedApart env theme z ops path edits x s) (h0 : zipDoc env z path = some d0) (ht : Tidy d0) (hc : ColumnsNamed d0)
    (hrp : IsRelsOf rp path) (h1 : zipDoc env z rp = some dr) (ht1 : Tidy dr) (hne : ∃ n ∈ dr.rootChildren, n.tag = "Relationship") :
    sheetRelsPath path = some rp ∧ rp ≠ path ∧ path ≠ contentTypesName ∧ ∃ sh0 d1 sh d' ent dd rels ent2 dd2,
      Sheet.load env d0 = (.ok sh0, d1) ∧ Saveable env sh d1 ∧ sh.save d1 = .ok d' ∧ QuietSess path (some ent) s ∧
      readXml env.uni ent.content = .ok dd ∧ (Sheet.load env dd.toXDoc).1 = .ok (reloadSheet sh) ∧
      Edits env.build sh0 s.x.strings.data edits sh ∧ PosCols sh0 ∧ (∀ op ∈ edits, op.InRange ∧ op.Fits env) ∧
      (loadRels dr).1 = .ok rels ∧ QuietSess rp (some ent2) s ∧ readXml env.uni ent2.content = .ok dd2 ∧ (loadRels dd2.toXDoc).1 = .ok (rels.map escRel) := by
  obtain ⟨ops0, name, ops1, i, s3, ops2, -, hed, hrun2, hn⟩ := h
  obtain ⟨sh0, d1, sh, d', ent, dd, r1, r2, r3, r4, r5, r6, r7, r8, r9, r10, r11⟩ := run_closed hst he hz hed (hn path (Or.inl rfl)).1 h0 ht hc
  obtain ⟨q1, q2, rels, ent2, dd2, q3, q4, q5, q6⟩ := rels_closed hst hz hed hrp (hn rp (Or.inr hrp)).1 h1 ht1 hne
  exact ⟨q1, q2, r11, sh0, d1, sh, d', ent, dd, rels, ent2, dd2, r1, r2, r3, r4.run env ops2 (hn path (Or.inl rfl)).2 hrun2, r5, by rw [r6]; exact r7,
    r8.mono (run_tables hrun2).1, r9, r10, q3, q4.run env ops2 (hn rp (Or.inr hrp)).2 hrun2, q5, q6⟩

/-- What the cells of a sheet show, given the sheet of the file and the edits. -/
def ShowsEdits (strings : List String) (edits : List SheetOp) (sh0 sh : Sheet) : Prop :=
  (∀ r c, match lastWritten r c edits with
    | none => cellAt sh r c = (cellAt sh0 r c).map reloadCell
    | some given => ∃ stored, StoredAs strings given stored ∧ cellAt sh r c = some (reloadCell stored)) ∧
  ∀ r, rowPropsAt sh r = reloadRowProps ((lastProps r edits).getD (rowPropsAt sh0 r))

theorem reload_shows {sh0 sh : Sheet} {d1 d' : XDoc} {T : List String} (he : PrintsF32 env) (h1 : Sheet.load env d0 = (.ok sh0, d1)) (h2 : Saveable env sh d1) (h3 : sh.save d1 = .ok d')
    (h6 : Edits env.build sh0 T edits sh) (h7 : PosCols sh0) (h8 : ∀ op ∈ edits, op.InRange ∧ op.Fits env) :
    ShowsEdits T edits sh0 (reloadSheet sh) := by
  obtain ⟨_, f1, f2, f3, _⟩ := h6.facts (load_sorted h1) (load_fits he h1) h7 h8
  have hsl := savedLoaded_total h2 h3
  refine ⟨?_, ?_⟩
  · intro r c
    have e := C32_partial env _ _ _ h2 hsl r c
    have hcell := f1 r c
    cases hw : lastWritten r c edits with
    | none => simp only; rw [e, hcell.1 hw]
    | some given =>
      obtain ⟨x, x1, x2⟩ := hcell.2 given hw
      exact ⟨x, x2, by rw [e, x1]; rfl⟩
  · intro r
    rw [C33_partial env _ _ _ h2 hsl r, f2]

/-- **C47 for existing workbooks (partial).** A sheet of a workbook file that has relationships can be asked for again once its handle was dropped, whatever
was done before, in between and since, and it shows what was written. -/
theorem C47_partial (hst : env.build.release = true → StampOk env.stamp) (he : PrintsF32 env) (hz : (akeys z).Nodup)
    (h : EditedApart env theme z ops path edits x s) (h0 : zipDoc env z path = some d0) (ht : Tidy d0) (hc : ColumnsNamed d0)
    (hrp : IsRelsOf rp path) (h1 : zipDoc env z rp = some dr) (ht1 : Tidy dr) (hne : ∃ n ∈ dr.rootChildren, n.tag = "Relationship")
    {name : String} (hn : StoredIn s.x name path) :
    ∃ sh0 g s', (Sheet.load env d0).1 = .ok sh0 ∧ s.step env (.get name) = (.ok (), s') ∧ s'.handles = s.handles ++ [g] ∧ g.path = path ∧
      ShowsEdits s.x.strings.data edits sh0 g.data := by
  obtain ⟨q1, q2, -, sh0, d1, sh, d', ent, dd, rels, ent2, dd2, r1, r2, r3, r4, r5, r6, r7, r8, r9, p1, p2, p3, p4⟩ := apart_quiet hst he hz h h0 ht hc hrp h1 ht1 hne
  obtain ⟨hopen, hrun⟩ := edited_ran (apart_sheet h)
  obtain ⟨p, _, _, _, _, _, _, _, _, _, _, hp, hb⟩ := openFile_book hz hopen
  have hl : LiveSess s := hb.live.run env ops hrun
  obtain ⟨g, s', g1, g2, g3, g4, _, _⟩ := get_ready hl.inv hn r4.book.pkg.shut (Or.inr ⟨ent, dd, r4.book.pkg.kept, r5, rfl⟩) q1 q2
    p2.book.pkg.shut (Or.inr ⟨ent2, dd2, p2.book.pkg.kept, p3, rfl⟩) p4 r6
  refine ⟨sh0, g, s', by rw [r1], g1, g2, g4, ?_⟩
  rw [g3]
  exact reload_shows he r1 r2 r3 r7 r8 r9

theorem find_map_same {l : List SheetEntry} {name : String} (hp : ∀ e ∈ l, NoSpecials e.name ∧ NoSpecials e.relId) :
    (l.map reloadSheetEntry).find? (fun e => e.name = name) = (l.find? (fun e => e.name = name)).map reloadSheetEntry := by
  induction l with
  | nil => rfl
  | cons a l ih =>
    have : (reloadSheetEntry a).name = a.name := escStr_eq_self (hp a (by simp)).1
    rw [List.map_cons, List.find?_cons, List.find?_cons, this]
    split
    · rfl
    · exact ih (fun e he => hp e (by simp [he]))

/-- **C86 (partial).** Open a workbook file, ask for a sheet that has relationships, edit it through the handle while doing anything else, drop the handle, save
the workbook, open the saved file and ask for the sheet by the name it had: it shows what was written, and everything else as before. -/
theorem C86_partial (hst : env.build.release = true → StampOk env.stamp) (he : PrintsF32 env) (hz : (akeys z).Nodup)
    (h : EditedApart env theme z ops path edits x s) (h0 : zipDoc env z path = some d0) (ht : Tidy d0) (hc : ColumnsNamed d0)
    (hrp : IsRelsOf rp path) (h1 : zipDoc env z rp = some dr) (ht1 : Tidy dr) (hne : ∃ n ∈ dr.rootChildren, n.tag = "Relationship")
    (htp : TidyParts env z x) (hp : PlainRels x) (hf : SizesFit ops) (hth : GoodTheme env theme) (hc1 : HasContent env z x.theme.path)
    (hc2 : HasContent env z x.core.path) (hexts : ∀ q, s.x.saved env now = .ok q → HashSetOrder q.extPairs exts)
    (hs : s.x.toZip env now exts = .ok z') (h6 : s.x.strings.data ≠ []) (h7 : s.x.chain.data ≠ [])
    {name : String} (hn : StoredIn s.x name path) (hpl : ∀ e ∈ s.x.sheets, NoSpecials e.name ∧ NoSpecials e.relId) :
    ∃ x' sh0 g s', Excel.openFile env theme z' = .ok x' ∧ x'.strings.data = s.x.strings.data.map (fun s => (reloadText s).getD "") ∧
      (Sheet.load env d0).1 = .ok sh0 ∧ Session.step env ⟨x', []⟩ (.get name) = (.ok (), s') ∧ s'.handles = [g] ∧ g.path = path ∧
      ShowsEdits s.x.strings.data edits sh0 g.data := by
  obtain ⟨q1, q2, hct, sh0, d1, sh, d', ent, dd, rels, ent2, dd2, r1, r2, r3, r4, r5, r6, r7, r8, r9, p1, p2, p3, p4⟩ := apart_quiet hst he hz h h0 ht hc hrp h1 ht1 hne
  have hran := edited_ran (apart_sheet h)
  obtain ⟨x', a1, a2, a3, a4, a5, a6, a7, a8, a9⟩ := C83_partial hst hz hran htp hp hf hth hc1 hc2 hexts hs h6 h7
  obtain ⟨q, hq1, hq2⟩ : ∃ q', s.x.saved env now = .ok q' ∧ q'.toZip env exts = .ok z' := by
    unfold Excel.toZip at hs
    split at hs
    · cases hs
    · next q' e => exact ⟨q', e, hs⟩
  have hz' : (akeys z').Nodup := by
    obtain ⟨hopen, hrun⟩ := hran
    obtain ⟨p, _, _, _, _, _, _, _, _, _, _, hp, hb⟩ := openFile_book hz hopen
    obtain ⟨_, _, _, _, _, _, _, _, A⟩ := (hb.live.run env ops hrun).allHeld
    obtain ⟨_, _, _, _, _, _, _, _, _, _, S'⟩ := saved_all A hq1
    exact toZip_nodup S'.inv hq2
  obtain ⟨p', _, _, _, _, _, _, _, _, _, _, hp', hb'⟩ := openFile_book hz' a1
  have hown : ∀ {n : String} {c : Option Entry}, QuietSess n c s → n ∉ ownParts x' := by
    intro n c hqn
    rw [a2]
    intro hm
    have hb := hran
    obtain ⟨hopen, hrun⟩ := hran
    obtain ⟨p, _, _, _, _, _, _, _, _, _, _, hp, hb⟩ := openFile_book hz hopen
    refine hqn.book.own ?_
    rw [ownParts_pairs, (own_run hb.live hrun).1]; exact hm
  have hzip : ∀ {n : String} {e : Entry} {dd : XmlDoc}, QuietSess n (some e) s → n ≠ contentTypesName → readXml env.uni e.content = .ok dd →
      zipDoc env z' n = some dd.toXDoc := by
    intro n e dd hqn hcn hre
    refine zipDoc_eq (c := e.content) ?_ hre
    rw [toZip_aget hq2 hcn, hqn.book.saved hq1]
    rfl
  have hready : ∀ {n : String} {e : Entry} {dd : XmlDoc} (t : Template), QuietSess n (some e) s → n ≠ contentTypesName → readXml env.uni e.content = .ok dd →
      Ready env x'.pkg t n dd.toXDoc := by
    intro n e dd t hqn hcn hre
    have := ready_of_zipDoc (t := t) hp' hcn (hzip hqn hcn hre)
    unfold Ready at this ⊢
    rw [hb'.others _ (hown hqn)]; exact this
  have hn' : StoredIn x' name path := by
    obtain ⟨e, r, n1, n2, n3⟩ := hn
    have hpath : x'.rels.path = s.x.rels.path := by
      obtain ⟨hopen, hrun⟩ := hran
      obtain ⟨p, _, _, _, _, _, _, _, _, _, _, hp, hb⟩ := openFile_book hz hopen
      have h1 : ownParts s.x = ownParts x := by rw [ownParts_pairs, (own_run hb.live hrun).1, ← ownParts_pairs]
      have h2 := a2.trans h1.symm
      simp only [ownParts, List.cons.injEq] at h2
      exact h2.2.2.2.1
    refine ⟨reloadSheetEntry e, r, ?_, ?_, ?_⟩
    · rw [a3, find_map_same hpl, n1]; rfl
    · have : (reloadSheetEntry e).relId = e.relId := escStr_eq_self (hpl e (List.mem_of_find?_eq_some n1)).2
      rw [a8, this]; exact n2
    · rw [hpath]; exact n3
  obtain ⟨g, s', g1, g2, g3, g4, _, _⟩ := get_ready (s := ⟨x', []⟩) hb'.live.inv hn' (hb'.openOnly _ (hown r4)) (hready _ r4 hct r5) q1 q2
    (hb'.openOnly _ (hown p2)) (hready _ p2 (relsOf_slash hrp) p3) p4 r6
  refine ⟨x', sh0, g, s', a1, a5, by rw [r1], g1, g2, g4, ?_⟩
  rw [g3]
  exact reload_shows he r1 r2 r3 r7 r8 r9

/-! ## Examples -/

/-- The file of `exSheetBook` with strings, a calculation chain and a relationship of the first sheet. -/
def exAgainBook : Zip :=
  exSheetBook ++ [("xl/sharedStrings.xml", "<sst><si><t>plain</t></si></sst>".toList), ("xl/calcChain.xml", "<calcChain><c r=\"A1\" i=\"7\"/></calcChain>".toList),
    ("xl/worksheets/_rels/sheet1.xml.rels", "<Relationships><Relationship Id=\"rId1\" Type=\"t\" Target=\"d.xml\"/></Relationships>".toList)]

/-- The relationships of that sheet. -/
def exSheetRels : XDoc :=
  ⟨[], some (.mk "Relationships" (some []) none [.mk "Relationship" (some [("Id", "rId1"), ("Type", "t"), ("Target", "d.xml")]) none []])⟩

/-- The calls on the sheet. -/
def exWrite : List WbOp := [.sheet 0 (.write 1 2 [{ value := some "hello" }])]

/-- What the example looks at. -/
def exAgain (z : Zip) (chk : Excel → Session → SheetHandle → Session → SheetHandle → Session → Bool) : Bool :=
  match Excel.openFile exEnv exTheme z with
  | .error _ => false
  | .ok x =>
    match Session.step exEnv ⟨x, []⟩ (.get "A") with
    | (.ok (), s1) =>
      match s1.handles[0]?, s1.run exEnv exWrite with
      | some h, .ok s2 =>
        match s2.handles[0]? with
        | some g => chk x s1 h s2 g (s2.step exEnv (.drop 0)).2
        | none => false
      | _, _ => false
    | _ => false

/-- What every such run has. -/
def exRunChk (s1 : Session) (h : SheetHandle) (g : SheetHandle) : Bool :=
  decide (s1.handles.length = 1) && decide (h.path = "xl/worksheets/sheet1.xml") &&
    decide (writesTo exEnv "xl/worksheets/sheet1.xml" s1 exWrite = [.write 1 2 [{ value := some "hello" }]]) && decide (g.handle = h.handle)

theorem exAgain_sound {z : Zip} {chk : Excel → Session → Bool} (h : exAgain z (fun x s1 h _ g s => exRunChk s1 h g && chk x s) = true) :
    ∃ x s, EditRun exEnv exTheme z "xl/worksheets/sheet1.xml" [.write 1 2 [{ value := some "hello" }]] x [] "A" exWrite 0 s ∧ chk x s = true := by
  unfold exAgain at h
  split at h
  · cases h
  · next x hx =>
    split at h
    · next s1 h1 =>
      split at h
      · next hd s2 hh hrun =>
        split at h
        · next g hg =>
          simp only [exRunChk, Bool.and_eq_true, decide_eq_true_eq] at h
          obtain ⟨⟨⟨⟨k1, k2⟩, k3⟩, k4⟩, k5⟩ := h
          refine ⟨x, _, ⟨⟨x, []⟩, s1, hd, s2, g, ⟨hx, rfl⟩, h1, ?_, k2, hrun, ?_, k3.symm, hg, k4, rfl⟩, k5⟩
          · obtain ⟨a, ha⟩ := List.length_eq_one_iff.mp k1
            rw [ha] at hh ⊢
            cases hh; rfl
          · intro i o hm
            simp only [exWrite, List.mem_cons, List.not_mem_nil, or_false, WbOp.sheet.injEq] at hm
            obtain ⟨_, rfl⟩ := hm
            exact ⟨⟨by decide, by decide⟩, by decide, fun c hc => by rw [List.mem_singleton.mp hc]; exact ⟨(fun g h => by cases h), fun g h => by cases h⟩⟩
        · cases h
      · cases h
    · cases h

/-- The sheet is listed under "A" and stored where it was, computed. -/
def exStored (s : Session) : Bool :=
  match s.x.sheets.find? (fun e => e.name = "A") with
  | some e =>
    match s.x.rels.rels.find? (fun r => r.id = e.relId) with
    | some r => decide ((resolveTarget s.x.rels.path r.target).toOption = some "xl/worksheets/sheet1.xml")
    | none => false
  | none => false

theorem exStored_sound {s : Session} (h : exStored s = true) : StoredIn s.x "A" "xl/worksheets/sheet1.xml" := by
  unfold exStored at h
  split at h
  · next e h1 =>
    split at h
    · next r h2 =>
      refine ⟨e, r, h1, h2, ?_⟩
      have := of_decide_eq_true h
      cases hr : resolveTarget s.x.rels.path r.target with
      | error _ => rw [hr] at this; cases this
      | ok p => rw [hr] at this; exact congrArg _ (Option.some.inj this)
    · cases h
  · cases h

theorem exRelsOf : IsRelsOf "xl/worksheets/_rels/sheet1.xml.rels" "xl/worksheets/sheet1.xml" :=
  ⟨"xl/worksheets".toList, "sheet1.xml".toList, by decide +kernel, by decide +kernel, by decide +kernel⟩

theorem exSheetDoc_named : ColumnsNamed exSheetDoc := by
  intro n hn ht row hrow c hc ref href
  simp only [exSheetDoc, XDoc.rootChildren, Node.children, List.mem_cons, List.not_mem_nil, or_false] at hn
  rcases hn with rfl | rfl
  · simp only [Node.children, List.mem_cons, List.not_mem_nil, or_false] at hrow
    subst hrow
    simp only [Node.children, List.mem_cons, List.not_mem_nil, or_false] at hc
    subst hc
    cases href
    exact ⟨['A'], ['1'], by decide, by decide, by simp [isLetter], by simp, by decide⟩
  · exact absurd ht (by decide)

/-- Example for C47_violated_existing: the first sheet of `exSheetBook` has no relationships. -/
example : ∃ x s, EditRun exEnv exTheme exSheetBook "xl/worksheets/sheet1.xml" [.write 1 2 [{ value := some "hello" }]] x [] "A" exWrite 0 s ∧
    aget "xl/worksheets/_rels/sheet1.xml.rels" exSheetBook = none ∧ StoredIn s.x "A" "xl/worksheets/sheet1.xml" := by
  obtain ⟨x, s, h1, h2⟩ := exAgain_sound (z := exSheetBook) (chk := fun _ s => exStored s) (by decide +kernel)
  exact ⟨x, s, h1, by decide +kernel, exStored_sound h2⟩

/-- The workbook and the saved file of the example for C86, computed. -/
def exAgainChk (x : Excel) (s : Session) : Bool :=
  exStored s && exFacts exAgainBook x && decide (s.x.strings.data = ["plain", "hello"]) && decide (s.x.chain.data ≠ []) &&
    s.x.sheets.all (fun e => (e.name ++ e.relId).toList.all (fun c => c != '<' && c != '>' && c != '&' && c != '\'' && c != '"')) &&
    (match s.x.toZip exEnv "now" exExts with | .ok _ => true | .error _ => false) &&
    (match s.x.saved exEnv "now" with | .ok q => q.extPairs.all (fun e => exExts.contains e) && exExts.all (fun e => q.extPairs.contains e) | .error _ => true)

/-- The hypotheses of C47_partial and C86_partial hold of a sheet with a relationship, in which a text is written beside a number; opened again from the saved
file, the sheet shows both. -/
example : ∃ x s z' x' g s', EditedApart exEnv exTheme exAgainBook (.get "A" :: (exWrite ++ [.drop 0])) "xl/worksheets/sheet1.xml"
      [.write 1 2 [{ value := some "hello" }]] x s ∧ s.x.toZip exEnv "now" exExts = .ok z' ∧ Excel.openFile exEnv exTheme z' = .ok x' ∧
    Session.step exEnv ⟨x', []⟩ (.get "A") = (.ok (), s') ∧ s'.handles = [g] ∧ x'.strings.data = ["plain", "hello"] ∧
    ∃ sh0, ShowsEdits ["plain", "hello"] [.write 1 2 [{ value := some "hello" }]] sh0 g.data ∧ (cellAt sh0 1 1).map CellProps.value = some (some "5") := by
  obtain ⟨x, s, h1, h2⟩ := exAgain_sound (z := exAgainBook) (chk := exAgainChk) (by decide +kernel)
  simp only [exAgainChk, Bool.and_eq_true, decide_eq_true_eq] at h2
  obtain ⟨⟨⟨⟨⟨⟨k1, k2⟩, k3⟩, k4⟩, k5⟩, k6⟩, k7⟩ := h2
  obtain ⟨f1, f2, f3, f4, f5⟩ := exFacts_sound k2
  split at k6
  · next z' hz' =>
    have hed : EditedApart exEnv exTheme exAgainBook (.get "A" :: (exWrite ++ [.drop 0])) "xl/worksheets/sheet1.xml" [.write 1 2 [{ value := some "hello" }]] x s :=
      ⟨[], "A", exWrite, 0, s, [], rfl, h1, rfl, fun _ _ => ⟨trivial, trivial⟩⟩
    have hd0 : zipDoc exEnv exAgainBook "xl/worksheets/sheet1.xml" = some exSheetDoc := by
      obtain ⟨d, e1, e2⟩ := map_some_eq (f := id) (o := zipDoc exEnv exAgainBook "xl/worksheets/sheet1.xml") (v := exSheetDoc) (by decide +kernel)
      rw [e1]; exact congrArg some e2
    have hdr : zipDoc exEnv exAgainBook "xl/worksheets/_rels/sheet1.xml.rels" = some exSheetRels := by
      obtain ⟨d, e1, e2⟩ := map_some_eq (f := id) (o := zipDoc exEnv exAgainBook "xl/worksheets/_rels/sheet1.xml.rels") (v := exSheetRels) (by decide +kernel)
      rw [e1]; exact congrArg some e2
    obtain ⟨x', sh0, g, s', g1, g2, g3, g4, g5, g6, g7⟩ := C86_partial (env := exEnv) (fun h => by cases h) (fun _ h => ⟨h, rfl⟩) (by decide +kernel) hed hd0
      ⟨(fun kv hkv => by cases hkv), _, _, _, rfl⟩ exSheetDoc_named exRelsOf hdr ⟨(fun kv hkv => by cases hkv), _, _, _, rfl⟩
      ⟨_, by simp only [exSheetRels, XDoc.rootChildren, Node.children, List.mem_singleton]; rfl, rfl⟩ f1 f2
      (fun _ _ h => by simp [exWrite] at h) exTheme_good f3 f4
      (by
        intro q hq
        rw [hq] at k7
        simp only [Bool.and_eq_true, List.all_eq_true, List.contains_iff_mem] at k7
        exact ⟨by decide, fun e => ⟨k7.2 e, k7.1 e⟩⟩) hz' (by rw [k3]; simp) k4 (exStored_sound k1)
      (by
        intro e he
        have := List.all_eq_true.mp k5 e he
        simp only [List.all_eq_true, Bool.and_eq_true, bne_iff_ne, String.toList_append, List.mem_append] at this
        refine ⟨fun c hc => ?_, fun c hc => ?_⟩
        · obtain ⟨⟨⟨⟨a, b⟩, c'⟩, d⟩, e⟩ := this c (Or.inl hc); exact ⟨a, b, c', d, e⟩
        · obtain ⟨⟨⟨⟨a, b⟩, c'⟩, d⟩, e⟩ := this c (Or.inr hc); exact ⟨a, b, c', d, e⟩)
    refine ⟨x, s, z', x', g, s', hed, hz', g1, g4, g5, by rw [g2, k3]; decide +kernel, sh0, by rw [← k3]; exact g7, ?_⟩
    have e0 : ((Sheet.load exEnv exSheetDoc).1.toOption.map (fun sh => (cellAt sh 1 1).map CellProps.value)) = some (some (some "5")) := by decide +kernel
    rw [g3] at e0
    exact Option.some.inj e0
  · cases k6

/-- **C86 as stated**, as far as the sheet can be asked for at all: a sheet edited and closed can be asked for in the saved file. -/
def EditsThere (env : Env) (theme : XDoc) : Prop :=
  ∀ z z' ops path edits x s now exts d0 name x', (akeys z).Nodup → EditedApart env theme z ops path edits x s → zipDoc env z path = some d0 → Tidy d0 →
    ColumnsNamed d0 → TidyParts env z x → PlainRels x → s.x.toZip env now exts = .ok z' → StoredIn s.x name path → Excel.openFile env theme z' = .ok x' →
    ∃ s', Session.step env ⟨x', []⟩ (.get name) = (.ok (), s')

/-- The file of `exAgainBook` without the relationships of the sheet. -/
def exNoRelBook : Zip := exAgainBook.dropLast

/-- What the counterexample looks at, computed. -/
def exNoRelChk (x : Excel) (s : Session) : Bool :=
  exStored s && exFacts exNoRelBook x &&
    (match s.x.toZip exEnv "now" exExts with
      | .ok z' => (match Excel.openFile exEnv exTheme z' with
        | .ok x' => (match Session.step exEnv ⟨x', []⟩ (.get "A") with | (.ok (), _) => false | _ => true)
        | .error _ => false)
      | .error _ => false)

theorem exNoRel_run : exAgain exNoRelBook (fun x s1 h _ g s => exRunChk s1 h g && exNoRelChk x s) = true := by decide +kernel

/-- **C86 is violated** for a sheet without relationships: its emptied relationship part is saved closing itself, which the library cannot read. -/
theorem C86_violated : ¬ EditsThere exEnv exTheme := by
  intro h
  obtain ⟨x, s, h1, h2⟩ := exAgain_sound (z := exNoRelBook) exNoRel_run
  simp only [exNoRelChk, Bool.and_eq_true] at h2
  obtain ⟨⟨k1, k2⟩, k3⟩ := h2
  obtain ⟨f1, f2, f3, f4, f5⟩ := exFacts_sound k2
  split at k3
  · next z' hz' =>
    split at k3
    · next x' hx' =>
      have hd0 : zipDoc exEnv exNoRelBook "xl/worksheets/sheet1.xml" = some exSheetDoc := by
        obtain ⟨d, e1, e2⟩ := map_some_eq (f := id) (o := zipDoc exEnv exNoRelBook "xl/worksheets/sheet1.xml") (v := exSheetDoc) (by decide +kernel)
        rw [e1]; exact congrArg some e2
      obtain ⟨s', hs'⟩ := h exNoRelBook z' (.get "A" :: (exWrite ++ [.drop 0])) _ _ x s "now" exExts exSheetDoc "A" x' (by decide +kernel)
        ⟨[], "A", exWrite, 0, s, [], rfl, h1, rfl, fun _ _ => ⟨trivial, trivial⟩⟩ hd0 ⟨(fun kv hkv => by cases hkv), _, _, _, rfl⟩ exSheetDoc_named f1 f2 hz'
        (exStored_sound k1) hx'
      rw [hs'] at k3
      cases k3
    · cases k3
  · cases k3

end Oxml
