import Verif.Proofs.SessionLinks
import Verif.Proofs.SheetTotal
import Verif.Proofs.ReloadTwice
import Verif.Proofs.WorksheetSession
import Verif.Props.Worksheet
import Verif.Props.WorksheetFile
/-!
# Cells written through handles
-/
namespace Oxml
open Spec

variable {env : Env} {theme : XDoc}

/-- The sheet of every handle shows what was written to its part, and fits its types. -/
structure Wrote (env : Env) (s : Session) (W : String → List SheetOp) : Prop where
  fit : ∀ h ∈ s.handles, SortedSheet h.data ∧ FitsTypes env h.data ∧ PosCols h.data
  cells : ∀ h ∈ s.handles, ∀ r c, (lastWritten r c (W h.path) = none → cellAt h.data r c = none) ∧
    ∀ g, lastWritten r c (W h.path) = some g → ∃ x, cellAt h.data r c = some x ∧ StoredAs s.x.strings.data g x
  held : ∀ n, ¬ holds s.x.pkg n → W n = []

theorem lastWritten_snoc (r c : Nat) (l : List SheetOp) (op : SheetOp) :
    lastWritten r c (l ++ [op]) = match op.written r c with | some x => some x | none => lastWritten r c l := by
  induction l with
  | nil => simp only [List.nil_append, lastWritten]; cases op.written r c <;> rfl
  | cons a l ih =>
    simp only [List.cons_append, lastWritten, ih]
    cases op.written r c <;> rfl

theorem Wrote.sub {s s' : Session} {W : String → List SheetOp} (h : Wrote env s W) (hs : ∀ g ∈ s'.handles, g ∈ s.handles)
    (ht : s'.x.strings = s.x.strings) (hk : Keeps s.x.pkg s'.x.pkg) : Wrote env s' W :=
  ⟨fun g hg => h.fit g (hs g hg), fun g hg r c => by rw [ht]; exact h.cells g (hs g hg) r c, fun n hn => h.held n (fun h1 => hn (hk n h1))⟩

theorem fits_empty (env : Env) : FitsTypes env emptySheet := by
  refine ⟨?_, ?_, ?_⟩
  · intro d hd kv hkv; cases hd; cases hkv
  · intro cs hcs; cases hcs
  · intro v hv
    rw [show emptySheet.views = [{}] from rfl, List.mem_singleton] at hv
    subst hv
    intro z hz
    rcases hz with h | h | h | h <;> cases h

theorem cellAt_empty (r c : Nat) : cellAt emptySheet r c = none := rfl

theorem Wrote.open (hst : env.build.release = true → StampOk env.stamp) {s : Session} {W : String → List SheetOp} (h : Wrote env s W)
    (hI : SessInv env theme s) (name : Option String) : Wrote env (s.open env name).2 W := by
  have hc := BookInv.openCase hst hI name
  have hk := hc.keeps
  unfold Session.open
  cases hos : s.x.openSheet env name with
  | mk r x1 =>
    rw [hos] at hc hk
    cases hc with
    | fresh p' h1 h2 h3 ha ho =>
      refine ⟨?_, ?_, fun n hn => h.held n (fun h1 => hn (hk n h1))⟩
      · intro g hg
        rcases List.mem_append.mp hg with hg | hg
        · exact h.fit g hg
        · rw [List.mem_singleton.mp hg]; exact ⟨emptySheet_sorted, fits_empty env, posCols_empty⟩
      · intro g hg r c
        rcases List.mem_append.mp hg with hg | hg
        · exact h.cells g hg r c
        · rw [List.mem_singleton.mp hg, h.held _ h2]
          exact ⟨fun _ => rfl, fun g hg => by cases hg⟩
    | busyNew o h1 h2 => exact h.sub (fun g hg => hg) rfl hk
    | dangling n h1 h2 => exact h.sub (fun g hg => hg) rfl hk
    | busyOld n k o h1 h2 h3 => exact h.sub (fun g hg => hg) rfl hk
    | reopened n k sh xd p' h1 h2 h3 h4 h5 h6 h7 => exact h.sub (fun g hg => hg) rfl hk

theorem run_grows {b : Build} {st st' : Sheet × List String} {op : SheetOp} (h : op.run b st = .ok st') : ∃ more, st'.2 = st.2 ++ more := by
  cases op with
  | write row col cells =>
    simp only [SheetOp.run, Sheet.setRow] at h
    split at h
    · cases h
    · split at h
      · cases h
      · cases h; exact typeCells_grows _ _
  | rowProps row p => cases h; exact ⟨[], by simp⟩
  | column col p => cases h; exact ⟨[], by simp⟩

theorem Wrote.sheet {s : Session} {W : String → List SheetOp} (h : Wrote env s W) (hI : SessInv env theme s) {i : Nat} {o : SheetOp}
    (hg : o.InRange ∧ o.Fits env) : Wrote env (s.step env (.sheet i o)).2 (fun n => W n ++ onPart s n (.sheet i o)) := by
  have hb : BookInv env theme s.x s.handles := hI
  simp only [Session.step, onPart]
  cases hi : s.handles[i]? with
  | none => simp only [List.append_nil]; exact h
  | some g =>
    simp only
    have hm := List.mem_of_getElem? hi
    obtain ⟨f1, f2, f3⟩ := h.fit g hm
    obtain ⟨⟨d, table⟩, hr, hs, ⟨more, hmore⟩, hcell⟩ := run_spec env.build (g.data, s.x.strings.data) o f1 hg.1
    simp only at hmore hcell hs
    subst hmore
    have f2' := run_fits f2 hg.2 hg.1 hr
    have f3' := run_pos f3 hg.1 hr
    rw [hr]
    simp only
    have hpos : ∀ k ∈ s.handles.set i { g with data := d }, k = { g with data := d } ∨ (k ∈ s.handles ∧ k.path ≠ g.path) := by
      intro k hk
      obtain ⟨j, hj⟩ := List.getElem?_of_mem hk
      rw [List.getElem?_set] at hj
      split at hj
      · split at hj
        · exact .inl (Option.some.inj hj).symm
        · cases hj
      · next hne =>
        refine .inr ⟨List.mem_of_getElem? hj, ?_⟩
        intro e
        have hn := hb.sheets.nodup
        have hlt : i < (s.handles.map SheetHandle.path).length := by
          rw [List.length_map]; exact (List.getElem?_eq_some_iff.mp hi).1
        refine hne ((List.getElem?_inj hlt hn).mp ?_)
        rw [List.getElem?_map, List.getElem?_map, hi, hj, Option.map_some, Option.map_some, e]
    refine ⟨?_, ?_, ?_⟩
    · intro k hk
      rcases hpos k hk with rfl | ⟨hk, _⟩
      · exact ⟨hs, f2', f3'⟩
      · exact h.fit k hk
    · intro k hk r c
      rcases hpos k hk with rfl | ⟨hk, hne⟩
      · simp only [if_true]
        rw [lastWritten_snoc]
        have hc := hcell r c
        cases hw : o.written r c with
        | some x =>
          simp only
          exact ⟨(fun h => by cases h), fun y hy => hc.2 y (hw.trans hy)⟩
        | none =>
          simp only
          rw [hc.1 hw]
          refine ⟨(h.cells g hm r c).1, fun y hy => ?_⟩
          obtain ⟨x, hx, hst⟩ := (h.cells g hm r c).2 y hy
          exact ⟨x, hx, storedAs_mono hst⟩
      · rw [if_neg (Ne.symm hne), List.append_nil]
        refine ⟨(h.cells k hk r c).1, fun y hy => ?_⟩
        obtain ⟨x, hx, hst⟩ := (h.cells k hk r c).2 y hy
        exact ⟨x, hx, storedAs_mono hst⟩
    · intro n hn
      change ¬ holds s.x.pkg n at hn
      change W n ++ _ = []
      rw [h.held n hn, List.nil_append, if_neg]
      intro e
      obtain ⟨k, hr, h1, _, h3, _⟩ := hb.sheets.handles g hm
      exact hn (by rw [← e, h1]; exact holds_of_opened h3)

theorem Wrote.step (hst : env.build.release = true → StampOk env.stamp) {s : Session} {W : String → List SheetOp} (h : Wrote env s W)
    (hI : SessInv env theme s) (op : WbOp) (hg : ∀ i o, op = .sheet i o → o.InRange ∧ o.Fits env) :
    Wrote env (s.step env op).2 (fun n => W n ++ onPart s n op) := by
  have hb : BookInv env theme s.x s.handles := hI
  cases op with
  | sheet i o => exact h.sheet hI (hg i o rfl)
  | add name => simp only [onPart, List.append_nil]; exact h.open hst hI name
  | get name => simp only [onPart, List.append_nil]; exact h.open hst hI (some name)
  | drop i =>
    simp only [onPart, List.append_nil, Session.step]
    cases hi : s.handles[i]? with
    | none => exact h
    | some g => exact h.sub (fun k hk => (List.eraseIdx_sublist _ _).subset hk) rfl (hb.sheets.drop_keeps (List.mem_of_getElem? hi))
  | delete i =>
    simp only [onPart, List.append_nil, Session.step]
    cases hi : s.handles[i]? with
    | none => exact h
    | some g =>
      have hm := List.mem_of_getElem? hi
      obtain ⟨k, _, e⟩ := hI.deleteEq (env := env) hm
      refine h.sub (fun k hk => (List.eraseIdx_sublist _ _).subset hk) ?_ ?_
      · simp only; rw [e]
      · simp only; rw [e]; exact hb.sheets.drop_keeps hm
  | rename old new =>
    simp only [onPart, List.append_nil, Session.step]
    split
    · exact h
    · exact h.sub (fun g hg => hg) rfl (Keeps.refl _)
  | active n => simp only [onPart, List.append_nil, Session.step]; exact h.sub (fun g hg => hg) rfl (Keeps.refl _)
  | hide n => simp only [onPart, List.append_nil, Session.step]; exact h.sub (fun g hg => hg) rfl (Keeps.refl _)
  | view v => simp only [onPart, List.append_nil, Session.step]; exact h.sub (fun g hg => hg) rfl (Keeps.refl _)
  | style hs st =>
    simp only [onPart, List.append_nil, Session.step]
    split
    · exact h
    · exact h.sub (fun g hg => hg) rfl (Keeps.refl _)

theorem run_cons {s s' : Session} {op : WbOp} {ops : List WbOp} (h : s.run env (op :: ops) = .ok s') : (s.step env op).2.run env ops = .ok s' := by
  rw [Session.run] at h
  split at h
  · cases h
  · next hs => rw [hs]; exact h

theorem Wrote.run (hst : env.build.release = true → StampOk env.stamp) (ops : List WbOp) {s s' : Session} {W : String → List SheetOp} (h : Wrote env s W)
    (hI : SessInv env theme s) (hg : FittingOps env ops) (hr : s.run env ops = .ok s') : Wrote env s' (fun n => W n ++ writesTo env n s ops) := by
  induction ops generalizing s W with
  | nil => cases hr; simp only [writesTo, List.append_nil]; exact h
  | cons op ops ih =>
    have h1 := ih (h.step hst hI op (fun i o e => hg i o (by rw [e]; exact List.mem_cons_self))) (hI.step hst op)
      (fun i o hm => hg i o (List.mem_cons_of_mem _ hm)) (run_cons hr)
    simp only [writesTo]
    simp only [List.append_assoc] at h1
    exact h1

theorem ran_wrote (hst : env.build.release = true → StampOk env.stamp) {ops : List WbOp} {s : Session} (hg : FittingOps env ops)
    (h : Session.run env ⟨newExcel env theme, []⟩ ops = .ok s) : Wrote env s (fun n => writesTo env n ⟨newExcel env theme, []⟩ ops) := by
  have h0 : Wrote env ⟨newExcel env theme, []⟩ (fun _ => []) :=
    ⟨fun g hg => (by cases hg), fun g hg => (by cases hg), fun n _ => rfl⟩
  have := h0.run hst ops (newBook env theme) hg h
  simpa using this

/-! ## What happens to a closed part -/

theorem closed_step (hst : env.build.release = true → StampOk env.stamp) {s : Session} (hI : SessInv env theme s) {op : WbOp}
    (hn : NoReopen env s [op]) {n : String} {e : Entry} (he : aget n s.x.pkg.archive = some e) :
    aget n (s.step env op).2.x.pkg.archive = some e := by
  have hb : BookInv env theme s.x s.handles := hI
  have hopen : ∀ name : Option String, (∀ m, name = some m → m ∉ names s.x.sheets) → aget n (s.open env name).2.x.pkg.archive = some e := by
    intro name hnm
    have hc := BookInv.openCase hst hI name
    unfold Session.open
    cases hos : s.x.openSheet env name with
    | mk r x1 =>
      rw [hos] at hc
      cases hc with
      | fresh p' h1 h2 h3 ha ho => exact (ha n).trans he
      | busyNew o h1 h2 => exact he
      | dangling m h1 h2 => exact absurd h2 (hnm m h1)
      | busyOld m k o h1 h2 h3 => exact absurd h2 (hnm m h1)
      | reopened m k sh xd p' h1 h2 h3 h4 h5 h6 h7 => exact absurd h2 (hnm m h1)
  have hdrop : ∀ g ∈ s.handles, aget n (dropSheet env s.x.pkg g).archive = some e := by
    intro g hg
    obtain ⟨_, _, _, _, h3, _⟩ := hb.sheets.handles g hg
    obtain ⟨k, hk, hc⟩ := hb.sheets.dropCases hg
    rcases hc with ⟨_, _, _, e1⟩ | ⟨xd, q, _, _, e1, _, _, h1, h2⟩
    · rw [e1]; exact he
    · rw [e1, h2, if_neg]
      · exact he
      · intro en
        obtain ⟨k', hr, h1', _, h3', _⟩ := hb.sheets.handles g hg
        exact hb.sheets.inv.disjoint _ (mem_akeys_of_aget h3') (h1' ▸ en ▸ mem_akeys_of_aget he)
  cases op with
  | add name =>
    cases name with
    | none => exact hopen none (fun m hm => by cases hm)
    | some m => exact hopen (some m) (fun m' hm => by cases hm; exact hn.1)
  | get m => exact hopen (some m) (fun m' hm => by cases hm; exact hn.1)
  | sheet i o =>
    simp only [Session.step]
    split
    · exact he
    · split <;> exact he
  | drop i =>
    simp only [Session.step]
    split
    · exact he
    · next g hg => exact hdrop g (List.mem_of_getElem? hg)
  | delete i =>
    simp only [Session.step]
    split
    · exact he
    · next g hg =>
      obtain ⟨k, _, e1⟩ := hI.deleteEq (env := env) (List.mem_of_getElem? hg)
      simp only
      rw [e1]
      exact hdrop g (List.mem_of_getElem? hg)
  | rename old new => simp only [Session.step]; split <;> exact he
  | active m => exact he
  | hide m => exact he
  | view v => exact he
  | style hs st => simp only [Session.step]; split <;> exact he

theorem strings_step {s : Session} (op : WbOp) (hI : SessInv env theme s) (hst : env.build.release = true → StampOk env.stamp) :
    ∃ more, (s.step env op).2.x.strings.data = s.x.strings.data ++ more := by
  have same : ∀ s' : Session, s'.x.strings = s.x.strings → ∃ more, s'.x.strings.data = s.x.strings.data ++ more :=
    fun s' h => ⟨[], by rw [h]; simp⟩
  have hopen : ∀ name : Option String, (s.open env name).2.x.strings = s.x.strings := by
    intro name
    have hc := BookInv.openCase hst hI name
    unfold Session.open
    cases hos : s.x.openSheet env name with
    | mk r x1 => rw [hos] at hc; cases hc <;> rfl
  cases op with
  | add name => exact same _ (hopen name)
  | get m => exact same _ (hopen (some m))
  | sheet i o =>
    simp only [Session.step]
    split
    · exact same _ rfl
    · split
      · exact same _ rfl
      · next h hr => exact run_grows hr
  | drop i => simp only [Session.step]; split <;> exact same _ rfl
  | delete i => simp only [Session.step]; split <;> exact same _ rfl
  | rename old new => simp only [Session.step]; split <;> exact same _ rfl
  | active m => exact same _ rfl
  | hide m => exact same _ rfl
  | view v => exact same _ rfl
  | style hs st => simp only [Session.step]; split <;> exact same _ rfl

theorem closed_run (hst : env.build.release = true → StampOk env.stamp) (ops : List WbOp) {s s' : Session} (hI : SessInv env theme s)
    (hn : NoReopen env s ops) {n : String} {e : Entry} (he : aget n s.x.pkg.archive = some e) (hr : s.run env ops = .ok s') :
    aget n s'.x.pkg.archive = some e ∧ ∃ more, s'.x.strings.data = s.x.strings.data ++ more := by
  induction ops generalizing s with
  | nil => cases hr; exact ⟨he, [], by simp⟩
  | cons op ops ih =>
    obtain ⟨h1, m2, h2⟩ := ih (hI.step hst op) hn.2 (closed_step hst hI ⟨hn.1, trivial⟩ he) (run_cons hr)
    obtain ⟨m1, h3⟩ := strings_step op hI hst
    exact ⟨h1, m1 ++ m2, by rw [h2, h3, List.append_assoc]⟩

/-- The part of a closed sheet: still closed, or read again by an attempt to open the sheet, with no handle on it. -/
def PartKept (env : Env) (s : Session) (k : Nat) (xd : XDoc) : Prop :=
  aget (sheetName k) s.x.pkg.archive = some (sheetPart env xd) ∨
  ∃ j, aget (sheetName k) s.x.pkg.opened = some (openFrom j worksheetTemplate (reloadDoc env.build xd)) ∧ ∀ h ∈ s.handles, h.path ≠ sheetName k

/-- Saved sheets with the same text are read as the same document. -/
theorem sheetPart_inj (hst : env.build.release = true → StampOk env.stamp) {s s' : Sheet} {xd xd' : XDoc} (h : s.save bareDoc = .ok xd)
    (h' : s'.save bareDoc = .ok xd') (he : sheetPart env xd = sheetPart env xd') : reloadDoc env.build xd = reloadDoc env.build xd' := by
  obtain ⟨cs, hw, _, hne⟩ := wf_saved env.uni (wf_bareDoc env.uni) (by simp) h
  obtain ⟨cs', hw', _, hne'⟩ := wf_saved env.uni (wf_bareDoc env.uni) (by simp) h'
  obtain ⟨d, h1, h2⟩ := read_doc env hst hw hne
  obtain ⟨d', h1', h2'⟩ := read_doc env hst hw' hne'
  have : renderDoc env.build env.stamp xd = renderDoc env.build env.stamp xd' := congrArg Entry.content he
  rw [this, h1'] at h1
  cases h1
  rw [← h2, ← h2']

theorem kept_step (hst : env.build.release = true → StampOk env.stamp) {s : Session} (hI : SessInv env theme s) (op : WbOp) {k : Nat} {sh : Sheet} {xd : XDoc}
    (hs : sh.save bareDoc = .ok xd) (hk : PartKept env s k xd) : PartKept env (s.step env op).2 k xd := by
  have hb : BookInv env theme s.x s.handles := hI
  have hheld : holds s.x.pkg (sheetName k) := by
    rcases hk with h | ⟨j, h, _⟩
    · exact .inr (mem_akeys_of_aget h)
    · exact holds_of_opened h
  have hfree : ∀ h ∈ s.handles, h.path ≠ sheetName k := by
    rcases hk with h | ⟨j, _, h⟩
    · intro g hg e
      obtain ⟨k', hr, h1, _, h3, _⟩ := hb.sheets.handles g hg
      rw [← h1] at h3
      exact hb.sheets.inv.disjoint _ (mem_akeys_of_aget h3) (e ▸ mem_akeys_of_aget h)
    · exact h
  have hsame : ∀ s' : Session, s'.x.pkg = s.x.pkg → (∀ g ∈ s'.handles, ∃ g' ∈ s.handles, g'.path = g.path) → PartKept env s' k xd := by
    intro s' e hh
    unfold PartKept
    rw [e]
    rcases hk with h | ⟨j, h, _⟩
    · exact .inl h
    · refine .inr ⟨j, h, ?_⟩
      intro g hg e
      obtain ⟨g', hg', e'⟩ := hh g hg
      exact hfree g' hg' (e'.trans e)
  have same : ∀ s' : Session, s'.x.pkg = s.x.pkg → s'.handles = s.handles → PartKept env s' k xd :=
    fun s' e1 e2 => hsame s' e1 (fun g hg => ⟨g, e2 ▸ hg, rfl⟩)
  have hopen : ∀ name : Option String, PartKept env (s.open env name).2 k xd := by
    intro name
    have hc := BookInv.openCase hst hI name
    unfold Session.open
    cases hos : s.x.openSheet env name with
    | mk r x1 =>
      rw [hos] at hc
      cases hc with
      | fresh p' h1 h2 h3 ha ho =>
        have hne : sheetName k ≠ sheetName (nextSheet s.x) := fun e => h2 (e ▸ hheld)
        rcases hk with h | ⟨j, h, hf⟩
        · exact .inl ((ha _).trans h)
        · refine .inr ⟨j, ?_, ?_⟩
          · exact (ho _).trans (by rw [if_neg hne, if_neg (sheetName_ne_rels _ _)]; exact h)
          · intro g hg
            rcases List.mem_append.mp hg with hg | hg
            · exact hf g hg
            · rw [List.mem_singleton.mp hg]; exact hne.symm
      | busyNew o h1 h2 => exact same _ rfl rfl
      | dangling m h1 h2 => exact same _ rfl rfl
      | busyOld m k' o h1 h2 h3 => exact same _ rfl rfl
      | reopened m k' sh' xd' p' h1 h2 h3 h4 h5 h6 h7 =>
        by_cases e : sheetName k = sheetName k'
        · have harch : aget (sheetName k) s.x.pkg.archive = some (sheetPart env xd) := by
            rcases hk with h | ⟨j, h, _⟩
            · exact h
            · exact absurd (e ▸ mem_akeys_of_aget h4) (hb.sheets.inv.disjoint _ (mem_akeys_of_aget h))
          rw [← e, harch] at h4
          have hr := sheetPart_inj hst hs h3 (Option.some.inj h4)
          refine .inr ⟨s.x.pkg.nextHandle, ?_, hfree⟩
          exact (h7 _).trans (by rw [if_pos e, hr])
        · rcases hk with h | ⟨j, h, hf⟩
          · exact .inl ((h6 _).trans (by rw [if_neg e]; exact h))
          · exact .inr ⟨j, (h7 _).trans (by rw [if_neg e]; exact h), hf⟩
  have hdrop : ∀ (x' : Excel) (i : Nat), ∀ g ∈ s.handles, x'.pkg = dropSheet env s.x.pkg g → PartKept env ⟨x', s.handles.eraseIdx i⟩ k xd := by
    intro x' i g hg ex
    obtain ⟨k', hk', hc⟩ := hb.sheets.dropCases hg
    have hne : sheetName k ≠ g.path := fun e => hfree g hg e.symm
    have hsub : ∀ g ∈ s.handles.eraseIdx i, g.path ≠ sheetName k := fun g hg => hfree g ((List.eraseIdx_sublist _ _).subset hg)
    unfold PartKept
    simp only
    rw [ex]
    rcases hc with ⟨_, _, _, e1⟩ | ⟨xd', q, _, _, e1, _, _, h1, h2⟩
    · rw [e1]
      rcases hk with h | ⟨j, h, _⟩
      · exact .inl h
      · exact .inr ⟨j, h, hsub⟩
    · rw [e1, h1, h2, if_neg hne, if_neg hne]
      rcases hk with h | ⟨j, h, _⟩
      · exact .inl h
      · exact .inr ⟨j, h, hsub⟩
  cases op with
  | add name => exact hopen name
  | get m => exact hopen (some m)
  | sheet i o =>
    simp only [Session.step]
    split
    · exact same _ rfl rfl
    · next g hg =>
      split
      · exact same _ rfl rfl
      · refine hsame _ rfl ?_
        intro g' hg'
        rcases List.mem_or_eq_of_mem_set hg' with h | h
        · exact ⟨g', h, rfl⟩
        · exact ⟨g, List.mem_of_getElem? hg, by rw [h]⟩
  | drop i =>
    simp only [Session.step]
    split
    · exact same _ rfl rfl
    · next g hg => exact hdrop _ i g (List.mem_of_getElem? hg) rfl
  | delete i =>
    simp only [Session.step]
    split
    · exact same _ rfl rfl
    · next g hg =>
      obtain ⟨k', _, e1⟩ := hI.deleteEq (env := env) (List.mem_of_getElem? hg)
      simp only
      exact hdrop _ i g (List.mem_of_getElem? hg) (by rw [e1])
  | rename old new => simp only [Session.step]; split <;> exact same _ rfl rfl
  | active m => exact same _ rfl rfl
  | hide m => exact same _ rfl rfl
  | view v => exact same _ rfl rfl
  | style hs' st => simp only [Session.step]; split <;> exact same _ rfl rfl

theorem kept_run (hst : env.build.release = true → StampOk env.stamp) (ops : List WbOp) {s s' : Session} (hI : SessInv env theme s) {k : Nat} {sh : Sheet} {xd : XDoc}
    (hs : sh.save bareDoc = .ok xd) (hk : PartKept env s k xd) (hr : s.run env ops = .ok s') :
    PartKept env s' k xd ∧ ∃ more, s'.x.strings.data = s.x.strings.data ++ more := by
  induction ops generalizing s with
  | nil => cases hr; exact ⟨hk, [], by simp⟩
  | cons op ops ih =>
    obtain ⟨h1, m2, h2⟩ := ih (hI.step hst op) (kept_step hst hI op hs hk) (run_cons hr)
    obtain ⟨m1, h3⟩ := strings_step op hI hst
    exact ⟨h1, m1 ++ m2, by rw [h2, h3, List.append_assoc]⟩

/-- What the part of a closed sheet loads as when the workbook is saved. -/
theorem kept_loads (hst : env.build.release = true → StampOk env.stamp) {s : Session} (hI : SessInv env theme s) {k : Nat} {sh : Sheet} {xd : XDoc}
    (h1 : SortedSheet sh) (h2 : FitsTypes env sh) (hs : sh.save bareDoc = .ok xd) (hk : PartKept env s k xd) {now : String} {p : Pkg}
    (hw : Written env theme now s.x p) : ∃ d, partDoc env p (sheetName k) = some d ∧
      ((Sheet.load env d).1 = .ok (reloadSheet sh) ∨ (Sheet.load env d).1 = .ok (reloadSheet (escSheet sh))) := by
  have hb : BookInv env theme s.x s.handles := hI
  rcases hk with ha | ⟨j, ho, _⟩
  · obtain ⟨d, hd1, hd2, hd3⟩ := reload_sheet env hst h1 h2 (wf_bareDoc env.uni) bare_unmanaged hs
    have hno : aget (sheetName k) s.x.pkg.opened = none := by
      rw [aget_eq_none_iff]
      exact fun hm => hb.sheets.inv.disjoint _ hm (mem_akeys_of_aget ha)
    exact ⟨d.toXDoc, partDoc_eq ((hw.closed _ (not_closedParts_sheet k) hno).trans ha) hd1, .inl hd3⟩
  · obtain ⟨d, hd1, hd2, hd3⟩ := reload_sheet_twice env hst h1 h2 (wf_bareDoc env.uni) hs
    exact ⟨d.toXDoc, partDoc_eq (hw.opened _ _ (not_closedParts_sheet k) ho) hd1, .inr hd3⟩

theorem cellAt_esc (s : Sheet) (r c : Nat) : cellAt (escSheet s) r c = (cellAt s r c).map escCell := by
  have hrow : ∀ d : SheetRows, aget r (d.map escRow) = (aget r d).map (fun rd => (escRow (0, rd)).2) := by
    intro d
    induction d with
    | nil => rfl
    | cons kv d ih =>
      rw [List.map_cons, show escRow kv = (kv.1, (escRow (0, kv.2)).2) from rfl, aget, aget]
      split
      · rfl
      · exact ih
  have hcell : ∀ cs : List (Nat × CellProps), aget c (cs.map (fun c => (c.1, escCell c.2))) = (aget c cs).map escCell := by
    intro cs
    induction cs with
    | nil => rfl
    | cons kv cs ih =>
      rw [List.map_cons, aget, aget]
      split
      · rfl
      · exact ih
  unfold cellAt escSheet
  cases s.data with
  | none => rfl
  | some d =>
    simp only [Option.map_some, Option.bind_some, hrow]
    cases aget r d with
    | none => rfl
    | some rd =>
      simp only [Option.map_some, Option.bind_some, escRow]
      cases rd.cells with
      | none => rfl
      | some cs => simp only [Option.map_some, Option.bind_some, hcell]

theorem reloadCell_esc (c : CellProps) : reloadCell (escCell c) = reloadCell (reloadCell c) := by
  have h : ∀ v : Option String, (v.bind reloadText).bind reloadText = v.bind reloadText := by
    intro v
    cases v with
    | none => rfl
    | some v => exact reloadText_twice v
  unfold reloadCell escCell
  simp only [h, Option.map_map, CellProps.mk.injEq, and_true, true_and]
  refine ⟨?_, ?_⟩
  · split <;> simp [h]
  · cases c.placeHolder <;> rfl

end Oxml
