import Verif.Proofs.ExistingTables
import Verif.Proofs.SessionCells
import Verif.Proofs.StylesFit
/-!
# Sheets of existing workbooks, from opening to dropping the handle
-/
namespace Oxml
open Spec

variable {env : Env}

/-! ## Handles are numbered upwards -/

theorem openPart_next (p : Pkg) (t : Res Template) (n : String) : p.nextHandle ≤ (p.openPart env t n).2.nextHandle ∧
    ∀ h, (p.openPart env t n).1 = .ok h → p.nextHandle = h := by
  have key : ∀ r p1, p.getXmlTree env n = (r, p1) → p1.nextHandle = p.nextHandle := by
    intro r p1 h
    unfold Pkg.getXmlTree at h
    split at h
    · cases h; rfl
    · split at h
      · cases h; rfl
      · simp only at h
        split at h <;> (cases h; rfl)
  unfold Pkg.openPart
  split
  · next p1 e => exact ⟨by rw [key _ _ e]; exact Nat.le_refl _, fun h hh => by cases hh⟩
  · next t1 p1 e =>
    have := key _ _ e
    refine ⟨by simp [Pkg.register]; omega, fun h hh => ?_⟩
    cases hh
    exact this.symm
  · next p1 e =>
    have := key _ _ e
    split
    · exact ⟨by rw [this]; exact Nat.le_refl _, fun h hh => by cases hh⟩
    · refine ⟨by simp [Pkg.register]; omega, fun h hh => ?_⟩
      cases hh
      exact this.symm

theorem relNew_next (p : Pkg) (n : String) : p.nextHandle ≤ (RelPart.new env p n).2.nextHandle := by
  have h1 := (openPart_next (env := env) p (.ok relsTemplate) n).1
  unfold RelPart.new
  split
  · next ho => rw [ho] at h1; exact h1
  · next hd p1 ho =>
    rw [ho] at h1
    split
    · exact h1
    · split <;> exact h1

theorem relClose_next (p : Pkg) (r : RelPart) : (r.close env p).2.nextHandle = p.nextHandle := by
  unfold RelPart.close
  split
  · rfl
  · split
    · rfl
    · simp only
      split
      · rw [Pkg.close_nextHandle]; rfl
      · rfl

theorem closeSheet_next (p : Pkg) (g : SheetHandle) : (closeSheet env p g).2.nextHandle = p.nextHandle := by
  unfold closeSheet
  split
  · exact Pkg.close_nextHandle _ _ _
  · split
    · rfl
    · rw [Pkg.close_nextHandle]; rfl

theorem dropSheet_next (p : Pkg) (g : SheetHandle) : (dropSheet env p g).nextHandle = p.nextHandle :=
  (relClose_next _ _).trans (closeSheet_next _ _)

theorem openAt_next (x1 : Excel) (path nm : String) : x1.pkg.nextHandle ≤ (openAt env x1 path nm).2.pkg.nextHandle ∧
    ∀ g, (openAt env x1 path nm).1 = .ok g → x1.pkg.nextHandle = g.handle := by
  unfold openAt
  obtain ⟨h1, h1'⟩ := openPart_next (env := env) x1.pkg (.ok worksheetTemplate) path
  split
  · next ho => rw [ho] at h1; exact ⟨h1, fun g hg => by cases hg⟩
  · next hd p2 ho =>
    rw [ho] at h1 h1'
    have h2 := Nat.le_trans h1 (relNew_next (env := env) p2 ((sheetRelsPath path).getD ""))
    split
    · exact ⟨h1, fun g hg => by cases hg⟩
    · next rp hrp =>
      rw [hrp, Option.getD_some] at h2
      split
      · next ho2 => rw [ho2] at h2; exact ⟨h2, fun g hg => by cases hg⟩
      · next rels p3 ho2 =>
        rw [ho2] at h2
        split
        · exact ⟨by rw [relClose_next]; exact h2, fun g hg => by cases hg⟩
        · split
          · exact ⟨by rw [relClose_next]; exact h2, fun g hg => by cases hg⟩
          · exact ⟨h2, fun g hg => by cases hg; exact h1' hd rfl⟩

theorem open_next (s : Session) (name : Option String) : s.x.pkg.nextHandle ≤ (s.open env name).2.x.pkg.nextHandle ∧
    ((s.open env name).2.handles = s.handles ∨ ∃ g, (s.open env name).2.handles = s.handles ++ [g] ∧ s.x.pkg.nextHandle = g.handle) := by
  unfold Session.open
  rw [openSheet_eq]
  have f1 := (sheetFile_pairs (x := s.x) (name := name)).1
  cases hf : s.x.sheetFile name with
  | mk r x1 =>
    rw [hf] at f1
    simp only at f1
    cases r with
    | error e => exact ⟨by simp only [f1]; exact Nat.le_refl _, .inl rfl⟩
    | ok pn =>
      obtain ⟨path, nm⟩ := pn
      obtain ⟨h1, h2⟩ := openAt_next (env := env) x1 path nm
      simp only
      cases ha : openAt env x1 path nm with
      | mk r x2 =>
        rw [ha] at h1 h2
        rw [f1] at h1 h2
        cases r with
        | error e => exact ⟨h1, .inl rfl⟩
        | ok g => exact ⟨h1, .inr ⟨g, rfl, h2 g rfl⟩⟩

/-! ## The handle of a sheet -/

/-- What a successful call leaves open. -/
theorem openAt_ok {x1 x2 : Excel} {path nm : String} {g : SheetHandle} (hi : x1.pkg.Inv) (e : openAt env x1 path nm = (.ok g, x2)) :
    ∃ o d, Source env x1.pkg worksheetTemplate path o ∧ Sheet.load env o.doc = (.ok g.data, d) ∧ o.handle = g.handle ∧ g.path = path ∧ g.name = nm ∧
      Still path { o with doc := d } x2.pkg ∧ ∃ rp ro, sheetRelsPath path = some rp ∧ rp ≠ path ∧ g.rels.path = rp ∧ aget rp x1.pkg.opened = none ∧
        Source env x1.pkg relsTemplate rp ro ∧ (loadRels ro.doc).1 = .ok g.rels.rels ∧ ro.handle = g.rels.handle ∧
        Still rp { ro with doc := (loadRels ro.doc).2 } x2.pkg := by
  unfold openAt at e
  cases ho1 : x1.pkg.openPart env (.ok worksheetTemplate) path with
  | mk r p2 =>
    rw [ho1] at e
    cases r with
    | error er => cases e
    | ok hd =>
      obtain ⟨i1, w0, w1, ⟨o, w2, w3, w4⟩, w5⟩ := openPart_full hi ho1
      have s1 : Still path o p2 := w2
      simp only at e
      cases hrp : sheetRelsPath path with
      | none => rw [hrp] at e; cases e
      | some rp =>
        rw [hrp] at e
        simp only at e
        have s2 := s1.relNew i1 env rp
        have i2 := i1.relNew env rp
        cases ho2 : RelPart.new env p2 rp with
        | mk r p3 =>
          rw [ho2] at e s2 i2
          cases r with
          | error er => cases e
          | ok rels =>
            simp only at e s2 i2
            subst w3
            rw [i2.docOf s2] at e
            simp only at e
            cases hl : Sheet.load env o.doc with
            | mk r d' =>
              rw [hl] at e
              cases r with
              | error er => cases e
              | ok sh =>
                cases e
                have hup := i2.aget_update s2 (fun _ => d')
                obtain ⟨_, v0, _, v1, ⟨ro, v2, v3, v4, v5⟩, _⟩ := relNew_full i1 ho2
                have hne : rp ≠ path := by
                  intro e'
                  rw [e', s1] at v0; cases v0
                refine ⟨o, d', w4, hl, rfl, rfl, rfl, ?_, rp, ro, rfl, hne, v1, ?_, ?_, v3, v4, ?_⟩
                · have := hup path
                  rw [if_pos rfl] at this
                  exact this
                · rw [← (w5 rp hne).2]; exact v0
                · unfold Source at v2 ⊢; rw [(w5 rp hne).1] at v2; exact v2
                · show aget rp _ = _
                  rw [hup rp, if_neg hne]
                  exact v5

/-- What `add_sheet_mut` and `get_worksheet_mut` leave open. -/
theorem open_ok {s s1 : Session} {name : Option String} (hl : LiveSess s) (e : s.open env name = (.ok (), s1)) :
    ∃ g o d, s1.handles = s.handles ++ [g] ∧ Source env s.x.pkg worksheetTemplate g.path o ∧ Sheet.load env o.doc = (.ok g.data, d) ∧ o.handle = g.handle ∧
      aget g.path s.x.pkg.opened = none ∧ Still g.path { o with doc := d } s1.x.pkg ∧
      ∃ rp ro, sheetRelsPath g.path = some rp ∧ rp ≠ g.path ∧ g.rels.path = rp ∧ aget rp s.x.pkg.opened = none ∧
        Source env s.x.pkg relsTemplate rp ro ∧ (loadRels ro.doc).1 = .ok g.rels.rels ∧ ro.handle = g.rels.handle ∧
        Still rp { ro with doc := (loadRels ro.doc).2 } s1.x.pkg := by
  unfold Session.open at e
  rw [openSheet_eq] at e
  have f1 := (sheetFile_pairs (x := s.x) (name := name)).1
  cases hf : s.x.sheetFile name with
  | mk r x1 =>
    rw [hf] at e f1
    simp only at f1
    cases r with
    | error er => cases e
    | ok pn =>
      obtain ⟨path, nm⟩ := pn
      simp only at e
      cases ha : openAt env x1 path nm with
      | mk r x2 =>
        rw [ha] at e
        cases r with
        | error er => cases e
        | ok g =>
          cases e
          have hi : x1.pkg.Inv := by rw [f1]; exact hl.inv
          obtain ⟨o, d, h1, h2, h3, h4, _, h6, h7⟩ := openAt_ok hi ha
          subst h4
          rw [f1] at h7
          refine ⟨g, o, d, rfl, by rw [← f1]; exact h1, h2, h3, ?_, h6, h7⟩
          rw [← f1]
          cases ho : aget g.path x1.pkg.opened with
          | none => rfl
          | some o' => rw [openAt_busy ho] at ha; cases ha

theorem get_ok {s s1 : Session} {name : String} (hl : LiveSess s) (e : s.step env (.get name) = (.ok (), s1)) :
    ∃ g o d, s1.handles = s.handles ++ [g] ∧ Source env s.x.pkg worksheetTemplate g.path o ∧ Sheet.load env o.doc = (.ok g.data, d) ∧ o.handle = g.handle ∧
      aget g.path s.x.pkg.opened = none ∧ Still g.path { o with doc := d } s1.x.pkg ∧
      ∃ rp ro, sheetRelsPath g.path = some rp ∧ rp ≠ g.path ∧ g.rels.path = rp ∧ aget rp s.x.pkg.opened = none ∧
        Source env s.x.pkg relsTemplate rp ro ∧ (loadRels ro.doc).1 = .ok g.rels.rels ∧ ro.handle = g.rels.handle ∧
        Still rp { ro with doc := (loadRels ro.doc).2 } s1.x.pkg := open_ok hl e

/-! ## Edits through the handle -/

/-- The sheet is the result of the edits; the string table has grown to `T` meanwhile. -/
inductive Edits (b : Build) (sh0 : Sheet) (T : List String) : List SheetOp → Sheet → Prop where
  | nil : Edits b sh0 T [] sh0
  | snoc {W : List SheetOp} {sh sh' : Sheet} {op : SheetOp} {t t' : List String} : Edits b sh0 T W sh → op.run b (sh, t) = .ok (sh', t') → t' <+: T →
      Edits b sh0 T (W ++ [op]) sh'

theorem Edits.mono {b : Build} {sh0 sh : Sheet} {T T' : List String} {W : List SheetOp} (h : Edits b sh0 T W sh) (ht : T <+: T') : Edits b sh0 T' W sh := by
  induction h with
  | nil => exact .nil
  | snoc _ h1 h2 ih => exact .snoc ih h1 (h2.trans ht)

theorem lastProps_snoc (r : Nat) (l : List SheetOp) (op : SheetOp) :
    lastProps r (l ++ [op]) = match lastProps r [op] with | some x => some x | none => lastProps r l := by
  induction l with
  | nil => rw [List.nil_append]; cases lastProps r [op] <;> rfl
  | cons a l ih =>
    have hs : ∀ l, lastProps r (a :: l) = match lastProps r l with | some x => some x | none => lastProps r [a] := by
      intro l
      simp only [lastProps]
      cases lastProps r l <;> rfl
    rw [List.cons_append, hs, ih, hs]
    cases lastProps r [op] <;> rfl

theorem Edits.sorted {b : Build} {sh0 sh : Sheet} {T : List String} {W : List SheetOp} (h : Edits b sh0 T W sh) (h1 : SortedSheet sh0)
    (hw : ∀ op ∈ W, op.InRange) : SortedSheet sh := by
  induction h with
  | nil => exact h1
  | @snoc W sh sh' op t t' _ hrun ht ih =>
    obtain ⟨st', e, hs, _⟩ := run_spec b (sh, t) op (ih (fun op hop => hw op (by simp [hop]))) (hw op (by simp))
    have : st' = (sh', t') := Except.ok.inj (e.symm.trans hrun)
    subst this
    exact hs

theorem setColumn_views (s : Sheet) (col : Nat) (p : Option ColProps) : (s.setColumn col p).views = s.views := by
  unfold Sheet.setColumn
  split <;> rfl

/-- What holds of every sheet edited within range. -/
theorem Edits.facts {sh0 sh : Sheet} {T : List String} {W : List SheetOp} (h : Edits env.build sh0 T W sh) (h1 : SortedSheet sh0) (h2 : FitsTypes env sh0)
    (h3 : PosCols sh0) (hw : ∀ op ∈ W, op.InRange ∧ op.Fits env) : (SortedSheet sh ∧ FitsTypes env sh ∧ PosCols sh) ∧
      (∀ r c, (lastWritten r c W = none → cellAt sh r c = cellAt sh0 r c) ∧
        ∀ g, lastWritten r c W = some g → ∃ x, cellAt sh r c = some x ∧ StoredAs T g x) ∧
      (∀ r, rowPropsAt sh r = (lastProps r W).getD (rowPropsAt sh0 r)) ∧
      ((∀ c p, SheetOp.column c p ∉ W) → sh.cols = sh0.cols) ∧ sh.views = sh0.views := by
  induction h with
  | nil => exact ⟨⟨h1, h2, h3⟩, fun r c => ⟨fun _ => rfl, fun g hg => by cases hg⟩, fun r => rfl, fun _ => rfl, rfl⟩
  | @snoc W sh sh' op t t' _ hrun ht ih =>
    obtain ⟨⟨i1, i2, i3⟩, i4, i5, i6, i7⟩ := ih (fun op hop => hw op (by simp [hop]))
    obtain ⟨w1, w2⟩ := hw op (by simp)
    obtain ⟨st', e, hs, ⟨more, hmore⟩, hcell⟩ := run_spec env.build (sh, t) op i1 w1
    have : st' = (sh', t') := Except.ok.inj (e.symm.trans hrun)
    subst this
    simp only at hmore hcell hs
    refine ⟨⟨hs, run_fits i2 w2 w1 hrun, run_pos i3 w1 hrun⟩, ?_, ?_, ?_⟩
    · intro r c
      rw [lastWritten_snoc]
      have hc := hcell r c
      cases hwr : op.written r c with
      | none => simp only; rw [hc.1 hwr]; exact i4 r c
      | some x =>
        refine ⟨(fun h => by cases h), fun g hg => ?_⟩
        obtain ⟨y, y1, y2⟩ := hc.2 x hwr
        cases hg
        obtain ⟨m2, hm2⟩ := ht
        exact ⟨y, y1, by rw [← hm2]; exact storedAs_mono y2⟩
    · intro r
      have h := (runAll_props env.build (sh, t) (sh', t') [op] i1 (by simp only [SheetOp.runAll, hrun]) r).2
      simp only at h
      rw [h, i5]
      rw [lastProps_snoc]
      cases lastProps r [op] <;> rfl
    · cases op with
      | write row col cells =>
        simp only [SheetOp.run, Sheet.setRow] at hrun
        split at hrun
        · cases hrun
        · split at hrun
          · cases hrun
          · cases hrun; exact ⟨fun hno => i6 (fun c p hm => hno c p (by simp [hm])), i7⟩
      | rowProps row p => cases hrun; exact ⟨fun hno => i6 (fun c p hm => hno c p (by simp [hm])), i7⟩
      | column col p => exact ⟨fun hno => absurd (by simp) (hno col p), by cases hrun; rw [setColumn_views]; exact i7⟩

/-- While the handle numbered `k` is kept, its part stays open, and its sheet shows what was done through it. -/
structure Editing (env : Env) (path : String) (o : OpenDoc) (sh0 : Sheet) (W : List SheetOp) (s : Session) : Prop where
  live : LiveSess s
  old : o.handle < s.x.pkg.nextHandle
  held : ∀ g ∈ s.handles, g.handle = o.handle → g.path = path ∧ Still path o s.x.pkg ∧ Edits env.build sh0 s.x.strings.data W g.data

theorem LivePkg.path_inj {p : Pkg} {own : List (String × Nat)} {hs : List SheetHandle} (h : LivePkg p own hs) {i j : Nat} {a b : SheetHandle}
    (hi : hs[i]? = some a) (hj : hs[j]? = some b) (hne : i ≠ j) : a.path ≠ b.path ∧ a.path ≠ b.rels.path := by
  obtain ⟨_, _, _, h1, _⟩ := h.others hj
  have hm : a ∈ hs.eraseIdx j := by
    rw [List.mem_eraseIdx_iff_getElem?]
    exact ⟨i, hne, hi⟩
  have := h1 (a.path, a.handle) (List.mem_append_right _ (List.mem_flatMap.mpr ⟨a, hm, by simp⟩))
  exact ⟨this.2.1, this.2.2⟩

theorem Still.open {n : String} {o : OpenDoc} {s : Session} (h : Still n o s.x.pkg) (hl : LiveSess s) (env : Env) (name : Option String) :
    Still n o (s.open env name).2.x.pkg := by
  unfold Session.open
  rw [openSheet_eq]
  have f1 := (sheetFile_pairs (x := s.x) (name := name)).1
  cases hf : s.x.sheetFile name with
  | mk r x1 =>
    rw [hf] at f1
    simp only at f1
    have h1 : Still n o x1.pkg := by rw [f1]; exact h
    cases r with
    | error e => exact h1
    | ok pn =>
      obtain ⟨path, nm⟩ := pn
      have h2 := h1.openAt (by rw [f1]; exact hl.inv) env path nm
      simp only
      cases ha : Oxml.openAt env x1 path nm with
      | mk r x2 =>
        rw [ha] at h2
        cases r with
        | error e => exact h2
        | ok g => exact h2

theorem Editing.open {path : String} {o : OpenDoc} {sh0 : Sheet} {W : List SheetOp} {s : Session} (h : Editing env path o sh0 W s) (name : Option String) :
    Editing env path o sh0 W (s.open env name).2 := by
  obtain ⟨n1, n2⟩ := open_next (env := env) s name
  refine ⟨h.live.open env name, Nat.lt_of_lt_of_le h.old n1, ?_⟩
  have hpre : s.x.strings.data <+: (s.open env name).2.x.strings.data := (step_tables env s (.add name)).1
  intro g hg hk
  have : g ∈ s.handles := by
    rcases n2 with e | ⟨g', e, hnum⟩
    · rw [e] at hg; exact hg
    · rw [e] at hg
      rcases List.mem_append.mp hg with hg | hg
      · exact hg
      · rw [List.mem_singleton.mp hg] at hk
        have := h.old
        omega
  obtain ⟨a, b, c⟩ := h.held g this hk
  exact ⟨a, b.open h.live env name, c.mono hpre⟩

/-- The handle removed is another one. -/
theorem Editing.aside {path : String} {o : OpenDoc} {sh0 : Sheet} {W : List SheetOp} {s : Session} (h : Editing env path o sh0 W s) {i : Nat}
    {a g : SheetHandle} (hi : s.handles[i]? = some a) (hg : g ∈ s.handles.eraseIdx i) (hk : g.handle = o.handle) :
    (g.path = path ∧ Still path o s.x.pkg ∧ Edits env.build sh0 s.x.strings.data W g.data) ∧ a.path ≠ path ∧ o.handle ≠ a.handle ∧ a.rels.path ≠ path ∧
      o.handle ≠ a.rels.handle := by
  have hm := List.mem_of_mem_eraseIdx hg
  obtain ⟨h1, h2, h3⟩ := h.held g hm hk
  obtain ⟨o1, o2, _, h4, _⟩ := LivePkg.others h.live hi
  have := h4 (g.path, g.handle) (List.mem_append_right _ (List.mem_flatMap.mpr ⟨g, hg, by simp⟩))
  rw [h1] at this
  obtain ⟨_, h5, h6⟩ := this
  exact ⟨⟨h1, h2, h3⟩, Ne.symm h5, h2.handle_ne h.live.inv o1 (Ne.symm h5), Ne.symm h6, h2.handle_ne h.live.inv o2 (Ne.symm h6)⟩

theorem Editing.step {path : String} {o : OpenDoc} {sh0 : Sheet} {W : List SheetOp} {s : Session} (h : Editing env path o sh0 W s) (op : WbOp)
    (hsort : SortedSheet sh0) (hW : ∀ op ∈ W, op.InRange) (hop : ∀ i o, op = .sheet i o → o.InRange) :
    Editing env path o sh0 (W ++ onPart s path op) (s.step env op).2 := by
  have hlive := h.live.step env op
  have same : ∀ {s' : Session}, LiveSess s' → s'.x.pkg = s.x.pkg → s'.handles = s.handles → s'.x.strings = s.x.strings → Editing env path o sh0 W s' := by
    intro s' h0 h1 h2 h3
    exact ⟨h0, by rw [h1]; exact h.old, by rw [h1, h2, h3]; exact h.held⟩
  cases op with
  | add name => simp only [onPart, List.append_nil]; exact h.open name
  | get name => simp only [onPart, List.append_nil]; exact h.open (some name)
  | sheet i op =>
    simp only [Session.step, onPart] at hlive ⊢
    cases hi : s.handles[i]? with
    | none => simp only [List.append_nil]; exact h
    | some a =>
      rw [hi] at hlive
      simp only at hlive ⊢
      cases hr : op.run env.build (a.data, s.x.strings.data) with
      | error e =>
        refine ⟨h.live, h.old, ?_⟩
        intro g hg hk
        obtain ⟨h1, h2, h3⟩ := h.held g hg hk
        obtain ⟨j, hj⟩ := List.getElem?_of_mem hg
        by_cases hne : j = i
        · subst hne
          have e1 : a = g := Option.some.inj (hi.symm.trans hj)
          subst e1
          obtain ⟨st', e2, _⟩ := run_spec env.build (a.data, s.x.strings.data) op (h3.sorted hsort hW) (hop j op rfl)
          rw [hr] at e2; cases e2
        · have hp := (LivePkg.path_inj h.live hj hi hne).1
          rw [h1] at hp
          rw [if_neg (Ne.symm hp), List.append_nil]
          exact ⟨h1, h2, h3⟩
      | ok st =>
        obtain ⟨d, table⟩ := st
        rw [hr] at hlive
        simp only at hlive ⊢
        refine ⟨hlive, h.old, ?_⟩
        intro g hg hk
        have hpre : s.x.strings.data <+: table := sheetOp_prefix hr
        obtain ⟨j, hj⟩ := List.getElem?_of_mem hg
        rw [List.getElem?_set] at hj
        split at hj
        · split at hj
          · cases hj
            obtain ⟨h1, h2, h3⟩ := h.held a (List.mem_of_getElem? hi) hk
            simp only [h1, if_true]
            exact ⟨trivial, h2, .snoc (h3.mono hpre) hr List.prefix_rfl⟩
          · cases hj
        · next hne =>
          obtain ⟨h1, h2, h3⟩ := h.held g (List.mem_of_getElem? hj) hk
          have hp := (LivePkg.path_inj h.live hj hi (Ne.symm hne)).1
          rw [h1] at hp
          rw [if_neg (Ne.symm hp), List.append_nil]
          exact ⟨h1, h2, h3.mono hpre⟩
  | drop i =>
    simp only [Session.step, onPart, List.append_nil] at hlive ⊢
    cases hi : s.handles[i]? with
    | none => exact h
    | some a =>
      rw [hi] at hlive
      refine ⟨hlive, by simp only [dropSheet_next]; exact h.old, ?_⟩
      intro g hg hk
      obtain ⟨⟨h1, h2, h3⟩, n1, n2, n3, n4⟩ := h.aside hi hg hk
      exact ⟨h1, h2.dropSheet env n1 n2 n3 n4, h3⟩
  | delete i =>
    simp only [Session.step, onPart, List.append_nil] at hlive ⊢
    cases hi : s.handles[i]? with
    | none => exact h
    | some a =>
      rw [hi] at hlive
      refine ⟨hlive, ?_, ?_⟩
      · simp only [Excel.deleteSheet, dropSheet_next, closeSheet_next]
        exact h.old
      · intro g hg hk
        obtain ⟨⟨h1, h2, h3⟩, n1, n2, n3, n4⟩ := h.aside hi hg hk
        exact ⟨h1, ((h2.delete a.path).closeSheet env n1 n2).dropSheet env n1 n2 n3 n4, h3⟩
  | rename old new =>
    simp only [Session.step, onPart, List.append_nil] at hlive ⊢
    cases hr : renameSheet s.x.sheets old new with
    | error e => exact h
    | ok sheets => rw [hr] at hlive; exact same hlive rfl rfl rfl
  | active name => simp only [onPart, List.append_nil]; exact same hlive rfl rfl rfl
  | hide name => simp only [onPart, List.append_nil]; exact same hlive rfl rfl rfl
  | view op => simp only [onPart, List.append_nil]; exact same hlive rfl rfl rfl
  | style hs st =>
    simp only [Session.step, onPart, List.append_nil] at hlive ⊢
    cases hr : getStyleId env.build hs s.x.styles.data st with
    | error e => exact h
    | ok p => rw [hr] at hlive; exact same hlive rfl rfl rfl

theorem Editing.run {path : String} {o : OpenDoc} {sh0 : Sheet} {W : List SheetOp} {ops : List WbOp} {s s' : Session} (h : Editing env path o sh0 W s)
    (hsort : SortedSheet sh0) (hW : ∀ op ∈ W, op.InRange) (hop : ∀ i o, WbOp.sheet i o ∈ ops → o.InRange) (hr : s.run env ops = .ok s') :
    Editing env path o sh0 (W ++ writesTo env path s ops) s' := by
  induction ops generalizing s W with
  | nil => cases hr; simp only [writesTo, List.append_nil]; exact h
  | cons op ops ih =>
    have h1 := h.step op hsort hW (fun i o e => hop i o (by simp [e]))
    have hr' : (s.step env op).2.run env ops = .ok s' := run_cons hr
    have := ih h1 (fun op' hm => ?_) (fun i o hm => hop i o (by simp [hm])) hr'
    · rw [writesTo, ← List.append_assoc]; exact this
    · rcases List.mem_append.mp hm with hm | hm
      · exact hW op' hm
      · cases op with
        | sheet i o' =>
          simp only [onPart] at hm
          split at hm
          · split at hm
            · rw [List.mem_singleton.mp hm]; exact hop i o' (by simp)
            · cases hm
          · cases hm
        | _ => cases hm

/-- Writes of a history come from its calls. -/
theorem mem_writesTo {path : String} {ops : List WbOp} {s : Session} {o : SheetOp} (h : o ∈ writesTo env path s ops) : ∃ i, WbOp.sheet i o ∈ ops := by
  induction ops generalizing s with
  | nil => cases h
  | cons op ops ih =>
    rw [writesTo] at h
    rcases List.mem_append.mp h with h | h
    · cases op with
      | sheet i o' =>
        simp only [onPart] at h
        split at h
        · split at h
          · rw [List.mem_singleton.mp h]; exact ⟨i, by simp⟩
          · cases h
        · cases h
      | _ => cases h
    · obtain ⟨i, hi⟩ := ih h
      exact ⟨i, by simp [hi]⟩

/-- Dropping the handle writes the sheet to the archive. -/
theorem drop_quiet {s : Session} {i : Nat} {g : SheetHandle} {o : OpenDoc} {d' : XDoc} (hl : LiveSess s) (hg : s.handles[i]? = some g)
    (ho : Still g.path o s.x.pkg) (hh : o.handle = g.handle) (hs : g.data.save o.doc = .ok d') :
    QuietSess g.path (some { ext := o.ext, extType := o.extType, ctype := o.ctype, content := renderDoc env.build env.stamp d' }) (s.step env (.drop i)).2 := by
  obtain ⟨_, w2, w3, w4, _⟩ := LivePkg.others hl hg
  simp only [Session.step, hg]
  refine ⟨⟨?_, ?_⟩, ?_⟩
  · have hdoc := hl.inv.docOf ho
    have hc : closeSheet env s.x.pkg g = (.ok (), (s.x.pkg.update g.handle (fun _ => d')).close env g.path) := by
      unfold closeSheet
      rw [← hh, hdoc]
      simp only [hs]
    have hq : Quiet g.path (some { ext := o.ext, extType := o.extType, ctype := o.ctype, content := renderDoc env.build env.stamp d' })
        (closeSheet env s.x.pkg g).2 := by
      rw [hc, ← hh]
      have := Pkg.Inv.update_close hl.inv env ho d' g.path
      rw [if_pos rfl, if_pos rfl] at this
      exact ⟨this.1, this.2⟩
    exact hq.relClose env (Ne.symm w3)
  · intro hm
    obtain ⟨k, hk⟩ := own_pair hm
    exact (w4 (g.path, k) (List.mem_append_left _ hk)).2.1 rfl
  · intro a ha
    have h1 := (w4 (a.path, a.handle) (List.mem_append_right _ (List.mem_flatMap.mpr ⟨a, ha, by simp⟩))).2.1
    have h2 := (w4 (a.rels.path, a.rels.handle) (List.mem_append_right _ (List.mem_flatMap.mpr ⟨a, ha, by simp⟩))).2.1
    exact ⟨h1, h2⟩

theorem columnValue_pos {l : List Char} (h : l ≠ []) (hl : ∀ c ∈ l, isLetter c) : 0 < columnValue l := by
  obtain ⟨l', c, rfl⟩ : ∃ l' c, l = l' ++ [c] := ⟨l.dropLast, l.getLast h, (List.dropLast_concat_getLast h).symm⟩
  rw [columnValue_append_single]
  have := letter_range (hl c (by simp))
  unfold letterValue
  split
  · next h1 => have : 97 ≤ c.toNat := h1.1; omega
  · omega

/-- A sheet loaded from named columns. -/
theorem load_pos {x x' : XDoc} {s : Sheet} (h : Sheet.load env x = (.ok s, x')) (hc : ColumnsNamed x) : PosCols s := by
  obtain ⟨_, hd, _, _⟩ := load_ok h
  unfold dataOf at hd
  cases hl : (x.rootChildren.filter (fun n => n.tag = "sheetData")).getLast? with
  | none =>
    rw [hl] at hd
    have e1 := (Prod.mk.inj (Except.ok.inj hd)).1
    have e2 := (Prod.mk.inj (Except.ok.inj hd)).2
    refine ⟨by rw [← e2]; exact ⟨by decide, by decide⟩, fun d hd => ?_⟩
    rw [← e1] at hd; cases hd
  | some n =>
    rw [hl] at hd
    simp only at hd
    have hn := List.mem_filter.mp (List.mem_of_getLast? hl)
    cases hm : mapRes (loadRow env) n.children with
    | error e => rw [hm] at hd; cases hd
    | ok rows =>
      rw [hm] at hd
      simp only at hd
      have e1 := (Prod.mk.inj (Except.ok.inj hd)).1
      have e2 := (Prod.mk.inj (Except.ok.inj hd)).2
      rw [foldl_rows] at e2
      have hcol : ∀ r ∈ rows, ∀ kv ∈ r.2.2, kv.1 ≠ 0 := by
        intro r hr kv hkv
        obtain ⟨row, hrow, e⟩ := mapRes_mem hm r hr
        unfold loadRow at e
        split at e
        · cases e
        · split at e
          · cases e
          · split at e
            · cases e
            · split at e
              · cases e
              · split at e
                · cases e
                · next cs hcs =>
                  cases e
                  obtain ⟨c, hcm, e⟩ := mapRes_mem hcs kv hkv
                  unfold loadCell at e
                  split at e
                  · cases e
                  · next a ha =>
                    split at e
                    · cases e
                    · next ref href =>
                      obtain ⟨letters, digits, q1, q2, q3, q4, q5⟩ := hc n hn.1 (by simpa using hn.2) row hrow c hcm ref (by
                        unfold Node.attr?; rw [ha]; exact href)
                      have hr : ref = String.ofList (letters ++ digits) := by rw [← q1, String.ofList_toList]
                      have := getColumnIndex_letters env.build env.uni letters digits q2 q3 (by
                        intro ch hch
                        exact isAlphabetic_of_isDigit env.uni (q4 ch (List.mem_of_mem_head? hch)))
                      rw [← hr, if_pos (by omega)] at this
                      rw [this] at e
                      simp only at e
                      have hpos := columnValue_pos q2 q3
                      split at e
                      · split at e
                        · cases e
                        · cases e; simp only; omega
                      · cases e
      obtain ⟨_, _, f3, f4⟩ := foldl_dimAdd dimDefault (rows.flatMap (fun r => r.2.2))
      rw [e2] at f3 f4
      have hcol' : ∀ kv ∈ rows.flatMap (fun r => r.2.2), kv.1 ≠ 0 := by
        intro kv hkv
        obtain ⟨r, hr, hkv⟩ := List.mem_flatMap.mp hkv
        exact hcol r hr kv hkv
      refine ⟨⟨?_, ?_⟩, ?_⟩
      · rcases f3 with e | ⟨kv, hk, e⟩
        · rw [e]; decide
        · rw [e]; exact hcol' kv hk
      · rcases f4 with e | ⟨kv, hk, e⟩
        · rw [e]; decide
        · rw [e]; exact hcol' kv hk
      · intro d hd kv hkv cs hcs c hcm
        rw [hd] at e1
        have e1 := Option.some.inj e1
        subst e1
        rcases mem_extendMap hkv with hm | hm
        · obtain ⟨y, hy, rfl⟩ := List.mem_map.mp hm
          unfold rowDataOf at hcs
          simp only at hcs
          split at hcs
          · cases hcs
            rcases mem_extendMap hcm with hm | hm
            · exact hcol y hy c hm
            · cases hm
          · cases hcs
        · cases hm

end Oxml
