import Verif.Proofs.Crash
/-!
# Which calls on a workbook can crash
-/
namespace Oxml
open Spec

/-! ## Arithmetic -/

theorem calm_release {b : Build} (hb : b.release = true) (x y : Nat) :
    ¬ Crashes (addU16 b x y) ∧ ¬ Crashes (subU16 b x y) ∧ ¬ Crashes (mulU16 b x y) := by
  refine ⟨?_, ?_, ?_⟩
  · unfold addU16; rw [hb]; split
    · exact crash_ok
    · exact crash_ok
  · unfold subU16; rw [hb]; split
    · exact crash_ok
    · exact crash_ok
  · unfold mulU16; rw [hb]; split
    · exact crash_ok
    · exact crash_ok

theorem calm_loop_release {b : Build} (hb : b.release = true) : ∀ (l : List Char) (i n : Nat), ¬ Crashes (columnIndexLoop b l i n)
  | [], _, _ => crash_ok
  | c :: cs, i, n => by
    unfold columnIndexLoop
    refine calm_bind ?_ (fun v _ => calm_bind ?_ (fun p _ => calm_bind (calm_release hb _ _).2.2 (fun m _ =>
      calm_bind (calm_release hb _ _).1 (fun k _ => calm_loop_release hb cs _ _))))
    · unfold charValue
      exact calm_bind (calm_release hb _ _).2.1 (fun d _ => (calm_release hb _ _).1)
    · unfold pow26
      rw [if_pos (Or.inr hb)]
      exact crash_ok

/-- A column reference crashes only in a checked build, when it is not made of letters or too large. -/
theorem crash_columnIndex {b : Build} {u : Unicode} {ref : String} (h : Crashes (getColumnIndex b u ref)) :
    b.release = false ∧ ((∃ ch ∈ ref.toList.takeWhile (isAlphabetic u), ¬ isLetter ch) ∨
      65535 < columnValue (ref.toList.takeWhile (isAlphabetic u))) := by
  cases hb : b.release with
  | true =>
    exfalso
    unfold getColumnIndex at h
    simp only at h
    split at h
    · exact crash_fail h
    · exact calm_loop_release hb _ _ _ h
  | false =>
    refine ⟨rfl, Classical.byContradiction fun hn => ?_⟩
    have h1 : ∀ ch ∈ ref.toList.takeWhile (isAlphabetic u), isLetter ch := fun ch hc =>
      Classical.byContradiction fun hl => hn (Or.inl ⟨ch, hc, hl⟩)
    have h2 : columnValue (ref.toList.takeWhile (isAlphabetic u)) ≤ 65535 := by
      have := fun h => hn (Or.inr h)
      omega
    unfold getColumnIndex at h
    simp only at h
    split at h
    · exact crash_fail h
    · have e : b = ⟨false⟩ := by cases b; cases hb; rfl
      rw [e, loop_debug _ (fun c hc => h1 c (by simpa using hc)) 0 0 (by decide) (by decide) (by decide), if_pos] at h
      · exact crash_ok h
      · rw [← columnValue_eq_revValue]; omega

theorem crash_placeCells {b : Build} : ∀ (cs : List CellProps) (col : Nat), Crashes (placeCells b col cs) →
    b.release = false ∧ 65536 ≤ col + cs.length
  | [], _, h => absurd h crash_ok
  | c :: cs, col, h => by
    unfold placeCells at h
    cases hb : b.release with
    | true =>
      exfalso
      split at h
      · next e he => exact (calm_release hb _ _).1 ⟨_, he.trans (congrArg _ (crash_error.mp h).choose_spec)⟩
      · split at h
        · next e he =>
          have := (crash_placeCells cs _ ⟨_, he.trans (congrArg _ (crash_error.mp h).choose_spec)⟩).1
          rw [hb] at this; cases this
        · exact crash_ok h
    | false =>
      refine ⟨rfl, ?_⟩
      split at h
      · next e he =>
        unfold addU16 at he
        split at he
        · cases he
        · simp only [List.length_cons]; omega
      · next col' hcol =>
        split at h
        · next e he =>
          have := (crash_placeCells cs _ ⟨_, he.trans (congrArg _ (crash_error.mp h).choose_spec)⟩).2
          unfold addU16 at hcol
          split at hcol
          · cases hcol; simp only [List.length_cons]; omega
          · rw [hb] at hcol; cases hcol
        · exact absurd h crash_ok

/-- Writing cells crashes only in a checked build and only outside the columns there are. -/
theorem crash_sheetOp {b : Build} {st : Sheet × List String} {op : SheetOp} (h : Crashes (op.run b st)) : b.release = false ∧ ¬ op.InRange := by
  cases op with
  | write r c cells =>
    simp only [SheetOp.run, Sheet.setRow] at h
    simp only [SheetOp.InRange]
    split at h
    · next e he =>
      have hc : Crashes (subU16 b c 1) := ⟨_, he.trans (congrArg _ (crash_error.mp h).choose_spec)⟩
      cases hb : b.release with
      | true => exact absurd hc (calm_release hb _ _).2.1
      | false =>
        refine ⟨rfl, fun hr => ?_⟩
        unfold subU16 at hc
        rw [if_pos hr.1] at hc
        exact crash_ok hc
    · next c0 hc0 =>
      split at h
      · next e he =>
        obtain ⟨hb, hl⟩ := crash_placeCells _ _ ⟨_, he.trans (congrArg _ (crash_error.mp h).choose_spec)⟩
        refine ⟨hb, fun hr => ?_⟩
        rw [typeCells_length] at hl
        unfold subU16 at hc0
        rw [if_pos hr.1] at hc0
        cases hc0
        omega
      · exact absurd h crash_ok
  | rowProps r p => exact absurd h crash_ok
  | column c p => exact absurd h crash_ok

/-- Asking for a style crashes only in a checked build with more number formats than fit. -/
theorem crash_getStyleId {b : Build} {hs : Hashes} {st : Styles} {s : StyleSetting} (h : Crashes (getStyleId b hs st s)) :
    b.release = false ∧ 65373 ≤ st.numFmts.length := by
  unfold getStyleId at h
  split at h
  · next e he =>
    have hc : Crashes (numFmtPart b hs st.numFmts s) := ⟨_, he.trans (congrArg _ (crash_error.mp h).choose_spec)⟩
    unfold numFmtPart at hc
    split at hc
    · split at hc
      · exact absurd hc crash_fail
      · split at hc
        · next i hi =>
          split at hc
          · next e' he' =>
            have ha : Crashes (addU16 b (asU16 i) 163) := ⟨_, he'.trans (congrArg _ (crash_error.mp hc).choose_spec)⟩
            have hlt : i < st.numFmts.length := (List.findIdx?_eq_some_iff_getElem.mp hi).1
            cases hb : b.release with
            | true => exact absurd ha (calm_release hb _ _).1
            | false =>
              refine ⟨rfl, ?_⟩
              unfold addU16 at ha
              split at ha
              · exact absurd ha crash_ok
              · have : asU16 i ≤ i := Nat.mod_le _ _
                omega
          · exact absurd hc crash_ok
        · exact absurd hc crash_ok
    · exact absurd hc crash_ok
  · exact absurd h crash_ok

/-! ## Saving a sheet -/

theorem calm_columnRef (n : Nat) : ¬ Crashes (getColumnRef n) := by
  unfold getColumnRef
  split
  · exact crash_fail
  · exact crash_ok

theorem calm_sheetSave (s : Sheet) (x : XDoc) : ¬ Crashes (s.save x) := by
  unfold Sheet.save
  split
  · next e he =>
    refine calm_of_eq he ?_
    unfold Sheet.dimensionRef
    split
    · exact crash_ok
    · split
      · exact crash_ok
      · exact calm_of_eq (by assumption) (calm_columnRef _)
      · exact calm_of_eq (by assumption) (calm_columnRef _)
  · split
    · exact crash_fail
    · split
      · exact crash_ok
      · split
        · next e he =>
          refine calm_of_eq he (calm_mapRes fun kv _ => ?_)
          unfold rowNode
          split
          · next e' he' =>
            refine calm_of_eq he' (calm_mapRes fun c _ => ?_)
            unfold cellNode
            split
            · next e'' he'' => exact calm_of_eq he'' (calm_columnRef _)
            · exact crash_ok
          · exact crash_ok
        · exact crash_ok

theorem calm_closeSheet (env : Env) (p : Pkg) (h : SheetHandle) : ¬ Crashes (closeSheet env p h).1 := by
  unfold closeSheet
  split
  · exact crash_ok
  · split
    · next e he => exact calm_of_eq he (calm_sheetSave _ _)
    · exact crash_ok

/-! ## Reading a sheet -/

theorem calm_loadCellChildren : ∀ (ns : List Node) (c : CellProps), ¬ Crashes (loadCellChildren c ns)
  | [], _ => crash_ok
  | n :: ns, c => by
    unfold loadCellChildren
    split
    · next e he =>
      refine calm_of_eq he ?_
      unfold loadCellChild
      split
      · exact crash_ok
      · split
        · exact crash_ok
        · split
          · exact crash_ok
          · exact crash_fail
    · exact calm_loadCellChildren ns _

theorem crash_loadCell {env : Env} {n : Node} (h : Crashes (loadCell env n)) :
    ∃ ref, n.attr? "r" = some ref ∧ Crashes (getColumnIndex env.build env.uni ref) := by
  unfold loadCell at h
  split at h
  · exact absurd h crash_fail
  · next a ha =>
    split at h
    · exact absurd h crash_fail
    · next ref hr =>
      refine ⟨ref, by unfold Node.attr?; rw [ha]; exact hr, ?_⟩
      split at h
      · next e he => exact ⟨_, he.trans (congrArg _ (crash_error.mp h).choose_spec)⟩
      · split at h
        · split at h
          · next e he => exact absurd h (calm_of_eq he (calm_loadCellChildren _ _))
          · exact absurd h crash_ok
        · exact absurd h crash_fail

theorem crash_loadRow {env : Env} {n : Node} (h : Crashes (loadRow env n)) :
    ∃ c ∈ n.children, ∃ ref, c.attr? "r" = some ref ∧ Crashes (getColumnIndex env.build env.uni ref) := by
  unfold loadRow at h
  split at h
  · exact absurd h crash_fail
  · split at h
    · exact absurd h crash_fail
    · split at h
      · exact absurd h crash_fail
      · split at h
        · next e he =>
          refine absurd h (calm_of_eq he ?_)
          unfold loadRowProps
          split
          · exact crash_ok
          · exact crash_fail
        · split at h
          · next e he =>
            obtain ⟨c, hc, hcr⟩ := crash_mapRes ⟨_, he.trans (congrArg _ (crash_error.mp h).choose_spec)⟩
            exact ⟨c, hc, crash_loadCell hcr⟩
          · exact absurd h crash_ok

theorem mem_popTag {x : XDoc} {t : String} {n : Node} (h : n ∈ (x.popTag t).2.rootChildren) : n ∈ x.rootChildren := by
  unfold XDoc.popTag XDoc.mapRootChildren XDoc.rootChildren at *
  cases hr : x.root with
  | none => simp [hr] at h
  | some r =>
    simp only [hr, Option.map_some] at h
    cases r
    exact (List.mem_filter.mp h).1

theorem calm_loadCols (env : Env) (x : XDoc) : ¬ Crashes (loadCols env x).1 := by
  unfold loadCols
  simp only
  split
  · exact crash_ok
  · split
    · next e he =>
      refine calm_of_eq he (calm_mapRes fun n _ => ?_)
      unfold loadCol
      split
      · exact crash_fail
      · split
        · exact crash_ok
        · exact crash_fail
    · exact crash_ok

theorem calm_loadViews (x : XDoc) : ¬ Crashes (loadViews x).1 := by
  unfold loadViews
  simp only
  split
  · exact crash_ok
  · split
    · next e he =>
      refine calm_of_eq he (calm_mapRes fun n _ => ?_)
      unfold loadView
      split
      · exact crash_fail
      · split
        · exact crash_fail
        · split
          · exact crash_fail
          · split
            · exact crash_ok
            · exact crash_fail
    · exact crash_ok

theorem crash_loadData {env : Env} {x : XDoc} (h : Crashes (loadData env x).1) : env.build.release = false ∧ OddColumn env.uni x := by
  unfold loadData at h
  simp only at h
  split at h
  · exact absurd h crash_ok
  · next n hn =>
    split at h
    · next e he =>
      obtain ⟨row, hrow, hcr⟩ := crash_mapRes ⟨_, he.trans (congrArg _ (crash_error.mp h).choose_spec)⟩
      obtain ⟨c, hc, ref, h1, h2⟩ := crash_loadRow hcr
      obtain ⟨h3, h4⟩ := crash_columnIndex h2
      have hm := List.mem_of_getLast? hn
      unfold XDoc.popTag at hm
      simp only [List.mem_filter, decide_eq_true_eq] at hm
      exact ⟨h3, n, hm.1, hm.2, row, hrow, c, hc, ref, h1, h4⟩
    · exact absurd h crash_ok

theorem crash_sheetLoad {env : Env} {x : XDoc} (h : Crashes (Sheet.load env x).1) : env.build.release = false ∧ OddColumn env.uni x := by
  unfold Sheet.load at h
  simp only at h
  split at h
  · next e x2 he => exact absurd h (calm_of_eq (congrArg Prod.fst he) (calm_loadCols _ _))
  · next cols x2 he =>
    have e2 : x2 = ((x.popTag "dimension").2.popTag "cols").2 := (congrArg Prod.snd he).symm
    split at h
    · next e x3 he' =>
      have hc : Crashes (loadData env x2).1 := ⟨_, (congrArg Prod.fst he').trans (congrArg _ (crash_error.mp h).choose_spec)⟩
      obtain ⟨h1, n, h2, h3⟩ := crash_loadData hc
      rw [e2] at h2
      exact ⟨h1, n, mem_popTag (mem_popTag h2), h3⟩
    · split at h
      · next he'' => exact absurd h (calm_of_eq (congrArg Prod.fst he'') (calm_loadViews _))
      · exact absurd h crash_ok

/-! ## Asking for a sheet -/

theorem crash_targetById {p : String} {R : List Rel} {id : String} (h : Crashes (targetById p R id)) : OddName p := by
  unfold targetById at h
  split at h
  · exact absurd h crash_ok
  · split at h
    · next e he => exact crash_resolveTarget ⟨_, he.trans (congrArg _ (crash_error.mp h).choose_spec)⟩
    · exact absurd h crash_ok

theorem crash_sheetFile {x : Excel} {name : Option String} (h : Crashes (x.sheetFile name).1) : OddName x.rels.path := by
  unfold Excel.sheetFile at h
  split at h
  · split at h
    · next e he => exact crash_targetById ⟨_, he.trans (congrArg _ (crash_error.mp h).choose_spec)⟩
    · exact absurd h crash_fail
    · exact absurd h crash_ok
  · split at h
    · next e he => exact crash_relativePath ⟨_, he.trans (congrArg _ (crash_error.mp h).choose_spec)⟩
    · exact absurd h crash_ok

theorem crash_openAt {env : Env} {x1 : Excel} {path nm : String} (hi : x1.pkg.Inv) (h : Crashes (openAt env x1 path nm).1) :
    '/' ∉ path.toList ∨ (env.build.release = false ∧ ∃ d, partDoc env x1.pkg path = some d ∧ OddColumn env.uni d) := by
  unfold openAt at h
  cases ho1 : x1.pkg.openPart env (.ok worksheetTemplate) path with
  | mk r p2 =>
    rw [ho1] at h
    cases r with
    | error er => exact absurd h (calm_of_eq (congrArg Prod.fst ho1) (calm_openPart _ _ _ _))
    | ok hd =>
      obtain ⟨i1, w0, w1, ⟨o, w2, w3, w4⟩, w5⟩ := openPart_full hi ho1
      have s1 : Still path o p2 := w2
      simp only at h
      cases hrp : sheetRelsPath path with
      | none =>
        left
        unfold sheetRelsPath at hrp
        exact dirOf_none (Option.map_eq_none_iff.mp hrp)
      | some rp =>
        rw [hrp] at h
        simp only at h
        have s2 := s1.relNew i1 env rp
        have i2 := i1.relNew env rp
        cases ho2 : RelPart.new env p2 rp with
        | mk r p3 =>
          rw [ho2] at h s2 i2
          cases r with
          | error er => exact absurd h (calm_of_eq (congrArg Prod.fst ho2) (calm_relNew _ _ _))
          | ok rels =>
            simp only at h s2 i2
            subst w3
            rw [i2.docOf s2] at h
            simp only at h
            cases hl : Sheet.load env o.doc with
            | mk r d' =>
              rw [hl] at h
              cases r with
              | ok sh => exact absurd h crash_ok
              | error er =>
                obtain ⟨h1, h2⟩ := crash_sheetLoad (env := env) (x := o.doc) ⟨_, (congrArg Prod.fst hl).trans (congrArg _ (crash_error.mp h).choose_spec)⟩
                refine Or.inr ⟨h1, o.doc, ?_, h2⟩
                rcases w4 with ⟨_, hd, _⟩ | ⟨e, d, h3, h4, h5, _⟩
                · rw [hd] at h2
                  obtain ⟨n, hn, _, row, hrow, _⟩ := h2
                  have : n = .mk "sheetData" (some []) none [] := by
                    simpa [worksheetTemplate, worksheetDoc, XDoc.rootChildren, Node.children] using hn
                  subst this
                  cases hrow
                · unfold partDoc
                  rw [h3]
                  simp only [h4, h5]

theorem sheetPath_slash (dir : String) (k : Nat) : '/' ∈ (sheetPath dir k).toList := by
  unfold sheetPath
  simp only [String.toList_append, List.mem_append]
  simp

theorem crash_openSheet {env : Env} {x : Excel} {name : Option String} (hi : x.pkg.Inv) (h : Crashes (x.openSheet env name).1) :
    AskTrouble env x name := by
  rw [openSheet_eq] at h
  obtain ⟨a1, _, a3⟩ := sheetFile_about (x := x) (name := name)
  cases hf : x.sheetFile name with
  | mk r x1 =>
    rw [hf] at h a1 a3
    cases r with
    | error e => exact Or.inl (crash_sheetFile ⟨_, (congrArg Prod.fst hf).trans (congrArg _ (crash_error.mp h).choose_spec)⟩)
    | ok pn =>
      obtain ⟨path, nm⟩ := pn
      simp only at h a1 a3
      have ha := a3 path nm rfl
      right
      rcases crash_openAt (a1 ▸ hi) h with h1 | ⟨h1, d, h2, h3⟩
      · left
        unfold AboutPart at ha
        cases name with
        | none => 
          obtain ⟨dir, k, _, h4, _⟩ := ha
          exact absurd (by rw [h4]; simp) h1
        | some n =>
          simp only at ha
          split at ha
          · exact ⟨n, path, rfl, ha, h1⟩
          · obtain ⟨dir, k, _, h4, _⟩ := ha
            exact absurd (by rw [h4]; simp) h1
      · exact Or.inr ⟨h1, path, d, ha, a1 ▸ h2, h3⟩

/-- What a call can crash on. -/
theorem crash_step {env : Env} {s : Session} (hi : s.x.pkg.Inv) {op : WbOp} (h : Crashes (s.step env op).1) : CallTrouble env s op := by
  have hopen : ∀ name, Crashes (s.open env name).1 → AskTrouble env s.x name := by
    intro name h
    unfold Session.open at h
    split at h
    · next e x1 he => exact crash_openSheet hi ⟨_, (congrArg Prod.fst he).trans (congrArg _ (crash_error.mp h).choose_spec)⟩
    · exact absurd h crash_ok
  cases op with
  | add name => exact hopen _ h
  | get name => exact hopen _ h
  | sheet i op =>
    simp only [Session.step] at h
    split at h
    · exact absurd h crash_ok
    · split at h
      · next e he => exact crash_sheetOp ⟨_, he.trans (congrArg _ (crash_error.mp h).choose_spec)⟩
      · exact absurd h crash_ok
  | drop i =>
    simp only [Session.step] at h
    split at h <;> exact absurd h crash_ok
  | delete i =>
    simp only [Session.step] at h
    split at h
    · exact absurd h crash_ok
    · exact absurd h (calm_closeSheet _ _ _)
  | rename old new =>
    simp only [Session.step] at h
    split at h
    · next e he =>
      refine absurd h (calm_of_eq he ?_)
      unfold renameSheet
      split
      · exact crash_fail
      · split <;> first | exact crash_ok | exact crash_fail
    · exact absurd h crash_ok
  | active n => exact absurd h crash_ok
  | hide n => exact absurd h crash_ok
  | view o => exact absurd h crash_ok
  | style hs st =>
    simp only [Session.step] at h
    split at h
    · next e he => exact crash_getStyleId ⟨_, he.trans (congrArg _ (crash_error.mp h).choose_spec)⟩
    · exact absurd h crash_ok

/-! ## Histories -/

theorem sheetFile_entries {x : Excel} {name : Option String} {e : SheetEntry} (h : e ∈ (x.sheetFile name).2.sheets) :
    (∃ e0 ∈ x.sheets, e0.relId = e.relId) ∨ e.relId = nextRelId x.rels.rels := by
  by_cases hl : ∃ n, name = some n ∧ n ∈ names x.sheets
  · obtain ⟨n, rfl, hn⟩ := hl
    obtain ⟨r, h1, h2⟩ := sheetFile_listed hn
    rw [h1] at h
    exact Or.inl ⟨e, h, rfl⟩
  · have hno : ∀ n, name = some n → n ∉ names x.sheets := fun n e hn => hl ⟨n, e, hn⟩
    rcases sheetFile_new hno with ⟨er, h1, h2⟩ | ⟨dir, h1, h2⟩
    · rw [h2] at h; exact Or.inl ⟨e, h, rfl⟩
    · rw [h2] at h
      unfold withSheet newRel at h
      rcases List.mem_append.mp h with h | h
      · exact Or.inl ⟨e, h, rfl⟩
      · rw [List.mem_singleton] at h
        exact Or.inr (by rw [h])

theorem mem_mapFirst {α : Type} {p : α → Bool} {f : α → α} : ∀ {l : List α} {a : α}, a ∈ mapFirst p f l → a ∈ l ∨ ∃ b ∈ l, a = f b
  | [], _, h => by cases h
  | b :: l, a, h => by
    unfold mapFirst at h
    split at h
    · rcases List.mem_cons.mp h with rfl | h
      · exact Or.inr ⟨b, List.mem_cons_self, rfl⟩
      · exact Or.inl (List.mem_cons_of_mem _ h)
    · rcases List.mem_cons.mp h with rfl | h
      · exact Or.inl List.mem_cons_self
      · rcases mem_mapFirst h with h | ⟨c, h1, h2⟩
        · exact Or.inl (List.mem_cons_of_mem _ h)
        · exact Or.inr ⟨c, List.mem_cons_of_mem _ h1, h2⟩

/-- Every entry of the list of sheets had its relationship before or got a fresh one. -/
theorem step_entries {env : Env} {s : Session} {op : WbOp} {e : SheetEntry} (h : e ∈ (s.step env op).2.x.sheets) :
    (∃ e0 ∈ s.x.sheets, e0.relId = e.relId) ∨ e.relId = nextRelId s.x.rels.rels := by
  have hopen : ∀ name, e ∈ (s.open env name).2.x.sheets → (∃ e0 ∈ s.x.sheets, e0.relId = e.relId) ∨ e.relId = nextRelId s.x.rels.rels := by
    intro name h
    have h1 := (openSheet_sheets env s.x name).1
    unfold Session.open at h
    refine sheetFile_entries (name := name) ?_
    rw [← h1]
    split at h
    · next he => rw [he]; exact h
    · next he => rw [he]; exact h
  have hsame : e ∈ s.x.sheets → (∃ e0 ∈ s.x.sheets, e0.relId = e.relId) ∨ e.relId = nextRelId s.x.rels.rels := fun h => Or.inl ⟨e, h, rfl⟩
  cases op with
  | add name => exact hopen _ h
  | get name => exact hopen _ h
  | sheet i op =>
    simp only [Session.step] at h
    split at h
    · exact hsame h
    · split at h <;> exact hsame h
  | drop i =>
    simp only [Session.step] at h
    split at h <;> exact hsame h
  | delete i =>
    simp only [Session.step] at h
    split at h
    · exact hsame h
    · exact hsame (List.mem_filter.mp h).1
  | rename old new =>
    simp only [Session.step] at h
    split at h
    · exact hsame h
    · next sheets he =>
      unfold renameSheet at he
      split at he
      · cases he
      · split at he
        · cases he
          rcases mem_mapFirst h with h | ⟨b, h1, h2⟩
          · exact hsame h
          · exact Or.inl ⟨b, h1, by rw [h2]⟩
        · cases he
  | active n =>
    simp only [Session.step, setActive] at h
    obtain ⟨b, h1, h2⟩ := List.mem_map.mp h
    exact Or.inl ⟨b, h1, by rw [← h2]⟩
  | hide n =>
    simp only [Session.step, hideSheet] at h
    obtain ⟨b, h1, h2⟩ := List.mem_map.mp h
    exact Or.inl ⟨b, h1, by rw [← h2]⟩
  | view o => exact hsame h
  | style hs st =>
    simp only [Session.step] at h
    split at h <;> exact hsame h

theorem inFolders_step {env : Env} {s : Session} {op : WbOp} (h : SheetsInFolders s.x) : SheetsInFolders (s.step env op).2.x := by
  obtain ⟨h1, h2⟩ := step_rels env s op
  intro e he r hr hid n hn
  rw [h1] at hn
  rcases h2 r hr with h3 | ⟨path, ⟨dir, k, _, h4, _⟩, h5⟩
  · rcases step_entries he with ⟨e0, h6, h7⟩ | h6
    · exact h e0 h6 r h3 (hid.trans h7.symm) n hn
    · exact absurd (List.mem_map.mpr ⟨r, h3, hid.trans h6⟩) (nextRelId_fresh _)
  · rw [h5] at hn
    rw [resolve_slash hn, h4]
    simp

/-- In a release build no call crashes when all sheets lie in folders. -/
theorem calm_step {env : Env} {s : Session} (hb : env.build.release = true) (hi : s.x.pkg.Inv) (ho : ¬ OddName s.x.rels.path)
    (hf : SheetsInFolders s.x) (op : WbOp) : ¬ Crashes (s.step env op).1 := by
  intro h
  have ask : ∀ name, ¬ AskTrouble env s.x name := by
    intro name h
    rcases h with h | ⟨n, path, _, ⟨e, r, h1, h2, h3⟩, h4⟩ | ⟨h, _⟩
    · exact ho h
    · exact h4 (hf e (List.mem_of_find?_eq_some h1) r (List.mem_of_find?_eq_some h2) (by simpa using List.find?_some h2) path h3)
    · rw [hb] at h; cases h
  have hc := crash_step hi h
  cases op with
  | add name => exact ask _ hc
  | get name => exact ask _ hc
  | sheet i op => exact absurd (hb.symm.trans hc.1) (by decide)
  | style hs st => exact absurd (hb.symm.trans hc.1) (by decide)
  | _ => exact hc

theorem calm_run {env : Env} (hb : env.build.release = true) : ∀ (ops : List WbOp) {s : Session}, LiveSess s → ¬ OddName s.x.rels.path →
    SheetsInFolders s.x → ∃ s', s.run env ops = .ok s'
  | [], s, _, _, _ => ⟨s, rfl⟩
  | op :: ops, s, hl, ho, hf => by
    have hc := calm_step hb hl.inv ho hf op
    have h1 := hl.step env op
    have h2 := (step_rels env s op).1
    have h3 := inFolders_step (env := env) (op := op) hf
    unfold Session.run
    split
    · next m _ e => rw [e] at hc; exact absurd ⟨_, rfl⟩ hc
    · next r s1 _ e =>
      rw [e] at h1 h2 h3
      exact calm_run hb ops h1 (by simp only at h2; rw [h2]; exact ho) h3

end Oxml
