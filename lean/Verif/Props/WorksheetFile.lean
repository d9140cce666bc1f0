import Verif.Proofs.WorksheetSession
/-!
# C32–C37: sheets through files
-/
namespace Oxml
open Spec

/-! ## C32 -/

/-- Saving the sheet into the document, writing the file, reading it and loading the sheet ends with `s'`. -/
def SavedLoaded (env : Env) (s : Sheet) (x : XDoc) (s' : Sheet) : Prop :=
  ∃ x' d, s.save x = .ok x' ∧ readXml env.uni (renderDoc env.build env.stamp x') = .ok d ∧ (Sheet.load env d.toXDoc).1 = .ok s'

/-- The situations C32, C33 and C35 speak about: a sheet that fits the Rust types, and the document it was loaded from,
which has a root without text and nothing managed left in it. -/
structure Saveable (env : Env) (s : Sheet) (x : XDoc) : Prop where
  stamp : env.build.release = true → StampOk env.stamp
  sorted : SortedSheet s
  fits : FitsTypes env s
  doc : ∃ t a cs, WfDoc env.uni x (.mk t a none cs) ∧ ∀ n ∈ cs, n.tag ∉ managedTags

theorem savedLoaded_iff {env : Env} {s s' : Sheet} {x : XDoc} (h : Saveable env s x) (hs : SavedLoaded env s x s') : s' = reloadSheet s := by
  obtain ⟨t, a, cs, hw, hc⟩ := h.doc
  obtain ⟨x', d, h1, h2, h3⟩ := hs
  obtain ⟨d', h4, _, h5⟩ := reload_sheet env h.stamp h.sorted h.fits hw hc h1
  rw [h2] at h4
  cases h4
  rw [h3] at h5
  cases h5; rfl

/-- A saveable sheet without column 0 is saved and loaded. -/
theorem savedLoaded_total {env : Env} {s : Sheet} {x x' : XDoc} (h : Saveable env s x) (hs : s.save x = .ok x') :
    SavedLoaded env s x (reloadSheet s) := by
  obtain ⟨t, a, cs, hw, hc⟩ := h.doc
  obtain ⟨d', h4, _, h5⟩ := reload_sheet env h.stamp h.sorted h.fits hw hc hs
  exact ⟨x', d', hs, h4, h5⟩

theorem cellAt_reload (s : Sheet) (r c : Nat) : cellAt (reloadSheet s) r c = (cellAt s r c).map reloadCell := by
  unfold cellAt reloadSheet
  cases hd : s.data with
  | none => rfl
  | some d =>
    simp only [Option.map_some]
    rw [aget_map_snd]
    cases aget r d with
    | none => rfl
    | some rd =>
      simp only [Option.map_some, reloadRow]
      cases hc : rd.cells with
      | none => rfl
      | some l =>
        cases l with
        | nil => rfl
        | cons kv l => exact aget_map_snd reloadCell (kv :: l) c

/-- The claim of C32. -/
def C32_claim : Prop :=
  ∀ (env : Env) (s s' : Sheet) (x : XDoc), Saveable env s x → SavedLoaded env s x s' →
    ∀ r c, (cellAt s' r c).map coreOf = (cellAt s r c).map coreOf

/-- A sheet with one text cell that starts with a blank. -/
def C32_sheet : Sheet := { emptySheet with dim := (2, 2), data := some [(1, { cells := some [(2, { value := some " a", type := .string })] })] }

/-- The worksheet template after loading. -/
def bareDoc : XDoc := (worksheetDoc.popTag "sheetData").2

def C32_env : Env := { build := ⟨false⟩, uni := ⟨fun _ => false⟩, stamp := [] }

theorem wf_bareDoc (u : Unicode) : WfDoc u bareDoc (.mk "worksheet" (some []) none []) := by
  refine ⟨by decide +kernel, wfNode_attrs (by decide +kernel) rfl (by simp [akeys]) trivial, ⟨by decide +kernel, ?_⟩, ?_⟩
  · have : akeys bareDoc.ns = [defaultNsKey, "r"] := by decide +kernel
    rw [this]
    intro k hk
    rcases List.mem_cons.mp hk with rfl | hk
    · left; rfl
    · rw [List.mem_singleton] at hk
      subst hk
      right; exact ⟨validName_ascii u (by decide +kernel), by decide⟩
  · intro kv hkv
    have : kv ∈ [(defaultNsKey, mainNs), ("r", "http://schemas.openxmlformats.org/officeDocument/2006/relationships")] := hkv
    simp only [List.mem_cons, List.not_mem_nil, or_false] at this
    rcases this with rfl | rfl <;> decide +kernel

theorem bare_saveable {env : Env} {s : Sheet} (hst : env.build.release = true → StampOk env.stamp) (hs : SortedSheet s)
    (hf : FitsTypes env s) : Saveable env s bareDoc :=
  ⟨hst, hs, hf, _, _, _, wf_bareDoc env.uni, by simp⟩

theorem sorted_single {s : Sheet} {r : Nat} {rd : RowData} (h : s.data = some [(r, rd)]) (hc : ∀ cs, rd.cells = some cs → SortedKeys cs) :
    SortedSheet s := by
  intro d hd
  rw [h] at hd
  cases hd
  refine ⟨by simp [SortedKeys, akeys], ?_⟩
  intro r' rd' cs h1 h2
  simp only [aget] at h1
  split at h1
  · cases h1; exact hc cs h2
  · cases h1

theorem C32_saveable : Saveable C32_env C32_sheet bareDoc := by
  refine bare_saveable (fun h => by cases h) (sorted_single rfl ?_) ⟨?_, ?_, ?_⟩
  · intro cs h; cases h; simp [SortedKeys, akeys]
  · intro d hd kv hkv
    cases hd
    rw [List.mem_singleton] at hkv
    subst hkv
    refine ⟨by decide, ⟨by simp, by simp, by simp⟩, ?_⟩
    intro cs hcs c hc
    cases hcs
    rw [List.mem_singleton] at hc
    subst hc
    exact ⟨by decide, by simp, by simp⟩
  · intro cs h; cases h
  · intro v hv z hz
    have : v = {} := by simpa [C32_sheet, emptySheet] using hv
    subst this
    rcases hz with h | h | h | h <;> cases h

theorem saved_of_isOk {s : Sheet} {x : XDoc} (h : (s.save x).isOk = true) : ∃ x', s.save x = .ok x' := by
  cases hs : s.save x with
  | ok x' => exact ⟨x', rfl⟩
  | error e => rw [hs] at h; cases h

/-- **C32** is false: white space around a text is lost. -/
theorem C32_violated : ¬ C32_claim := by
  intro hc
  obtain ⟨x', hx'⟩ := saved_of_isOk (s := C32_sheet) (x := bareDoc) (by decide +kernel)
  have := hc C32_env C32_sheet _ bareDoc C32_saveable (savedLoaded_total C32_saveable hx') 1 2
  revert this
  decide +kernel

/-- **C32 (partial).** Exactly the same coordinates hold cells after saving and loading, with the type, style, and comment id
they had. Missing for the full claim: see `C32_partial_same`. -/
theorem C32_partial (env : Env) (s s' : Sheet) (x : XDoc) (h : Saveable env s x) (hs : SavedLoaded env s x s') (r c : Nat) :
    cellAt s' r c = (cellAt s r c).map reloadCell := by
  rw [savedLoaded_iff h hs, cellAt_reload]

theorem reloadText_iff (v : String) : reloadText v = some v ↔ Trimmed v := by
  unfold reloadText Trimmed
  constructor
  · intro h
    split at h
    · cases h
    · rename_i hne
      have e := Option.some.inj h
      have e2 : trimXml v.toList = v.toList := by
        have := congrArg String.toList e
        rwa [String.toList_ofList] at this
      exact ⟨fun h0 => hne (by rw [h0]; rfl), e2⟩
  · rintro ⟨h2, h1⟩
    rw [h1, if_neg h2, String.ofList_toList]

theorem bind_reloadText_iff (o : Option String) : o.bind reloadText = o ↔ ∀ v, o = some v → Trimmed v := by
  cases o with
  | none => simp
  | some v => simp [reloadText_iff]

theorem map_attrReload_iff (o : Option String) : o.map attrReload = o ↔ ∀ v, o = some v → NoSpecials v := by
  cases o with
  | none => simp
  | some v =>
    simp only [Option.map_some, Option.some.injEq, forall_eq']
    exact escStr_eq_iff v

/-- **C32 (partial).** A cell comes back with the same content exactly when its value and formula are trimmed and not empty, it
is not an inline string with a formula, and its metadata has no special characters. -/
theorem C32_partial_same (env : Env) (s s' : Sheet) (x : XDoc) (h : Saveable env s x) (hs : SavedLoaded env s x s') (r c : Nat) (cell : CellProps)
    (hcell : cellAt s r c = some cell) :
    (cellAt s' r c).map coreOf = some (coreOf cell) ↔
      (∀ v, cell.value = some v → Trimmed v) ∧ (∀ f, cell.formula = some f → Trimmed f ∧ cell.type ≠ .inlineString) ∧
      (∀ m, cell.metadata = some m → NoSpecials m) := by
  rw [C32_partial env s s' x h hs, hcell]
  simp only [Option.map_some, Option.some.injEq, coreOf, reloadCell, Prod.mk.injEq, true_and]
  rw [bind_reloadText_iff, map_attrReload_iff]
  constructor
  · rintro ⟨h1, h2, h3⟩
    refine ⟨h1, ?_, h3⟩
    intro f hf
    split at h2
    · rw [hf] at h2; cases h2
    · rename_i ht
      exact ⟨(bind_reloadText_iff _).mp h2 f hf, ht⟩
  · rintro ⟨h1, h2, h3⟩
    refine ⟨h1, ?_, h3⟩
    split
    · rename_i ht
      cases hf : cell.formula with
      | none => rfl
      | some f => exact absurd ht (h2 f hf).2
    · exact (bind_reloadText_iff _).mpr (fun f hf => (h2 f hf).1)

/-- A cell with value, formula, style and metadata meets all hypotheses. -/
def C32_good : Sheet :=
  { emptySheet with dim := (2, 2), data := some [(1, { cells := some [(2, { value := some "7", formula := some "A1+6", type := .number, style := some 3, metadata := some "1" })] })] }

theorem C32_good_saveable : Saveable C32_env C32_good bareDoc := by
  refine bare_saveable (fun h => by cases h) (sorted_single rfl ?_) ⟨?_, ?_, ?_⟩
  · intro cs h; cases h; simp [SortedKeys, akeys]
  · intro d hd kv hkv
    cases hd
    rw [List.mem_singleton] at hkv
    subst hkv
    refine ⟨by decide, ⟨by simp, by simp, by simp⟩, ?_⟩
    intro cs hcs c hc
    cases hcs
    rw [List.mem_singleton] at hc
    subst hc
    exact ⟨by decide, by simp [u32Max], by simp⟩
  · intro cs h; cases h
  · intro v hv z hz
    have : v = {} := by simpa [C32_good, emptySheet] using hv
    subst this
    rcases hz with h | h | h | h <;> cases h

example : ∃ s', SavedLoaded C32_env C32_good bareDoc s' ∧ (cellAt s' 1 2).map coreOf = some (.number, some "7", some "A1+6", some 3, some "1") := by
  obtain ⟨x', hx'⟩ := saved_of_isOk (s := C32_good) (x := bareDoc) (by decide +kernel)
  have h := savedLoaded_total C32_good_saveable hx'
  exact ⟨_, h, by decide +kernel⟩

/-- Loading any worksheet document (with a root holding no text) and editing the sheet in any way leads to a situation that C32,
C33, C35 and C36 speak about. -/
theorem C32_reachable (env : Env) (hst : env.build.release = true → StampOk env.stamp) (he : PrintsF32 env) {x0 x : XDoc} {t : String}
    {a : Option Attrs} {cs : List Node} (hx : WfDoc env.uni x0 (.mk t a none cs)) {s0 s : Sheet} (hl : Sheet.load env x0 = (.ok s0, x))
    {ops : List SheetOp} (hf : ∀ op ∈ ops, op.Fits env) (hr : ∀ op ∈ ops, op.InRange) {table table' : List String}
    (ho : SheetOp.runAll env.build (s0, table) ops = .ok (s, table')) : Saveable env s x := by
  obtain ⟨h1, h2⟩ := runAll_fits ops (load_sorted hl) (load_fits he hl) hf hr ho
  refine ⟨hst, h2, h1, t, a, unmanaged cs, ?_, ?_⟩
  · obtain ⟨_, _, _, rfl⟩ := load_ok hl
    refine ⟨?_, ⟨hx.names.1, hx.names.2.1, ?_⟩, hx.ns, hx.uris⟩
    · unfold XDoc.mapRootChildren; rw [hx.isRoot]; rfl
    · rw [wfNodes_iff]
      intro n hn
      exact wfNodes_iff.mp hx.names.2.2 n (List.mem_filter.mp hn).1
  · intro n hn
    simpa [unmanaged] using (List.mem_filter.mp hn).2

/-- **C32 (partial), whole sessions.** Open a sheet, edit it in any way, save, write the file, read it and open it again: a
cell that was written holds what was last written to it, and all others what they held before, up to the effect of one save and load. -/
theorem C32_partial_session (env : Env) (hst : env.build.release = true → StampOk env.stamp) (he : PrintsF32 env) {x0 x : XDoc} {t : String}
    {a : Option Attrs} {cs : List Node} (hx : WfDoc env.uni x0 (.mk t a none cs)) {s0 s s' : Sheet} (hl : Sheet.load env x0 = (.ok s0, x))
    {ops : List SheetOp} (hf : ∀ op ∈ ops, op.Fits env) (hr : ∀ op ∈ ops, op.InRange) {table table' : List String}
    (ho : SheetOp.runAll env.build (s0, table) ops = .ok (s, table')) (hs : SavedLoaded env s x s') (r c : Nat) :
    match lastWritten r c ops with
    | none => cellAt s' r c = (cellAt s0 r c).map reloadCell
    | some given => ∃ stored, StoredAs table' given stored ∧ cellAt s' r c = some (reloadCell stored) := by
  rw [C32_partial env s s' x (C32_reachable env hst he hx hl hf hr ho) hs]
  obtain ⟨st, h1, _, _, h3⟩ := runAll_spec env.build (s0, table) ops (load_sorted hl) hr
  rw [ho] at h1
  cases h1
  cases hw : lastWritten r c ops with
  | none => simp only; rw [(h3 r c).1 hw]
  | some g =>
    obtain ⟨stored, e1, e2⟩ := (h3 r c).2 g hw
    exact ⟨stored, e2, by rw [e1]; rfl⟩

theorem C32_env_prints : PrintsF32 C32_env := fun _ h => ⟨h, rfl⟩

/-- The worksheet template as loaded. -/
theorem load_template (env : Env) : Sheet.load env worksheetDoc = (.ok emptySheet, bareDoc) := rfl

theorem wf_worksheetDoc (u : Unicode) : WfDoc u worksheetDoc (.mk "worksheet" (some []) none [.mk "sheetData" (some []) none []]) := by
  have h := wf_bareDoc u
  refine ⟨rfl, ?_, h.ns, h.uris⟩
  exact wfNode_attrs (by decide +kernel) rfl (by simp [akeys]) ⟨wfNode_attrs (by decide +kernel) rfl (by simp [akeys]) trivial, trivial⟩

def C32_ops : List SheetOp := [.write 2 2 [{ value := some "x" }], .column 2 none]

/-- The sheet after `C32_ops`. -/
def C32_after : Sheet := { emptySheet with dim := (2, 2), data := some [(2, { cells := some [(2, { value := some "0", type := .shareString })] })] }

example : SheetOp.runAll C32_env.build (emptySheet, []) C32_ops = .ok (C32_after, ["x"]) ∧
    ∃ s', SavedLoaded C32_env C32_after bareDoc s' ∧ (cellAt s' 2 2).map coreOf = some (.shareString, some "0", none, none, none) := by
  have hrun : SheetOp.runAll C32_env.build (emptySheet, []) C32_ops = .ok (C32_after, ["x"]) := by decide +kernel
  refine ⟨hrun, ?_⟩
  obtain ⟨x', hx'⟩ := saved_of_isOk (s := C32_after) (x := bareDoc) (by decide +kernel)
  have hs : Saveable C32_env C32_after bareDoc :=
    C32_reachable C32_env (fun h => by cases h) C32_env_prints (wf_worksheetDoc _) (load_template _) (ops := C32_ops) (by
      intro op hop
      simp only [C32_ops, List.mem_cons, List.not_mem_nil, or_false] at hop
      rcases hop with rfl | rfl
      · refine ⟨by decide, ?_⟩
        intro c hc
        rw [List.mem_singleton] at hc
        subst hc
        exact ⟨by simp, by simp⟩
      · exact ⟨by decide, by simp⟩) (by
      intro op hop
      simp only [C32_ops, List.mem_cons, List.not_mem_nil, or_false] at hop
      rcases hop with rfl | rfl
      · exact ⟨by decide, by decide⟩
      · trivial) hrun
  exact ⟨_, savedLoaded_total hs hx', by decide +kernel⟩

/-! ## C33 -/

/-- The claim of C33. -/
def C33_claim : Prop :=
  ∀ (env : Env) (s s' : Sheet) (x : XDoc), Saveable env s x → SavedLoaded env s x s' → ∀ r, rowPropsAt s' r = rowPropsAt s r

/-- **C33 (partial).** The exact row properties after saving and loading. Missing: flags set to `false` come back as `true`, an
outline level of 0 as none, and special characters in `spans` escaped. -/
theorem C33_partial (env : Env) (s s' : Sheet) (x : XDoc) (h : Saveable env s x) (hs : SavedLoaded env s x s') (r : Nat) :
    rowPropsAt s' r = reloadRowProps (rowPropsAt s r) := by
  rw [savedLoaded_iff h hs]
  unfold rowPropsAt reloadSheet
  cases hd : s.data with
  | none => rfl
  | some d =>
    simp only [Option.map_some]
    rw [aget_map_snd]
    cases aget r d with
    | none => rfl
    | some rd => rfl

theorem flag_iff (o : Option Bool) : o.map (fun _ => true) = o ↔ o ≠ some false := by
  cases o with
  | none => simp
  | some b => cases b <;> simp

/-- **C33 (partial).** A row gets its properties back exactly when no flag is `false`, the outline level is not 0 and the span has
no special characters. -/
theorem C33_partial_same (env : Env) (s s' : Sheet) (x : XDoc) (h : Saveable env s x) (hs : SavedLoaded env s x s') (r : Nat) :
    rowPropsAt s' r = rowPropsAt s r ↔
      (rowPropsAt s r).hidden ≠ some false ∧ (rowPropsAt s r).thickTop ≠ some false ∧ (rowPropsAt s r).thickBottom ≠ some false ∧
      (rowPropsAt s r).groupLevel ≠ some 0 ∧ (rowPropsAt s r).collapsed ≠ some false ∧ (rowPropsAt s r).placeHolder ≠ some false ∧
      ∀ t, (rowPropsAt s r).span = some t → NoSpecials t := by
  rw [C33_partial env s s' x h hs r]
  generalize rowPropsAt s r = p
  cases p with
  | mk a b c d e f g i j =>
    simp only [reloadRowProps, RowProps.mk.injEq, true_and]
    rw [flag_iff, flag_iff, flag_iff, flag_iff, flag_iff, map_attrReload_iff]
    have : (f.bind (fun g => if g > 0 then some g else none) = f) ↔ f ≠ some 0 := by
      cases f with
      | none => simp
      | some n => cases n <;> simp
    rw [this]

/-- A sheet with one row that is explicitly not hidden. -/
def C33_sheet (h : Bool) : Sheet := { emptySheet with data := some [(4, { props := { height := some "20.5", hidden := some h, groupLevel := some 2 } })] }

theorem C33_saveable (b : Bool) : Saveable C32_env (C33_sheet b) bareDoc := by
  refine bare_saveable (fun h => by cases h) (sorted_single rfl ?_) ⟨?_, ?_, ?_⟩
  · intro cs h; cases h
  · intro d hd kv hkv
    cases hd
    rw [List.mem_singleton] at hkv
    subst hkv
    refine ⟨by simp [u32Max], ⟨by simp, by simp [u8Max], ?_⟩, by simp⟩
    intro t ht
    cases ht
    exact ⟨(isFloatText_iff _).mp (by decide +kernel), rfl⟩
  · intro cs h; cases h
  · intro v hv z hz
    have : v = {} := by simpa [C33_sheet, emptySheet] using hv
    subst this
    rcases hz with h | h | h | h <;> cases h

theorem C33_saved (b : Bool) : SavedLoaded C32_env (C33_sheet b) bareDoc (reloadSheet (C33_sheet b)) := by
  obtain ⟨x', hx'⟩ := saved_of_isOk (s := C33_sheet b) (x := bareDoc) (by cases b <;> decide +kernel)
  exact savedLoaded_total (C33_saveable b) hx'

/-- **C33** is false: a row set to be not hidden comes back hidden. -/
theorem C33_violated : ¬ C33_claim := by
  intro hc
  have := hc C32_env _ _ bareDoc (C33_saveable false) (C33_saved false) 4
  revert this
  decide +kernel

example : ∃ s', SavedLoaded C32_env (C33_sheet true) bareDoc s' ∧ rowPropsAt s' 4 = { height := some "20.5", hidden := some true, groupLevel := some 2 } :=
  ⟨_, C33_saved true, by decide +kernel⟩

/-! ## C34 -/

/-- The claim of C34. -/
def C34_claim : Prop :=
  ∀ (s : Sheet) (c : Nat) (p : ColProps),
    columnAt (s.setColumn c (some p)) c = [{ p with min := 0, max := 0 }] ∧
    ∀ c', c' ≠ c → columnAt (s.setColumn c (some p)) c' = columnAt s c'

/-- **C34** is false: in a sheet without column settings nothing is set. -/
theorem C34_violated : ¬ C34_claim := by
  intro hc
  have := (hc emptySheet 2 { width := some "20" }).1
  revert this
  decide +kernel

/-- A range of hidden columns. -/
def C34_sheet : Sheet := { emptySheet with cols := some [{ min := 2, max := 6, hidden := some true }] }

/-- **C34** is also false inside a range: the columns to the right of the one set lose their properties. -/
theorem C34_violated_range : ∃ s c c' p, c' ≠ c ∧ columnAt (s.setColumn c (some p)) c' ≠ columnAt s c' :=
  ⟨C34_sheet, 4, 6, { width := some "20" }, by decide, by decide +kernel⟩

/-- The column settings remembered for a range without its bounds. -/
def unbounded (r : ColProps) : ColProps := { r with min := 0, max := 0 }

theorem columnAt_eq (s : Sheet) (c : Nat) : columnAt s c = ((s.cols.getD []).filter (fun r => r.min ≤ c ∧ c ≤ r.max)).map unbounded := rfl

theorem split_other (r : ColProps) {c c' : Nat} (hc : c' ≠ c) (hin : ¬ (r.min < c ∧ c < r.max)) :
    ((splitCol c r).1.filter (fun r => r.min ≤ c' ∧ c' ≤ r.max)).map unbounded = ([r].filter (fun r => r.min ≤ c' ∧ c' ≤ r.max)).map unbounded ∧
    (splitCol c r).2 = [] := by
  unfold splitCol
  split
  · rename_i h
    refine ⟨?_, rfl⟩
    have : ¬ (r.min ≤ c' ∧ c' ≤ r.max) := by omega
    simp [this]
  · split
    · split
      · rename_i h1 h2 h3
        refine ⟨?_, rfl⟩
        have : (c + 1 ≤ c' ∧ c' ≤ r.max) ↔ (r.min ≤ c' ∧ c' ≤ r.max) := by omega
        by_cases hx : r.min ≤ c' ∧ c' ≤ r.max
        · simp [List.filter_cons, hx, this.mpr hx, unbounded]
        · simp only [List.filter_cons, List.filter_nil, decide_eq_true_eq]
          rw [if_neg hx, if_neg (by simpa using fun h1 h2 => hx (this.mp ⟨h1, h2⟩))]
      · split
        · rename_i h1 h2 h3 h4
          refine ⟨?_, rfl⟩
          have : (r.min ≤ c' ∧ c' ≤ c - 1) ↔ (r.min ≤ c' ∧ c' ≤ r.max) := by omega
          by_cases hx : r.min ≤ c' ∧ c' ≤ r.max
          · simp only [List.filter_cons, List.filter_nil, decide_eq_true_eq]
            rw [if_pos hx, if_pos (this.mpr hx)]; rfl
          · simp only [List.filter_cons, List.filter_nil, decide_eq_true_eq]
            rw [if_neg hx, if_neg (fun h => hx (this.mp h))]
        · omega
    · exact ⟨rfl, rfl⟩

theorem split_self (r : ColProps) (c : Nat) (x : ColProps) (hx : x ∈ (splitCol c r).1 ++ (splitCol c r).2) : ¬ (x.min ≤ c ∧ c ≤ x.max) := by
  unfold splitCol at hx
  split at hx
  · simp at hx
  · rename_i h0
    split at hx
    · rename_i h1
      split at hx
      · simp at hx; subst hx; simp only; omega
      · split at hx
        · simp at hx; subst hx; simp only; omega
        · simp at hx
          rcases hx with rfl | rfl <;> simp only <;> omega
    · simp at hx; subst hx; assumption

/-- **C34 (partial).** In a sheet that has column settings, the column set has exactly the given properties, or none after
removal; and if it was not strictly inside a range, every other column keeps its properties. Missing: sheets without column
settings, and columns inside a range (`C34_partial_inside`). -/
theorem C34_partial (s : Sheet) (cs : List ColProps) (hcols : s.cols = some cs) (c : Nat) (p : Option ColProps) :
    columnAt (s.setColumn c p) c = (p.map (fun p => { p with min := 0, max := 0 })).toList ∧
    ((∀ r ∈ cs, ¬ (r.min < c ∧ c < r.max)) → ∀ c', c' ≠ c → columnAt (s.setColumn c p) c' = columnAt s c') := by
  have e : (s.setColumn c p).cols = some (cs.flatMap (fun r => (splitCol c r).1) ++
        (match p with | none => [] | some p => [{ p with min := c, max := c }]) ++ cs.flatMap (fun r => (splitCol c r).2)) := by
    unfold Sheet.setColumn; rw [hcols]
    cases p <;> rfl
  constructor
  · rw [columnAt_eq, e]
    simp only [Option.getD_some, List.filter_append, List.map_append]
    have h1 : (cs.flatMap (fun r => (splitCol c r).1)).filter (fun r => r.min ≤ c ∧ c ≤ r.max) = [] := by
      rw [List.filter_eq_nil_iff]
      intro x hx
      obtain ⟨r, _, hr⟩ := List.mem_flatMap.mp hx
      have := split_self r c x (List.mem_append_left _ hr)
      simpa using this
    have h2 : (cs.flatMap (fun r => (splitCol c r).2)).filter (fun r => r.min ≤ c ∧ c ≤ r.max) = [] := by
      rw [List.filter_eq_nil_iff]
      intro x hx
      obtain ⟨r, _, hr⟩ := List.mem_flatMap.mp hx
      have := split_self r c x (List.mem_append_right _ hr)
      simpa using this
    rw [h1, h2]
    cases p with
    | none => rfl
    | some p => simp [List.filter_cons, unbounded]
  · intro hin c' hc'
    rw [columnAt_eq, columnAt_eq, e, hcols]
    simp only [Option.getD_some, List.filter_append, List.map_append]
    have h2 : cs.flatMap (fun r => (splitCol c r).2) = [] := by
      rw [List.flatMap_eq_nil_iff]
      intro r hr
      exact (split_other r hc' (hin r hr)).2
    have h1 : ((cs.flatMap (fun r => (splitCol c r).1)).filter (fun r => r.min ≤ c' ∧ c' ≤ r.max)).map unbounded =
        (cs.filter (fun r => r.min ≤ c' ∧ c' ≤ r.max)).map unbounded := by
      clear e hcols h2
      induction cs with
      | nil => rfl
      | cons r cs ih =>
        rw [List.flatMap_cons, List.filter_append, List.map_append, ih (fun x hx => hin x (by simp [hx])),
          (split_other r hc' (hin r (by simp))).1, ← List.map_append, ← List.filter_append]
        rfl
    rw [h1, h2]
    cases p with
    | none => simp
    | some p =>
      have : ¬ (c ≤ c' ∧ c' ≤ c) := by omega
      simp only [List.filter_cons, List.filter_nil, decide_eq_true_eq]
      rw [if_neg this]
      simp

example : (C34_sheet.cols = some [{ min := 2, max := 6, hidden := some true }]) ∧
    columnAt (C34_sheet.setColumn 2 (some { width := some "20" })) 2 = [{ min := 0, max := 0, width := some "20" }] ∧
    columnAt (C34_sheet.setColumn 2 (some { width := some "20" })) 5 = [{ min := 0, max := 0, hidden := some true }] := by decide +kernel

/-! ## C35 -/

/-- The claim of C35. -/
def C35_claim : Prop :=
  ∀ (env : Env) (s s' : Sheet) (x : XDoc), Saveable env s x → SavedLoaded env s x s' → ∀ c, columnAt s' c = columnAt s c

/-- **C35 (partial).** The exact column properties after saving and loading. Missing: the outline level and `collapsed` are lost,
flags set to `false` come back as `true`. -/
theorem C35_partial (env : Env) (s s' : Sheet) (x : XDoc) (h : Saveable env s x) (hs : SavedLoaded env s x s') (c : Nat) :
    columnAt s' c = (columnAt s c).map reloadCol := by
  rw [savedLoaded_iff h hs]
  have e : (reloadSheet s).cols.getD [] = (s.cols.getD []).map reloadCol := by
    unfold reloadSheet
    cases s.cols with
    | none => rfl
    | some l => cases l <;> rfl
  rw [columnAt_eq, columnAt_eq, e, List.filter_map, List.map_map, List.map_map]
  rfl

/-- **C35 (partial).** A range comes back unchanged exactly when it has no outline level, no `collapsed` flag and no flag set to
`false`. -/
theorem C35_partial_same (r : ColProps) :
    reloadCol r = r ↔ r.groupLevel = 0 ∧ r.collapsed = none ∧ r.hidden ≠ some false ∧ r.bestFit ≠ some false := by
  cases r with
  | mk a b c d e f g h =>
    simp only [reloadCol, ColProps.mk.injEq, true_and]
    rw [flag_iff, flag_iff]
    constructor
    · rintro ⟨h1, h2, h3, h4⟩; exact ⟨h3.symm, h4.symm, h1, h2⟩
    · rintro ⟨h1, h2, h3, h4⟩; exact ⟨h3, h4, h1.symm, h2.symm⟩

/-- A collapsed group of columns. -/
def C35_sheet (level : Nat) : Sheet := { emptySheet with cols := some [{ min := 2, max := 6, width := some "9", hidden := some true, groupLevel := level }] }

theorem C35_saveable (level : Nat) : Saveable C32_env (C35_sheet level) bareDoc := by
  refine bare_saveable (fun h => by cases h) ?_ ⟨?_, ?_, ?_⟩
  · intro d hd; cases hd; exact ⟨by simp [SortedKeys, akeys], by simp [aget]⟩
  · intro d hd; cases hd; simp
  · intro cs hcs c hc
    cases hcs
    rw [List.mem_singleton] at hc
    subst hc
    refine ⟨by simp [u16Max], by simp [u16Max], by simp, ?_⟩
    intro t ht
    cases ht
    exact ⟨(isFloatText_iff _).mp (by decide +kernel), rfl⟩
  · intro v hv z hz
    have : v = {} := by simpa [C35_sheet, emptySheet] using hv
    subst this
    rcases hz with h | h | h | h <;> cases h

theorem C35_saved (level : Nat) (h : ((C35_sheet level).save bareDoc).isOk = true) :
    SavedLoaded C32_env (C35_sheet level) bareDoc (reloadSheet (C35_sheet level)) := by
  obtain ⟨x', hx'⟩ := saved_of_isOk h
  exact savedLoaded_total (C35_saveable level) hx'

/-- **C35** is false: outline levels are lost. -/
theorem C35_violated : ¬ C35_claim := by
  intro hc
  have := hc C32_env _ _ bareDoc (C35_saveable 1) (C35_saved 1 (by decide +kernel)) 3
  revert this
  decide +kernel

example : ∃ s', SavedLoaded C32_env (C35_sheet 0) bareDoc s' ∧ columnAt s' 3 = [{ min := 0, max := 0, width := some "9", hidden := some true }] :=
  ⟨_, C35_saved 0 (by decide +kernel), by decide +kernel⟩

/-! ## C36 -/

/-- The claim of C36: opening a sheet and closing it again leaves its views unchanged. -/
def C36_claim : Prop :=
  ∀ (env : Env) (s s' : Sheet) (x : XDoc), Saveable env s x → SavedLoaded env s x s' → s'.views = s.views

/-- **C36 (partial).** The exact views after saving and loading: a new default view, and then the old ones in reverse order. -/
theorem C36_partial (env : Env) (s s' : Sheet) (x : XDoc) (h : Saveable env s x) (hs : SavedLoaded env s x s') :
    s'.views = {} :: s.views.reverse.map reloadView := by
  rw [savedLoaded_iff h hs]; rfl

/-- **C36** fails for every sheet: each open and close adds a view. -/
theorem C36_violated_always (env : Env) (s s' : Sheet) (x : XDoc) (h : Saveable env s x) (hs : SavedLoaded env s x s') :
    s'.views.length = s.views.length + 1 := by
  rw [C36_partial env s s' x h hs]
  simp

/-- **C36** is false. -/
theorem C36_violated : ¬ C36_claim := by
  intro hc
  have h1 := hc _ _ _ _ C32_good_saveable (by
    obtain ⟨x', hx'⟩ := saved_of_isOk (s := C32_good) (x := bareDoc) (by decide +kernel)
    exact savedLoaded_total C32_good_saveable hx')
  revert h1
  decide +kernel

/-! ## C37 -/

/-- The claim of C37, for a worksheet whose other children are in schema order before. -/
def C37_claim : Prop :=
  ∀ (s : Sheet) (x x' : XDoc), (∀ n ∈ x.rootChildren, n.tag ∉ managedTags) → InSchemaOrder x.rootChildren → s.save x = .ok x' →
    unmanaged x'.rootChildren = x.rootChildren ∧ InSchemaOrder x'.rootChildren

/-- A worksheet with a protection setting and merged cells. -/
def C37_doc : XDoc := { ns := [], root := some (.mk "worksheet" none none [.mk "sheetProtection" (some [("sheet", "1")]) none [], .mk "mergeCells" none none []]) }

instance (cs : List Node) : Decidable (InSchemaOrder cs) := by unfold InSchemaOrder; infer_instance

/-- **C37** is false: sheet protection is moved behind everything else. -/
theorem C37_violated : ¬ C37_claim := by
  intro hc
  obtain ⟨x', hx'⟩ := saved_of_isOk (s := emptySheet) (x := C37_doc) (by decide +kernel)
  have h := (hc emptySheet C37_doc x' (by decide +kernel) (by decide +kernel) hx').1
  have : (emptySheet.save C37_doc).map (fun x' => unmanaged x'.rootChildren) = .ok C37_doc.rootChildren := by
    rw [hx']; exact congrArg Except.ok h
  revert this
  decide +kernel

theorem sorted_lists_eq {α : Type} (key : α → Nat) {l l' : List α} (h1 : l.Pairwise (fun a b => key a ≤ key b))
    (h2 : l'.Pairwise (fun a b => key a ≤ key b)) (hf : ∀ k, l.filter (fun a => key a = k) = l'.filter (fun a => key a = k)) : l = l' := by
  induction l generalizing l' with
  | nil =>
    cases l' with
    | nil => rfl
    | cons b l' =>
      have := hf (key b)
      simp [List.filter_cons] at this
  | cons a l ih =>
    cases l' with
    | nil =>
      have := hf (key a)
      simp [List.filter_cons] at this
    | cons b l' =>
      have hab : key a = key b := by
        have ha : a ∈ b :: l' := by
          have : a ∈ (b :: l').filter (fun x => key x = key a) := by rw [← hf]; simp
          exact (List.mem_filter.mp this).1
        have hb : b ∈ a :: l := by
          have : b ∈ (a :: l).filter (fun x => key x = key b) := by rw [hf]; simp
          exact (List.mem_filter.mp this).1
        have l1 : key b ≤ key a := by
          rcases List.mem_cons.mp ha with h | h
          · rw [h]; exact Nat.le_refl _
          · exact (List.pairwise_cons.mp h2).1 a h
        have l2 : key a ≤ key b := by
          rcases List.mem_cons.mp hb with h | h
          · rw [h]; exact Nat.le_refl _
          · exact (List.pairwise_cons.mp h1).1 b h
        omega
      have e := hf (key a)
      rw [List.filter_cons, List.filter_cons, if_pos (by simp), if_pos (by simp [hab])] at e
      have e1 := (List.cons.inj e).1
      subst e1
      congr 1
      refine ih (List.pairwise_cons.mp h1).2 (List.pairwise_cons.mp h2).2 ?_
      intro k
      have := hf k
      rw [List.filter_cons, List.filter_cons] at this
      split at this
      · exact (List.cons.inj this).2
      · exact this

/-- The order the library uses agrees with the schema on the tags it knows. -/
theorem order_agrees : ∀ a ∈ worksheetOrder, ∀ b ∈ worksheetOrder, worksheetOrder.idxOf a ≤ worksheetOrder.idxOf b ↔ schemaOrder.idxOf a ≤ schemaOrder.idxOf b := by
  decide +kernel

theorem schema_inj : ∀ a ∈ worksheetOrder, ∀ b ∈ worksheetOrder, schemaOrder.idxOf a = schemaOrder.idxOf b → a = b := by
  decide +kernel

/-- **C37 (partial).** Saving keeps every child the library does not manage, with its content, and children with the same tag in
their order; and when all children have tags the library knows, the result is in schema order, and children already in schema
order keep their order. Missing: `sheetProtection`, `legacyDrawing` and `legacyDrawingHF`, which the library does not know. -/
theorem C37_partial (s : Sheet) (x x' : XDoc) (hc : ∀ n ∈ x.rootChildren, n.tag ∉ managedTags) (h : s.save x = .ok x') :
    (unmanaged x'.rootChildren).Perm x.rootChildren ∧
    (∀ tag, (unmanaged x'.rootChildren).filter (fun n => n.tag = tag) = x.rootChildren.filter (fun n => n.tag = tag)) ∧
    ((∀ n ∈ x.rootChildren, n.tag ∈ worksheetOrder) →
      InSchemaOrder x'.rootChildren ∧ (InSchemaOrder x.rootChildren → unmanaged x'.rootChildren = x.rootChildren)) := by
  obtain ⟨ref, root, rows, h1, h2, h3, rfl⟩ := save_ok h
  rw [rootChildren_mapRoot h2]
  have hf : (placedParts ref s.cols s.views rows x.rootChildren).filter (fun n => n.tag ∉ managedTags) = x.rootChildren := by
    rw [placedParts_unmanaged _ _ _ _ _ _ (fun n hn => by simp [hn])]
    exact List.filter_eq_self.mpr (fun n hn => by simpa using hc n hn)
  rw [placeSheetParts_eq]
  obtain ⟨o1, o2, o3⟩ := C12_order_children Node.tag worksheetOrder (placedParts ref s.cols s.views rows x.rootChildren)
    (by decide +kernel) (by decide)
  have hper : (unmanaged (orderChildren Node.tag worksheetOrder (placedParts ref s.cols s.views rows x.rootChildren))).Perm x.rootChildren := by
    have := o1.filter (fun n => n.tag ∉ managedTags)
    rw [hf] at this
    exact this
  have htag : ∀ tag, (unmanaged (orderChildren Node.tag worksheetOrder (placedParts ref s.cols s.views rows x.rootChildren))).filter
      (fun n => n.tag = tag) = x.rootChildren.filter (fun n => n.tag = tag) := by
    intro tag
    unfold unmanaged
    rw [List.filter_filter]
    have : ∀ l : List Node, l.filter (fun n => decide (n.tag = tag) && decide (n.tag ∉ managedTags)) =
        (l.filter (fun n => n.tag = tag)).filter (fun n => n.tag ∉ managedTags) := by
      intro l; rw [List.filter_filter]
      apply List.filter_congr
      intro n _
      exact Bool.and_comm _ _
    rw [this, o3 tag, ← this, ← List.filter_filter, hf]
  refine ⟨hper, htag, ?_⟩
  intro hk
  have hall : ∀ n ∈ orderChildren Node.tag worksheetOrder (placedParts ref s.cols s.views rows x.rootChildren), n.tag ∈ worksheetOrder := by
    intro n hn
    by_cases hm : n.tag ∈ managedTags
    · revert hm
      generalize n.tag = t
      intro hm
      simp only [managedTags, List.mem_cons, List.not_mem_nil, or_false] at hm
      rcases hm with rfl | rfl | rfl | rfl <;> decide
    · exact hk n (hper.mem_iff.mp (List.mem_filter.mpr ⟨hn, by simpa using hm⟩))
  have hsch : InSchemaOrder (orderChildren Node.tag worksheetOrder (placedParts ref s.cols s.views rows x.rootChildren)) := by
    refine List.Pairwise.imp_of_mem ?_ o2
    intro a b ha hb hab
    exact (order_agrees _ (hall a ha) _ (hall b hb)).mp hab
  refine ⟨hsch, ?_⟩
  intro hin
  have hsch' : InSchemaOrder (unmanaged (orderChildren Node.tag worksheetOrder (placedParts ref s.cols s.views rows x.rootChildren))) :=
    List.Pairwise.sublist List.filter_sublist hsch
  apply sorted_lists_eq (fun n : Node => schemaOrder.idxOf n.tag) hsch' hin
  intro k
  by_cases hex : ∃ n ∈ x.rootChildren, schemaOrder.idxOf n.tag = k
  · obtain ⟨n0, hn0, hk0⟩ := hex
    have conv : ∀ l : List Node, (∀ n ∈ l, n.tag ∈ worksheetOrder) →
        l.filter (fun n => schemaOrder.idxOf n.tag = k) = l.filter (fun n => n.tag = n0.tag) := by
      intro l hl
      apply List.filter_congr
      intro n hn
      apply decide_eq_decide.mpr
      constructor
      · intro he; exact schema_inj _ (hl n hn) _ (hk n0 hn0) (he.trans hk0.symm)
      · intro he; rw [he]; exact hk0
    rw [conv _ hk, conv _ (fun n hn => hk n (hper.mem_iff.mp hn)), htag]
  · have no : ∀ l : List Node, (∀ n ∈ l, n ∈ x.rootChildren) → l.filter (fun n => schemaOrder.idxOf n.tag = k) = [] := by
      intro l hl
      rw [List.filter_eq_nil_iff]
      intro n hn
      simp only [decide_eq_true_eq]
      intro he
      exact hex ⟨n, hl n hn, he⟩
    rw [no _ (fun n hn => hper.mem_iff.mp hn), no _ (fun _ h => h)]

/-- **C37 (partial), open and close.** What loading takes out of the document is exactly the managed children, so C37 applies to
every sheet that was opened. -/
theorem C37_partial_open (env : Env) (s : Sheet) (x0 x : XDoc) (h : Sheet.load env x0 = (.ok s, x)) :
    x.rootChildren = unmanaged x0.rootChildren ∧ ∀ n ∈ x.rootChildren, n.tag ∉ managedTags := load_unmanaged h

/-- A worksheet with merged cells, page margins and a drawing. -/
def C37_good : XDoc :=
  { ns := [], root := some (.mk "worksheet" none none [.mk "sheetFormatPr" (some [("baseColWidth", "10")]) none [], .mk "mergeCells" none none
    [.mk "mergeCell" (some [("ref", "A1:B2")]) none []], .mk "pageMargins" none none [], .mk "drawing" none none []]) }

example : (∀ n ∈ C37_good.rootChildren, n.tag ∉ managedTags) ∧ (∀ n ∈ C37_good.rootChildren, n.tag ∈ worksheetOrder) ∧
    InSchemaOrder C37_good.rootChildren ∧
    (emptySheet.save C37_good).map (fun x => x.rootChildren.map Node.tag) =
      .ok ["dimension", "sheetViews", "sheetFormatPr", "sheetData", "mergeCells", "pageMargins", "drawing"] := by
  decide +kernel

/-! ## C30 and C31 for sheets loaded from a file -/

/-- The hypotheses of C31 and C30 hold for every sheet loaded from a file, C30's when the file has no two rows with the same number. -/
theorem C31_loaded (env : Env) (x0 x : XDoc) (s : Sheet) (h : Sheet.load env x0 = (.ok s, x)) :
    SortedSheet s ∧ (∀ n ∈ x.rootChildren, n.tag ∉ managedTags) ∧ ((fileRows env x0).Nodup → DimOf s) :=
  ⟨load_sorted h, (load_unmanaged h).2, load_dimOf h⟩

/-- A file with two rows. -/
def C31_file : XDoc :=
  { ns := [], root := some (.mk "worksheet" none none [.mk "sheetData" none none
    [.mk "row" (some [("r", "2")]) none [.mk "c" (some [("r", "C2")]) none [.mk "v" none (some "5") []]], .mk "row" (some [("r", "4")]) none []]]) }

example : ((Sheet.load C32_env C31_file).1.toOption.map Sheet.dim = some (3, 3)) ∧ fileRows C32_env C31_file = [2, 4] := by decide +kernel

example : (Sheet.load C32_env C31_file).1.toOption.map (fun s => (cellAt s 2 3).map CellProps.value) = some (some (some "5")) := by decide +kernel

end Oxml
