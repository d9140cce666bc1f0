import Verif.Proofs.WorksheetSave
import Verif.Props.Conversions
/-!
# C27–C31, C61: sheets as cell maps
-/
namespace Oxml
open Spec

/-! ## C27 -/

/-- **C27.** After any history of row writes (in columns 1..65535), row property and column changes, a cell that was written
holds the cell last written to it, typed as C29 says, and a cell never written is unchanged. No operation fails. -/
theorem C27_last_write_wins (b : Build) (s : Sheet) (table : List String) (ops : List SheetOp) (hs : SortedSheet s)
    (hr : ∀ op ∈ ops, op.InRange) :
    ∃ s' table', SheetOp.runAll b (s, table) ops = .ok (s', table') ∧ SortedSheet s' ∧
      ∀ r c, match lastWritten r c ops with
        | none => cellAt s' r c = cellAt s r c
        | some given => ∃ stored, cellAt s' r c = some stored ∧ StoredAs table' given stored := by
  obtain ⟨⟨s', t'⟩, h1, h2, _, h3⟩ := runAll_spec b (s, table) ops hs hr
  refine ⟨s', t', h1, h2, ?_⟩
  intro r c
  cases hl : lastWritten r c ops with
  | none => exact (h3 r c).1 hl
  | some g => exact (h3 r c).2 g hl

/-- Two overlapping writes and a row property change on a sheet loaded with one cell. -/
def C27_ops : List SheetOp :=
  [.write 3 2 [{ value := some "1.5" }, { value := some "x" }, { value := some "true" }], .rowProps 3 { hidden := some true },
   .write 3 3 [{ value := some "y", formula := some "A1" }]]

def C27_sheet : Sheet := { emptySheet with data := some [(3, { cells := some [(9, { value := some "7", type := .number })] })] }

theorem C27_sheet_sorted : SortedSheet C27_sheet := by
  intro d hd
  simp only [C27_sheet, Option.some.injEq] at hd
  subst hd
  refine ⟨by simp [SortedKeys, akeys], ?_⟩
  intro r rd cs h1 h2
  simp only [aget] at h1
  split at h1
  · cases h1; cases h2; simp [SortedKeys, akeys]
  · cases h1

example : SortedSheet C27_sheet ∧ (∀ op ∈ C27_ops, op.InRange) ∧
    (SheetOp.runAll ⟨false⟩ (C27_sheet, ["a"]) C27_ops).map (fun st =>
      [2, 3, 4, 9].map (fun c => (cellAt st.1 3 c).map (fun x => (x.type, x.value)))) =
      .ok [some (.number, some "1.5"), some (.shareString, some "2"), some (.boolean, some "1"), some (.number, some "7")] := by
  refine ⟨C27_sheet_sorted, ?_, by decide +kernel⟩
  intro op hop
  simp only [C27_ops, List.mem_cons, List.not_mem_nil, or_false] at hop
  rcases hop with rfl | rfl | rfl <;> simp [SheetOp.InRange]

/-- **C27.** Addressing by reference is addressing by number. -/
theorem C27_by_reference (b : Build) (u : Unicode) (s : Sheet) (table : List String) (row col : Nat) (cells : List CellProps)
    (hr : row ≤ u32Max) (h1 : 1 ≤ col) (h2 : col ≤ 65535) :
    ∃ name, getColumnRef col = .ok name ∧ s.setRowRef b u table (name ++ toString row) cells = s.setRow b table row col cells := by
  obtain ⟨name, hn, hi⟩ := C04_cell_ref_roundtrip b u row col hr h1 h2
  exact ⟨name, hn, by unfold Sheet.setRowRef; rw [hi]⟩

example : (3 : Nat) ≤ u32Max ∧ getColumnRef 28 = .ok "AB" ∧
    C27_sheet.setRowRef ⟨false⟩ ⟨fun _ => false⟩ [] ("AB" ++ toString 3) [{}] = C27_sheet.setRow ⟨false⟩ [] 3 28 [{}] := by decide +kernel

/-! ## C28 -/

/-- **C28.** The properties of a row are those last set for it, whatever was written, and cells are unaffected by row
properties: the whole history can be replayed without its row property operations. -/
theorem C28_independent (b : Build) (s s' : Sheet) (table table' : List String) (ops : List SheetOp) (hs : SortedSheet s)
    (h : SheetOp.runAll b (s, table) ops = .ok (s', table')) :
    (∀ r, rowPropsAt s' r = (lastProps r ops).getD (rowPropsAt s r)) ∧
    ∃ s'', SheetOp.runAll b (s, table) (ops.filter (fun op => match op with | .rowProps _ _ => false | _ => true)) = .ok (s'', table') ∧
      ∀ r c, cellAt s' r c = cellAt s'' r c := by
  refine ⟨fun r => (runAll_props b (s, table) (s', table') ops hs h r).2, ?_⟩
  -- replay on sheets that agree on cells
  suffices H : ∀ (ops : List SheetOp) (s1 s2 : Sheet) (t : List String), SortedSheet s1 → SortedSheet s2 →
      (∀ r c, cellAt s1 r c = cellAt s2 r c) → ∀ s' t', SheetOp.runAll b (s1, t) ops = .ok (s', t') →
      ∃ s'', SheetOp.runAll b (s2, t) (ops.filter (fun op => match op with | .rowProps _ _ => false | _ => true)) = .ok (s'', t') ∧
        ∀ r c, cellAt s' r c = cellAt s'' r c from H ops s s table hs hs (fun _ _ => rfl) s' table' h
  clear h hs s table s' table' ops
  intro ops
  induction ops with
  | nil =>
    intro s1 s2 t _ _ he s' t' h
    cases h
    exact ⟨s2, rfl, he⟩
  | cons op ops ih =>
    intro s1 s2 t hs1 hs2 he s' t' h
    rw [SheetOp.runAll] at h
    cases op with
    | rowProps row p =>
      simp only [SheetOp.run] at h
      rw [List.filter_cons_of_neg (by simp)]
      exact ih _ _ _ (sorted_setRowProps s1 hs1 row p) hs2 (fun r c => by rw [cellAt_setRowProps _ hs1]; exact he r c) _ _ h
    | column col p =>
      simp only [SheetOp.run] at h
      rw [List.filter_cons_of_pos (by simp), SheetOp.runAll]
      simp only [SheetOp.run]
      exact ih _ _ _ (SortedSheet.of_data hs1 (setColumn_data s1 col p).1) (SortedSheet.of_data hs2 (setColumn_data s2 col p).1)
        (fun r c => by rw [cellAt_of_data (setColumn_data s1 col p).1, cellAt_of_data (setColumn_data s2 col p).1]; exact he r c) _ _ h
    | write row col cells =>
      rw [List.filter_cons_of_pos (by simp), SheetOp.runAll]
      simp only [SheetOp.run, Sheet.setRow] at h ⊢
      cases hc : subU16 b col 1 with
      | error e => rw [hc] at h; cases h
      | ok c0 =>
        rw [hc] at h
        simp only at h ⊢
        cases hp : placeCells b c0 (typeCells t cells).1 with
        | error e => rw [hp] at h; cases h
        | ok placed =>
          rw [hp] at h
          simp only at h ⊢
          refine ih _ _ _ (sorted_put s1 hs1 row placed _) (sorted_put s2 hs2 row placed _) ?_ _ _ h
          intro r c
          exact cellAt_put_congr hs1 hs2 he row placed _ _ r c

example : SortedSheet C27_sheet ∧ (SheetOp.runAll ⟨false⟩ (C27_sheet, ["a"]) C27_ops).map (fun st => (rowPropsAt st.1 3, rowPropsAt st.1 4)) =
    .ok ({ hidden := some true }, {}) ∧ lastProps 3 C27_ops = some { hidden := some true } :=
  ⟨C27_sheet_sorted, by decide +kernel, by decide +kernel⟩

/-- **C28.** An operation on one row never touches another row. -/
theorem C28_other_rows (b : Build) (s s' : Sheet) (table table' : List String) (op : SheetOp) (hs : SortedSheet s)
    (h : op.run b (s, table) = .ok (s', table')) (r : Nat)
    (hr : match op with | .write row _ _ => r ≠ row | .rowProps row _ => r ≠ row | .column _ _ => True) :
    rowPropsAt s' r = rowPropsAt s r ∧ ∀ c, cellAt s' r c = cellAt s r c := by
  cases op with
  | rowProps row p =>
    cases h
    exact ⟨by rw [rowPropsAt_setRowProps _ hs, if_neg (Ne.symm hr)], fun c => cellAt_setRowProps _ hs _ _ _ _⟩
  | column col p =>
    cases h
    exact ⟨rowPropsAt_of_data (setColumn_data _ _ _).1 _, fun c => cellAt_of_data (setColumn_data _ _ _).1 _ _⟩
  | write row col cells =>
    simp only [SheetOp.run, Sheet.setRow] at h
    split at h
    · cases h
    · split at h
      · cases h
      · cases h
        exact ⟨rowPropsAt_put _ hs _ _ _ _, fun c => cellAt_put_other hs _ _ _ (Ne.symm hr) c⟩

example : SortedSheet C27_sheet ∧ ∃ st, SheetOp.run ⟨false⟩ (C27_sheet, []) (.write 5 1 [{}]) = .ok st ∧ (3 : Nat) ≠ 5 ∧
    cellAt st.1 3 9 = some { value := some "7", type := .number } := ⟨C27_sheet_sorted, _, rfl, by decide, by decide +kernel⟩

/-! ## C29 -/

/-- **C29.** A value written with automatic typing becomes a number exactly when it is a Rust float literal, a boolean
exactly when it is `true` or `false`, and otherwise a shared string whose id denotes it. -/
theorem C29_automatic (b : Build) (s : Sheet) (table : List String) (row col : Nat) (cells : List CellProps) (hs : SortedSheet s)
    (h1 : 1 ≤ col) (h2 : col + cells.length ≤ 65536) (i : Nat) (c : CellProps) (v : String) (hc : cells[i]? = some c)
    (ht : c.type = .auto) (hv : c.value = some v) :
    ∃ s' table' stored, s.setRow b table row col cells = .ok (s', table') ∧ cellAt s' row (col + i) = some stored ∧
      (stored.type = .number ↔ FloatText v.toList) ∧ (stored.type = .boolean ↔ v = "true" ∨ v = "false") ∧
      (stored.type = .shareString ↔ ¬ FloatText v.toList ∧ v ≠ "true" ∧ v ≠ "false") ∧
      stored.value = some (match stored.type with
        | .boolean => if v = "true" then "1" else "0"
        | .shareString => stored.value.getD ""
        | _ => v) ∧
      (stored.type = .shareString → ∃ t, stored.value = some t ∧ IndexOf table' t v) ∧
      stored.formula = c.formula ∧ stored.style = c.style ∧ stored.metadata = c.metadata := by
  obtain ⟨⟨s', t'⟩, hrun, _, _, hw⟩ := run_spec b (s, table) (.write row col cells) hs ⟨h1, h2⟩
  have hwr : (SheetOp.write row col cells).written row (col + i) = some c := by
    simp only [SheetOp.written]
    rw [if_pos ⟨trivial, by omega⟩, Nat.add_sub_cancel_left]; exact hc
  obtain ⟨st, hst, hsa⟩ := (hw row (col + i)).2 c hwr
  refine ⟨s', t', st, hrun, hst, ?_⟩
  obtain ⟨e1, e2, e3, _, _, _, e7⟩ := hsa
  rw [hv, ht] at e7
  have ftrue : ¬ FloatText "true".toList := fun h => by
    have := (isFloatText_iff "true").mpr h
    revert this; decide +kernel
  have ffalse : ¬ FloatText "false".toList := fun h => by
    have := (isFloatText_iff "false").mpr h
    revert this; decide +kernel
  rcases e7 with ⟨hf, e4, e5⟩ | ⟨rfl, e4, e5⟩ | ⟨rfl, e4, e5⟩ | ⟨hf, n1, n2, e4, t, e5, e6⟩
  · have n1 : v ≠ "true" := by rintro rfl; exact ftrue hf
    have n2 : v ≠ "false" := by rintro rfl; exact ffalse hf
    simp [e4, e5, hf, n1, n2, e1, e2, e3]
  · simp [e4, e5, ftrue, e1, e2, e3, -String.reduceToList]
  · simp [e4, e5, ffalse, e1, e2, e3, -String.reduceToList]
  · simp [e4, e5, hf, n1, n2, e1, e2, e3, e6]

example : SortedSheet C27_sheet ∧ ([{ value := some "-.5E3" }, { value := some "nan" }, { value := some "1e" }] : List CellProps)[0]? =
      some { value := some "-.5E3" } ∧
    (C27_sheet.setRow ⟨false⟩ [] 1 1 [{ value := some "-.5E3" }, { value := some "nan" }, { value := some "1e" }]).map (fun st =>
      [1, 2, 3].map (fun c => (cellAt st.1 1 c).map CellProps.type)) = .ok [some .number, some .number, some .shareString] :=
  ⟨C27_sheet_sorted, by decide, by decide +kernel⟩

/-- **C29.** With an explicit type the type is kept; a shared string is stored by an id that denotes it, a boolean as
`0` for `false`, `0` and the empty text in any case and as `1` otherwise, everything else as given. -/
theorem C29_explicit (b : Build) (s : Sheet) (table : List String) (row col : Nat) (cells : List CellProps) (hs : SortedSheet s)
    (h1 : 1 ≤ col) (h2 : col + cells.length ≤ 65536) (i : Nat) (c : CellProps) (v : String) (hc : cells[i]? = some c)
    (ht : c.type ≠ .auto) (hv : c.value = some v) :
    ∃ s' table' stored, s.setRow b table row col cells = .ok (s', table') ∧ cellAt s' row (col + i) = some stored ∧
      stored.type = c.type ∧
      (c.type = .shareString → ∃ t, stored.value = some t ∧ IndexOf table' t v) ∧
      (c.type = .boolean → stored.value = some (if v.toList.map asciiLower ∈ ["false".toList, "0".toList, []] then "0" else "1")) ∧
      (c.type ≠ .shareString → c.type ≠ .boolean → stored.value = some v) := by
  obtain ⟨⟨s', t'⟩, hrun, _, _, hw⟩ := run_spec b (s, table) (.write row col cells) hs ⟨h1, h2⟩
  have hwr : (SheetOp.write row col cells).written row (col + i) = some c := by
    simp only [SheetOp.written]
    rw [if_pos ⟨trivial, by omega⟩, Nat.add_sub_cancel_left]; exact hc
  obtain ⟨st, hst, hsa⟩ := (hw row (col + i)).2 c hwr
  refine ⟨s', t', st, hrun, hst, ?_⟩
  obtain ⟨_, _, _, _, _, _, e7⟩ := hsa
  rw [hv] at e7
  cases hct : c.type <;> rw [hct] at e7 ht <;> simp only at e7
  case auto => exact absurd rfl ht
  case shareString => exact ⟨e7.1, fun _ => e7.2, (fun h => by cases h), fun h => absurd rfl h⟩
  case boolean => exact ⟨e7.1, (fun h => by cases h), fun _ => e7.2, fun _ h => absurd rfl h⟩
  all_goals exact ⟨e7.1, (fun h => by cases h), (fun h => by cases h), fun _ _ => e7.2⟩

example : SortedSheet C27_sheet ∧
    (C27_sheet.setRow ⟨true⟩ ["q"] 1 1 [{ value := some "FALSE", type := .boolean }, { value := some "q", type := .shareString },
        { value := some "12", type := .string }]).map (fun st => [1, 2, 3].map (fun c => (cellAt st.1 1 c).bind CellProps.value)) =
      .ok [some "0", some "0", some "12"] := ⟨C27_sheet_sorted, by decide +kernel⟩

/-! ## C30 -/

theorem emptySheet_sorted : SortedSheet emptySheet := by
  intro d hd
  cases hd
  exact ⟨sorted_nil, fun r rd cs h => by cases h⟩

theorem emptySheet_dimOf : DimOf emptySheet :=
  ⟨(fun r c x h => by cases h), Or.inl rfl, Or.inl rfl, by decide⟩

/-- The claim of C30: whatever is done to an empty sheet, if it then has a cell, its saved dimension is the smallest rectangle
containing the cells. -/
def C30_claim : Prop :=
  ∀ (b : Build) (ops : List SheetOp) (s : Sheet) (table : List String) (x x' : XDoc), (∀ op ∈ ops, op.InRange) →
    SheetOp.runAll b (emptySheet, []) ops = .ok (s, table) → (∃ r c cell, cellAt s r c = some cell) →
    (∀ n ∈ x.rootChildren, n.tag ∉ managedTags) → s.save x = .ok x' →
    ∃ text r1 c1 r2 c2, dimensions x' = [some text] ∧ RangeText text r1 c1 r2 c2 ∧ Tight s r1 c1 r2 c2

theorem saved_dimension {s : Sheet} {x x' : XDoc} (hx : ∀ n ∈ x.rootChildren, n.tag ∉ managedTags) (h : s.save x = .ok x') :
    ∃ ref, s.dimensionRef = .ok ref ∧ dimensions x' = [some ref] := by
  obtain ⟨ref, root, rows, h1, h2, _, rfl⟩ := save_ok h
  refine ⟨ref, h1, ?_⟩
  unfold dimensions
  rw [rootChildren_mapRoot h2, place_filter _ _ _ _ _ hx, if_pos rfl]
  rfl

/-- Row 9 gets properties only, row 2 a cell in column 3. -/
def C30_ops : List SheetOp := [.write 2 3 [{ value := some "1" }], .rowProps 9 { hidden := some true }]

def C30_doc : XDoc := { ns := [], root := some (.mk "worksheet" none none []) }

def C30_sheet : Sheet :=
  { dim := (3, 3), views := [{}], cols := none,
    data := some [(2, { cells := some [(3, { value := some "1", type := .number })] }), (9, { props := { hidden := some true } })] }

/-- **C30** is false: a row that only has properties widens the dimension. -/
theorem C30_violated : ¬ C30_claim := by
  intro hc
  have hr : ∀ op ∈ C30_ops, op.InRange := by
    intro op hop
    simp only [C30_ops, List.mem_cons, List.not_mem_nil, or_false] at hop
    rcases hop with rfl | rfl <;> simp [SheetOp.InRange]
  have hrun : SheetOp.runAll ⟨false⟩ (emptySheet, []) C30_ops = .ok (C30_sheet, []) := by decide +kernel
  obtain ⟨x', hx'⟩ : ∃ x', C30_sheet.save C30_doc = .ok x' := ⟨_, rfl⟩
  obtain ⟨text, r1, c1, r2, c2, hd, ht, hcov, htight⟩ := hc ⟨false⟩ C30_ops _ _ C30_doc x' hr hrun
    ⟨2, 3, _, rfl⟩ (by intro n hn; cases hn) hx'
  obtain ⟨ref, href, hd'⟩ := saved_dimension (by intro n hn; cases hn) hx'
  rw [hd'] at hd
  have he : ref = text := by simpa using hd
  have hl : ref = "C2:C9" := by
    have : (.ok ref : Res String) = .ok "C2:C9" := by rw [← href]; decide +kernel
    simpa using this
  obtain ⟨_, _, h2, _⟩ := htight 2 3 2 3 (by
    intro r c x hx
    unfold cellAt at hx
    simp only [C30_sheet, aget] at hx
    by_cases hr2 : 2 = r
    · subst hr2
      by_cases hc3 : 3 = c
      · omega
      · simp [aget, hc3] at hx
    · by_cases hr9 : 9 = r
      · simp [hr2, ← hr9] at hx
      · simp [hr2, hr9] at hx)
  -- the text ends in 9, so its last row is not 2
  obtain ⟨a, b, hab, _, hb⟩ := ht
  have hr2le : r2 ≤ 2 := h2
  obtain ⟨letters, hbe, _, _, _⟩ := hb
  have : text.toList.getLast? = some '9' := by rw [← he, hl]; decide +kernel
  rw [hab, hbe] at this
  have h012 : r2 = 0 ∨ r2 = 1 ∨ r2 = 2 := by omega
  have hdig : ∃ ch, Nat.toDigits 10 r2 = [ch] ∧ ch ≠ '9' := by
    rcases h012 with rfl | rfl | rfl
    · exact ⟨'0', by decide +kernel, by decide⟩
    · exact ⟨'1', by decide +kernel, by decide⟩
    · exact ⟨'2', by decide +kernel, by decide⟩
  obtain ⟨ch, hch, hne⟩ := hdig
  rw [hch] at this
  simp [List.getLast?_append, List.getLast?_cons] at this
  exact hne this

/-- **C30 (partial).** The saved dimension always covers all cells; its columns are the smallest possible when some cell
lies in columns 1..16384 (further cells are accepted by the library); its rows are the first and last row the sheet has, so it is the smallest rectangle when these have cells.
Missing for the full claim: rows with properties but without cells. -/
theorem C30_partial (b : Build) (ops : List SheetOp) (s0 s : Sheet) (table0 table : List String) (x x' : XDoc)
    (hs0 : SortedSheet s0) (hd0 : DimOf s0) (hr : ∀ op ∈ ops, op.InRange)
    (hrun : SheetOp.runAll b (s0, table0) ops = .ok (s, table))
    (hcell : ∃ r c cell, cellAt s r c = some cell ∧ 1 ≤ c ∧ c ≤ 16384)
    (hx : ∀ n ∈ x.rootChildren, n.tag ∉ managedTags) (h : s.save x = .ok x') :
    ∃ text r1 c1 r2 c2, dimensions x' = [some text] ∧ RangeText text r1 c1 r2 c2 ∧ Covers s r1 c1 r2 c2 ∧
      (∃ r cell, cellAt s r c1 = some cell) ∧ (∃ r cell, cellAt s r c2 = some cell) ∧
      ((∃ c cell, cellAt s r1 c = some cell) → (∃ c cell, cellAt s r2 c = some cell) → Tight s r1 c1 r2 c2) := by
  have hs := (runAll_props b _ _ ops hs0 hrun 0).1
  have hd := dimOf_runAll b _ _ ops hs0 hr hd0 hrun
  simp only at hs hd
  obtain ⟨ref, href, hdim⟩ := saved_dimension hx h
  obtain ⟨r, c, cell, hc, hc1, hc2⟩ := hcell
  have hsome : ∃ d, s.data = some d := by
    cases hsd : s.data with
    | none => unfold cellAt at hc; rw [hsd] at hc; cases hc
    | some d => exact ⟨d, rfl⟩
  obtain ⟨d, hsd⟩ := hsome
  have hmem := cellAt_row hsd hc
  rcases dimensionRef_text href with ⟨hn, _⟩ | ⟨r1, r2, hb, _, _, ht⟩
  · rw [hsd] at hn
    rw [rowBounds_none hn] at hmem
    cases hmem
  · rw [hsd] at hb
    obtain ⟨hall, _, _⟩ := rowBounds_some hb (hs d hsd).1
    have hcov : Covers s r1 s.dim.1 r2 s.dim.2 := by
      intro r c y hy
      have := hall r (cellAt_row hsd hy)
      have := hd.covers r c y hy
      omega
    have hleft : ∃ r cell, cellAt s r s.dim.1 = some cell := by
      rcases hd.left with hl | hl
      · have := hd.covers r c cell hc
        have he : s.dim.1 = c := by omega
        rw [he]; exact ⟨r, cell, hc⟩
      · exact hl
    have hright : ∃ r cell, cellAt s r s.dim.2 = some cell := by
      rcases hd.right with hl | hl
      · have := hd.covers r c cell hc
        have he : s.dim.2 = c := by omega
        rw [he]; exact ⟨r, cell, hc⟩
      · exact hl
    refine ⟨ref, r1, s.dim.1, r2, s.dim.2, hdim, ht, hcov, hleft, hright, ?_⟩
    rintro ⟨ca, xa, ha⟩ ⟨cb, xb, hb'⟩
    refine ⟨hcov, ?_⟩
    intro r1' c1' r2' c2' hcov'
    obtain ⟨rl, xl, hl⟩ := hleft
    obtain ⟨rr, xr, hr'⟩ := hright
    have t1 := hcov' r1 ca xa ha
    have t2 := hcov' r2 cb xb hb'
    have t3 := hcov' rl _ xl hl
    have t4 := hcov' rr _ xr hr'
    omega

example : SortedSheet emptySheet ∧ DimOf emptySheet ∧
    (match SheetOp.runAll ⟨false⟩ (emptySheet, []) [.write 7 30 [{ value := some "1" }], .write 2 3 [{}, {}]] with
      | .error _ => none
      | .ok (s, _) => (match s.save C30_doc with | .ok x' => some (dimensions x', (cellAt s 7 30).isSome) | .error _ => none)) =
      some ([some "C2:AD7"], true) := ⟨emptySheet_sorted, emptySheet_dimOf, by decide +kernel⟩

/-! ## C31 -/

/-- **C31.** After any history, the saved sheet data lists rows by strictly increasing number and, in each row, cells
by strictly increasing column, each with its own reference. -/
theorem C31_increasing (b : Build) (ops : List SheetOp) (s0 s : Sheet) (table0 table : List String) (x x' : XDoc)
    (hs0 : SortedSheet s0) (hrun : SheetOp.runAll b (s0, table0) ops = .ok (s, table))
    (hx : ∀ n ∈ x.rootChildren, n.tag ∉ managedTags) (h : s.save x = .ok x') :
    ∀ n ∈ x'.rootChildren, n.tag = "sheetData" → Increasing n.children := by
  have hs : SortedSheet s := (runAll_props b _ _ ops hs0 hrun 0).1
  obtain ⟨ref, root, rows, h1, h2, h3, rfl⟩ := save_ok h
  intro n hn ht
  have hf : n ∈ ((x.mapRootChildren (placeSheetParts ref s.cols s.views rows)).rootChildren).filter (fun n => n.tag = "sheetData") := by
    rw [List.mem_filter]; exact ⟨hn, by simp [ht]⟩
  rw [rootChildren_mapRoot h2, place_filter _ _ _ _ _ hx, if_neg (by decide), if_neg (by decide), if_neg (by decide), if_pos rfl] at hf
  cases hd : s.data with
  | none =>
    rw [hd] at h3
    cases h3
    cases hf
  | some d =>
    rw [hd] at h3
    obtain ⟨ns, rfl, hns⟩ := h3
    simp only [dataNodes, List.mem_singleton] at hf
    subst hf
    exact rows_increasing hs hd hns

example : SortedSheet emptySheet ∧
    (match SheetOp.runAll ⟨false⟩ (emptySheet, []) [.write 7 30 [{ value := some "1" }], .write 7 2 [{}], .write 2 3 [{}, {}]] with
      | .error _ => none
      | .ok (s, _) => (match s.save C30_doc with
        | .ok x' => some (((x'.rootChildren.filter (fun n => n.tag = "sheetData")).flatMap Node.children).map (fun r =>
            (r.attr? "r", r.children.map (fun c => c.attr? "r"))))
        | .error _ => none)) =
      some [(some "2", [some "C2", some "D2"]), (some "7", [some "B7", some "AD7"])] := ⟨emptySheet_sorted, by decide +kernel⟩

/-! ## C61 -/

/-- The claim of C61: a write outside the limits of the file format (columns 1..16384) is refused. -/
def C61_claim : Prop :=
  ∀ (b : Build) (s : Sheet) (table : List String) (row col : Nat) (cells : List CellProps), cells ≠ [] →
    (col = 0 ∨ 16385 < col + cells.length) → ∃ e, s.setRow b table row col cells = .error e

/-- **C61** is false: column 16385 is accepted. -/
theorem C61_violated : ¬ C61_claim := by
  intro hc
  obtain ⟨e, he⟩ := hc ⟨false⟩ emptySheet [] 1 16385 [{}] (by decide) (Or.inr (by decide))
  rw [setRow_inRange _ _ _ _ _ _ (by omega) (by decide)] at he
  cases he

/-- A sheet with a cell in column 0. -/
def C61_sheet : Sheet := { emptySheet with dim := (0, 1), data := some [(1, { cells := some [(0, { value := some "1", type := .number })] })] }

/-- **C61** is false in a worse way: in a release build a write to column 0 succeeds and makes the sheet
impossible to save. -/
theorem C61_violated_release :
    ∃ s table, emptySheet.setRow ⟨true⟩ [] 1 0 [{ value := some "1" }] = .ok (s, table) ∧
      ∀ x, ∃ e, s.save x = .error e := by
  refine ⟨C61_sheet, [], by decide +kernel, ?_⟩
  intro x
  cases he : C61_sheet.dimensionRef with
  | error e => exact ⟨e, by unfold Sheet.save; rw [he]⟩
  | ok ref =>
    rcases dimensionRef_text he with ⟨h, _⟩ | ⟨_, _, _, h, _⟩
    · cases h
    · exact absurd rfl h

/-- **C61 (partial).** In an overflow-checked build a write succeeds exactly when all its columns are 1..65535, and it
fails by a crash. Missing: the limit is 65535, not 16384, and release builds wrap around. -/
theorem C61_partial (s : Sheet) (table : List String) (row col : Nat) (cells : List CellProps) (hcol : col ≤ 65535) :
    (∃ st, s.setRow ⟨false⟩ table row col cells = .ok st) ↔ 1 ≤ col ∧ col + cells.length ≤ 65536 := by
  constructor
  · rintro ⟨st, h⟩
    unfold Sheet.setRow at h
    by_cases h0 : 1 ≤ col
    · refine ⟨h0, ?_⟩
      have e : subU16 ⟨false⟩ col 1 = .ok (col - 1) := by unfold subU16; rw [if_pos h0]
      rw [e] at h
      simp only at h
      apply Classical.byContradiction
      intro hn
      rw [placeCells_debug _ _ (by rw [typeCells_length]; omega) (by omega)] at h
      cases h
    · have e : subU16 ⟨false⟩ col 1 = .error overflow := by unfold subU16; rw [if_neg h0]; rfl
      rw [e] at h
      cases h
  · rintro ⟨h1, h2⟩
    exact ⟨_, setRow_inRange _ _ _ _ _ _ h1 h2⟩

example : (65535 : Nat) ≤ 65535 ∧ (∃ st, emptySheet.setRow ⟨false⟩ [] 1 65535 [{}] = .ok st) ∧
    ¬ ∃ st, emptySheet.setRow ⟨false⟩ [] 1 65535 [{}, {}] = .ok st := by
  refine ⟨by decide, (C61_partial _ _ _ _ _ (by decide)).mpr (by decide), ?_⟩
  rw [C61_partial _ _ _ _ _ (by decide)]; decide

end Oxml
