import Verif.Spec.Worksheet
import Verif.Proofs.Floats
import Verif.Proofs.Maps
import Verif.Proofs.Converters
import Verif.Props.ShareString
/-!
# Cell maps
-/
namespace Oxml
open Spec

theorem sorted_extend {V : Type} (kvs : List (Nat × V)) {m : List (Nat × V)} (h : SortedKeys m) : SortedKeys (extendMap m kvs) := by
  unfold extendMap
  induction kvs generalizing m with
  | nil => exact h
  | cons kv kvs ih => exact ih (sorted_sinsert _ _ _ h)

theorem sorted_nil {V : Type} : SortedKeys ([] : List (Nat × V)) := List.Pairwise.nil

/-- Cells in consecutive columns, the first in column `c0 + 1`. -/
def placedFrom : Nat → List CellProps → List (Nat × CellProps)
  | _, [] => []
  | c0, c :: cs => (c0 + 1, c) :: placedFrom (c0 + 1) cs

theorem aget_extend_placed {m : List (Nat × CellProps)} (hm : SortedKeys m) (c0 : Nat) (cells : List CellProps) (c : Nat) :
    aget c (extendMap m (placedFrom c0 cells)) = if c0 < c then (cells[c - (c0 + 1)]?).or (aget c m) else aget c m := by
  induction cells generalizing m c0 with
  | nil => simp [placedFrom, extendMap]
  | cons x xs ih =>
    have : extendMap m (placedFrom c0 (x :: xs)) = extendMap (sinsert (c0 + 1) x m) (placedFrom (c0 + 1) xs) := rfl
    rw [this, ih (sorted_sinsert _ _ _ hm), aget_sinsert _ _ _ _ hm]
    by_cases h1 : c0 + 1 < c
    · rw [if_pos h1, if_neg (show ¬ c0 + 1 = c by omega), if_pos (show c0 < c by omega)]
      have : c - (c0 + 1) = (c - (c0 + 1 + 1)) + 1 := by omega
      rw [this, List.getElem?_cons_succ]
    · rw [if_neg h1]
      by_cases h2 : c0 + 1 = c
      · subst h2; simp
      · rw [if_neg h2, if_neg (by omega)]

theorem placeCells_ok (b : Build) (c0 : Nat) (cells : List CellProps) (h : c0 + cells.length ≤ 65535) :
    placeCells b c0 cells = .ok (placedFrom c0 cells) := by
  induction cells generalizing c0 with
  | nil => rfl
  | cons x xs ih =>
    simp only [List.length_cons] at h
    have : addU16 b c0 1 = .ok (c0 + 1) := by unfold addU16; rw [if_pos (by omega)]
    rw [placeCells, this]
    simp only
    rw [ih (c0 + 1) (by omega)]
    rfl

theorem placeCells_debug (c0 : Nat) (cells : List CellProps) (h : ¬ c0 + cells.length ≤ 65535) (hc : c0 ≤ 65535) :
    placeCells ⟨false⟩ c0 cells = .error overflow := by
  induction cells generalizing c0 with
  | nil => simp at h; omega
  | cons x xs ih =>
    simp only [List.length_cons] at h
    rw [placeCells]
    unfold addU16
    split
    · rename_i e he
      split at he
      · cases he
      · simp only [Bool.false_eq_true, if_false] at he
        cases he; rfl
    · rename_i c' he
      split at he
      · cases he
        rw [ih (c0 + 1) (by omega) (by omega)]
      · simp only [Bool.false_eq_true, if_false] at he
        cases he

theorem typeCells_length (table : List String) (cells : List CellProps) : (typeCells table cells).1.length = cells.length := by
  induction cells generalizing table with
  | nil => rfl
  | cons c cs ih => simp [typeCells, ih]

theorem setRow_inRange (b : Build) (s : Sheet) (table : List String) (row col : Nat) (cells : List CellProps)
    (h1 : 1 ≤ col) (h2 : col + cells.length ≤ 65536) :
    s.setRow b table row col cells = .ok ({ s with
      data := some (putCells s.data row (placedFrom (col - 1) (typeCells table cells).1)),
      dim := (placedFrom (col - 1) (typeCells table cells).1).foldl (fun d kv => dimAdd d kv.1) s.dim }, (typeCells table cells).2) := by
  unfold Sheet.setRow
  have : subU16 b col 1 = .ok (col - 1) := by unfold subU16; rw [if_pos h1]
  rw [this]
  simp only
  rw [placeCells_ok _ _ _ (by rw [typeCells_length]; omega)]

theorem cellAt_put (s : Sheet) (hs : SortedSheet s) (row c0 : Nat) (cells : List CellProps) (dim : Nat × Nat) (r c : Nat) :
    cellAt { s with data := some (putCells s.data row (placedFrom c0 cells)), dim := dim } r c =
      if r = row ∧ c0 < c then (cells[c - (c0 + 1)]?).or (cellAt s r c) else cellAt s r c := by
  unfold cellAt putCells
  simp only
  cases hd : s.data with
  | none =>
    simp only [aget]
    by_cases hr : row = r
    · subst hr
      simp only [if_true, true_and]
      rw [aget_extend_placed sorted_nil]
      split <;> simp
    · rw [if_neg hr, if_neg (by rintro ⟨h, _⟩; exact hr h.symm)]
  | some d =>
    obtain ⟨hsd, hsc⟩ := hs d hd
    simp only
    cases hrow : aget row d with
    | none =>
      simp only
      rw [aget_sinsert _ _ _ _ hsd]
      by_cases hr : row = r
      · subst hr
        simp only [if_true, true_and, hrow]
        rw [aget_extend_placed sorted_nil]
        split <;> simp
      · rw [if_neg hr, if_neg (by rintro ⟨h, _⟩; exact hr h.symm)]
    | some rd =>
      simp only
      rw [aget_sinsert _ _ _ _ hsd]
      by_cases hr : row = r
      · subst hr
        simp only [if_true, true_and, hrow]
        cases hcs : rd.cells with
        | none =>
          simp only [Option.getD_none]
          rw [aget_extend_placed sorted_nil]
          split <;> simp
        | some cs =>
          simp only [Option.getD_some]
          rw [aget_extend_placed (hsc row rd cs hrow hcs)]
      · rw [if_neg hr, if_neg (by rintro ⟨h, _⟩; exact hr h.symm)]

theorem sorted_put (s : Sheet) (hs : SortedSheet s) (row : Nat) (placed : List (Nat × CellProps)) (dim : Nat × Nat) :
    SortedSheet { s with data := some (putCells s.data row placed), dim := dim } := by
  intro d' hd'
  simp only [Option.some.injEq] at hd'
  subst hd'
  unfold putCells
  cases hd : s.data with
  | none =>
    refine ⟨by simp [SortedKeys, akeys], ?_⟩
    intro r rd cs h1 h2
    simp only [aget] at h1
    split at h1
    · cases h1; cases h2; exact sorted_extend _ sorted_nil
    · cases h1
  | some d =>
    obtain ⟨hsd, hsc⟩ := hs d hd
    simp only
    cases hrow : aget row d with
    | none =>
      refine ⟨sorted_sinsert _ _ _ hsd, ?_⟩
      intro r rd cs h1 h2
      simp only at h1
      rw [aget_sinsert _ _ _ _ hsd] at h1
      split at h1
      · cases h1; cases h2; exact sorted_extend _ sorted_nil
      · exact hsc r rd cs h1 h2
    | some rd0 =>
      refine ⟨sorted_sinsert _ _ _ hsd, ?_⟩
      intro r rd cs h1 h2
      simp only at h1
      rw [aget_sinsert _ _ _ _ hsd] at h1
      split at h1
      · cases h1; cases h2
        cases hcs : rd0.cells with
        | none => exact sorted_extend _ sorted_nil
        | some cs0 => exact sorted_extend _ (hsc row rd0 cs0 hrow hcs)
      · exact hsc r rd cs h1 h2

theorem rowPropsAt_put (s : Sheet) (hs : SortedSheet s) (row : Nat) (placed : List (Nat × CellProps)) (dim : Nat × Nat) (r : Nat) :
    rowPropsAt { s with data := some (putCells s.data row placed), dim := dim } r = rowPropsAt s r := by
  unfold rowPropsAt putCells
  simp only
  cases hd : s.data with
  | none =>
    simp only [aget]
    split
    · rename_i h; split at h <;> simp_all
    · rename_i h
      split at h
      · simp only [Option.some.injEq] at h; subst h; rfl
      · cases h
  | some d =>
    obtain ⟨hsd, _⟩ := hs d hd
    simp only
    cases hrow : aget row d with
    | none =>
      simp only
      rw [aget_sinsert _ _ _ _ hsd]
      by_cases hr : row = r
      · subst hr; simp [hrow]
      · rw [if_neg hr]
    | some rd =>
      simp only
      rw [aget_sinsert _ _ _ _ hsd]
      by_cases hr : row = r
      · subst hr; simp [hrow]
      · rw [if_neg hr]

theorem setRowProps_data (s : Sheet) (hs : SortedSheet s) (row : Nat) (p : RowProps) (r : Nat) :
    ∃ d, (s.setRowProps row p).data = some d ∧ SortedKeys d ∧
      aget r d = if row = r then some { props := p, cells := (match s.data with | none => none | some d => (aget r d).bind RowData.cells) }
        else (match s.data with | none => none | some d => aget r d) := by
  unfold Sheet.setRowProps
  cases hd : s.data with
  | none => exact ⟨_, rfl, by simp [SortedKeys, akeys], by simp only [aget]⟩
  | some d =>
    obtain ⟨hsd, _⟩ := hs d hd
    simp only
    cases hrow : aget row d with
    | none =>
      refine ⟨_, rfl, sorted_sinsert _ _ _ hsd, ?_⟩
      rw [aget_sinsert _ _ _ _ hsd]
      by_cases hr : row = r
      · subst hr; simp [hrow]
      · simp [hr]
    | some rd =>
      refine ⟨_, rfl, sorted_sinsert _ _ _ hsd, ?_⟩
      rw [aget_sinsert _ _ _ _ hsd]
      by_cases hr : row = r
      · subst hr; simp [hrow]
      · simp [hr]

theorem cellAt_setRowProps (s : Sheet) (hs : SortedSheet s) (row : Nat) (p : RowProps) (r c : Nat) :
    cellAt (s.setRowProps row p) r c = cellAt s r c := by
  obtain ⟨d, h1, _, h2⟩ := setRowProps_data s hs row p r
  unfold cellAt
  rw [h1]
  simp only [h2]
  cases hd : s.data with
  | none => by_cases hr : row = r <;> simp [hr]
  | some d0 =>
    simp only
    by_cases hr : row = r
    · simp only [hr, if_true]
      cases aget r d0 <;> rfl
    · simp [hr]

theorem rowPropsAt_setRowProps (s : Sheet) (hs : SortedSheet s) (row : Nat) (p : RowProps) (r : Nat) :
    rowPropsAt (s.setRowProps row p) r = if row = r then p else rowPropsAt s r := by
  obtain ⟨d, h1, _, h2⟩ := setRowProps_data s hs row p r
  unfold rowPropsAt
  rw [h1]
  simp only [h2]
  by_cases hr : row = r
  · simp [hr]
  · simp only [hr, if_false]
    cases s.data <;> rfl

theorem sorted_setRowProps (s : Sheet) (hs : SortedSheet s) (row : Nat) (p : RowProps) : SortedSheet (s.setRowProps row p) := by
  intro d' hd'
  have hall := fun r => setRowProps_data s hs row p r
  constructor
  · obtain ⟨d, h1, h2, _⟩ := hall 0
    rw [hd'] at h1; cases h1; exact h2
  · intro r rd cs hr hcs
    obtain ⟨d, h1, _, h3⟩ := hall r
    rw [hd'] at h1; cases h1
    rw [hr] at h3
    by_cases he : row = r
    · rw [if_pos he] at h3
      cases h3
      simp only at hcs
      cases hd : s.data with
      | none => rw [hd] at hcs; cases hcs
      | some d0 =>
        rw [hd] at hcs
        simp only at hcs
        cases hrd : aget r d0 with
        | none => rw [hrd] at hcs; cases hcs
        | some rd0 =>
          rw [hrd] at hcs
          exact (hs d0 hd).2 r rd0 cs hrd hcs
    · rw [if_neg he] at h3
      cases hd : s.data with
      | none => rw [hd] at h3; cases h3
      | some d0 =>
        rw [hd] at h3
        exact (hs d0 hd).2 r rd cs h3.symm hcs

theorem setColumn_data (s : Sheet) (col : Nat) (p : Option ColProps) : (s.setColumn col p).data = s.data ∧ (s.setColumn col p).dim = s.dim := by
  unfold Sheet.setColumn
  split <;> exact ⟨rfl, rfl⟩

/-! ### Typing -/

theorem indexOf_mono {table more : List String} {t v : String} (h : IndexOf table t v) : IndexOf (table ++ more) t v := by
  obtain ⟨i, h1, h2⟩ := h
  exact ⟨i, h1, by rw [List.getElem?_append_left (List.getElem?_eq_some_iff.mp h2).1, h2]⟩

theorem storedAs_mono {table more : List String} {g st : CellProps} (h : StoredAs table g st) : StoredAs (table ++ more) g st := by
  obtain ⟨h1, h2, h3, h4, h5, h6, h7⟩ := h
  refine ⟨h1, h2, h3, h4, h5, h6, ?_⟩
  cases hv : g.value with
  | none => rw [hv] at h7; exact h7
  | some v =>
    rw [hv] at h7
    cases ht : g.type <;> rw [ht] at h7 <;> simp only at h7 ⊢
    case auto =>
      rcases h7 with h | h | h | ⟨a, b, c, d, t, e, f⟩
      · exact Or.inl h
      · exact Or.inr (Or.inl h)
      · exact Or.inr (Or.inr (Or.inl h))
      · exact Or.inr (Or.inr (Or.inr ⟨a, b, c, d, t, e, indexOf_mono f⟩))
    case shareString =>
      obtain ⟨a, t, e, f⟩ := h7
      exact ⟨a, t, e, indexOf_mono f⟩
    all_goals exact h7

theorem typeCell_grows (table : List String) (c : CellProps) : ∃ more, (typeCell table c).2 = table ++ more := by
  unfold typeCell
  have key : ∀ v, ∃ more, (getStringId table v).1 = table ++ more := by
    intro v
    obtain ⟨_, _, _, _, m, hm⟩ := getStringId_spec table v
    exact ⟨m, hm⟩
  split
  · exact ⟨[], by simp⟩
  · split
    · split
      · exact ⟨[], by simp⟩
      · split
        · exact ⟨[], by simp⟩
        · exact ⟨[], by simp⟩
        · exact key _
    · exact key _
    · exact ⟨[], by simp⟩
    · exact ⟨[], by simp⟩

theorem falseText_iff (v : String) :
    (if falseText v then "0" else "1") = if v.toList.map asciiLower ∈ ["false".toList, "0".toList, []] then "0" else "1" := by
  have h0 : ∀ l : List Char, (l.map asciiLower = "0".toList ↔ l = "0".toList) := by
    intro l
    have e : "0".toList = ['0'] := by decide
    rw [e]
    match l with
    | [] => simp
    | [c] =>
      simp only [List.map_cons, List.map_nil, List.cons.injEq, and_true]
      unfold asciiLower
      split
      · rename_i h
        constructor
        · intro hc
          exfalso
          have h1 : 65 ≤ c.toNat ∧ c.toNat ≤ 90 := by
            obtain ⟨h1, h2⟩ := h
            rw [Char.le_iff_toNat] at h1 h2
            exact ⟨h1, h2⟩
          have h2 := congrArg Char.toNat hc
          rw [toNat_ofNat_lt (by omega)] at h2
          have : '0'.toNat = 48 := by decide
          omega
        · rintro rfl; revert h; decide
      · exact Iff.rfl
    | c :: d :: l => simp
  have : falseText v = true ↔ v.toList.map asciiLower ∈ ["false".toList, "0".toList, []] := by
    unfold falseText
    simp only [Bool.or_eq_true, decide_eq_true_eq, List.mem_cons, List.not_mem_nil, or_false, h0, List.map_eq_nil_iff]
    exact ⟨fun h => h.elim (fun h => h.elim Or.inl (fun h => Or.inr (Or.inl h))) (fun h => Or.inr (Or.inr h)),
      fun h => h.elim (fun h => Or.inl (Or.inl h)) (fun h => h.elim (fun h => Or.inl (Or.inr h)) Or.inr)⟩
  by_cases h : falseText v = true
  · rw [if_pos h, if_pos (this.mp h)]
  · rw [if_neg h, if_neg (fun hh => h (this.mpr hh))]

theorem typeCell_stored (table : List String) (c : CellProps) : StoredAs (typeCell table c).2 c (typeCell table c).1 := by
  unfold typeCell StoredAs
  cases hv : c.value with
  | none => simp
  | some v =>
    have key : ∃ t, some (getStringId table v).2 = some t ∧ IndexOf (getStringId table v).1 t v := by
      obtain ⟨i, h1, h2, _⟩ := getStringId_spec table v
      exact ⟨_, rfl, i, h1, h2⟩
    simp only
    cases ht : c.type <;> simp only
    case auto =>
      by_cases hf : isFloatText v = true
      · rw [if_pos hf]
        exact ⟨rfl, rfl, rfl, rfl, rfl, rfl, Or.inl ⟨(isFloatText_iff v).mp hf, rfl, rfl⟩⟩
      · rw [if_neg hf]
        unfold parseBool
        by_cases h1 : v = "true"
        · simp only [if_pos h1]
          exact ⟨trivial, trivial, trivial, trivial, trivial, trivial, Or.inr (Or.inl ⟨h1, trivial, trivial⟩)⟩
        · simp only [if_neg h1]
          by_cases h2 : v = "false"
          · simp only [if_pos h2]
            exact ⟨trivial, trivial, trivial, trivial, trivial, trivial, Or.inr (Or.inr (Or.inl ⟨h2, trivial, trivial⟩))⟩
          · simp only [if_neg h2]
            exact ⟨trivial, trivial, trivial, trivial, trivial, trivial,
              Or.inr (Or.inr (Or.inr ⟨fun h => hf ((isFloatText_iff v).mpr h), h1, h2, trivial, key⟩))⟩
    case shareString => exact ⟨trivial, trivial, trivial, trivial, trivial, trivial, trivial, key⟩
    case boolean => exact ⟨trivial, trivial, trivial, trivial, trivial, trivial, trivial, by rw [falseText_iff]⟩
    all_goals simp [ht, hv]

theorem typeCells_grows (table : List String) (cells : List CellProps) : ∃ more, (typeCells table cells).2 = table ++ more := by
  induction cells generalizing table with
  | nil => exact ⟨[], by simp [typeCells]⟩
  | cons c cs ih =>
    obtain ⟨m1, h1⟩ := typeCell_grows table c
    obtain ⟨m2, h2⟩ := ih (typeCell table c).2
    exact ⟨m1 ++ m2, by simp only [typeCells]; rw [h2, h1, List.append_assoc]⟩

theorem typeCells_stored (table : List String) (cells : List CellProps) (i : Nat) (g : CellProps) (h : cells[i]? = some g) :
    ∃ st, (typeCells table cells).1[i]? = some st ∧ StoredAs (typeCells table cells).2 g st := by
  induction cells generalizing table i with
  | nil => cases h
  | cons c cs ih =>
    cases i with
    | zero =>
      obtain rfl : c = g := by simpa using h
      obtain ⟨m, hm⟩ := typeCells_grows (typeCell table c).2 cs
      refine ⟨_, rfl, ?_⟩
      simp only [typeCells]
      rw [hm]
      exact storedAs_mono (typeCell_stored table c)
    | succ j => exact ih _ j h

end Oxml

namespace Oxml
open Spec

/-! ### Histories -/

theorem SortedSheet.of_data {s s' : Sheet} (h : SortedSheet s) (he : s'.data = s.data) : SortedSheet s' := by
  intro d hd
  rw [he] at hd
  exact h d hd

theorem cellAt_of_data {s s' : Sheet} (he : s'.data = s.data) (r c : Nat) : cellAt s' r c = cellAt s r c := by
  unfold cellAt; rw [he]

theorem rowPropsAt_of_data {s s' : Sheet} (he : s'.data = s.data) (r : Nat) : rowPropsAt s' r = rowPropsAt s r := by
  unfold rowPropsAt; rw [he]

/-- Effect of one operation. -/
theorem run_spec (b : Build) (st : Sheet × List String) (op : SheetOp) (hs : SortedSheet st.1) (hr : op.InRange) :
    ∃ st', op.run b st = .ok st' ∧ SortedSheet st'.1 ∧ (∃ more, st'.2 = st.2 ++ more) ∧
      (∀ r c, (op.written r c = none → cellAt st'.1 r c = cellAt st.1 r c) ∧
        ∀ g, op.written r c = some g → ∃ x, cellAt st'.1 r c = some x ∧ StoredAs st'.2 g x) := by
  cases op with
  | write row col cells =>
    obtain ⟨h1, h2⟩ := hr
    refine ⟨_, setRow_inRange b st.1 st.2 row col cells h1 h2, sorted_put _ hs _ _ _, typeCells_grows _ _, ?_⟩
    intro r c
    rw [cellAt_put _ hs]
    simp only [SheetOp.written]
    by_cases hrc : r = row ∧ col ≤ c
    · rw [if_pos hrc, if_pos ⟨hrc.1, by omega⟩]
      have he : c - (col - 1 + 1) = c - col := by omega
      rw [he]
      constructor
      · intro hn
        have : (typeCells st.2 cells).1[c - col]? = none := by
          rw [List.getElem?_eq_none_iff] at hn ⊢
          rw [typeCells_length]; exact hn
        rw [this]; simp
      · intro g hg
        obtain ⟨x, hx, hst⟩ := typeCells_stored st.2 cells _ g hg
        exact ⟨x, by rw [hx]; simp, hst⟩
    · rw [if_neg hrc, if_neg (by intro h; exact hrc ⟨h.1, by omega⟩)]
      exact ⟨fun _ => rfl, fun _ h => by cases h⟩
  | rowProps row p =>
    refine ⟨_, rfl, sorted_setRowProps _ hs _ _, ⟨[], by simp⟩, ?_⟩
    intro r c
    exact ⟨fun _ => cellAt_setRowProps _ hs _ _ _ _, fun _ h => by cases h⟩
  | column col p =>
    refine ⟨_, rfl, SortedSheet.of_data hs (setColumn_data _ _ _).1, ⟨[], by simp⟩, ?_⟩
    intro r c
    exact ⟨fun _ => cellAt_of_data (setColumn_data _ _ _).1 _ _, fun _ h => by cases h⟩

theorem runAll_spec (b : Build) (st : Sheet × List String) (ops : List SheetOp) (hs : SortedSheet st.1) (hr : ∀ op ∈ ops, op.InRange) :
    ∃ st', SheetOp.runAll b st ops = .ok st' ∧ SortedSheet st'.1 ∧ (∃ more, st'.2 = st.2 ++ more) ∧
      (∀ r c, (lastWritten r c ops = none → cellAt st'.1 r c = cellAt st.1 r c) ∧
        ∀ g, lastWritten r c ops = some g → ∃ x, cellAt st'.1 r c = some x ∧ StoredAs st'.2 g x) := by
  induction ops generalizing st with
  | nil => exact ⟨st, rfl, hs, ⟨[], by simp⟩, fun r c => ⟨fun _ => rfl, fun _ h => by cases h⟩⟩
  | cons op ops ih =>
    obtain ⟨st1, h1, hs1, ⟨m1, hm1⟩, hc1⟩ := run_spec b st op hs (hr op (by simp))
    obtain ⟨st2, h2, hs2, ⟨m2, hm2⟩, hc2⟩ := ih st1 hs1 (fun o ho => hr o (by simp [ho]))
    refine ⟨st2, by rw [SheetOp.runAll, h1]; exact h2, hs2, ⟨m1 ++ m2, by rw [hm2, hm1, List.append_assoc]⟩, ?_⟩
    intro r c
    simp only [lastWritten]
    cases hl : lastWritten r c ops with
    | some x =>
      simp only
      refine ⟨fun h => (by cases h), fun g hg => ?_⟩
      cases hg
      exact (hc2 r c).2 _ hl
    | none =>
      simp only
      refine ⟨fun h => by rw [(hc2 r c).1 hl, (hc1 r c).1 h], fun g hg => ?_⟩
      obtain ⟨x, hx, hst⟩ := (hc1 r c).2 g hg
      exact ⟨x, by rw [(hc2 r c).1 hl, hx], by rw [hm2]; exact storedAs_mono hst⟩

/-! ### Row properties over histories -/

theorem run_props (b : Build) (st st' : Sheet × List String) (op : SheetOp) (hs : SortedSheet st.1) (h : op.run b st = .ok st') (r : Nat) :
    SortedSheet st'.1 ∧ rowPropsAt st'.1 r = (lastProps r [op]).getD (rowPropsAt st.1 r) := by
  cases op with
  | write row col cells =>
    simp only [SheetOp.run, Sheet.setRow] at h
    split at h
    · cases h
    · split at h
      · cases h
      · cases h
        exact ⟨sorted_put _ hs _ _ _, rowPropsAt_put _ hs _ _ _ _⟩
  | rowProps row p =>
    cases h
    refine ⟨sorted_setRowProps _ hs _ _, ?_⟩
    rw [rowPropsAt_setRowProps _ hs]
    simp only [lastProps]
    split <;> rfl
  | column col p =>
    cases h
    exact ⟨SortedSheet.of_data hs (setColumn_data _ _ _).1, rowPropsAt_of_data (setColumn_data _ _ _).1 _⟩

theorem lastProps_cons (r : Nat) (op : SheetOp) (ops : List SheetOp) : lastProps r (op :: ops) = (lastProps r ops).or (lastProps r [op]) := by
  simp only [lastProps]
  cases lastProps r ops <;> cases op <;> rfl

theorem runAll_props (b : Build) (st st' : Sheet × List String) (ops : List SheetOp) (hs : SortedSheet st.1)
    (h : SheetOp.runAll b st ops = .ok st') (r : Nat) :
    SortedSheet st'.1 ∧ rowPropsAt st'.1 r = (lastProps r ops).getD (rowPropsAt st.1 r) := by
  induction ops generalizing st with
  | nil => cases h; exact ⟨hs, rfl⟩
  | cons op ops ih =>
    rw [SheetOp.runAll] at h
    cases h1 : op.run b st with
    | error e => rw [h1] at h; cases h
    | ok st1 =>
      rw [h1] at h
      obtain ⟨hs1, hp⟩ := run_props b st st1 op hs h1 r
      obtain ⟨hs2, hp2⟩ := ih st1 hs1 h
      refine ⟨hs2, ?_⟩
      rw [hp2, lastProps_cons]
      cases lastProps r ops with
      | some x => rfl
      | none => simp only [Option.getD_none, Option.none_or]; exact hp

/-! ### The column bounds -/

/-- The column bounds fit the cells. -/
structure DimOf (s : Sheet) : Prop where
  covers : ∀ r c x, cellAt s r c = some x → s.dim.1 ≤ c ∧ c ≤ s.dim.2
  left : s.dim.1 = 16384 ∨ ∃ r x, cellAt s r s.dim.1 = some x
  right : s.dim.2 = 1 ∨ ∃ r x, cellAt s r s.dim.2 = some x
  low : s.dim.1 ≤ 16384

theorem foldl_dimAdd (d : Nat × Nat) (kvs : List (Nat × CellProps)) :
    let d' := kvs.foldl (fun d kv => dimAdd d kv.1) d
    (d'.1 ≤ d.1 ∧ d.2 ≤ d'.2) ∧ (∀ kv ∈ kvs, d'.1 ≤ kv.1 ∧ kv.1 ≤ d'.2) ∧
    (d'.1 = d.1 ∨ ∃ kv ∈ kvs, d'.1 = kv.1) ∧ (d'.2 = d.2 ∨ ∃ kv ∈ kvs, d'.2 = kv.1) := by
  induction kvs generalizing d with
  | nil => simp
  | cons kv kvs ih =>
    obtain ⟨⟨h1, h2⟩, h3, h4, h5⟩ := ih (dimAdd d kv.1)
    simp only [List.foldl_cons]
    generalize kvs.foldl (fun d kv => dimAdd d kv.1) (dimAdd d kv.1) = d' at *
    simp only [dimAdd] at h1 h2 h4 h5
    have hb : d'.1 ≤ d.1 ∧ d.2 ≤ d'.2 ∧ d'.1 ≤ kv.1 ∧ kv.1 ≤ d'.2 := by
      clear h3 h4 h5 ih
      omega
    refine ⟨⟨hb.1, hb.2.1⟩, ?_, ?_, ?_⟩
    · intro x hx
      rcases List.mem_cons.mp hx with rfl | hx
      · exact hb.2.2
      · exact h3 x hx
    · clear h5
      rcases h4 with h | ⟨x, hx, h⟩
      · by_cases hle : d.1 ≤ kv.1
        · left; omega
        · right; exact ⟨kv, by simp, by omega⟩
      · right; exact ⟨x, by simp [hx], h⟩
    · clear h4
      rcases h5 with h | ⟨x, hx, h⟩
      · by_cases hle : kv.1 ≤ d.2
        · left; omega
        · right; exact ⟨kv, by simp, by omega⟩
      · right; exact ⟨x, by simp [hx], h⟩

theorem mem_placedFrom (c0 : Nat) (cells : List CellProps) (kv : Nat × CellProps) :
    kv ∈ placedFrom c0 cells ↔ c0 < kv.1 ∧ cells[kv.1 - (c0 + 1)]? = some kv.2 := by
  induction cells generalizing c0 with
  | nil => simp [placedFrom]
  | cons c cs ih =>
    obtain ⟨k, v⟩ := kv
    simp only [placedFrom, List.mem_cons, ih, Prod.mk.injEq]
    constructor
    · rintro (⟨rfl, rfl⟩ | ⟨h1, h2⟩)
      · simp
      · refine ⟨by omega, ?_⟩
        have : k - (c0 + 1) = (k - (c0 + 1 + 1)) + 1 := by omega
        rw [this, List.getElem?_cons_succ]; exact h2
    · rintro ⟨h1, h2⟩
      by_cases he : k = c0 + 1
      · subst he; simp at h2; exact Or.inl ⟨rfl, h2.symm⟩
      · right
        have : k - (c0 + 1) = (k - (c0 + 1 + 1)) + 1 := by omega
        rw [this, List.getElem?_cons_succ] at h2
        exact ⟨by omega, h2⟩

/-- The sheet with cells put into a row. -/
def Sheet.put (s : Sheet) (row c0 : Nat) (cells : List CellProps) : Sheet :=
  { s with data := some (putCells s.data row (placedFrom c0 cells)),
           dim := (placedFrom c0 cells).foldl (fun d kv => dimAdd d kv.1) s.dim }

theorem dimOf_put (s : Sheet) (hs : SortedSheet s) (hd : DimOf s) (row c0 : Nat) (cells : List CellProps) :
    DimOf (s.put row c0 cells) := by
  unfold Sheet.put
  obtain ⟨⟨h1, h2⟩, h3, h4, h5⟩ := foldl_dimAdd s.dim (placedFrom c0 cells)
  have new : ∀ kv ∈ placedFrom c0 cells, ∃ x, cellAt (s.put row c0 cells) row kv.1 = some x := by
    intro kv hkv
    obtain ⟨a, b⟩ := (mem_placedFrom _ _ _).mp hkv
    rw [Sheet.put, cellAt_put _ hs, if_pos ⟨rfl, a⟩, b]
    exact ⟨_, rfl⟩
  have old : ∀ r c x, cellAt s r c = some x → ∃ x, cellAt (s.put row c0 cells) r c = some x := by
    intro r c x hx
    rw [Sheet.put, cellAt_put _ hs]
    split
    · cases cells[c - (c0 + 1)]? with
      | none => exact ⟨x, by simpa using hx⟩
      | some y => exact ⟨y, rfl⟩
    · exact ⟨x, hx⟩
  refine ⟨?_, ?_, ?_, ?_⟩
  · intro r c x hx
    rw [cellAt_put _ hs] at hx
    simp only
    split at hx
    · rename_i hrc
      cases hg : cells[c - (c0 + 1)]? with
      | none =>
        rw [hg] at hx
        have := hd.covers r c x (by simpa using hx)
        omega
      | some y => exact h3 (c, y) ((mem_placedFrom _ _ _).mpr ⟨hrc.2, hg⟩)
    · have := hd.covers r c x hx
      omega
  · simp only
    rcases h4 with h | ⟨kv, hkv, h⟩
    · rw [h]
      rcases hd.left with hl | ⟨r, x, hx⟩
      · exact Or.inl hl
      · obtain ⟨y, hy⟩ := old _ _ _ hx
        exact Or.inr ⟨r, y, hy⟩
    · obtain ⟨y, hy⟩ := new kv hkv
      exact Or.inr ⟨row, y, by rw [h]; exact hy⟩
  · simp only
    rcases h5 with h | ⟨kv, hkv, h⟩
    · rw [h]
      rcases hd.right with hl | ⟨r, x, hx⟩
      · exact Or.inl hl
      · obtain ⟨y, hy⟩ := old _ _ _ hx
        exact Or.inr ⟨r, y, hy⟩
    · obtain ⟨y, hy⟩ := new kv hkv
      exact Or.inr ⟨row, y, by rw [h]; exact hy⟩
  · have := hd.low; simp only; omega

theorem dimOf_run (b : Build) (st st' : Sheet × List String) (op : SheetOp) (hs : SortedSheet st.1) (hr : op.InRange) (hd : DimOf st.1)
    (h : op.run b st = .ok st') : DimOf st'.1 := by
  cases op with
  | write row col cells =>
    have := setRow_inRange b st.1 st.2 row col cells hr.1 hr.2
    simp only [SheetOp.run] at h
    rw [this] at h
    cases h
    exact dimOf_put _ hs hd _ _ _
  | rowProps row p =>
    cases h
    have hc := cellAt_setRowProps st.1 hs row p
    exact ⟨fun r c x hx => hd.covers r c x (by rw [← hc]; exact hx),
      hd.left.imp id (fun ⟨r, x, hx⟩ => ⟨r, x, by rw [hc]; exact hx⟩),
      hd.right.imp id (fun ⟨r, x, hx⟩ => ⟨r, x, by rw [hc]; exact hx⟩), hd.low⟩
  | column col p =>
    cases h
    have hc := cellAt_of_data (setColumn_data st.1 col p).1
    have he := (setColumn_data st.1 col p).2
    refine ⟨fun r c x hx => by rw [he]; exact hd.covers r c x (by rw [← hc]; exact hx), ?_, ?_, by rw [he]; exact hd.low⟩
    · rw [he]; exact hd.left.imp id (fun ⟨r, x, hx⟩ => ⟨r, x, by rw [hc]; exact hx⟩)
    · rw [he]; exact hd.right.imp id (fun ⟨r, x, hx⟩ => ⟨r, x, by rw [hc]; exact hx⟩)

theorem dimOf_runAll (b : Build) (st st' : Sheet × List String) (ops : List SheetOp) (hs : SortedSheet st.1)
    (hr : ∀ op ∈ ops, op.InRange) (hd : DimOf st.1) (h : SheetOp.runAll b st ops = .ok st') : DimOf st'.1 := by
  induction ops generalizing st with
  | nil => cases h; exact hd
  | cons op ops ih =>
    rw [SheetOp.runAll] at h
    cases h1 : op.run b st with
    | error e => rw [h1] at h; cases h
    | ok st1 =>
      rw [h1] at h
      exact ih st1 (run_props b st st1 op hs h1 0).1 (fun o ho => hr o (by simp [ho])) (dimOf_run b st st1 op hs (hr op (by simp)) hd h1) h

end Oxml

namespace Oxml
open Spec

/-- Cells after a write, for any placement. -/
theorem cellAt_putCells (s : Sheet) (hs : SortedSheet s) (row : Nat) (placed : List (Nat × CellProps)) (dim : Nat × Nat) (r c : Nat) :
    cellAt { s with data := some (putCells s.data row placed), dim := dim } r c =
      if r = row then ((placed.reverse.find? (fun kv => kv.1 = c)).map Prod.snd).or (cellAt s r c) else cellAt s r c := by
  have key : ∀ (placed m : List (Nat × CellProps)), SortedKeys m →
      aget c (extendMap m placed) = ((placed.reverse.find? (fun kv => kv.1 = c)).map Prod.snd).or (aget c m) := by
    intro placed
    induction placed with
    | nil => intro m _; simp [extendMap]
    | cons kv rest ih =>
      intro m hm
      have e : extendMap m (kv :: rest) = extendMap (sinsert kv.1 kv.2 m) rest := rfl
      rw [e, ih _ (sorted_sinsert _ _ _ hm), aget_sinsert _ _ _ _ hm, List.reverse_cons, List.find?_append]
      cases rest.reverse.find? (fun kv => kv.1 = c) with
      | some y => rfl
      | none =>
        by_cases h : kv.1 = c
        · simp [h]
        · simp [h]
  unfold cellAt putCells
  simp only
  cases hd : s.data with
  | none =>
    simp only [aget]
    by_cases hr : row = r
    · subst hr
      simp only [if_true]
      rw [key _ _ sorted_nil]; rfl
    · rw [if_neg hr, if_neg (fun h => hr h.symm)]
  | some d =>
    obtain ⟨hsd, hsc⟩ := hs d hd
    simp only
    cases hrow : aget row d with
    | none =>
      simp only
      rw [aget_sinsert _ _ _ _ hsd]
      by_cases hr : row = r
      · subst hr
        simp only [if_true, hrow]
        rw [key _ _ sorted_nil]; rfl
      · rw [if_neg hr, if_neg (fun h => hr h.symm)]
    | some rd =>
      simp only
      rw [aget_sinsert _ _ _ _ hsd]
      by_cases hr : row = r
      · subst hr
        simp only [if_true, hrow]
        cases hcs : rd.cells with
        | none => simp only [Option.getD_none]; rw [key _ _ sorted_nil]; rfl
        | some cs => simp only [Option.getD_some]; rw [key _ _ (hsc row rd cs hrow hcs)]
      · rw [if_neg hr, if_neg (fun h => hr h.symm)]

theorem cellAt_put_congr {s1 s2 : Sheet} (hs1 : SortedSheet s1) (hs2 : SortedSheet s2) (he : ∀ r c, cellAt s1 r c = cellAt s2 r c)
    (row : Nat) (placed : List (Nat × CellProps)) (d1 d2 : Nat × Nat) (r c : Nat) :
    cellAt { s1 with data := some (putCells s1.data row placed), dim := d1 } r c =
      cellAt { s2 with data := some (putCells s2.data row placed), dim := d2 } r c := by
  rw [cellAt_putCells _ hs1, cellAt_putCells _ hs2, he]

theorem cellAt_put_other {s : Sheet} (hs : SortedSheet s) (row : Nat) (placed : List (Nat × CellProps)) (dim : Nat × Nat) {r : Nat}
    (h : row ≠ r) (c : Nat) : cellAt { s with data := some (putCells s.data row placed), dim := dim } r c = cellAt s r c := by
  rw [cellAt_putCells _ hs, if_neg (fun e => h e.symm)]

end Oxml
