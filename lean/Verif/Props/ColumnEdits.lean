import Verif.Props.SheetRefused -- only to build one after the other: both need much memory
import Verif.Proofs.ColumnEdits
import Verif.Props.ExistingSheets
/-!
# C34 and C85: what becomes of columns, exactly
-/
namespace Oxml
open Spec

theorem columnAt_spans (s : Sheet) (c : Nat) : columnAt s c = ((s.cols.getD []).filter (fun r => decide (Spans r c))).map settings := rfl

theorem setColumns_cols (es : List (Nat × Option ColProps)) : ∀ s : Sheet, (es.foldl (fun s e => s.setColumn e.1 e.2) s).cols = s.cols.map (fun cs => es.foldl setOne cs) := by
  induction es with
  | nil => intro s; cases h : s.cols <;> simp [h]
  | cons e es ih =>
    intro s
    rw [List.foldl_cons, ih, setColumn_cols]
    cases s.cols <;> rfl

/-- **C34, exactly.** A sheet with column settings, and any number of columns set one after the other: a column set shows what was asked for last; every
other column shows what the ranges over it said, except that a range cut in two says nothing any more right of the cut. -/
theorem C34_exact (s : Sheet) (cs : List ColProps) (hcols : s.cols = some cs) (es : List (Nat × Option ColProps)) (c : Nat) :
    (∀ p, lastColumn c es = some p → columnAt (es.foldl (fun s e => s.setColumn e.1 e.2) s) c = (p.map settings).toList) ∧
    (lastColumn c es = none → (columnAt (es.foldl (fun s e => s.setColumn e.1 e.2) s) c).Perm
      ((cs.filter (fun r => decide (Spans r c))).map (fun r => kept r es c))) := by
  have h : (es.foldl (fun s e => s.setColumn e.1 e.2) s).cols.getD [] = es.foldl setOne cs := by rw [setColumns_cols, hcols]; rfl
  simp only [columnAt_spans, h]
  exact setAll_at cs es c

/-- **C34.** A sheet without column settings never gets any. -/
theorem C34_never (s : Sheet) (hcols : s.cols = none) (es : List (Nat × Option ColProps)) (c : Nat) :
    columnAt (es.foldl (fun s e => s.setColumn e.1 e.2) s) c = [] := by
  rw [columnAt_spans, setColumns_cols, hcols]
  rfl

/-- Hidden columns B to H; D is set, then E, then B. -/
def C34_edits : List (Nat × Option ColProps) := [(4, some { width := some "20" }), (5, none), (2, some { width := some "9" })]

/-- Setting D cuts the range, setting E and B does not. -/
theorem C34_cut : Cut { min := 2, max := 8, hidden := some true } C34_edits 4 ∧ ¬ Cut { min := 2, max := 8, hidden := some true } C34_edits 5 := by
  constructor
  · exact ⟨[], _, _, rfl, by decide, by decide, fun e he => by cases he⟩
  · rintro ⟨pre, p, post, h, _, _, h3⟩
    cases pre with
    | nil => simp [C34_edits] at h
    | cons a pre =>
      have ha : a = (4, some { width := some "20" }) := by
        simp only [C34_edits, List.cons_append, List.cons.injEq] at h
        exact h.1.symm
      have := h3 a (by simp)
      rw [ha] at this
      simp at this

/-- So C stays hidden, F does not, and D has its width. -/
theorem C34_exact_example : kept { min := 2, max := 8, hidden := some true } C34_edits 3 = settings { hidden := some true } ∧
    kept { min := 2, max := 8, hidden := some true } C34_edits 6 = settings {} ∧ lastColumn 4 C34_edits = some (some { width := some "20" }) ∧
    lastColumn 3 C34_edits = none ∧ lastColumn 6 C34_edits = none := by
  refine ⟨?_, ?_, by decide, by decide, by decide⟩
  · unfold kept
    rw [if_neg]
    · rfl
    · rintro ⟨k, hk, pre, p, post, h, h1, _⟩
      simp only at h1
      omega
  · unfold kept
    rw [if_pos ⟨4, by decide, C34_cut.1⟩]

variable {env : Env} {theme : XDoc} {z z' : Zip} {ops : List WbOp} {x : Excel} {path : String} {edits : List SheetOp} {s : Session} {now : String} {exts : List (String × String)}
  {d0 : XDoc}

theorem columnEdits_snoc (l : List SheetOp) (op : SheetOp) : columnEdits (l ++ [op]) = columnEdits l ++ columnEdits [op] := by
  induction l with
  | nil => rfl
  | cons a l ih => cases a <;> simp [columnEdits, ih]

theorem Edits.cols {b : Build} {sh0 sh : Sheet} {T : List String} {W : List SheetOp} (h : Edits b sh0 T W sh) :
    sh.cols = sh0.cols.map (fun cs => (columnEdits W).foldl setOne cs) := by
  induction h with
  | nil => cases sh0.cols <;> simp [columnEdits]
  | @snoc W sh sh' op t t' _ hrun ht ih =>
    rw [columnEdits_snoc]; simp only [List.foldl_append]
    cases op with
    | write row col cells =>
      simp only [SheetOp.run, Sheet.setRow] at hrun
      split at hrun
      · cases hrun
      · split at hrun
        · cases hrun
        · cases hrun; exact ih
    | rowProps row p => cases hrun; exact ih
    | column col p =>
      cases hrun
      rw [setColumn_cols sh (col, p), ih]
      cases sh0.cols <;> simp [columnEdits]

/-- **C85, columns, exactly.** Under the same hypotheses as `C85_partial`, with any edits of columns. If the sheet in the file has column settings, each column set
shows what was asked for last, each other column what it showed in the file unless a range over it was cut left of it, up to the effect of one save and load
(C35). If it has none, the saved sheet has none either. -/
theorem C85_columns_partial (hst : env.build.release = true → StampOk env.stamp) (he : PrintsF32 env) (hz : (akeys z).Nodup)
    (h : EditedSheet env theme z ops path edits x s) (h0 : zipDoc env z path = some d0) (ht : Tidy d0) (hc : ColumnsNamed d0)
    (hs : s.x.toZip env now exts = .ok z') : ∃ sh0 d sh, (Sheet.load env d0).1 = .ok sh0 ∧ zipDoc env z' path = some d ∧ (Sheet.load env d).1 = .ok sh ∧
      (∀ cs, sh0.cols = some cs → ∀ c,
        (∀ p, lastColumn c (columnEdits edits) = some p → columnAt sh c = (p.map (fun p => reloadCol (settings p))).toList) ∧
        (lastColumn c (columnEdits edits) = none →
          (columnAt sh c).Perm ((cs.filter (fun r => decide (Spans r c))).map (fun r => reloadCol (kept r (columnEdits edits) c))))) ∧
      (sh0.cols = none → ∀ c, columnAt sh c = []) := by
  obtain ⟨sh0, d1, sh, d', h1, h2, h3, h4, h5, h6, h7, h8⟩ := edited_saved hst he hz h h0 ht hc hs
  have hsl := savedLoaded_total h2 h3
  refine ⟨sh0, _, _, by rw [h1], h4, h5, ?_, ?_⟩
  · intro cs hcs c
    have hat := setAll_at cs (columnEdits edits) c
    have hcol : sh.cols.getD [] = (columnEdits edits).foldl setOne cs := by rw [h6.cols, hcs]; rfl
    rw [C35_partial env _ _ _ h2 hsl c, columnAt_spans, hcol]
    refine ⟨?_, ?_⟩
    · intro p hp
      rw [hat.1 p hp]
      cases p <;> rfl
    · intro hp
      have := (hat.2 hp).map reloadCol
      rw [List.map_map (f := fun r => kept r (columnEdits edits) c)] at this
      exact this
  · intro hcs c
    have hcol : sh.cols.getD [] = [] := by rw [h6.cols, hcs]; rfl
    rw [C35_partial env _ _ _ h2 hsl c, columnAt_spans, hcol]
    rfl

/-! ## A sheet with hidden columns -/

/-- A workbook whose first sheet hides the columns B to H. -/
def colBook : Zip :=
  exBook.map (fun e => if e.1 = "xl/worksheets/sheet1.xml" then
    (e.1, "<worksheet><cols><col min=\"2\" max=\"8\" hidden=\"1\"/></cols><sheetData/></worksheet>".toList) else e)

/-- The sheet as the file has it. -/
def colDoc : XDoc :=
  ⟨[], some (.mk "worksheet" (some []) none [.mk "cols" (some []) none [.mk "col" (some [("min", "2"), ("max", "8"), ("hidden", "1")]) none []],
    .mk "sheetData" (some []) none []])⟩

/-- Column D is made visible with a width. -/
def colEdit : SheetOp := .column 4 (some { width := some "20" })

/-- Ask for the sheet, set the column, drop the sheet, save. -/
def colEdited (chk : Session → SheetHandle → Session → SheetHandle → Zip → Bool) : Bool :=
  match Excel.openFile exEnv exTheme colBook with
  | .error _ => false
  | .ok x =>
    match Session.step exEnv ⟨x, []⟩ (.get "A") with
    | (.ok (), s1) =>
      match s1.handles[0]?, s1.run exEnv [.sheet 0 colEdit] with
      | some h, .ok s2 =>
        match s2.handles[0]? with
        | some g =>
          match (s2.step exEnv (.drop 0)).2.x.toZip exEnv "now" exExts with
          | .ok z' => chk s1 h s2 g z'
          | .error _ => false
        | none => false
      | _, _ => false
    | _ => false

/-- The hypotheses of C85 hold of this sheet and this edit; in the saved file C is hidden, D has its width, F is no longer hidden. -/
theorem colEdited_facts : ∃ x s z' d, EditedSheet exEnv exTheme colBook [.get "A", .sheet 0 colEdit, .drop 0] "xl/worksheets/sheet1.xml" [colEdit] x s ∧
    zipDoc exEnv colBook "xl/worksheets/sheet1.xml" = some colDoc ∧ Tidy colDoc ∧ ColumnsNamed colDoc ∧ s.x.toZip exEnv "now" exExts = .ok z' ∧
    zipDoc exEnv z' "xl/worksheets/sheet1.xml" = some d ∧
    ∃ sh0 sh, (Sheet.load exEnv colDoc).1 = .ok sh0 ∧ (Sheet.load exEnv d).1 = .ok sh ∧
      [3, 4, 6].map (fun c => (columnAt sh0 c).map (fun p => (p.hidden, p.width))) = [[(some true, none)], [(some true, none)], [(some true, none)]] ∧
      [3, 4, 6].map (fun c => (columnAt sh c).map (fun p => (p.hidden, p.width))) = [[(some true, none)], [(none, some "20")], [(none, none)]] := by
  have key : colEdited (fun s1 h s2 g z' => decide (s1.handles.length = 1) && decide (h.path = "xl/worksheets/sheet1.xml") &&
      decide (writesTo exEnv "xl/worksheets/sheet1.xml" s1 [.sheet 0 colEdit] = [colEdit]) && decide (g.handle = h.handle) &&
      decide ((zipDoc exEnv z' "xl/worksheets/sheet1.xml").bind (fun d => ((Sheet.load exEnv d).1.toOption.map (fun sh =>
        [3, 4, 6].map (fun c => (columnAt sh c).map (fun p => (p.hidden, p.width)))))) =
        some [[(some true, none)], [(none, some "20")], [(none, none)]])) = true := by decide +kernel
  unfold colEdited at key
  split at key
  · cases key
  · next x hx =>
    split at key
    · next s1 h1 =>
      split at key
      · next h s2 hh hrun =>
        split at key
        · next g hg =>
          split at key
          · next z' hz' =>
            simp only [Bool.and_eq_true, decide_eq_true_eq] at key
            obtain ⟨⟨⟨⟨k1, k2⟩, k3⟩, k4⟩, k6⟩ := key
            cases hd : zipDoc exEnv z' "xl/worksheets/sheet1.xml" with
            | none => rw [hd] at k6; cases k6
            | some d =>
              rw [hd] at k6
              simp only [Option.bind_some] at k6
              obtain ⟨sh, hsh, e6⟩ := map_some_eq k6
              refine ⟨x, _, z', d, ⟨[], "A", [.sheet 0 colEdit], 0, _, [], rfl, ⟨⟨x, []⟩, s1, h, s2, g, ⟨hx, rfl⟩, h1, ?_, k2, hrun, ?_, k3.symm, hg, k4, rfl⟩, rfl, trivial, trivial⟩,
                ?_, ?_, ?_, hz', hd, ?_⟩
              · obtain ⟨a, ha⟩ := List.length_eq_one_iff.mp k1
                rw [ha] at hh ⊢
                cases hh; rfl
              · intro i o hm
                simp only [colEdit, List.mem_cons, List.not_mem_nil, or_false, WbOp.sheet.injEq] at hm
                obtain ⟨_, rfl⟩ := hm
                refine ⟨trivial, by decide, ?_⟩
                intro c hc
                cases hc
                refine ⟨by decide, by decide, (fun g hg => by cases hg), ?_⟩
                intro t ht
                cases ht
                exact ⟨(isFloatText_iff "20").mp (by decide +kernel), rfl⟩
              · obtain ⟨d, e1, e2⟩ := map_some_eq (f := id) (o := zipDoc exEnv colBook "xl/worksheets/sheet1.xml") (v := colDoc) (by decide +kernel)
                rw [e1]; exact congrArg some e2
              · exact ⟨(fun kv hkv => by cases hkv), _, _, _, rfl⟩
              · intro n hn ht row hrow c hc ref href
                simp only [colDoc, XDoc.rootChildren, Node.children, List.mem_cons, List.not_mem_nil, or_false] at hn
                rcases hn with rfl | rfl
                · exact absurd ht (by decide)
                · simp [Node.children] at hrow
              · obtain ⟨sh0, e1, e2⟩ := map_some_eq (o := (Sheet.load exEnv colDoc).1.toOption)
                  (f := fun sh0 => [3, 4, 6].map (fun c => (columnAt sh0 c).map (fun p => (p.hidden, p.width))))
                  (v := [[(some true, none)], [(some true, none)], [(some true, none)]]) (by decide +kernel)
                have get : ∀ {r : Res Sheet} {l}, r.toOption = some l → r = .ok l := by
                  intro r l h; cases r with | error _ => cases h | ok _ => exact congrArg _ (Option.some.inj h)
                exact ⟨sh0, sh, get e1, get hsh, e2, e6⟩
          · cases key
        · cases key
      · cases key
    · cases key

/-- C85 for columns as one would wish it: columns that are not set show what they showed. -/
def ColumnsKept (env : Env) (theme : XDoc) : Prop :=
  ∀ z ops path edits x s now exts z' d0 d sh0 sh, (akeys z).Nodup → EditedSheet env theme z ops path edits x s → zipDoc env z path = some d0 → Tidy d0 → ColumnsNamed d0 →
    s.x.toZip env now exts = .ok z' → zipDoc env z' path = some d → (Sheet.load env d0).1 = .ok sh0 → (Sheet.load env d).1 = .ok sh →
    ∀ c, (∀ p, SheetOp.column c p ∉ edits) → (columnAt sh c).map (·.hidden) = (columnAt sh0 c).map (·.hidden)

/-- **C85 is false for columns**: making one column visible shows all columns to its right in the range. -/
theorem C85_violated : ¬ ColumnsKept exEnv exTheme := by
  intro hk
  obtain ⟨x, s, z', d, h1, h2, h3, h4, h5, h6, sh0, sh, h7, h8, h9, h10⟩ := colEdited_facts
  have := hk colBook _ _ _ x s "now" exExts z' colDoc d sh0 sh (by decide +kernel) h1 h2 h3 h4 h5 h6 h7 h8 6 (by intro p hp; simp [colEdit] at hp)
  simp only [List.map_cons, List.map_nil, List.cons.injEq, and_true] at h9 h10
  have a := congrArg (List.map Prod.fst) h9.2.2
  have b := congrArg (List.map Prod.fst) h10.2.2
  rw [List.map_map] at a b
  have a' : (columnAt sh0 6).map (·.hidden) = [some true] := a
  have b' : (columnAt sh 6).map (·.hidden) = [none] := b
  rw [a', b'] at this
  cases this

end Oxml
