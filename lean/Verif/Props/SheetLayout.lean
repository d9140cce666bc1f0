import Verif.Proofs.SheetXmlRows
import Verif.Props.SheetXml
/-!
# C90, C91: rows, columns and views of the sheets of an existing workbook
-/
namespace Oxml
open Spec

variable {env : Env} {theme : XDoc} {z z' : Zip} {ops : List WbOp} {x : Excel} {path : String} {edits : List SheetOp} {s : Session} {now : String} {exts : List (String × String)}
  {d0 : XDoc}

/-- **C90 (partial).** Open a workbook file, ask for one of its sheets, edit it through the handle while doing anything else, drop the handle, go on without asking
for it again, save. A row that was given no properties looks in the saved file as in the file opened, if flags are not written `true`: hidden or not, height, style,
outline. -/
theorem C90_partial_rows (hst : env.build.release = true → StampOk env.stamp) (he : PrintsF32 env) (hz : (akeys z).Nodup)
    (h : EditedSheet env theme z ops path edits x s) (h0 : zipDoc env z path = some d0) (ht : Tidy d0) (hc : ColumnsNamed d0) (hn : NumberedRows d0)
    (hp : ∀ n ∈ rowElements d0, PlainRow env n) (hs : s.x.toZip env now exts = .ok z') : ∃ d, zipDoc env z' path = some d ∧
      ∀ r, lastProps r edits = none → rowSaidAt d r = rowSaidAt d0 r := by
  obtain ⟨sh0, d1, sh, d', h1, h2, h3, h4, h5, h6, h7, h8⟩ := edited_saved hst he hz h h0 ht hc hs
  obtain ⟨_, _, f2, _⟩ := h6.facts (load_sorted h1) (load_fits he h1) h7 h8
  refine ⟨_, h4, fun r hr => ?_⟩
  rw [rowSaidAt_save h2 h3, rowSaidAt_load h1 hn hp, f2, hr]
  rfl

/-- **C90 (partial).** If no column was given properties, the column ranges are those of the file, in the same order, with the same width, style and visibility;
without outline level, and not collapsed. -/
theorem C90_partial_columns (hst : env.build.release = true → StampOk env.stamp) (he : PrintsF32 env) (hz : (akeys z).Nodup)
    (h : EditedSheet env theme z ops path edits x s) (h0 : zipDoc env z path = some d0) (ht : Tidy d0) (hc : ColumnsNamed d0)
    (hn : (d0.rootChildren.filter (fun n => n.tag = "cols")).length ≤ 1) (hp : ∀ n ∈ colElements d0, PlainCol env n)
    (hno : ∀ c p, SheetOp.column c p ∉ edits) (hs : s.x.toZip env now exts = .ok z') : ∃ d, zipDoc env z' path = some d ∧
      (colElements d).map colSaid = (colElements d0).map (fun n => { colSaid n with level := "0", collapsed := false }) := by
  obtain ⟨sh0, d1, sh, d', h1, h2, h3, h4, h5, h6, h7, h8⟩ := edited_saved hst he hz h h0 ht hc hs
  obtain ⟨_, _, _, f3, _⟩ := h6.facts (load_sorted h1) (load_fits he h1) h7 h8
  refine ⟨_, h4, ?_⟩
  rw [colElements_save h2 h3, colElements_load h1 hn hp, f3 hno]

/-- **C90, violated.** Whatever the file and the calls: once the sheet was opened, no column in the saved sheet is part of an outline. -/
theorem C90_violated_columns (hst : env.build.release = true → StampOk env.stamp) (he : PrintsF32 env) (hz : (akeys z).Nodup)
    (h : EditedSheet env theme z ops path edits x s) (h0 : zipDoc env z path = some d0) (ht : Tidy d0) (hc : ColumnsNamed d0)
    (hs : s.x.toZip env now exts = .ok z') : ∃ d, zipDoc env z' path = some d ∧ ∀ v ∈ (colElements d).map colSaid, v.level = "0" ∧ v.collapsed = false := by
  obtain ⟨sh0, d1, sh, d', h1, h2, h3, h4, _⟩ := edited_saved hst he hz h h0 ht hc hs
  refine ⟨_, h4, ?_⟩
  rw [colElements_save h2 h3]
  intro v hv
  obtain ⟨c, _, rfl⟩ := List.mem_map.mp hv
  exact ⟨rfl, rfl⟩

/-- **C91 (partial).** Open a workbook file, ask for one of its sheets, edit it through the handle while doing anything else, drop the handle, go on without asking
for it again, save. The settings of the sheet's views are those of the file, in reverse order and followed by a view without settings. -/
theorem C91_partial (hst : env.build.release = true → StampOk env.stamp) (he : PrintsF32 env) (hz : (akeys z).Nodup)
    (h : EditedSheet env theme z ops path edits x s) (h0 : zipDoc env z path = some d0) (ht : Tidy d0) (hc : ColumnsNamed d0)
    (hn : (d0.rootChildren.filter (fun n => n.tag = "sheetViews")).length ≤ 1) (hp : ∀ n ∈ viewElements d0, PlainView n)
    (hs : s.x.toZip env now exts = .ok z') : ∃ d, zipDoc env z' path = some d ∧
      (viewElements d).map viewSaid = ((viewElements d0).map viewSaid).reverse ++ [bareView] := by
  obtain ⟨sh0, d1, sh, d', h1, h2, h3, h4, h5, h6, h7, h8⟩ := edited_saved hst he hz h h0 ht hc hs
  obtain ⟨_, _, _, _, f4⟩ := h6.facts (load_sorted h1) (load_fits he h1) h7 h8
  refine ⟨_, h4, ?_⟩
  rw [viewElements_save h2 h3, f4, List.map_map, ← List.reverse_singleton, ← List.reverse_append, List.singleton_append, ← viewElements_load h1 hn hp, ← List.map_reverse]
  apply List.map_congr_left
  intro v _
  exact viewSaid_reload v

/-- **C91, violated.** Whatever the file and the calls: once the sheet was opened, no view in the saved sheet has panes or selections. -/
theorem C91_violated_always (hst : env.build.release = true → StampOk env.stamp) (he : PrintsF32 env) (hz : (akeys z).Nodup)
    (h : EditedSheet env theme z ops path edits x s) (h0 : zipDoc env z path = some d0) (ht : Tidy d0) (hc : ColumnsNamed d0)
    (hs : s.x.toZip env now exts = .ok z') : ∃ d, zipDoc env z' path = some d ∧ viewElements d ≠ [] ∧ ∀ n ∈ viewElements d, n.children = [] := by
  obtain ⟨sh0, d1, sh, d', h1, h2, h3, h4, h5, h6, h7, h8⟩ := edited_saved hst he hz h h0 ht hc hs
  obtain ⟨_, _, _, _, f4⟩ := h6.facts (load_sorted h1) (load_fits he h1) h7 h8
  refine ⟨_, h4, ?_, ?_⟩
  · rw [viewElements_save h2 h3, f4]
    obtain ⟨_, _, hv, _⟩ := load_ok h1
    unfold viewsOf at hv
    have hne : sh0.views ≠ [] := by
      intro e
      rw [e] at hv
      split at hv
      · exact absurd (Except.ok.inj hv) (by simp)
      · split at hv
        · cases hv
        · exact absurd (Except.ok.inj hv) (by simp)
    simpa using hne
  · rw [viewElements_save h2 h3]
    intro n hn
    obtain ⟨v, _, rfl⟩ := List.mem_map.mp hn
    rw [reload_children_of_none rfl]
    rfl

/-! ## Examples -/

/-- A frozen first row, columns of which one is grouped, a hidden row and one hidden the other way. -/
def exLayoutText : List Char :=
  "<worksheet><sheetViews><sheetView workbookViewId=\"0\" showGridLines=\"0\" zoomScale=\"80\"><pane ySplit=\"1\" topLeftCell=\"A2\" state=\"frozen\"/>".toList ++
  "</sheetView></sheetViews><cols><col min=\"1\" max=\"1\" width=\"20\" customWidth=\"1\"/><col min=\"2\" max=\"3\" hidden=\"1\" outlineLevel=\"1\"/></cols>".toList ++
  "<sheetData><row r=\"1\" ht=\"30\" customHeight=\"1\"><c r=\"A1\"><v>5</v></c></row><row r=\"2\" hidden=\"1\"/>".toList ++
  "<row r=\"3\" hidden=\"true\"/></sheetData></worksheet>".toList

/-- The same without the second kind of hiding. -/
def exLayoutPlain : List Char :=
  "<worksheet><sheetViews><sheetView workbookViewId=\"0\" showGridLines=\"0\" zoomScale=\"80\"></sheetView></sheetViews>".toList ++
  "<cols><col min=\"1\" max=\"1\" width=\"20\" customWidth=\"1\"/><col min=\"2\" max=\"3\" hidden=\"1\"/></cols>".toList ++
  "<sheetData><row r=\"1\" ht=\"30\" customHeight=\"1\"><c r=\"A1\"><v>5</v></c></row><row r=\"2\" hidden=\"1\"/></sheetData></worksheet>".toList

/-- Rows, columns and views of a document. -/
def layoutOf (d : XDoc) : List RowSaid × List ColSaid × List (ViewSaid × List Node) :=
  ([1, 2, 3].map (rowSaidAt d), (colElements d).map colSaid, (viewElements d).map (fun n => (viewSaid n, n.children)))

/-- The view of the example. -/
def exViewSaid : ViewSaid := { bareView with switches := [none, none, some false, none, none, none, none, none, none, none, none], numbers := [some "80", none, none, none] }

def exLayoutBefore : List RowSaid × List ColSaid × List (ViewSaid × List Node) :=
  ([{ height := some "30" }, { hidden := true }, { hidden := true }], [⟨"1", "1", some "20", false, false, "0", "0", false⟩, ⟨"2", "3", none, true, false, "0", "1", false⟩],
   [(exViewSaid, [.mk "pane" (some [("ySplit", "1"), ("topLeftCell", "A2"), ("state", "frozen")]) none []])])

def exLayoutAfter : List RowSaid × List ColSaid × List (ViewSaid × List Node) :=
  ([{ height := some "30" }, { hidden := true }, {}], [⟨"1", "1", some "20", false, false, "0", "0", false⟩, ⟨"2", "3", none, true, false, "0", "0", false⟩],
   [(exViewSaid, []), (bareView, [])])

/-- What comes out, computed. -/
def exLayoutChk (want : List RowSaid × List ColSaid × List (ViewSaid × List Node)) (s : Session) : Bool :=
  match s.x.toZip exEnv "now" exExts with
  | .ok z' => decide ((zipDoc exEnv z' "xl/worksheets/sheet1.xml").map layoutOf = some want)
  | .error _ => false

theorem exLayout_sound {t : List Char} {want : List RowSaid × List ColSaid × List (ViewSaid × List Node)}
    (h : exAgain (exBookWith t) (fun _ s1 h _ g s => exRunChk s1 h g && exLayoutChk want s) = true) :
    ∃ x s z', EditedSheet exEnv exTheme (exBookWith t) (.get "A" :: (exWrite ++ [.drop 0])) "xl/worksheets/sheet1.xml" [.write 1 2 [{ value := some "hello" }]] x s ∧
      s.x.toZip exEnv "now" exExts = .ok z' ∧ (zipDoc exEnv z' "xl/worksheets/sheet1.xml").map layoutOf = some want := by
  obtain ⟨x, s, h1, h2⟩ := exAgain_sound (z := exBookWith t) (chk := fun _ s => exLayoutChk want s) h
  unfold exLayoutChk at h2
  split at h2
  · next z' hz' => exact ⟨x, s, z', ⟨[], "A", exWrite, 0, s, [], rfl, h1, rfl, trivial, trivial⟩, hz', of_decide_eq_true h2⟩
  · cases h2

/-- The frozen row, the outline and the row hidden the other way are gone. -/
theorem exLayout_facts : ∃ x s z', EditedSheet exEnv exTheme (exBookWith exLayoutText) (.get "A" :: (exWrite ++ [.drop 0])) "xl/worksheets/sheet1.xml"
      [.write 1 2 [{ value := some "hello" }]] x s ∧ s.x.toZip exEnv "now" exExts = .ok z' ∧
    (zipDoc exEnv (exBookWith exLayoutText) "xl/worksheets/sheet1.xml").map layoutOf = some exLayoutBefore ∧
    (zipDoc exEnv z' "xl/worksheets/sheet1.xml").map layoutOf = some exLayoutAfter := by
  obtain ⟨x, s, z', h1, h2, h3⟩ := exLayout_sound (t := exLayoutText) (want := exLayoutAfter) (by decide +kernel)
  exact ⟨x, s, z', h1, h2, by decide +kernel, h3⟩

/-- A decimal number, computed. -/
def natChk (o : Option String) : Bool := match o with | none => true | some v => decide ((parseUInt usizeMax v).map toString = some v)

theorem natChk_sound {o : Option String} (h : natChk o = true) (v : String) (hv : o = some v) : ∃ i : Nat, v = toString i := by
  subst hv
  have := of_decide_eq_true h
  cases e : parseUInt usizeMax v with
  | none => rw [e] at this; cases this
  | some i => rw [e] at this; exact ⟨i, (Option.some.inj this).symm⟩

/-- Numbers and texts printed as they are read, computed. -/
def floatChk (o : Option String) : Bool := match o with | none => true | some v => isFloatText v

theorem floatChk_sound {o : Option String} (h : floatChk o = true) (v : String) (hv : o = some v) : Canonical exEnv v := by
  subst hv
  exact ⟨(isFloatText_iff _).mp h, rfl⟩

def numberedChk (x : XDoc) : Bool :=
  decide ((x.rootChildren.filter (fun n => n.tag = "sheetData")).length ≤ 1) && (rowElements x).all (fun n => (n.attr? "r").isSome && natChk (n.attr? "r")) &&
    decide ((rowElements x).map (fun n => n.attr? "r")).Nodup

theorem numberedChk_sound {x : XDoc} (h : numberedChk x = true) : NumberedRows x := by
  simp only [numberedChk, Bool.and_eq_true, decide_eq_true_eq, List.all_eq_true] at h
  refine ⟨h.1.1, fun n hn => ?_, h.2⟩
  obtain ⟨k1, k2⟩ := h.1.2 n hn
  obtain ⟨v, hv⟩ := Option.isSome_iff_exists.mp k1
  obtain ⟨i, hi⟩ := natChk_sound k2 v hv
  exact ⟨i, by rw [hv, hi]⟩

def plainRowChk (n : Node) : Bool :=
  ["hidden", "thickTop", "thickBot", "collapsed", "ph", "customFormat", "customHeight"].all (fun k => decide (n.attr? k ≠ some "true")) &&
    ["s", "outlineLevel"].all (fun k => natChk (n.attr? k)) && floatChk (n.attr? "ht")

theorem plainRowChk_sound {n : Node} (h : plainRowChk n = true) : PlainRow exEnv n := by
  simp only [plainRowChk, Bool.and_eq_true, List.all_eq_true, decide_eq_true_eq] at h
  exact ⟨h.1.1, fun k hk => natChk_sound (h.1.2 k hk), floatChk_sound h.2⟩

def plainColChk (n : Node) : Bool :=
  ["hidden", "bestFit", "collapsed", "customWidth"].all (fun k => decide (n.attr? k ≠ some "true")) &&
    ["min", "max", "style", "outlineLevel"].all (fun k => natChk (n.attr? k)) && floatChk (n.attr? "width")

theorem plainColChk_sound {n : Node} (h : plainColChk n = true) : PlainCol exEnv n := by
  simp only [plainColChk, Bool.and_eq_true, List.all_eq_true, decide_eq_true_eq] at h
  exact ⟨h.1.1, fun k hk => natChk_sound (h.1.2 k hk), floatChk_sound h.2⟩

def plainViewChk (n : Node) : Bool :=
  viewSwitches.all (fun k => (n.attr? k).all (fun v => ["0", "1", "true", "false"].contains v)) && viewNumbers.all (fun k => natChk (n.attr? k)) &&
    ["workbookViewId", "topLeftCell", "view"].all (fun k => (n.attr? k).all (fun v => v.toList.all (fun c => c != '<' && c != '>' && c != '&' && c != '\'' && c != '"')))

theorem plainViewChk_sound {n : Node} (h : plainViewChk n = true) : PlainView n := by
  simp only [plainViewChk, Bool.and_eq_true, List.all_eq_true] at h
  refine ⟨fun k hk v hv => ?_, fun k hk => natChk_sound (h.1.2 k hk), fun k hk v hv => ?_⟩
  · have := h.1.1 k hk
    rw [hv] at this
    simpa using this
  · have := h.2 k hk
    rw [hv] at this
    simp only [Option.all_some, List.all_eq_true, Bool.and_eq_true, bne_iff_ne, ne_eq] at this
    intro c hc
    obtain ⟨⟨⟨⟨a, b⟩, c'⟩, d⟩, e⟩ := this c hc
    exact ⟨a, b, c', d, e⟩

/-- **C90 is violated.** -/
theorem C90_violated : ¬ LayoutKept exEnv exTheme := by
  intro h
  obtain ⟨x, s, z', h1, h2, h3, h4⟩ := exLayout_facts
  have hd : (exDocChk (exBookWith exLayoutText) && numberedChk (exDoc (exBookWith exLayoutText))) = true := by decide +kernel
  obtain ⟨hd1, hd2⟩ := Bool.and_eq_true_iff.mp hd
  obtain ⟨d1, d2, d3⟩ := exDocChk_sound hd1
  obtain ⟨d, e1, e2, _⟩ := h _ _ _ _ x s "now" exExts z' _ (by decide +kernel) h1 d1 d2 d3 (numberedChk_sound hd2) h2
  rw [e1] at h4
  rw [d1] at h3
  have h4 : [1, 2, 3].map (rowSaidAt d) = exLayoutAfter.1 := congrArg Prod.fst (Option.some.inj h4)
  have h3 : [1, 2, 3].map (rowSaidAt (exDoc (exBookWith exLayoutText))) = exLayoutBefore.1 := congrArg Prod.fst (Option.some.inj h3)
  rw [List.map_congr_left (fun r _ => e2 r rfl), h3] at h4
  revert h4
  decide

/-- **C91 is violated.** -/
theorem C91_violated : ¬ ViewsKept exEnv exTheme := by
  intro h
  obtain ⟨x, s, z', h1, h2, h3, h4⟩ := exLayout_facts
  have hd : exDocChk (exBookWith exLayoutText) = true := by decide +kernel
  obtain ⟨d1, d2, d3⟩ := exDocChk_sound hd
  obtain ⟨d, e1, e2⟩ := h _ _ _ _ x s "now" exExts z' _ (by decide +kernel) h1 d1 d2 d3 h2
  rw [e1] at h4
  rw [d1] at h3
  have h4 := congrArg (fun p => p.2.2) (Option.some.inj h4)
  have h3 := congrArg (fun p => p.2.2) (Option.some.inj h3)
  dsimp only [layoutOf] at h3 h4
  rw [h3, h4] at e2
  have := e2 exViewSaid [.mk "pane" (some [("ySplit", "1"), ("topLeftCell", "A2"), ("state", "frozen")]) none []] (by simp [exLayoutBefore])
  simp [exLayoutAfter] at this

/-- The hypotheses of C90_partial_rows, C90_partial_columns and C91_partial hold of the plain sheet. -/
example : ∃ x s z', EditedSheet exEnv exTheme (exBookWith exLayoutPlain) (.get "A" :: (exWrite ++ [.drop 0])) "xl/worksheets/sheet1.xml"
      [.write 1 2 [{ value := some "hello" }]] x s ∧ s.x.toZip exEnv "now" exExts = .ok z' ∧ zipDoc exEnv (exBookWith exLayoutPlain) "xl/worksheets/sheet1.xml" =
        some (exDoc (exBookWith exLayoutPlain)) ∧ Tidy (exDoc (exBookWith exLayoutPlain)) ∧ ColumnsNamed (exDoc (exBookWith exLayoutPlain)) ∧
      NumberedRows (exDoc (exBookWith exLayoutPlain)) ∧ (∀ n ∈ rowElements (exDoc (exBookWith exLayoutPlain)), PlainRow exEnv n) ∧
      (∀ n ∈ colElements (exDoc (exBookWith exLayoutPlain)), PlainCol exEnv n) ∧ (∀ n ∈ viewElements (exDoc (exBookWith exLayoutPlain)), PlainView n) ∧
      (zipDoc exEnv z' "xl/worksheets/sheet1.xml").map layoutOf = some ([{ height := some "30" }, { hidden := true }, {}],
        [⟨"1", "1", some "20", false, false, "0", "0", false⟩, ⟨"2", "3", none, true, false, "0", "0", false⟩], [(exViewSaid, []), (bareView, [])]) := by
  obtain ⟨x, s, z', h1, h2, h3⟩ := exLayout_sound (t := exLayoutPlain) (want := exLayoutAfter) (by decide +kernel)
  have hd : (exDocChk (exBookWith exLayoutPlain) && numberedChk (exDoc (exBookWith exLayoutPlain)) && (rowElements (exDoc (exBookWith exLayoutPlain))).all plainRowChk &&
      (colElements (exDoc (exBookWith exLayoutPlain))).all plainColChk && (viewElements (exDoc (exBookWith exLayoutPlain))).all plainViewChk) = true := by decide +kernel
  simp only [Bool.and_eq_true, List.all_eq_true] at hd
  obtain ⟨⟨⟨⟨k1, k2⟩, k3⟩, k4⟩, k5⟩ := hd
  obtain ⟨d1, d2, d3⟩ := exDocChk_sound k1
  exact ⟨x, s, z', h1, h2, d1, d2, d3, numberedChk_sound k2, fun n hn => plainRowChk_sound (k3 n hn), fun n hn => plainColChk_sound (k4 n hn),
    fun n hn => plainViewChk_sound (k5 n hn), h3⟩

end Oxml
