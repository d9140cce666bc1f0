import Verif.Proofs.SeenRows
import Verif.Props.SeenStyles
/-!
# C108: other programs find the rows and columns as they were set
-/
namespace Oxml
open Spec

variable {env : Env} {theme : XDoc}

/-- What other programs find of the rows and columns of a sheet written and dropped, in terms of what was done. -/
theorem rows_found (hst : env.build.release = true → StampOk env.stamp) (hsx : env.build.release = true → StampXml env.stamp) {ops ops' : List WbOp} {x : Excel}
    {s s' : Session} (hx : Excel.new env theme = .ok x) (hr : Session.run env ⟨x, []⟩ ops = .ok s) (hf : FittingOps env ops) {i : Nat} {h : SheetHandle}
    (hi : s.handles[i]? = some h) (hr' : (s.step env (.drop i)).2.run env ops' = .ok s') (hca : Careful env ⟨x, []⟩ (ops ++ .drop i :: ops'))
    (ht : ∀ op ∈ ops ++ ops', ∀ t ∈ givenTexts op, XmlChars t) (hc : ∀ n ∈ names s'.x.sheets, CalmName n) {name : String}
    (hn : finalName env (s.step env (.drop i)).2 h.name ops' = some name) {now : String} (hnow : XmlChars now) {exts : List (String × String)}
    (he : ∀ p, s'.x.saved env now = .ok p → HashSetOrder p.extPairs exts) :
    ∃ z, s'.x.toZip env now exts = .ok z ∧ (∃ sheet, FindsSheet z name.toList sheet) ∧ ∀ sheet, FindsSheet z name.toList sheet →
      seenCols sheet = [] ∧ ∀ r,
        ((¬∃ o ∈ writesTo env h.path ⟨x, []⟩ ops, o.touches r) → rowsNumbered sheet r = []) ∧
        ((∃ o ∈ writesTo env h.path ⟨x, []⟩ ops, o.touches r) →
          rowsNumbered sheet r = [seenRowOf r ((lastProps r (writesTo env h.path ⟨x, []⟩ ops)).getD {})]) := by
  obtain ⟨z, again, xd, p, ct, hz, _, hxd, hdx, _, m2, _, _, _, _, _, hW⟩ := dropped_part hst hx hr hf hi hr' ht now exts
  obtain ⟨p', text, _, hm, ⟨sheet0, hs0⟩, hfind⟩ := finds_dropped hst hsx hx hr hi hr' hca ht hc hn hnow he hz
  refine ⟨z, hz, ⟨sheet0, (hfind sheet0).mpr hs0⟩, fun sheet hs => ?_⟩
  have hmem := List.mem_of_getElem? hi
  obtain ⟨f1, f2, _⟩ := hW.fit h hmem
  have hT : RowsTold (writesTo env h.path ⟨x, []⟩ ops) h.data := by
    rw [new_eq env theme] at hx
    cases hx
    exact ran_tells (rowsTold env) hst hf hr h hmem
  have hdoc := (hfind sheet).mp hs
  rw [m2 text hm] at hdoc
  obtain ⟨hrows, hcols⟩ := sheet_rows hxd f2 hdx hsx hdoc
  refine ⟨hcols hT.cols, fun r => ?_⟩
  have hsorted : SortedKeys (h.data.data.getD []) := by
    cases hd : h.data.data with
    | none => exact List.Pairwise.nil
    | some d => exact (f1 d hd).1
  unfold rowsNumbered
  rw [hrows, rows_at hsorted]
  constructor
  · intro hno
    cases ha : aget r (h.data.data.getD []) with
    | none => rfl
    | some rd => exact absurd ((hT.there r).mp ⟨rd, ha⟩) hno
  · intro hyes
    obtain ⟨rd, ha⟩ := (hT.there r).mpr hyes
    rw [← hT.props r, ha]
    unfold rowPropsAt
    cases hd : h.data.data with
    | none => rw [hd] at ha; cases ha
    | some d =>
      rw [hd] at ha
      simp only [Option.getD_some] at ha
      simp only [ha]
      rfl

/-- **C108, rows.** A sheet is written through its handle, the handle is dropped, the session goes on with careful calls and the workbook is saved. In the sheet other
programs find under its name there is no row that was not touched, and every row touched is there once, with the height, style, level and
switches last given to it, and as in an untouched row if nothing was given. Missing: switches turned off explicitly (`C108_violated`), columns (`C108_violated_columns`),
handles still open when saving. -/
theorem C108_partial (hst : env.build.release = true → StampOk env.stamp) (hsx : env.build.release = true → StampXml env.stamp) {ops ops' : List WbOp} {x : Excel}
    {s s' : Session} (hx : Excel.new env theme = .ok x) (hr : Session.run env ⟨x, []⟩ ops = .ok s) (hf : FittingOps env ops) {i : Nat} {h : SheetHandle}
    (hi : s.handles[i]? = some h) (hr' : (s.step env (.drop i)).2.run env ops' = .ok s') (hca : Careful env ⟨x, []⟩ (ops ++ .drop i :: ops'))
    (ht : ∀ op ∈ ops ++ ops', ∀ t ∈ givenTexts op, XmlChars t) (hc : ∀ n ∈ names s'.x.sheets, CalmName n) {name : String}
    (hn : finalName env (s.step env (.drop i)).2 h.name ops' = some name) {now : String} (hnow : XmlChars now) {exts : List (String × String)}
    (he : ∀ p, s'.x.saved env now = .ok p → HashSetOrder p.extPairs exts) :
    ∃ z, s'.x.toZip env now exts = .ok z ∧ (∃ sheet, FindsSheet z name.toList sheet) ∧ ∀ sheet, FindsSheet z name.toList sheet → ∀ r,
      ((¬∃ o ∈ writesTo env h.path ⟨x, []⟩ ops, o.touches r) → rowsNumbered sheet r = []) ∧
      ((∃ o ∈ writesTo env h.path ⟨x, []⟩ ops, o.touches r) → ∀ p, (lastProps r (writesTo env h.path ⟨x, []⟩ ops)).getD {} = p → NothingOff p →
        rowsNumbered sheet r = [wantedRow r p]) := by
  obtain ⟨z, hz, hs, hall⟩ := rows_found hst hsx hx hr hf hi hr' hca ht hc hn hnow he
  refine ⟨z, hz, hs, fun sheet h1 r => ⟨((hall sheet h1).2 r).1, fun hy p hp hoff => ?_⟩⟩
  rw [((hall sheet h1).2 r).2 hy, hp, seenRowOf_wanted hoff]

theorem touched_of_props {r : Nat} {l : List SheetOp} {p : RowProps} (h : lastProps r l = some p) : ∃ o ∈ l, o.touches r := by
  induction l with
  | nil => cases h
  | cons o l ih =>
    cases hl : lastProps r l with
    | some q =>
      obtain ⟨o', h1, h2⟩ := ih (hl.trans (by simp only [lastProps, hl] at h; exact h))
      exact ⟨o', List.mem_cons_of_mem _ h1, h2⟩
    | none =>
      cases o with
      | rowProps row q =>
        simp only [lastProps, hl] at h
        by_cases hr : row = r
        · exact ⟨_, List.mem_cons_self, hr⟩
        · rw [if_neg hr] at h; cases h
      | write row col cells => simp only [lastProps, hl] at h; cases h
      | column c q => simp only [lastProps, hl] at h; cases h

/-- **C108 fails, always, for switches turned off.** A row given `hidden: Some(false)` is hidden in other programs, and likewise for the other switches. -/
theorem C108_violated (hst : env.build.release = true → StampOk env.stamp) (hsx : env.build.release = true → StampXml env.stamp) {ops ops' : List WbOp} {x : Excel}
    {s s' : Session} (hx : Excel.new env theme = .ok x) (hr : Session.run env ⟨x, []⟩ ops = .ok s) (hf : FittingOps env ops) {i : Nat} {h : SheetHandle}
    (hi : s.handles[i]? = some h) (hr' : (s.step env (.drop i)).2.run env ops' = .ok s') (hca : Careful env ⟨x, []⟩ (ops ++ .drop i :: ops'))
    (ht : ∀ op ∈ ops ++ ops', ∀ t ∈ givenTexts op, XmlChars t) (hc : ∀ n ∈ names s'.x.sheets, CalmName n) {name : String}
    (hn : finalName env (s.step env (.drop i)).2 h.name ops' = some name) {now : String} (hnow : XmlChars now) {exts : List (String × String)}
    (he : ∀ p, s'.x.saved env now = .ok p → HashSetOrder p.extPairs exts) {r : Nat} {p : RowProps} (hp : lastProps r (writesTo env h.path ⟨x, []⟩ ops) = some p) :
    ∃ z, s'.x.toZip env now exts = .ok z ∧ (∃ sheet, FindsSheet z name.toList sheet) ∧ ∀ sheet, FindsSheet z name.toList sheet → ∃ row, rowsNumbered sheet r = [row] ∧
      (p.hidden = some false → row.hidden = true) ∧ (p.collapsed = some false → row.collapsed = true) ∧ (p.thickTop = some false → row.thickTop = true) ∧
      (p.thickBottom = some false → row.thickBottom = true) ∧ (p.placeHolder = some false → row.phonetic = true) := by
  obtain ⟨z, hz, hs, hall⟩ := rows_found hst hsx hx hr hf hi hr' hca ht hc hn hnow he
  refine ⟨z, hz, hs, fun sheet h1 => ⟨_, ((hall sheet h1).2 r).2 (touched_of_props hp), ?_⟩⟩
  rw [hp, Option.getD_some]
  refine ⟨?_, ?_, ?_, ?_, ?_⟩ <;> (intro e; simp only [seenRowOf, e]; rfl)

/-- **C108 fails, always, for columns.** In a sheet of a new workbook other programs find no column settings at all, whatever was set: no width, no hiding, no style. -/
theorem C108_violated_columns (hst : env.build.release = true → StampOk env.stamp) (hsx : env.build.release = true → StampXml env.stamp) {ops ops' : List WbOp} {x : Excel}
    {s s' : Session} (hx : Excel.new env theme = .ok x) (hr : Session.run env ⟨x, []⟩ ops = .ok s) (hf : FittingOps env ops) {i : Nat} {h : SheetHandle}
    (hi : s.handles[i]? = some h) (hr' : (s.step env (.drop i)).2.run env ops' = .ok s') (hca : Careful env ⟨x, []⟩ (ops ++ .drop i :: ops'))
    (ht : ∀ op ∈ ops ++ ops', ∀ t ∈ givenTexts op, XmlChars t) (hc : ∀ n ∈ names s'.x.sheets, CalmName n) {name : String}
    (hn : finalName env (s.step env (.drop i)).2 h.name ops' = some name) {now : String} (hnow : XmlChars now) {exts : List (String × String)}
    (he : ∀ p, s'.x.saved env now = .ok p → HashSetOrder p.extPairs exts) :
    ∃ z, s'.x.toZip env now exts = .ok z ∧ (∃ sheet, FindsSheet z name.toList sheet) ∧ ∀ sheet, FindsSheet z name.toList sheet → seenCols sheet = [] := by
  obtain ⟨z, hz, hs, hall⟩ := rows_found hst hsx hx hr hf hi hr' hca ht hc hn hnow he
  exact ⟨z, hz, hs, fun sheet h1 => (hall sheet h1).1⟩

/-- **C107, rows.** A row given a style by its last setting is found by other programs with that font, fill, border and alignment. -/
theorem C107_rows_partial (hst : env.build.release = true → StampOk env.stamp) (hsx : env.build.release = true → StampXml env.stamp) {ops ops' : List WbOp} {x : Excel}
    {s s' : Session} (hx : Excel.new env theme = .ok x) (hr : Session.run env ⟨x, []⟩ ops = .ok s) (hf : FittingOps env ops) {i : Nat} {h : SheetHandle}
    (hi : s.handles[i]? = some h) (hr' : (s.step env (.drop i)).2.run env ops' = .ok s') (hca : Careful env ⟨x, []⟩ (ops ++ .drop i :: ops'))
    (ht : ∀ op ∈ ops ++ ops', ∀ t ∈ givenTexts op, XmlChars t) (hc : ∀ n ∈ names s'.x.sheets, CalmName n) {name : String}
    (hn : finalName env (s.step env (.drop i)).2 h.name ops' = some name) {setting : StyleSetting} {id : Nat}
    (ha : AskedFor env ⟨x, []⟩ (ops ++ .drop i :: ops') setting id) {r : Nat} {p : RowProps} (hp : lastProps r (writesTo env h.path ⟨x, []⟩ ops) = some p)
    (hg : p.style = some id) {now : String} (hnow : XmlChars now) {exts : List (String × String)}
    (he : ∀ p, s'.x.saved env now = .ok p → HashSetOrder p.extPairs exts) :
    ∃ z, s'.x.toZip env now exts = .ok z ∧ (∃ sheet styles, FindsSheet z name.toList sheet ∧ FindsStyles z styles) ∧
      ∀ sheet styles, FindsSheet z name.toList sheet → FindsStyles z styles →
        ∃ row number, rowsNumbered sheet r = [row] ∧ row.style = some number ∧ LooksElsewhere styles number setting := by
  obtain ⟨z, hz, ⟨sheet0, w1⟩, hall⟩ := rows_found hst hsx hx hr hf hi hr' hca ht hc hn hnow he
  have hrun : Session.run env ⟨x, []⟩ (ops ++ .drop i :: ops') = .ok s' := by
    rw [run_split hr]
    have : s.step env (.drop i) = (.ok (), (s.step env (.drop i)).2) := by simp only [Session.step, hi]
    rw [Session.run, this]
    exact hr'
  have ht' : ∀ op ∈ ops ++ .drop i :: ops', ∀ t ∈ givenTexts op, XmlChars t := by
    intro op ho t htx
    rcases List.mem_append.mp ho with ho | ho
    · exact ht op (List.mem_append_left _ ho) t htx
    · rcases List.mem_cons.mp ho with rfl | ho
      · cases htx
      · exact ht op (List.mem_append_right _ ho) t htx
  obtain ⟨z', hz', ⟨styles0, q1⟩, q2⟩ := C107_styles_partial hst hsx hx hrun ht' ha hnow he
  rw [hz] at hz'
  cases hz'
  refine ⟨z, hz, ⟨sheet0, styles0, w1, q1⟩, fun sheet styles h1 h2 => ⟨_, _, ((hall sheet h1).2 r).2 (touched_of_props hp), ?_, (q2 styles h2).1⟩⟩
  rw [hp, Option.getD_some]
  simp only [seenRowOf, wantedRow, hg]
  rfl

/-! ## Cases -/

/-- Rows 3 and 5 and column B of a new sheet are set; row 3 is to be shown, row 5 hidden and bold. -/
def tallOps : List WbOp :=
  [.add (some "a"), .style demoHash bigBold, .sheet 0 (.rowProps 3 { height := some "30", hidden := some false, groupLevel := some 2 }),
    .sheet 0 (.rowProps 5 { height := some "12.5", hidden := some true, style := some 1 }), .sheet 0 (.column 2 (some { width := some "20" }))]

theorem tallOps_fit : FittingOps C32_env tallOps := by
  intro i o ho
  simp only [tallOps, List.mem_cons, List.not_mem_nil, or_false, WbOp.sheet.injEq, reduceCtorEq, false_or] at ho
  have num : ∀ t, isFloatText t = true → Canonical C32_env t := fun t ht => ⟨(isFloatText_iff t).mp ht, rfl⟩
  rcases ho with ⟨_, rfl⟩ | ⟨_, rfl⟩ | ⟨_, rfl⟩
  · refine ⟨trivial, by decide, (fun g h => by cases h), (fun g h => by cases h; decide), fun t h => by cases h; exact num _ (by decide +kernel)⟩
  · refine ⟨trivial, by decide, (fun g h => by cases h; decide), (fun g h => by cases h), fun t h => by cases h; exact num _ (by decide +kernel)⟩
  · refine ⟨trivial, by decide, fun c h => ?_⟩
    cases h
    exact ⟨by decide, by decide, (fun g h => by cases h), fun t h => by cases h; exact num _ (by decide +kernel)⟩

theorem tallOps_texts : ∀ op ∈ tallOps ++ [], ∀ t ∈ givenTexts op, XmlChars t := by
  intro op ho t ht
  have hm : t ∈ (tallOps ++ []).flatMap givenTexts := List.mem_flatMap.mpr ⟨op, ho, ht⟩
  have hall : ((tallOps ++ []).flatMap givenTexts).all (fun t => t.toList.all (fun x => decide (0x20 ≤ x.toNat ∧ x.toNat < 128))) = true := by decide +kernel
  exact xlit (List.all_eq_true.mp hall t hm)

theorem tallOps_careful (theme : XDoc) : Careful C32_env ⟨newExcel C32_env theme, []⟩ (tallOps ++ .drop 0 :: []) := by
  have nd : ∀ (s : Session) (op : WbOp) (l : List String), names (s.step C32_env op).2.x.sheets = l → l.Nodup → (names (s.step C32_env op).2.x.sheets).Nodup := by
    intro s op l h hl; rw [h]; exact hl
  refine ⟨⟨nd _ _ ["sheet1", "a"] (by kernel_rfl) (by decide), Or.inr (by kernel_rfl)⟩, ?_⟩
  refine ⟨⟨nd _ _ ["sheet1", "a"] (by kernel_rfl) (by decide), trivial⟩, ?_⟩
  refine ⟨⟨nd _ _ ["sheet1", "a"] (by kernel_rfl) (by decide), trivial⟩, ?_⟩
  refine ⟨⟨nd _ _ ["sheet1", "a"] (by kernel_rfl) (by decide), trivial⟩, ?_⟩
  refine ⟨⟨nd _ _ ["sheet1", "a"] (by kernel_rfl) (by decide), trivial⟩, ?_⟩
  exact ⟨⟨nd _ _ ["sheet1", "a"] (by kernel_rfl) (by decide), trivial⟩, trivial⟩

/-- Example: row 5 is found hidden, 12.5 high and in its style; row 3, which is to be shown, is found hidden; row 4 is not there; column B has no width. -/
example (theme : XDoc) : ∃ s exts z, Ran C32_env theme (tallOps ++ [.drop 0]) s ∧ s.x.toZip C32_env "" exts = .ok z ∧
    ∃ sheet, FindsSheet z "a".toList sheet ∧ rowsNumbered sheet 5 = [wantedRow 5 { height := some "12.5", hidden := some true, style := some 1 }] ∧
      (wantedRow 5 { height := some "12.5", hidden := some true, style := some 1 }).hidden = true ∧
      (∃ row, rowsNumbered sheet 3 = [row] ∧ row.hidden = true) ∧ rowsNumbered sheet 4 = [] ∧ seenCols sheet = [] := by
  obtain ⟨h, hi, hp, hn⟩ : ∃ h, (endOf C32_env theme tallOps).handles[0]? = some h ∧ h.path = "xl/worksheets/sheet2.xml" ∧ h.name = "a" :=
    ⟨(endOf C32_env theme tallOps).handles[0]?.getD ⟨0, ⟨[], 0, ""⟩, emptySheet, "", ""⟩, by kernel_rfl, by kernel_rfl, by kernel_rfl⟩
  have hR : Ran C32_env theme (tallOps ++ [.drop 0]) (endOf C32_env theme (tallOps ++ [.drop 0])) :=
    ⟨newExcel C32_env theme, new_eq C32_env theme, by kernel_rfl⟩
  obtain ⟨exts, he⟩ := some_order (fun h => by cases h) hR ""
  have r1 : Session.run C32_env ⟨newExcel C32_env theme, []⟩ tallOps = .ok (endOf C32_env theme tallOps) := by kernel_rfl
  have r2 : ((endOf C32_env theme tallOps).step C32_env (.drop 0)).2.run C32_env [] = .ok (endOf C32_env theme (tallOps ++ [.drop 0])) := by kernel_rfl
  have r3 : names (endOf C32_env theme (tallOps ++ [.drop 0])).x.sheets = ["sheet1", "a"] := by kernel_rfl
  have r5 : writesTo C32_env "xl/worksheets/sheet2.xml" ⟨newExcel C32_env theme, []⟩ tallOps =
      [.rowProps 3 { height := some "30", hidden := some false, groupLevel := some 2 }, .rowProps 5 { height := some "12.5", hidden := some true, style := some 1 },
        .column 2 (some { width := some "20" })] := by kernel_rfl
  generalize endOf C32_env theme (tallOps ++ [.drop 0]) = s' at *
  generalize endOf C32_env theme tallOps = s at *
  have calm : ∀ n ∈ names s'.x.sheets, CalmName n := by
    rw [r3]
    intro n hn
    simp only [List.mem_cons, List.not_mem_nil, or_false] at hn
    rcases hn with rfl | rfl <;> exact calm_lit (by decide +kernel)
  obtain ⟨z, hz, ⟨sheet, w1⟩, h1⟩ := C108_partial (fun h => by cases h) (fun h => by cases h) (new_eq C32_env theme) r1 tallOps_fit hi r2 (tallOps_careful theme)
    tallOps_texts calm (name := "a") (by rw [hn]; rfl) (now := "") (xlit (by decide +kernel)) he
  obtain ⟨z2, hz2, _, h2⟩ := C108_violated (fun h => by cases h) (fun h => by cases h) (new_eq C32_env theme) r1 tallOps_fit hi r2 (tallOps_careful theme)
    tallOps_texts calm (name := "a") (by rw [hn]; rfl) (now := "") (xlit (by decide +kernel)) he (r := 3)
    (p := { height := some "30", hidden := some false, groupLevel := some 2 }) (by rw [hp, r5]; rfl)
  obtain ⟨z3, hz3, _, h3⟩ := C108_violated_columns (fun h => by cases h) (fun h => by cases h) (new_eq C32_env theme) r1 tallOps_fit hi r2 (tallOps_careful theme)
    tallOps_texts calm (name := "a") (by rw [hn]; rfl) (now := "") (xlit (by decide +kernel)) he
  rw [hz] at hz2 hz3
  cases hz2
  cases hz3
  rw [hp, r5] at h1
  refine ⟨s', exts, z, hR, hz, sheet, w1, ?_, rfl, ?_, ?_, h3 sheet w1⟩
  · refine (h1 sheet w1 5).2 ⟨_, List.mem_cons_of_mem _ List.mem_cons_self, rfl⟩ _ rfl ?_
    exact ⟨by decide, by decide, by decide, by decide, by decide⟩
  · obtain ⟨row, e1, e2, _⟩ := h2 sheet w1
    exact ⟨row, e1, e2 rfl⟩
  · refine (h1 sheet w1 4).1 ?_
    rintro ⟨o, ho, ht⟩
    simp only [List.mem_cons, List.not_mem_nil, or_false] at ho
    rcases ho with rfl | rfl | rfl
    · exact absurd (show (3 : Nat) = 4 from ht) (show ¬(3 : Nat) = 4 by decide)
    · exact absurd (show (5 : Nat) = 4 from ht) (show ¬(5 : Nat) = 4 by decide)
    · exact ht

/-- Example: the row of the example is given the style that was asked for, as `C107_rows_partial` wants it. -/
example (theme : XDoc) : AskedFor C32_env ⟨newExcel C32_env theme, []⟩ (tallOps ++ [.drop 0]) bigBold 1 ∧
    (lastProps 5 (writesTo C32_env "xl/worksheets/sheet2.xml" ⟨newExcel C32_env theme, []⟩ tallOps)).bind RowProps.style = some 1 := by
  obtain ⟨st, hgs⟩ : ∃ st, getStyleId C32_env.build demoHash newStyles bigBold = .ok (st, 1) := ⟨_, rfl⟩
  have e : (endOf C32_env theme [.add (some "a")]).x.styles.data = newStyles := by kernel_rfl
  refine ⟨⟨[.add (some "a")], demoHash, _, endOf C32_env theme [.add (some "a")], st, rfl, by kernel_rfl, ?_, ?_, ?_⟩, by kernel_rfl⟩
  · rw [e]; unfold Room; decide
  · rw [e]
    refine ⟨?_, ?_, ?_, ?_⟩
    · unfold Injects; decide +kernel
    · unfold Injects; decide +kernel
    · unfold Injects; decide +kernel
    · intro nf n a h; cases h; decide +kernel
  · rw [e]; exact hgs

end Oxml
