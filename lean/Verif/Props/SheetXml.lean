import Verif.Proofs.SheetXml
import Verif.Props.ExistingReget
/-!
# C89: what the cells of an existing workbook show
-/
namespace Oxml
open Spec

variable {env : Env} {theme : XDoc} {z z' : Zip} {ops : List WbOp} {x : Excel} {path : String} {edits : List SheetOp} {s : Session} {now : String} {exts : List (String × String)}
  {d0 : XDoc}

/-- What is shown at a cell. -/
theorem ShowsSheet.at {d : XDoc} {sh : Sheet} (h : ShowsSheet d sh) {v : Shown} {r c : Nat} (hv : v.At r c) :
    v ∈ (cellElements d).map shown ↔ ∃ y, cellAt sh r c = some y ∧ v = shownOf (cellRef r c) y := by
  obtain ⟨t, ht, htx⟩ := hv
  rw [h v]
  constructor
  · rintro ⟨r', c', y, h0, hy, rfl⟩
    cases ht
    obtain ⟨rfl, rfl⟩ := refText_inj htx (cellRef_text h0)
    exact ⟨y, hy, rfl⟩
  · rintro ⟨y, hy, rfl⟩
    exact ⟨r, c, y, (refText_eq htx).2, hy, rfl⟩

/-- **C89 (partial).** Open a workbook file with a plain sheet, ask for the sheet, edit it through the handle while doing anything else, drop the handle, go on
without asking for it again, save. Every cell not written shows in the saved file exactly what it shows in the file opened: style, type, formula, value, metadata.
Every cell written shows what was last written to it. Every cell element has a reference, and no two elements of the same cell differ. -/
theorem C89_partial (hst : env.build.release = true → StampOk env.stamp) (he : PrintsF32 env) (hz : (akeys z).Nodup)
    (h : EditedSheet env theme z ops path edits x s) (h0 : zipDoc env z path = some d0) (ht : Tidy d0) (hp : PlainSheet d0)
    (hs : s.x.toZip env now exts = .ok z') : ∃ d, zipDoc env z' path = some d ∧
      (∀ r c v, lastWritten r c edits = none → v.At r c → (v ∈ (cellElements d).map shown ↔ v ∈ (cellElements d0).map shown)) ∧
      (∀ r c given, 1 ≤ c → lastWritten r c edits = some given → ∃ stored, StoredAs s.x.strings.data given stored ∧ ∃ v ∈ (cellElements d).map shown, v.At r c ∧
        v.style = (stored.style.map toString).getD "0" ∧ v.type = stored.type.text ∧ v.formulaKind = [] ∧
        (stored.type ≠ .inlineString → v.formula = (stored.formula.bind reloadText).getD "") ∧ v.text = (stored.value.bind reloadText).getD "") ∧
      (∀ v ∈ (cellElements d).map shown, ∃ r c, v.At r c) ∧
      (∀ r c, ∀ v ∈ (cellElements d).map shown, ∀ w ∈ (cellElements d).map shown, v.At r c → w.At r c → v = w) := by
  obtain ⟨sh0, d1, sh, d', h1, h2, h3, h4, h5, h6, h7, h8⟩ := edited_saved hst he hz h h0 ht hp.named hs
  obtain ⟨_, f1, _⟩ := h6.facts (load_sorted h1) (load_fits he h1) h7 h8
  have g0 := load_shown h1 hp
  have g1 := save_shown h2 h3
  refine ⟨_, h4, ?_, ?_, ?_, ?_⟩
  · intro r c v hw hv
    rw [g0.at hv, g1.at hv, (f1 r c).1 hw]
  · intro r c given hc hw
    obtain ⟨y, hy, hy'⟩ := (f1 r c).2 given hw
    have hat : (shownOf (cellRef r c) y).At r c := ⟨_, rfl, cellRef_text (by omega)⟩
    refine ⟨y, hy', _, (g1.at hat).mpr ⟨y, hy, rfl⟩, hat, rfl, rfl, rfl, fun hne => ?_, rfl⟩
    exact if_neg hne
  · intro v hv
    obtain ⟨r, c, y, hc, hy, rfl⟩ := (g1 v).mp hv
    exact ⟨r, c, _, rfl, cellRef_text hc⟩
  · intro r c v hv w hw av aw
    obtain ⟨y, hy, rfl⟩ := (g1.at av).mp hv
    obtain ⟨y', hy', rfl⟩ := (g1.at aw).mp hw
    rw [hy] at hy'
    cases hy'
    rfl

/-- **C89, violated.** Whatever the file and the calls: once the sheet was opened, no formula in the saved sheet is shared, fills a range or is of any other special
kind, and no cell is a date. -/
theorem C89_violated_always (hst : env.build.release = true → StampOk env.stamp) (he : PrintsF32 env) (hz : (akeys z).Nodup)
    (h : EditedSheet env theme z ops path edits x s) (h0 : zipDoc env z path = some d0) (ht : Tidy d0) (hc : ColumnsNamed d0)
    (hs : s.x.toZip env now exts = .ok z') : ∃ d, zipDoc env z' path = some d ∧
      ∀ v ∈ (cellElements d).map shown, v.formulaKind = [] ∧ v.type ≠ "d" := by
  obtain ⟨sh0, d1, sh, d', h1, h2, h3, h4, _⟩ := edited_saved hst he hz h h0 ht hc hs
  refine ⟨_, h4, fun v hv => ?_⟩
  obtain ⟨r, c, y, _, _, rfl⟩ := (save_shown h2 h3 v).mp hv
  exact ⟨rfl, by simp only [shownOf]; cases y.type <;> decide⟩

/-- The sheet of `exSheetDoc` is plain. -/
theorem exSheetDoc_plain : PlainSheet exSheetDoc := by
  refine ⟨by decide, ?_, by decide⟩
  intro n hn
  have : rowElements exSheetDoc = [.mk "row" (some [("r", "1")]) none [.mk "c" (some [("r", "A1")]) none [.mk "v" (some []) (some "5") []]]] := rfl
  rw [this, List.mem_singleton] at hn
  subst hn
  refine ⟨1, rfl, ?_, by decide⟩
  intro c hc
  rw [Node.children, List.mem_singleton] at hc
  subst hc
  refine ⟨⟨"A1", 1, rfl, ⟨['A'], by decide, by decide, by simp [isUpperLetter], by decide⟩, by decide⟩, (fun v hv => by cases hv), (fun v hv => by cases hv), ?_,
    by decide, ?_⟩
  · intro k hk v hv
    simp only [List.mem_cons, List.not_mem_nil, or_false] at hk
    rcases hk with rfl | rfl <;> cases hv
  · rw [if_neg (by decide)]
    refine ⟨by decide, by decide, by decide, ?_⟩
    intro c hc t ht
    rw [Node.children, List.mem_singleton] at hc
    subst hc
    cases ht
    exact ⟨by decide, by decide +kernel⟩

/-- Example for C89_partial: in the sheet of `exEdited_facts` the number stays and the text appears. -/
example : ∃ x s z' d, EditedSheet exEnv exTheme exSheetBook (.get "A" :: (exEdits ++ [.drop 0])) "xl/worksheets/sheet1.xml" [.write 1 2 [{ value := some "hello" }]] x s ∧
    PlainSheet exSheetDoc ∧ s.x.toZip exEnv "now" exExts = .ok z' ∧ zipDoc exEnv z' "xl/worksheets/sheet1.xml" = some d ∧
    ⟨some "A1", "0", "n", "", [], "5", none, none, false⟩ ∈ (cellElements d).map shown ∧
    ∃ v ∈ (cellElements d).map shown, v.At 1 2 ∧ v.style = "0" ∧ v.formulaKind = [] := by
  obtain ⟨edits, x, s, z', h1, h2, h3, h4, h5, rfl, h7, h8⟩ := exEdited_facts
  obtain ⟨d, g1, g2, g3, _⟩ := C89_partial (fun h => by cases h) (fun _ h => ⟨h, rfl⟩) (by decide +kernel) h1 h2 h3 exSheetDoc_plain h5
  refine ⟨x, s, z', d, h1, exSheetDoc_plain, h5, g1, ?_, ?_⟩
  · refine (g2 1 1 _ (by decide) ⟨"A1", rfl, ['A'], by decide, by decide, by simp [isUpperLetter], by decide⟩).mpr ?_
    decide
  · obtain ⟨stored, k1, v, k2, k3, k4, k5, k6, k7, k8⟩ := g3 1 2 { value := some "hello" } (by decide) (by decide)
    have : stored.style = none := k1.2.1
    exact ⟨v, k2, k3, by rw [k4, this]; rfl, k6⟩

/-- `exSheetBook` with another first sheet. -/
def exBookWith (sheet : List Char) : Zip := exBook.map (fun e => if e.1 = "xl/worksheets/sheet1.xml" then (e.1, sheet) else e)

/-- A formula shared by A1 and A2, a date in C1, a text in two runs in D1. -/
def exSpecialText : List Char :=
  "<worksheet><sheetData><row r=\"1\"><c r=\"A1\"><f t=\"shared\" ref=\"A1:A2\" si=\"0\">C1+1</f><v>1</v></c>".toList ++
  "<c r=\"C1\" t=\"d\"><v>2024-01-01</v></c><c r=\"D1\" t=\"inlineStr\"><is><r><t>one</t></r><r><t>two</t></r></is></c></row>".toList ++
  "<row r=\"2\"><c r=\"A2\"><f t=\"shared\" si=\"0\"></f><v>2</v></c></row></sheetData></worksheet>".toList

/-- The cells of the sheet. -/
def exSpecialCells : List Shown :=
  [⟨some "A1", "0", "n", "C1+1", [("t", "shared"), ("ref", "A1:A2"), ("si", "0")], "1", none, none, false⟩, ⟨some "C1", "0", "d", "", [], "2024-01-01", none, none, false⟩,
   ⟨some "D1", "0", "inlineStr", "", [], "onetwo", none, none, false⟩, ⟨some "A2", "0", "n", "", [("t", "shared"), ("si", "0")], "2", none, none, false⟩]

/-- The cells after a text was written to B1. -/
def exSpecialAfter : List Shown :=
  [⟨some "A1", "0", "n", "C1+1", [], "1", none, none, false⟩, ⟨some "B1", "0", "s", "", [], "0", none, none, false⟩, ⟨some "C1", "0", "n", "", [], "2024-01-01", none, none, false⟩,
   ⟨some "D1", "0", "inlineStr", "", [], "", none, none, false⟩, ⟨some "A2", "0", "n", "", [], "2", none, none, false⟩]

/-- References are capital letters naming a column that fits, then digits. -/
def namedChk (x : XDoc) : Bool :=
  (cellElements x).all (fun c => match c.attr? "r" with
    | none => true
    | some ref =>
      decide (0 < (ref.toList.takeWhile (fun c => decide ('A' ≤ c ∧ c ≤ 'Z'))).length) &&
      decide (columnValue (ref.toList.takeWhile (fun c => decide ('A' ≤ c ∧ c ≤ 'Z'))) ≤ 65535) &&
      (ref.toList.dropWhile (fun c => decide ('A' ≤ c ∧ c ≤ 'Z'))).all Char.isDigit)

theorem namedChk_sound {x : XDoc} (h : namedChk x = true) : ColumnsNamed x := by
  intro n hn ht row hrow c hc ref href
  have hm : c ∈ cellElements x :=
    List.mem_flatMap.mpr ⟨row, List.mem_flatMap.mpr ⟨n, List.mem_filter.mpr ⟨hn, by simpa using ht⟩, hrow⟩, hc⟩
  have := List.all_eq_true.mp h c hm
  simp only [href, Bool.and_eq_true, decide_eq_true_eq, List.all_eq_true] at this
  obtain ⟨⟨k1, k2⟩, k3⟩ := this
  refine ⟨_, _, (List.takeWhile_append_dropWhile (p := fun c => decide ('A' ≤ c ∧ c ≤ 'Z'))).symm, List.ne_nil_of_length_pos k1, ?_, k3, k2⟩
  intro ch hch
  have := List.all_eq_true.mp (List.all_takeWhile (p := fun c => decide ('A' ≤ c ∧ c ≤ 'Z')) (l := ref.toList)) ch hch
  exact letter_of_upper (show _ ∧ _ from of_decide_eq_true this)

/-- The document of the sheet in a file; an empty one if there is none. -/
def exDoc (z : Zip) : XDoc := (zipDoc exEnv z "xl/worksheets/sheet1.xml").getD ⟨[], none⟩

/-- The document is there, has a plain root and names its columns. -/
def exDocChk (z : Zip) : Bool :=
  (zipDoc exEnv z "xl/worksheets/sheet1.xml").isSome && decide ((exDoc z).ns = []) && (match (exDoc z).root with | some (.mk _ _ none _) => true | _ => false) && namedChk (exDoc z)

theorem exDocChk_sound {z : Zip} (h : exDocChk z = true) :
    zipDoc exEnv z "xl/worksheets/sheet1.xml" = some (exDoc z) ∧ Tidy (exDoc z) ∧ ColumnsNamed (exDoc z) := by
  simp only [exDocChk, Bool.and_eq_true, decide_eq_true_eq] at h
  obtain ⟨⟨⟨h1, h2⟩, h3⟩, h4⟩ := h
  refine ⟨?_, ⟨?_, ?_⟩, namedChk_sound h4⟩
  · unfold exDoc
    cases e : zipDoc exEnv z "xl/worksheets/sheet1.xml" with
    | none => rw [e] at h1; cases h1
    | some d => rfl
  · rw [h2]; intro kv hkv; cases hkv
  · split at h3
    · next t a cs e => exact ⟨t, a, cs, e⟩
    · cases h3

/-- What is shown before and after. -/
def exSpecialChk (s : Session) : Bool :=
  match s.x.toZip exEnv "now" exExts with
  | .ok z' => decide ((zipDoc exEnv z' "xl/worksheets/sheet1.xml").map (fun d => (cellElements d).map shown) = some exSpecialAfter)
  | .error _ => false

/-- The formula in A2 is gone, the date is a number, the text in D1 is gone. -/
theorem exSpecial_facts : ∃ x s z', EditedSheet exEnv exTheme (exBookWith exSpecialText) (.get "A" :: (exWrite ++ [.drop 0])) "xl/worksheets/sheet1.xml"
      [.write 1 2 [{ value := some "hello" }]] x s ∧ s.x.toZip exEnv "now" exExts = .ok z' ∧
    (zipDoc exEnv (exBookWith exSpecialText) "xl/worksheets/sheet1.xml").map (fun d => (cellElements d).map shown) = some exSpecialCells ∧
    (zipDoc exEnv z' "xl/worksheets/sheet1.xml").map (fun d => (cellElements d).map shown) = some exSpecialAfter := by
  obtain ⟨x, s, h1, h2⟩ := exAgain_sound (z := exBookWith exSpecialText) (chk := fun _ s => exSpecialChk s) (by decide +kernel)
  unfold exSpecialChk at h2
  split at h2
  · next z' hz' =>
    exact ⟨x, s, z', ⟨[], "A", exWrite, 0, s, [], rfl, h1, rfl, trivial, trivial⟩, hz', by decide +kernel, of_decide_eq_true h2⟩
  · cases h2

/-- **C89 is violated**: opening and closing the sheet is enough. -/
theorem C89_violated : ¬ CellsKept exEnv exTheme := by
  intro h
  obtain ⟨x, s, z', h1, h2, h3, h4⟩ := exSpecial_facts
  have hd : exDocChk (exBookWith exSpecialText) = true := by decide +kernel
  obtain ⟨d1, d2, d3⟩ := exDocChk_sound hd
  obtain ⟨d, e1, e2⟩ := h _ _ _ _ x s "now" exExts z' _ (by decide +kernel) h1 d1 d2 d3 h2
  rw [e1] at h4
  rw [d1] at h3
  have h4 : (cellElements d).map shown = exSpecialAfter := Option.some.inj h4
  have h3 : (cellElements (exDoc (exBookWith exSpecialText))).map shown = exSpecialCells := Option.some.inj h3
  have := (e2 1 1 ⟨some "A1", "0", "n", "C1+1", [], "1", none, none, false⟩ (by decide) ⟨"A1", rfl, ['A'], by decide, by decide, by simp [isUpperLetter], by decide⟩).mp
    (by rw [h4]; decide)
  rw [h3] at this
  revert this
  decide

end Oxml
