import Verif.Proofs.ExistingKept
import Verif.Props.Package
/-!
# C81: parts of existing workbooks
-/
namespace Oxml
open Spec

/-- **C81, parts nobody asks for.** Whatever is done with a workbook opened from a file, a part of the file that is not one of the
workbook's own parts, and that no call asks for as a sheet, is in the saved file exactly as it was. -/
theorem C81_kept {env : Env} {theme : XDoc} {z z' : Zip} {ops : List WbOp} {x : Excel} {s : Session} {now : String} {exts : List (String × String)}
    (hz : (akeys z).Nodup) (hr : RanOn env theme z ops x s) (hs : s.x.toZip env now exts = .ok z') {n : String} (hn : n ≠ contentTypesName)
    (hown : n ∉ ownParts x) (ha : NeverAsks env n ⟨x, []⟩ ops) : aget n z' = aget n z := by
  obtain ⟨ho, hrun⟩ := hr
  obtain ⟨p, _, _, _, _, _, _, _, _, _, _, hp, hb⟩ := openFile_book hz ho
  have hq : QuietSess n (aget n p.archive) ⟨x, []⟩ :=
    ⟨⟨⟨hb.openOnly n hown, hb.others n hown⟩, hown⟩, fun g hg => by cases hg⟩
  have hq' := hq.run env ops ha hrun
  unfold Excel.toZip at hs
  split at hs
  · cases hs
  · next q e =>
    rw [toZip_aget hs hn, hq'.book.saved e, ofZip_content hp hn]

/-- **C81, unrelated parts.** In particular parts of the file to which no relationship of the workbook leads, and which are no
relationship part, pass through every history unchanged: images, drawings, macros, custom data. -/
theorem C81_unrelated {env : Env} {theme : XDoc} {z z' : Zip} {ops : List WbOp} {x : Excel} {s : Session} {now : String}
    {exts : List (String × String)} (hz : (akeys z).Nodup) (hr : RanOn env theme z ops x s) (hs : s.x.toZip env now exts = .ok z') {n : String}
    (hin : n ∈ akeys z) (hn : n ≠ contentTypesName) (hown : n ∉ ownParts x) (hrel : ∀ path, ¬ IsRelsOf n path)
    (htgt : ∀ r ∈ x.rels.rels, resolveTarget x.rels.path r.target ≠ .ok n) : aget n z' = aget n z := by
  obtain ⟨ho, hrun⟩ := hr
  obtain ⟨p, _, _, _, _, _, _, _, _, _, _, hp, hb⟩ := openFile_book hz ho
  have hc := ofZip_content hp hn
  obtain ⟨c, hzc⟩ := (aget_isSome_iff _ _).mpr hin
  rw [hzc] at hc
  cases he : aget n p.archive with
  | none => rw [he] at hc; cases hc
  | some e =>
    have hq : Unrelated n e ⟨x, []⟩ :=
      ⟨⟨⟨⟨hb.openOnly n hown, (hb.others n hown).trans he⟩, hown⟩, fun g hg => by cases hg⟩, htgt⟩
    have hq' := hq.run hrel env ops hrun
    unfold Excel.toZip at hs
    split at hs
    · cases hs
    · next q e' =>
      rw [toZip_aget hs hn, hq'.quiet.book.saved e', ← ofZip_content hp hn, he]

/-- **C81, nothing lost.** If every call succeeded, every part of the file is still in the saved file, and no name occurs twice in it. -/
theorem C81_nothing_lost {env : Env} {theme : XDoc} {z z' : Zip} {ops : List WbOp} {x : Excel} {s : Session} {now : String}
    {exts : List (String × String)} (hz : (akeys z).Nodup) (ho : Excel.openFile env theme z = .ok x) (hr : AllOk env ⟨x, []⟩ ops s)
    (hs : s.x.toZip env now exts = .ok z') : (∀ n ∈ akeys z, n ∈ akeys z') ∧ contentTypesName ∈ akeys z' ∧ (akeys z').Nodup := by
  obtain ⟨p, _, _, _, _, _, _, _, _, _, _, hp, hb⟩ := openFile_book hz ho
  unfold Excel.toZip at hs
  split at hs
  · cases hs
  · next q e =>
    have hct : contentTypesName ∈ akeys z' := by
      obtain ⟨_, rfl⟩ := toZip_ok hs
      simp [akeys]
    refine ⟨?_, hct, ?_⟩
    rotate_left
    · obtain ⟨_, _, _, _, _, _, _, _, A⟩ := (allOk_live hr hb.live).allHeld
      obtain ⟨_, _, _, _, _, _, _, _, _, _, S⟩ := saved_all A e
      exact toZip_nodup S.inv hs
    intro n hin
    by_cases hn : n = contentTypesName
    · rw [hn]; exact hct
    · have hx : holds x.pkg n := by
        by_cases hown : n ∈ ownParts x
        · obtain ⟨o, h1⟩ := hb.isOpen n hown
          exact holds_of_opened h1
        · have hc := ofZip_content hp hn
          obtain ⟨c, hzc⟩ := (aget_isSome_iff _ _).mpr hin
          rw [hzc] at hc
          cases he : aget n p.archive with
          | none => rw [he] at hc; cases hc
          | some e => exact holds_of_archive ((hb.others n hown).trans he)
      obtain ⟨h1, h2⟩ := holds_run hr hb.live hx
      have h3 := saved_holds h2 h1 e
      rw [← aget_isSome_iff, toZip_aget hs hn]
      obtain ⟨e, he⟩ := (aget_isSome_iff _ _).mpr h3
      exact ⟨_, by rw [he]; rfl⟩

/-- A workbook file, for examples: two sheets and an image. -/
def exBook : Zip :=
  [("_rels/.rels", ("<Relationships><Relationship Id=\"rId1\" Type=\"" ++ workbookContent.type ++ "\" Target=\"xl/workbook.xml\"/></Relationships>").toList),
   ("xl/workbook.xml", ("<workbook><sheets><sheet name=\"A\" sheetId=\"7\" r:id=\"rId1\"/>" ++
      "<sheet name=\"B\" sheetId=\"9\" state=\"veryHidden\" r:id=\"rId2\"/></sheets></workbook>").toList),
   ("xl/_rels/workbook.xml.rels", ("<Relationships><Relationship Id=\"rId1\" Type=\"w\" Target=\"worksheets/sheet1.xml\"/>" ++
      "<Relationship Id=\"rId2\" Type=\"w\" Target=\"worksheets/sheet2.xml\"/></Relationships>").toList),
   ("xl/worksheets/sheet1.xml", "<worksheet><sheetData><row r=\"1\"><c r=\"A1\"><v>5</v></c></row></sheetData></worksheet>".toList),
   ("xl/worksheets/sheet2.xml", "<worksheet><sheetData></sheetData></worksheet>".toList),
   ("xl/media/image1.png", "PNG".toList),
   (contentTypesName, ("<Types><Default Extension=\"rels\" ContentType=\"r\"/><Default Extension=\"xml\" ContentType=\"x\"/>" ++
      "<Default Extension=\"png\" ContentType=\"p\"/></Types>").toList)]

/-- A theme document, for examples. -/
def exThemeDoc : XDoc := ⟨[], some (.mk "a" none none [])⟩

/-- A history over it: open a sheet, rename the other, add one, drop the first handle. -/
def exOps : List WbOp := [.get "A", .rename "B" "C", .add none, .drop 0]

example : (akeys exBook).Nodup ∧ ((Excel.openFile exEnv exThemeDoc exBook).toOption.map (fun x =>
    (decide ("xl/media/image1.png" ∈ ownParts x), x.rels.rels.map (fun r => (resolveTarget x.rels.path r.target).toOption)))) =
    some (false, [some "xl/worksheets/sheet1.xml", some "xl/worksheets/sheet2.xml", some "xl/theme/theme1.xml", some "xl/sharedStrings.xml",
      some "xl/calcChain.xml", some "xl/styles.xml"]) := by decide +kernel

example : ((Excel.openFile exEnv exThemeDoc exBook).toOption.bind (fun x => (Session.run exEnv ⟨x, []⟩ exOps).toOption.bind (fun s =>
    (s.x.toZip exEnv "now" [("rels", "r"), ("xml", "x"), ("png", "p")]).toOption))).map (fun z' => (aget "xl/media/image1.png" z',
      aget "xl/worksheets/sheet2.xml" z', akeys z')) =
    some (some "PNG".toList, some "<worksheet><sheetData></sheetData></worksheet>".toList,
      ["xl/worksheets/sheet2.xml", "xl/media/image1.png", "xl/worksheets/sheet1.xml", "xl/theme/theme1.xml", "xl/styles.xml",
       "xl/_rels/workbook.xml.rels", "xl/workbook.xml", "docProps/core.xml", "_rels/.rels", "xl/sharedStrings.xml", "xl/calcChain.xml",
       "xl/worksheets/_rels/sheet1.xml.rels", "xl/worksheets/sheet3.xml", "xl/worksheets/_rels/sheet3.xml.rels", contentTypesName]) := by
  decide +kernel

/-- The second sheet is not asked for. -/
example (x : Excel) (h : Excel.openFile exEnv exThemeDoc exBook = .ok x) : "xl/worksheets/sheet2.xml" ∉ ownParts x ∧
    NeverAsks exEnv "xl/worksheets/sheet2.xml" ⟨x, []⟩ exOps := by
  have norel : ∀ path, ¬ IsRelsOf "xl/worksheets/sheet2.xml" path := by
    rintro path ⟨dir, base, _, _, h⟩
    have := congrArg (fun l => l.reverse.take 1) h
    simp at this
  have f1 : (Excel.openFile exEnv exThemeDoc exBook).toOption.map (fun x => (decide ("xl/worksheets/sheet2.xml" ∈ ownParts x), decide ("A" ∈ names x.sheets),
      (x.sheets.find? (fun e => e.name = "A")).bind (fun e => (x.rels.rels.find? (fun r => r.id = e.relId)).map (fun r => (resolveTarget x.rels.path r.target).toOption)),
      (aget "xl/worksheets/sheet2.xml" (((Session.mk x []).step exEnv (.get "A")).2.step exEnv (.rename "B" "C")).2.x.pkg.archive).isSome)) =
      some (false, true, some (some "xl/worksheets/sheet1.xml"), true) := by decide +kernel
  rw [h] at f1
  simp only [Except.toOption, Option.map_some, Option.some.injEq, Prod.mk.injEq, decide_eq_false_iff_not, decide_eq_true_eq] at f1
  obtain ⟨f1, f2, f3, f4⟩ := f1
  refine ⟨f1, ?_, trivial, ?_, trivial, trivial⟩
  · intro path ha
    refine ⟨?_, norel path⟩
    unfold AboutPart at ha
    simp only [if_pos f2] at ha
    obtain ⟨e, r, h1, h2, h3⟩ := ha
    simp only [h1, h2, h3, Option.bind_some, Option.map_some, Option.some.injEq] at f3
    rw [f3]; decide
  · intro path ha
    refine ⟨?_, norel path⟩
    obtain ⟨_, _, _, _, h1⟩ := ha
    rintro rfl
    have h2 : aget "xl/worksheets/sheet2.xml" (((Session.mk x []).step exEnv (.get "A")).2.step exEnv (.rename "B" "C")).2.x.pkg.archive = none := h1
    rw [h2] at f4
    cases f4

/-- "xl/media/image1.png" is no relationship part. -/
example (path : String) : ¬ IsRelsOf "xl/media/image1.png" path := by
  rintro ⟨dir, base, _, _, h⟩
  have := congrArg (fun l => l.reverse.take 1) h
  simp at this

end Oxml
