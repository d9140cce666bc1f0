import Verif.Proofs.AllWellFormed
import Verif.Props.OwnWellFormed
/-!
# C114: every part of a saved workbook that was opened from a file is as it was or well-formed XML
-/
namespace Oxml
open Spec

variable {env : Env} {theme : XDoc} {z z' : Zip} {ops : List WbOp} {x : Excel} {s : Session} {now : String} {exts : List (String × String)}

theorem deepDoc_strings : DeepDoc stringsTemplate.doc :=
  deepDoc_of ⟨"sst", some [], [], wfDoc_template (by decide +kernel) (by decide +kernel)⟩ (by decide +kernel) (by decide +kernel)

/-- Strings as loaded. -/
theorem loaded_strings_x {d : XDoc} (h : DeepDoc d) : ∀ v ∈ (loadStrings d).1, XmlChars v := by
  intro v hv
  unfold loadStrings XDoc.popTag at hv
  simp only [List.mem_filterMap, List.mem_filter] at hv
  obtain ⟨n, ⟨hn, _⟩, hv⟩ := hv
  cases hh : n.children.head? with
  | none => rw [hh] at hv; cases hv
  | some c =>
    rw [hh] at hv
    cases hv
    have := ((h.children n hn).child (List.mem_of_mem_head? hh)).text
    show XmlChars (c.value.getD "")
    cases hval : c.value with
    | none => exact xlit (by decide +kernel)
    | some w => exact this w hval

/-- A part the library opened could be read. -/
theorem source_written {p : Pkg} {n : String} {t : Template} {o : OpenDoc} (hp : Pkg.ofZip env z = .ok p) (hct : n ≠ contentTypesName) (hs : Source env p t n o)
    (hw : ∀ n, n ≠ contentTypesName → zipDoc env z n ≠ none → WellWritten env z n) : WellWritten env z n := by
  rcases source_zip hp hct hs with ⟨h1, _⟩ | ⟨c, d, h1, h2, _⟩
  · intro text ht
    rw [h1] at ht
    cases ht
  · refine hw n hct ?_
    unfold zipDoc
    rw [h1]
    simp only [h2]
    simp

/-- **C114 (partial).** Other programs wrote the parts of a workbook file, those the library can read in whatever way XML allows; others, such as pictures, hold anything. Open
the file and do anything with it, whatever fails, giving texts with characters of XML only, and save. Every part of the saved file but the list of content types is as it was in the
opened file or is well-formed XML.
Missing: the list of content types, CDATA sections, empty root elements, names and namespaces that are not plain. -/
theorem C114_partial (hst : env.build.release = true → StampOk env.stamp) (hsx : env.build.release = true → StampXml env.stamp) (he : PrintsF32 env) {root : Node}
    (hroot : theme.root = some root) (htheme : XmlReady (releaseNs env.build theme.ns) root) (hz : (akeys z).Nodup) (hr : RanOn env theme z ops x s)
    (hw : ∀ n, n ≠ contentTypesName → zipDoc env z n ≠ none → WellWritten env z n) (ho : ∀ op ∈ ops, ∀ t ∈ givenTexts op, XmlChars t) (hnow : XmlChars now)
    (hs : s.x.toZip env now exts = .ok z') :
    ∀ n text, n ≠ contentTypesName → aget n z' = some text → aget n z = some text ∨ WellFormed text := by
  obtain ⟨p, o1, o2, o3, o4, o5, o6, o7, o8, r1, r2, q, d1, d2, d3, d4, d6, d7, d8, keep, keep0, hp, hb, hq, W, S, hown, hct⟩ := saved_base hz hr hs
  have w1 : WellWritten env z x.rootRels.path := by
    have := hct x.rootRels.path (by simp [ownParts])
    rw [hb.rootPath] at this ⊢
    exact source_written hp this hb.rootSource hw
  have w2 := source_written hp (hct x.core.path (by simp [ownParts])) hb.coreSource hw
  have w3 := source_written hp (hct x.book.path (by simp [ownParts])) hb.bookSource hw
  have w4 := source_written hp (hct x.rels.path (by simp [ownParts])) hb.relSource hw
  have w5 := source_written hp (hct x.theme.path (by simp [ownParts])) hb.themeSource hw
  have w6 := source_written hp (hct x.strings.path (by simp [ownParts])) hb.strSource hw
  have w7 := source_written hp (hct x.chain.path (by simp [ownParts])) hb.calcSource hw
  have w8 := source_written hp (hct x.styles.path (by simp [ownParts])) hb.styleSource hw
  have hall : ∀ n ∈ ownParts x, WellWritten env z n := by
    intro n hn
    simp only [ownParts, List.mem_cons, List.not_mem_nil, or_false] at hn
    rcases hn with rfl | rfl | rfl | rfl | rfl | rfl | rfl | rfl <;> assumption
  intro n text hnc ht
  by_cases hn : n ∈ ownParts x
  · obtain ⟨text', h1, h2⟩ := C113_partial hsx hroot htheme hz hr hall ho hnow hs n hn
    rw [ht] at h1
    cases h1
    exact .inr h2
  · have hrd : ReadsDeep env z := by
      intro m c d hm hc hd
      have : zipDoc env z m ≠ none := by unfold zipDoc; rw [hc]; simp only [hd]; simp
      obtain ⟨d', t, a, cs, g1, g2, g3, g4, g5⟩ := wellWritten_read (hw m hm this) hc
      rw [hd] at g1
      cases g1
      exact ⟨t, a, cs, g2, g3, g4, g5⟩
    have h0 : SessX env z ⟨x, []⟩ := by
      refine ⟨hb.live, ⟨?_, ?_⟩, (fun _ h => nomatch h), ?_⟩
      · intro m e hm ha
        have ha : aget m x.pkg.archive = some e := ha
        rw [hb.others m hm] at ha
        have hmc : m ≠ contentTypesName := by
          rintro rfl
          exact ofZip_no_types hp (mem_akeys_of_aget ha)
        have := ofZip_content hp hmc
        rw [ha] at this
        exact .inl ⟨hmc, this.symm⟩
      · intro m o hm hopen
        rw [show aget m x.pkg.opened = none from hb.openOnly m hm] at hopen
        cases hopen
      · show ∀ t ∈ x.strings.data, XmlChars t
        rw [← hb.strLoad]
        exact loaded_strings_x (source_deep hp (hct x.strings.path (by simp [ownParts])) hb.strSource w6 deepDoc_strings)
    have h1 := SessX.run hst he hrd hr.2 h0 ho
    have hpx := h1.pkg
    have hn' : n ∉ (ownPairs s.x).map Prod.fst := by rw [hown]; exact hn
    have hS := S.others n hn'
    rw [toZip_aget hq hnc, hS] at ht
    split at ht
    · next o hopen =>
      cases ht
      exact .inr ((hpx.opened n o hn' hopen).docX.wellFormed hsx)
    · cases ha : aget n s.x.pkg.archive with
      | none => rw [ha] at ht; cases ht
      | some e =>
        rw [ha] at ht
        cases ht
        rcases hpx.arch n e hn' ha with ⟨_, h⟩ | ⟨d, hd, h⟩
        · exact .inl h
        · rw [h]; exact .inr (hd.wellFormed hsx)

/-! ## Example -/

/-- A file with a sheet, strings, styles and a picture. -/
def fxAllBook : Zip :=
  [("xl/worksheets/sheet1.xml", "<worksheet><sheetData><row r=\"1\"><c r=\"A1\"><v>5</v></c></row></sheetData><mergeCells><mergeCell ref=\"A2:B2\"/></mergeCells></worksheet>".toList),
   ("xl/sharedStrings.xml", "<sst><si><t>plain</t></si></sst>".toList), ("xl/styles.xml", fxStyles), ("xl/media/image1.png", "PNG".toList),
   (contentTypesName, "<Types><Default Extension=\"xml\" ContentType=\"x\"/><Default Extension=\"png\" ContentType=\"image/png\"/></Types>".toList)]

/-- The calls: the first sheet, which the file has but does not list, gets its next number; two handles, one dropped. -/
def fxAllOps : List WbOp := [.add (some "New"), .sheet 0 (.write 1 2 [{ value := some "hello" }]), .drop 0, .get "New", .sheet 0 (.write 3 2 [{ value := some "again" }]), .add none, .delete 1]

/-- The file, the calls and what comes out. -/
def fxAll : Bool :=
  match Excel.openFile exEnv exTheme fxAllBook with
  | .error _ => false
  | .ok x =>
    match Session.run exEnv ⟨x, []⟩ fxAllOps with
    | .error _ => false
    | .ok s =>
      match s.x.toZip exEnv "now" exExts with
      | .error _ => false
      | .ok z' => decide (aget "xl/media/image1.png" z' = some "PNG".toList) && decide (aget "xl/worksheets/sheet2.xml" z' ≠ none)

/-- Example for C114_partial: the picture is as it was; the sheet that was added is there and well-formed. -/
example : ∃ x s z', RanOn exEnv exTheme fxAllBook fxAllOps x s ∧ s.x.toZip exEnv "now" exExts = .ok z' ∧ aget "xl/media/image1.png" z' = some "PNG".toList ∧
    ∃ text, aget "xl/worksheets/sheet2.xml" z' = some text ∧ WellFormed text := by
  have h : fxAll = true := by decide +kernel
  unfold fxAll at h
  split at h
  · cases h
  · next x hx =>
    split at h
    · cases h
    · next s hs =>
      split at h
      · cases h
      · next z' hz' =>
        rw [Bool.and_eq_true, decide_eq_true_eq, decide_eq_true_eq] at h
        refine ⟨x, s, z', ⟨hx, hs⟩, hz', h.1, ?_⟩
        cases ht : aget "xl/worksheets/sheet2.xml" z' with
        | none => exact absurd ht h.2
        | some text =>
          refine ⟨text, rfl, ?_⟩
          have g := C114_partial (fun h => by cases h) (fun h => by cases h) (fun _ h => ⟨h, rfl⟩) (theme := exTheme) rfl exTheme_ready (by decide +kernel) ⟨hx, hs⟩ ?_
            (fun op hop t ht => xlit (s := t) (by
              have : (fxAllOps.flatMap givenTexts).all (fun t => t.toList.all (fun x => decide (0x20 ≤ x.toNat ∧ x.toNat < 128))) = true := by decide +kernel
              exact List.all_eq_true.mp this t (List.mem_flatMap.mpr ⟨op, hop, ht⟩))) (xlit (by decide +kernel)) hz' _ text (by decide +kernel) ht
          · rcases g with g | g
            · rw [show aget "xl/worksheets/sheet2.xml" fxAllBook = none by decide +kernel] at g
              cases g
            · exact g
          · intro n hnc hd text ht
            by_cases e1 : n = "xl/worksheets/sheet1.xml"
            · subst e1
              rw [show aget "xl/worksheets/sheet1.xml" fxAllBook =
                some "<worksheet><sheetData><row r=\"1\"><c r=\"A1\"><v>5</v></c></row></sheetData><mergeCells><mergeCell ref=\"A2:B2\"/></mergeCells></worksheet>".toList by decide +kernel] at ht
              have ht := Option.some.inj ht
              subst ht
              exact ⟨⟨_, _, _, fxFirst_read, by simp [fxFirst], fxNoCdata (by decide +kernel), fxFirst_ok _⟩, fun d0 h => fxPlainNames h (by decide +kernel)⟩
            · by_cases e2 : n = "xl/sharedStrings.xml"
              · subst e2
                rw [show aget "xl/sharedStrings.xml" fxAllBook = some "<sst><si><t>plain</t></si></sst>".toList by decide +kernel] at ht
                have ht := Option.some.inj ht
                subst ht
                exact ⟨⟨_, _, _, fxPlain_read, by simp [fxPlain], fxNoCdata (by decide +kernel), fxPlain_ok _⟩, fun d0 h => fxPlainNames h (by decide +kernel)⟩
              · by_cases e3 : n = "xl/styles.xml"
                · subst e3
                  rw [show aget "xl/styles.xml" fxAllBook = some fxStyles by decide +kernel] at ht
                  have ht := Option.some.inj ht
                  subst ht
                  exact ⟨⟨_, _, _, fxStyles_read, by simp [fxStylesContent], fxNoCdata (by decide +kernel), fxStyles_ok _⟩, fun d0 h => fxPlainNames h (by decide +kernel)⟩
                · by_cases e4 : n = "xl/media/image1.png"
                  · subst e4
                    exact absurd (show zipDoc exEnv fxAllBook "xl/media/image1.png" = none by decide +kernel) hd
                  · have : aget n fxAllBook = none := by
                      rw [aget_eq_none_iff]
                      show n ∉ ["xl/worksheets/sheet1.xml", "xl/sharedStrings.xml", "xl/styles.xml", "xl/media/image1.png", contentTypesName]
                      simp [e1, e2, e3, e4, hnc]
                    rw [this] at ht
                    cases ht

end Oxml
