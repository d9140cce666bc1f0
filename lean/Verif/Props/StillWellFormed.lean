import Verif.Spec.StillWellFormed
import Verif.Proofs.StillWellFormed
import Verif.Props.ForeignSaved
/-!
# C112: sheets and strings of opened workbooks are well-formed XML after editing and saving
-/
namespace Oxml
open Spec

variable {env : Env} {theme : XDoc} {z z' : Zip} {ops : List WbOp} {x : Excel} {path : String} {edits : List SheetOp} {s : Session} {now : String}
  {exts : List (String × String)}

/-- What the library holds of a part another program wrote. -/
theorem wellWritten_read {text : List Char} (h : WellWritten env z path) (ht : aget path z = some text) :
    ∃ d0 t a cs, readXml env.uni text = .ok d0 ∧ WfDoc asciiOnly d0.toXDoc (.mk t a none cs) ∧ (∀ kv ∈ d0.toXDoc.ns, UriXml kv.2) ∧ AttrsX a ∧ ∀ c ∈ cs, DeepX c := by
  obtain ⟨⟨n, kvs, is, k1, k2, k3, k4⟩, hpn⟩ := h text ht
  obtain ⟨d0, r, h1, _, h3, h4⟩ := reads_document (f := false) k1 k2 ⟨k3, (fun h => nomatch h)⟩ k4
  obtain ⟨t, a, cs, hw, hu⟩ := hpn d0.toXDoc (by unfold zipDoc; rw [ht]; simp only [h1])
  have hx := readAs_x _ _ h4 (document_x k1)
  have e := hw.isRoot
  rw [h3] at e
  cases e
  exact ⟨d0, t, a, cs, h1, hw, hu, hx.1, deepXs_iff.mp hx.2.2⟩

/-- The calls of a history that edited a sheet are calls of the history. -/
theorem edited_mem (h : EditedSheet env theme z ops path edits x s) : ∀ o ∈ edits, ∃ i, WbOp.sheet i o ∈ ops := by
  obtain ⟨ops0, name, ops1, i, s3, ops2, rfl, ⟨s0, s1, _, _, _, _, _, _, _, _, _, rfl, _⟩, _⟩ := h
  intro o ho
  obtain ⟨j, hj⟩ := written_call ho
  exact ⟨j, by simp [hj]⟩

/-- The strings of an opened workbook, as loaded and as saved. -/
theorem strings_x (hsx : env.build.release = true → StampXml env.stamp) (hz : (akeys z).Nodup) (hr : RanOn env theme z ops x s)
    (hw : WellWritten env z x.strings.path) (ho : ∀ op ∈ ops, ∀ t ∈ givenTexts op, XmlChars t) (hs : s.x.toZip env now exts = .ok z') :
    (∀ t ∈ s.x.strings.data, XmlChars t) ∧ ∃ text, aget x.strings.path z' = some text ∧ WellFormed text := by
  obtain ⟨p, o1, o2, o3, o4, o5, o6, o7, o8, r1, r2, q, d1, d2, d3, d4, d6, d7, d8, keep, keep0, hp, hb, hq, W, S, hown, hct⟩ := saved_base hz hr hs
  obtain ⟨-, -, -, -, -, e6, -⟩ := own_paths hown
  have hn : x.strings.path ∈ ownParts x := by simp [ownParts]
  obtain ⟨t, a, cs, hwf, hu, ha, hc⟩ : ∃ t a cs, WfDoc asciiOnly o6.doc (.mk t a none cs) ∧ (∀ kv ∈ o6.doc.ns, UriXml kv.2) ∧ AttrsX a ∧ ∀ c ∈ cs, DeepX c := by
    rcases source_zip hp (hct _ hn) hb.strSource with ⟨_, h2⟩ | ⟨c, d, h1, h2, h3⟩
    · rw [h2]
      obtain ⟨t, a, cs, k1, k2, _⟩ := docX_stringsTemplate
      have e : stringsTemplate.doc.root = some (.mk "sst" (some []) none []) := rfl
      have e' := k1.isRoot
      rw [e] at e'
      cases e'
      exact ⟨_, _, _, k1, k2, attrsX_nil, (fun _ h => nomatch h)⟩
    · obtain ⟨d', t, a, cs, g1, g2, g3, g4, g5⟩ := wellWritten_read hw h1
      rw [h2] at g1
      cases g1
      rw [h3]
      exact ⟨t, a, cs, g2, g3, g4, g5⟩
  have hload : ∀ v ∈ x.strings.data, XmlChars v := by
    rw [← hb.strLoad]
    intro v hv
    unfold loadStrings XDoc.popTag at hv
    simp only [List.mem_filterMap, List.mem_filter] at hv
    obtain ⟨n, ⟨hn, _⟩, hv⟩ := hv
    have hch : o6.doc.rootChildren = cs := by unfold XDoc.rootChildren; rw [hwf.isRoot]; rfl
    rw [hch] at hn
    cases hh : n.children.head? with
    | none => rw [hh] at hv; cases hv
    | some c =>
      rw [hh] at hv
      cases hv
      have := ((hc n hn).child (List.mem_of_mem_head? hh)).text
      show XmlChars (c.value.getD "")
      cases hval : c.value with
      | none => exact xlit (by decide +kernel)
      | some w => exact this w hval
  have hall := run_strings_x hr.2 hload ho
  refine ⟨hall, renderDoc env.build env.stamp d6, ?_, ?_⟩
  · have hst := S.strings
    rw [e6] at hst
    rw [toZip_aget hq (hct _ hn), hst]
    rfl
  · obtain ⟨a', k1, k2, k3⟩ := sst_doc (wf_filter hwf (fun n => n.tag ≠ "si")) W.strings
    refine DocX.wellFormed ⟨t, a', _, k1, ?_, k3 ha, ?_⟩ hsx
    · rw [k2]; exact hu
    · refine nodesX_append (fun c h => DeepX.nodeX c (hc c (List.mem_filter.mp h).1)) (nodesX_map (fun v hv => nodeX_si (hall v hv)))

/-- **C112 (partial).** Another program wrote a sheet of a workbook file and its strings in whatever way XML allows. Open the file, edit the sheet through its handle while
doing anything else, giving texts with characters of XML only, drop the handle, save. The sheet and the strings in the saved file are well-formed XML.
Missing: CDATA sections, empty root elements, names and namespaces that are not plain, parts besides these two. -/
theorem C112_partial (hst : env.build.release = true → StampOk env.stamp) (hsx : env.build.release = true → StampXml env.stamp) (he : PrintsF32 env)
    (hz : (akeys z).Nodup) (he' : EditedSheet env theme z ops path edits x s) (hw : WellWritten env z path) (hw₂ : WellWritten env z x.strings.path)
    (ht : aget path z ≠ none) (hcn : ∀ d0, zipDoc env z path = some d0 → ColumnsNamed d0) (ho : ∀ op ∈ ops, ∀ t ∈ givenTexts op, XmlChars t)
    (hsv : s.x.toZip env now exts = .ok z') :
    (∃ text, aget path z' = some text ∧ WellFormed text) ∧ ∃ text, aget x.strings.path z' = some text ∧ WellFormed text := by
  obtain ⟨hall, hstr⟩ := strings_x hsx hz (edited_ran he') hw₂ ho hsv
  refine ⟨?_, hstr⟩
  cases htx : aget path z with
  | none => exact absurd htx ht
  | some text =>
    obtain ⟨d0, t, a, cs, h1, hwf, hu, ha, hc⟩ := wellWritten_read hw htx
    have h0 : zipDoc env z path = some d0.toXDoc := by unfold zipDoc; rw [htx]; simp only [h1]
    obtain ⟨sh0, d1, sh, d', e1, _, e3, e4, e5, _, _⟩ := edited_text hst he hz he' h0 ⟨hwf.uris, t, a, cs, hwf.isRoot⟩ (hcn _ h0) hsv
    obtain ⟨_, _, _, e8⟩ := load_ok e1
    have hw1 : WfDoc asciiOnly d1 (.mk t a none (unmanaged cs)) := by
      rw [e8]
      exact wf_filter hwf _
    have hu1 : ∀ kv ∈ d1.ns, UriXml kv.2 := by
      rw [e8]
      exact hu
    have hch : d0.toXDoc.rootChildren = cs := by unfold XDoc.rootChildren; rw [hwf.isRoot]; rfl
    have hx : SheetX sh := e5.x (load_x he e1 (by rw [hch]; exact hc)) hall (fun o hm => by
      obtain ⟨i, hi⟩ := edited_mem he' o hm
      exact ho _ hi)
    refine ⟨_, e4, DocX.wellFormed (hx.save_doc hw1 ?_ hu1 ha ?_ e3) hsx⟩
    · exact fun n hn => by simpa [unmanaged] using (List.mem_filter.mp hn).2
    · exact fun c hm => DeepX.nodeX c (hc c (List.mem_filter.mp hm).1)

/-! ## Example -/

/-- Example for C112_partial: `exAgainBook` with a text written at B1. -/
example : ∃ x s z', EditedSheet exEnv exTheme exAgainBook (.get "A" :: (exWrite ++ [.drop 0])) "xl/worksheets/sheet1.xml" [.write 1 2 [{ value := some "hello" }]] x s ∧
    s.x.toZip exEnv "now" exExts = .ok z' ∧ (∃ text, aget "xl/worksheets/sheet1.xml" z' = some text ∧ WellFormed text) ∧
    ∃ text, aget "xl/sharedStrings.xml" z' = some text ∧ WellFormed text := by
  obtain ⟨x, s, h1, h2⟩ := exAgain_sound (z := exAgainBook) (chk := fun x s => decide (x.strings.path = "xl/sharedStrings.xml") &&
    (s.x.toZip exEnv "now" exExts).toOption.isSome) (by decide +kernel)
  simp only [Bool.and_eq_true, decide_eq_true_eq] at h2
  obtain ⟨k1, k2⟩ := h2
  have hed : EditedSheet exEnv exTheme exAgainBook (.get "A" :: (exWrite ++ [.drop 0])) "xl/worksheets/sheet1.xml" [.write 1 2 [{ value := some "hello" }]] x s :=
    ⟨[], "A", exWrite, 0, s, [], rfl, h1, rfl, trivial, trivial⟩
  cases hz' : s.x.toZip exEnv "now" exExts with
  | error e => rw [hz'] at k2; cases k2
  | ok z' =>
    have g := C112_partial (fun h => by cases h) (fun h => by cases h) (fun _ h => ⟨h, rfl⟩) (by decide +kernel) hed
      (fun text ht => by
        have e : aget "xl/worksheets/sheet1.xml" exAgainBook =
          some "<worksheet><sheetData><row r=\"1\"><c r=\"A1\"><v>5</v></c></row></sheetData><mergeCells><mergeCell ref=\"A2:B2\"/></mergeCells></worksheet>".toList := by decide +kernel
        rw [e] at ht
        have ht := Option.some.inj ht
        subst ht
        exact ⟨⟨_, _, _, fxFirst_read, by simp [fxFirst], fxNoCdata (by decide +kernel), fxFirst_ok _⟩, fun d0 h => fxPlainNames h (by decide +kernel)⟩)
      (fun text ht => by
        rw [k1] at ht ⊢
        have e : aget "xl/sharedStrings.xml" exAgainBook = some "<sst><si><t>plain</t></si></sst>".toList := by decide +kernel
        rw [e] at ht
        have ht := Option.some.inj ht
        subst ht
        exact ⟨⟨_, _, _, fxPlain_read, by simp [fxPlain], fxNoCdata (by decide +kernel), fxPlain_ok _⟩, fun d0 h => fxPlainNames h (by decide +kernel)⟩)
      (by decide +kernel) (fun d0 h => by
        obtain ⟨d, r, q1, _, q3, q4⟩ := reads_document (u := exEnv.uni) (f := true) fxFirst_read (by simp [fxFirst]) ⟨fxNoCdata (by decide +kernel), fun _ => fxNoRefs (by decide +kernel)⟩ (fxFirst_ok _)
        have e : zipDoc exEnv exAgainBook "xl/worksheets/sheet1.xml" = some d.toXDoc := by
          have : aget "xl/worksheets/sheet1.xml" exAgainBook = some "<worksheet><sheetData><row r=\"1\"><c r=\"A1\"><v>5</v></c></row></sheetData><mergeCells><mergeCell ref=\"A2:B2\"/></mergeCells></worksheet>".toList := by
            decide +kernel
          unfold zipDoc
          rw [this]
          simp only [q1]
        rw [e] at h
        cases h
        exact (sheet_read q3 q4 fxFirst_common).1.named)
      (fun op hop t ht => xlit (s := t) (by
        have : ((WbOp.get "A" :: (exWrite ++ [.drop 0])).flatMap givenTexts).all (fun t => t.toList.all (fun x => decide (0x20 ≤ x.toNat ∧ x.toNat < 128))) = true := by
          decide +kernel
        exact List.all_eq_true.mp this t (List.mem_flatMap.mpr ⟨op, hop, ht⟩))) hz'
    rw [k1] at g
    exact ⟨x, s, z', hed, hz', g⟩

end Oxml
