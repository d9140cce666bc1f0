import Verif.Proofs.ForeignSaved
import Verif.Props.ForeignStrings
/-!
# C111: sheets other programs wrote, edited and saved, as other programs see them
-/
namespace Oxml
open Spec

variable {env : Env} {theme : XDoc} {z z' : Zip} {ops : List WbOp} {x : Excel} {path : String} {edits : List SheetOp} {s : Session} {now : String}
  {exts : List (String × String)}

theorem plain_tidy {d : XDoc} (h : PlainNames d) : Tidy d := by
  obtain ⟨t, a, cs, hw, _⟩ := h
  exact ⟨hw.uris, t, a, cs, hw.isRoot⟩

/-- **C111 (partial).** Another program wrote a sheet of a workbook file. Open the file, edit the sheet through its handle while doing anything else, drop the handle, save.
Whoever reads the text of the sheet in the saved file, by the rules of XML, finds at every place not written to the cell that was in the sheet before, with the same row,
style, type, formula and text, and only that one, or none if there was none; and at every place written to exactly one cell, with what was last written to it.
Missing: what C109 says, names and namespaces that are not plain, words that are numbers for the library only. -/
theorem C111_partial (hst : env.build.release = true → StampOk env.stamp) (hsx : env.build.release = true → StampXml env.stamp) (he : PrintsF32 env)
    (hz : (akeys z).Nodup) (he' : EditedSheet env theme z ops path edits x s) {text n : List Char} {kvs : List (List Char × List Char)} {cs : List Item}
    (ht : aget path z = some text) (h : IsDocument text (.elem n kvs cs)) (hne : cs ≠ []) (hc : NoCdata text) (hr : RefsInTexts text)
    (hi : ItemOk env.uni (.elem n kvs cs)) (hs : CommonSheet (.elem n kvs cs)) (hpn : ∀ d0, zipDoc env z path = some d0 → PlainNames d0)
    (hsv : s.x.toZip env now exts = .ok z') :
    ∃ text', aget path z' = some text' ∧ ∀ sheet', IsDocument text' sheet' → ∀ r c ref, RefText ref r c →
      (lastWritten r c edits = none →
        (∀ sc ∈ seenCells (.elem n kvs cs), sc.ref = some ref →
          ∃ sc', (seenCells sheet').filter (fun q => decide (q.ref = some ref)) = [sc'] ∧ SameCell sc sc') ∧
        ((∀ sc ∈ seenCells (.elem n kvs cs), sc.ref ≠ some ref) → (seenCells sheet').filter (fun q => decide (q.ref = some ref)) = [])) ∧
      ∀ given, lastWritten r c edits = some given → NumbersAreNumbers given →
        ∃ sc', (seenCells sheet').filter (fun q => decide (q.ref = some ref)) = [sc'] ∧
          FoundAs (s.x.strings.data.map (fun t => lineEnds t.toList)) r given sc' := by
  obtain ⟨d0, r0, h1, _, h3, h4⟩ := reads_document (f := true) h hne ⟨hc, fun _ => hr⟩ hi
  have h0 : zipDoc env z path = some d0.toXDoc := by unfold zipDoc; rw [ht]; simp only [h1]
  obtain ⟨hp, _, _⟩ := sheet_read h3 h4 hs
  have hpl := hpn _ h0
  obtain ⟨sh0, d1, sh, d', e1, e2, e3, e4, e5, e6, e7⟩ := edited_text hst he hz he' h0 (plain_tidy hpl) hp.named hsv
  obtain ⟨tg, a, ns, hw, hu⟩ := hpl
  obtain ⟨_, _, _, e8⟩ := load_ok e1
  have hw1 : WfDoc asciiOnly d1 (.mk tg a none (unmanaged ns)) := by
    rw [e8]
    exact wf_filter hw _
  have hu1 : ∀ kv ∈ d1.ns, UriXml kv.2 := by
    rw [e8]
    exact hu
  refine ⟨_, e4, fun sheet' hd r c ref hrc => ?_⟩
  rw [saved_cells hw1 (fun n hn => by simpa [unmanaged] using (List.mem_filter.mp hn).2) hu1 e3 hsx hd, cells_at e2.sorted e3 hrc]
  obtain ⟨_, k, _⟩ := e5.facts (load_sorted e1) (load_fits he e1) e6 e7
  obtain ⟨g1, g2⟩ := sheet_held h3 h4 hs e1 r c ref hrc
  refine ⟨fun hl => ⟨fun sc hsc hsr => ?_, fun hno => ?_⟩, fun given hg hn => ?_⟩
  · obtain ⟨y, y1, y2⟩ := g1 sc hsc hsr
    rw [(k r c).1 hl, y1]
    exact ⟨_, rfl, same_saved hs hsc hrc hsr y2⟩
  · rw [(k r c).1 hl]
    cases hy : cellAt sh0 r c with
    | none => rfl
    | some y =>
      obtain ⟨sc, w1, w2, _⟩ := g2 y hy
      exact absurd w2 (hno sc w1)
  · obtain ⟨y, y1, y2⟩ := (k r c).2 given hg
    rw [y1]
    exact ⟨_, rfl, found_stored rfl y2 hn (fun h => nomatch h)⟩

theorem sharedString_some {strings : List (List Char)} {number t : List Char} (h : sharedString strings number = some t) {more : List (List Char)} :
    sharedString (strings ++ more) number = some t := by
  unfold sharedString at *
  rw [List.length_append, List.range_add, List.find?_append]
  cases hf : (List.range strings.length).find? (fun i => decide (Nat.toDigits 10 i = number)) with
  | none => rw [hf] at h; cases h
  | some i =>
    rw [hf] at h
    simp only [Option.bind_some, Option.some_or] at h ⊢
    rw [List.getElem?_append_left (List.getElem?_eq_some_iff.mp h).1]
    exact h

/-- The same cell holds the same when strings were added to the table. -/
theorem same_holds {sc sc' : SeenCell} (h : SameCell sc sc') {strings more : List (List Char)} (hd : sc.holds strings ≠ .damaged) :
    sc'.holds (strings ++ more) = sc.holds strings := by
  unfold SeenCell.holds at *
  rw [h.type, h.text]
  simp only at *
  split
  · rfl
  · next h1 =>
    split
    · rfl
    · next h2 =>
      split
      · rfl
      · next h3 =>
        split
        · rfl
        · next h4 =>
          split
          · next h5 =>
            rw [if_neg h1, if_neg h2, if_neg h3, if_neg h4, if_pos h5] at hd
            cases hs : sharedString strings sc.text with
            | none => rw [hs] at hd; exact absurd rfl hd
            | some t => rw [sharedString_some hs]
          · rfl

/-- **C111 (partial), with the values.** As `C111_partial`, the shared strings in the saved file taken into account: every cell not written to holds for other programs
what it held in the file that was opened, every cell written to what was last written to it. Missing besides: what C110 says, cells that were damaged before. -/
theorem C111_partial_values (hst : env.build.release = true → StampOk env.stamp) (hsx : env.build.release = true → StampXml env.stamp) (he : PrintsF32 env)
    (hz : (akeys z).Nodup) (he' : EditedSheet env theme z ops path edits x s)
    {text n : List Char} {kvs : List (List Char × List Char)} {cs : List Item}
    (ht : aget path z = some text) (h : IsDocument text (.elem n kvs cs)) (hne : cs ≠ []) (hc : NoCdata text) (hr : RefsInTexts text)
    (hi : ItemOk env.uni (.elem n kvs cs)) (hs : CommonSheet (.elem n kvs cs)) (hpn : ∀ d0, zipDoc env z path = some d0 → PlainNames d0)
    {text₂ n₂ : List Char} {kvs₂ : List (List Char × List Char)} {cs₂ : List Item}
    (ht₂ : aget x.strings.path z = some text₂) (h₂ : IsDocument text₂ (.elem n₂ kvs₂ cs₂)) (hne₂ : cs₂ ≠ []) (hc₂ : NoCdata text₂)
    (hi₂ : ItemOk env.uni (.elem n₂ kvs₂ cs₂)) (hp₂ : ∀ i ∈ (Item.elem n₂ kvs₂ cs₂).kids "si", OnePiece i)
    (hcl₂ : ∀ t ∈ sharedStrings (.elem n₂ kvs₂ cs₂), t = [] ∨ CleanText t) (hpn₂ : ∀ d0, zipDoc env z x.strings.path = some d0 → PlainNames d0)
    (hsv : s.x.toZip env now exts = .ok z') :
    ∃ text' text₂', aget path z' = some text' ∧ aget x.strings.path z' = some text₂' ∧
      ∀ sheet' sst', IsDocument text' sheet' → IsDocument text₂' sst' → ∀ r c ref, RefText ref r c →
        (lastWritten r c edits = none → ∀ sc ∈ seenCells (.elem n kvs cs), sc.ref = some ref → sc.holds (sharedStrings (.elem n₂ kvs₂ cs₂)) ≠ .damaged →
          ∃ sc', (seenCells sheet').filter (fun q => decide (q.ref = some ref)) = [sc'] ∧ SameCell sc sc' ∧
            sc'.holds (sharedStrings sst') = sc.holds (sharedStrings (.elem n₂ kvs₂ cs₂))) ∧
        ∀ given, lastWritten r c edits = some given → NumbersAreNumbers given →
          ∃ sc', (seenCells sheet').filter (fun q => decide (q.ref = some ref)) = [sc'] ∧ FoundAs (sharedStrings sst') r given sc' := by
  have hran := edited_ran he'
  obtain ⟨text', e1, e2⟩ := C111_partial hst hsx he hz he' ht h hne hc hr hi hs hpn hsv
  obtain ⟨text₂', g1, g2⟩ := strings_text hsx hz hran hpn₂ hsv
  obtain ⟨_, _, _, _, _, _, _, _, _, _, _, _, _, _, _, _, _, _, _, _, _, _, _, _, _, _, _, hct⟩ := saved_base hz hran hsv
  have htab := (C110_partial hz hran.1 ht₂ (hct _ (by simp [ownParts])) h₂ hne₂ hc₂ hi₂ hp₂).2 hcl₂
  obtain ⟨more, hmore⟩ := (run_tables hran.2).1
  have hstr : s.x.strings.data.map (fun t => lineEnds t.toList) = sharedStrings (.elem n₂ kvs₂ cs₂) ++ more.map (fun t => lineEnds t.toList) := by
    rw [← hmore, List.map_append]
    refine congrArg (· ++ _) ?_
    rw [← htab]
    refine List.map_congr_left fun t hm => lineEnds_self ?_
    have : t.toList ∈ sharedStrings (.elem n₂ kvs₂ cs₂) := by rw [← htab]; exact List.mem_map_of_mem hm
    rcases hcl₂ _ this with h | h
    · rw [h]; simp
    · exact h.lines.2
  refine ⟨text', text₂', e1, g1, fun sheet' sst' d1 d2 r c ref hrc => ⟨fun hl sc hsc hsr hd => ?_, fun given hg hn => ?_⟩⟩
  · obtain ⟨sc', k1, k2⟩ := ((e2 sheet' d1 r c ref hrc).1 hl).1 sc hsc hsr
    refine ⟨sc', k1, k2, ?_⟩
    rw [g2 sst' d2, hstr]
    exact same_holds k2 hd
  · rw [g2 sst' d2]
    exact (e2 sheet' d1 r c ref hrc).2 given hg hn

/-! ## Example -/

/-- What other programs read in the strings of `exAgainBook`. -/
def fxPlain : List Item := [fxItem "si" [] [fxItem "t" [] [.text "plain".toList]]]

theorem fxPlain_read : IsDocument "<sst><si><t>plain</t></si></sst>".toList (.elem "sst".toList [] fxPlain) := by
  have e : "<sst><si><t>plain</t></si></sst>".toList = fxTag "sst" [] (fxTag "si" [] (fxTag "t" [] "plain".toList []) []) [] := by decide +kernel
  rw [e]
  exact fxDocument (fxTag_read (kvs := []) (by decide +kernel) (by decide +kernel) (by decide +kernel) (fxTag_read (by decide +kernel) (by decide +kernel) (by decide +kernel)
    (fxTag_read (by decide +kernel) (by decide +kernel) (by decide +kernel) (fxText_read (by decide +kernel) (by decide +kernel)) .nil) .nil) .nil)

theorem fxPlain_ok (u : Unicode) : ItemOk u (.elem "sst".toList [] fxPlain) := by
  have ht : ∀ t, ItemsOk u [.text t] := fun t => by simp [ItemsOk, ItemOk]
  have hn : ItemsOk u [] := by simp [ItemsOk]
  have hc : ∀ {i l}, ItemOk u i → ItemsOk u l → ItemsOk u (i :: l) := fun h1 h2 => by rw [ItemsOk]; exact ⟨h1, h2⟩
  exact fxItem_ok (n := "sst") (kvs := []) (by decide +kernel) (by decide +kernel) (hc (fxItem_ok (by decide +kernel) (by decide +kernel) (hc (fxItem_ok (by decide +kernel)
    (by decide +kernel) (ht _)) hn)) hn)

/-- Documents without namespaces that were read have plain names. -/
theorem fxPlainNames {z : Zip} {path : String} {d0 : XDoc} (h : zipDoc exEnv z path = some d0)
    (hp : (zipDoc exEnv z path).any (fun d => decide (d.ns = []) && decide (d.root.any (fun r => r.value.isNone))) = true) : PlainNames d0 := by
  rw [h] at hp
  simp only [Option.any_some, Bool.and_eq_true, decide_eq_true_eq] at hp
  obtain ⟨hns, hr⟩ := hp
  obtain ⟨c, dd, z1, z2, z3⟩ := of_zipDoc h
  cases hroot : d0.root with
  | none => rw [hroot] at hr; cases hr
  | some r =>
    obtain ⟨t, a, v, cs⟩ := r
    rw [hroot] at hr
    cases v with
    | some v => cases hr
    | none =>
      refine ⟨t, a, cs, ?_, by rw [hns]; simp⟩
      have hu : CleanUris d0.ns := by rw [hns]; intro kv h; cases h
      rw [← z3] at hroot hu ⊢
      exact (Reachable.read z2).wf hroot hu

/-- Example for C111_partial and C111_partial_values: in the saved file other programs find the number 5 at A1, as before, and the text written at B1. -/
example : ∃ x s z' text' text₂', EditedSheet exEnv exTheme exAgainBook (.get "A" :: (exWrite ++ [.drop 0])) "xl/worksheets/sheet1.xml" [.write 1 2 [{ value := some "hello" }]] x s ∧
    s.x.toZip exEnv "now" exExts = .ok z' ∧ aget "xl/worksheets/sheet1.xml" z' = some text' ∧ aget "xl/sharedStrings.xml" z' = some text₂' ∧
    ∀ sheet' sst', IsDocument text' sheet' → IsDocument text₂' sst' →
      (∃ sc', (seenCells sheet').filter (fun q => decide (q.ref = some "A1".toList)) = [sc'] ∧ sc'.text = ['5'] ∧ sc'.type.getD "n".toList = "n".toList) ∧
      ∃ sc', (seenCells sheet').filter (fun q => decide (q.ref = some "B1".toList)) = [sc'] ∧ sc'.holds (sharedStrings sst') = .text "hello".toList := by
  obtain ⟨x, s, h1, h2⟩ := exAgain_sound (z := exAgainBook) (chk := fun x s => decide (x.strings.path = "xl/sharedStrings.xml") &&
    (s.x.toZip exEnv "now" exExts).toOption.isSome) (by decide +kernel)
  simp only [Bool.and_eq_true, decide_eq_true_eq] at h2
  obtain ⟨k1, k2⟩ := h2
  have hed : EditedSheet exEnv exTheme exAgainBook (.get "A" :: (exWrite ++ [.drop 0])) "xl/worksheets/sheet1.xml" [.write 1 2 [{ value := some "hello" }]] x s :=
    ⟨[], "A", exWrite, 0, s, [], rfl, h1, rfl, trivial, trivial⟩
  cases hz' : s.x.toZip exEnv "now" exExts with
  | error e => rw [hz'] at k2; cases k2
  | ok z' =>
    have hp : ∀ i ∈ (Item.elem "sst".toList [] fxPlain).kids "si", OnePiece i := by
      have hk : (Item.elem "sst".toList [] fxPlain).kids "si" = fxPlain := by simp [Item.kids, fxPlain, fxItem, Item.named]
      rw [hk]
      intro i hi
      rw [fxPlain, List.mem_singleton] at hi
      subst hi
      exact ⟨_, [], "t".toList, [], "plain".toList, rfl, by decide +kernel, .inr rfl, by simp⟩
    have hstr : sharedStrings (.elem "sst".toList [] fxPlain) = ["plain".toList] := by decide +kernel
    obtain ⟨text', text₂', g1, g2, g3⟩ := C111_partial_values (fun h => by cases h) (fun h => by cases h) (fun _ h => ⟨h, rfl⟩) (by decide +kernel) hed
      (by decide +kernel) fxFirst_read (by simp [fxFirst]) (fxNoCdata (by decide +kernel)) (fxNoRefs (by decide +kernel)) (fxFirst_ok _) fxFirst_common
      (fun d0 h => fxPlainNames h (by decide +kernel)) (by rw [k1]; decide +kernel) fxPlain_read (by simp [fxPlain]) (fxNoCdata (by decide +kernel)) (fxPlain_ok _) hp
      (by rw [hstr]; intro t ht; rw [List.mem_singleton] at ht; subst ht
          exact .inr (fxClean (by decide +kernel) (by decide +kernel) (by decide +kernel) (by decide +kernel)))
      (fun d0 h => by rw [k1] at h; exact fxPlainNames h (by decide +kernel)) hz'
    rw [k1] at g2
    refine ⟨x, s, z', text', text₂', hed, hz', g1, g2, fun sheet' sst' d1 d2 => ⟨?_, ?_⟩⟩
    · obtain ⟨sc', w1, w2, _⟩ := (g3 sheet' sst' d1 d2 1 1 "A1".toList ⟨['A'], by decide +kernel, by decide, by simp [isUpperLetter], by decide⟩).1 (by decide)
        ⟨some ['1'], some "A1".toList, none, none, [], "5".toList⟩ (by decide +kernel) rfl (by
          unfold SeenCell.holds
          simp only [Option.getD_none]
          rw [if_pos trivial, if_neg (by decide +kernel), if_pos ⟨(isFloatText_iff "5").mp (by decide +kernel), '5', by decide +kernel, by decide⟩]
          intro h; cases h)
      exact ⟨sc', w1, w2.text, w2.type⟩
    · obtain ⟨sc', w1, w2⟩ := (g3 sheet' sst' d1 d2 1 2 "B1".toList ⟨['B'], by decide +kernel, by decide, by simp [isUpperLetter], by decide⟩).2 { value := some "hello" } (by decide) (by
          rintro v hv (h | ⟨_, h⟩)
          · cases h
          · cases hv
            exact absurd ((isFloatText_iff "hello").mpr h) (by decide +kernel))
      refine ⟨sc', w1, w2.value.trans ?_⟩
      unfold wantedValue
      simp only
      rw [if_neg (fun h => absurd ((isFloatText_iff "hello").mpr h) (by decide +kernel)), if_neg (by decide), if_neg (by decide)]
      decide +kernel

end Oxml
