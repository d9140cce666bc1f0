import Verif.Proofs.ForeignSheet
import Verif.Props.SheetXml
/-!
# C69 for all of XML, and C109: the cells of worksheets other programs wrote
-/
namespace Oxml
open Spec

/-! ## C69 -/

/-- **C69, for the grammar of XML.** Whatever well-formed document another program writes, in whatever way XML allows: without CDATA sections, with names the library
accepts and something in the root element, the library reads it, and has for every element the name, the attributes as they are written, the last of the texts that is
not white space without white space around it, and the child elements, all in order. -/
theorem C69_grammar (u : Unicode) (s n : List Char) (kvs : List (List Char × List Char)) (cs : List Item) (h : IsDocument s (.elem n kvs cs)) (hne : cs ≠ [])
    (hc : NoCdata s) (hi : ItemOk u (.elem n kvs cs)) :
    ∃ d r, readXml u s = .ok d ∧ Reachable u d ∧ d.toXDoc.root = some r ∧ ReadAs false r (.elem n kvs cs) :=
  reads_document h hne ⟨hc, (fun h => nomatch h)⟩ hi

/-! ## C109 -/

/-- **C109 (partial).** The text of a worksheet as another program wrote it, in whatever way XML allows. The library reads it, and of the sheet loaded from it: every
cell another program sees there the library holds, with that style, type, formula and value; and it holds no others. Missing: CDATA sections, references in attribute
values, texts of several lines or with white space around them, strings in several runs, shared formulas, dates. -/
theorem C109_partial (env : Env) (text n : List Char) (kvs : List (List Char × List Char)) (cs : List Item) (h : IsDocument text (.elem n kvs cs)) (hne : cs ≠ [])
    (hc : NoCdata text) (hr : RefsInTexts text) (hi : ItemOk env.uni (.elem n kvs cs)) (hs : CommonSheet (.elem n kvs cs)) :
    ∃ d, readXml env.uni text = .ok d ∧ ∀ sh x', Sheet.load env d.toXDoc = (.ok sh, x') → ∀ r c ref, RefText ref r c →
      (∀ sc ∈ seenCells (.elem n kvs cs), sc.ref = some ref → ∃ y, cellAt sh r c = some y ∧ HeldAs y sc) ∧
      (∀ y, cellAt sh r c = some y → ∃ sc ∈ seenCells (.elem n kvs cs), sc.ref = some ref ∧ HeldAs y sc) := by
  obtain ⟨d, r, h1, _, h3, h4⟩ := reads_document (f := true) h hne ⟨hc, fun _ => hr⟩ hi
  exact ⟨d, h1, fun sh x' hl r c ref hrc => sheet_held h3 h4 hs hl r c ref hrc⟩

/-- **C109, saved again (partial).** Open a workbook file with such a sheet, ask for the sheet, edit it through the handle while doing anything else, drop the handle, go
on without asking for it again, save. Of every cell not written the saved sheet says what other programs saw in the file opened, and it has no others. -/
theorem C109_partial_saved {env : Env} {theme : XDoc} {z z' : Zip} {ops : List WbOp} {x : Excel} {path : String} {edits : List SheetOp} {s : Session} {now : String}
    {exts : List (String × String)} (hst : env.build.release = true → StampOk env.stamp) (he : PrintsF32 env) (hz : (akeys z).Nodup)
    (he' : EditedSheet env theme z ops path edits x s) {text n : List Char} {kvs : List (List Char × List Char)} {cs : List Item} (ht : aget path z = some text)
    (h : IsDocument text (.elem n kvs cs)) (hne : cs ≠ []) (hc : NoCdata text) (hr : RefsInTexts text) (hi : ItemOk env.uni (.elem n kvs cs))
    (hs : CommonSheet (.elem n kvs cs)) (hty : ∀ d0, zipDoc env z path = some d0 → Tidy d0) (hsv : s.x.toZip env now exts = .ok z') :
    ∃ d, zipDoc env z' path = some d ∧ ∀ r c ref, RefText ref r c → lastWritten r c edits = none →
      (∀ sc ∈ seenCells (.elem n kvs cs), sc.ref = some ref → ∃ v ∈ (cellElements d).map shown, ShownAs v sc) ∧
      (∀ v ∈ (cellElements d).map shown, v.ref = some (String.ofList ref) → ∃ sc ∈ seenCells (.elem n kvs cs), ShownAs v sc) := by
  obtain ⟨d0, r0, h1, _, h3, h4⟩ := reads_document (f := true) h hne ⟨hc, fun _ => hr⟩ hi
  have h0 : zipDoc env z path = some d0.toXDoc := by unfold zipDoc; rw [ht]; simp only [h1]
  obtain ⟨hp, k1, k2⟩ := sheet_read h3 h4 hs
  obtain ⟨d, g1, g2, _⟩ := C89_partial hst he hz he' h0 (hty _ h0) hp hsv
  refine ⟨d, g1, fun r c ref hrc hw => ⟨fun sc hsc hsr => ?_, fun v hv hvr => ?_⟩⟩
  · obtain ⟨m, hm, hv⟩ := k2 sc hsc
    have hat : (shown m).At r c := by
      have := hv.ref
      rw [hsr] at this
      obtain ⟨t, ht, rfl⟩ := Option.map_eq_some_iff.mp this
      exact ⟨t, ht, hrc⟩
    exact ⟨shown m, (g2 r c _ hw hat).mpr (List.mem_map_of_mem hm), hv⟩
  · have hat : v.At r c := ⟨_, hvr, by rw [String.toList_ofList]; exact hrc⟩
    obtain ⟨m, hm, rfl⟩ := List.mem_map.mp ((g2 r c v hw hat).mp hv)
    exact k1 m hm

/-! ## Examples -/

/-- Letters. -/
def fxName (n : String) : Bool := !n.toList.isEmpty && n.toList.all Char.isAlpha

/-- Characters that stand for themselves everywhere. -/
def fxWord (v : String) : Bool := v.toList.all (fun c => decide (0x20 ≤ c.toNat ∧ c.toNat < 128) && !"&<>\"'[]".toList.contains c)

/-- Attributes in double quotes. -/
def fxAttrs (kvs : List (String × String)) : List Char := kvs.flatMap (fun kv => " ".toList ++ kv.1.toList ++ [] ++ '=' :: ([] ++ '"' :: (kv.2.toList ++ ['"'])))

/-- An element with a start and an end tag, followed by something. -/
def fxTag (n : String) (kvs : List (String × String)) (body r : List Char) : List Char :=
  '<' :: (n.toList ++ (fxAttrs kvs ++ ([] ++ '>' :: (body ++ '<' :: '/' :: (n.toList ++ ([] ++ '>' :: r))))))

/-- The attributes read. -/
def fxRead (kvs : List (String × String)) : List (List Char × List Char) := kvs.map (fun kv => (kv.1.toList, kv.2.toList))

theorem fxName_xml {n : String} (h : fxName n = true) : XmlName n.toList := by
  simp only [fxName, Bool.and_eq_true, Bool.not_eq_true', List.all_eq_true] at h
  cases e : n.toList with
  | nil => rw [e] at h; exact absurd h.1 (by simp)
  | cons c cs =>
    rw [e] at h
    exact ⟨c, cs, rfl, .inr (.inr (.inl (h.2 c (by simp)))), fun x hx => .inl (.inr (.inr (.inl (h.2 x (by simp [hx])))))⟩

theorem fxName_legal {u : Unicode} {n : String} (h : fxName n = true) : LegalName u n := by
  simp only [fxName, Bool.and_eq_true, Bool.not_eq_true', List.all_eq_true] at h
  cases e : n.toList with
  | nil => rw [e] at h; exact absurd h.1 (by simp)
  | cons c cs =>
    rw [e] at h
    have ha : ∀ x ∈ c :: cs, isAlphabetic u x = true := fun x hx => isAlphabetic_mono u x (by
      have := h.2 x hx
      have h128 : x.toNat < 128 := by
        simp only [Char.isAlpha, Char.isUpper, Char.isLower, Bool.or_eq_true, Bool.and_eq_true, decide_eq_true_eq, UInt32.le_iff_toNat_le] at this
        have : x.val.toNat = x.toNat := rfl
        simp at *
        omega
      unfold isAlphabetic
      simp [this, h128])
    refine ⟨c, cs, e, .inr (ha c (by simp)), fun x hx => .inr (.inl (ha x (by simp [hx]))), ?_⟩
    rw [List.count_eq_zero.mpr]
    · omega
    · intro hm
      exact absurd (h.2 _ hm) (by decide)

theorem fxWord_facts {v : String} (h : fxWord v = true) : (∀ c ∈ v.toList, XmlChar c) ∧ (∀ x ∈ "&<>\"'[]".toList, x ∉ v.toList) ∧
    '\r' ∉ v.toList ∧ '\n' ∉ v.toList ∧ '\t' ∉ v.toList := by
  simp only [fxWord, List.all_eq_true, Bool.and_eq_true, decide_eq_true_eq, Bool.not_eq_true'] at h
  refine ⟨fun c hc => xmlChar_ascii (h c hc).1.1 (h c hc).1.2, fun x hx hm => ?_, ?_, ?_, ?_⟩
  · have := (h x hm).2
    rw [List.contains_iff_mem.mpr hx] at this
    cases this
  all_goals
    intro hm
    exact absurd (h _ hm).1 (by decide)

theorem fxAttrs_read {kvs : List (String × String)} (h : kvs.all (fun kv => fxName kv.1 && fxWord kv.2) = true) : IsAttrs (fxAttrs kvs) (fxRead kvs) := by
  induction kvs with
  | nil => exact .nil
  | cons kv kvs ih =>
    simp only [List.all_cons, Bool.and_eq_true] at h
    obtain ⟨h1, h2, h3, h4, h5⟩ := fxWord_facts h.1.2
    refine .cons ⟨" ".toList, [], [], '"', kv.2.toList, rfl, by intro c hc; simp at hc; simp [hc, White], by simp, fxName_xml h.1.1, nofun, nofun, .inl rfl,
      h2 _ (by decide), h2 _ (by decide), h1, ?_, h1⟩ (ih (by simpa using h.2))
    rw [lineEnds_self h3, List.map_congr_left (g := id), List.map_id]
    · exact standsFor_plain (h2 _ (by decide))
    · intro c hc
      unfold whiteToSpace
      rw [if_neg]
      · rfl
      · rintro (rfl | rfl | rfl)
        · exact h5 hc
        · exact h4 hc
        · exact h3 hc

theorem fxTag_read {n : String} {kvs : List (String × String)} {body r : List Char} {cs l : List Item} (hn : fxName n = true)
    (hk : kvs.all (fun kv => fxName kv.1 && fxWord kv.2) = true) (hd : ((fxRead kvs).map Prod.fst).Nodup) (hb : IsContent body cs) (hr : IsContent r l) :
    IsContent (fxTag n kvs body r) (.elem n.toList (fxRead kvs) cs :: l) :=
  .elem (fxName_xml hn) (fxAttrs_read hk) hd nofun hb nofun hr

theorem fxText_read {v : String} (h : fxWord v = true) (hv : v ≠ "") : IsContent v.toList [.text v.toList] := by
  obtain ⟨h1, h2, h3, h4, h5⟩ := fxWord_facts h
  have := IsContent.text (s := v.toList) (t := v.toList) ⟨by simpa using hv, h1, h2 _ (by decide), fun l r e => h2 ']' (by decide) (by rw [e]; simp), by
    rw [lineEnds_self h3]; exact standsFor_plain (h2 _ (by decide)), h1⟩ .nil (.inl rfl)
  simpa using this

theorem fxDocument {s : List Char} {n : List Char} {kvs : List (List Char × List Char)} {cs : List Item} (h : IsContent s [.elem n kvs cs]) : IsDocument s (.elem n kvs cs) :=
  ⟨[], [], s, [], by simp, .inl rfl, .nil, h, ⟨_, _, _, rfl⟩, .nil⟩

theorem fxNoCdata {s : List Char} (h : '[' ∉ s) : NoCdata s := by
  intro l r e
  rw [e] at h
  exact h (by simp)

theorem fxNoRefs {s : List Char} (h : '&' ∉ s) : RefsInTexts s := by
  intro l m q r e
  rw [e] at h
  exact absurd (by simp) h

/-- A sheet with a number with a style, an inline string with a formula before it, an empty row and merged cells. -/
def fxSheet : List Char :=
  fxTag "worksheet" [] (fxTag "sheetData" [] (fxTag "row" [("r", "2")]
    (fxTag "c" [("r", "B2"), ("s", "3")] (fxTag "f" [] "A1+1".toList (fxTag "v" [] "5".toList []))
      (fxTag "c" [("r", "C2"), ("t", "inlineStr")] (fxTag "is" [] (fxTag "t" [] "two words".toList []) []) []))
    (fxTag "row" [("r", "7")] [] [])) (fxTag "mergeCells" [] (fxTag "mergeCell" [("ref", "A2:B2")] [] []) [])) []

example : fxSheet = ("<worksheet><sheetData><row r=\"2\"><c r=\"B2\" s=\"3\"><f>A1+1</f><v>5</v></c>" ++
    "<c r=\"C2\" t=\"inlineStr\"><is><t>two words</t></is></c></row><row r=\"7\"></row></sheetData>" ++
    "<mergeCells><mergeCell ref=\"A2:B2\"></mergeCell></mergeCells></worksheet>").toList := by decide +kernel

/-- What other programs read in it. -/
def fxItem (tag : String) (kvs : List (String × String)) (cs : List Item) : Item := .elem tag.toList (fxRead kvs) cs

/-- The row with cells. -/
def fxRow : Item := fxItem "row" [("r", "2")]
  [fxItem "c" [("r", "B2"), ("s", "3")] [fxItem "f" [] [.text "A1+1".toList], fxItem "v" [] [.text "5".toList]],
   fxItem "c" [("r", "C2"), ("t", "inlineStr")] [fxItem "is" [] [fxItem "t" [] [.text "two words".toList]]]]

/-- What is in the root. -/
def fxContent : List Item :=
  [fxItem "sheetData" [] [fxRow, fxItem "row" [("r", "7")] []], fxItem "mergeCells" [] [fxItem "mergeCell" [("ref", "A2:B2")] []]]

theorem fxSheet_read : IsDocument fxSheet (.elem "worksheet".toList [] fxContent) := by
  refine fxDocument (fxTag_read (kvs := []) (by decide +kernel) (by decide +kernel) (by decide +kernel) ?_ .nil)
  refine fxTag_read (by decide +kernel) (by decide +kernel) (by decide +kernel) ?_ (fxTag_read (by decide +kernel) (by decide +kernel) (by decide +kernel)
    (fxTag_read (by decide +kernel) (by decide +kernel) (by decide +kernel) .nil .nil) .nil)
  refine fxTag_read (by decide +kernel) (by decide +kernel) (by decide +kernel) ?_ (fxTag_read (by decide +kernel) (by decide +kernel) (by decide +kernel) .nil .nil)
  refine fxTag_read (by decide +kernel) (by decide +kernel) (by decide +kernel) (fxTag_read (by decide +kernel) (by decide +kernel) (by decide +kernel)
    (fxText_read (by decide +kernel) (by decide +kernel)) (fxTag_read (by decide +kernel) (by decide +kernel) (by decide +kernel)
      (fxText_read (by decide +kernel) (by decide +kernel)) .nil)) ?_
  exact fxTag_read (by decide +kernel) (by decide +kernel) (by decide +kernel) (fxTag_read (by decide +kernel) (by decide +kernel) (by decide +kernel)
    (fxTag_read (by decide +kernel) (by decide +kernel) (by decide +kernel) (fxText_read (by decide +kernel) (by decide +kernel)) .nil) .nil) .nil

theorem fxItem_ok {u : Unicode} {n : String} {kvs : List (String × String)} {cs : List Item} (hn : fxName n = true)
    (hk : kvs.all (fun kv => fxName kv.1 && fxWord kv.2) = true) (hc : ItemsOk u cs) : ItemOk u (fxItem n kvs cs) := by
  have hkv : ∀ kv ∈ fxRead kvs, ∃ a ∈ kvs, kv = (a.1.toList, a.2.toList) := fun kv hkv => by
    obtain ⟨a, h1, h2⟩ := List.mem_map.mp hkv
    exact ⟨a, h1, h2.symm⟩
  have hk' := List.all_eq_true.mp hk
  unfold fxItem
  rw [ItemOk, String.ofList_toList]
  refine ⟨fxName_legal hn, ?_, ?_, hc⟩
  · intro kv h
    obtain ⟨a, h1, rfl⟩ := hkv kv h
    have := hk' a h1
    rw [Bool.and_eq_true] at this
    rw [String.ofList_toList]
    exact fxName_legal this.1
  · intro kv h p e
    obtain ⟨a, h1, rfl⟩ := hkv kv h
    have := hk' a h1
    simp only [fxName, Bool.and_eq_true, List.all_eq_true] at this
    have := this.1.2 ':' (by simp only at e; rw [e]; simp)
    exact absurd this (by decide)

theorem fxContent_ok (u : Unicode) : ItemOk u (.elem "worksheet".toList [] fxContent) := by
  have hd : ∀ {n : String} {kvs : List (String × String)} {cs : List Item}, (fxName n && kvs.all (fun kv => fxName kv.1 && fxWord kv.2)) = true → ItemsOk u cs →
      ItemOk u (fxItem n kvs cs) := fun h hc => by
    rw [Bool.and_eq_true] at h
    exact fxItem_ok h.1 h.2 hc
  have ht : ∀ t, ItemsOk u [.text t] := fun t => by simp [ItemsOk, ItemOk]
  have hn : ItemsOk u [] := by simp [ItemsOk]
  have hc : ∀ {i l}, ItemOk u i → ItemsOk u l → ItemsOk u (i :: l) := fun h1 h2 => by rw [ItemsOk]; exact ⟨h1, h2⟩
  refine hd (n := "worksheet") (kvs := []) (by decide +kernel) (hc (hd (by decide +kernel) (hc (hd (by decide +kernel) (hc (hd (by decide +kernel) ?_)
    (hc (hd (by decide +kernel) ?_) hn))) (hc (hd (by decide +kernel) hn) hn))) (hc (hd (by decide +kernel) (hc (hd (by decide +kernel) hn) hn)) hn))
  · exact hc (hd (by decide +kernel) (ht _)) (hc (hd (by decide +kernel) (ht _)) hn)
  · exact hc (hd (by decide +kernel) (hc (hd (by decide +kernel) (ht _)) hn)) hn

theorem fxClean {v : String} (h : fxWord v = true) (hv : v ≠ "") (h1 : v.toList.head? ≠ some ' ') (h2 : v.toList.getLast? ≠ some ' ') : CleanText v.toList := by
  obtain ⟨_, _, k3, k4, k5⟩ := fxWord_facts h
  have hw : ∀ c ∈ v.toList, c ≠ ' ' → ¬White c := by
    rintro c hc hs (rfl | rfl | rfl | rfl)
    · exact hs rfl
    · exact k5 hc
    · exact k4 hc
    · exact k3 hc
  refine ⟨by simpa using hv, ⟨k4, k3⟩, ?_, ?_⟩
  · intro c r e
    refine hw c (by rw [e]; simp) ?_
    rintro rfl
    exact h1 (by rw [e]; rfl)
  · intro l c e
    refine hw c (by rw [e]; simp) ?_
    rintro rfl
    exact h2 (by rw [e]; simp)

theorem fxHolds {n v : String} {kvs : List (String × String)} (h : fxWord v = true) (hv : v ≠ "") (h1 : v.toList.head? ≠ some ' ') (h2 : v.toList.getLast? ≠ some ' ') :
    HoldsText (fxItem n kvs [.text v.toList]) := ⟨_, _, .inr ⟨_, fxClean h hv h1 h2, rfl⟩⟩

theorem fxContent_common : CommonSheet (.elem "worksheet".toList [] fxContent) := by
  have hk : (Item.elem "worksheet".toList [] fxContent).kids "sheetData" = [fxItem "sheetData" [] [fxRow, fxItem "row" [("r", "7")] []]] := by
    simp [Item.kids, fxContent, fxItem, Item.named]
  have hel : (fxItem "sheetData" [] [fxRow, fxItem "row" [("r", "7")] []]).elements = [fxRow, fxItem "row" [("r", "7")] []] := rfl
  refine ⟨by rw [hk]; simp, ?_, ?_⟩
  · intro d hd r hr
    rw [hk, List.mem_singleton] at hd
    subst hd
    rw [hel] at hr
    simp only [List.mem_cons, List.not_mem_nil, or_false] at hr
    rcases hr with rfl | rfl
    · refine ⟨by decide +kernel, 2, by decide +kernel, ?_, by decide +kernel⟩
      intro c hc
      have : fxRow.elements = [fxItem "c" [("r", "B2"), ("s", "3")] [fxItem "f" [] [.text "A1+1".toList], fxItem "v" [] [.text "5".toList]],
        fxItem "c" [("r", "C2"), ("t", "inlineStr")] [fxItem "is" [] [fxItem "t" [] [.text "two words".toList]]]] := rfl
      rw [this] at hc
      simp only [List.mem_cons, List.not_mem_nil, or_false] at hc
      have hnone : ∀ {o : Option (List Char)} {P : List Char → Prop}, o = none → ∀ v, o = some v → P v := by
        rintro o P rfl v hv
        cases hv
      rcases hc with rfl | rfl
      · refine ⟨by decide +kernel, ⟨"B2".toList, 2, by decide +kernel, ⟨['B'], by decide +kernel, by decide, by simp [isUpperLetter], by decide⟩, by decide⟩, ?_, ?_, ?_, ?_, ?_⟩
        · intro v hv
          have : Item.attrOf "s" (fxItem "c" [("r", "B2"), ("s", "3")] [fxItem "f" [] [.text "A1+1".toList], fxItem "v" [] [.text "5".toList]]) = some ['3'] := by
            decide +kernel
          rw [this] at hv
          cases hv
          exact ⟨3, by decide +kernel⟩
        · exact hnone (by decide +kernel)
        · intro k hk
          simp only [List.mem_cons, List.not_mem_nil, or_false] at hk
          rcases hk with rfl | rfl <;> exact hnone (by decide +kernel)
        · decide +kernel
        · rw [if_neg (by decide +kernel)]
          refine ⟨?_, by simp [Item.kids, fxItem, Item.named], by simp [Item.kids, fxItem, Item.named]⟩
          intro c hc
          have : c ∈ [fxItem "f" [] [.text "A1+1".toList], fxItem "v" [] [.text "5".toList]] := hc
          simp only [List.mem_cons, List.not_mem_nil, or_false] at this
          rcases this with rfl | rfl
          · exact ⟨fxHolds (by decide +kernel) (by decide +kernel) (by decide +kernel) (by decide +kernel), .inr ⟨_, rfl⟩⟩
          · exact ⟨fxHolds (by decide +kernel) (by decide +kernel) (by decide +kernel) (by decide +kernel), .inl (by decide +kernel)⟩
      · refine ⟨by decide +kernel, ⟨"C2".toList, 3, by decide +kernel, ⟨['C'], by decide +kernel, by decide, by simp [isUpperLetter], by decide⟩, by decide⟩, ?_, ?_, ?_, ?_, ?_⟩
        · exact hnone (by decide +kernel)
        · intro v hv
          have : Item.attrOf "t" (fxItem "c" [("r", "C2"), ("t", "inlineStr")] [fxItem "is" [] [fxItem "t" [] [.text "two words".toList]]]) = some "inlineStr".toList := by
            decide +kernel
          rw [this] at hv
          cases hv
          decide +kernel
        · intro k hk
          simp only [List.mem_cons, List.not_mem_nil, or_false] at hk
          rcases hk with rfl | rfl <;> exact hnone (by decide +kernel)
        · decide +kernel
        · rw [if_pos (by decide +kernel)]
          exact ⟨_, _, rfl, by decide +kernel, rfl, by decide +kernel, fxHolds (by decide +kernel) (by decide +kernel) (by decide +kernel) (by decide +kernel)⟩
    · exact ⟨by decide +kernel, 7, by decide +kernel, (fun _ h => nomatch h), List.nodup_nil⟩
  · intro d hd
    rw [hk, List.mem_singleton] at hd
    subst hd
    rw [hel]
    decide +kernel

/-- Example for C69_grammar and C109_partial: the sheet is read, and loaded its cell B2 has the style 3, the formula A1+1 and the value 5, its cell C2 the text. -/
example (env : Env) : ∃ d, readXml env.uni fxSheet = .ok d ∧ ∀ sh x', Sheet.load env d.toXDoc = (.ok sh, x') →
    (∃ y, cellAt sh 2 2 = some y ∧ y.formula = some "A1+1" ∧ y.value = some "5") ∧ ∃ y, cellAt sh 2 3 = some y ∧ y.type = .inlineString ∧ y.value = some "two words" := by
  obtain ⟨d, h1, h2⟩ := C109_partial env fxSheet _ _ _ fxSheet_read (by simp [fxContent]) (fxNoCdata (by decide +kernel)) (fxNoRefs (by decide +kernel)) (fxContent_ok _)
    fxContent_common
  have hget : ∀ {o : Option String} {v : String}, v ≠ "" → (o.getD "").toList = v.toList → o = some v := by
    intro o v hv h
    cases o with
    | none => exact absurd (String.toList_inj.mp h).symm hv
    | some w => rw [← String.toList_inj.mp h]; rfl
  refine ⟨d, h1, fun sh x' hl => ⟨?_, ?_⟩⟩
  · obtain ⟨y, k1, k2⟩ := (h2 sh x' hl 2 2 "B2".toList ⟨['B'], by decide +kernel, by decide, by simp [isUpperLetter], by decide⟩).1
      ⟨some ['2'], some "B2".toList, some ['3'], none, ["A1+1".toList], "5".toList⟩ (by decide +kernel) rfl
    exact ⟨y, k1, hget (by decide) k2.formula, hget (by decide) k2.value⟩
  · obtain ⟨y, k1, k2⟩ := (h2 sh x' hl 2 3 "C2".toList ⟨['C'], by decide +kernel, by decide, by simp [isUpperLetter], by decide⟩).1
      ⟨some ['2'], some "C2".toList, none, some "inlineStr".toList, [], "two words".toList⟩ (by decide +kernel) rfl
    refine ⟨y, k1, ?_, hget (by decide) k2.value⟩
    have := k2.type
    revert this
    cases y.type <;> decide +kernel

/-- The sheet is loaded. -/
example : (match readXml exEnv.uni fxSheet with
    | .ok d => (Sheet.load exEnv d.toXDoc).1.toOption.isSome
    | .error _ => false) = true := by decide +kernel

/-- A sheet with one cell. -/
def fxOne (kvs : List (String × String)) (content : List Char) : List Char :=
  fxTag "worksheet" [] (fxTag "sheetData" [] (fxTag "row" [("r", "1")] (fxTag "c" (("r", "A1") :: kvs) content []) []) []) []

/-- What other programs read in it. -/
def fxOneItem (kvs : List (String × String)) (cs : List Item) : Item :=
  fxItem "worksheet" [] [fxItem "sheetData" [] [fxItem "row" [("r", "1")] [fxItem "c" (("r", "A1") :: kvs) cs]]]

theorem fxOne_read {kvs : List (String × String)} {content : List Char} {cs : List Item} (h : IsContent content cs)
    (hk : (("r", "A1") :: kvs).all (fun kv => fxName kv.1 && fxWord kv.2) = true) (hn : ((fxRead (("r", "A1") :: kvs)).map Prod.fst).Nodup) :
    IsDocument (fxOne kvs content) (fxOneItem kvs cs) :=
  fxDocument (fxTag_read (by decide +kernel) (by decide +kernel) (by decide +kernel) (fxTag_read (by decide +kernel) (by decide +kernel) (by decide +kernel)
    (fxTag_read (by decide +kernel) (by decide +kernel) (by decide +kernel) (fxTag_read (by decide +kernel) hk hn h .nil) .nil) .nil) .nil)

/-- The value of A1 in the loaded sheet. -/
def fxValue (text : List Char) : Option (Option (Option String)) :=
  match readXml exEnv.uni text with
  | .ok d =>
    match Sheet.load exEnv d.toXDoc with
    | (.ok sh, _) => some ((cellAt sh 1 1).map CellProps.value)
    | _ => none
  | .error _ => none

theorem fx_violates {text : List Char} {sheet : Item} {sc : SeenCell} (h : IsDocument text sheet) (hsc : sc ∈ seenCells sheet) (hr : sc.ref = some "A1".toList)
    (ht : sc.text ≠ []) (hv : fxValue text = some (some none)) : ¬CellsAsSeen exEnv := by
  intro hall
  unfold fxValue at hv
  split at hv
  · next d hd =>
    split at hv
    · next sh x' hl =>
      obtain ⟨y, h1, h2⟩ := hall text sheet d sh x' h hd hl 1 1 "A1".toList ⟨['A'], by decide +kernel, by decide, by simp [isUpperLetter], by decide⟩ sc hsc hr
      rw [h1] at hv
      have : y.value = none := by simpa using hv
      have h3 := h2.value
      rw [this] at h3
      exact ht h3.symm
    · cases hv
  · cases hv

/-- **C109, violated.** A value written in a CDATA section, as XML allows, is lost: the cell is empty for the library. -/
theorem C109_violated_cdata : ¬CellsAsSeen exEnv := by
  refine fx_violates (sc := ⟨some ['1'], some "A1".toList, none, none, [], "5".toList⟩)
    (fxOne_read (kvs := []) (content := fxTag "v" [] ("<![CDATA[".toList ++ "5".toList ++ "]]>".toList) []) (cs := [fxItem "v" [] [.text "5".toList]]) ?_ (by decide +kernel)
      (by decide +kernel)) (by decide +kernel) rfl (by decide) (by decide +kernel)
  refine fxTag_read (by decide +kernel) (by decide +kernel) (by decide +kernel) ?_ .nil
  have := IsContent.cdata (s := "<![CDATA[".toList ++ "5".toList ++ "]]>".toList) (t := "5".toList) ⟨"5".toList, rfl, ascii_xml (by decide +kernel), ?_, by decide +kernel⟩ .nil
  · simpa using this
  · intro l r e
    have : '>' ∈ "5".toList := by rw [e]; simp
    exact absurd this (by decide +kernel)

/-- **C109, violated.** The text of an inline string in runs is lost. -/
theorem C109_violated_runs : ¬CellsAsSeen exEnv := by
  refine fx_violates (sc := ⟨some ['1'], some "A1".toList, none, some "inlineStr".toList, [], "bold plain".toList⟩)
    (fxOne_read (kvs := [("t", "inlineStr")]) (content := fxTag "is" [] (fxTag "r" [] (fxTag "t" [] "bold".toList []) (fxTag "r" [] (fxTag "t" [] " plain".toList []) [])) [])
      (cs := [fxItem "is" [] [fxItem "r" [] [fxItem "t" [] [.text "bold".toList]], fxItem "r" [] [fxItem "t" [] [.text " plain".toList]]]]) ?_ (by decide +kernel)
      (by decide +kernel)) (by decide +kernel) rfl (by decide) (by decide +kernel)
  exact fxTag_read (by decide +kernel) (by decide +kernel) (by decide +kernel) (fxTag_read (by decide +kernel) (by decide +kernel) (by decide +kernel)
    (fxTag_read (by decide +kernel) (by decide +kernel) (by decide +kernel) (fxText_read (by decide +kernel) (by decide +kernel)) .nil)
    (fxTag_read (by decide +kernel) (by decide +kernel) (by decide +kernel)
      (fxTag_read (by decide +kernel) (by decide +kernel) (by decide +kernel) (fxText_read (by decide +kernel) (by decide +kernel)) .nil) .nil)) .nil

/-! An example for the saved file -/

/-- What other programs read in the sheet of `exSheetBook`. -/
def fxFirst : List Item :=
  [fxItem "sheetData" [] [fxItem "row" [("r", "1")] [fxItem "c" [("r", "A1")] [fxItem "v" [] [.text "5".toList]]]],
   fxItem "mergeCells" [] [fxItem "mergeCell" [("ref", "A2:B2")] []]]

theorem fxFirst_read : IsDocument "<worksheet><sheetData><row r=\"1\"><c r=\"A1\"><v>5</v></c></row></sheetData><mergeCells><mergeCell ref=\"A2:B2\"/></mergeCells></worksheet>".toList
    (.elem "worksheet".toList [] fxFirst) := by
  have e : "<worksheet><sheetData><row r=\"1\"><c r=\"A1\"><v>5</v></c></row></sheetData><mergeCells><mergeCell ref=\"A2:B2\"/></mergeCells></worksheet>".toList =
      fxTag "worksheet" [] (fxTag "sheetData" [] (fxTag "row" [("r", "1")] (fxTag "c" [("r", "A1")] (fxTag "v" [] "5".toList []) []) [])
        (fxTag "mergeCells" [] ('<' :: ("mergeCell".toList ++ (fxAttrs [("ref", "A2:B2")] ++ ([] ++ '/' :: '>' :: [])))) [])) [] := by decide +kernel
  rw [e]
  refine fxDocument (fxTag_read (kvs := []) (by decide +kernel) (by decide +kernel) (by decide +kernel) ?_ .nil)
  refine fxTag_read (by decide +kernel) (by decide +kernel) (by decide +kernel) (fxTag_read (by decide +kernel) (by decide +kernel) (by decide +kernel)
    (fxTag_read (by decide +kernel) (by decide +kernel) (by decide +kernel) (fxTag_read (by decide +kernel) (by decide +kernel) (by decide +kernel)
      (fxText_read (by decide +kernel) (by decide +kernel)) .nil) .nil) .nil)
    (fxTag_read (by decide +kernel) (by decide +kernel) (by decide +kernel) ?_ .nil)
  exact .void (fxName_xml (by decide +kernel)) (fxAttrs_read (by decide +kernel)) (by decide +kernel) nofun .nil

theorem fxFirst_ok (u : Unicode) : ItemOk u (.elem "worksheet".toList [] fxFirst) := by
  have hd : ∀ {n : String} {kvs : List (String × String)} {cs : List Item}, (fxName n && kvs.all (fun kv => fxName kv.1 && fxWord kv.2)) = true → ItemsOk u cs →
      ItemOk u (fxItem n kvs cs) := fun h hc => by
    rw [Bool.and_eq_true] at h
    exact fxItem_ok h.1 h.2 hc
  have ht : ∀ t, ItemsOk u [.text t] := fun t => by simp [ItemsOk, ItemOk]
  have hn : ItemsOk u [] := by simp [ItemsOk]
  have hc : ∀ {i l}, ItemOk u i → ItemsOk u l → ItemsOk u (i :: l) := fun h1 h2 => by rw [ItemsOk]; exact ⟨h1, h2⟩
  exact hd (n := "worksheet") (kvs := []) (by decide +kernel) (hc (hd (by decide +kernel) (hc (hd (by decide +kernel) (hc (hd (by decide +kernel)
    (hc (hd (by decide +kernel) (ht _)) hn)) hn)) hn)) (hc (hd (by decide +kernel) (hc (hd (by decide +kernel) hn) hn)) hn))

theorem fxFirst_common : CommonSheet (.elem "worksheet".toList [] fxFirst) := by
  have hk : (Item.elem "worksheet".toList [] fxFirst).kids "sheetData" = [fxItem "sheetData" [] [fxItem "row" [("r", "1")] [fxItem "c" [("r", "A1")]
      [fxItem "v" [] [.text "5".toList]]]]] := by
    simp [Item.kids, fxFirst, fxItem, Item.named]
  refine ⟨by rw [hk]; simp, ?_, ?_⟩
  · intro d hd r hr
    rw [hk, List.mem_singleton] at hd
    subst hd
    have hr : r ∈ [fxItem "row" [("r", "1")] [fxItem "c" [("r", "A1")] [fxItem "v" [] [.text "5".toList]]]] := hr
    rw [List.mem_singleton] at hr
    subst hr
    refine ⟨by decide +kernel, 1, by decide +kernel, ?_, by decide +kernel⟩
    intro c hc
    have hc : c ∈ [fxItem "c" [("r", "A1")] [fxItem "v" [] [.text "5".toList]]] := hc
    rw [List.mem_singleton] at hc
    subst hc
    have hnone : ∀ {o : Option (List Char)} {P : List Char → Prop}, o = none → ∀ v, o = some v → P v := by
      rintro o P rfl v hv
      cases hv
    refine ⟨by decide +kernel, ⟨"A1".toList, 1, by decide +kernel, ⟨['A'], by decide +kernel, by decide, by simp [isUpperLetter], by decide⟩, by decide⟩, ?_, ?_, ?_, ?_, ?_⟩
    · exact hnone (by decide +kernel)
    · exact hnone (by decide +kernel)
    · intro k hk
      simp only [List.mem_cons, List.not_mem_nil, or_false] at hk
      rcases hk with rfl | rfl <;> exact hnone (by decide +kernel)
    · decide +kernel
    · rw [if_neg (by decide +kernel)]
      refine ⟨?_, by simp [Item.kids, fxItem, Item.named], by simp [Item.kids, fxItem, Item.named]⟩
      intro c hc
      have : c ∈ [fxItem "v" [] [.text "5".toList]] := hc
      rw [List.mem_singleton] at this
      subst this
      exact ⟨fxHolds (by decide +kernel) (by decide +kernel) (by decide +kernel) (by decide +kernel), .inl (by decide +kernel)⟩
  · intro d hd
    rw [hk, List.mem_singleton] at hd
    subst hd
    decide +kernel

/-- Example for C109_partial_saved: the number of the sheet of `exEdited_facts` is in the saved sheet. -/
example : ∃ x s z' d, EditedSheet exEnv exTheme exSheetBook (.get "A" :: (exEdits ++ [.drop 0])) "xl/worksheets/sheet1.xml" [.write 1 2 [{ value := some "hello" }]] x s ∧
    s.x.toZip exEnv "now" exExts = .ok z' ∧ zipDoc exEnv z' "xl/worksheets/sheet1.xml" = some d ∧
    ∃ v ∈ (cellElements d).map shown, v.ref = some "A1" ∧ v.type = "n" ∧ v.text = "5" := by
  obtain ⟨edits, x, s, z', h1, h2, h3, h4, h5, rfl, h7, h8⟩ := exEdited_facts
  obtain ⟨d, g1, g2⟩ := C109_partial_saved (fun h => by cases h) (fun _ h => ⟨h, rfl⟩) (by decide +kernel) h1 (by decide +kernel) fxFirst_read (by simp [fxFirst])
    (fxNoCdata (by decide +kernel)) (fxNoRefs (by decide +kernel)) (fxFirst_ok _) fxFirst_common (fun d0 e => by rw [h2] at e; cases e; exact h3) h5
  refine ⟨x, s, z', d, h1, h5, g1, ?_⟩
  obtain ⟨v, k1, k2⟩ := (g2 1 1 "A1".toList ⟨['A'], by decide +kernel, by decide, by simp [isUpperLetter], by decide⟩ (by decide)).1
    ⟨some ['1'], some "A1".toList, none, none, [], "5".toList⟩ (by decide +kernel) rfl
  have e1 := k2.ref
  refine ⟨v, k1, ?_, String.toList_inj.mp k2.type, String.toList_inj.mp k2.value⟩
  obtain ⟨t, ht, e⟩ := Option.map_eq_some_iff.mp e1
  rw [ht, String.toList_inj.mp e]

end Oxml
