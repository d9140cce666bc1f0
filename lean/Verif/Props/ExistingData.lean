import Verif.Proofs.ExistingTables
import Verif.Props.Existing
/-!
# C82–C84: what an existing workbook contains after editing and saving
-/
namespace Oxml
open Spec

/-! ## C82 -/

/-- A theme that can be written: read from some text, its root has children and no text. -/
structure GoodTheme (env : Env) (theme : XDoc) : Prop where
  read : ∃ c d, readXml env.uni c = .ok d ∧ d.toXDoc = theme
  tidy : Tidy theme
  content : theme.rootChildren ≠ []

/-- **C82 as stated.** Opening and saving keeps number, name, relationship and state of every sheet. -/
def SheetListKept (env : Env) (theme : XDoc) : Prop :=
  ∀ z z' x now exts d d', (akeys z).Nodup → Excel.openFile env theme z = .ok x → TidyParts env z x → x.toZip env now exts = .ok z' →
    zipDoc env z x.book.path = some d → zipDoc env z' x.book.path = some d' → sheetLines d' = sheetLines d

section
variable {env : Env} {theme : XDoc} {z z' : Zip} {ops : List WbOp} {x : Excel} {s : Session} {now : String} {exts : List (String × String)}

/-- **C82, what holds.** After any history on an existing workbook, the saved workbook part lists exactly the sheets of the session, in
order, each with its name and relationship (escaped once more), hidden or not; numbers are given anew from 1. The library reads the
same list back. -/
theorem C82_sheets_partial (hst : env.build.release = true → StampOk env.stamp) (hz : (akeys z).Nodup) (hr : RanOn env theme z ops x s)
    (ht : TidyParts env z x) (hs : s.x.toZip env now exts = .ok z') : ∃ d, zipDoc env z' x.book.path = some d ∧ sheetLines d = writtenLines s.x.sheets ∧
      (loadBook d).1 = .ok (s.x.sheets.map reloadSheetEntry, s.x.view.map reloadBookView) := saved_book_doc hst hz hr ht hs

/-- What becomes of the line of a sheet when nothing is done to it. -/
def keptLine (i : Nat) (l : Option String × Option String × Option String × Option String) :
    Option String × Option String × Option String × Option String :=
  (some (toString i), l.2.1.map attrReload, l.2.2.1.map attrReload, if l.2.2.2 = some "hidden" then some "hidden" else none)

theorem mapRes_lines {l : List Node} {es : List SheetEntry} (hl : ∀ n ∈ l, n.attrs ≠ none)
    (h : mapRes loadSheetEntry (l.filterMap Node.attrs) = .ok es) (k : Nat) :
    (es.zipIdx k).map (fun e => (some (toString e.2), some (attrReload e.1.name), some (attrReload e.1.relId), if e.1.hide then some "hidden" else none)) =
      ((l.map (fun n => (n.attr? "sheetId", n.attr? "name", n.attr? "r:id", n.attr? "state"))).zipIdx k).map (fun e => keptLine e.2 e.1) := by
  induction l generalizing es k with
  | nil => cases h; rfl
  | cons n l ih =>
    cases ha : n.attrs with
    | none => exact absurd ha (hl n (by simp))
    | some a =>
      rw [List.filterMap_cons, ha] at h
      simp only [mapRes] at h
      split at h
      · cases h
      · next e he =>
        split at h
        · cases h
        · next es' hes =>
          cases h
          simp only [List.map_cons, List.zipIdx_cons]
          rw [ih (fun n hn => hl n (by simp [hn])) hes]
          congr 1
          unfold loadSheetEntry at he
          split at he
          · cases he
          · next nm hnm =>
            split at he
            · cases he
            · next id hid =>
              cases he
              have attr : ∀ k, n.attr? k = aget k a := by intro k; unfold Node.attr?; rw [ha]
              simp only [keptLine, attr, hnm, hid, Option.map_some, decide_eq_true_eq]

/-- **C82, what holds** when the file is opened and saved as it is, seen in the two files alone: the saved list has the same names and
relationships in the same order; `hidden` stays; the numbers are 1, 2, … and any other state is gone. -/
theorem C82_untouched_partial (hst : env.build.release = true → StampOk env.stamp) (hz : (akeys z).Nodup) (ho : Excel.openFile env theme z = .ok x)
    (ht : TidyParts env z x) (hs : x.toZip env now exts = .ok z') {d : XDoc} (hd : zipDoc env z x.book.path = some d) {list : Node}
    (h1 : d.rootChildren.filter (fun n => n.tag = "sheets") = [list]) (h2 : ∀ n ∈ list.children, n.attrs ≠ none) :
    ∃ d', zipDoc env z' x.book.path = some d' ∧ sheetLines d' = ((sheetLines d).zipIdx 1).map (fun e => keptLine e.2 e.1) := by
  obtain ⟨d', g1, g2, _⟩ := C82_sheets_partial (s := ⟨x, []⟩) (ops := []) hst hz ⟨ho, rfl⟩ ht hs
  refine ⟨d', g1, g2.trans ?_⟩
  obtain ⟨p, o1, o2, o3, o4, o5, o6, o7, o8, r1, r2, hp, hb⟩ := openFile_book hz ho
  obtain ⟨_, _, _, _, _, _, _, _, _, _, _, _, _, _, _, _, _, _, _, _, _, _, _, _, _, _, _, hct⟩ := saved_base (s := ⟨x, []⟩) (ops := []) hz ⟨ho, rfl⟩ hs
  have hn := hct x.book.path (by simp [ownParts])
  have hdoc : o3.doc = d := (ready_of_zipDoc hp hn hd).source hb.bookSource
  have hl := hb.bookLoad
  rw [hdoc] at hl
  unfold loadBook at hl
  simp only at hl
  split at hl
  · cases hl
  · split at hl
    · cases hl
    · next es hes =>
      cases hl
      have hq : ((d.popTag "bookViews").2.popTag "sheets").1 = [list] := by
        rw [← h1]
        unfold XDoc.popTag
        simp only
        have hroot : ∃ r, d.root = some r := by
          cases hr : d.root with
          | some r => exact ⟨r, rfl⟩
          | none => unfold XDoc.rootChildren at h1; rw [hr] at h1; cases h1
        obtain ⟨r, hr⟩ := hroot
        rw [rootChildren_mapRoot hr, List.filter_filter]
        apply List.filter_congr
        intro n _
        by_cases hn : n.tag = "sheets" <;> simp [hn]
      rw [hq] at hes
      have he : sheetElements d = list.children := by
        unfold sheetElements; rw [h1]; simp
      unfold writtenLines sheetLines
      rw [he]
      exact mapRes_lines h2 hes 1

/-- **C82.** Strings: the items of the saved part are the table of the session, each text with white space around it removed. -/
theorem C82_strings_partial (hst : env.build.release = true → StampOk env.stamp) (hz : (akeys z).Nodup) (hr : RanOn env theme z ops x s)
    (ht : TidyParts env z x) (hs : s.x.toZip env now exts = .ok z') (hne : s.x.strings.data ≠ []) : ∃ d, zipDoc env z' x.strings.path = some d ∧
      (stringItems d).map siText = s.x.strings.data.map (fun s => (reloadText s).getD "") ∧
      (loadStrings d).1 = s.x.strings.data.map (fun s => (reloadText s).getD "") := by
  obtain ⟨d, h1, h2, h3⟩ := saved_strings_doc hst hz hr ht hs hne
  exact ⟨d, h1, h3, h2⟩

/-- **C82.** The calculation chain. -/
theorem C82_chain_partial (hst : env.build.release = true → StampOk env.stamp) (hz : (akeys z).Nodup) (hr : RanOn env theme z ops x s)
    (ht : TidyParts env z x) (hs : s.x.toZip env now exts = .ok z') (hne : s.x.chain.data ≠ []) : ∃ d, zipDoc env z' x.chain.path = some d ∧
      (loadCalc d).1 = .ok (s.x.chain.data.map reloadEntry) := saved_chain_doc hst hz hr ht hs hne

/-- **C82.** Styles. -/
theorem C82_styles_partial (hst : env.build.release = true → StampOk env.stamp) (hz : (akeys z).Nodup) (hr : RanOn env theme z ops x s)
    (ht : TidyParts env z x) (hs : s.x.toZip env now exts = .ok z') (hf : SizesFit ops) : ∃ d, zipDoc env z' x.styles.path = some d ∧
      (Styles.load d).1 = .ok (reloadStyles s.x.styles.data) := saved_styles_doc hst hz hr ht hs hf

/-! ## C83 -/

/-- **C83, what holds.** The saved file of a tidy workbook whose string table and calculation chain are not empty can be opened again, with the
same parts, the sheets of the session and their relationships, its view, strings, chain and styles, all as reloading leaves them. -/
theorem C83_partial (hst : env.build.release = true → StampOk env.stamp) (hz : (akeys z).Nodup) (hr : RanOn env theme z ops x s) (ht : TidyParts env z x)
    (hp : PlainRels x) (hf : SizesFit ops) (hth : GoodTheme env theme) (hc1 : HasContent env z x.theme.path) (hc2 : HasContent env z x.core.path)
    (hexts : ∀ q, s.x.saved env now = .ok q → HashSetOrder q.extPairs exts) (hs : s.x.toZip env now exts = .ok z')
    (h6 : s.x.strings.data ≠ []) (h7 : s.x.chain.data ≠ []) :
    ∃ x', Excel.openFile env theme z' = .ok x' ∧ ownParts x' = ownParts x ∧ x'.sheets = s.x.sheets.map reloadSheetEntry ∧
      x'.view = s.x.view.map reloadBookView ∧ x'.strings.data = s.x.strings.data.map (fun s => (reloadText s).getD "") ∧
      x'.chain.data = s.x.chain.data.map reloadEntry ∧ x'.styles.data = reloadStyles s.x.styles.data ∧ x'.rels.rels = s.x.rels.rels ∧
      x'.rootRels.rels = x.rootRels.rels := by
  refine opens_again hst hz hr ht hp hf ?_ hth.content hc1 hc2 hexts hs h6 h7
  obtain ⟨c, d, h1, rfl⟩ := hth.read
  obtain ⟨t, a, cs, hroot⟩ := hth.tidy.root
  exact ⟨t, a, cs, (Reachable.read h1).wf hroot hth.tidy.uris⟩

/-! ## C84 -/

/-- **C84.** Every text an existing cell refers to by number is found under that number after any history, with white space around it
removed at most. -/
theorem C84_texts_partial (hst : env.build.release = true → StampOk env.stamp) (hz : (akeys z).Nodup) (hr : RanOn env theme z ops x s)
    (ht : TidyParts env z x) (hs : s.x.toZip env now exts = .ok z') {d : XDoc} (hd : zipDoc env z x.strings.path = some d)
    (h1 : ∀ n ∈ d.rootChildren, n.tag = "si" → SimpleItem n) {i : Nat} {n : Node} (hi : (stringItems d)[i]? = some n) :
    ∃ d' n', zipDoc env z' x.strings.path = some d' ∧ (stringItems d')[i]? = some n' ∧ (siText n').toList = trimXml (siText n).toList := by
  obtain ⟨p, o1, o2, o3, o4, o5, o6, o7, o8, r1, r2, hp, hb⟩ := openFile_book hz hr.1
  obtain ⟨_, _, _, _, _, _, _, _, _, _, _, _, _, _, _, _, _, _, _, _, _, _, _, _, _, _, _, hct⟩ := saved_base hz hr hs
  have hn := hct x.strings.path (by simp [ownParts])
  have hdoc : o6.doc = d := (ready_of_zipDoc hp hn hd).source hb.strSource
  have hl := hb.strLoad
  rw [hdoc, (C26_partial d h1).1] at hl
  have hx : x.strings.data[i]? = some (siText n) := by
    rw [← hl, List.getElem?_map]
    unfold stringItems at hi
    rw [hi]; rfl
  have hx' := getElem_prefix (run_tables hr.2).1 hx
  obtain ⟨d', g1, g2, _⟩ := C82_strings_partial hst hz hr ht hs (by intro e; rw [e] at hx'; cases hx')
  have h3 : ((stringItems d').map siText)[i]? = some ((reloadText (siText n)).getD "") := by
    rw [g2, List.getElem?_map, hx']; rfl
  rw [List.getElem?_map] at h3
  cases hi' : (stringItems d')[i]? with
  | none => rw [hi'] at h3; cases h3
  | some n' =>
    rw [hi'] at h3
    refine ⟨d', n', g1, hi', ?_⟩
    rw [Option.some.inj h3]
    unfold reloadText
    split
    · rename_i h; rw [h]; rfl
    · rw [Option.getD_some, String.toList_ofList]

/-- **C84.** Every format an existing cell refers to by number is found under that number after any history, with the same font, fill and
border under their numbers, as reloading leaves them. -/
theorem C84_formats (hst : env.build.release = true → StampOk env.stamp) (hz : (akeys z).Nodup) (hr : RanOn env theme z ops x s)
    (ht : TidyParts env z x) (hs : s.x.toZip env now exts = .ok z') (hf : SizesFit ops) : ∃ d st, zipDoc env z' x.styles.path = some d ∧
      (Styles.load d).1 = .ok st ∧ (∀ (i : Nat) (y : Xf), x.styles.data.xfs[i]? = some y → st.xfs[i]? = some (reloadXf true y)) ∧
      (∀ (i : Nat) (y : Xf), x.styles.data.styleXfs[i]? = some y → st.styleXfs[i]? = some (reloadXf false y)) ∧
      (∀ (i : Nat) (y : Font), x.styles.data.fonts[i]? = some y → st.fonts[i]? = some (reloadFont y)) ∧
      (∀ (i : Nat) (y : Fill), x.styles.data.fills[i]? = some y → st.fills[i]? = some (reloadFill y)) ∧
      (∀ (i : Nat) (y : Border), x.styles.data.borders[i]? = some y → st.borders[i]? = some (reloadBorder y)) ∧
      ∀ (i : Nat) (y : NumFmt), x.styles.data.numFmts[i]? = some y → st.numFmts[i]? = some (reloadNumFmt y) := by
  obtain ⟨d, h1, h2⟩ := C82_styles_partial hst hz hr ht hs hf
  have g := (run_tables hr.2).2
  refine ⟨d, _, h1, h2, ?_, ?_, ?_, ?_, ?_, ?_⟩ <;> intro i y hy
  · exact (List.getElem?_map).trans (by rw [getElem_prefix g.xfs hy]; rfl)
  · exact (List.getElem?_map).trans (by rw [getElem_prefix g.styleXfs hy]; rfl)
  · exact (List.getElem?_map).trans (by rw [getElem_prefix g.fonts hy]; rfl)
  · exact (List.getElem?_map).trans (by rw [getElem_prefix g.fills hy]; rfl)
  · exact (List.getElem?_map).trans (by rw [getElem_prefix g.borders hy]; rfl)
  · exact (List.getElem?_map).trans (by rw [getElem_prefix g.numFmts hy]; rfl)

end

/-! ## Examples and counterexamples -/

/-- `TidyParts` for one part, computed. -/
def tidyPart (env : Env) (z : Zip) (n : String) : Bool :=
  match zipDoc env z n with
  | none => (aget n z).isNone
  | some d => d.ns.all (fun kv => decide ('"' ∉ kv.2.toList ∧ (kv.1 ≠ defaultNsKey → ¬Reserved kv.1 kv.2))) && (match d.root with | some (.mk _ _ none _) => true | _ => false)

theorem tidyPart_sound {env : Env} {z : Zip} {n : String} (h : tidyPart env z n = true) (hn : aget n z ≠ none) : ∃ d, zipDoc env z n = some d ∧ Tidy d := by
  unfold tidyPart at h
  split at h
  · rw [Option.isNone_iff_eq_none] at h; exact absurd h hn
  · next d e =>
    refine ⟨d, e, ?_, ?_⟩
    · intro kv hkv
      exact of_decide_eq_true (List.all_eq_true.mp (Bool.and_eq_true_iff.mp h).1 kv hkv)
    · have h2 := (Bool.and_eq_true_iff.mp h).2
      split at h2
      · next t a cs e' => exact ⟨t, a, cs, e'⟩
      · cases h2

/-- A workbook file with strings, one of them rich text, a calculation chain for the sheet numbered 7, and a very hidden sheet. -/
def exFull : Zip :=
  exBook ++ [("xl/sharedStrings.xml", "<sst><si><t>plain</t></si><si><r><t>rich</t></r></si></sst>".toList),
    ("xl/calcChain.xml", "<calcChain><c r=\"A1\" i=\"7\"/></calcChain>".toList)]

/-- A theme, for examples. -/
def exTheme : XDoc := ⟨[], some (.mk "a" (some []) none [.mk "b" (some []) none []])⟩

theorem exTheme_good : GoodTheme exEnv exTheme := by
  refine ⟨?_, ⟨(fun kv hkv => by cases hkv), ⟨_, _, _, rfl⟩⟩, (fun h => by cases h)⟩
  obtain ⟨d, h1, h2⟩ := read_then (u := exEnv.uni) (s := "<a><b/></a>".toList) (f := XmlDoc.toXDoc) (v := exTheme) (by decide +kernel)
  exact ⟨_, d, h1, h2⟩

/-- The extension pairs of the saved file. -/
def exExts : List (String × String) := [("rels", "r"), ("xml", "x"), ("png", "p"), ("xml", "application/xml")]

/-- A plain relationship, computed. -/
def plainRelB (r : Rel) : Bool :=
  [r.id, r.target, r.type, r.mode.getD ""].all (fun t => t.toList.all (fun c => c != '<' && c != '>' && c != '&' && c != '\'' && c != '"'))

theorem plainRelB_sound {r : Rel} (h : plainRelB r = true) : PlainRel r := by
  simp only [plainRelB, List.all_cons, List.all_nil, Bool.and_true, Bool.and_eq_true, List.all_eq_true, bne_iff_ne] at h
  obtain ⟨h1, h2, h3, h4⟩ := h
  have conv : ∀ {t : String}, (∀ c ∈ t.toList, (((c ≠ '<' ∧ c ≠ '>') ∧ c ≠ '&') ∧ c ≠ '\'') ∧ c ≠ '"') → NoSpecials t := by
    intro t ht c hc
    obtain ⟨⟨⟨⟨a, b⟩, c'⟩, d⟩, e⟩ := ht c hc
    exact ⟨a, b, c', d, e⟩
  refine ⟨conv h1, conv h2, conv h3, ?_⟩
  intro m hm
  rw [hm] at h4
  exact conv h4

/-- What the examples need to know about an opened workbook, computed. -/
def exFacts (z : Zip) (x : Excel) : Bool :=
  (ownParts x).all (tidyPart exEnv z) && decide (x.rels.path = "xl/_rels/workbook.xml.rels") && x.rels.rels.all plainRelB && x.rootRels.rels.all plainRelB &&
    x.rels.rels.all (fun r => match resolveTarget x.rels.path r.target with | .ok n => decide (n.toList.head? ≠ some '/') | .error _ => true) &&
    (aget x.theme.path z).isNone && (aget x.core.path z).isNone &&
    (match x.saved exEnv "now" with | .ok q => q.extPairs.all (fun e => exExts.contains e) && exExts.all (fun e => q.extPairs.contains e) | .error _ => true)

theorem exFacts_sound {z : Zip} {x : Excel} (h : exFacts z x = true) : TidyParts exEnv z x ∧ PlainRels x ∧ HasContent exEnv z x.theme.path ∧
    HasContent exEnv z x.core.path ∧ ∀ q, x.saved exEnv "now" = .ok q → HashSetOrder q.extPairs exExts := by
  unfold exFacts at h
  simp only [Bool.and_eq_true, decide_eq_true_eq, List.all_eq_true, Option.isNone_iff_eq_none] at h
  obtain ⟨⟨⟨⟨⟨⟨⟨h1, h2⟩, h3⟩, h4⟩, h5⟩, h6⟩, h7⟩, h8⟩ := h
  refine ⟨fun n hn => tidyPart_sound (h1 n hn), ⟨fun r hr => plainRelB_sound (h4 r hr), ?_, ?_⟩, ?_, ?_, ?_⟩
  · rw [h2]
    cases e : relativePath "xl/_rels/workbook.xml.rels" with
    | error e' => exact absurd (congrArg Except.toOption e) (by rw [show (relativePath "xl/_rels/workbook.xml.rels").toOption = some "xl/" by decide +kernel]; intro h; cases h)
    | ok dir =>
      have : dir = "xl/" := by
        have h := congrArg Except.toOption e
        rw [show (relativePath "xl/_rels/workbook.xml.rels").toOption = some "xl/" by decide +kernel] at h
        exact (Option.some.inj h).symm
      subst this
      exact ⟨_, rfl, by unfold NoSlash; decide +kernel, by unfold NoSpecials; decide +kernel⟩
  · intro r hr
    refine ⟨plainRelB_sound (h3 r hr), ?_⟩
    intro n hn
    have := h5 r hr
    rw [hn] at this
    unfold NoSlash
    exact of_decide_eq_true this
  · intro d hd
    obtain ⟨c, _, h, _⟩ := of_zipDoc hd
    rw [h6] at h; cases h
  · intro d hd
    obtain ⟨c, _, h, _⟩ := of_zipDoc hd
    rw [h7] at h; cases h
  · intro q hq
    rw [hq] at h8
    simp only [Bool.and_eq_true, List.all_eq_true, List.contains_iff_mem] at h8
    exact ⟨by decide, fun e => ⟨h8.2 e, h8.1 e⟩⟩

/-- Open, save and check, computed. -/
def opensSaves (z : Zip) (chk : Excel → Zip → Bool) : Bool :=
  match Excel.openFile exEnv exTheme z with
  | .error _ => false
  | .ok x =>
    match x.toZip exEnv "now" exExts with
    | .error _ => false
    | .ok z' => exFacts z x && chk x z'

theorem opensSaves_sound {z : Zip} {chk : Excel → Zip → Bool} (h : opensSaves z chk = true) :
    ∃ x z', Excel.openFile exEnv exTheme z = .ok x ∧ x.toZip exEnv "now" exExts = .ok z' ∧ exFacts z x = true ∧ chk x z' = true := by
  unfold opensSaves at h
  split at h
  · cases h
  · next x hx =>
    split at h
    · cases h
    · next z' hz' => exact ⟨x, z', hx, hz', (Bool.and_eq_true_iff.mp h).1, (Bool.and_eq_true_iff.mp h).2⟩

/-- What the examples look at in the file with strings and a chain, before and after. -/
def exCheck (x : Excel) (z' : Zip) : Bool :=
  decide ((zipDoc exEnv exFull x.book.path).map sheetLines = some [(some "7", some "A", some "rId1", none), (some "9", some "B", some "rId2", some "veryHidden")]) &&
  decide ((zipDoc exEnv z' x.book.path).map sheetLines = some [(some "1", some "A", some "rId1", none), (some "2", some "B", some "rId2", none)]) &&
  decide ((zipDoc exEnv exFull x.chain.path).map (fun c => (loadCalc c).1.toOption) = some (some [("A1", "7", none)])) &&
  decide ((zipDoc exEnv z' x.chain.path).map (fun c => (loadCalc c).1.toOption) = some (some [("A1", "7", none)])) &&
  decide (x.strings.data ≠ []) && decide (x.chain.data ≠ []) && decide (names x.sheets = ["A", "B"]) &&
  decide ((zipDoc exEnv exFull x.strings.path).map (fun d => (stringItems d)[1]?.map siText) = some (some "rich")) &&
  decide ((zipDoc exEnv z' x.strings.path).map (fun d => (stringItems d)[1]?.map siText) = some (some ""))

theorem exFull_saved : ∃ x z', Excel.openFile exEnv exTheme exFull = .ok x ∧ x.toZip exEnv "now" exExts = .ok z' ∧ exFacts exFull x = true ∧ exCheck x z' = true :=
  opensSaves_sound (by decide +kernel)

theorem map_some_eq {α β : Type} {f : α → β} {o : Option α} {v : β} (h : o.map f = some v) : ∃ a, o = some a ∧ f a = v := by
  cases o with
  | none => cases h
  | some a => exact ⟨a, rfl, Option.some.inj h⟩

/-- **C82 is violated**: the sheets numbered 7 and 9 are numbered 1 and 2 afterwards, and the second is no longer very hidden. -/
theorem C82_violated : ¬ SheetListKept exEnv exTheme := by
  intro h
  obtain ⟨x, z', h1, hs, h2, h3⟩ := exFull_saved
  simp only [exCheck, Bool.and_eq_true, decide_eq_true_eq] at h3
  obtain ⟨⟨⟨⟨⟨⟨⟨⟨a, b⟩, _⟩, _⟩, _⟩, _⟩, _⟩, _⟩, _⟩ := h3
  obtain ⟨d, hd, e⟩ := map_some_eq a
  obtain ⟨d', hd', e'⟩ := map_some_eq b
  have := h exFull z' x "now" exExts d d' (by decide +kernel) h1 (exFacts_sound h2).1 hs hd hd'
  rw [e, e'] at this
  simp at this

/-- Every entry of the calculation chain names a sheet of the workbook by its number. -/
def ChainFits (env : Env) (z : Zip) (x : Excel) : Prop :=
  ∃ d c chain, zipDoc env z x.book.path = some d ∧ zipDoc env z x.chain.path = some c ∧ (loadCalc c).1 = .ok chain ∧
    ∀ e ∈ chain, some e.2.1 ∈ (sheetLines d).map Prod.fst

/-- **C82 is violated** in the calculation chain too: a chain that named a sheet by its number names none after opening and saving, because only
the sheets are renumbered. -/
theorem C82_violated_chain : ∃ z x z', (akeys z).Nodup ∧ Excel.openFile exEnv exTheme z = .ok x ∧ TidyParts exEnv z x ∧ x.toZip exEnv "now" exExts = .ok z' ∧
    ChainFits exEnv z x ∧ ¬ ChainFits exEnv z' x := by
  obtain ⟨x, z', h1, hs, h2, h3⟩ := exFull_saved
  simp only [exCheck, Bool.and_eq_true, decide_eq_true_eq] at h3
  obtain ⟨⟨⟨⟨⟨⟨⟨⟨a, b⟩, c⟩, e⟩, _⟩, _⟩, _⟩, _⟩, _⟩ := h3
  have get : ∀ {r : Res (List CalcEntry)} {l}, r.toOption = some l → r = .ok l := by
    intro r l h; cases r with | error _ => cases h | ok _ => exact congrArg _ (Option.some.inj h)
  refine ⟨exFull, x, z', by decide +kernel, h1, (exFacts_sound h2).1, hs, ?_, ?_⟩
  · obtain ⟨d, hd, e1⟩ := map_some_eq a
    obtain ⟨c', hc, e2⟩ := map_some_eq c
    refine ⟨d, c', _, hd, hc, get e2, ?_⟩
    intro en hen
    rw [List.mem_singleton] at hen
    rw [hen, e1]; simp [List.map]
  · rintro ⟨d, c', chain, hd, hc, e3, h⟩
    rw [hd] at b
    rw [hc] at e
    simp only [Option.map_some, Option.some.injEq] at b e
    rw [get e] at e3
    cases e3
    have := h ("A1", "7", none) (by simp)
    rw [b] at this
    simp [List.map] at this

/-- **C83 as stated.** After any history the saved file of a tidy workbook can be opened again. -/
def OpensAgain (env : Env) (theme : XDoc) : Prop :=
  ∀ z z' ops x s now exts, (akeys z).Nodup → RanOn env theme z ops x s → TidyParts env z x → PlainRels x → SizesFit ops → HasContent env z x.theme.path →
    HasContent env z x.core.path → (∀ q, s.x.saved env now = .ok q → HashSetOrder q.extPairs exts) → s.x.toZip env now exts = .ok z' →
    ∃ x', Excel.openFile env theme z' = .ok x'

/-- **C83 is violated**: a workbook file without strings or formulas, opened and saved, cannot be opened again. -/
theorem C83_violated : ¬ OpensAgain exEnv exTheme := by
  intro h
  obtain ⟨x, z', h1, hs, h2, h3⟩ := opensSaves_sound (z := exBook) (chk := fun _ z' => (Excel.openFile exEnv exTheme z').toOption.isNone) (by decide +kernel)
  obtain ⟨f1, f2, f3, f4, f5⟩ := exFacts_sound h2
  obtain ⟨x', hx'⟩ := h exBook z' [] x ⟨x, []⟩ "now" exExts (by decide +kernel) ⟨h1, rfl⟩ f1 f2 (fun _ _ h => by cases h) f3 f4 f5 hs
  rw [hx'] at h3
  cases h3

/-- The hypotheses of C82 to C84 hold for a file with two sheets, strings and a chain, and it opens again. -/
example : ∃ x z' x', (akeys exFull).Nodup ∧ RanOn exEnv exTheme exFull [] x ⟨x, []⟩ ∧ TidyParts exEnv exFull x ∧ PlainRels x ∧ x.strings.data ≠ [] ∧ x.chain.data ≠ [] ∧
    x.toZip exEnv "now" exExts = .ok z' ∧ Excel.openFile exEnv exTheme z' = .ok x' ∧ names x'.sheets = ["A", "B"] := by
  obtain ⟨x, z', h1, hs, h2, h3⟩ := exFull_saved
  simp only [exCheck, Bool.and_eq_true, decide_eq_true_eq] at h3
  obtain ⟨⟨⟨⟨⟨_, k1⟩, k2⟩, k3⟩, _⟩, _⟩ := h3
  obtain ⟨f1, f2, f3, f4, f5⟩ := exFacts_sound h2
  obtain ⟨x', g1, _, g2, _⟩ := C83_partial (s := ⟨x, []⟩) (ops := []) (env := exEnv) (fun h => by cases h) (by decide +kernel) ⟨h1, rfl⟩ f1 f2 (fun _ _ h => by cases h)
    exTheme_good f3 f4 f5 hs k1 k2
  refine ⟨x, z', x', by decide +kernel, ⟨h1, rfl⟩, f1, f2, k1, k2, hs, g1, ?_⟩
  rw [g2]
  have : names (x.sheets.map reloadSheetEntry) = (names x.sheets).map attrReload := by
    unfold names; rw [List.map_map, List.map_map]; rfl
  show names (x.sheets.map reloadSheetEntry) = _
  rw [this, k3]
  decide +kernel

/-- **C84 as stated.** The text under a number stays. -/
def TextsKept (env : Env) (theme : XDoc) : Prop :=
  ∀ z z' ops x s now exts d d' (i : Nat) n n', (akeys z).Nodup → RanOn env theme z ops x s → TidyParts env z x → s.x.toZip env now exts = .ok z' →
    zipDoc env z x.strings.path = some d → zipDoc env z' x.strings.path = some d' → (stringItems d)[i]? = some n → (stringItems d')[i]? = some n' →
    siText n' = siText n

/-- **C84 is violated**: opening and saving a file replaces the text of every rich text string by the empty one. -/
theorem C84_violated : ¬ TextsKept exEnv exTheme := by
  intro h
  obtain ⟨x, z', h1, hs, h2, h3⟩ := exFull_saved
  simp only [exCheck, Bool.and_eq_true, decide_eq_true_eq] at h3
  obtain ⟨⟨_, a⟩, b⟩ := h3
  obtain ⟨d, hd, e⟩ := map_some_eq a
  obtain ⟨d', hd', e'⟩ := map_some_eq b
  obtain ⟨n, hn, e⟩ := map_some_eq e
  obtain ⟨n', hn', e'⟩ := map_some_eq e'
  have := h exFull z' [] x ⟨x, []⟩ "now" exExts d d' 1 n n' (by decide +kernel) ⟨h1, rfl⟩ (exFacts_sound h2).1 hs hd hd' hn hn'
  rw [e, e'] at this
  exact absurd this (by decide)

end Oxml
