import Verif.Proofs.OwnWellFormed
import Verif.Props.StillWellFormed
/-!
# C113: the workbook's own parts are well-formed XML after working on a workbook other programs wrote
-/
namespace Oxml
open Spec

variable {env : Env} {theme : XDoc} {z z' : Zip} {ops : List WbOp} {x : Excel} {s : Session} {now : String} {exts : List (String × String)}

/-- What the library starts from: its template or what another program wrote. -/
theorem source_deep {p : Pkg} {n : String} {t : Template} {o : OpenDoc} (hp : Pkg.ofZip env z = .ok p) (hct : n ≠ contentTypesName) (hs : Source env p t n o)
    (hw : WellWritten env z n) (ht : DeepDoc t.doc) : DeepDoc o.doc := by
  rcases source_zip hp hct hs with ⟨_, h2⟩ | ⟨c, d, h1, h2, h3⟩
  · rw [h2]; exact ht
  · obtain ⟨d', t, a, cs, g1, g2, g3, g4, g5⟩ := wellWritten_read hw h1
    rw [h2] at g1
    cases g1
    rw [h3]
    exact ⟨t, a, cs, g2, g3, g4, g5⟩

/-- What the book holds once opened. -/
theorem opened_x {p : Pkg} {o1 o2 o3 o4 o5 o6 o7 o8 : OpenDoc} {r1 r2 : List Rel} (hb : BookOpen env theme p x o1 o2 o3 o4 o5 o6 o7 o8 r1 r2)
    (h1 : DeepDoc o1.doc) (h3 : DeepDoc o3.doc) (h4 : DeepDoc o4.doc) (h7 : DeepDoc o7.doc) (h8 : DeepDoc o8.doc) : BookX x := by
  obtain ⟨root2, t1, t2⟩ := hb.rootTargets
  have k1 := targetByType_x (xlit (by decide +kernel)) (relsX_load h1.children hb.rootLoad) (contentX_of (by decide +kernel)) optX_none optX_none t1
  have k2 := targetByType_x (xlit (by decide +kernel)) k1.2 (contentX_of (by decide +kernel)) optX_none optX_none t2
  have hpath : XmlChars x.rels.path := by
    obtain ⟨dir, e1, e2⟩ := hb.relsPath
    rw [e2]
    refine xml_append ?_ (xlit (by decide +kernel))
    unfold dirOf at e1
    split at e1
    · have e1 := Option.some.inj e1
      subst e1
      refine xml_chars String.toList_ofList fun c hc => k2.1 c ?_
      have := List.mem_of_mem_tail (List.mem_reverse.mp hc)
      exact List.mem_reverse.mp ((List.dropWhile_sublist _).subset this)
    · cases e1
  obtain ⟨rels2, rels3, rels4, u1, u2, u3, u4⟩ := hb.targets
  have q1 := targetByType_x hpath (relsX_load h4.children hb.relLoad) (contentX_of (by decide +kernel)) (optX_some (xlit (by decide +kernel))) optX_none u1
  have q2 := targetByType_x hpath q1.2 (contentX_of (by decide +kernel)) optX_none optX_none u2
  have q3 := targetByType_x hpath q2.2 (contentX_of (by decide +kernel)) optX_none optX_none u3
  have q4 := targetByType_x hpath q3.2 (contentX_of (by decide +kernel)) optX_none optX_none u4
  obtain ⟨b1, b2, -⟩ := bookX_load h3 hb.bookLoad
  exact ⟨b1, hpath, q4.2, k2.2, b2, stylesX_load h8.children hb.styleLoad, chainX_load h7.children hb.calcLoad⟩

theorem finalRels_mem {r : Rel} (h : r ∈ finalRels x) : r ∈ x.rels.rels := by
  have hd : ∀ {R : List Rel} {f : String}, r ∈ deleteRel R f → r ∈ R := fun h => (List.mem_filter.mp h).1
  unfold finalRels stringRels chainRels at h
  split at h <;> split at h <;> first | exact hd (hd h) | exact hd h | exact h

/-- **C113 (partial).** Other programs wrote the parts of a workbook file in whatever way XML allows; some may be missing. Open the file and do anything with it, whatever
fails, giving texts with characters of XML only, and save. In the saved file, the relationships, core properties, workbook, theme, strings, calculation chain and
styles are all there and well-formed XML.
Missing: CDATA sections, empty root elements, names and namespaces that are not plain, parts besides these (C112 has the sheets). -/
theorem C113_partial (hsx : env.build.release = true → StampXml env.stamp) {root : Node} (hroot : theme.root = some root)
    (htheme : XmlReady (releaseNs env.build theme.ns) root) (hz : (akeys z).Nodup) (hr : RanOn env theme z ops x s) (hw : ∀ n ∈ ownParts x, WellWritten env z n)
    (ho : ∀ op ∈ ops, ∀ t ∈ givenTexts op, XmlChars t) (hnow : XmlChars now) (hs : s.x.toZip env now exts = .ok z') :
    ∀ n ∈ ownParts x, ∃ text, aget n z' = some text ∧ WellFormed text := by
  have hstr := (strings_x hsx hz hr (hw _ (by simp [ownParts])) ho hs).2
  obtain ⟨p, o1, o2, o3, o4, o5, o6, o7, o8, r1, r2, q, d1, d2, d3, d4, d6, d7, d8, keep, keep0, hp, hb, hq, W, S, hown, hct⟩ := saved_base hz hr hs
  obtain ⟨e1, e2, e3, e4, e5, e6, e7, e8⟩ := own_paths hown
  have n1 : x.rootRels.path ∈ ownParts x := by simp [ownParts]
  have n2 : x.core.path ∈ ownParts x := by simp [ownParts]
  have n3 : x.book.path ∈ ownParts x := by simp [ownParts]
  have n4 : x.rels.path ∈ ownParts x := by simp [ownParts]
  have n5 : x.theme.path ∈ ownParts x := by simp [ownParts]
  have n7 : x.chain.path ∈ ownParts x := by simp [ownParts]
  have n8 : x.styles.path ∈ ownParts x := by simp [ownParts]
  have c1 := source_deep hp (by rw [← hb.rootPath]; exact hct _ n1) hb.rootSource (by rw [← hb.rootPath]; exact hw _ n1) deepDoc_rels
  have c2 := source_deep hp (hct _ n2) hb.coreSource (hw _ n2) deepDoc_core
  have c3 := source_deep hp (hct _ n3) hb.bookSource (hw _ n3) deepDoc_book
  have c4 := source_deep hp (hct _ n4) hb.relSource (hw _ n4) deepDoc_rels
  have c7 := source_deep hp (hct _ n7) hb.calcSource (hw _ n7) deepDoc_calc
  have c8 := source_deep hp (hct _ n8) hb.styleSource (hw _ n8) deepDoc_styles
  have hx := BookX.run hr.2 (opened_x hb c1 c3 c4 c7 c8) ho
  have fin : ∀ {n : String} {o : OpenDoc} {d : XDoc}, n ∈ ownParts x → aget n q.archive = some (o.entry env d) → WellFormed (renderDoc env.build env.stamp d) →
      ∃ text, aget n z' = some text ∧ WellFormed text := by
    intro n o d hn h1 h2
    refine ⟨_, ?_, h2⟩
    rw [toZip_aget hq (hct _ hn), h1]
    rfl
  intro n hn
  simp only [ownParts, List.mem_cons, List.not_mem_nil, or_false] at hn
  rcases hn with rfl | rfl | rfl | rfl | rfl | rfl | rfl | rfl
  · exact fin n1 (e1 ▸ S.root) ((docX_relsOf c1 hx.root W.root).wellFormed hsx)
  · exact fin n2 (e2 ▸ S.core) ((docX_coreOf c2 hnow W.core).wellFormed hsx)
  · exact fin n3 (e3 ▸ S.book) ((docX_bookOf c3 hb.bookLoad hx.sheets hx.view W.book).wellFormed hsx)
  · exact fin n4 (e4 ▸ S.rels) ((docX_relsOf c4 (fun r h => hx.rels r (finalRels_mem h)) W.rels).wellFormed hsx)
  · refine fin n5 (e5 ▸ S.theme) ?_
    rcases source_zip hp (hct _ n5) hb.themeSource with ⟨_, h2⟩ | ⟨c, d, h1, h2, h3⟩
    · rw [h2]
      exact ⟨_, document_write env.build env.stamp theme root hroot htheme hsx⟩
    · obtain ⟨d', t, a, cs, g1, g2, g3, g4, g5⟩ := wellWritten_read (hw _ n5) h1
      rw [h2] at g1
      cases g1
      rw [h3]
      exact (DeepDoc.docX ⟨t, a, cs, g2, g3, g4, g5⟩).wellFormed hsx
  · exact hstr
  · exact fin n7 (e7 ▸ S.chain) ((docX_chainOf c7 hx.chain W.chain).wellFormed hsx)
  · exact fin n8 (e8 ▸ S.styles) ((docX_stylesOf c8 hb.styleLoad hx.styles W.styles).wellFormed hsx)

/-! ## Example -/

/-- Styles as another program may write them. -/
def fxStyles : List Char := fxTag "styleSheet" [] (fxTag "fonts" [] (fxTag "font" [] (fxTag "name" [("val", "Arial")] [] []) []) []) []

/-- What other programs read in them. -/
def fxStylesContent : List Item := [fxItem "fonts" [] [fxItem "font" [] [fxItem "name" [("val", "Arial")] []]]]

theorem fxStyles_read : IsDocument fxStyles (.elem "styleSheet".toList [] fxStylesContent) :=
  fxDocument (fxTag_read (kvs := []) (by decide +kernel) (by decide +kernel) (by decide +kernel) (fxTag_read (by decide +kernel) (by decide +kernel) (by decide +kernel)
    (fxTag_read (by decide +kernel) (by decide +kernel) (by decide +kernel) (fxTag_read (by decide +kernel) (by decide +kernel) (by decide +kernel) .nil .nil) .nil) .nil) .nil)

theorem fxStyles_ok (u : Unicode) : ItemOk u (.elem "styleSheet".toList [] fxStylesContent) := by
  have hn : ItemsOk u [] := by simp [ItemsOk]
  have hc : ∀ {i l}, ItemOk u i → ItemsOk u l → ItemsOk u (i :: l) := fun h1 h2 => by rw [ItemsOk]; exact ⟨h1, h2⟩
  exact fxItem_ok (n := "styleSheet") (kvs := []) (by decide +kernel) (by decide +kernel) (hc (fxItem_ok (by decide +kernel) (by decide +kernel)
    (hc (fxItem_ok (by decide +kernel) (by decide +kernel) (hc (fxItem_ok (by decide +kernel) (by decide +kernel) hn) hn)) hn)) hn)

/-- A file with styles and strings only. -/
def fxOwnBook : Zip :=
  [("xl/sharedStrings.xml", "<sst><si><t>plain</t></si></sst>".toList), ("xl/styles.xml", fxStyles),
   (contentTypesName, "<Types><Default Extension=\"xml\" ContentType=\"x\"/></Types>".toList)]

/-- The parts of the workbook opened from it. -/
def fxOwnParts : List String :=
  ["_rels/.rels", "docProps/core.xml", "xl/workbook.xml", "xl/_rels/workbook.xml.rels", "xl/theme/theme1.xml", "xl/sharedStrings.xml", "xl/calcChain.xml", "xl/styles.xml"]

/-- The calls. -/
def fxOwnOps : List WbOp := [.add (some "New"), .sheet 0 (.write 1 2 [{ value := some "hello" }]), .rename "New" "Old"]

/-- The file, the calls and what comes out. -/
def fxOwn : Bool :=
  match Excel.openFile exEnv exTheme fxOwnBook with
  | .error _ => false
  | .ok x =>
    decide (ownParts x = fxOwnParts) &&
    match Session.run exEnv ⟨x, []⟩ fxOwnOps with
    | .error _ => false
    | .ok s => (s.x.toZip exEnv "now" exExts).toOption.isSome

theorem exTheme_ready : XmlReady (releaseNs exEnv.build exTheme.ns) (.mk "a" (some []) none [.mk "b" (some []) none []]) := by
  refine ready_wf exEnv.build (x := exTheme) ⟨rfl, ?_, ?_, ?_⟩ (fun _ h => nomatch h) ?_
  · exact wfNode_attrs (by decide +kernel) (by decide +kernel) (by decide +kernel) ⟨wfNode_attrs (by decide +kernel) (by decide +kernel) (by decide +kernel) trivial, trivial⟩
  · exact ⟨by decide, (fun _ h => nomatch h)⟩
  · exact (fun _ h => nomatch h)
  · intro t ht
    have : allTexts (.mk "a" (some []) none [.mk "b" (some []) none []]) = [] := by decide +kernel
    rw [this] at ht
    cases ht

/-- Example for C113_partial: the file has styles and strings; the other parts are new. -/
example : ∃ x s z', RanOn exEnv exTheme fxOwnBook fxOwnOps x s ∧ s.x.toZip exEnv "now" exExts = .ok z' ∧ ∀ n ∈ fxOwnParts, ∃ text, aget n z' = some text ∧ WellFormed text := by
  have h : fxOwn = true := by decide +kernel
  unfold fxOwn at h
  split at h
  · cases h
  · next x hx =>
    rw [Bool.and_eq_true, decide_eq_true_eq] at h
    obtain ⟨hparts, h⟩ := h
    split at h
    · cases h
    · next s hs =>
      cases hz' : s.x.toZip exEnv "now" exExts with
      | error e => rw [hz'] at h; cases h
      | ok z' =>
        refine ⟨x, s, z', ⟨hx, hs⟩, hz', ?_⟩
        rw [← hparts]
        refine C113_partial (fun h => by cases h) (theme := exTheme) rfl exTheme_ready (by decide +kernel) ⟨hx, hs⟩ ?_
          (fun op hop t ht => xlit (s := t) (by
            have : (fxOwnOps.flatMap givenTexts).all (fun t => t.toList.all (fun x => decide (0x20 ≤ x.toNat ∧ x.toNat < 128))) = true := by decide +kernel
            exact List.all_eq_true.mp this t (List.mem_flatMap.mpr ⟨op, hop, ht⟩))) (xlit (by decide +kernel)) hz'
        rw [hparts]
        intro n hn
        have hnone : ∀ {n}, aget n fxOwnBook = none → WellWritten exEnv fxOwnBook n := fun h text ht => by rw [h] at ht; cases ht
        simp only [fxOwnParts, List.mem_cons, List.not_mem_nil, or_false] at hn
        rcases hn with rfl | rfl | rfl | rfl | rfl | rfl | rfl | rfl
        · exact hnone (by decide +kernel)
        · exact hnone (by decide +kernel)
        · exact hnone (by decide +kernel)
        · exact hnone (by decide +kernel)
        · exact hnone (by decide +kernel)
        · intro text ht
          have e : aget "xl/sharedStrings.xml" fxOwnBook = some "<sst><si><t>plain</t></si></sst>".toList := by decide +kernel
          rw [e] at ht
          have ht := Option.some.inj ht
          subst ht
          exact ⟨⟨_, _, _, fxPlain_read, by simp [fxPlain], fxNoCdata (by decide +kernel), fxPlain_ok _⟩, fun d0 h => fxPlainNames h (by decide +kernel)⟩
        · exact hnone (by decide +kernel)
        · intro text ht
          have e : aget "xl/styles.xml" fxOwnBook = some fxStyles := by decide +kernel
          rw [e] at ht
          have ht := Option.some.inj ht
          subst ht
          exact ⟨⟨_, _, _, fxStyles_read, by simp [fxStylesContent], fxNoCdata (by decide +kernel), fxStyles_ok _⟩, fun d0 h => fxPlainNames h (by decide +kernel)⟩

end Oxml
