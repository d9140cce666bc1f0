import Verif.Proofs.SessionBook
import Verif.Proofs.WorkbookDoc
/-!
# The package saved by a session that started from a new workbook
-/
namespace Oxml
open Spec

/-- A part made from a template, closed with a document. -/
def closedPart (env : Env) (t : Template) (d : XDoc) : Entry :=
  { ext := t.ext, extType := t.extType, ctype := t.ctype, content := renderDoc env.build env.stamp d }

/-- Parts closed one after another. -/
structure ClosedL (env : Env) (p p' : Pkg) (l : List (String × Template × XDoc)) : Prop where
  inv : p'.Inv
  opened : ∀ n, aget n p'.opened = if n ∈ akeys l then none else aget n p.opened
  archive : ∀ n, aget n p'.archive = match aget n l with | some (t, d) => some (closedPart env t d) | none => aget n p.archive

section
variable {env : Env} {p p' : Pkg} {l : List (String × Template × XDoc)}

theorem ClosedL.nil (hp : p.Inv) : ClosedL env p p [] := ⟨hp, by intro n; simp [akeys], fun n => rfl⟩

theorem aget_snoc {V : Type} (m : List (String × V)) (k n : String) (v : V) (h : k ∉ akeys m) :
    aget n (m ++ [(k, v)]) = if n = k then some v else aget n m :=
  aget_append_single m k n v ((aget_eq_none_iff k m).mpr h)

theorem ClosedL.still (h : ClosedL env p p' l) {m : String} {o : OpenDoc} (ho : aget m p.opened = some o) (hm : m ∉ akeys l) :
    aget m p'.opened = some o := by rw [h.opened, if_neg hm]; exact ho

theorem ClosedL.doc (h : ClosedL env p p' l) {m : String} {o : OpenDoc} (ho : aget m p.opened = some o) (hm : m ∉ akeys l) :
    p'.docOf o.handle = some o.doc := h.inv.docOf (h.still ho hm)

theorem ClosedL.gone (hp : p.Inv) (h : ClosedL env p p' l) {m : String} {o : OpenDoc} (ho : aget m p.opened = some o) (hm : m ∈ akeys l) :
    p'.docOf o.handle = none := by
  apply Pkg.docOf_none
  intro n o' hn hh
  have h1 := aget_of_mem h.inv.opened hn
  rw [h.opened] at h1
  split at h1
  · cases h1
  · next hne =>
    have := hp.handle_name h1 ho hh
    subst this
    exact hne hm

theorem ClosedL.again (h : ClosedL env p p' l) {m : String} (hm : m ∈ akeys l) : p'.close env m = p' :=
  Pkg.close_closed (by rw [h.opened, if_pos hm])

theorem ClosedL.more (h : ClosedL env p p' l) {m : String} {hd : Nat} {t : Template} {d0 : XDoc} (d : XDoc)
    (ho : aget m p.opened = some (openFrom hd t d0)) (hm : m ∉ akeys l) :
    ClosedL env p ((p'.update hd (fun _ => d)).close env m) (l ++ [(m, t, d)]) := by
  have h1 := h.still ho hm
  have h2 := h.inv.update_close env h1 d
  refine ⟨(h.inv.update _ _).close env _, ?_, ?_⟩
  · intro n
    refine (h2 n).1.trans ?_
    have e : akeys (l ++ [(m, t, d)]) = akeys l ++ [m] := by simp [akeys]
    rw [e, h.opened]
    by_cases hn : n = m
    · subst hn; simp
    · by_cases hl : n ∈ akeys l
      · simp [hn, hl]
      · simp [hn, hl]
  · intro n
    refine (h2 n).2.trans ?_
    rw [aget_snoc _ _ _ _ hm]
    by_cases hn : n = m
    · rw [if_pos hn, if_pos hn]; rfl
    · rw [if_neg hn, if_neg hn, h.archive]

theorem ClosedL.moreSame (h : ClosedL env p p' l) {m : String} {hd : Nat} {t : Template} {d : XDoc}
    (ho : aget m p.opened = some (openFrom hd t d)) (hm : m ∉ akeys l) :
    ClosedL env p (p'.close env m) (l ++ [(m, t, d)]) := by
  have h1 := h.more d ho hm
  have h2 : p'.update hd (fun _ => d) = p' := h.inv.update_same (h.still ho hm)
  rw [h2] at h1
  exact h1

theorem ClosedL.absent (h : ClosedL env p p' l) {m : String} (ha : aget m p.archive = none) (hm : m ∉ akeys l) : p'.delete m = p' := by
  apply Pkg.delete_absent
  rw [h.archive, (aget_eq_none_iff m l).mpr hm]
  exact ha

end

/-! ## Closing the workbook -/

/-- The workbook relationships written to the file. -/
def relsSaved (rels : List Rel) (table : List String) : List Rel :=
  let r := deleteRel rels "xl/calcChain.xml"
  if table = [] then deleteRel r "xl/sharedStrings.xml" else r

def stringsSaved (table : List String) : XDoc :=
  (stringsTemplate.doc.insertRootAttrs [("count", toString table.length), ("uniqueCount", toString (distinctCount table))]).mapRootChildren
    (fun cs => cs ++ table.map siNode)

def relsDoc (rels : List Rel) : XDoc := relsTemplate.doc.mapRootChildren (fun cs => cs ++ rels.map relNode)

def stylesSaved (st : Styles) : XDoc := styleRest.mapRootChildren (placeStyles st)
def bookSaved (sheets : List SheetEntry) (view : Option BookView) : XDoc := workbookDoc.mapRootChildren (placeBook sheets view)

/-- The core properties written to the file. -/
def coreSaved (now : String) : XDoc :=
  { coreDoc with root := some (.mk "cp:coreProperties" (some []) none
      [.mk "dc:creator" (some []) (some "OpenXML-Office") [],
       .mk "cp:lastModifiedBy" (some []) (some "OpenXML-Office") [],
       .mk "dcterms:created" (some [("xsi:type", "dcterms:W3CDTF")]) (some now) [],
       .mk "dcterms:modified" (some [("xsi:type", "dcterms:W3CDTF")]) (some now) []]) }

def rootRelsList : List Rel := [relTo "rId1" "/docProps/core.xml" coreContent, relTo "rId2" "/xl/workbook.xml" workbookContent]

/-- The parts the workbook closes itself, with their documents. -/
def bookParts (theme : XDoc) (rels : List Rel) (table : List String) (styles : Styles) (sheets : List SheetEntry) (view : Option BookView) :
    List (String × Template × XDoc) :=
  [("xl/theme/theme1.xml", themeTemplate theme, theme)] ++
  (if table = [] then [] else [("xl/sharedStrings.xml", stringsTemplate, stringsSaved table)]) ++
  [("xl/styles.xml", styleTemplate, stylesSaved styles)] ++
  [("xl/_rels/workbook.xml.rels", relsTemplate, relsDoc (relsSaved rels table))] ++
  [("xl/workbook.xml", workbookTemplate, bookSaved sheets view)]

def closedParts (theme : XDoc) (now : String) (rels : List Rel) (table : List String) (styles : Styles) (sheets : List SheetEntry)
    (view : Option BookView) : List (String × Template × XDoc) :=
  bookParts theme rels table styles sheets view ++ [("docProps/core.xml", coreTemplate, coreSaved now)] ++
    [("_rels/.rels", relsTemplate, relsDoc rootRelsList)]

theorem saveRels_nonempty (rels : List Rel) (h : rels ≠ []) : saveRels relsTemplate.doc rels = .ok (relsDoc rels, true) := by
  cases rels with
  | nil => exact absurd rfl h
  | cons r rs => rfl

theorem deleteRel_calc (rels : List Rel) : deleteRel rels "xl/calcChain.xml" = rels.filter (fun r => r.target ≠ "/xl/calcChain.xml") := by
  kernel_rfl

theorem deleteRel_strings (rels : List Rel) :
    deleteRel rels "xl/sharedStrings.xml" = rels.filter (fun r => r.target ≠ "/xl/sharedStrings.xml") := by
  kernel_rfl

/-- The relationships written: the theme, the strings if there are any, the styles and the sheets. -/
theorem relsSaved_eq {ws : List Rel} (hw : ∀ r ∈ ws, ∃ k, r = sheetRel r.id k) (table : List String) :
    relsSaved (baseRels ++ ws) table = [relTo "rId1" "/xl/theme/theme1.xml" themeContent] ++
      (if table = [] then [] else [relTo "rId2" "/xl/sharedStrings.xml" sharedStringContent]) ++
      [relTo "rId4" "/xl/styles.xml" styleContent] ++ ws := by
  have h1 : ∀ t ∈ baseRels, ws.filter (fun r => r.target ≠ t.target) = ws := by
    intro t ht
    rw [List.filter_eq_self]
    intro r hr
    obtain ⟨k, hk⟩ := hw r hr
    rw [hk]
    exact decide_eq_true (fun e => base_target t ht k e.symm)
  have h2 := h1 (relTo "rId3" "/xl/calcChain.xml" calcChainContent) (by decide)
  have h3 := h1 (relTo "rId2" "/xl/sharedStrings.xml" sharedStringContent) (by decide)
  unfold relsSaved
  simp only [deleteRel_calc, deleteRel_strings, List.filter_append]
  have e2 : ws.filter (fun r => r.target ≠ "/xl/calcChain.xml") = ws := h2
  have e3 : ws.filter (fun r => r.target ≠ "/xl/sharedStrings.xml") = ws := h3
  rw [e2, e3]
  split <;> rfl

section
variable {env : Env} {theme : XDoc} {p : Pkg} {rels : List Rel} {table : List String} {styles : Styles} {sheets : List SheetEntry}
  {view : Option BookView} {hs : List SheetHandle}

/-- The state after closing the workbook once. -/
theorem closeBook_eq (hI : SheetsInv env theme p hs) (hr : relsSaved rels table ≠ []) :
    ∃ p', (bookWith env theme p rels table styles sheets view).closeBook env =
        (.ok (), bookWith env theme p' (relsSaved rels table) table styles sheets view) ∧
      ClosedL env p p' (bookParts theme rels table styles sheets view) := by
  have hp := hI.inv
  have oT : aget "xl/theme/theme1.xml" p.opened = some (openFrom 4 (themeTemplate theme) theme) := hI.base _ (by decide)
  have oS : aget "xl/sharedStrings.xml" p.opened = some (openFrom 5 stringsTemplate stringsTemplate.doc) := hI.base _ (by decide)
  have oC : aget "xl/calcChain.xml" p.opened = some (openFrom 6 calcTemplate calcTemplate.doc) := hI.base _ (by decide)
  have oY : aget "xl/styles.xml" p.opened = some (openFrom 7 styleTemplate styleRest) := hI.base _ (by decide)
  have oR : aget "xl/_rels/workbook.xml.rels" p.opened = some (openFrom 3 relsTemplate relsTemplate.doc) := hI.base _ (by decide)
  have oW : aget "xl/workbook.xml" p.opened = some (openFrom 2 workbookTemplate workbookDoc) := hI.base _ (by decide)
  have aOf : ∀ m o, aget m p.opened = some o → aget m p.archive = none := fun m o h => by
    rw [aget_eq_none_iff]; exact fun hm => hp.disjoint _ (mem_akeys_of_aget h) hm
  have c1 := (ClosedL.nil (env := env) hp).moreSame oT (by simp [akeys])
  unfold Excel.closeBook
  rw [Excel.seq]
  rw [show Excel.closeTheme env (bookWith env theme p rels table styles sheets view) =
    (.ok (), bookWith env theme (p.close env "xl/theme/theme1.xml") rels table styles sheets view) from rfl]
  simp only
  generalize p.close env "xl/theme/theme1.xml" = p1 at c1 ⊢
  rw [Excel.seq]
  rw [show Excel.closeCalc env (bookWith env theme p1 rels table styles sheets view) =
    (.ok (), bookWith env theme (p1.delete "xl/calcChain.xml") (deleteRel rels "xl/calcChain.xml") table styles sheets view) from rfl]
  simp only
  rw [c1.absent (aOf _ _ oC) (by simp [akeys])]
  -- strings
  have hstr : ∃ p2, Excel.closeStrings env (bookWith env theme p1 (deleteRel rels "xl/calcChain.xml") table styles sheets view) =
      (.ok (), bookWith env theme p2 (relsSaved rels table) table styles sheets view) ∧
      ClosedL env p p2 ([("xl/theme/theme1.xml", themeTemplate theme, theme)] ++
        (if table = [] then [] else [("xl/sharedStrings.xml", stringsTemplate, stringsSaved table)])) := by
    by_cases ht : table = []
    · subst ht
      refine ⟨p1.delete "xl/sharedStrings.xml", ?_, ?_⟩
      · unfold Excel.closeStrings relsSaved
        rw [if_pos (show (bookWith env theme p1 (deleteRel rels "xl/calcChain.xml") [] styles sheets view).strings.data = [] from rfl), if_pos rfl]
        rfl
      rw [c1.absent (aOf _ _ oS) (by simp [akeys])]
      exact c1
    · have hd : p1.docOf 5 = some stringsTemplate.doc := c1.doc oS (by simp [akeys])
      have c2 := c1.more (stringsSaved table) oS (by simp [akeys])
      refine ⟨(p1.update 5 (fun _ => stringsSaved table)).close env "xl/sharedStrings.xml", ?_, ?_⟩
      · unfold Excel.closeStrings relsSaved
        rw [if_neg (show ¬ (bookWith env theme p1 (deleteRel rels "xl/calcChain.xml") table styles sheets view).strings.data = [] from ht)]
        rw [if_neg ht]
        rw [show (bookWith env theme p1 (deleteRel rels "xl/calcChain.xml") table styles sheets view).pkg.docOf
          (bookWith env theme p1 (deleteRel rels "xl/calcChain.xml") table styles sheets view).strings.handle = some stringsTemplate.doc from hd]
        rfl
      · rw [if_neg ht]; exact c2
  obtain ⟨p2, e2, c2⟩ := hstr
  rw [Excel.seq, e2]
  simp only
  have k2 : ∀ m, m ≠ "xl/theme/theme1.xml" → m ≠ "xl/sharedStrings.xml" →
      m ∉ akeys ([("xl/theme/theme1.xml", themeTemplate theme, theme)] ++
        (if table = [] then [] else [("xl/sharedStrings.xml", stringsTemplate, stringsSaved table)])) := by
    intro m h1 h2
    split <;> simp [akeys, h1, h2]
  have n3 := k2 "xl/styles.xml" (by decide) (by decide)
  have n4 := k2 "xl/_rels/workbook.xml.rels" (by decide) (by decide)
  have n5 := k2 "xl/workbook.xml" (by decide) (by decide)
  have akeys_snoc : ∀ (l : List (String × Template × XDoc)) m td, akeys (l ++ [(m, td)]) = akeys l ++ [m] := by
    intro l m td; simp [akeys]
  have d3 : p2.docOf 7 = some styleRest := c2.doc oY n3
  have c3 := c2.more (stylesSaved styles) oY n3
  rw [Excel.seq]
  rw [show Excel.closeStyles env (bookWith env theme p2 (relsSaved rels table) table styles sheets view) =
    (.ok (), bookWith env theme ((p2.update 7 (fun _ => stylesSaved styles)).close env "xl/styles.xml") (relsSaved rels table) table styles sheets view) from by
      unfold Excel.closeStyles
      rw [show (bookWith env theme p2 (relsSaved rels table) table styles sheets view).pkg.docOf
        (bookWith env theme p2 (relsSaved rels table) table styles sheets view).styles.handle = some styleRest from d3]
      rfl]
  simp only
  generalize (p2.update 7 (fun _ => stylesSaved styles)).close env "xl/styles.xml" = p3 at c3 ⊢
  have m4 : "xl/_rels/workbook.xml.rels" ∉ akeys (([("xl/theme/theme1.xml", themeTemplate theme, theme)] ++
        (if table = [] then [] else [("xl/sharedStrings.xml", stringsTemplate, stringsSaved table)])) ++
      [("xl/styles.xml", styleTemplate, stylesSaved styles)]) := by
    rw [akeys_snoc, List.mem_append]
    rintro (h | h)
    · exact n4 h
    · simp at h
  have d4 : p3.docOf 3 = some relsTemplate.doc := c3.doc oR m4
  have c4 := c3.more (relsDoc (relsSaved rels table)) oR m4
  rw [Excel.seq]
  rw [show Excel.closeRels env (bookWith env theme p3 (relsSaved rels table) table styles sheets view) =
    (.ok (), bookWith env theme ((p3.update 3 (fun _ => relsDoc (relsSaved rels table))).close env "xl/_rels/workbook.xml.rels") (relsSaved rels table)
      table styles sheets view) from by
      have : RelPart.close env p3 ⟨relsSaved rels table, 3, "xl/_rels/workbook.xml.rels"⟩ =
          (.ok (), (p3.update 3 (fun _ => relsDoc (relsSaved rels table))).close env "xl/_rels/workbook.xml.rels") := by
        unfold RelPart.close
        simp only [d4, saveRels_nonempty _ hr]
        rfl
      unfold Excel.closeRels
      rw [show (bookWith env theme p3 (relsSaved rels table) table styles sheets view).rels = ⟨relsSaved rels table, 3, "xl/_rels/workbook.xml.rels"⟩ from rfl,
        show (bookWith env theme p3 (relsSaved rels table) table styles sheets view).pkg = p3 from rfl, this]
      rfl]
  simp only
  generalize (p3.update 3 (fun _ => relsDoc (relsSaved rels table))).close env "xl/_rels/workbook.xml.rels" = p4 at c4 ⊢
  have m5 : "xl/workbook.xml" ∉ akeys ((([("xl/theme/theme1.xml", themeTemplate theme, theme)] ++
        (if table = [] then [] else [("xl/sharedStrings.xml", stringsTemplate, stringsSaved table)])) ++
      [("xl/styles.xml", styleTemplate, stylesSaved styles)]) ++ [("xl/_rels/workbook.xml.rels", relsTemplate, relsDoc (relsSaved rels table))]) := by
    rw [akeys_snoc, akeys_snoc, List.mem_append, List.mem_append]
    rintro ((h | h) | h)
    · exact n5 h
    · simp at h
    · simp at h
  have d5 : p4.docOf 2 = some workbookDoc := c4.doc oW m5
  have c5 := c4.more (bookSaved sheets view) oW m5
  rw [Excel.seq]
  rw [show Excel.closeDoc env (bookWith env theme p4 (relsSaved rels table) table styles sheets view) =
    (.ok (), bookWith env theme ((p4.update 2 (fun _ => bookSaved sheets view)).close env "xl/workbook.xml") (relsSaved rels table)
      table styles sheets view) from by
      unfold Excel.closeDoc
      rw [show (bookWith env theme p4 (relsSaved rels table) table styles sheets view).pkg.docOf
        (bookWith env theme p4 (relsSaved rels table) table styles sheets view).book.handle = some workbookDoc from d5]
      rfl]
  simp only
  rw [Excel.seq]
  exact ⟨_, rfl, c5⟩

/-! ## Closing twice -/

theorem mem_bookParts : ∀ m ∈ ["xl/theme/theme1.xml", "xl/styles.xml", "xl/_rels/workbook.xml.rels", "xl/workbook.xml"],
    m ∈ akeys (bookParts theme rels table styles sheets view) := by
  intro m hm
  have h : akeys (bookParts theme rels table styles sheets view) = ["xl/theme/theme1.xml"] ++
      (if table = [] then [] else ["xl/sharedStrings.xml"]) ++ ["xl/styles.xml", "xl/_rels/workbook.xml.rels", "xl/workbook.xml"] := by
    unfold bookParts; split <;> rfl
  rw [h]
  simp only [List.mem_cons, List.not_mem_nil, or_false] at hm
  rcases hm with rfl | rfl | rfl | rfl <;> simp

theorem strings_bookParts : "xl/sharedStrings.xml" ∈ akeys (bookParts theme rels table styles sheets view) ↔ table ≠ [] := by
  have h : akeys (bookParts theme rels table styles sheets view) = ["xl/theme/theme1.xml"] ++
      (if table = [] then [] else ["xl/sharedStrings.xml"]) ++ ["xl/styles.xml", "xl/_rels/workbook.xml.rels", "xl/workbook.xml"] := by
    unfold bookParts; split <;> rfl
  rw [h]
  by_cases ht : table = [] <;> simp [ht]

theorem not_bookParts : ∀ m ∈ ["xl/calcChain.xml", "docProps/core.xml", "_rels/.rels"], m ∉ akeys (bookParts theme rels table styles sheets view) := by
  intro m hm
  have h : akeys (bookParts theme rels table styles sheets view) = ["xl/theme/theme1.xml"] ++
      (if table = [] then [] else ["xl/sharedStrings.xml"]) ++ ["xl/styles.xml", "xl/_rels/workbook.xml.rels", "xl/workbook.xml"] := by
    unfold bookParts; split <;> rfl
  rw [h]
  simp only [List.mem_cons, List.not_mem_nil, or_false] at hm
  rcases hm with rfl | rfl | rfl <;> (split <;> simp)

/-- Once the workbook is closed, closing its parts again changes nothing in the package. -/
theorem closed_again (hI : SheetsInv env theme p hs) {p' : Pkg} {rels' : List Rel} (hc : ClosedL env p p' (bookParts theme rels table styles sheets view)) :
    (∃ r2, Excel.closeTheme env (bookWith env theme p' rels' table styles sheets view) = (.ok (), bookWith env theme p' r2 table styles sheets view)) ∧
    (∃ r2, Excel.closeCalc env (bookWith env theme p' rels' table styles sheets view) = (.ok (), bookWith env theme p' r2 table styles sheets view)) ∧
    (∃ r2, Excel.closeStrings env (bookWith env theme p' rels' table styles sheets view) = (.ok (), bookWith env theme p' r2 table styles sheets view)) ∧
    (∃ r2, Excel.closeStyles env (bookWith env theme p' rels' table styles sheets view) = (.ok (), bookWith env theme p' r2 table styles sheets view)) ∧
    (∃ m r2, Excel.closeRels env (bookWith env theme p' rels' table styles sheets view) = (.error m, bookWith env theme p' r2 table styles sheets view)) := by
  have hp := hI.inv
  have oS : aget "xl/sharedStrings.xml" p.opened = some (openFrom 5 stringsTemplate stringsTemplate.doc) := hI.base _ (by decide)
  have oC : aget "xl/calcChain.xml" p.opened = some (openFrom 6 calcTemplate calcTemplate.doc) := hI.base _ (by decide)
  have oY : aget "xl/styles.xml" p.opened = some (openFrom 7 styleTemplate styleRest) := hI.base _ (by decide)
  have oR : aget "xl/_rels/workbook.xml.rels" p.opened = some (openFrom 3 relsTemplate relsTemplate.doc) := hI.base _ (by decide)
  have aOf : ∀ m o, aget m p.opened = some o → aget m p.archive = none := fun m o h => by
    rw [aget_eq_none_iff]; exact fun hm => hp.disjoint _ (mem_akeys_of_aget h) hm
  refine ⟨⟨rels', ?_⟩, ⟨deleteRel rels' "xl/calcChain.xml", ?_⟩, ?_, ⟨rels', ?_⟩, ⟨.fail "Failed to Get XML Handle", rels', ?_⟩⟩
  · rw [show Excel.closeTheme env (bookWith env theme p' rels' table styles sheets view) =
      (.ok (), bookWith env theme (p'.close env "xl/theme/theme1.xml") rels' table styles sheets view) from rfl]
    rw [hc.again (mem_bookParts _ (by decide))]
  · rw [show Excel.closeCalc env (bookWith env theme p' rels' table styles sheets view) =
      (.ok (), bookWith env theme (p'.delete "xl/calcChain.xml") (deleteRel rels' "xl/calcChain.xml") table styles sheets view) from rfl]
    rw [hc.absent (aOf _ _ oC) (not_bookParts _ (by decide))]
  · by_cases ht : table = []
    · refine ⟨deleteRel rels' "xl/sharedStrings.xml", ?_⟩
      unfold Excel.closeStrings
      rw [if_pos (show (bookWith env theme p' rels' table styles sheets view).strings.data = [] from ht)]
      have := hc.absent (aOf _ _ oS) (fun h => (strings_bookParts.mp h) ht)
      rw [show (bookWith env theme p' rels' table styles sheets view).pkg.delete (bookWith env theme p' rels' table styles sheets view).strings.path = p' from this]
      rfl
    · refine ⟨rels', ?_⟩
      unfold Excel.closeStrings
      rw [if_neg (show ¬ (bookWith env theme p' rels' table styles sheets view).strings.data = [] from ht)]
      have hd : p'.docOf 5 = none := hc.gone hp oS (strings_bookParts.mpr ht)
      rw [show (bookWith env theme p' rels' table styles sheets view).pkg.docOf
          (bookWith env theme p' rels' table styles sheets view).strings.handle = none from hd]
      simp only
      rw [show (bookWith env theme p' rels' table styles sheets view).pkg.close env (bookWith env theme p' rels' table styles sheets view).strings.path = p' from
        hc.again (strings_bookParts.mpr ht)]
      rfl
  · unfold Excel.closeStyles
    have hd : p'.docOf 7 = none := hc.gone hp oY (mem_bookParts _ (by decide))
    rw [show (bookWith env theme p' rels' table styles sheets view).pkg.docOf
        (bookWith env theme p' rels' table styles sheets view).styles.handle = none from hd]
    simp only
    rw [show (bookWith env theme p' rels' table styles sheets view).pkg.close env (bookWith env theme p' rels' table styles sheets view).styles.path = p' from
      hc.again (m := "xl/styles.xml") (mem_bookParts _ (by decide))]
    rfl
  · have hd : p'.docOf 3 = none := hc.gone hp oR (mem_bookParts _ (by decide))
    have : RelPart.close env p' ⟨rels', 3, "xl/_rels/workbook.xml.rels"⟩ = (.error (.fail "Failed to Get XML Handle"), p') := by
      unfold RelPart.close
      simp only [hd]
    unfold Excel.closeRels
    rw [show (bookWith env theme p' rels' table styles sheets view).rels = ⟨rels', 3, "xl/_rels/workbook.xml.rels"⟩ from rfl,
      show (bookWith env theme p' rels' table styles sheets view).pkg = p' from rfl, this]
    rfl

/-- Dropping the closed workbook leaves the package alone. -/
theorem dropBook_eq (hI : SheetsInv env theme p hs) {p' : Pkg} {rels' : List Rel} (hc : ClosedL env p p' (bookParts theme rels table styles sheets view)) :
    ∃ r2, (bookWith env theme p' rels' table styles sheets view).dropBook env = bookWith env theme p' r2 table styles sheets view := by
  have key := fun r => closed_again (rels' := r) hI hc
  unfold Excel.dropBook Excel.closeBook
  obtain ⟨r1, e1⟩ := (key rels').1
  obtain ⟨r2, e2⟩ := (key r1).2.1
  obtain ⟨r3, e3⟩ := (key r2).2.2.1
  obtain ⟨r4, e4⟩ := (key r3).2.2.2.1
  obtain ⟨m5, r5, e5⟩ := (key r4).2.2.2.2
  simp only [Excel.seq, e1, e2, e3, e4, e5]
  obtain ⟨r6, e6⟩ := (key r5).2.1
  obtain ⟨r7, e7⟩ := (key r6).2.2.1
  obtain ⟨r8, e8⟩ := (key r7).2.2.2.1
  obtain ⟨m9, r9, e9⟩ := (key r8).2.2.2.2
  obtain ⟨r10, e10⟩ := (key r9).1
  exact ⟨r10, by simp only [Excel.seqDrop, List.foldl, e6, e7, e8, e9, e10]⟩

theorem flushBook_eq (hI : SheetsInv env theme p hs) (hr : relsSaved rels table ≠ []) :
    ∃ p' r2, (bookWith env theme p rels table styles sheets view).flushBook env = (.ok (), bookWith env theme p' r2 table styles sheets view) ∧
      ClosedL env p p' (bookParts theme rels table styles sheets view) := by
  obtain ⟨p', e, hc⟩ := closeBook_eq (styles := styles) (sheets := sheets) (view := view) hI hr
  obtain ⟨r2, e2⟩ := dropBook_eq (rels' := relsSaved rels table) hI hc
  refine ⟨p', r2, ?_, hc⟩
  unfold Excel.flushBook
  rw [e]
  simp only [e2]

/-- Saving succeeds, and the package written. -/
theorem saved_eq (now : String) (hI : SheetsInv env theme p hs) (hr : relsSaved rels table ≠ []) :
    ∃ p', (bookWith env theme p rels table styles sheets view).saved env now = .ok (p'.closedForSave env) ∧
      ClosedL env p p' (closedParts theme now rels table styles sheets view) := by
  have hp := hI.inv
  have oC : aget "docProps/core.xml" p.opened = some (openFrom 1 coreTemplate coreDoc) := hI.base _ (by decide)
  have oR : aget "_rels/.rels" p.opened = some (openFrom 0 relsTemplate relsTemplate.doc) := hI.base _ (by decide)
  obtain ⟨p1, r2, e1, c1⟩ := flushBook_eq (styles := styles) (sheets := sheets) (view := view) hI hr
  unfold Excel.saved
  rw [Excel.seq, e1]
  simp only
  have n2 : "docProps/core.xml" ∉ akeys (bookParts theme rels table styles sheets view) := not_bookParts _ (by decide)
  have akeys_snoc : ∀ (l : List (String × Template × XDoc)) m td, akeys (l ++ [(m, td)]) = akeys l ++ [m] := by
    intro l m td; simp [akeys]
  have d2 : p1.docOf 1 = some coreDoc := c1.doc oC n2
  have c2 := c1.more (coreSaved now) oC n2
  have hm2 : "docProps/core.xml" ∈ akeys (bookParts theme rels table styles sheets view ++ [("docProps/core.xml", coreTemplate, coreSaved now)]) := by
    rw [akeys_snoc]; simp
  have ec : Excel.closeCore env now (bookWith env theme p1 r2 table styles sheets view) =
      (.ok (), bookWith env theme ((p1.update 1 (fun _ => coreSaved now)).close env "docProps/core.xml") r2 table styles sheets view) := by
    unfold Excel.closeCore
    rw [show (bookWith env theme p1 r2 table styles sheets view).pkg.docOf
        (bookWith env theme p1 r2 table styles sheets view).core.handle = some coreDoc from d2]
    simp only [show saveCore now now coreDoc = .ok (coreSaved now) from rfl]
    rfl
  generalize hp2 : (p1.update 1 (fun _ => coreSaved now)).close env "docProps/core.xml" = p2 at c2 ec
  have ec' : Excel.closeCore env now (bookWith env theme p2 r2 table styles sheets view) =
      (.ok (), bookWith env theme p2 r2 table styles sheets view) := by
    have hd : p2.docOf 1 = none := c2.gone hp oC hm2
    unfold Excel.closeCore
    rw [show (bookWith env theme p2 r2 table styles sheets view).pkg.docOf
        (bookWith env theme p2 r2 table styles sheets view).core.handle = none from hd]
    simp only
    rw [show (bookWith env theme p2 r2 table styles sheets view).pkg.close env (bookWith env theme p2 r2 table styles sheets view).core.path = p2 from
      c2.again hm2]
    rfl
  have ef : Excel.flushCore env now (bookWith env theme p1 r2 table styles sheets view) = (.ok (), bookWith env theme p2 r2 table styles sheets view) := by
    unfold Excel.flushCore
    rw [ec]
    simp only [ec']
  rw [Excel.seq, ef]
  simp only
  have n3 : "_rels/.rels" ∉ akeys (bookParts theme rels table styles sheets view ++ [("docProps/core.xml", coreTemplate, coreSaved now)]) := by
    rw [akeys_snoc, List.mem_append]
    rintro (h | h)
    · exact not_bookParts _ (by decide) h
    · simp at h
  have d3 : p2.docOf 0 = some relsTemplate.doc := c2.doc oR n3
  have c3 := c2.more (relsDoc rootRelsList) oR n3
  have er : Excel.closeRoot env (bookWith env theme p2 r2 table styles sheets view) =
      (.ok (), bookWith env theme ((p2.update 0 (fun _ => relsDoc rootRelsList)).close env "_rels/.rels") r2 table styles sheets view) := by
    have : RelPart.close env p2 ⟨rootRelsList, 0, "_rels/.rels"⟩ =
        (.ok (), (p2.update 0 (fun _ => relsDoc rootRelsList)).close env "_rels/.rels") := by
      unfold RelPart.close
      simp only [d3, saveRels_nonempty rootRelsList (by decide)]
      rfl
    unfold Excel.closeRoot
    rw [show (bookWith env theme p2 r2 table styles sheets view).rootRels = ⟨rootRelsList, 0, "_rels/.rels"⟩ from rfl,
      show (bookWith env theme p2 r2 table styles sheets view).pkg = p2 from rfl, this]
    rfl
  rw [Excel.seq, er]
  simp only
  rw [Excel.seq]
  exact ⟨_, rfl, c3⟩

end

end Oxml
