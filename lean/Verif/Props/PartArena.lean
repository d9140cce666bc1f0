import Verif.Spec.PartArena
import Verif.Proofs.PartCore
/-!
# C78: what a part reads and saves is determined by the content of its document

Two families of statements over the arena programs of `Model/PartArena.lean`, which follow the code call by call:

* `C78_*_content`: documents with the same content are read and saved alike, whatever their history;
* `C78_*_tree`: the arena program does to the content what the tree-level model of the part says, for every document
  the library can hold and all data. This carries the theorems about parts (C17-C64) over to the arena programs.
-/
namespace Oxml
open Spec

theorem loadsAlike_of {α : Type} {load : XmlDoc → Res α × XmlDoc} {f : XDoc → Res α} {g : XDoc → XDoc}
    (h : ∀ (u : Unicode) (d : XmlDoc), d.Inv → (load d).1 = f d.toXDoc ∧ (Reachable u d → Reachable u (load d).2) ∧
      ∀ x, (load d).1 = .ok x → (load d).2.toXDoc = g d.toXDoc) : LoadsAlike load := by
  intro u d1 d2 h1 h2 hs
  obtain ⟨a1, a2, a3⟩ := h u d1 h1.good.1
  obtain ⟨b1, _, b3⟩ := h u d2 h2.good.1
  have he : (load d1).1 = (load d2).1 := by rw [a1, b1, hs]
  exact ⟨he, a2 h1, fun x hx => by rw [a3 x hx, b3 x (he ▸ hx), hs]⟩

theorem savesAlike_of {α : Type} {save : Unicode → α → XmlDoc → Res XmlDoc} {f : α → XDoc → Res XDoc}
    (h : ∀ (u : Unicode) (d : XmlDoc) (x : α), d.Inv → Writes u d (save u x d) (f x d.toXDoc)) : SavesAlike save := by
  intro u b stamp x d1 d2 h1 h2 hs
  have w1 := h u d1 x h1.good.1
  have w2 := h u d2 x h2.good.1
  constructor
  · have hdoc := w1.doc.trans ((congrArg (f x) hs).trans w2.doc.symm)
    cases e1 : save u x d1 with
    | error e =>
      cases e2 : save u x d2 with
      | error e' =>
        rw [e1, e2] at hdoc
        cases hdoc
        rfl
      | ok d' => rw [e1, e2] at hdoc; cases hdoc
    | ok d1' =>
      cases e2 : save u x d2 with
      | error e' => rw [e1, e2] at hdoc; cases hdoc
      | ok d2' =>
        rw [e1, e2] at hdoc
        have hd : d1'.toXDoc = d2'.toXDoc := by injection hdoc
        unfold fileOf
        simp only
        rw [writeXml_eq b stamp (w1.inv _ e1), writeXml_eq b stamp (w2.inv _ e2), hd]
  · intro d' hd'
    exact ⟨w1.reach _ hd' h1, _, writeXml_eq b stamp (w1.inv _ hd')⟩

/-! ## Loading -/

/-- **C78 (shared strings, read).** -/
theorem C78_strings_load_content : LoadsAlike arenaLoadStrings :=
  loadsAlike_of (f := fun x => .ok (loadStrings x).1) (g := fun x => (loadStrings x).2) (fun u _ hi =>
    have h := arenaLoadStrings_eq (u := u) hi
    ⟨h.1, h.2.reach, fun _ _ => h.2.doc⟩)

/-- **C78 (calculation chain, read).** -/
theorem C78_calc_load_content : LoadsAlike arenaLoadCalc :=
  loadsAlike_of (f := fun x => (loadCalc x).1) (g := fun x => (loadCalc x).2) (fun u _ hi =>
    have h := arenaLoadCalc_eq (u := u) hi
    ⟨h.1, h.2.reach, fun _ _ => h.2.doc⟩)

/-- **C78 (relationships, read).** -/
theorem C78_rels_load_content : LoadsAlike arenaLoadRels :=
  loadsAlike_of (f := fun x => (loadRels x).1) (g := fun x => (loadRels x).2) (fun u _ hi =>
    have h := arenaLoadRels_eq (u := u) hi
    ⟨h.1, h.2.reach, fun _ _ => h.2.doc⟩)

/-- **C78 (default content types, read).** -/
theorem C78_extensions_load_content : LoadsAlike arenaExtensions :=
  loadsAlike_of (f := fun x => getExtensions x) (g := fun x => (x.popTag "Default").2) (fun u _ hi =>
    have h := arenaExtensions_eq (u := u) hi
    ⟨h.1, h.2.reach, fun _ _ => h.2.doc⟩)

/-- **C78 (workbook, read).** -/
theorem C78_book_load_content : LoadsAlike arenaLoadBook :=
  loadsAlike_of (f := fun x => (loadBook x).1) (g := fun x => (loadBook x).2) (fun u _ hi =>
    have h := arenaLoadBook_eq (u := u) hi
    ⟨h.1, h.2.reach, fun _ _ => h.2.doc⟩)

/-- **C78 (worksheet, read).** -/
theorem C78_sheet_load_content (env : Env) : LoadsAlike (arenaLoadSheet env) :=
  loadsAlike_of (f := fun x => (Sheet.load env x).1) (g := fun x => (Sheet.load env x).2) (fun u _ hi =>
    have h := arenaLoadSheet_eq (u := u) (env := env) hi
    ⟨h.1, h.2.reach, fun _ _ => h.2.doc⟩)

/-- **C78 (styles, read).** -/
theorem C78_styles_load_content : LoadsAlike arenaLoadStyles :=
  loadsAlike_of (f := fun x => (Styles.load x).1) (g := fun x => (Styles.load x).2) (fun u _ hi =>
    have h := arenaLoadStyles_eq (u := u) hi
    ⟨h.1, h.2.2.1, h.2.2.2⟩)

/-! ## Saving -/

/-- **C78 (shared strings, saved).** -/
theorem C78_strings_save_content : SavesAlike (fun u table d => arenaSaveStrings u d table) :=
  savesAlike_of (f := fun x d => saveStrings d x) (fun _ _ x hi => arenaSaveStrings_eq hi x)

/-- **C78 (calculation chain, saved).** -/
theorem C78_calc_save_content : SavesAlike (fun u chain d => arenaSaveCalc u d chain) :=
  savesAlike_of (f := fun x d => saveCalc d x) (fun _ _ x hi => arenaSaveCalc_eq hi x)

/-- **C78 (workbook, saved).** -/
theorem C78_book_save_content :
    SavesAlike (fun u (x : List SheetEntry × Option BookView) d => arenaSaveBook u x.1 x.2 d) :=
  savesAlike_of (f := fun x d => saveBook x.1 x.2 d) (fun _ _ x hi => arenaSaveBook_eq hi x.1 x.2)

/-- **C78 (worksheet, saved).** -/
theorem C78_sheet_save_content : SavesAlike arenaSaveSheet :=
  savesAlike_of (f := fun x d => Sheet.save x d) (fun _ _ x hi => arenaSaveSheet_eq hi x)

/-- **C78 (styles, saved).** -/
theorem C78_styles_save_content : SavesAlike arenaSaveStyles :=
  savesAlike_of (f := fun x d => Styles.save x d) (fun _ _ x hi => arenaSaveStyles_eq hi x)

/-- **C78 (core properties, saved at the times given).** -/
theorem C78_core_save_content : SavesAlike (fun _ (x : String × String) d => arenaSaveCore x.1 x.2 d) :=
  savesAlike_of (f := fun x d => saveCore x.1 x.2 d) (fun _ _ x hi => arenaSaveCore_eq hi x.1 x.2)

/-- **C78 (relationships, saved).** `arenaSaveRels` also tells whether the part was kept. -/
theorem C78_rels_save_content : SavesAlike (fun u rels d => (arenaSaveRels u d rels).map Prod.fst) :=
  savesAlike_of (f := fun x d => (saveRels d x).map Prod.fst) (fun u d x hi => by
    obtain ⟨h1, h2⟩ := arenaSaveRels_eq (u := u) hi x
    refine ⟨?_, ?_, ?_⟩
    · rw [← h1]
      cases arenaSaveRels u d x <;> rfl
    · intro d' h
      cases hs : arenaSaveRels u d x with
      | error e => rw [hs] at h; cases h
      | ok p =>
        obtain ⟨q, b⟩ := p
        rw [hs] at h
        cases h
        exact (h2 _ _ hs).1
    · intro d' h
      cases hs : arenaSaveRels u d x with
      | error e => rw [hs] at h; cases h
      | ok p =>
        obtain ⟨q, b⟩ := p
        rw [hs] at h
        cases h
        exact (h2 _ _ hs).2)

/-! ## The arena programs and the tree-level models -/

/-- The file after a save, from the tree-level model. -/
theorem fileOf_eq {u : Unicode} {d : XmlDoc} {r : Res XmlDoc} {x : Res XDoc} (b : Build) (stamp : List Char) (h : Writes u d r x) :
    fileOf b stamp r = x.map (renderDoc b stamp) := by
  rw [← h.doc]
  cases r with
  | error e => rfl
  | ok d' => exact writeXml_eq b stamp (h.inv _ rfl)

/-- **C78 (tree).** Reading: every part reads from the arena what its tree-level model reads from the content. -/
theorem C78_load_tree (u : Unicode) (env : Env) (d : XmlDoc) (h : Reachable u d) :
    (arenaLoadStrings d).1 = .ok (loadStrings d.toXDoc).1 ∧ (arenaLoadCalc d).1 = (loadCalc d.toXDoc).1 ∧
    (arenaLoadRels d).1 = (loadRels d.toXDoc).1 ∧ (arenaExtensions d).1 = getExtensions d.toXDoc ∧
    (arenaLoadBook d).1 = (loadBook d.toXDoc).1 ∧ (arenaLoadSheet env d).1 = (Sheet.load env d.toXDoc).1 ∧
    (arenaLoadStyles d).1 = (Styles.load d.toXDoc).1 :=
  have hi := h.good.1
  ⟨(arenaLoadStrings_eq (u := u) hi).1, (arenaLoadCalc_eq (u := u) hi).1, (arenaLoadRels_eq (u := u) hi).1,
    (arenaExtensions_eq (u := u) hi).1, (arenaLoadBook_eq (u := u) hi).1, (arenaLoadSheet_eq (u := u) hi).1,
    (arenaLoadStyles_eq (u := u) hi).1⟩

/-- **C78 (tree).** What reading leaves in the document. -/
theorem C78_left_tree (u : Unicode) (env : Env) (d : XmlDoc) (h : Reachable u d) :
    (arenaLoadStrings d).2.toXDoc = (loadStrings d.toXDoc).2 ∧ (arenaLoadCalc d).2.toXDoc = (loadCalc d.toXDoc).2 ∧
    (arenaLoadRels d).2.toXDoc = (loadRels d.toXDoc).2 ∧ (arenaExtensions d).2.toXDoc = (d.toXDoc.popTag "Default").2 ∧
    (arenaLoadBook d).2.toXDoc = (loadBook d.toXDoc).2 ∧ (arenaLoadSheet env d).2.toXDoc = (Sheet.load env d.toXDoc).2 ∧
    (∀ st, (arenaLoadStyles d).1 = .ok st → (arenaLoadStyles d).2.toXDoc = (Styles.load d.toXDoc).2) :=
  have hi := h.good.1
  ⟨(arenaLoadStrings_eq (u := u) hi).2.doc, (arenaLoadCalc_eq (u := u) hi).2.doc, (arenaLoadRels_eq (u := u) hi).2.doc,
    (arenaExtensions_eq (u := u) hi).2.doc, (arenaLoadBook_eq (u := u) hi).2.doc, (arenaLoadSheet_eq (u := u) hi).2.doc,
    (arenaLoadStyles_eq (u := u) hi).2.2.2⟩

/-- **C78 (tree).** Saving: the file written after a save is the rendering of what the tree-level model saves. -/
theorem C78_save_tree (u : Unicode) (b : Build) (stamp : List Char) (d : XmlDoc) (h : Reachable u d) :
    (∀ table, fileOf b stamp (arenaSaveStrings u d table) = (saveStrings d.toXDoc table).map (renderDoc b stamp)) ∧
    (∀ chain, fileOf b stamp (arenaSaveCalc u d chain) = (saveCalc d.toXDoc chain).map (renderDoc b stamp)) ∧
    (∀ rels, (arenaSaveRels u d rels).map (fun p => (p.1.toXDoc, p.2)) = saveRels d.toXDoc rels) ∧
    (∀ sheets view, fileOf b stamp (arenaSaveBook u sheets view d) = (saveBook sheets view d.toXDoc).map (renderDoc b stamp)) ∧
    (∀ s, fileOf b stamp (arenaSaveSheet u s d) = (Sheet.save s d.toXDoc).map (renderDoc b stamp)) ∧
    (∀ st, fileOf b stamp (arenaSaveStyles u st d) = (Styles.save st d.toXDoc).map (renderDoc b stamp)) ∧
    (∀ now1 now2, fileOf b stamp (arenaSaveCore now1 now2 d) = (saveCore now1 now2 d.toXDoc).map (renderDoc b stamp)) :=
  have hi := h.good.1
  ⟨fun t => fileOf_eq b stamp (arenaSaveStrings_eq (u := u) hi t), fun t => fileOf_eq b stamp (arenaSaveCalc_eq (u := u) hi t),
    fun t => (arenaSaveRels_eq (u := u) hi t).1, fun s v => fileOf_eq b stamp (arenaSaveBook_eq (u := u) hi s v),
    fun s => fileOf_eq b stamp (arenaSaveSheet_eq (u := u) hi s), fun s => fileOf_eq b stamp (arenaSaveStyles_eq (u := u) hi s),
    fun a c => fileOf_eq b stamp (arenaSaveCore_eq (u := u) hi a c)⟩

theorem popTag_children (x : XDoc) (t : String) :
    (x.popTag t).2.rootChildren = x.rootChildren.filter (fun n => decide (n.tag ≠ t)) := by
  unfold XDoc.popTag XDoc.mapRootChildren XDoc.rootChildren
  cases x.root with
  | none => rfl
  | some r => cases r; rfl

/-- **C78 (content types).** The content-type part is built anew at each save: always with success, with the content
of the tree-level model; and the types looked up one by one when a package is opened are those of the `Override`
entries, one lookup not disturbing the next, because part names in a package are distinct. -/
theorem C78_content_types (u : Unicode) (b : Build) (stamp : List Char) :
    (∀ exts overrides, fileOf b stamp (arenaContentTypes u exts overrides) =
      .ok (renderDoc b stamp (contentTypesDoc exts overrides))) ∧
    (∀ (d : XmlDoc) (names : List String), Reachable u d → names.Nodup →
      (arenaTypes (arenaExtensions d).2 names).1 = mapRes (overrideContentType d.toXDoc) names) := by
  constructor
  · intro e o
    obtain ⟨d, h1, h2, h3, _⟩ := arenaContentTypes_eq (u := u) e o
    rw [h1, ← h2]
    exact writeXml_eq b stamp h3
  · intro d names h hn
    have ex := (arenaExtensions_eq (u := u) h.good.1).2
    have hkids : (arenaExtensions d).2.toXDoc.rootChildren = d.toXDoc.rootChildren.filter (fun n => decide (n.tag ≠ "Default")) := by
      rw [ex.doc]
      exact popTag_children _ _
    rw [arenaTypes_eq ex.inv (by
      intro n hn
      rw [hkids] at hn
      simpa using (List.mem_filter.mp hn).2) hn]
    have : overrideContentType (arenaExtensions d).2.toXDoc = overrideContentType d.toXDoc := by
      funext name
      unfold overrideContentType
      have : ((d.toXDoc.rootChildren.filter (fun n => decide (n.tag ≠ "Default"))).filter (fun n => decide (n.tag ≠ "Default"))) =
          d.toXDoc.rootChildren.filter (fun n => decide (n.tag ≠ "Default")) := by
        rw [List.filter_filter]
        congr 1
        funext a
        exact Bool.and_self _
      rw [hkids, this]
    rw [this]

/-! ## A case

Two documents with the same content and different histories: in the second an element was added and taken out again,
so that all later ids differ. -/

def plainSst : XmlDoc :=
  XmlDoc.history ⟨fun _ => false⟩ [.createRoot "sst", .append "si" 0, .append "t" 1, .value 2 "hi"]

def usedSst : XmlDoc :=
  XmlDoc.history ⟨fun _ => false⟩ [.createRoot "sst", .append "x" 0, .popTag "x" 0, .append "si" 0, .append "t" 2, .value 3 "hi"]

/-- The hypotheses hold for two different arenas, and reading and saving do what the theorems say. -/
example : Reachable ⟨fun _ => false⟩ plainSst ∧ Reachable ⟨fun _ => false⟩ usedSst ∧ plainSst.toXDoc = usedSst.toXDoc ∧
    (idAt plainSst 0 [0], idAt usedSst 0 [0]) = (some 1, some 2) ∧
    (arenaLoadStrings plainSst).1 = .ok ["hi"] ∧ (arenaLoadStrings usedSst).1 = .ok ["hi"] ∧
    fileOf ⟨false⟩ [] (arenaSaveStrings ⟨fun _ => false⟩ (arenaLoadStrings usedSst).2 ["hi", "you"]) =
      .ok "<?xml version=\"1.0\" encoding=\"utf-8\"?><sst  ><si ><t >hi</t></si><si ><t >you</t></si></sst>".toList := by
  refine ⟨?_, ?_, by decide +kernel, by decide +kernel, by decide +kernel, by decide +kernel, by decide +kernel⟩
  · exact (((Reachable.new.edit (.createRoot "sst") trivial).edit (.append "si" 0) trivial).edit (.append "t" 1) trivial).edit
      (.value 2 "hi") trivial
  · exact (((((Reachable.new.edit (.createRoot "sst") trivial).edit (.append "x" 0) trivial).edit (.popTag "x" 0) trivial).edit
      (.append "si" 0) trivial).edit (.append "t" 2) trivial).edit (.value 3 "hi") trivial

/-- A worksheet read from a text, loaded and saved: the `pageMargins` the library does not manage stays. -/
def reloadedSheet : Res (List Char) :=
  match readXml ⟨fun _ => false⟩ "<worksheet><sheetData><row r=\"2\"><c r=\"B2\"><v>7</v></c></row></sheetData><pageMargins left=\"1\"/></worksheet>".toList with
  | .error e => .error e
  | .ok d =>
    match arenaLoadSheet { build := ⟨false⟩, uni := ⟨fun _ => false⟩, stamp := [] } d with
    | (.error e, _) => .error e
    | (.ok s, d1) => fileOf ⟨false⟩ [] (arenaSaveSheet ⟨fun _ => false⟩ s d1)

example : reloadedSheet = .ok ("<?xml version=\"1.0\" encoding=\"utf-8\"?><worksheet   ><dimension ref=\"B2:B2\" />".toList ++
    "<sheetViews ><sheetView workbookViewId=\"0\" /></sheetViews><sheetData ><row r=\"2\" >".toList ++
    "<c r=\"B2\" ><v >7</v></c></row></sheetData><pageMargins left=\"1\" /></worksheet>".toList) := by
  decide +kernel

end Oxml
