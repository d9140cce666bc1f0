import Verif.Props.ExistingDelete -- only to build one after the other: both need much memory
import Verif.Props.ExistingReget
/-!
# C88: saving an existing workbook
-/
namespace Oxml
open Spec

variable {env : Env} {theme : XDoc} {z : Zip} {ops : List WbOp} {x : Excel} {s : Session} {now : String} {exts : List (String × String)}

theorem mapRoot_none {x : XDoc} {f : List Node → List Node} : (x.mapRootChildren f).root = none ↔ x.root = none := by
  unfold XDoc.mapRootChildren
  cases x.root <;> simp

theorem popTag_none {x : XDoc} {t : String} : (x.popTag t).2.root = none ↔ x.root = none := mapRoot_none

theorem loadBook_none {x : XDoc} : (loadBook x).2.root = none ↔ x.root = none := by
  unfold loadBook
  simp only
  split
  · exact popTag_none
  · split
    · exact popTag_none.trans popTag_none
    · exact popTag_none.trans popTag_none

theorem loadStyles_none {x : XDoc} : (Styles.load x).2.root = none ↔ x.root = none := by
  unfold Styles.load
  split
  · exact mapRoot_none
  all_goals exact Iff.rfl

/-- A part that is its template or read from the file has a root exactly when it has one in the file. -/
theorem source_root {p : Pkg} {t : Template} {n : String} {o : OpenDoc} (hp : Pkg.ofZip env z = .ok p) (hn : n ≠ contentTypesName)
    (h : Source env p t n o) (ht : t.doc.root ≠ none) : o.doc.root ≠ none ↔ HasRoot env z n := by
  rcases source_zip hp hn h with ⟨h1, h2⟩ | ⟨c, d, h1, h2, h3⟩
  · refine ⟨fun _ d hd => ?_, fun _ => by rw [h2]; exact ht⟩
    obtain ⟨c, _, e, _⟩ := of_zipDoc hd
    rw [h1] at e; cases e
  · have hd := zipDoc_eq h1 h2
    rw [h3]
    exact ⟨fun h d' hd' => by rw [hd] at hd'; cases hd'; exact h, fun h => h _ hd⟩

/-! ## The list of content types is never opened as a part -/

theorem not_rels_types (path : String) : ¬ IsRelsOf contentTypesName path := by
  rintro ⟨dir, base, _, _, h⟩
  have : '/' ∈ contentTypesName.toList := by rw [h]; simp
  revert this; decide +kernel

theorem types_no_rels : sheetRelsPath contentTypesName = none := by decide +kernel

/-- A call asking for a sheet stored under the name of the list of content types panics. -/
theorem open_types (h : QuietSess contentTypesName none s) {name : Option String} (ha : AboutPart s.x name contentTypesName) :
    ∃ m, (s.open env name).1 = .error (.panic m) := by
  have noNew : ¬ NewSheetPart s.x contentTypesName := by
    rintro ⟨dir, k, _, e, _⟩
    have h1 : '/' ∈ contentTypesName.toList := by rw [e]; simp [String.toList_append]
    revert h1; decide +kernel
  have stored : ∀ n, name = some n → StoredIn s.x n contentTypesName → ∃ m, (s.open env name).1 = .error (.panic m) := by
    rintro n rfl ⟨e, r, h1, h2, h3⟩
    have hf : s.x.sheetFile (some n) = (.ok (contentTypesName, e.name), s.x) := by
      unfold Excel.sheetFile targetById
      simp only [Option.bind_some, h1, h2, h3]
    have ho := openPart_fresh (env := env) (t := worksheetTemplate) h.book.pkg.shut h.book.pkg.kept
    refine ⟨"unwrap on None", ?_⟩
    unfold Session.open Excel.openSheet
    rw [hf]
    simp only [ho, types_no_rels]
  unfold AboutPart at ha
  split at ha
  · split at ha
    · exact stored _ rfl ha
    · exact absurd ha noNew
  · exact absurd ha noNew

theorem types_step (h : QuietSess contentTypesName none s) {op : WbOp} (hnp : ∀ m, (s.step env op).1 ≠ .error (.panic m)) :
    QuietSess contentTypesName none (s.step env op).2 := by
  apply h.step env
  have key : ∀ name, (∀ m, (s.open env name).1 ≠ .error (.panic m)) → ∀ path, AboutPart s.x name path → contentTypesName ≠ path ∧ ¬ IsRelsOf contentTypesName path := by
    intro name hn path ha
    refine ⟨?_, not_rels_types path⟩
    rintro rfl
    obtain ⟨m, e⟩ := open_types (env := env) h ha
    exact hn m e
  cases op with
  | add name => exact key name hnp
  | get name => exact key (some name) hnp
  | _ => trivial

theorem types_run {s s' : Session} (h : QuietSess contentTypesName none s) (hr : s.run env ops = .ok s') : QuietSess contentTypesName none s' := by
  induction ops generalizing s with
  | nil => cases hr; exact h
  | cons op ops ih =>
    refine ih (types_step (op := op) h ?_) (run_cons hr)
    intro m e
    rw [Session.run] at hr
    have : s.step env op = (.error (.panic m), (s.step env op).2) := Prod.ext e rfl
    rw [this] at hr
    cases hr

/-- **C88, exactly.** After any history of calls on a workbook opened from a file, saving succeeds exactly when the documents it writes to have roots: the root
relationships, core properties, workbook, workbook relationships and styles, the strings if there are any, the calculation chain if there is any. Moreover none
of the workbook's own parts may have the name of the list of content types. -/
theorem C88_exact (hz : (akeys z).Nodup) (hr : RanOn env theme z ops x s) : (∃ z', s.x.toZip env now exts = .ok z') ↔
    contentTypesName ∉ ownParts x ∧ (∀ n ∈ [x.rootRels.path, x.core.path, x.book.path, x.rels.path, x.styles.path], HasRoot env z n) ∧
      (s.x.strings.data ≠ [] → HasRoot env z x.strings.path) ∧ (s.x.chain.data ≠ [] → HasRoot env z x.chain.path) := by
  obtain ⟨p, o1, o2, o3, o4, o5, o6, o7, o8, r1, r2, hp, hb⟩ := openFile_book hz hr.1
  obtain ⟨hown, A⟩ := opened_docs hb hr.2
  -- roots
  have hroots : contentTypesName ∉ ownParts x → (Rootless s.x { o1 with doc := (loadRels o1.doc).2 } o2 { o3 with doc := (loadBook o3.doc).2 }
      { o4 with doc := (loadRels o4.doc).2 } { o6 with doc := (loadStrings o6.doc).2 } { o7 with doc := (loadCalc o7.doc).2 }
      { o8 with doc := (Styles.load o8.doc).2 } ↔ ¬ ((∀ n ∈ [x.rootRels.path, x.core.path, x.book.path, x.rels.path, x.styles.path], HasRoot env z n) ∧
      (s.x.strings.data ≠ [] → HasRoot env z x.strings.path) ∧ (s.x.chain.data ≠ [] → HasRoot env z x.chain.path))) := by
    intro hct
    have hne : ∀ n ∈ ownParts x, n ≠ contentTypesName := fun n hn e => hct (e ▸ hn)
    have q1 := source_root hp (hne x.rootRels.path (by simp [ownParts])) (by rw [hb.rootPath]; exact hb.rootSource) (fun h => by cases h)
    have q2 := source_root hp (hne x.core.path (by simp [ownParts])) hb.coreSource (fun h => by cases h)
    have q3 := source_root hp (hne x.book.path (by simp [ownParts])) hb.bookSource (fun h => by cases h)
    have q4 := source_root hp (hne x.rels.path (by simp [ownParts])) hb.relSource (fun h => by cases h)
    have q6 := source_root hp (hne x.strings.path (by simp [ownParts])) hb.strSource (fun h => by cases h)
    have q7 := source_root hp (hne x.chain.path (by simp [ownParts])) hb.calcSource (fun h => by cases h)
    have q8 := source_root hp (hne x.styles.path (by simp [ownParts])) hb.styleSource (fun h => by cases h)
    unfold Rootless
    simp only [List.mem_cons, List.not_mem_nil, or_false, forall_eq_or_imp, forall_eq, ← q1, ← q2, ← q3, ← q4, ← q6, ← q7, ← q8]
    have w1 : (loadRels o1.doc).2.root = none ↔ o1.doc.root = none := popTag_none
    have w3 : (loadBook o3.doc).2.root = none ↔ o3.doc.root = none := loadBook_none
    have w4 : (loadRels o4.doc).2.root = none ↔ o4.doc.root = none := popTag_none
    have w6 : (loadStrings o6.doc).2.root = none ↔ o6.doc.root = none := popTag_none
    have w7 : (loadCalc o7.doc).2.root = none ↔ o7.doc.root = none := popTag_none
    have w8 : (Styles.load o8.doc).2.root = none ↔ o8.doc.root = none := loadStyles_none
    rw [w1, w3, w4, w6, w7, w8]
    simp only [ne_eq, Classical.not_and_iff_not_or_not, Classical.not_not, Classical.not_imp]
    constructor
    · rintro (h | h | h | h | h | h | h)
      · exact Or.inl (Or.inl h)
      · exact Or.inl (Or.inr (Or.inl h))
      · exact Or.inl (Or.inr (Or.inr (Or.inl h)))
      · exact Or.inl (Or.inr (Or.inr (Or.inr (Or.inl h))))
      · exact Or.inr (Or.inl h)
      · exact Or.inr (Or.inr h)
      · exact Or.inl (Or.inr (Or.inr (Or.inr (Or.inr h))))
    · rintro ((h | h | h | h | h) | h | h)
      · exact Or.inl h
      · exact Or.inr (Or.inl h)
      · exact Or.inr (Or.inr (Or.inl h))
      · exact Or.inr (Or.inr (Or.inr (Or.inl h)))
      · exact Or.inr (Or.inr (Or.inr (Or.inr (Or.inr (Or.inr h)))))
      · exact Or.inr (Or.inr (Or.inr (Or.inr (Or.inl h))))
      · exact Or.inr (Or.inr (Or.inr (Or.inr (Or.inr (Or.inl h)))))
  constructor
  · rintro ⟨z', hs⟩
    obtain ⟨_, _, _, _, _, _, _, _, _, _, _, _, _, _, _, _, _, _, _, _, _, _, _, _, _, _, _, hct⟩ := saved_base hz hr hs
    have hct : contentTypesName ∉ ownParts x := fun h => hct _ h rfl
    refine ⟨hct, ?_⟩
    refine Classical.byContradiction fun hc => ?_
    · exfalso
      have hrl := (hroots hct).mpr hc
      unfold Excel.toZip at hs
      split at hs
      · cases hs
      · next q e =>
        obtain ⟨d1, d2, d3, d4, d6, d7, d8, keep, keep0, W, -⟩ := saved_all A e
        have k6 := W.strings
        have k7 := W.chain
        rcases hrl with h | h | h | h | ⟨g, h⟩ | ⟨g, h⟩ | h
        · exact saveRels_root W.root h
        · exact saveCore_rooted W.core h
        · exact saveBook_root W.book h
        · exact saveRels_root W.rels h
        · rw [if_neg g] at k6
          exact appendAll_root (by simpa using g) k6 (insertRootAttrs_none.mpr h)
        · rw [if_neg g] at k7
          exact appendAll_root (by simpa using g) k7 h
        · exact saveStyles_root W.styles h
  · rintro ⟨hct, hrest⟩
    rcases saved_cases (env := env) (now := now) A with ⟨e, _, h⟩ | ⟨q, _, _, _, _, _, _, _, _, _, h, _, S⟩
    · exact absurd hrest ((hroots hct).mp h)
    · have hq0 : QuietSess contentTypesName none ⟨x, []⟩ :=
        ⟨⟨⟨hb.openOnly _ hct, (hb.others _ hct).trans ((aget_eq_none_iff _ _).mpr (ofZip_no_types hp))⟩, hct⟩, fun g hg => by cases hg⟩
      have hq := types_run hq0 hr.2
      have hn := hq.book.saved h
      unfold Excel.toZip Pkg.toZip
      rw [h]
      simp only
      have : ahas contentTypesName q.archive = false := by unfold ahas; rw [hn]; rfl
      rw [this]
      exact ⟨_, rfl⟩

/-- **C88.** If every own part of an existing workbook that is present in the file has a root, the workbook can be saved after every history of calls. -/
theorem C88_saves (hz : (akeys z).Nodup) (hr : RanOn env theme z ops x s) (hct : contentTypesName ∉ ownParts x) (h : ∀ n ∈ ownParts x, HasRoot env z n) :
    ∃ z', s.x.toZip env now exts = .ok z' := by
  refine (C88_exact hz hr).mpr ⟨hct, fun n hn => h n ?_, fun _ => h _ (by simp [ownParts]), fun _ => h _ (by simp [ownParts])⟩
  simp only [List.mem_cons, List.not_mem_nil, or_false] at hn
  rcases hn with rfl | rfl | rfl | rfl | rfl <;> simp [ownParts]

/-! ## Examples -/

/-- The hypotheses of `C88_saves`, computed. -/
def exSavesChk (z : Zip) : Bool :=
  match Excel.openFile exEnv exTheme z with
  | .error _ => false
  | .ok x => !(ownParts x).contains contentTypesName && (ownParts x).all (fun n => match zipDoc exEnv z n with | none => true | some d => d.root.isSome)

theorem exSavesChk_sound (h : exSavesChk z = true) : ∃ x, Excel.openFile exEnv exTheme z = .ok x ∧ contentTypesName ∉ ownParts x ∧
    ∀ n ∈ ownParts x, HasRoot exEnv z n := by
  unfold exSavesChk at h
  split at h
  · cases h
  · next x hx =>
    simp only [Bool.and_eq_true, Bool.not_eq_true', List.all_eq_true] at h
    refine ⟨x, hx, fun hc => ?_, fun n hn d hd hno => ?_⟩
    · have := List.contains_iff_mem.mpr hc
      rw [this] at h; cases h.1
    · have := h.2 n hn
      rw [hd] at this
      simp [hno] at this

/-- The workbook with two sheets, strings and a chain can be saved after every history of calls. -/
example : ∃ x, Excel.openFile exEnv exTheme exFull = .ok x ∧ ∀ ops s, Session.run exEnv ⟨x, []⟩ ops = .ok s → ∀ now exts, ∃ z', s.x.toZip exEnv now exts = .ok z' := by
  obtain ⟨x, h1, h2, h3⟩ := exSavesChk_sound (z := exFull) (by decide +kernel)
  exact ⟨x, h1, fun ops s hs now exts => C88_saves (by decide +kernel) ⟨h1, hs⟩ h2 h3⟩

/-- A workbook whose style part is an empty file. -/
def exNoStyles : Zip := exBook ++ [("xl/styles.xml", [])]

/-- The style part of the opened workbook is the empty part. -/
def exNoStylesChk : Bool :=
  match Excel.openFile exEnv exTheme exNoStyles with
  | .error _ => false
  | .ok x => match zipDoc exEnv exNoStyles x.styles.path with
    | none => false
    | some d => d.root.isNone

/-- **C88 is violated**: a workbook file that opens but cannot be saved, whatever is done to it. -/
theorem C88_violated : ∃ z x, (akeys z).Nodup ∧ Excel.openFile exEnv exTheme z = .ok x ∧
    ∀ ops s, Session.run exEnv ⟨x, []⟩ ops = .ok s → ∀ now exts, ¬ ∃ z', s.x.toZip exEnv now exts = .ok z' := by
  have h : exNoStylesChk = true := by decide +kernel
  unfold exNoStylesChk at h
  split at h
  · cases h
  · next x hx =>
    split at h
    · cases h
    · next d hd =>
      refine ⟨exNoStyles, x, by decide +kernel, hx, fun ops s hs now exts hz => ?_⟩
      obtain ⟨_, h2, _⟩ := (C88_exact (by decide +kernel) ⟨hx, hs⟩).mp hz
      exact h2 x.styles.path (by simp) d hd (Option.isNone_iff_eq_none.mp h)

end Oxml
