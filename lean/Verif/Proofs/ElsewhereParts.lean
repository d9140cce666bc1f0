import Verif.Proofs.Elsewhere
import Verif.Props.WellFormedFile
/-!
# Parts of a saved workbook as other programs read them
-/
namespace Oxml
open Spec

/-! ## Elements hold text or children -/

theorem toc_iff {cs : List Node} : TextOrChildrens cs ↔ ∀ c ∈ cs, TextOrChildren c := by
  induction cs with
  | nil => simp [TextOrChildrens]
  | cons c cs ih => simp [TextOrChildrens, ih]

theorem toc_mk {t : String} {a : Option Attrs} {cs : List Node} (h : ∀ c ∈ cs, TextOrChildren c) : TextOrChildren (.mk t a none cs) := by
  rw [TextOrChildren]
  exact ⟨fun h => absurd rfl h, toc_iff.mpr h⟩

theorem toc_leaf {t : String} {a : Option Attrs} {v : Option String} : TextOrChildren (.mk t a v []) := by
  rw [TextOrChildren]
  exact ⟨fun _ => rfl, toc_iff.mpr nofun⟩

mutual
theorem toc_reload (n : Node) : TextOrChildren (reload n) := by
  match n with
  | .mk tag attrs (some v) cs => rw [reload]; exact toc_leaf
  | .mk tag attrs none cs =>
    rw [reload, TextOrChildren]
    exact ⟨fun h => absurd rfl h, toc_reloads cs⟩
theorem toc_reloads (cs : List Node) : TextOrChildrens (reloads cs) := by
  match cs with
  | [] => rw [reloads, TextOrChildrens]; trivial
  | c :: cs => rw [reloads, TextOrChildrens]; exact ⟨toc_reload c, toc_reloads cs⟩
end

theorem toc_cell {r : Nat} {kv : Nat × CellProps} {n : Node} (h : cellNode r kv = .ok n) : TextOrChildren n := by
  unfold cellNode at h
  split at h
  · cases h
  · cases h
    refine toc_mk fun c hc => ?_
    unfold cellChildren at hc
    split at hc
    · rw [List.mem_singleton] at hc
      subst hc
      refine toc_mk fun c hc => ?_
      rw [List.mem_singleton] at hc
      subst hc
      exact toc_leaf
    · rcases List.mem_append.mp hc with hc | hc
      · split at hc
        · cases hc
        · rw [List.mem_singleton] at hc; subst hc; exact toc_leaf
      · rw [List.mem_singleton] at hc; subst hc; exact toc_leaf

theorem toc_row {kv : Nat × RowData} {n : Node} (h : rowNode kv = .ok n) : TextOrChildren n := by
  unfold rowNode at h
  split at h
  · cases h
  · rename_i cs hcs
    cases h
    refine toc_mk fun c hc => ?_
    obtain ⟨x, _, e⟩ := mapRes_mem hcs c hc
    exact toc_cell e

theorem toc_sheet {s : Sheet} {xd : XDoc} (h : s.save bareDoc = .ok xd) {root : Node} (hroot : xd.root = some root) : TextOrChildren root := by
  obtain ⟨ref, root0, rows, _, h2, h3, rfl⟩ := save_ok h
  cases h2
  have hr : root = .mk "worksheet" (some []) none (placeSheetParts ref s.cols s.views rows []) := by
    unfold XDoc.mapRootChildren at hroot
    rw [(wf_bareDoc asciiOnly).isRoot] at hroot
    cases hroot
    rfl
  subst hr
  refine toc_mk fun c hc => ?_
  have hm : c ∈ (placeSheetParts ref s.cols s.views rows []).filter (fun n => n.tag = c.tag) := List.mem_filter.mpr ⟨hc, by simp⟩
  rw [place_filter _ _ _ _ _ (by simp)] at hm
  split at hm
  · rw [List.mem_singleton] at hm; rw [hm]; exact toc_leaf
  split at hm
  · unfold colsNodes at hm
    split at hm
    · rw [List.mem_singleton] at hm
      rw [hm]
      refine toc_mk fun c hc => ?_
      obtain ⟨x, _, rfl⟩ := List.mem_map.mp hc
      exact toc_leaf
    · cases hm
  split at hm
  · rw [List.mem_singleton] at hm
    rw [hm]
    refine toc_mk fun c hc => ?_
    obtain ⟨x, _, rfl⟩ := List.mem_map.mp hc
    exact toc_leaf
  split at hm
  · unfold dataNodes at hm
    split at hm
    · rename_i ns
      rw [List.mem_singleton] at hm
      rw [hm]
      refine toc_mk fun c hc => ?_
      cases hd : s.data with
      | none => rw [hd] at h3; cases h3
      | some d =>
        rw [hd] at h3
        obtain ⟨ns', e', hm⟩ := h3
        cases e'
        obtain ⟨kv, _, e⟩ := mapRes_mem hm c hc
        exact toc_row e
    · cases hm
  · cases hm

theorem toc_seen {s : Sheet} {xd : XDoc} (h : s.save bareDoc = .ok xd) {root : Node} (hroot : xd.root = some root) (b : Bool) : TextOrChildren (seenNode b root) := by
  cases b
  · exact toc_sheet h hroot
  · exact toc_reload root

theorem toc_si (t : String) : TextOrChildren (siNode t) := by
  refine toc_mk fun c hc => ?_
  rw [List.mem_singleton] at hc
  subst hc
  exact toc_leaf

/-! ## Reading clean documents -/

theorem DocX.reads {x : XDoc} (h : DocX x) {root : Node} (hr : x.root = some root) (ht : TextOrChildren root) {b : Build} {stamp : List Char}
    (hs : b.release = true → StampXml stamp) {item : Item} (hi : IsDocument (renderDoc b stamp x) item) :
    ShowsRoot Reading.xml (releaseNs b x.ns) root item ∧ DistinctAttrs root := by
  obtain ⟨t, a, cs, h1, h2, h3, h4⟩ := h
  have e := h1.isRoot
  rw [hr] at e
  cases e
  have hx := ready_wf b h1 h2 (nodeX_mk h3 h4)
  rw [document_unique hi (document_write b stamp x _ hr hx hs)]
  exact ⟨shows_root b x.ns _ ht, hx.distinct⟩

/-- The document a sheet is saved to, or that document read again. -/
def seenDoc (again : Bool) (b : Build) (x : XDoc) : XDoc := if again then reloadDoc b x else x

theorem DocX.seen {x : XDoc} (h : DocX x) (again : Bool) (b : Build) : DocX (seenDoc again b x) := by
  cases again
  · exact h
  · exact h.reload b

theorem seenDoc_root {x : XDoc} {root : Node} (h : x.root = some root) (again : Bool) (b : Build) : (seenDoc again b x).root = some (seenNode again root) := by
  cases again
  · exact h
  · simp [seenDoc, reloadDoc, seenNode, h]

/-- The cells found in the part of a saved sheet. -/
theorem sheet_cells {s : Sheet} {xd : XDoc} (h : s.save bareDoc = .ok xd) (hx : DocX xd) {b : Build} {stamp : List Char} (hs : b.release = true → StampXml stamp)
    {again : Bool} {item : Item} (hi : IsDocument (renderDoc b stamp (seenDoc again b xd)) item) :
    seenCells item = (cellPlaces s).map (fun p => seenOf again p.1 p.2.1 p.2.2) := by
  obtain ⟨root, hr⟩ : ∃ root, xd.root = some root := by
    obtain ⟨t, a, cs, h1, _⟩ := hx
    exact ⟨_, h1.isRoot⟩
  obtain ⟨h1, h2⟩ := (hx.seen again b).reads (seenDoc_root hr again b) (toc_seen h hr again) hs hi
  exact cells_seen h hr h1 h2

/-- The strings found in the part of the saved string table. -/
theorem table_strings {table : List String} (hx : ∀ t ∈ table, XmlChars t) {b : Build} {stamp : List Char} (hs : b.release = true → StampXml stamp)
    {item : Item} (hi : IsDocument (renderDoc b stamp (stringsSaved table)) item) : sharedStrings item = table.map (fun t => lineEnds t.toList) := by
  have hr : (stringsSaved table).root = some (.mk "sst" (some [("count", toString table.length), ("uniqueCount", toString (distinctCount table))]) none (table.map siNode)) := rfl
  refine strings_seen hr ((docX_strings hx).reads hr (toc_mk fun c hc => ?_) hs hi).1
  obtain ⟨t, _, rfl⟩ := List.mem_map.mp hc
  exact toc_si t

theorem docX_stringsTemplate : DocX stringsTemplate.doc :=
  docX_template (by decide +kernel) ⟨xlit (by decide +kernel), by decide +kernel, by decide +kernel⟩ (by decide +kernel)

/-- No strings in the part the library starts with. -/
theorem template_strings {b : Build} {stamp : List Char} (hs : b.release = true → StampXml stamp)
    {item : Item} (hi : IsDocument (renderDoc b stamp stringsTemplate.doc) item) : sharedStrings item = [] := by
  obtain ⟨root, hr, hc⟩ : ∃ root, stringsTemplate.doc.root = some root ∧ root = .mk "sst" (some []) none [] := ⟨_, rfl, rfl⟩
  subst hc
  have hk := showsRoot_kids "si" (docX_stringsTemplate.reads hr toc_leaf hs hi).1
  have : item.kids "si" = [] := by
    cases hl : item.kids "si" with
    | nil => rfl
    | cons i l => rw [hl] at hk; simp [ShowsAll, Node.children] at hk
  unfold sharedStrings
  rw [this]
  rfl

end Oxml
