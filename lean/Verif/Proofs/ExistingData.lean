import Verif.Proofs.ExistingDocs
import Verif.Proofs.StylesFit
/-!
# The documents of the workbook's own parts in a saved existing file
-/
namespace Oxml
open Spec

theorem own_paths {x y : Excel} (h : ownPairs y = ownPairs x) : y.rootRels.path = x.rootRels.path ∧ y.core.path = x.core.path ∧ y.book.path = x.book.path ∧
    y.rels.path = x.rels.path ∧ y.theme.path = x.theme.path ∧ y.strings.path = x.strings.path ∧ y.chain.path = x.chain.path ∧
    y.styles.path = x.styles.path := by
  simp only [ownPairs, List.cons.injEq, Prod.mk.injEq, and_true] at h
  obtain ⟨⟨h1, _⟩, ⟨h2, _⟩, ⟨h3, _⟩, ⟨h4, _⟩, ⟨h5, _⟩, ⟨h6, _⟩, ⟨h7, _⟩, h8, _⟩ := h
  exact ⟨h1, h2, h3, h4, h5, h6, h7, h8⟩

section
variable {env : Env} {theme : XDoc} {z z' : Zip} {ops : List WbOp} {x : Excel} {s : Session} {now : String} {exts : List (String × String)}

theorem saved_book_doc (hst : env.build.release = true → StampOk env.stamp) (hz : (akeys z).Nodup) (hr : RanOn env theme z ops x s) (ht : TidyParts env z x)
    (hs : s.x.toZip env now exts = .ok z') : ∃ d, zipDoc env z' x.book.path = some d ∧ sheetLines d = writtenLines s.x.sheets ∧
      (loadBook d).1 = .ok (s.x.sheets.map reloadSheetEntry, s.x.view.map reloadBookView) := by
  obtain ⟨p, o1, o2, o3, o4, o5, o6, o7, o8, r1, r2, q, d1, d2, d3, d4, d6, d7, d8, keep, keep0, hp, hb, hq, W, S, hown, hct⟩ := saved_base hz hr hs
  obtain ⟨-, -, e3, -⟩ := own_paths hown
  have hn : x.book.path ∈ ownParts x := by simp [ownParts]
  obtain ⟨t, a, cs, hw, hc⟩ := book_wf (own_wf hp (hct _ hn) hb.bookSource ⟨_, _, _, wf_workbookDoc env.uni⟩ (ht _ hn)) hb.bookLoad
  have hfit := loadBook_fit hb.bookLoad
  have hfit' : FitsBook s.x.view := by
    refine session_view (s := ⟨x, []⟩) ?_ hr.2
    exact hfit
  obtain ⟨x', dd, g1, g2, g3, g4⟩ := reload_book env hst (sheets := s.x.sheets) (view := s.x.view) hfit' hw hc
  have : x' = d3 := Except.ok.inj (g1.symm.trans W.book)
  subst this
  refine ⟨_, saved_doc hq (hct _ hn) (e3 ▸ S.book) g2, ?_, g4⟩
  rw [g3]
  have : x' = (loadBook o3.doc).2.mapRootChildren (placeBook s.x.sheets s.x.view) := Except.ok.inj (g1.symm.trans (saveBook_ok hw.isRoot))
  rw [this]
  exact sheetLines_reload env hw hc

theorem saved_strings_doc (hst : env.build.release = true → StampOk env.stamp) (hz : (akeys z).Nodup) (hr : RanOn env theme z ops x s) (ht : TidyParts env z x)
    (hs : s.x.toZip env now exts = .ok z') (hne : s.x.strings.data ≠ []) : ∃ d, zipDoc env z' x.strings.path = some d ∧
      (loadStrings d).1 = s.x.strings.data.map (fun s => (reloadText s).getD "") ∧
      (stringItems d).map siText = s.x.strings.data.map (fun s => (reloadText s).getD "") := by
  obtain ⟨p, o1, o2, o3, o4, o5, o6, o7, o8, r1, r2, q, d1, d2, d3, d4, d6, d7, d8, keep, keep0, hp, hb, hq, W, S, hown, hct⟩ := saved_base hz hr hs
  obtain ⟨-, -, -, -, -, e6, -⟩ := own_paths hown
  have hn : x.strings.path ∈ ownParts x := by simp [ownParts]
  obtain ⟨t, a, cs, hw, hc⟩ := (own_wf hp (hct _ hn) hb.strSource ⟨_, _, _, wf_stringsTemplate env.uni⟩ (ht _ hn)).pop "si"
  obtain ⟨x', dd, g1, g2, g3⟩ := strings_readable env hst hw hc s.x.strings.data hne
  have h6 := W.strings
  rw [if_neg hne] at h6
  have : x' = d6 := Except.ok.inj (g1.symm.trans h6)
  subst this
  exact ⟨_, saved_doc hq (hct _ hn) (e6 ▸ S.strings) g2, g3⟩

theorem saved_chain_doc (hst : env.build.release = true → StampOk env.stamp) (hz : (akeys z).Nodup) (hr : RanOn env theme z ops x s) (ht : TidyParts env z x)
    (hs : s.x.toZip env now exts = .ok z') (hne : s.x.chain.data ≠ []) : ∃ d, zipDoc env z' x.chain.path = some d ∧
      (loadCalc d).1 = .ok (s.x.chain.data.map reloadEntry) := by
  obtain ⟨p, o1, o2, o3, o4, o5, o6, o7, o8, r1, r2, q, d1, d2, d3, d4, d6, d7, d8, keep, keep0, hp, hb, hq, W, S, hown, hct⟩ := saved_base hz hr hs
  obtain ⟨-, -, -, -, -, -, e7, -⟩ := own_paths hown
  have hn : x.chain.path ∈ ownParts x := by simp [ownParts]
  obtain ⟨t, a, cs, hw, hc⟩ := (own_wf hp (hct _ hn) hb.calcSource ⟨_, _, _, wf_calcTemplate env.uni⟩ (ht _ hn)).pop "c"
  obtain ⟨x', dd, g1, g2, g3⟩ := calc_reload env hst hw hc s.x.chain.data hne
  have h7 := W.chain
  rw [if_neg hne] at h7
  have : x' = d7 := Except.ok.inj (g1.symm.trans h7)
  subst this
  exact ⟨_, saved_doc hq (hct _ hn) (e7 ▸ S.chain) g2, g3⟩

theorem saved_styles_doc (hst : env.build.release = true → StampOk env.stamp) (hz : (akeys z).Nodup) (hr : RanOn env theme z ops x s) (ht : TidyParts env z x)
    (hs : s.x.toZip env now exts = .ok z') (hf : SizesFit ops) : ∃ d, zipDoc env z' x.styles.path = some d ∧
      (Styles.load d).1 = .ok (reloadStyles s.x.styles.data) := by
  obtain ⟨p, o1, o2, o3, o4, o5, o6, o7, o8, r1, r2, q, d1, d2, d3, d4, d6, d7, d8, keep, keep0, hp, hb, hq, W, S, hown, hct⟩ := saved_base hz hr hs
  obtain ⟨-, -, -, -, -, -, -, e8⟩ := own_paths hown
  have hn : x.styles.path ∈ ownParts x := by simp [ownParts]
  obtain ⟨t, a, cs, hw, hc⟩ := styles_wf (own_wf hp (hct _ hn) hb.styleSource (wf_styleDoc env.uni) (ht _ hn)) hb.styleLoad
  have hfit := (session_fits (s := ⟨x, []⟩) hf ⟨loadBook_fit hb.bookLoad, load_fit hb.styleLoad⟩ hr.2).2
  obtain ⟨dd, g2, _, g3⟩ := reload_styles env hst hfit hw hc W.styles
  exact ⟨_, saved_doc hq (hct _ hn) (e8 ▸ S.styles) g2, g3⟩

theorem saved_rels_doc (hst : env.build.release = true → StampOk env.stamp) (hz : (akeys z).Nodup) (hr : RanOn env theme z ops x s) (ht : TidyParts env z x)
    (hs : s.x.toZip env now exts = .ok z') (hne : finalRels s.x ≠ []) : ∃ d, zipDoc env z' x.rels.path = some d ∧
      (loadRels d).1 = .ok ((finalRels s.x).map escRel) := by
  obtain ⟨p, o1, o2, o3, o4, o5, o6, o7, o8, r1, r2, q, d1, d2, d3, d4, d6, d7, d8, keep, keep0, hp, hb, hq, W, S, hown, hct⟩ := saved_base hz hr hs
  obtain ⟨-, -, -, e4, -⟩ := own_paths hown
  have hn : x.rels.path ∈ ownParts x := by simp [ownParts]
  obtain ⟨t, a, cs, hw, hc⟩ := (own_wf hp (hct _ hn) hb.relSource ⟨_, _, _, wf_relsTemplate env.uni⟩ (ht _ hn)).pop "Relationship"
  obtain ⟨x', dd, g1, g2, g3, _⟩ := rels_reload env hst hw hc (finalRels s.x) hne
  have : x' = d4 := (Prod.mk.inj (Except.ok.inj (g1.symm.trans W.rels))).1
  subst this
  exact ⟨_, saved_doc hq (hct _ hn) (e4 ▸ S.rels) g2, by rw [g3]⟩

theorem saved_root_doc (hst : env.build.release = true → StampOk env.stamp) (hz : (akeys z).Nodup) (hr : RanOn env theme z ops x s) (ht : TidyParts env z x)
    (hs : s.x.toZip env now exts = .ok z') (hne : s.x.rootRels.rels ≠ []) : ∃ d, zipDoc env z' "_rels/.rels" = some d ∧
      (loadRels d).1 = .ok (s.x.rootRels.rels.map escRel) := by
  obtain ⟨p, o1, o2, o3, o4, o5, o6, o7, o8, r1, r2, q, d1, d2, d3, d4, d6, d7, d8, keep, keep0, hp, hb, hq, W, S, hown, hct⟩ := saved_base hz hr hs
  obtain ⟨e1, -⟩ := own_paths hown
  have hn : "_rels/.rels" ∈ ownParts x := by simp [ownParts, hb.rootPath]
  obtain ⟨t, a, cs, hw, hc⟩ := (own_wf hp (hct _ hn) hb.rootSource ⟨_, _, _, wf_relsTemplate env.uni⟩ (ht _ hn)).pop "Relationship"
  obtain ⟨x', dd, g1, g2, g3, _⟩ := rels_reload env hst hw hc s.x.rootRels.rels hne
  have : x' = d1 := (Prod.mk.inj (Except.ok.inj (g1.symm.trans W.root))).1
  subst this
  exact ⟨_, saved_doc hq (hct _ hn) ((e1.trans hb.rootPath) ▸ S.root) g2, by rw [g3]⟩

/-- An own part nothing is written to besides what the file had: readable again if its root had children. -/
theorem saved_theme_doc (hst : env.build.release = true → StampOk env.stamp) (hz : (akeys z).Nodup) (hr : RanOn env theme z ops x s) (ht : TidyParts env z x)
    (hs : s.x.toZip env now exts = .ok z') (hth : WfRoot env.uni theme) (hthc : theme.rootChildren ≠ [])
    (hne : ∀ d, zipDoc env z x.theme.path = some d → d.rootChildren ≠ []) : ∃ d, zipDoc env z' x.theme.path = some d := by
  obtain ⟨p, o1, o2, o3, o4, o5, o6, o7, o8, r1, r2, q, d1, d2, d3, d4, d6, d7, d8, keep, keep0, hp, hb, hq, W, S, hown, hct⟩ := saved_base hz hr hs
  obtain ⟨-, -, -, -, e5, -⟩ := own_paths hown
  have hn : x.theme.path ∈ ownParts x := by simp [ownParts]
  obtain ⟨t, a, cs, hw⟩ := own_wf hp (hct _ hn) hb.themeSource hth (ht _ hn)
  have hch : o5.doc.rootChildren ≠ [] := by
    rcases source_zip hp (hct _ hn) hb.themeSource with ⟨_, h2⟩ | ⟨c, d, h1, h2, h3⟩
    · rw [h2]; exact hthc
    · rw [h3]; exact hne _ (zipDoc_eq h1 h2)
  have hcs : cs ≠ [] := by
    unfold XDoc.rootChildren at hch
    rw [hw.isRoot] at hch
    exact hch
  obtain ⟨dd, g2, _⟩ := read_doc env hst hw hcs
  exact ⟨_, saved_doc hq (hct _ hn) (e5 ▸ S.theme) g2⟩

theorem saved_core_doc (hst : env.build.release = true → StampOk env.stamp) (hz : (akeys z).Nodup) (hr : RanOn env theme z ops x s) (ht : TidyParts env z x)
    (hs : s.x.toZip env now exts = .ok z') (hne : ∀ d, zipDoc env z x.core.path = some d → d.rootChildren ≠ []) :
    ∃ d, zipDoc env z' x.core.path = some d := by
  obtain ⟨p, o1, o2, o3, o4, o5, o6, o7, o8, r1, r2, q, d1, d2, d3, d4, d6, d7, d8, keep, keep0, hp, hb, hq, W, S, hown, hct⟩ := saved_base hz hr hs
  obtain ⟨-, e2, -⟩ := own_paths hown
  have hn : x.core.path ∈ ownParts x := by simp [ownParts]
  have hw := own_wf hp (hct _ hn) hb.coreSource (wf_coreDoc env.uni) (ht _ hn)
  have hch : o2.doc.rootChildren ≠ [] := by
    rcases source_zip hp (hct _ hn) hb.coreSource with ⟨_, h2⟩ | ⟨c, d, h1, h2, h3⟩
    · rw [h2]; intro h; cases h
    · rw [h3]; exact hne _ (zipDoc_eq h1 h2)
  obtain ⟨dd, g2⟩ := core_readable env hst hw hch W.core
  exact ⟨_, saved_doc hq (hct _ hn) (e2 ▸ S.core) g2⟩

end
end Oxml
