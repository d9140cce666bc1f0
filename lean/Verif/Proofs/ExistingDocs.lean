import Verif.Proofs.ExistingRels
/-!
# The saved parts of an existing file, read back
-/
namespace Oxml
open Spec

/-- Opening a file, a history and saving: what was opened and what is saved. -/
theorem saved_base {env : Env} {theme : XDoc} {z z' : Zip} {ops : List WbOp} {x : Excel} {s : Session} {now : String} {exts : List (String × String)}
    (hz : (akeys z).Nodup) (hr : RanOn env theme z ops x s) (hs : s.x.toZip env now exts = .ok z') :
    ∃ p o1 o2 o3 o4 o5 o6 o7 o8 r1 r2 q d1 d2 d3 d4 d6 d7 d8 keep keep0, Pkg.ofZip env z = .ok p ∧
      BookOpen env theme p x o1 o2 o3 o4 o5 o6 o7 o8 r1 r2 ∧ q.toZip env exts = .ok z' ∧
      WritesParts now s.x { o1 with doc := (loadRels o1.doc).2 } o2 { o3 with doc := (loadBook o3.doc).2 } { o4 with doc := (loadRels o4.doc).2 }
        { o6 with doc := (loadStrings o6.doc).2 } { o7 with doc := (loadCalc o7.doc).2 } { o8 with doc := (Styles.load o8.doc).2 }
        d1 d2 d3 d4 d6 d7 d8 keep keep0 ∧
      SavedAs env s.x s.x.pkg q { o1 with doc := (loadRels o1.doc).2 } o2 { o3 with doc := (loadBook o3.doc).2 } { o4 with doc := (loadRels o4.doc).2 } o5
        { o6 with doc := (loadStrings o6.doc).2 } { o7 with doc := (loadCalc o7.doc).2 } { o8 with doc := (Styles.load o8.doc).2 }
        d1 d2 d3 d4 d6 d7 d8 ∧
      ownPairs s.x = ownPairs x ∧ ∀ n ∈ ownParts x, n ≠ contentTypesName := by
  obtain ⟨ho, hrun⟩ := hr
  obtain ⟨p, o1, o2, o3, o4, o5, o6, o7, o8, r1, r2, hp, hb⟩ := openFile_book hz ho
  obtain ⟨hown, A⟩ := opened_docs hb hrun
  unfold Excel.toZip at hs
  split at hs
  · cases hs
  · next q e =>
    obtain ⟨d1, d2, d3, d4, d6, d7, d8, keep, keep0, W, S⟩ := saved_all A e
    refine ⟨p, o1, o2, o3, o4, o5, o6, o7, o8, r1, r2, q, d1, d2, d3, d4, d6, d7, d8, keep, keep0, hp, hb, hs, W, S, hown, ?_⟩
    intro n hn he
    subst he
    apply (toZip_ok hs).1
    rw [ownParts_pairs, ← hown, ← ownParts_pairs] at hn
    simp only [ownParts, List.mem_cons, List.not_mem_nil, or_false] at hn
    rcases hn with h | h | h | h | h | h | h | h <;> rw [h]
    · exact mem_akeys_of_aget S.root
    · exact mem_akeys_of_aget S.core
    · exact mem_akeys_of_aget S.book
    · exact mem_akeys_of_aget S.rels
    · exact mem_akeys_of_aget S.theme
    · exact mem_akeys_of_aget S.strings
    · exact mem_akeys_of_aget S.chain
    · exact mem_akeys_of_aget S.styles

/-- The document of a saved part. -/
theorem saved_doc {env : Env} {q : Pkg} {z' : Zip} {exts : List (String × String)} (hq : q.toZip env exts = .ok z') {n : String} (hn : n ≠ contentTypesName)
    {o : OpenDoc} {d : XDoc} (hs : aget n q.archive = some (o.entry env d)) {dd : XmlDoc} (hr : readXml env.uni (renderDoc env.build env.stamp d) = .ok dd) :
    zipDoc env z' n = some dd.toXDoc := by
  apply zipDoc_eq (c := renderDoc env.build env.stamp d) _ hr
  rw [toZip_aget hq hn, hs]; rfl

/-- The sheet elements of any saved workbook document. -/
theorem sheetLines_reload (env : Env) {sheets : List SheetEntry} {view : Option BookView} {x : XDoc} {t : String} {a : Option Attrs} {cs : List Node}
    (hx : WfDoc env.uni x (.mk t a none cs)) (hc : ∀ n ∈ cs, n.tag ∉ bookTags) :
    sheetLines (reloadDoc env.build (x.mapRootChildren (placeBook sheets view))) = writtenLines sheets := by
  obtain ⟨hw, hch, hne⟩ := wf_savedBook env.uni (sheets := sheets) (view := view) hx hc
  have hroot : (reloadDoc env.build (x.mapRootChildren (placeBook sheets view))).root = some (reload (.mk t a none (placeBook sheets view cs))) := by
    unfold reloadDoc; rw [hw.isRoot]; rfl
  have h1 : sheetElements (reloadDoc env.build (x.mapRootChildren (placeBook sheets view))) = (sheetNodes 1 sheets).map reload := by
    unfold sheetElements XDoc.rootChildren
    rw [hroot]
    simp only
    rw [reload_children_of_none rfl]
    simp only [Node.children]
    rw [filter_reload, placeBook_filter _ _ _ hc, if_neg (by decide), if_pos rfl]
    simp only [List.map_cons, List.map_nil, List.flatMap_cons, List.flatMap_nil, List.append_nil]
    rw [reload_children_of_none rfl]
    rfl
  unfold sheetLines writtenLines
  rw [h1]
  clear h1 hroot hw hch hne
  generalize 1 = k
  induction sheets generalizing k with
  | nil => rfl
  | cons e es ih =>
    have hr := fun key => reload_attr (wf_sheetNode env.uni k e) key
    obtain ⟨a1, a2, a3, a4⟩ := sheetNode_attrs k e
    rw [sheetNodes, List.map_cons, List.map_cons, hr, hr, hr, hr, a1, a2, a3, a4, List.zipIdx_cons, List.map_cons, ih]
    congr 1
    have e2 : escStr (toString k) = toString k := escStr_eq_self (noSpecials_nat k)
    simp only [Option.map_some, e2]
    refine congrArg _ (congrArg _ (congrArg _ ?_))
    cases e.hide <;> decide +kernel

end Oxml
