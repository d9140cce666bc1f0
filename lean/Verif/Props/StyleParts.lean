import Verif.Props.Style
import Verif.Spec.StyleParts
/-!
# Saved style parts are consistent (C72, C73)
-/
namespace Oxml
open Spec

theorem Styles.load_rest {x x1 : XDoc} {st : Styles} (h : Styles.load x = (.ok st, x1)) :
    x1 = x.mapRootChildren (fun cs => cs.filter (fun n => n.tag ∉ styleTags)) := by
  unfold Styles.load at h
  split at h <;> first | (cases h; rfl) | cases h

/-- What saving puts into the document styles were loaded from. -/
theorem save_children {x x1 x2 : XDoc} {st st' : Styles} (hl : Styles.load x = (.ok st, x1)) (hs : st'.save x1 = .ok x2) :
    ∃ cs, (∀ n ∈ cs, n.tag ∉ styleTags) ∧ x2.rootChildren = [countedNode "numFmts" (st'.numFmts.map numFmtNode), countedNode "fonts" (st'.fonts.map fontNode),
      countedNode "fills" (st'.fills.map fillNode), countedNode "borders" (st'.borders.map borderNode),
      countedNode "cellStyleXfs" (st'.styleXfs.map (xfNode false)), countedNode "cellXfs" (st'.xfs.map (xfNode true))] ++ cs := by
  have e1 := Styles.load_rest hl
  unfold Styles.save at hs
  cases hr : x.root with
  | none =>
    rw [e1] at hs
    simp [XDoc.mapRootChildren, hr] at hs
  | some root =>
    have e2 : x1.rootChildren = x.rootChildren.filter (fun n => n.tag ∉ styleTags) := by rw [e1]; exact rootChildren_mapRoot hr _
    have hx1 : ∃ r1, x1.root = some r1 := by rw [e1]; simp [XDoc.mapRootChildren, hr]
    obtain ⟨r1, hr1⟩ := hx1
    rw [hr1] at hs
    cases hs
    refine ⟨x1.rootChildren, ?_, ?_⟩
    · intro n hn
      rw [e2, List.mem_filter] at hn
      simpa using hn.2
    · rw [rootChildren_mapRoot hr1]
      apply placeStyles_eq
      intro n hn
      rw [e2, List.mem_filter] at hn
      simpa using hn.2

theorem filter_rest {cs : List Node} (hc : ∀ n ∈ cs, n.tag ∉ styleTags) {t : String} (ht : t ∈ styleTags) : cs.filter (fun c => c.tag = t) = [] := by
  rw [List.filter_eq_nil_iff]
  intro n hn he
  exact hc n hn (by rw [of_decide_eq_true he]; exact ht)

theorem saved_tables {x x1 x2 : XDoc} {st st' : Styles} (hl : Styles.load x = (.ok st, x1)) (hs : st'.save x1 = .ok x2) :
    OnlyTable x2 "numFmts" (countedNode "numFmts" (st'.numFmts.map numFmtNode)) ∧ OnlyTable x2 "fonts" (countedNode "fonts" (st'.fonts.map fontNode)) ∧
    OnlyTable x2 "fills" (countedNode "fills" (st'.fills.map fillNode)) ∧ OnlyTable x2 "borders" (countedNode "borders" (st'.borders.map borderNode)) ∧
    OnlyTable x2 "cellStyleXfs" (countedNode "cellStyleXfs" (st'.styleXfs.map (xfNode false))) ∧
    OnlyTable x2 "cellXfs" (countedNode "cellXfs" (st'.xfs.map (xfNode true))) := by
  obtain ⟨cs, hc, e⟩ := save_children hl hs
  unfold OnlyTable
  rw [e]
  refine ⟨?_, ?_, ?_, ?_, ?_, ?_⟩ <;> (rw [List.filter_append, filter_rest hc (by decide)]; simp [countedNode, Node.tag, List.filter])

/-- **C72.** After loading any style part, any requests and saving, each of the six tables is in the part exactly once and announces
the number of its entries. -/
theorem C72_counts (b : Build) (hs : Hashes) (x x1 x2 : XDoc) (st : Styles) (reqs : List StyleSetting) (hl : Styles.load x = (.ok st, x1))
    (h : (requests b hs st reqs).save x1 = .ok x2) (tag : String) (ht : tag ∈ styleTags) : ∃ n, OnlyTable x2 tag n ∧ Counted n := by
  obtain ⟨h1, h2, h3, h4, h5, h6⟩ := saved_tables hl h
  have hc : ∀ t cs, Counted (countedNode t cs) := fun t cs => rfl
  simp only [styleTags, List.mem_cons, List.not_mem_nil, or_false] at ht
  rcases ht with rfl | rfl | rfl | rfl | rfl | rfl
  · exact ⟨_, h1, hc _ _⟩
  · exact ⟨_, h2, hc _ _⟩
  · exact ⟨_, h3, hc _ _⟩
  · exact ⟨_, h4, hc _ _⟩
  · exact ⟨_, h5, hc _ _⟩
  · exact ⟨_, h6, hc _ _⟩

/-- **C72.** The tables have exactly the entries in memory. -/
theorem C72_entries (x x1 x2 : XDoc) (st st' : Styles) (hl : Styles.load x = (.ok st, x1)) (h : st'.save x1 = .ok x2) :
    ∃ numFmts fonts fills borders parents cells, OnlyTable x2 "numFmts" numFmts ∧ OnlyTable x2 "fonts" fonts ∧ OnlyTable x2 "fills" fills ∧
      OnlyTable x2 "borders" borders ∧ OnlyTable x2 "cellStyleXfs" parents ∧ OnlyTable x2 "cellXfs" cells ∧
      numFmts.children.length = st'.numFmts.length ∧ fonts.children.length = st'.fonts.length ∧ fills.children.length = st'.fills.length ∧
      borders.children.length = st'.borders.length ∧ parents.children.length = st'.styleXfs.length ∧ cells.children.length = st'.xfs.length := by
  obtain ⟨h1, h2, h3, h4, h5, h6⟩ := saved_tables hl h
  exact ⟨_, _, _, _, _, _, h1, h2, h3, h4, h5, h6, List.length_map .., List.length_map .., List.length_map .., List.length_map .., List.length_map ..,
    List.length_map ..⟩

/-! ## C73 -/

theorem findOrPush_bound {α : Type} (h : α → Nat) (l : List α) (x : α) : (findOrPush h l x).2 < (findOrPush h l x).1.length := by
  unfold findOrPush
  split
  · rename_i i hi
    exact (List.findIdx?_eq_some_iff_findIdx_eq.mp hi).1
  · simp

theorem findOrPush_grows {α : Type} (h : α → Nat) (l : List α) (x : α) : l.length ≤ (findOrPush h l x).1.length := by
  unfold findOrPush
  split <;> simp

theorem findOrPush_mem {α : Type} {h : α → Nat} {l : List α} {x y : α} (hy : y ∈ (findOrPush h l x).1) : y ∈ l ∨ y = x := by
  unfold findOrPush at hy
  split at hy
  · exact .inl hy
  · simpa using hy

theorem asU16_lt {n m : Nat} (h : n < m) : asU16 n < m := Nat.lt_of_le_of_lt (Nat.mod_le _ _) h

theorem tablesPoint_request {b : Build} {hs : Hashes} {st st' : Styles} {s : StyleSetting} {id : Nat} (hp : TablesPoint st)
    (h : getStyleId b hs st s = .ok (st', id)) : TablesPoint st' ∧ id < st'.xfs.length := by
  unfold getStyleId at h
  split at h
  · cases h
  · rename_i nf n a hn
    cases h
    refine ⟨⟨?_, ?_⟩, Nat.lt_of_le_of_lt (Nat.mod_le _ _) (findOrPush_bound _ _ _)⟩
    · intro f hf
      have hnew : ∀ g : Xf, g.fontId = (requestedXf hs st s n a).fontId → g.fillId = (requestedXf hs st s n a).fillId →
          g.borderId = (requestedXf hs st s n a).borderId → g.fontId < (findOrPush hs.font st.fonts s.font).1.length ∧
          g.fillId < (findOrPush hs.fill st.fills s.fill).1.length ∧ g.borderId < (findOrPush hs.border st.borders s.border).1.length := by
        intro g h1 h2 h3
        rw [h1, h2, h3]
        exact ⟨asU16_lt (findOrPush_bound _ _ _), asU16_lt (findOrPush_bound _ _ _), asU16_lt (findOrPush_bound _ _ _)⟩
      have hold : ∀ g : Xf, g ∈ st.styleXfs ++ st.xfs → g.fontId < (findOrPush hs.font st.fonts s.font).1.length ∧
          g.fillId < (findOrPush hs.fill st.fills s.fill).1.length ∧ g.borderId < (findOrPush hs.border st.borders s.border).1.length := by
        intro g hg
        obtain ⟨h1, h2, h3⟩ := hp.1 g hg
        exact ⟨Nat.lt_of_lt_of_le h1 (findOrPush_grows _ _ _), Nat.lt_of_lt_of_le h2 (findOrPush_grows _ _ _), Nat.lt_of_lt_of_le h3 (findOrPush_grows _ _ _)⟩
      rcases List.mem_append.mp hf with hf | hf
      · rcases findOrPush_mem hf with hf | rfl
        · exact hold f (List.mem_append_left _ hf)
        · exact hnew _ rfl rfl rfl
      · rcases findOrPush_mem hf with hf | rfl
        · exact hold f (List.mem_append_right _ hf)
        · exact hnew _ rfl rfl rfl
    · intro f hf
      rcases findOrPush_mem hf with hf | rfl
      · exact Nat.lt_of_lt_of_le (hp.2 f hf) (findOrPush_grows _ _ _)
      · exact asU16_lt (findOrPush_bound _ _ _)

theorem tablesPoint_requests (b : Build) (hs : Hashes) (reqs : List StyleSetting) (st : Styles) (hp : TablesPoint st) : TablesPoint (requests b hs st reqs) := by
  induction reqs generalizing st with
  | nil => exact hp
  | cons s rest ih =>
    unfold requests
    split
    · exact ih st hp
    · rename_i h
      exact ih _ (tablesPoint_request hp h).1

theorem xfNode_ids (w : Bool) (f : Xf) : (xfNode w f).attr? "fontId" = some (toString f.fontId) ∧ (xfNode w f).attr? "fillId" = some (toString f.fillId) ∧
    (xfNode w f).attr? "borderId" = some (toString f.borderId) := by
  cases w <;> exact ⟨rfl, rfl, rfl⟩

/-- **C73.** In a style part saved after any requests, for any hash function and any number of entries, every format points to
entries of the part if those loaded did. -/
theorem C73_loaded (b : Build) (hs : Hashes) (x x1 x2 : XDoc) (st : Styles) (reqs : List StyleSetting) (hl : Styles.load x = (.ok st, x1))
    (hp : TablesPoint st) (h : (requests b hs st reqs).save x1 = .ok x2) : RefsPoint x2 := by
  obtain ⟨_, h2, h3, h4, h5, h6⟩ := saved_tables hl h
  obtain ⟨p1, p2⟩ := tablesPoint_requests b hs reqs st hp
  refine ⟨_, _, _, _, _, h2, h3, h4, h5, h6, ?_, ?_⟩
  · have key : ∀ w f, f ∈ (requests b hs st reqs).styleXfs ++ (requests b hs st reqs).xfs →
        Points (xfNode w f) "fontId" (countedNode "fonts" ((requests b hs st reqs).fonts.map fontNode)) ∧
        Points (xfNode w f) "fillId" (countedNode "fills" ((requests b hs st reqs).fills.map fillNode)) ∧
        Points (xfNode w f) "borderId" (countedNode "borders" ((requests b hs st reqs).borders.map borderNode)) := by
      intro w f hf
      obtain ⟨a1, a2, a3⟩ := p1 f hf
      obtain ⟨e1, e2, e3⟩ := xfNode_ids w f
      exact ⟨⟨_, e1, by simpa [countedNode, Node.children] using a1⟩, ⟨_, e2, by simpa [countedNode, Node.children] using a2⟩,
        ⟨_, e3, by simpa [countedNode, Node.children] using a3⟩⟩
    intro n hn
    rcases List.mem_append.mp hn with hn | hn
    · obtain ⟨f, hf, rfl⟩ := List.mem_map.mp hn
      exact key false f (List.mem_append_left _ hf)
    · obtain ⟨f, hf, rfl⟩ := List.mem_map.mp hn
      exact key true f (List.mem_append_right _ hf)
  · intro n hn
    obtain ⟨f, hf, rfl⟩ := List.mem_map.mp hn
    exact ⟨f.formatId, rfl, by simpa [countedNode, Node.children] using p2 f hf⟩

/-- **C73.** Every style part of a new workbook, whatever was asked for, can be saved and has only formats that point to entries of the part. -/
theorem C73_new (b : Build) (hs : Hashes) (reqs : List StyleSetting) :
    ∃ x2, (requests b hs newStyles reqs).save emptyStyleDoc = .ok x2 ∧ RefsPoint x2 := by
  refine ⟨_, rfl, ?_⟩
  have hl : Styles.load styleDoc = (.ok newStyles, emptyStyleDoc) := by
    have h1 : (Styles.load styleDoc).1.toOption = some newStyles := by decide +kernel
    cases hc : Styles.load styleDoc with
    | mk r d =>
      cases r with
      | error e => rw [hc] at h1; cases h1
      | ok s => rw [hc] at h1; cases h1; show _ = (_, (Styles.load styleDoc).2); rw [hc]
  exact C73_loaded b hs styleDoc emptyStyleDoc _ newStyles reqs hl (by unfold TablesPoint; decide) rfl

/-- **C73.** A style id handed out is the position of a cell format, then and after all later requests. -/
theorem C73_id (b : Build) (hs : Hashes) (st st' : Styles) (s : StyleSetting) (id : Nat) (later : List StyleSetting)
    (h : getStyleId b hs st s = .ok (st', id)) : id < (requests b hs st' later).xfs.length := by
  have h1 : id < st'.xfs.length := by
    unfold getStyleId at h
    split at h
    · cases h
    · cases h
      exact Nat.lt_of_le_of_lt (Nat.mod_le _ _) (findOrPush_bound _ _ _)
  have h2 := (requests_extends b hs later st').xfs id _ (List.getElem?_eq_getElem h1)
  exact (List.getElem?_eq_some_iff.mp h2).1

/-- The template of a new workbook, with a request that adds entries. -/
example : ∃ x1 x2, Styles.load styleDoc = (.ok newStyles, x1) ∧ TablesPoint newStyles ∧
    (requests ⟨false⟩ demoHash newStyles [bigBold]).save x1 = .ok x2 ∧ (requests ⟨false⟩ demoHash newStyles [bigBold]).xfs.length = 2 := by
  refine ⟨emptyStyleDoc, _, ?_, by unfold TablesPoint; decide, rfl, by decide +kernel⟩
  have h1 : (Styles.load styleDoc).1.toOption = some newStyles := by decide +kernel
  cases hc : Styles.load styleDoc with
  | mk r d =>
    cases r with
    | error e => rw [hc] at h1; cases h1
    | ok s => rw [hc] at h1; cases h1; show _ = (_, (Styles.load styleDoc).2); rw [hc]

end Oxml
