import Verif.Spec.ForeignStrings
import Verif.Props.Foreign
/-!
# C110: the shared strings of an opened workbook
-/
namespace Oxml
open Spec

/-- One string item. -/
theorem piece_read {f : Bool} {n : Node} {i : Item} (h : ReadAs f n i) (hp : OnePiece i) :
    ∃ v, n.children.head?.map (fun c => c.value.getD "") = some v ∧ KeptString v (stringWords i) := by
  obtain ⟨t, rest, m, kvs, s, h1, h2, h3, h4⟩ := hp
  have ha := read_kids h
  rw [h1] at ha
  match hch : n.children, ha with
  | c :: cs, ha =>
    refine ⟨c.value.getD "", rfl, ?_⟩
    have hw : stringWords i = t.words := by
      have : rest.flatMap (fun i => if i.named "t" then i.words else if i.named "r" then (i.kids "t").flatMap Item.words else []) = [] := by
        rw [List.flatMap_eq_nil_iff]
        intro e he
        simp [h4 e he]
      rw [stringWords_elements, h1, List.flatMap_cons, this, h2]
      simp
    rw [hw]
    have hc := ha.1
    obtain ⟨tag, attrs, value, ch⟩ := c
    rcases h3 with rfl | rfl
    · rw [ReadAs] at hc
      have hv := hc.2.2.1
      simp only [textsOf] at hv
      cases value with
      | none => exact .inl ⟨rfl, nofun⟩
      | some v => obtain ⟨a, t, b, e, _⟩ := hv; cases a <;> cases e
    · rw [ReadAs] at hc
      have hv := hc.2.2.1
      simp only [textsOf] at hv
      have hs : (Item.elem m kvs [.text s]).words = s := by simp [Item.words, Item.chars]
      rw [hs]
      cases value with
      | none => exact .inl ⟨rfl, hv s (by simp)⟩
      | some v =>
        obtain ⟨a, t', b, e, hk, _⟩ := hv
        have : t' = s := by
          cases a with
          | nil => cases e; rfl
          | cons => simp at e
        subst this
        exact .inr hk

theorem strings_read {x : XDoc} {root : Node} {sst : Item} {f : Bool} (hx : x.root = some root) (h : ReadAs f root sst) (hp : ∀ i ∈ sst.kids "si", OnePiece i) :
    Agree KeptString (loadStrings x).1 (sharedStrings sst) := by
  have hch : x.rootChildren = root.children := by unfold XDoc.rootChildren; rw [hx]
  have hd := read_filter h "si"
  rw [← hch] at hd
  unfold loadStrings XDoc.popTag sharedStrings
  simp only
  generalize x.rootChildren.filter (fun n => n.tag = "si") = as at hd
  generalize sst.kids "si" = bs at hd hp
  induction bs generalizing as with
  | nil =>
    cases as with
    | nil => trivial
    | cons => exact hd.elim
  | cons b bs ih =>
    cases as with
    | nil => exact hd.elim
    | cons a as =>
      obtain ⟨v, h1, h2⟩ := piece_read hd.1 (hp b (by simp))
      rw [List.filterMap_cons, h1]
      exact ⟨h2, ih as hd.2 (fun i hi => hp i (List.mem_cons_of_mem _ hi))⟩

/-- **C110 (partial).** Open a workbook file whose shared strings another program wrote in whatever way XML allows. The table of the library has for every string another
program sees there, in order, what is left of it without white space around it; a string without white space around it, on one line, is there exactly, so that the
numbers in the cells lead to the same texts. Missing: CDATA sections, strings in several runs, empty string items, white space around strings. -/
theorem C110_partial {env : Env} {theme : XDoc} {z : Zip} {x : Excel} (hz : (akeys z).Nodup) (ho : Excel.openFile env theme z = .ok x) {text n : List Char}
    {kvs : List (List Char × List Char)} {cs : List Item} (ht : aget x.strings.path z = some text) (hct : x.strings.path ≠ contentTypesName)
    (h : IsDocument text (.elem n kvs cs)) (hne : cs ≠ []) (hc : NoCdata text) (hi : ItemOk env.uni (.elem n kvs cs)) (hp : ∀ i ∈ (Item.elem n kvs cs).kids "si", OnePiece i) :
    Agree KeptString x.strings.data (sharedStrings (.elem n kvs cs)) ∧
    ((∀ t ∈ sharedStrings (.elem n kvs cs), t = [] ∨ CleanText t) → x.strings.data.map String.toList = sharedStrings (.elem n kvs cs)) := by
  obtain ⟨d, r, h1, _, h3, h4⟩ := reads_document (f := false) h hne ⟨hc, (fun h => nomatch h)⟩ hi
  obtain ⟨p, _, _, _, _, _, o, _, _, _, _, hpz, hb⟩ := openFile_book hz ho
  have hdoc : o.doc = d.toXDoc := by
    rcases source_zip hpz hct hb.strSource with ⟨e, _⟩ | ⟨c, d', e1, e2, e3⟩
    · rw [ht] at e; cases e
    · rw [ht] at e1
      cases e1
      rw [h1] at e2
      cases e2
      exact e3
  have key := strings_read h3 h4 hp
  rw [← hdoc, hb.strLoad] at key
  refine ⟨key, fun hcl => ?_⟩
  have := agree_map (f := String.toList) (g := id) key (fun v t ht hk => by
    rcases hcl t ht with rfl | hcl
    · rcases hk with ⟨rfl, _⟩ | ⟨hv, l, r, _, _, hs⟩
      · rfl
      · cases e : l ++ (v.toList ++ r) with
        | nil => exact absurd (by simp at e; exact e.2.1) hv
        | cons => rw [e] at hs; cases hs
    · rcases hk with ⟨_, hw⟩ | hk
      · exact absurd hw (clean_not_white hcl)
      · exact kept_clean hk hcl)
  rw [this, List.map_id]

/-! ## Examples -/

/-- A workbook file with these shared strings. -/
def fxBook (sst : List Char) : Zip := exSheetBook ++ [("xl/sharedStrings.xml", sst)]

/-- The strings of that workbook once opened, if its strings are where they were put. -/
def fxStrings (sst : List Char) : Option (List String) :=
  match Excel.openFile exEnv exTheme (fxBook sst) with
  | .ok x => if x.strings.path = "xl/sharedStrings.xml" then some x.strings.data else none
  | .error _ => none

theorem fxStrings_opens {sst : List Char} {l : List String} (h : fxStrings sst = some l) :
    ∃ x, Excel.openFile exEnv exTheme (fxBook sst) = .ok x ∧ x.strings.path = "xl/sharedStrings.xml" ∧ x.strings.data = l := by
  unfold fxStrings at h
  split at h
  · next x hx =>
    split at h
    · next hp => exact ⟨x, hx, hp, by simpa using h⟩
    · cases h
  · cases h

theorem fxBook_keys (sst : List Char) : (akeys (fxBook sst)).Nodup := by
  have : akeys (fxBook sst) = akeys (fxBook []) := by simp [akeys, fxBook]
  rw [this]
  decide +kernel

theorem fxBook_get (sst : List Char) : aget "xl/sharedStrings.xml" (fxBook sst) = some sst := by
  have h : aget "xl/sharedStrings.xml" exSheetBook = none := by decide +kernel
  rw [fxBook, aget_append_single _ _ _ _ h]
  simp

theorem fx_strings_violate {text : List Char} {sst : Item} {l : List String} (h : IsDocument text sst) (hl : fxStrings text = some l)
    (hne : l.map String.toList ≠ sharedStrings sst) : ¬StringsAsSeen exEnv exTheme := by
  intro hall
  obtain ⟨x, h1, h2, h3⟩ := fxStrings_opens hl
  refine hne ?_
  rw [← h3]
  exact hall _ x text sst (fxBook_keys _) h1 (by rw [h2]; exact fxBook_get _) h

/-- **C110, violated.** The text of a string in runs, as a cell with some bold words has it, is lost: the library has an empty string in its place. -/
theorem C110_violated_runs : ¬StringsAsSeen exEnv exTheme := by
  refine fx_strings_violate (text := fxTag "sst" [] (fxTag "si" [] (fxTag "r" [] (fxTag "t" [] "bold".toList []) []) []) [])
    (sst := fxItem "sst" [] [fxItem "si" [] [fxItem "r" [] [fxItem "t" [] [.text "bold".toList]]]]) (l := [""]) ?_ (by decide +kernel) (by decide +kernel)
  exact fxDocument (fxTag_read (by decide +kernel) (by decide +kernel) (by decide +kernel) (fxTag_read (by decide +kernel) (by decide +kernel) (by decide +kernel)
    (fxTag_read (by decide +kernel) (by decide +kernel) (by decide +kernel)
      (fxTag_read (by decide +kernel) (by decide +kernel) (by decide +kernel) (fxText_read (by decide +kernel) (by decide +kernel)) .nil) .nil) .nil) .nil)

/-- **C110, violated.** A string item with nothing in it is skipped: the strings after it move up, and the number of the second string leads to nothing. -/
theorem C110_violated_empty : ¬StringsAsSeen exEnv exTheme := by
  refine fx_strings_violate (text := fxTag "sst" [] (fxTag "si" [] [] (fxTag "si" [] (fxTag "t" [] "word".toList []) [])) [])
    (sst := fxItem "sst" [] [fxItem "si" [] [], fxItem "si" [] [fxItem "t" [] [.text "word".toList]]]) (l := ["word"]) ?_ (by decide +kernel) (by decide +kernel)
  exact fxDocument (fxTag_read (by decide +kernel) (by decide +kernel) (by decide +kernel) (fxTag_read (by decide +kernel) (by decide +kernel) (by decide +kernel) .nil
    (fxTag_read (by decide +kernel) (by decide +kernel) (by decide +kernel)
      (fxTag_read (by decide +kernel) (by decide +kernel) (by decide +kernel) (fxText_read (by decide +kernel) (by decide +kernel)) .nil) .nil)) .nil)

/-- **C110, violated.** White space around a string is lost, although the file asks for it to be kept. -/
theorem C110_violated_space : ¬StringsAsSeen exEnv exTheme := by
  refine fx_strings_violate (text := fxTag "sst" [] (fxTag "si" [] (fxTag "t" [] " word ".toList []) []) [])
    (sst := fxItem "sst" [] [fxItem "si" [] [fxItem "t" [] [.text " word ".toList]]]) (l := ["word"]) ?_ (by decide +kernel) (by decide +kernel)
  exact fxDocument (fxTag_read (by decide +kernel) (by decide +kernel) (by decide +kernel) (fxTag_read (by decide +kernel) (by decide +kernel) (by decide +kernel)
      (fxTag_read (by decide +kernel) (by decide +kernel) (by decide +kernel) (fxText_read (by decide +kernel) (by decide +kernel)) .nil) .nil) .nil)

/-- Two strings as another program may write them. -/
def fxSst : List Char := fxTag "sst" [("count", "2")] (fxTag "si" [] (fxTag "t" [] "two words".toList []) (fxTag "si" [] (fxTag "t" [] " more ".toList
  (fxTag "phoneticPr" [("fontId", "1")] [] [])) [])) []

/-- What other programs read in them. -/
def fxSstContent : List Item :=
  [fxItem "si" [] [fxItem "t" [] [.text "two words".toList]], fxItem "si" [] [fxItem "t" [] [.text " more ".toList], fxItem "phoneticPr" [("fontId", "1")] []]]

theorem fxSst_read : IsDocument fxSst (.elem "sst".toList (fxRead [("count", "2")]) fxSstContent) :=
  fxDocument (fxTag_read (by decide +kernel) (by decide +kernel) (by decide +kernel) (fxTag_read (by decide +kernel) (by decide +kernel) (by decide +kernel)
    (fxTag_read (by decide +kernel) (by decide +kernel) (by decide +kernel) (fxText_read (by decide +kernel) (by decide +kernel)) .nil)
    (fxTag_read (by decide +kernel) (by decide +kernel) (by decide +kernel)
      (fxTag_read (by decide +kernel) (by decide +kernel) (by decide +kernel) (fxText_read (by decide +kernel) (by decide +kernel))
        (fxTag_read (by decide +kernel) (by decide +kernel) (by decide +kernel) .nil .nil)) .nil)) .nil)

theorem fxSst_ok (u : Unicode) : ItemOk u (.elem "sst".toList (fxRead [("count", "2")]) fxSstContent) := by
  have ht : ∀ t, ItemsOk u [.text t] := fun t => by simp [ItemsOk, ItemOk]
  have hn : ItemsOk u [] := by simp [ItemsOk]
  have hc : ∀ {i l}, ItemOk u i → ItemsOk u l → ItemsOk u (i :: l) := fun h1 h2 => by rw [ItemsOk]; exact ⟨h1, h2⟩
  exact fxItem_ok (n := "sst") (by decide +kernel) (by decide +kernel) (hc (fxItem_ok (by decide +kernel) (by decide +kernel) (hc (fxItem_ok (by decide +kernel)
    (by decide +kernel) (ht _)) hn)) (hc (fxItem_ok (by decide +kernel) (by decide +kernel) (hc (fxItem_ok (by decide +kernel) (by decide +kernel) (ht _))
    (hc (fxItem_ok (by decide +kernel) (by decide +kernel) hn) hn))) hn))

/-- Example for C110_partial: the file is opened; the first string is there exactly, the second without the spaces. -/
example : ∃ x, Excel.openFile exEnv exTheme (fxBook fxSst) = .ok x ∧ Agree KeptString x.strings.data ["two words".toList, " more ".toList] ∧ x.strings.data = ["two words", "more"] := by
  obtain ⟨x, h1, h2, h3⟩ := fxStrings_opens (sst := fxSst) (l := ["two words", "more"]) (by decide +kernel)
  refine ⟨x, h1, ?_, h3⟩
  have hk : (Item.elem "sst".toList (fxRead [("count", "2")]) fxSstContent).kids "si" = fxSstContent := by
    simp [Item.kids, fxSstContent, fxItem, Item.named]
  have := (C110_partial (fxBook_keys _) h1 (by rw [h2]; exact fxBook_get _) (by rw [h2]; decide +kernel) fxSst_read (by simp [fxSstContent]) (fxNoCdata (by decide +kernel))
    (fxSst_ok _) (by
      rw [hk]
      intro i hi
      simp only [fxSstContent, List.mem_cons, List.not_mem_nil, or_false] at hi
      rcases hi with rfl | rfl
      · exact ⟨_, [], "t".toList, [], "two words".toList, rfl, by decide +kernel, .inr rfl, by simp⟩
      · exact ⟨_, _, "t".toList, [], " more ".toList, rfl, by decide +kernel, .inr rfl, by decide +kernel⟩)).1
  have hs : sharedStrings (Item.elem "sst".toList (fxRead [("count", "2")]) fxSstContent) = ["two words".toList, " more ".toList] := by decide +kernel
  rwa [hs] at this

end Oxml
