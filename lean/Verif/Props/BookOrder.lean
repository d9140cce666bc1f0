import Verif.Spec.BookOrder
import Verif.Props.Workbook
import Verif.Props.WorksheetFile
/-!
# C77: the children of a saved workbook element
-/
namespace Oxml
open Spec

theorem book_order_agrees : ∀ a ∈ bookSchema, ∀ b ∈ bookSchema, workbookOrder.idxOf a ≤ workbookOrder.idxOf b → bookSchema.idxOf a ≤ bookSchema.idxOf b := by
  decide +kernel

theorem bookSchema_inj : ∀ a ∈ bookSchema, ∀ b ∈ bookSchema, bookSchema.idxOf a = bookSchema.idxOf b → a = b := by
  decide +kernel

/-- **C77.** In a saved workbook the children the schema has are in the order of the schema, whatever was loaded. The other children loaded are
kept with their content: the same elements, those with the same tag in the order they had, and all of them in the order they had
when the schema has them and they were in its order. -/
theorem C77_order {x x' : XDoc} (sheets : List SheetEntry) (view : Option BookView) (hc : ∀ n ∈ x.rootChildren, n.tag ∉ bookTags)
    (h : saveBook sheets view x = .ok x') :
    BookInOrder x'.rootChildren ∧ (bookRest x'.rootChildren).Perm x.rootChildren ∧
    (∀ tag, (bookRest x'.rootChildren).filter (fun n => n.tag = tag) = x.rootChildren.filter (fun n => n.tag = tag)) ∧
    ((∀ n ∈ x.rootChildren, n.tag ∈ bookSchema) → BookInOrder x.rootChildren → bookRest x'.rootChildren = x.rootChildren) := by
  unfold saveBook at h
  cases hr : x.root with
  | none => rw [hr] at h; cases h
  | some root =>
    rw [hr] at h
    cases h
    have hroot : (x.mapRootChildren (placeBook sheets view)).rootChildren = placeBook sheets view x.rootChildren := rootChildren_mapRoot hr _
    rw [hroot]
    have hin : ∀ cs, BookInOrder (orderChildren Node.tag workbookOrder cs) := by
      intro cs
      obtain ⟨_, o2, _⟩ := C12_order_children Node.tag workbookOrder cs (by decide +kernel) (by decide +kernel)
      refine List.Pairwise.imp_of_mem ?_ (o2.sublist List.filter_sublist)
      intro a b ha hb hab
      exact book_order_agrees _ (by simpa using (List.mem_filter.mp ha).2) _ (by simpa using (List.mem_filter.mp hb).2) hab
    have h1 : BookInOrder (placeBook sheets view x.rootChildren) := by unfold placeBook; exact hin _
    have htag : ∀ tag, (bookRest (placeBook sheets view x.rootChildren)).filter (fun n => n.tag = tag) = x.rootChildren.filter (fun n => n.tag = tag) := by
      intro tag
      unfold bookRest
      have hsw : ((placeBook sheets view x.rootChildren).filter (fun n => n.tag ∉ bookTags)).filter (fun n => n.tag = tag) =
          ((placeBook sheets view x.rootChildren).filter (fun n => n.tag = tag)).filter (fun n => n.tag ∉ bookTags) := by
        rw [List.filter_filter, List.filter_filter]
        exact List.filter_congr (fun n _ => Bool.and_comm _ _)
      rw [hsw, placeBook_filter _ _ _ hc]
      have hno : ∀ t, t ∈ bookTags → x.rootChildren.filter (fun n => n.tag = t) = [] := by
        intro t ht
        rw [List.filter_eq_nil_iff]
        intro n hn e
        exact hc n hn ((of_decide_eq_true e) ▸ ht)
      split
      · next e =>
        rw [e, hno _ (by decide)]
        cases view <;> rfl
      · split
        · next e => rw [e, hno _ (by decide)]; rfl
        · refine List.filter_eq_self.mpr ?_
          intro n hn
          simpa using hc n (List.mem_filter.mp hn).1
    have hperm : (bookRest (placeBook sheets view x.rootChildren)).Perm x.rootChildren := by
      unfold placeBook bookRest
      refine ((orderChildren_perm _ _ _).filter _).trans ?_
      have hself : x.rootChildren.filter (fun n => n.tag ∉ bookTags) = x.rootChildren :=
        List.filter_eq_self.mpr (fun n hn => by simpa using hc n hn)
      rw [insertNodeAfter_filter _ _ _ _ (by simp [Node.tag, bookTags])]
      cases view with
      | none => simp only; rw [hself]
      | some v => simp only; rw [insertNodeAfter_filter _ _ _ _ (by simp [Node.tag, bookTags]), hself]
    refine ⟨h1, hperm, htag, ?_⟩
    intro hk hb
    have hall : ∀ n ∈ bookRest (placeBook sheets view x.rootChildren), n.tag ∈ bookSchema := fun n hn => hk n (hperm.mem_iff.mp hn)
    have p1 : (bookRest (placeBook sheets view x.rootChildren)).Pairwise (fun a b => bookSchema.idxOf a.tag ≤ bookSchema.idxOf b.tag) := by
      have hs : (bookRest (placeBook sheets view x.rootChildren)).filter (fun n => n.tag ∈ bookSchema) = bookRest (placeBook sheets view x.rootChildren) :=
        List.filter_eq_self.mpr (fun n hn => by simpa using hall n hn)
      rw [← hs]
      refine h1.sublist ?_
      unfold bookRest
      exact List.Sublist.filter _ List.filter_sublist
    have p2 : x.rootChildren.Pairwise (fun a b => bookSchema.idxOf a.tag ≤ bookSchema.idxOf b.tag) := by
      unfold BookInOrder at hb
      rw [List.filter_eq_self.mpr (fun n hn => by simpa using hk n hn)] at hb
      exact hb
    apply sorted_lists_eq (fun n : Node => bookSchema.idxOf n.tag) p1 p2
    intro k
    by_cases hex : ∃ n ∈ x.rootChildren, bookSchema.idxOf n.tag = k
    · obtain ⟨n0, hn0, hk0⟩ := hex
      have conv : ∀ l : List Node, (∀ n ∈ l, n.tag ∈ bookSchema) → l.filter (fun n => bookSchema.idxOf n.tag = k) = l.filter (fun n => n.tag = n0.tag) := by
        intro l hl
        apply List.filter_congr
        intro n hn
        apply decide_eq_decide.mpr
        exact ⟨fun he => bookSchema_inj _ (hl n hn) _ (hk n0 hn0) (he.trans hk0.symm), fun he => by rw [he]; exact hk0⟩
      rw [conv _ hk, conv _ hall, htag]
    · have no : ∀ l : List Node, (∀ n ∈ l, n ∈ x.rootChildren) → l.filter (fun n => bookSchema.idxOf n.tag = k) = [] := by
        intro l hl
        rw [List.filter_eq_nil_iff]
        intro n hn
        simp only [decide_eq_true_eq]
        exact fun he => hex ⟨n, hl n hn, he⟩
      rw [no _ (fun n hn => hperm.mem_iff.mp hn), no _ (fun _ h => h)]

/-- **C77, open and close.** Loading takes exactly the managed children out of the document, so C77 applies to every workbook that was opened. -/
theorem C77_open {x0 x : XDoc} {r : List SheetEntry × Option BookView} (h : loadBook x0 = (.ok r, x)) :
    x.rootChildren = bookRest x0.rootChildren ∧ ∀ n ∈ x.rootChildren, n.tag ∉ bookTags := by
  refine ⟨?_, loadBook_unmanaged h⟩
  unfold loadBook at h
  simp only at h
  split at h
  · cases h
  · split at h
    · cases h
    · cases h
      unfold XDoc.popTag bookRest
      cases hr : x0.root with
      | none => simp [XDoc.mapRootChildren, XDoc.rootChildren, hr]
      | some root =>
        simp only
        rw [rootChildren_mapRoot (root := root.withChildren (x0.rootChildren.filter (fun n => n.tag ≠ "bookViews"))) (by
          unfold XDoc.mapRootChildren; rw [hr]; simp [XDoc.rootChildren, hr]), rootChildren_mapRoot hr, List.filter_filter]
        apply List.filter_congr
        intro n _
        simp only [bookTags, List.mem_cons, List.not_mem_nil, or_false, not_or, Bool.decide_and]
        exact Bool.and_comm _ _

/-- A workbook as written by other programs, with elements of extensions. -/
def C77_file : XDoc :=
  { ns := [], root := some (.mk "workbook" none none [.mk "fileVersion" none none [], .mk "workbookPr" none none [], .mk "mc:AlternateContent" none none [],
      .mk "bookViews" none none [.mk "workbookView" (some [("activeTab", "0")]) none []],
      .mk "sheets" none none [.mk "sheet" (some [("name", "a"), ("sheetId", "1"), ("r:id", "rId1")]) none []], .mk "definedNames" none none [],
      .mk "calcPr" none none [], .mk "x:other" none none []]) }

/-- Example: it loads, and is saved in order. -/
example : ∃ r x, loadBook C77_file = (.ok r, x) ∧ r.1.length = 1 ∧ BookInOrder C77_file.rootChildren ∧
    (saveBook r.1 r.2 x).map (fun x' => x'.rootChildren.map Node.tag) =
      .ok ["fileVersion", "workbookPr", "mc:AlternateContent", "bookViews", "sheets", "definedNames", "calcPr", "x:other"] := by
  refine ⟨_, _, rfl, rfl, ?_, by decide +kernel⟩
  unfold BookInOrder
  decide +kernel

/-- **C43, flags.** Choosing a sheet as active, or hiding one, sets the flag on the sheets of that name, clears it on the others, and changes nothing else. -/
theorem C43_flags (env : Env) (s : Session) (n : String) (i : Nat) :
    (s.step env (.active n)).2.x.sheets[i]? = (s.x.sheets[i]?).map (fun e => ⟨e.name, e.relId, decide (e.name = n), e.hide⟩) ∧
    (s.step env (.hide n)).2.x.sheets[i]? = (s.x.sheets[i]?).map (fun e => ⟨e.name, e.relId, e.active, decide (e.name = n)⟩) := by
  simp only [Session.step, setActive, hideSheet, List.getElem?_map, and_self]

end Oxml
