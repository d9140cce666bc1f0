import Verif.Proofs.Order
import Verif.Props.ShareString
/-!
# Loading and saving the same document
-/
namespace Oxml
open Spec

/-- The same document, accepted. -/
structure DocLike (u : Unicode) (x y : XDoc) : Prop where
  same : SameDoc x y
  sound : Sound u x

theorem DocLike.rootRel {u : Unicode} {x y : XDoc} (h : DocLike u x y) : SameOpt (Alike u) x.root y.root := by
  have hr := h.same.root
  have hw := h.sound.names
  cases hx : x.root with
  | none =>
    rw [hx] at hr
    generalize y.root = z at hr
    cases hr
    exact .none
  | some r =>
    rw [hx] at hr
    generalize y.root = z at hr
    cases hr with
    | some h => exact .some ⟨h, hw r hx⟩

theorem docLike_of {u : Unicode} {x y : XDoc} (hn : SameMap x.ns y.ns) (hw : WfNs u x.ns) (hc : CleanUris x.ns) (hr : SameOpt (Alike u) x.root y.root) :
    DocLike u x y := by
  refine ⟨⟨hn, ?_⟩, hw, hc, ?_⟩
  · generalize x.root = a at hr
    generalize y.root = b at hr
    cases hr with
    | none => exact .none
    | some h => exact .some h.same
  · intro r hx
    rw [hx] at hr
    generalize y.root = b at hr
    cases hr with
    | some h => exact h.wf

theorem docLike_self {u : Unicode} {x : XDoc} (h : Sound u x) : DocLike u x x := by
  refine docLike_of (SameMap.refl h.ns.1) h.ns h.uris ?_
  cases hx : x.root with
  | none => exact .none
  | some r => exact .some (alike_self r (h.names r hx))

theorem DocLike.rootCases {u : Unicode} {x y : XDoc} (h : DocLike u x y) :
    (x.root = none ∧ y.root = none) ∨ ∃ r s, x.root = some r ∧ y.root = some s ∧ Alike u r s := by
  have hr := h.rootRel
  generalize x.root = a at hr
  generalize y.root = b at hr
  cases hr with
  | none => exact Or.inl ⟨rfl, rfl⟩
  | some h => exact Or.inr ⟨_, _, rfl, rfl, h⟩

theorem Alike.symm {u : Unicode} : ∀ n m : Node, Alike u n m → Alike u m n := by
  intro n
  refine Node.ind (P := fun n => ∀ m, Alike u n m → Alike u m n) ?_ n
  intro t a v cs ih m h
  have hc := h.children
  obtain ⟨hs, hw⟩ := h
  cases hs with
  | mk ha hs =>
    rename_i b ds
    have hc' : Pairs (Alike u) ds cs := by
      simp only [Node.children] at hc
      clear hs hw ha
      induction hc with
      | nil => exact .nil
      | cons h _ ihc => exact .cons (ih _ List.mem_cons_self _ h) (ihc (fun c hc => ih c (List.mem_cons_of_mem _ hc)))
    cases ha with
    | none => exact alike_mk hw.1 .none hw.2.1 hc'
    | some ha =>
      refine alike_mk hw.1 (.some ha.symm) ?_ hc'
      intro a e
      cases e
      exact ⟨ha.keys', fun k hk => (hw.2.1 _ rfl).2 k (ha.keysPerm.mem_iff.mpr hk)⟩

theorem DocLike.symm {u : Unicode} {x y : XDoc} (h : DocLike u x y) : DocLike u y x := by
  refine docLike_of h.same.ns.symm ⟨h.same.ns.keys', fun k hk => h.sound.ns.2 k (h.same.ns.keysPerm.mem_iff.mpr hk)⟩
    (fun kv hkv => h.sound.uris kv (h.same.ns.perm.mem_iff.mpr hkv)) ?_
  rcases h.rootCases with ⟨h1, h2⟩ | ⟨r, s, h1, h2, h3⟩
  · rw [h1, h2]; exact .none
  · rw [h1, h2]; exact .some (h3.symm r s)

theorem DocLike.withRoot {u : Unicode} {x y : XDoc} (h : DocLike u x y) {a b : Option Node} (hr : SameOpt (Alike u) a b) :
    DocLike u { x with root := a } { y with root := b } := docLike_of h.same.ns h.sound.ns h.sound.uris hr

theorem DocLike.rootChildren {u : Unicode} {x y : XDoc} (h : DocLike u x y) : Pairs (Alike u) x.rootChildren y.rootChildren := by
  unfold XDoc.rootChildren
  rcases h.rootCases with ⟨h1, h2⟩ | ⟨r, s, h1, h2, h3⟩
  · rw [h1, h2]; exact .nil
  · rw [h1, h2]; exact h3.children

theorem DocLike.mapRootChildren {u : Unicode} {x y : XDoc} (h : DocLike u x y) {f g : List Node → List Node}
    (hf : ∀ cs ds, Pairs (Alike u) cs ds → Pairs (Alike u) (f cs) (g ds)) : DocLike u (x.mapRootChildren f) (y.mapRootChildren g) := by
  unfold XDoc.mapRootChildren
  apply h.withRoot
  rcases h.rootCases with ⟨h1, h2⟩ | ⟨r, s, h1, h2, h3⟩
  · rw [h1, h2]; exact .none
  · rw [h1, h2]; exact .some (h3.withChildren (hf _ _ h3.children))

theorem Pairs.tagged {u : Unicode} {cs ds : List Node} (h : Pairs (Alike u) cs ds) (p : String → Bool) :
    Pairs (Alike u) (cs.filter (fun n => p n.tag)) (ds.filter (fun n => p n.tag)) := h.filter (fun a b hab => by rw [hab.tag])

theorem DocLike.popped {u : Unicode} {x y : XDoc} (h : DocLike u x y) (tag : String) : Pairs (Alike u) (x.popTag tag).1 (y.popTag tag).1 :=
  h.rootChildren.tagged (fun t => decide (t = tag))

theorem DocLike.pop {u : Unicode} {x y : XDoc} (h : DocLike u x y) (tag : String) : DocLike u (x.popTag tag).2 (y.popTag tag).2 :=
  h.mapRootChildren (fun _ _ hc => hc.tagged (fun t => decide (t ≠ tag)))

theorem DocLike.append {u : Unicode} {x y : XDoc} (h : DocLike u x y) {ns ms : List Node} (hn : Pairs (Alike u) ns ms) :
    SameRes (DocLike u) (x.appendAll ns) (y.appendAll ms) := by
  unfold XDoc.appendAll
  rcases h.rootCases with ⟨h1, h2⟩ | ⟨r, s, h1, h2, h3⟩
  · rw [h1, h2]
    cases hn with
    | nil => exact .ok h
    | cons _ _ =>
      simp only [reduceCtorEq, if_false]
      exact .error _
  · rw [h1, h2]
    exact .ok (h.mapRootChildren (fun _ _ hc => hc.append hn))

theorem pairs_written {u : Unicode} {α : Type} (l : List α) (f : α → Node) (h : ∀ a, WfNode u (f a)) : Pairs (Alike u) (l.map f) (l.map f) := by
  apply Pairs.self
  intro n hn
  obtain ⟨a, _, rfl⟩ := List.mem_map.mp hn
  exact alike_self _ (h a)

/-! ### Attributes looked at by loaders -/

/-- What a loader sees of two related attribute maps. -/
theorem Alike.attrsCases {u : Unicode} {n m : Node} (h : Alike u n m) :
    (n.attrs = none ∧ m.attrs = none) ∨ ∃ a b, n.attrs = some a ∧ m.attrs = some b ∧ SameMap a b ∧ WfAttrs u (some a) := by
  have ha := h.attrs
  have hw : WfAttrs u n.attrs := by
    obtain ⟨_, hw⟩ := h
    cases n
    exact hw.2.1
  generalize n.attrs = a at ha hw
  generalize m.attrs = b at ha
  cases ha with
  | none => exact Or.inl ⟨rfl, rfl⟩
  | some h => exact Or.inr ⟨_, _, rfl, rfl, h, hw⟩

/-! ### Relationships -/

theorem loadRel_same {u : Unicode} {n m : Node} (h : Alike u n m) : loadRel n = loadRel m := by
  unfold loadRel
  rcases h.attrsCases with ⟨h1, h2⟩ | ⟨a, b, h1, h2, h3, _⟩
  · rw [h1, h2]
  · simp only [h1, h2, h3.get]

theorem loadRels_same {u : Unicode} {x y : XDoc} (h : DocLike u x y) : (loadRels x).1 = (loadRels y).1 ∧ DocLike u (loadRels x).2 (loadRels y).2 :=
  ⟨(h.popped "Relationship").mapRes (fun _ _ hab => loadRel_same hab), h.pop _⟩

theorem saveRels_same {u : Unicode} {x y : XDoc} (h : DocLike u x y) (rels : List Rel) :
    SameRes (fun a b => DocLike u a.1 b.1 ∧ a.2 = b.2) (saveRels x rels) (saveRels y rels) := by
  unfold saveRels
  have ha := h.append (pairs_written (u := u) rels relNode (wf_relNode u))
  rcases h.rootCases with ⟨h1, h2⟩ | ⟨r, s, h1, h2, h3⟩
  · rw [h1, h2]; exact .error _
  · rw [h1, h2]
    dsimp only
    rw [h3.children.length]
    generalize x.appendAll (rels.map relNode) = a at ha
    generalize y.appendAll (rels.map relNode) = b at ha
    cases ha with
    | error e => exact .error e
    | ok h => exact .ok ⟨h, rfl⟩

/-! ### Shared strings and the calculation chain -/

theorem loadStrings_same {u : Unicode} {x y : XDoc} (h : DocLike u x y) :
    (loadStrings x).1 = (loadStrings y).1 ∧ DocLike u (loadStrings x).2 (loadStrings y).2 := by
  refine ⟨(h.popped "si").filterMap (fun a b hab => ?_), h.pop _⟩
  have := hab.children.head
  generalize a.children.head? = p at this
  generalize b.children.head? = q at this
  cases this with
  | none => rfl
  | some h => simp only [Option.map_some, h.value]

theorem saveStrings_same {u : Unicode} {x y : XDoc} (h : DocLike u x y) (table : List String) :
    SameRes (DocLike u) (saveStrings x table) (saveStrings y table) := by
  unfold saveStrings
  refine DocLike.append ?_ (pairs_written (u := u) table siNode (wf_siNode u))
  apply h.withRoot
  rcases h.rootCases with ⟨h1, h2⟩ | ⟨r, s, h1, h2, h3⟩
  · rw [h1, h2]; exact .none
  · rw [h1, h2]
    refine .some ?_
    have hc := h3.children
    obtain ⟨hs, hw⟩ := h3
    cases hs with
    | mk ha _ =>
      cases ha with
      | none => exact alike_mk hw.1 .none hw.2.1 hc
      | some ha =>
        have hn := hw.2.1 _ rfl
        have h1 := ha.insert "count" (toString table.length)
        have h2 := h1.insert "uniqueCount" (toString (distinctCount table))
        refine alike_mk hw.1 (.some h2) ?_ hc
        intro a e
        cases e
        refine ⟨h2.keys, fun k hk => ?_⟩
        simp only [List.foldl_cons, List.foldl_nil] at hk
        rw [mem_akeys_ainsert, mem_akeys_ainsert] at hk
        rcases hk with rfl | rfl | hk
        · exact ⟨validName_ascii u (by decide), by decide⟩
        · exact ⟨validName_ascii u (by decide), by decide⟩
        · exact hn.2 k hk

theorem loadCalc_same {u : Unicode} {x y : XDoc} (h : DocLike u x y) : (loadCalc x).1 = (loadCalc y).1 ∧ DocLike u (loadCalc x).2 (loadCalc y).2 := by
  refine ⟨Pairs.mapRes (R := Alike u) ?_ (Pairs.filter ?_ (h.popped "c")), h.pop _⟩
  · intro n m hab
    rcases hab.attrsCases with ⟨h1, h2⟩ | ⟨a, b, h1, h2, h3, _⟩
    · rw [h1, h2]
    · simp only [h1, h2, Option.getD_some, h3.get]
  · intro n m hab
    rcases hab.attrsCases with ⟨h1, h2⟩ | ⟨a, b, h1, h2, h3, _⟩
    · rw [h1, h2]
    · simp only [h1, h2]; rfl

theorem saveCalc_same {u : Unicode} {x y : XDoc} (h : DocLike u x y) (chain : List CalcEntry) :
    SameRes (DocLike u) (saveCalc x chain) (saveCalc y chain) :=
  h.append (pairs_written chain calcNode (wf_calcNode u))

/-! ### The workbook document -/

theorem loadBookView_same {a b : Attrs} (h : SameMap a b) : loadBookView a = loadBookView b := by
  unfold loadBookView
  simp only [h.get]

theorem loadBookViews_same {u : Unicode} {ns ms : List Node} (h : Pairs (Alike u) ns ms) (v : Option BookView) : loadBookViews v ns = loadBookViews v ms := by
  induction h generalizing v with
  | nil => rfl
  | cons h _ ih =>
    unfold loadBookViews
    rcases h.attrsCases with ⟨h1, h2⟩ | ⟨a, b, h1, h2, h3, _⟩
    · rw [h1, h2]; exact ih v
    · simp only [h1, h2, loadBookView_same h3, ih]

theorem loadSheetEntry_same {a b : Attrs} (h : SameMap a b) : loadSheetEntry a = loadSheetEntry b := by
  unfold loadSheetEntry
  simp only [h.get]

theorem Pairs.attrs {u : Unicode} {ns ms : List Node} (h : Pairs (Alike u) ns ms) : Pairs SameMap (ns.filterMap Node.attrs) (ms.filterMap Node.attrs) := by
  induction h with
  | nil => exact .nil
  | cons h _ ih =>
    rw [List.filterMap_cons, List.filterMap_cons]
    rcases h.attrsCases with ⟨h1, h2⟩ | ⟨a, b, h1, h2, h3, _⟩
    · rw [h1, h2]; exact ih
    · rw [h1, h2]; exact .cons h3 ih

theorem lastChildren_same {u : Unicode} {ns ms : List Node} (h : Pairs (Alike u) ns ms) :
    Pairs (Alike u) ((ns.getLast?.map Node.children).getD []) ((ms.getLast?.map Node.children).getD []) := by
  have := h.last
  generalize ns.getLast? = p at this
  generalize ms.getLast? = q at this
  cases this with
  | none => exact .nil
  | some h => exact h.children

theorem loadBook_same {u : Unicode} {x y : XDoc} (h : DocLike u x y) : (loadBook x).1 = (loadBook y).1 ∧ DocLike u (loadBook x).2 (loadBook y).2 := by
  have hp := h.popped "bookViews"
  have hx := h.pop "bookViews"
  have hq := hx.popped "sheets"
  have hy := hx.pop "sheets"
  unfold loadBook
  dsimp only
  rw [loadBookViews_same (lastChildren_same hp), Pairs.mapRes (fun _ _ hab => loadSheetEntry_same hab) (lastChildren_same hq).attrs]
  split
  · exact ⟨rfl, hx⟩
  · generalize mapRes loadSheetEntry _ = r
    cases r with
    | error e => exact ⟨rfl, hy⟩
    | ok _ => exact ⟨rfl, hy⟩

theorem Pairs.written {u : Unicode} {ns : List Node} (h : ∀ n ∈ ns, WfNode u n) : Pairs (Alike u) ns ns := Pairs.self ns (fun n hn => alike_self n (h n hn))

theorem sheetNodes_wf {u : Unicode} (i : Nat) (es : List SheetEntry) : WfNodes u (sheetNodes i es) := by
  induction es generalizing i with
  | nil => trivial
  | cons e es ih => exact ⟨wf_sheetNode u i e, ih (i + 1)⟩

theorem placeBook_same {u : Unicode} (sheets : List SheetEntry) (view : Option BookView) {cs ds : List Node} (h : Pairs (Alike u) cs ds) :
    Pairs (Alike u) (placeBook sheets view cs) (placeBook sheets view ds) := by
  unfold placeBook
  dsimp only
  apply Pairs.order
  refine Pairs.insertAfter (alike_self _ (wfNode_bare (u := u) (by decide) (sheetNodes_wf 1 sheets))) _ ?_
  cases view with
  | none => exact h
  | some v => exact h.insertAfter (alike_self _ (wfNode_bare (u := u) (cs := [bookViewNode v]) (by decide) (And.intro (wf_bookViewNode u v) trivial))) _

theorem saveBook_same {u : Unicode} {x y : XDoc} (h : DocLike u x y) (sheets : List SheetEntry) (view : Option BookView) :
    SameRes (DocLike u) (saveBook sheets view x) (saveBook sheets view y) := by
  unfold saveBook
  rcases h.rootCases with ⟨h1, h2⟩ | ⟨r, s, h1, h2, h3⟩
  · rw [h1, h2]; exact .error _
  · rw [h1, h2]; exact .ok (h.mapRootChildren (fun _ _ hc => placeBook_same sheets view hc))

/-! ### Core properties -/

theorem saveCore_same {u : Unicode} {x y : XDoc} (h : DocLike u x y) (now1 now2 : String) :
    SameRes (DocLike u) (saveCore now1 now2 x) (saveCore now1 now2 y) := by
  unfold saveCore
  rcases h.rootCases with ⟨h1, h2⟩ | ⟨r, s, h1, h2, h3⟩
  · rw [h1, h2]; exact .error _
  · rw [h1, h2]
    refine .ok (h.withRoot (.some ?_))
    refine (h3.mapCoreItem _ (fun a b hab => hab.withValue now1)).mapCoreItem _ (fun a b hab => ?_)
    rw [hab.value]
    split
    · exact hab
    · exact hab.withValue now2

/-! ### Sheets -/

theorem loadCol_same {env : Env} {u : Unicode} {n m : Node} (h : Alike u n m) : loadCol env n = loadCol env m := by
  unfold loadCol
  rcases h.attrsCases with ⟨h1, h2⟩ | ⟨a, b, h1, h2, h3, _⟩
  · rw [h1, h2]
  · simp only [h1, h2, h3.get]

theorem loadCols_same {env : Env} {u : Unicode} {x y : XDoc} (h : DocLike u x y) :
    (loadCols env x).1 = (loadCols env y).1 ∧ DocLike u (loadCols env x).2 (loadCols env y).2 := by
  refine ⟨?_, h.pop _⟩
  unfold loadCols
  dsimp only
  have := (h.popped "cols").last
  generalize (x.popTag "cols").1.getLast? = p at this
  generalize (y.popTag "cols").1.getLast? = q at this
  cases this with
  | none => rfl
  | some h => dsimp only; rw [h.children.mapRes (fun _ _ hab => loadCol_same hab)]

theorem loadView_same {u : Unicode} {n m : Node} (h : Alike u n m) : loadView n = loadView m := by
  unfold loadView
  rw [h.tag]
  rcases h.attrsCases with ⟨h1, h2⟩ | ⟨a, b, h1, h2, h3, _⟩
  · rw [h1, h2]
  · simp only [h1, h2, h3.get]

theorem loadViews_same {u : Unicode} {x y : XDoc} (h : DocLike u x y) :
    (loadViews x).1 = (loadViews y).1 ∧ DocLike u (loadViews x).2 (loadViews y).2 := by
  refine ⟨?_, h.pop _⟩
  unfold loadViews
  dsimp only
  have := (h.popped "sheetViews").last
  generalize (x.popTag "sheetViews").1.getLast? = p at this
  generalize (y.popTag "sheetViews").1.getLast? = q at this
  cases this with
  | none => rfl
  | some h => dsimp only; rw [h.children.mapRes (fun _ _ hab => loadView_same hab)]

theorem loadCellChild_same {u : Unicode} {n m : Node} (h : Alike u n m) (c : CellProps) : loadCellChild c n = loadCellChild c m := by
  unfold loadCellChild
  rw [h.tag, h.value]
  have := h.children.head
  generalize n.children.head? = p at this
  generalize m.children.head? = q at this
  cases this with
  | none => rfl
  | some h => dsimp only; rw [h.value]

theorem loadCellChildren_same {u : Unicode} {ns ms : List Node} (h : Pairs (Alike u) ns ms) (c : CellProps) :
    loadCellChildren c ns = loadCellChildren c ms := by
  induction h generalizing c with
  | nil => rfl
  | cons h _ ih => unfold loadCellChildren; simp only [loadCellChild_same h, ih]

theorem loadCell_same {env : Env} {u : Unicode} {n m : Node} (h : Alike u n m) : loadCell env n = loadCell env m := by
  unfold loadCell
  rcases h.attrsCases with ⟨h1, h2⟩ | ⟨a, b, h1, h2, h3, _⟩
  · rw [h1, h2]
  · have hc : ∀ st cm, cellOfAttrs a st cm = cellOfAttrs b st cm := fun st cm => by unfold cellOfAttrs; simp only [h3.get]
    simp only [h1, h2, h3.get, hc, loadCellChildren_same h.children]

theorem loadRowProps_same {env : Env} {a b : Attrs} (h : SameMap a b) : loadRowProps env a = loadRowProps env b := by
  unfold loadRowProps
  simp only [h.get]

theorem loadRow_same {env : Env} {u : Unicode} {n m : Node} (h : Alike u n m) : loadRow env n = loadRow env m := by
  unfold loadRow
  rcases h.attrsCases with ⟨h1, h2⟩ | ⟨a, b, h1, h2, h3, _⟩
  · rw [h1, h2]
  · simp only [h1, h2, h3.get, loadRowProps_same h3, h.children.mapRes (fun _ _ hab => loadCell_same (env := env) hab)]

theorem loadData_same {env : Env} {u : Unicode} {x y : XDoc} (h : DocLike u x y) :
    (loadData env x).1 = (loadData env y).1 ∧ DocLike u (loadData env x).2 (loadData env y).2 := by
  refine ⟨?_, h.pop _⟩
  unfold loadData
  dsimp only
  have := (h.popped "sheetData").last
  generalize (x.popTag "sheetData").1.getLast? = p at this
  generalize (y.popTag "sheetData").1.getLast? = q at this
  cases this with
  | none => rfl
  | some h => dsimp only; rw [h.children.mapRes (fun _ _ hab => loadRow_same (env := env) hab)]

theorem sheetLoad_same {env : Env} {u : Unicode} {x y : XDoc} (h : DocLike u x y) :
    (Sheet.load env x).1 = (Sheet.load env y).1 ∧ DocLike u (Sheet.load env x).2 (Sheet.load env y).2 := by
  unfold Sheet.load
  dsimp only
  have h1 := loadCols_same (env := env) (h.pop "dimension")
  generalize loadCols env (x.popTag "dimension").2 = p at h1
  generalize loadCols env (y.popTag "dimension").2 = q at h1
  obtain ⟨p1, p2⟩ := p
  obtain ⟨q1, q2⟩ := q
  obtain ⟨e1, d1⟩ := h1
  dsimp only at e1 d1
  subst e1
  cases p1 with
  | error e => exact ⟨rfl, d1⟩
  | ok cols =>
    have h2 := loadData_same (env := env) d1
    dsimp only
    generalize loadData env p2 = p at h2
    generalize loadData env q2 = q at h2
    obtain ⟨p1, p3⟩ := p
    obtain ⟨q1, q3⟩ := q
    obtain ⟨e1, d2⟩ := h2
    dsimp only at e1 d2
    subst e1
    cases p1 with
    | error e => exact ⟨rfl, d2⟩
    | ok r =>
      obtain ⟨data, dim⟩ := r
      have h3 := loadViews_same d2
      dsimp only
      generalize loadViews p3 = p at h3
      generalize loadViews q3 = q at h3
      obtain ⟨p1, p4⟩ := p
      obtain ⟨q1, q4⟩ := q
      obtain ⟨e1, d3⟩ := h3
      dsimp only at e1 d3
      subst e1
      cases p1 with
      | error e => exact ⟨rfl, d3⟩
      | ok vs => exact ⟨rfl, d3⟩

theorem placeSheet_same {u : Unicode} (ref : String) (cols : Option (List ColProps)) (views : List View) {rows : Option (List Node)}
    (hr : ∀ ns, rows = some ns → WfNodes u ns) {cs ds : List Node} (h : Pairs (Alike u) cs ds) :
    Pairs (Alike u) (placeSheetParts ref cols views rows cs) (placeSheetParts ref cols views rows ds) := by
  have hd : WfNode u (.mk "dimension" (some [("ref", ref)]) none []) :=
    wfNode_attrs (by decide +kernel) (by simp only [akeys, List.map_cons, List.map_nil]; decide +kernel) (by simp [akeys]) trivial
  have hv : WfNode u (.mk "sheetViews" none none (views.reverse.map viewNode)) := by
    refine wfNode_bare (by decide +kernel) (wfNodes_iff.mpr ?_)
    intro n hn
    obtain ⟨v, _, rfl⟩ := List.mem_map.mp hn
    exact wf_viewNode u v
  have h1 := h.append (.cons (alike_self _ hd) .nil)
  unfold placeSheetParts
  dsimp only
  apply Pairs.order
  have h2 : Pairs (Alike u) (match cols with
      | some (c :: rest) => insertNodeAfter (.mk "cols" none none ((c :: rest).map colNode)) "sheetFormatPr" (cs ++ [.mk "dimension" (some [("ref", ref)]) none []])
      | _ => cs ++ [.mk "dimension" (some [("ref", ref)]) none []]) (match cols with
      | some (c :: rest) => insertNodeAfter (.mk "cols" none none ((c :: rest).map colNode)) "sheetFormatPr" (ds ++ [.mk "dimension" (some [("ref", ref)]) none []])
      | _ => ds ++ [.mk "dimension" (some [("ref", ref)]) none []]) := by
    match cols with
    | none => exact h1
    | some [] => exact h1
    | some (c :: rest) =>
      refine h1.insertAfter (alike_self _ (wfNode_bare (by decide +kernel) (wfNodes_iff.mpr ?_))) _
      intro n hn
      obtain ⟨v, _, rfl⟩ := List.mem_map.mp hn
      exact wf_colNode u v
  have h3 := h2.insertAfter (alike_self _ hv) "dimension"
  cases rows with
  | none => exact h3
  | some ns => exact h3.insertAfter (alike_self _ (wfNode_bare (by decide +kernel) (hr ns rfl))) "cols"

theorem rows_wf {u : Unicode} : ∀ {d : SheetRows} {ns : List Node}, mapRes rowNode d = .ok ns → WfNodes u ns
  | [], ns, h => by cases h; trivial
  | kv :: d, ns, h => by
    unfold mapRes at h
    split at h
    · cases h
    · next n hn =>
      split at h
      · cases h
      · next ms hm =>
        cases h
        exact ⟨wf_rowNode u hn, rows_wf hm⟩

theorem sheetSave_same {u : Unicode} {x y : XDoc} (h : DocLike u x y) (s : Sheet) : SameRes (DocLike u) (s.save x) (s.save y) := by
  unfold Sheet.save
  cases s.dimensionRef with
  | error e => exact .error e
  | ok ref =>
    rcases h.rootCases with ⟨h1, h2⟩ | ⟨r, r', h1, h2, _⟩
    · rw [h1, h2]; exact .error _
    · rw [h1, h2]
      dsimp only
      cases s.data with
      | none => exact .ok (h.mapRootChildren (fun _ _ hc => placeSheet_same ref s.cols s.views (fun _ e => by cases e) hc))
      | some d =>
        dsimp only
        cases hm : mapRes rowNode d with
        | error e => exact .error e
        | ok ns => exact .ok (h.mapRootChildren (fun _ _ hc => placeSheet_same ref s.cols s.views (fun _ e => by cases e; exact rows_wf hm) hc))

/-! ### Styles -/

theorem loadNumFmt_same {u : Unicode} {n m : Node} (h : Alike u n m) : loadNumFmt n = loadNumFmt m := by
  unfold loadNumFmt
  rcases h.attrsCases with ⟨h1, h2⟩ | ⟨a, b, h1, h2, h3, _⟩
  · rw [h1, h2]
  · simp only [h1, h2, h3.get]

theorem loadColor_same {u : Unicode} {n m : Node} (h : Alike u n m) : loadColor n = loadColor m := by
  unfold loadColor
  simp only [h.attr]

theorem loadFontItem_same {u : Unicode} {n m : Node} (h : Alike u n m) (f : Font) : loadFontItem f n = loadFontItem f m := by
  unfold loadFontItem
  simp only [h.attr, h.tag, loadColor_same h]

theorem loadFont_same {u : Unicode} {n m : Node} (h : Alike u n m) : loadFont n = loadFont m := by
  unfold loadFont
  have := h.children
  generalize n.children = p at this
  generalize m.children = q at this
  generalize ({} : Font) = f
  induction this generalizing f with
  | nil => rfl
  | cons h _ ih => unfold loadFontItems; simp only [loadFontItem_same h, ih]

theorem loadFillItem_same {u : Unicode} {n m : Node} (h : Alike u n m) (f : Fill) : loadFillItem f n = loadFillItem f m := by
  unfold loadFillItem
  rcases h.attrsCases with ⟨h1, h2⟩ | ⟨a, b, h1, h2, h3, _⟩
  · rw [h1, h2]
  · simp only [h1, h2, h.tag, loadColor_same h]

theorem loadFillItems_same {u : Unicode} {ns ms : List Node} (h : Pairs (Alike u) ns ms) (f : Fill) : loadFillItems f ns = loadFillItems f ms := by
  induction h generalizing f with
  | nil => rfl
  | cons h _ ih => unfold loadFillItems; simp only [loadFillItem_same h, ih]

theorem loadFill_same {u : Unicode} {n m : Node} (h : Alike u n m) : loadFill n = loadFill m := by
  unfold loadFill
  have := h.children.head
  generalize n.children.head? = p at this
  generalize m.children.head? = q at this
  cases this with
  | none => rfl
  | some h => simp only [h.attr, loadFillItems_same h.children]

theorem loadSide_same {u : Unicode} {n m : Node} (h : Alike u n m) (s : BorderSide) : loadSide s n = loadSide s m := by
  unfold loadSide
  rw [h.attr]
  have := h.children.head
  generalize n.children.head? = p at this
  generalize m.children.head? = q at this
  cases this with
  | none => rfl
  | some h => simp only [loadColor_same h]

theorem loadBorder_same {u : Unicode} {n m : Node} (h : Alike u n m) : loadBorder n = loadBorder m := by
  unfold loadBorder
  have := h.children
  generalize n.children = p at this
  generalize m.children = q at this
  generalize ({} : Border) = f
  induction this generalizing f with
  | nil => rfl
  | cons h _ ih =>
    unfold loadBorderItems loadBorderItem
    simp only [loadSide_same h, h.tag, ih]

theorem loadAlign_same {u : Unicode} {n m : Node} (h : Alike u n m) (x : Xf) : loadAlign x n = loadAlign x m := by
  unfold loadAlign
  have := h.children.head
  generalize n.children.head? = p at this
  generalize m.children.head? = q at this
  cases this with
  | none => rfl
  | some h => simp only [h.attr]

theorem loadXf_same {u : Unicode} {n m : Node} (h : Alike u n m) : loadXf n = loadXf m := by
  unfold loadXf
  rcases h.attrsCases with ⟨h1, h2⟩ | ⟨a, b, h1, h2, h3, _⟩
  · rw [h1, h2]
  · have hu : ∀ k, u16Attr a k = u16Attr b k := fun k => by unfold u16Attr; simp only [h3.get]
    have hf : ∀ k, flagAttr a k = flagAttr b k := fun k => by unfold flagAttr; simp only [h3.get]
    simp only [h1, h2, hu, hf, loadAlign_same h]

theorem lastWith_same {u : Unicode} {x y : XDoc} (h : DocLike u x y) (tag : String) : Pairs (Alike u) (lastWith x tag) (lastWith y tag) := by
  unfold lastWith
  have := (h.rootChildren.tagged (fun t => decide (t = tag))).last
  generalize (x.rootChildren.filter (fun n => decide (n.tag = tag))).getLast? = p at this
  generalize (y.rootChildren.filter (fun n => decide (n.tag = tag))).getLast? = q at this
  cases this with
  | none => exact .nil
  | some h => exact h.children

theorem stylesLoad_same {u : Unicode} {x y : XDoc} (h : DocLike u x y) :
    (Styles.load x).1 = (Styles.load y).1 ∧ DocLike u (Styles.load x).2 (Styles.load y).2 := by
  have hd : DocLike u (x.mapRootChildren (fun cs => cs.filter (fun n => n.tag ∉ styleTags))) (y.mapRootChildren (fun cs => cs.filter (fun n => n.tag ∉ styleTags))) :=
    h.mapRootChildren (fun _ _ hc => hc.tagged (fun t => decide (t ∉ styleTags)))
  unfold Styles.load
  rw [(lastWith_same h "numFmts").mapRes (fun _ _ hab => loadNumFmt_same hab), (lastWith_same h "fonts").mapRes (fun _ _ hab => loadFont_same hab),
    (lastWith_same h "fills").mapRes (fun _ _ hab => loadFill_same hab), (lastWith_same h "borders").mapRes (fun _ _ hab => loadBorder_same hab),
    (lastWith_same h "cellStyleXfs").mapRes (fun _ _ hab => loadXf_same hab), (lastWith_same h "cellXfs").mapRes (fun _ _ hab => loadXf_same hab)]
  generalize mapRes loadNumFmt _ = a
  generalize mapRes loadFont _ = b
  generalize mapRes loadFill _ = c
  generalize mapRes loadBorder _ = d
  generalize mapRes loadXf (lastWith y "cellStyleXfs") = e
  generalize mapRes loadXf (lastWith y "cellXfs") = f
  cases a <;> cases b <;> cases c <;> cases d <;> cases e <;> cases f <;> first | exact ⟨rfl, hd⟩ | exact ⟨rfl, h⟩

theorem placeStyles_same {u : Unicode} (st : Styles) {cs ds : List Node} (h : Pairs (Alike u) cs ds) :
    Pairs (Alike u) (placeStyles st cs) (placeStyles st ds) := by
  have wn : ∀ {α : Type} (l : List α) (f : α → Node), (∀ a, WfNode u (f a)) → WfNodes u (l.map f) := by
    intro α l f hf
    refine wfNodes_iff.mpr ?_
    intro n hn
    obtain ⟨v, _, rfl⟩ := List.mem_map.mp hn
    exact hf v
  have self : ∀ {tag : String} {ns : List Node}, isValidXmlName ⟨fun _ => false⟩ tag = true → WfNodes u ns → Alike u (countedNode tag ns) (countedNode tag ns) :=
    fun ht hn => alike_self _ (wf_countedNode ht (wfNodes_iff.mp hn))
  have h0 : Pairs (Alike u) (countedNode "numFmts" (st.numFmts.map numFmtNode) :: cs) (countedNode "numFmts" (st.numFmts.map numFmtNode) :: ds) :=
    .cons (self (by decide +kernel) (wn _ _ (wf_numFmtNode u))) h
  have h1 := h0.insertAfter (self (tag := "fonts") (by decide +kernel) (wn st.fonts _ (wf_fontNode u))) "numFmts"
  have h2 := h1.insertAfter (self (tag := "fills") (by decide +kernel) (wn st.fills _ (wf_fillNode u))) "fonts"
  have h3 := h2.insertAfter (self (tag := "borders") (by decide +kernel) (wn st.borders _ (wf_borderNode u))) "fills"
  have h4 := h3.insertAfter (self (tag := "cellXfs") (by decide +kernel) (wn st.xfs _ (wf_xfNode u true))) "borders"
  exact h4.insertAfter (self (tag := "cellStyleXfs") (by decide +kernel) (wn st.styleXfs _ (wf_xfNode u false))) "borders"

theorem stylesSave_same {u : Unicode} {x y : XDoc} (h : DocLike u x y) (st : Styles) : SameRes (DocLike u) (st.save x) (st.save y) := by
  unfold Styles.save
  rcases h.rootCases with ⟨h1, h2⟩ | ⟨r, s, h1, h2, h3⟩
  · rw [h1, h2]; exact .error _
  · rw [h1, h2]; exact .ok (h.mapRootChildren (fun _ _ hc => placeStyles_same st hc))

/-! ### Content types -/

theorem needAttr_same {u : Unicode} {n m : Node} (h : Alike u n m) (k msg : String) : needAttr n k msg = needAttr m k msg := by
  unfold needAttr
  rw [h.attr]

theorem getExtensions_same {u : Unicode} {x y : XDoc} (h : DocLike u x y) : getExtensions x = getExtensions y := by
  unfold getExtensions
  refine Pairs.mapRes (R := Alike u) ?_ (h.rootChildren.tagged (fun t => decide (t = "Default")))
  intro a b hab
  simp only [needAttr_same hab]

theorem overrideType_same {u : Unicode} {x y : XDoc} (h : DocLike u x y) (name : String) : overrideContentType x name = overrideContentType y name := by
  unfold overrideContentType
  have := ((h.rootChildren.tagged (fun t => decide (t ≠ "Default"))).filter (p := fun n => decide (n.attr? "PartName" = some ("/" ++ name)))
    (q := fun n => decide (n.attr? "PartName" = some ("/" ++ name))) (fun a b hab => by rw [hab.attr])).last
  generalize ((x.rootChildren.filter (fun n => decide (n.tag ≠ "Default"))).filter (fun n => decide (n.attr? "PartName" = some ("/" ++ name)))).getLast? = p at this
  generalize ((y.rootChildren.filter (fun n => decide (n.tag ≠ "Default"))).filter (fun n => decide (n.attr? "PartName" = some ("/" ++ name)))).getLast? = q at this
  cases this with
  | none => rfl
  | some h => simp only [h.attr]

/-! ### Text -/

theorem selfClosing_same {u : Unicode} {n m : Node} (h : Alike u n m) : selfClosing n = selfClosing m := by
  obtain ⟨hs, _⟩ := h
  cases hs with
  | mk _ hc =>
    cases hc with
    | nil => rfl
    | cons _ _ => rfl

theorem reloadAttrs_same {a b : Option Attrs} (h : SameAttrs a b) : reloadAttrs a = reloadAttrs b := by
  cases h with
  | none => rfl
  | some h => simp only [reloadAttrs, h.sort]

theorem reload_same {u : Unicode} : ∀ n m : Node, Alike u n m → reload n = reload m := by
  intro n
  refine Node.ind (P := fun n => ∀ m, Alike u n m → reload n = reload m) ?_ n
  intro t a v cs ih m h
  have hc := h.children
  obtain ⟨hs, hw⟩ := h
  cases hs with
  | mk ha _ =>
    cases v with
    | some v => simp only [reload, reloadAttrs_same ha]
    | none =>
      simp only [reload, reloadAttrs_same ha, Node.children] at hc ⊢
      congr 1
      rename_i ds hs
      clear ha hw hs
      induction hc with
      | nil => rfl
      | cons h _ ihc =>
        simp only [reloads]
        rw [ih _ List.mem_cons_self _ h, ihc (fun c hc => ih c (List.mem_cons_of_mem _ hc))]

theorem releaseNs_same {b : Build} {ns ms : Attrs} (h : SameMap ns ms) : SameMap (releaseNs b ns) (releaseNs b ms) := by
  unfold releaseNs
  split
  · exact h.insert _ _
  · exact h

theorem sound_read {u : Unicode} {c : List Char} {d : XmlDoc} (h : readXml u c = .ok d) (hc : CleanUris d.ns) : Sound u d.toXDoc :=
  ⟨(readXml_good h).2.ns, hc, fun _ hr => wfNode_toNode (readXml_good h).2 _ _ _ hr⟩

theorem DocLike.reload {u : Unicode} {x y : XDoc} (h : DocLike u x y) (b : Build) : DocLike u (reloadDoc b x) (reloadDoc b y) := by
  refine docLike_of (releaseNs_same h.same.ns) (wfNs_release b h.sound.ns) (cleanUris_release b h.sound.uris) ?_
  unfold reloadDoc
  dsimp only
  rcases h.rootCases with ⟨h1, h2⟩ | ⟨r, s, h1, h2, h3⟩
  · rw [h1, h2]; exact .none
  · rw [h1, h2, Option.map_some, Option.map_some, reload_same r s h3]
    exact .some (alike_self _ (reload_same r s h3 ▸ wfNode_reload r h3.wf))

theorem readXml_header {env : Env} (hst : env.build.release = true → StampOk env.stamp) : readXml env.uni (xmlHeader env.build env.stamp) = .ok XmlDoc.new := by
  have := lex_header env.build hst []
  rw [List.append_nil] at this
  unfold readXml lex
  have hb := dropBom_header env.build env.stamp []
  rw [List.append_nil] at hb
  rw [hb, this]
  rfl

/-- Reading the same text. -/
theorem read_same {env : Env} (hst : env.build.release = true → StampOk env.stamp) {c c' : List Char} (h : SameText env c c') :
    SameRes (fun d d' => DocLike env.uni d.toXDoc d'.toXDoc) (readXml env.uni c) (readXml env.uni c') := by
  cases h with
  | same h =>
    cases hr : readXml env.uni c with
    | error e => exact .error e
    | ok d => exact .ok (docLike_self (sound_read hr (h d hr)))
  | @rendered x y h hs =>
    have hl : DocLike env.uni x y := ⟨h, hs⟩
    have hl' := hl.symm.sound
    rcases hl.rootCases with ⟨h1, h2⟩ | ⟨r, s, h1, h2, h3⟩
    · unfold renderDoc
      rw [h1, h2]
      dsimp only
      rw [List.append_nil, readXml_header hst]
      exact .ok (docLike_self (sound_read (readXml_header hst) (fun kv hkv => absurd hkv List.not_mem_nil)))
    · have w1 : WfDoc env.uni x r := ⟨h1, h3.wf, hs.ns, hs.uris⟩
      have w2 : WfDoc env.uni y s := ⟨h2, hl'.names s h2, hl'.ns, hl'.uris⟩
      cases hc : selfClosing r with
      | true =>
        rw [readXml_selfClosing _ _ hst w1 hc, readXml_selfClosing _ _ hst w2 (selfClosing_same h3 ▸ hc)]
        exact .error _
      | false =>
        obtain ⟨d, e1, _, e2⟩ := readXml_renderDoc env.build env.uni hst w1 hc
        obtain ⟨d', e1', _, e2'⟩ := readXml_renderDoc env.build env.uni hst w2 (selfClosing_same h3 ▸ hc)
        rw [e1, e1']
        refine .ok ?_
        rw [e2, e2']
        exact hl.reload env.build

end Oxml
