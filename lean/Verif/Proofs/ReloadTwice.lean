import Verif.Proofs.TreeEdits
import Verif.Proofs.WorksheetLoad
/-!
# Saving and loading twice
-/
namespace Oxml
open Spec

/-! ### Attributes -/

theorem sortAttrs_sorted (a : Attrs) : (sortAttrs a).Pairwise (fun x y => x.1 ≤ y.1) := by
  have ins : ∀ (x : String × String) (l : Attrs), l.Pairwise (fun x y => x.1 ≤ y.1) → (insertByKey x l).Pairwise (fun x y => x.1 ≤ y.1) := by
    intro x l h
    induction l with
    | nil => simp [insertByKey]
    | cons y l ih =>
      unfold insertByKey
      have h' := List.pairwise_cons.mp h
      split
      · next hle =>
        refine List.pairwise_cons.mpr ⟨?_, h⟩
        intro z hz
        rcases List.mem_cons.mp hz with rfl | hz
        · exact hle
        · exact String.le_trans hle (h'.1 z hz)
      · next hle =>
        refine List.pairwise_cons.mpr ⟨?_, ih h'.2⟩
        intro z hz
        rcases List.mem_cons.mp ((insertByKey_perm x l).mem_iff.mp hz) with rfl | hz
        · exact (String.le_total y.1 z.1).resolve_right hle
        · exact h'.1 z hz
  induction a with
  | nil => exact List.Pairwise.nil
  | cons x xs ih => exact ins x _ ih

theorem sortAttrs_eq_self {a : Attrs} (h : a.Pairwise (fun x y => x.1 ≤ y.1)) : sortAttrs a = a := by
  induction a with
  | nil => rfl
  | cons x xs ih =>
    have h' := List.pairwise_cons.mp h
    change insertByKey x (sortAttrs xs) = _
    rw [ih h'.2]
    cases xs with
    | nil => rfl
    | cons y ys =>
      unfold insertByKey
      rw [if_pos (h'.1 y List.mem_cons_self)]

theorem sortAttrs_twice (a : Attrs) : sortAttrs (sortAttrs a) = sortAttrs a := sortAttrs_eq_self (sortAttrs_sorted a)

/-- Attribute values escaped once. -/
def escAttrs (a : Attrs) : Attrs := a.map (fun kv => (kv.1, attrReload kv.2))

theorem sortAttrs_esc (a : Attrs) : sortAttrs (escAttrs a) = escAttrs (sortAttrs a) := by
  have ins : ∀ (x : String × String) (l : Attrs), insertByKey (x.1, attrReload x.2) (escAttrs l) = escAttrs (insertByKey x l) := by
    intro x l
    induction l with
    | nil => rfl
    | cons y l ih =>
      change insertByKey (x.1, attrReload x.2) ((y.1, attrReload y.2) :: escAttrs l) = _
      unfold insertByKey
      simp only
      split
      · rfl
      · rw [ih]; rfl
  induction a with
  | nil => rfl
  | cons x xs ih =>
    change insertByKey (x.1, attrReload x.2) (sortAttrs (escAttrs xs)) = _
    rw [ih, ins]
    rfl

theorem reloadAttrs_some (a : Attrs) : reloadAttrs (some a) = escAttrs (sortAttrs a) := rfl

theorem reloadAttrs_twice (a : Option Attrs) : reloadAttrs (some (reloadAttrs a)) = reloadAttrs (a.map escAttrs) := by
  cases a with
  | none => rfl
  | some a => rw [Option.map_some, reloadAttrs_some, reloadAttrs_some, reloadAttrs_some, sortAttrs_esc, sortAttrs_esc, sortAttrs_twice]

/-! ### Texts -/

theorem dropWhile_twice {α : Type} (P : α → Bool) (l : List α) : (l.dropWhile P).dropWhile P = l.dropWhile P := by
  induction l with
  | nil => rfl
  | cons x l ih =>
    cases h : P x with
    | true => rw [List.dropWhile_cons_of_pos h]; exact ih
    | false => rw [List.dropWhile_cons_of_neg (by simp [h]), List.dropWhile_cons_of_neg (by simp [h])]

theorem dropWhile_of_head {α : Type} {P : α → Bool} {l : List α} (h : ∀ x, l.head? = some x → P x = false) : l.dropWhile P = l := by
  cases l with
  | nil => rfl
  | cons x l => rw [List.dropWhile_cons_of_neg (by simp [h x rfl])]

theorem head_dropWhile {α : Type} {P : α → Bool} {l : List α} {x : α} (h : (l.dropWhile P).head? = some x) : P x = false := by
  induction l with
  | nil => cases h
  | cons y l ih =>
    cases hy : P y with
    | true => rw [List.dropWhile_cons_of_pos hy] at h; exact ih h
    | false => rw [List.dropWhile_cons_of_neg (by simp [hy])] at h; cases h; exact hy

theorem trimXml_twice (s : List Char) : trimXml (trimXml s) = trimXml s := by
  have h1 : (trimXml s).dropWhile isXmlSpace = trimXml s := by
    apply dropWhile_of_head
    intro x hx
    unfold trimXml at hx
    rw [List.head?_reverse] at hx
    have hsuf : (s.dropWhile isXmlSpace).reverse.dropWhile isXmlSpace <:+ (s.dropWhile isXmlSpace).reverse := List.dropWhile_suffix _
    obtain ⟨pre, hp⟩ := hsuf
    have : (s.dropWhile isXmlSpace).reverse.getLast? = some x := by
      rw [← hp, List.getLast?_append, hx]; rfl
    rw [List.getLast?_reverse] at this
    exact head_dropWhile this
  unfold trimXml at h1 ⊢
  rw [h1, List.reverse_reverse, dropWhile_twice]

theorem reloadText_twice (v : String) : (reloadText v).bind reloadText = reloadText v := by
  unfold reloadText
  by_cases h : trimXml v.toList = []
  · rw [if_pos h]; rfl
  · rw [if_neg h, Option.bind_some, String.toList_ofList, trimXml_twice, if_neg h]

/-! ### Elements -/

mutual
/-- The element with its attribute values, and those of the elements below, escaped once. -/
def escNode : Node → Node
  | .mk tag attrs value cs => .mk tag (attrs.map escAttrs) value (escNodes cs)
def escNodes : List Node → List Node
  | [] => []
  | c :: cs => escNode c :: escNodes cs
end

theorem escNodes_eq (l : List Node) : escNodes l = l.map escNode := by
  induction l with
  | nil => rfl
  | cons c l ih => rw [escNodes, ih]; rfl

theorem escNode_tag (n : Node) : (escNode n).tag = n.tag := by
  cases n; rw [escNode]; rfl

mutual
theorem reload_twice : ∀ n : Node, reload (reload n) = reload (escNode n)
  | .mk tag attrs value cs => by
    rw [escNode]
    cases value with
    | none => simp only [reload]; rw [reloadAttrs_twice, reloads_twice]
    | some v =>
      simp only [reload]
      have h := reloadText_twice v
      cases hv : reloadText v with
      | none => simp only [reloads]; rw [reloadAttrs_twice]
      | some w =>
        rw [hv] at h
        simp only
        rw [reloadAttrs_twice]
        rw [show reloadText w = some w from h]
theorem reloads_twice : ∀ l : List Node, reloads (reloads l) = reloads (escNodes l)
  | [] => rfl
  | c :: cs => by
    rw [escNodes, reloads, reloads, reloads, reload_twice c, reloads_twice cs]
end

/-! ### A sheet -/

theorem attrReload_self {v : String} (h : NoSpecials v) : attrReload v = v := escStr_eq_self h

/-- A cell with its string attribute escaped once. -/
def escCell (c : CellProps) : CellProps := { c with metadata := c.metadata.map attrReload }

/-- Row properties with the string attribute escaped once. -/
def escRowProps (p : RowProps) : RowProps := { p with span := p.span.map attrReload }

def escRow (kv : Nat × RowData) : Nat × RowData :=
  (kv.1, { props := escRowProps kv.2.props, cells := kv.2.cells.map (fun cs => cs.map (fun c => (c.1, escCell c.2))) })

/-- The sheet with its string attributes escaped once. -/
def escSheet (s : Sheet) : Sheet :=
  { s with views := s.views.map reloadView, data := s.data.map (fun d => d.map escRow) }

theorem escAttrs_present (tbl : List (String × Option String)) :
    escAttrs (present tbl) = present (tbl.map (fun kv => (kv.1, kv.2.map attrReload))) := by
  induction tbl with
  | nil => rfl
  | cons x l ih =>
    obtain ⟨k, v⟩ := x
    cases v with
    | none => exact ih
    | some v =>
      change (k, attrReload v) :: escAttrs (present l) = (k, attrReload v) :: present (l.map _)
      rw [ih]

theorem esc_opt {v : Option String} (h : ∀ t, v = some t → NoSpecials t) : v.map attrReload = v := by
  cases v with
  | none => rfl
  | some t => rw [Option.map_some, attrReload_self (h t rfl)]

theorem esc_flag {α : Type} (v : Option α) : (v.map (fun _ => "1")).map attrReload = v.map (fun _ => "1") :=
  esc_opt (by intro t ht; cases v <;> cases ht; change NoSpecials "1"; unfold NoSpecials; decide)

theorem esc_nat (v : Option Nat) : (v.map toString).map attrReload = v.map toString :=
  esc_opt (by intro t ht; cases v <;> cases ht; exact noSpecials_nat _)

theorem esc_int (v : Option Int) : (v.map toString).map attrReload = v.map toString :=
  esc_opt (by intro t ht; cases v <;> cases ht; exact noSpecials_int _)

theorem esc_bool (v : Option Bool) : (v.map boolXmlFlag).map attrReload = v.map boolXmlFlag :=
  esc_opt (by intro t ht; cases v with | none => cases ht | some b => cases ht; cases b <;> unfold NoSpecials <;> decide)

theorem esc_colNode {env : Env} {c : ColProps} (h : ColFit env c) : escNode (colNode c) = colNode c := by
  unfold colNode
  rw [escNode, Option.map_some, escAttrs_present]
  unfold colTable
  simp only [List.map_cons, List.map_nil, Option.map_some, esc_flag, esc_nat, attrReload_self (noSpecials_nat _), escNodes]
  rw [esc_opt (fun t ht => noSpecials_float (h.2.2.2 t ht).1)]

theorem esc_viewNode (v : View) : escNode (viewNode v) = viewNode (reloadView v) := by
  unfold viewNode
  rw [escNode, Option.map_some, escAttrs_present]
  unfold viewTable reloadView
  simp only [List.map_cons, List.map_nil, Option.map_some, esc_bool, esc_int, escNodes]

theorem esc_cellChildren (c : CellProps) : escNodes (cellChildren c) = cellChildren (escCell c) := by
  unfold cellChildren escCell
  rw [escNodes_eq]
  cases c.type <;> cases c.formula <;> simp [escNode, escNodes]

theorem esc_cellNode {row : Nat} {kv : Nat × CellProps} {n : Node} (h : cellNode row kv = .ok n) :
    cellNode row (kv.1, escCell kv.2) = .ok (escNode n) := by
  unfold cellNode at h ⊢
  simp only
  cases hr : getColumnRef kv.1 with
  | error e => rw [hr] at h; cases h
  | ok ref =>
    rw [hr] at h
    cases h
    simp only
    rw [escNode, Option.map_some, escAttrs_present, esc_cellChildren]
    unfold cellTable
    have ht : ∀ t : CellType, Option.map attrReload (if t ≠ .number then some t.text else none) = (if t ≠ .number then some t.text else none) := by
      intro t
      apply esc_opt
      intro w hw
      split at hw
      · cases hw; cases t <;> unfold NoSpecials <;> decide
      · cases hw
    simp only [List.map_cons, List.map_nil, Option.map_some, esc_nat, esc_flag, ht, attrReload_self (noSpecials_append (noSpecials_colRef hr) (noSpecials_nat _))]
    rfl

theorem mapRes_esc {α : Type} {f : α → Res Node} {g : α → α} {l : List α} {ns : List Node} (hf : ∀ a ∈ l, ∀ n, f a = .ok n → f (g a) = .ok (escNode n))
    (h : mapRes f l = .ok ns) : mapRes f (l.map g) = .ok (ns.map escNode) := by
  induction l generalizing ns with
  | nil => cases h; rfl
  | cons a l ih =>
    unfold mapRes at h
    rw [List.map_cons]
    unfold mapRes
    cases ha : f a with
    | error e => rw [ha] at h; cases h
    | ok n =>
      rw [ha] at h
      simp only at h
      rw [hf a List.mem_cons_self n ha]
      simp only
      cases hl : mapRes f l with
      | error e => rw [hl] at h; cases h
      | ok ns' =>
        rw [hl] at h
        cases h
        rw [ih (fun b hb => hf b (List.mem_cons_of_mem _ hb)) hl]
        rfl

theorem esc_rowNode {env : Env} {kv : Nat × RowData} {n : Node} (hf : RowFit env kv) (h : rowNode kv = .ok n) : rowNode (escRow kv) = .ok (escNode n) := by
  unfold rowNode at h ⊢
  have hc : (escRow kv).2.cells.getD [] = (kv.2.cells.getD []).map (fun c => (c.1, escCell c.2)) := by
    unfold escRow; cases kv.2.cells <;> rfl
  cases hm : mapRes (cellNode kv.1) (kv.2.cells.getD []) with
  | error e => rw [hm] at h; cases h
  | ok cs =>
    rw [hm] at h
    cases h
    rw [hc, show (escRow kv).1 = kv.1 from rfl, mapRes_esc (fun a _ n hn => esc_cellNode hn) hm]
    simp only
    rw [escNode, Option.map_some, escAttrs_present, escNodes_eq]
    unfold rowTable
    simp only [List.map_cons, List.map_nil, Option.map_some, esc_nat, esc_flag, attrReload_self (noSpecials_nat _)]
    rw [esc_opt (v := kv.2.props.height) (fun t ht => noSpecials_float (hf.2.1.2.2 t ht).1)]
    rfl

/-! ### Placing the parts -/

theorem lastNodeIdx_esc (t : String) (cs : List Node) : insertNodeAfter.lastNodeIdx t (cs.map escNode) = insertNodeAfter.lastNodeIdx t cs := by
  induction cs with
  | nil => rfl
  | cons c cs ih => rw [List.map_cons, insertNodeAfter.lastNodeIdx, insertNodeAfter.lastNodeIdx, ih, escNode_tag]

theorem insertNodeAfter_esc (n : Node) (t : String) (cs : List Node) :
    (insertNodeAfter n t cs).map escNode = insertNodeAfter (escNode n) t (cs.map escNode) := by
  unfold insertNodeAfter
  rw [lastNodeIdx_esc]
  cases insertNodeAfter.lastNodeIdx t cs with
  | none => simp
  | some i => simp [List.map_take, List.map_drop]

theorem orderChildren_esc (sk : List String) (cs : List Node) :
    (orderChildren Node.tag sk cs).map escNode = orderChildren Node.tag sk (cs.map escNode) := by
  unfold orderChildren
  by_cases h : cs ≠ [] ∧ sk ≠ []
  · rw [if_pos h, if_pos ⟨by simpa using h.1, h.2⟩, ← stableSort_map escNode (fun c => orderKey sk c.tag)]
    congr 1
    apply stableSort_congr
    intro c _
    rw [escNode_tag]
  · rw [if_neg h, if_neg (by simpa using h)]

theorem place_esc {env : Env} {ref : String} (hr : NoSpecials ref) {cols : Option (List ColProps)} (hcol : ∀ cs, cols = some cs → ∀ c ∈ cs, ColFit env c)
    (views : List View) (rows : Option (List Node)) (cs : List Node) :
    (placeSheetParts ref cols views rows cs).map escNode =
      placeSheetParts ref cols (views.map reloadView) (rows.map (fun l => l.map escNode)) (cs.map escNode) := by
  have hdim : escNode (.mk "dimension" (some [("ref", ref)]) none []) = .mk "dimension" (some [("ref", ref)]) none [] := by
    rw [escNode]; simp [escAttrs, attrReload_self hr, escNodes]
  have hviews : escNode (.mk "sheetViews" none none (views.reverse.map viewNode)) = .mk "sheetViews" none none ((views.map reloadView).reverse.map viewNode) := by
    rw [escNode, escNodes_eq, List.map_map, ← List.map_reverse, List.map_map]
    simp only [Option.map_none, Node.mk.injEq, true_and]
    exact List.map_congr_left (fun v _ => esc_viewNode v)
  unfold placeSheetParts
  simp only
  rw [orderChildren_esc]
  congr 1
  have h1 : ∀ ns : List Node, escNode (.mk "sheetData" none none ns) = .mk "sheetData" none none (ns.map escNode) := by
    intro ns; rw [escNode, escNodes_eq]; rfl
  have h2 : ∀ l : List ColProps, (∀ c ∈ l, ColFit env c) → escNode (.mk "cols" none none (l.map colNode)) = .mk "cols" none none (l.map colNode) := by
    intro l hl
    rw [escNode, escNodes_eq, List.map_map, List.map_congr_left (f := escNode ∘ colNode) (g := colNode) (fun y hy => esc_colNode (hl y hy))]
    rfl
  have h3 : ∀ cs : List Node, (cs ++ [Node.mk "dimension" (some [("ref", ref)]) none []]).map escNode = cs.map escNode ++ [Node.mk "dimension" (some [("ref", ref)]) none []] := by
    intro cs; rw [List.map_append, List.map_cons, List.map_nil, hdim]
  cases cols with
  | none => cases rows <;> simp only [Option.map_none, Option.map_some, insertNodeAfter_esc, h1, h3, hviews]
  | some l =>
    cases l with
    | nil => cases rows <;> simp only [Option.map_none, Option.map_some, insertNodeAfter_esc, h1, h3, hviews]
    | cons c rest =>
      have h4 := h2 _ (hcol _ rfl)
      cases rows <;> simp only [Option.map_none, Option.map_some, insertNodeAfter_esc, h1, h3, h4, hviews]

theorem dimensionRef_plain {s : Sheet} {ref : String} (h : s.dimensionRef = .ok ref) : NoSpecials ref := by
  unfold Sheet.dimensionRef at h
  split at h
  · cases h; unfold NoSpecials; decide
  · split at h
    · next ha hb =>
      cases h
      exact noSpecials_append (noSpecials_append (noSpecials_append (noSpecials_append (noSpecials_colRef ha) (noSpecials_nat _)) (by unfold NoSpecials; decide)) (noSpecials_colRef hb)) (noSpecials_nat _)
    · cases h
    · cases h

theorem dimensionRef_esc (s : Sheet) : (escSheet s).dimensionRef = s.dimensionRef := by
  have : (escSheet s).data.bind rowBounds = s.data.bind rowBounds := by
    unfold escSheet
    cases s.data with
    | none => rfl
    | some d =>
      simp only [Option.map_some, Option.bind_some, rowBounds, List.head?_map, List.getLast?_map]
      cases d.head? <;> cases d.getLast? <;> rfl
  unfold Sheet.dimensionRef
  rw [this]
  rfl

/-- The escaped sheet is saved as the escaped document. -/
theorem save_esc {env : Env} {s : Sheet} {x y x' : XDoc} {t : String} {a : Option Attrs} (hf : FitsTypes env s) (hx : x.root = some (.mk t a none []))
    (hy : y.root = some (.mk t a none [])) (h : s.save x = .ok x') : x'.ns = x.ns ∧
    ∃ y', (escSheet s).save y = .ok y' ∧ y'.ns = y.ns ∧ ∃ cs, x'.root = some (.mk t a none cs) ∧ y'.root = some (.mk t a none (escNodes cs)) := by
  unfold Sheet.save at h ⊢
  rw [dimensionRef_esc]
  cases hr : s.dimensionRef with
  | error e => rw [hr] at h; cases h
  | ok ref =>
    rw [hr] at h
    simp only [hx] at h
    simp only [hy]
    have hp := dimensionRef_plain hr
    cases hd : s.data with
    | none =>
      rw [hd] at h
      cases h
      have : (escSheet s).data = none := by unfold escSheet; rw [hd]; rfl
      rw [this]
      refine ⟨rfl, _, rfl, rfl, placeSheetParts ref s.cols s.views none [], ?_, ?_⟩
      · unfold XDoc.mapRootChildren; rw [hx]; rfl
      · rw [escNodes_eq, place_esc hp hf.cols]
        unfold XDoc.mapRootChildren; rw [hy]; rfl
    | some d =>
      rw [hd] at h
      have : (escSheet s).data = some (d.map escRow) := by unfold escSheet; rw [hd]; rfl
      rw [this]
      simp only at h ⊢
      cases hm : mapRes rowNode d with
      | error e => rw [hm] at h; cases h
      | ok ns =>
        rw [hm] at h
        cases h
        rw [mapRes_esc (fun a ha n hn => esc_rowNode (hf.rows d hd a ha) hn) hm]
        refine ⟨rfl, _, rfl, rfl, placeSheetParts ref s.cols s.views (some ns) [], ?_, ?_⟩
        · unfold XDoc.mapRootChildren; rw [hx]; rfl
        · rw [escNodes_eq, place_esc hp hf.cols]
          unfold XDoc.mapRootChildren; rw [hy]; rfl

theorem escSheet_fits {env : Env} {s : Sheet} (h : FitsTypes env s) : FitsTypes env (escSheet s) := by
  refine ⟨?_, h.cols, ?_⟩
  · intro d hd kv hkv
    cases hs : s.data with
    | none => unfold escSheet at hd; rw [hs] at hd; cases hd
    | some d0 =>
      have : d = d0.map escRow := by unfold escSheet at hd; rw [hs] at hd; cases hd; rfl
      subst this
      obtain ⟨kv0, h0, rfl⟩ := List.mem_map.mp hkv
      obtain ⟨b1, b2, b3⟩ := h.rows d0 hs kv0 h0
      refine ⟨b1, b2, ?_⟩
      intro cs hcs c hc
      cases h4 : kv0.2.cells with
      | none => unfold escRow at hcs; rw [h4] at hcs; cases hcs
      | some cs0 =>
        have : cs = cs0.map (fun c => (c.1, escCell c.2)) := by unfold escRow at hcs; rw [h4] at hcs; cases hcs; rfl
        subst this
        obtain ⟨c0, h5, rfl⟩ := List.mem_map.mp hc
        exact b3 cs0 h4 c0 h5
  · intro v hv
    obtain ⟨v0, h0, rfl⟩ := List.mem_map.mp hv
    exact h.views v0 h0

theorem sortedKeys_map {V W : Type} (f : V → W) {m : List (Nat × V)} (h : SortedKeys m) : SortedKeys (m.map (fun kv => (kv.1, f kv.2))) := by
  unfold SortedKeys at h ⊢
  rw [show akeys (m.map (fun kv => (kv.1, f kv.2))) = akeys m by unfold akeys; rw [List.map_map]; rfl]
  exact h

theorem escSheet_sorted {s : Sheet} (h : SortedSheet s) : SortedSheet (escSheet s) := by
  intro d hd
  cases hs : s.data with
  | none => unfold escSheet at hd; rw [hs] at hd; cases hd
  | some d0 =>
    have he : d = d0.map escRow := by unfold escSheet at hd; rw [hs] at hd; cases hd; rfl
    subst he
    obtain ⟨h1, h2⟩ := h d0 hs
    refine ⟨sortedKeys_map (fun rd => (escRow (0, rd)).2) h1, ?_⟩
    intro r rd cs hr hcs
    have hm := mem_of_aget hr
    obtain ⟨kv, hkv, e⟩ := List.mem_map.mp hm
    cases e
    cases hc : kv.2.cells with
    | none => simp only [hc] at hcs; cases hcs
    | some cs0 =>
      simp only [hc, Option.map_some] at hcs
      cases hcs
      exact sortedKeys_map _ (h2 kv.1 kv.2 cs0 (aget_of_mem h1.nodup hkv) hc)

/-- **Reload twice.** The part of a sheet read, written unchanged and read again loads as the sheet whose string
attributes were escaped twice. -/
theorem reload_sheet_twice (env : Env) (hst : env.build.release = true → StampOk env.stamp) {s : Sheet} {x x' : XDoc} {t : String}
    (hs : SortedSheet s) (hf : FitsTypes env s) (hx : WfDoc env.uni x (.mk t (some []) none [])) (h : s.save x = .ok x') :
    ∃ d, readXml env.uni (renderDoc env.build env.stamp (reloadDoc env.build x')) = .ok d ∧
      d.toXDoc = reloadDoc env.build (reloadDoc env.build x') ∧ (Sheet.load env d.toXDoc).1 = .ok (reloadSheet (escSheet s)) := by
  have hy : WfDoc env.uni { x with ns := releaseNs env.build x.ns } (.mk t (some []) none []) :=
    ⟨hx.isRoot, hx.names, wfNs_release env.build hx.ns, cleanUris_release env.build hx.uris⟩
  obtain ⟨cs', hw, hcs', hne⟩ := wf_saved env.uni hx (by simp) h
  obtain ⟨e0, y', h1, h2, cs, h3, h4⟩ := save_esc (y := { x with ns := releaseNs env.build x.ns }) hf hx.isRoot hy.isRoot h
  have hroot : (reloadDoc env.build x').root = some (.mk t (some []) none (reloads cs')) := by
    unfold reloadDoc; rw [hw.isRoot]; rfl
  have hcs : cs = cs' := by
    have := hw.isRoot
    rw [h3] at this
    cases this; rfl
  subst hcs
  have hwf : WfDoc env.uni (reloadDoc env.build x') (.mk t (some []) none (reloads cs)) :=
    ⟨hroot, wfNode_reload _ hw.names, wfNs_release env.build hw.ns, cleanUris_release env.build hw.uris⟩
  obtain ⟨d, hd1, hd2⟩ := read_doc env hst hwf (by
    intro e
    apply hne
    cases cs with
    | nil => rfl
    | cons c cs => cases e)
  refine ⟨d, hd1, hd2, ?_⟩
  obtain ⟨d', hd1', hd2', hd3⟩ := reload_sheet env hst (escSheet_sorted hs) (escSheet_fits hf) hy (by simp) h1
  have he : reloadDoc env.build (reloadDoc env.build x') = reloadDoc env.build y' := by
    unfold reloadDoc
    rw [h2, h4, h3, e0]
    simp only [Option.map_some]
    rw [reload_twice]
    rfl
  rw [hd2, he, ← hd2']
  exact hd3

end Oxml
