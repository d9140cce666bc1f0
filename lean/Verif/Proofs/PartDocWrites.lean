import Verif.Proofs.PartWrites
/-!
# Saving workbook, worksheets and styles, as programs over the arena
-/
namespace Oxml
open Spec

theorem onKids_root {d : XmlDoc} {n : Node} (hr : d.toXDoc.root = some n) (f : List Node → List Node) :
    { d.toXDoc with root := some (onKids f n) } = d.toXDoc.mapRootChildren f := by
  unfold XDoc.mapRootChildren
  rw [hr]
  cases n
  rfl

theorem onKids_comp (f g : List Node → List Node) (n : Node) : onKids g (onKids f n) = onKids (fun cs => g (f cs)) n := by
  cases n; rfl

theorem withKids_onKids (cs : List Node) (n : Node) : withKids cs n = onKids (fun ks => ks ++ cs) n := by
  cases n; rfl

/-! ## Workbook -/

theorem runs_sheets {u : Unicode} (i : Nat) : ∀ (es : List SheetEntry) (n : Nat),
    Runs u (fun d => arenaSheets u i n es d) i (.ok (withKids (sheetNodes n es)))
  | [], n => runs_congr runs_id (fun m => (withKids_nil m).symm)
  | e :: es, n => by
    have h1 : Runs u (fun d => d.appendChild u "sheet" i >>= fun p => p.1.setAttribute u p.2 (present [("name", some e.name),
        ("sheetId", some (toString n)), ("r:id", some e.relId), ("state", if e.hide then some "hidden" else none)])) i
        (.ok (withKids [sheetNode n e])) := runs_attrs i (by kernel_rfl) (plain_present (by kernel_rfl) (by simp))
    have h2 := runs_seq h1 (runs_sheets i es (n + 1))
    have h3 : ∀ d, arenaSheets u i n (e :: es) d = ((d.appendChild u "sheet" i >>= fun p => p.1.setAttribute u p.2 (present [("name", some e.name),
        ("sheetId", some (toString n)), ("r:id", some e.relId), ("state", if e.hide then some "hidden" else none)])) >>=
        fun d => arenaSheets u i (n + 1) es d) := by
      intro d
      conv => lhs; unfold arenaSheets
      cases d.appendChild u "sheet" i with
      | error er => rfl
      | ok p => rfl
    have h4 : (fun d => arenaSheets u i n (e :: es) d) = fun d => ((d.appendChild u "sheet" i >>= fun p => p.1.setAttribute u p.2 (present [("name", some e.name),
        ("sheetId", some (toString n)), ("r:id", some e.relId), ("state", if e.hide then some "hidden" else none)])) >>=
        fun d => arenaSheets u i (n + 1) es d) := funext h3
    rw [h4]
    exact runs_congr h2 (fun m => withKids_comp _ _ m)

theorem runs_root_order {u : Unicode} (sk : List String) : Runs u (orderRoot sk) 0 (.ok (onKids (orderChildren Node.tag sk))) := by
  intro d hinv hi
  obtain ⟨d', h1, h2⟩ := runs_order (u := u) (sk := sk) 0 d hinv hi
  refine ⟨d', ?_, h2⟩
  unfold orderRoot
  cases he : d.get 0 with
  | none => exact absurd he hi
  | some e => exact h1

/-- The list of sheets written below the root. -/
theorem runs_sheetList {u : Unicode} (sheets : List SheetEntry) :
    Runs u (fun d => d.insertAfter u "sheets" "bookViews" 0 >>= fun p => arenaSheets u p.2 1 sheets p.1) 0
      (.ok (onKids (insertNodeAfter (.mk "sheets" none none (sheetNodes 1 sheets)) "bookViews"))) :=
  runs_after 0 (by kernel_rfl) (fun j => runs_sheets j sheets 1)

theorem runs_bookView {u : Unicode} (v : BookView) :
    Runs u (fun d => d.insertAfter u "bookViews" "fileVersion" 0 >>= fun p => p.1.appendChild u "workbookView" p.2 >>= fun q =>
      q.1.setAttribute u q.2 (present (bookViewTable v))) 0
      (.ok (onKids (insertNodeAfter (.mk "bookViews" none none [bookViewNode v]) "fileVersion"))) :=
  runs_after 0 (by kernel_rfl) (fun j => runs_attrs j (by kernel_rfl) (plain_present (by kernel_rfl) (by simp [bookViewTable])))

theorem arenaSaveBook_some {u : Unicode} (sheets : List SheetEntry) (v : BookView) (d : XmlDoc) :
    arenaSaveBook u sheets (some v) d = ((d.insertAfter u "bookViews" "fileVersion" 0 >>= fun p => p.1.appendChild u "workbookView" p.2 >>= fun q =>
      q.1.setAttribute u q.2 (present (bookViewTable v))) >>= fun d => ((d.insertAfter u "sheets" "bookViews" 0 >>= fun p =>
        arenaSheets u p.2 1 sheets p.1) >>= orderRoot workbookOrder)) := by
  unfold arenaSaveBook
  simp only [bind, Except.bind]
  cases d.insertAfter u "bookViews" "fileVersion" 0 with
  | error er => rfl
  | ok p =>
    simp only
    cases p.1.appendChild u "workbookView" p.2 with
    | error er => rfl
    | ok q =>
      simp only
      cases q.1.setAttribute u q.2 (present (bookViewTable v)) with
      | error er => rfl
      | ok d1 =>
        simp only
        cases d1.insertAfter u "sheets" "bookViews" 0 with
        | error er => rfl
        | ok p => rfl

theorem arenaSaveBook_none {u : Unicode} (sheets : List SheetEntry) (d : XmlDoc) :
    arenaSaveBook u sheets none d = ((d.insertAfter u "sheets" "bookViews" 0 >>= fun p =>
        arenaSheets u p.2 1 sheets p.1) >>= orderRoot workbookOrder) := by
  unfold arenaSaveBook
  simp only [bind, Except.bind]
  cases d.insertAfter u "sheets" "bookViews" 0 with
  | error er => rfl
  | ok p => rfl

theorem arenaSaveBook_eq {u : Unicode} {d : XmlDoc} (hinv : d.Inv) (sheets : List SheetEntry) (view : Option BookView) :
    Writes u d (arenaSaveBook u sheets view d) (saveBook sheets view d.toXDoc) := by
  unfold saveBook
  cases hr : d.toXDoc.root with
  | none =>
    have h0 := root_none hinv hr
    cases view with
    | none =>
      rw [arenaSaveBook_none, XmlDoc.insertAfter, insertWith_none h0]
      exact writes_error
    | some v =>
      rw [arenaSaveBook_some, XmlDoc.insertAfter, insertWith_none h0]
      exact writes_error
  | some n =>
    have hs := runs_seq (runs_sheetList (u := u) sheets) (runs_root_order workbookOrder)
    cases view with
    | none =>
      rw [arenaSaveBook_none]
      have hw := runs_writes hs hinv hr
      rw [← onKids_root hr]
      simp only [Except.map, onKids_comp] at hw
      exact hw
    | some v =>
      rw [arenaSaveBook_some]
      have hw := runs_writes (runs_seq (runs_bookView v) hs) hinv hr
      rw [← onKids_root hr]
      simp only [Except.map, onKids_comp] at hw
      exact hw

/-! ## Worksheet -/

theorem runs_formula {u : Unicode} (i : Nat) (f : Option String) : Runs u (arenaFormula u i f) i
    (.ok (withKids (match f with | none => [] | some f => [.mk "f" none (some f) []]))) := by
  cases f with
  | none => exact runs_congr runs_id (fun m => (withKids_nil m).symm)
  | some f => exact runs_text i (by kernel_rfl) f

theorem runs_cellKids {u : Unicode} (i : Nat) (c : CellProps) : Runs u (arenaCellKids u i c) i (.ok (withKids (cellChildren c))) := by
  have hv := runs_text (u := u) (tag := "v") i (by kernel_rfl) (c.value.getD "")
  have hf := runs_congr (runs_seq (runs_formula i c.formula) hv) (fun m => withKids_comp _ _ m)
  have hi := runs_append (u := u) (tag := "is") i (by kernel_rfl) (fun k => runs_text (tag := "t") k (by kernel_rfl) (c.value.getD ""))
  unfold cellChildren arenaCellKids
  generalize c.type = t
  cases t with
  | inlineString => exact hi
  | _ => exact hf

theorem runs_cell {u : Unicode} (row i : Nat) (kv : Nat × CellProps) :
    Runs u (fun d => arenaSaveCell u row i d kv) i ((cellNode row kv).map (fun n => withKids [n])) := by
  let rest (ref : String) (j : Nat) (d : XmlDoc) : Res XmlDoc := d.setAttribute u j (present (cellTable (ref ++ toString row) kv.2)) >>= fun d =>
    arenaCellKids u j kv.2 d
  let body (j : Nat) (d : XmlDoc) : Res XmlDoc := getColumnRef kv.1 >>= fun ref => rest ref j d
  have hprog : (fun d => arenaSaveCell u row i d kv) = fun d => d.appendChild u "c" i >>= fun p => body p.2 p.1 := by
    funext d
    rfl
  rw [hprog]
  unfold cellNode
  cases hc : getColumnRef kv.1 with
  | error e =>
    refine runs_append (r := .error e) i (by kernel_rfl) (fun j => ?_)
    intro d _ _
    change (getColumnRef kv.1 >>= fun ref => rest ref j d) = _
    rw [hc]
    rfl
  | ok ref =>
    have hb : ∀ j, Runs u (body j) j (.ok (fun n => withKids (cellChildren kv.2) (setAttrs (present (cellTable (ref ++ toString row) kv.2)) n))) := by
      intro j
      have := runs_seq (runs_setAttribute (u := u) (plain_present (tbl := cellTable (ref ++ toString row) kv.2) (by kernel_rfl) (by simp [cellTable])) j) (runs_cellKids j kv.2)
      have hbody : body j = rest ref j := by
        funext d
        change (getColumnRef kv.1 >>= fun ref => rest ref j d) = _
        rw [hc]
        rfl
      rw [hbody]
      exact this
    exact runs_append i (by kernel_rfl) hb

theorem runs_cells {u : Unicode} (row i : Nat) (cells : Option (List (Nat × CellProps))) :
    Runs u (arenaCells u row i cells) i ((mapRes (cellNode row) (cells.getD [])).map withKids) := by
  cases cells with
  | none => exact runs_congr runs_id (fun m => (withKids_nil m).symm)
  | some cells => exact runs_fold (fun x => runs_cell row i x) cells

theorem runs_row {u : Unicode} (i : Nat) (kv : Nat × RowData) :
    Runs u (fun d => arenaSaveRow u i d kv) i ((rowNode kv).map (fun n => withKids [n])) := by
  have hb := fun j => runs_seq (runs_setAttribute (u := u) (plain_present (tbl := rowTable kv.1 kv.2.props) (by kernel_rfl) (by simp [rowTable])) j)
    (runs_cells kv.1 j kv.2.cells)
  have := runs_append (u := u) (tag := "row") i (by kernel_rfl) hb
  unfold rowNode
  cases hm : mapRes (cellNode kv.1) (kv.2.cells.getD []) with
  | error e => rw [hm] at this; exact this
  | ok cs => rw [hm] at this; exact this

theorem runs_dimension {u : Unicode} {s : Sheet} {ref : String} (h : s.dimensionRef = .ok ref) :
    Runs u (arenaDimension u s) 0 (.ok (withKids [.mk "dimension" (some [("ref", ref)]) none []])) := by
  have : arenaDimension u s = fun d => d.appendChild u "dimension" 0 >>= fun p => p.1.setAttribute u p.2 [("ref", ref)] := by
    funext d
    unfold arenaDimension
    rw [h]
    rfl
  rw [this]
  exact runs_attrs 0 (by kernel_rfl) (plain_of (by kernel_rfl) (by simp [akeys]))

/-- What `serialize_cols` does to the children of the root. -/
def placeCols (cols : Option (List ColProps)) (cs : List Node) : List Node :=
  match cols with
  | some (c :: rest) => insertNodeAfter (.mk "cols" none none ((c :: rest).map colNode)) "sheetFormatPr" cs
  | _ => cs

theorem onKids_same (n : Node) : onKids (fun cs => cs) n = n := by cases n; rfl

theorem runs_cols {u : Unicode} (s : Sheet) : Runs u (arenaCols u s) 0 (.ok (onKids (placeCols s.cols))) := by
  have hcol : ∀ j c, Runs u (fun d => arenaSaveCol u j d c) j (.ok (withKids [colNode c])) :=
    fun j c => runs_attrs j (by kernel_rfl) (plain_present (by kernel_rfl) (by simp [colTable]))
  unfold arenaCols
  cases s.cols with
  | none => exact runs_congr runs_id (fun m => (onKids_same m).symm)
  | some l =>
    cases l with
    | nil => exact runs_congr runs_id (fun m => (onKids_same m).symm)
    | cons c rest => exact runs_after 0 (by kernel_rfl) (fun j => runs_foldOk (hcol j) (c :: rest))

theorem runs_views {u : Unicode} (s : Sheet) : Runs u (arenaViews u s) 0
    (.ok (onKids (insertNodeAfter (.mk "sheetViews" none none (s.views.reverse.map viewNode)) "dimension"))) := by
  have hview : ∀ j c, Runs u (fun d => arenaSaveView u j d c) j (.ok (withKids [viewNode c])) :=
    fun j c => runs_attrs j (by kernel_rfl) (plain_present (by kernel_rfl) (by simp [viewTable]))
  exact runs_after 0 (by kernel_rfl) (fun j => runs_foldOk (hview j) s.views.reverse)

/-- The rows of a sheet as elements. -/
def sheetRowNodes (s : Sheet) : Res (Option (List Node)) :=
  match s.data with
  | none => .ok none
  | some d => (mapRes rowNode d).map some

/-- What `serialize_sheet_data` does to the children of the root. -/
def placeRows (rows : Option (List Node)) (cs : List Node) : List Node :=
  match rows with
  | some ns => insertNodeAfter (.mk "sheetData" none none ns) "cols" cs
  | none => cs

theorem runs_data {u : Unicode} (s : Sheet) : Runs u (arenaData u s) 0 ((sheetRowNodes s).map (fun r => onKids (placeRows r))) := by
  unfold arenaData sheetRowNodes
  cases s.data with
  | none => exact runs_congr runs_id (fun m => (onKids_same m).symm)
  | some rows =>
    have := runs_after (u := u) (tag := "sheetData") (f := "cols") 0 (by kernel_rfl) (fun j => runs_fold (fun x => runs_row j x) rows)
    simp only
    cases hm : mapRes rowNode rows with
    | error e => rw [hm] at this; exact this
    | ok ns => rw [hm] at this; exact this

theorem sheet_save_root {s : Sheet} {x : XDoc} {ref : String} {n : Node} (hd : s.dimensionRef = .ok ref) (hr : x.root = some n) :
    s.save x = (sheetRowNodes s).map (fun r => x.mapRootChildren (placeSheetParts ref s.cols s.views r)) := by
  unfold Sheet.save sheetRowNodes
  rw [hd]
  simp only [hr]
  cases s.data with
  | none => rfl
  | some rows =>
    simp only
    cases mapRes rowNode rows <;> rfl

theorem arenaSaveSheet_eq {u : Unicode} {d : XmlDoc} (hinv : d.Inv) (s : Sheet) :
    Writes u d (arenaSaveSheet u s d) (s.save d.toXDoc) := by
  have hprog : arenaSaveSheet u s = fun d => arenaDimension u s d >>= fun d => arenaCols u s d >>= fun d => arenaViews u s d >>= fun d =>
      arenaData u s d >>= orderRoot worksheetOrder := rfl
  cases hd : s.dimensionRef with
  | error e =>
    have : arenaSaveSheet u s d = .error e := by
      rw [hprog]
      unfold arenaDimension
      rw [hd]
      rfl
    unfold Sheet.save
    rw [this, hd]
    exact writes_error
  | ok ref =>
    cases hr : d.toXDoc.root with
    | none =>
      have h0 := root_none hinv hr
      have : arenaSaveSheet u s d = .error (.fail "Parent Element Not Found") := by
        rw [hprog]
        unfold arenaDimension
        rw [hd]
        simp only [bind, Except.bind]
        rw [XmlDoc.appendChild, insertWith_none h0]
      unfold Sheet.save
      rw [this, hd]
      simp only [hr]
      exact writes_error
    | some n =>
      have hdata := runs_data (u := u) s
      rw [hprog, sheet_save_root hd hr]
      cases hrows : sheetRowNodes s with
      | error e =>
        rw [hrows] at hdata
        exact runs_writes (runs_seq (runs_dimension hd) (runs_seq (runs_cols s) (runs_seq (runs_views s)
          (runs_seq_error (q := orderRoot worksheetOrder) hdata)))) hinv hr
      | ok rows =>
        rw [hrows] at hdata
        have hw := runs_writes (runs_seq (runs_dimension hd) (runs_seq (runs_cols s) (runs_seq (runs_views s)
          (runs_seq hdata (runs_root_order worksheetOrder))))) hinv hr
        simp only [Except.map, onKids_comp, withKids_onKids] at hw ⊢
        rw [← onKids_root hr]
        exact hw

/-! ## Styles -/

theorem runs_val {u : Unicode} {tag key : String} (i : Nat) (hv : isValidXmlName u tag = true) (hk : NameOk u key = true) (v : String) :
    Runs u (arenaVal u tag i key v) i (.ok (withKids [.mk tag (some [(key, v)]) none []])) :=
  runs_attrs i hv (plain_of (by simpa [akeys] using hk) (by simp [akeys]))

theorem runs_flag {u : Unicode} {tag : String} (i : Nat) (hv : isValidXmlName u tag = true) (b : Bool) :
    Runs u (arenaFlag u b tag i) i (.ok (withKids (if b then [.mk tag none none []] else []))) := by
  unfold arenaFlag
  cases b with
  | true => exact runs_append i hv (fun j => runs_id)
  | false => exact runs_congr runs_id (fun m => (withKids_nil m).symm)

theorem colorKind_ok {u : Unicode} (k : ColorKind) : NameOk u k.text = true := by
  cases k <;> kernel_rfl

theorem runs_color {u : Unicode} {tag : String} (i : Nat) (hv : isValidXmlName u tag = true) (c : Option Color) :
    Runs u (arenaColor u tag i c) i (.ok (withKids (c.map (colorNode tag)).toList)) := by
  unfold arenaColor
  cases c with
  | none => exact runs_congr runs_id (fun m => (withKids_nil m).symm)
  | some c => exact runs_val i hv (colorKind_ok c.kind) c.value

theorem runs_kids {u : Unicode} {p q : XmlDoc → Res XmlDoc} {i : Nat} {a b : List Node}
    (hp : Runs u p i (.ok (withKids a))) (hq : Runs u q i (.ok (withKids b))) : Runs u (fun d => p d >>= q) i (.ok (withKids (a ++ b))) :=
  runs_congr (runs_seq hp hq) (fun m => withKids_comp _ _ m)

theorem runs_font {u : Unicode} (i : Nat) (f : Font) : Runs u (fun d => arenaSaveFont u i d f) i (.ok (withKids [fontNode f])) := by
  have hdu : ∀ j, Runs u (arenaDouble u f.doubleUnderline j) j
      (.ok (withKids (if f.doubleUnderline then [valNode "u" "double"] else []))) := by
    intro j
    unfold arenaDouble
    cases f.doubleUnderline with
    | true => exact runs_val j (by kernel_rfl) (by kernel_rfl) "double"
    | false => exact runs_congr runs_id (fun m => (withKids_nil m).symm)
  have hb := fun j => runs_kids (runs_flag (u := u) (tag := "b") j (by kernel_rfl) f.bold)
    (runs_kids (runs_flag (tag := "i") j (by kernel_rfl) f.italic)
    (runs_kids (runs_flag (tag := "u") j (by kernel_rfl) f.underline)
    (runs_kids (hdu j)
    (runs_kids (runs_val (tag := "sz") (key := "val") j (by kernel_rfl) (by kernel_rfl) (toString f.size))
    (runs_kids (runs_color (tag := "color") j (by kernel_rfl) (some f.color))
    (runs_kids (runs_val (tag := "name") (key := "val") j (by kernel_rfl) (by kernel_rfl) f.name)
    (runs_kids (runs_val (tag := "family") (key := "val") j (by kernel_rfl) (by kernel_rfl) (toString f.family))
    (runs_val (tag := "scheme") (key := "val") j (by kernel_rfl) (by kernel_rfl) f.scheme.text))))))))
  have h : Runs u (fun d => arenaSaveFont u i d f) i (.ok (withKids [withKids ((if f.bold then [.mk "b" none none []] else []) ++
      ((if f.italic then [.mk "i" none none []] else []) ++ ((if f.underline then [.mk "u" none none []] else []) ++
      ((if f.doubleUnderline then [valNode "u" "double"] else []) ++ ([valNode "sz" (toString f.size)] ++ ([colorNode "color" f.color] ++
      ([valNode "name" f.name] ++ ([valNode "family" (toString f.family)] ++ [valNode "scheme" f.scheme.text])))))))) (leaf "font")])) :=
    runs_append i (by kernel_rfl) hb
  have hn : fontNode f = withKids ((if f.bold then [.mk "b" none none []] else []) ++
      ((if f.italic then [.mk "i" none none []] else []) ++ ((if f.underline then [.mk "u" none none []] else []) ++
      ((if f.doubleUnderline then [valNode "u" "double"] else []) ++ ([valNode "sz" (toString f.size)] ++ ([colorNode "color" f.color] ++
      ([valNode "name" f.name] ++ ([valNode "family" (toString f.family)] ++ [valNode "scheme" f.scheme.text])))))))) (leaf "font") := by
    simp [fontNode, withKids, leaf]
  rw [hn]
  exact h

theorem runs_fill {u : Unicode} (i : Nat) (f : Fill) : Runs u (fun d => arenaSaveFill u i d f) i (.ok (withKids [fillNode f])) := by
  have hb := fun j => runs_seq (runs_setAttribute (u := u) (plain_of (a := [("patternType", f.pattern.text)]) (by kernel_rfl) (by simp [akeys])) j)
    (runs_kids (runs_color (tag := "fgColor") j (by kernel_rfl) f.foreground) (runs_color (tag := "bgColor") j (by kernel_rfl) f.background))
  exact runs_append i (by kernel_rfl) (fun j => runs_append (tag := "patternFill") j (by kernel_rfl) hb)

theorem runs_side {u : Unicode} {tag : String} (i : Nat) (hv : isValidXmlName u tag = true) (s : BorderSide) :
    Runs u (arenaSaveSide u tag i s) i (.ok (withKids [sideNode tag s])) := by
  have hb : ∀ j, Runs u (fun d => if s.style ≠ .none then (d.setAttribute u j [("style", s.style.text)] >>= fun d => arenaColor u "color" j s.color d) else .ok d) j
      (.ok (fun n => if s.style ≠ .none then withKids (s.color.map (colorNode "color")).toList (setAttrs [("style", s.style.text)] n) else n)) := by
    intro j
    by_cases h : s.style ≠ .none
    · simp only [if_pos h]
      exact runs_seq (runs_setAttribute (plain_of (by kernel_rfl) (by simp [akeys])) j) (runs_color j (by kernel_rfl) s.color)
    · simp only [if_neg h]
      exact runs_id
  have := runs_append (u := u) (tag := tag) i hv hb
  have hn : sideNode tag s = if s.style ≠ .none then withKids (s.color.map (colorNode "color")).toList (setAttrs [("style", s.style.text)] (leaf tag)) else leaf tag := by
    unfold sideNode
    split <;> rfl
  rw [hn]
  exact this

theorem runs_border {u : Unicode} (i : Nat) (x : Border) : Runs u (fun d => arenaSaveBorder u i d x) i (.ok (withKids [borderNode x])) :=
  runs_append i (by kernel_rfl) (fun j => runs_kids (runs_side j (by kernel_rfl) x.left) (runs_kids (runs_side j (by kernel_rfl) x.right)
    (runs_kids (runs_side j (by kernel_rfl) x.top) (runs_kids (runs_side j (by kernel_rfl) x.bottom) (runs_side j (by kernel_rfl) x.diagonal)))))

theorem runs_xf {u : Unicode} (b : Bool) (i : Nat) (x : Xf) : Runs u (fun d => arenaSaveXf u b i d x) i (.ok (withKids [xfNode b x])) := by
  have ha : ∀ j, Runs u (fun d => if x.wrap > 0 ∨ x.vertical ≠ .none ∨ x.horizontal ≠ .none then
      (d.appendChild u "alignment" j >>= fun p => p.1.setAttribute u p.2 (present (alignTable x))) else .ok d) j
      (.ok (withKids (if x.wrap > 0 ∨ x.vertical ≠ .none ∨ x.horizontal ≠ .none then [.mk "alignment" (some (present (alignTable x))) none []] else []))) := by
    intro j
    by_cases h : x.wrap > 0 ∨ x.vertical ≠ .none ∨ x.horizontal ≠ .none
    · simp only [if_pos h]
      exact runs_attrs j (by kernel_rfl) (plain_present (by kernel_rfl) (by simp [alignTable]))
    · simp only [if_neg h]
      exact runs_congr runs_id (fun m => (withKids_nil m).symm)
  exact runs_append i (by kernel_rfl) (fun j => runs_seq (runs_setAttribute (plain_present (tbl := xfTable b x) (by kernel_rfl) (by simp [xfTable])) j) (ha j))

theorem runs_counted {α : Type} {u : Unicode} {tag after : String} (hv : isValidXmlName u tag = true) {entry : Nat → XmlDoc → α → Res XmlDoc}
    {node : α → Node} (he : ∀ j x, Runs u (fun d => entry j d x) j (.ok (withKids [node x]))) (l : List α) :
    Runs u (arenaCounted u tag after entry l) 0 (.ok (onKids (insertNodeAfter (countedNode tag (l.map node)) after))) := by
  have hb := fun j => runs_seq (runs_setAttribute (u := u) (plain_of (a := [("count", toString l.length)]) (by kernel_rfl) (by simp [akeys])) j) (runs_foldOk (he j) l)
  have := runs_after (u := u) (f := after) 0 hv hb
  refine runs_congr (g := onKids (insertNodeAfter _ after)) this ?_
  intro n
  congr 2
  simp [countedNode, withKids, setAttrs, leaf]

theorem arenaSaveStyles_eq {u : Unicode} {d : XmlDoc} (hinv : d.Inv) (st : Styles) :
    Writes u d (arenaSaveStyles u st d) (st.save d.toXDoc) := by
  let first (d : XmlDoc) : Res XmlDoc := d.insertAt u "numFmts" 0 0 >>= fun p => p.1.setAttribute u p.2 [("count", toString st.numFmts.length)] >>= fun d =>
    st.numFmts.foldlM (arenaSaveNumFmt u p.2) d
  have hprog : arenaSaveStyles u st d = (first d >>= fun d =>
      arenaCounted u "fonts" "numFmts" (arenaSaveFont u) st.fonts d >>= fun d => arenaCounted u "fills" "fonts" (arenaSaveFill u) st.fills d >>= fun d =>
      arenaCounted u "borders" "fills" (arenaSaveBorder u) st.borders d >>= fun d => arenaCounted u "cellXfs" "borders" (arenaSaveXf u true) st.xfs d >>= fun d =>
      arenaCounted u "cellStyleXfs" "borders" (arenaSaveXf u false) st.styleXfs d) := by
    unfold arenaSaveStyles
    change _ = ((d.insertAt u "numFmts" 0 0 >>= _) >>= _)
    simp only [bind, Except.bind]
    cases d.insertAt u "numFmts" 0 0 with
    | error er => rfl
    | ok p =>
      simp only
      cases p.1.setAttribute u p.2 [("count", toString st.numFmts.length)] with
      | error er => rfl
      | ok d1 => rfl
  have hnf : ∀ j f, Runs u (fun d => arenaSaveNumFmt u j d f) j (.ok (withKids [numFmtNode f])) :=
    fun j f => runs_attrs j (by kernel_rfl) (plain_of (by kernel_rfl) (by simp [akeys]))
  have hfirst : Runs u first 0 (.ok (onKids (fun cs => countedNode "numFmts" (st.numFmts.map numFmtNode) :: cs))) := by
    have hb := fun j => runs_seq (runs_setAttribute (u := u) (plain_of (a := [("count", toString st.numFmts.length)]) (by kernel_rfl) (by simp [akeys])) j)
      (runs_foldOk (hnf j) st.numFmts)
    have := runs_front (u := u) (tag := "numFmts") 0 (by kernel_rfl) hb
    refine runs_congr (g := onKids (fun cs => _ :: cs)) this ?_
    intro n
    congr 2
    funext cs
    simp [countedNode, withKids, setAttrs, leaf]
  unfold Styles.save
  rw [hprog]
  cases hr : d.toXDoc.root with
  | none =>
    have h0 := root_none hinv hr
    have : first d = .error (.fail "Parent Element Not Found") := by
      change (d.insertAt u "numFmts" 0 0 >>= _) = _
      rw [XmlDoc.insertAt, insertWith_none h0]
      rfl
    rw [this]
    exact writes_error
  | some n =>
    have hw := runs_writes (runs_seq hfirst (runs_seq (runs_counted (tag := "fonts") (after := "numFmts") (by kernel_rfl) runs_font st.fonts)
      (runs_seq (runs_counted (tag := "fills") (after := "fonts") (by kernel_rfl) runs_fill st.fills) (runs_seq (runs_counted (tag := "borders") (after := "fills") (by kernel_rfl) runs_border st.borders)
      (runs_seq (runs_counted (tag := "cellXfs") (after := "borders") (by kernel_rfl) (runs_xf true) st.xfs)
        (runs_counted (tag := "cellStyleXfs") (after := "borders") (by kernel_rfl) (runs_xf false) st.styleXfs)))))) hinv hr
    rw [← onKids_root hr]
    simp only [Except.map, onKids_comp] at hw
    exact hw

end Oxml
