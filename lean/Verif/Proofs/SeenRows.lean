import Verif.Spec.SeenRows
import Verif.Proofs.ElsewhereParts
import Verif.Proofs.SessionCells
import Verif.Proofs.ExistingSheets
/-!
# Rows in the file and rows in memory
-/
namespace Oxml
open Spec

variable {env : Env} {theme : XDoc}

/-! ## What was done to the sheet of a handle -/

/-- Something that every call leaves true of a sheet, said of what was done to it. -/
structure Told (env : Env) (P : List SheetOp → Sheet → Prop) : Prop where
  start : P [] emptySheet
  step : ∀ {l d t o st}, P l d → SheetOp.InRange o → SheetOp.Fits env o → SortedSheet d → o.run env.build (d, t) = .ok st → P (l ++ [o]) st.1

/-- It holds of the sheets of all handles. -/
structure Tells (s : Session) (P : List SheetOp → Sheet → Prop) (W : String → List SheetOp) : Prop where
  all : ∀ h ∈ s.handles, P (W h.path) h.data
  held : ∀ n, ¬ holds s.x.pkg n → W n = []

variable {P : List SheetOp → Sheet → Prop}

theorem Tells.sub {s s' : Session} {W : String → List SheetOp} (h : Tells s P W) (hs : ∀ g ∈ s'.handles, g ∈ s.handles) (hk : Keeps s.x.pkg s'.x.pkg) : Tells s' P W :=
  ⟨fun g hg => h.all g (hs g hg), fun n hn => h.held n (fun h1 => hn (hk n h1))⟩

theorem Tells.open (hP : Told env P) (hst : env.build.release = true → StampOk env.stamp) {s : Session} {W : String → List SheetOp} (h : Tells s P W)
    (hI : SessInv env theme s) (name : Option String) : Tells (s.open env name).2 P W := by
  have hc := BookInv.openCase hst hI name
  have hk := hc.keeps
  unfold Session.open
  cases hos : s.x.openSheet env name with
  | mk r x1 =>
    rw [hos] at hc hk
    cases hc with
    | fresh p' h1 h2 h3 ha ho =>
      refine ⟨?_, fun n hn => h.held n (fun h1 => hn (hk n h1))⟩
      intro g hg
      rcases List.mem_append.mp hg with hg | hg
      · exact h.all g hg
      · rw [List.mem_singleton.mp hg]
        simp only
        rw [h.held _ h2]
        exact hP.start
    | busyNew o h1 h2 => exact h.sub (fun g hg => hg) hk
    | dangling n h1 h2 => exact h.sub (fun g hg => hg) hk
    | busyOld n k o h1 h2 h3 => exact h.sub (fun g hg => hg) hk
    | reopened n k sh xd p' h1 h2 h3 h4 h5 h6 h7 => exact h.sub (fun g hg => hg) hk

theorem Tells.sheet (hP : Told env P) {s : Session} {W V : String → List SheetOp} (h : Tells s P W) (hV : Wrote env s V) (hI : SessInv env theme s) {i : Nat} {o : SheetOp}
    (hg : o.InRange ∧ o.Fits env) : Tells (s.step env (.sheet i o)).2 P (fun n => W n ++ onPart s n (.sheet i o)) := by
  have hb : BookInv env theme s.x s.handles := hI
  simp only [Session.step, onPart]
  cases hi : s.handles[i]? with
  | none => simp only [List.append_nil]; exact h
  | some g =>
    simp only
    have hm := List.mem_of_getElem? hi
    have f1 := (hV.fit g hm).1
    obtain ⟨⟨d, table⟩, hr, _⟩ := run_spec env.build (g.data, s.x.strings.data) o f1 hg.1
    rw [hr]
    simp only
    refine ⟨?_, ?_⟩
    · intro k hk
      obtain ⟨j, hj⟩ := List.getElem?_of_mem hk
      rw [List.getElem?_set] at hj
      split at hj
      · split at hj
        · rw [← Option.some.inj hj]
          simp only [if_true]
          exact hP.step (h.all g hm) hg.1 hg.2 f1 hr
        · cases hj
      · next hne =>
        rw [if_neg, List.append_nil]
        · exact h.all k (List.mem_of_getElem? hj)
        intro e
        have hn := hb.sheets.nodup
        have hlt : i < (s.handles.map SheetHandle.path).length := by
          rw [List.length_map]; exact (List.getElem?_eq_some_iff.mp hi).1
        refine hne ((List.getElem?_inj hlt hn).mp ?_)
        rw [List.getElem?_map, List.getElem?_map, hi, hj, Option.map_some, Option.map_some, e]
    · intro n hn
      change ¬ holds s.x.pkg n at hn
      change W n ++ _ = []
      rw [h.held n hn, List.nil_append, if_neg]
      intro e
      obtain ⟨k, hr, h1, _, h3, _⟩ := hb.sheets.handles g hm
      exact hn (by rw [← e, h1]; exact holds_of_opened h3)

theorem Tells.step (hP : Told env P) (hst : env.build.release = true → StampOk env.stamp) {s : Session} {W V : String → List SheetOp} (h : Tells s P W) (hV : Wrote env s V)
    (hI : SessInv env theme s) (op : WbOp) (hg : ∀ i o, op = .sheet i o → o.InRange ∧ o.Fits env) : Tells (s.step env op).2 P (fun n => W n ++ onPart s n op) := by
  have hb : BookInv env theme s.x s.handles := hI
  cases op with
  | sheet i o => exact h.sheet hP hV hI (hg i o rfl)
  | add name => simp only [onPart, List.append_nil]; exact h.open hP hst hI name
  | get name => simp only [onPart, List.append_nil]; exact h.open hP hst hI (some name)
  | drop i =>
    simp only [onPart, List.append_nil, Session.step]
    cases hi : s.handles[i]? with
    | none => exact h
    | some g => exact h.sub (fun k hk => (List.eraseIdx_sublist _ _).subset hk) (hb.sheets.drop_keeps (List.mem_of_getElem? hi))
  | delete i =>
    simp only [onPart, List.append_nil, Session.step]
    cases hi : s.handles[i]? with
    | none => exact h
    | some g =>
      have hm := List.mem_of_getElem? hi
      obtain ⟨k, _, e⟩ := hI.deleteEq (env := env) hm
      refine h.sub (fun k hk => (List.eraseIdx_sublist _ _).subset hk) ?_
      simp only; rw [e]; exact hb.sheets.drop_keeps hm
  | rename old new =>
    simp only [onPart, List.append_nil, Session.step]
    split
    · exact h
    · exact h.sub (fun g hg => hg) (Keeps.refl _)
  | active n => simp only [onPart, List.append_nil, Session.step]; exact h.sub (fun g hg => hg) (Keeps.refl _)
  | hide n => simp only [onPart, List.append_nil, Session.step]; exact h.sub (fun g hg => hg) (Keeps.refl _)
  | view v => simp only [onPart, List.append_nil, Session.step]; exact h.sub (fun g hg => hg) (Keeps.refl _)
  | style hs st =>
    simp only [onPart, List.append_nil, Session.step]
    split
    · exact h
    · exact h.sub (fun g hg => hg) (Keeps.refl _)

theorem Tells.run (hP : Told env P) (hst : env.build.release = true → StampOk env.stamp) (ops : List WbOp) {s s' : Session} {W V : String → List SheetOp} (h : Tells s P W)
    (hV : Wrote env s V) (hI : SessInv env theme s) (hg : FittingOps env ops) (hr : s.run env ops = .ok s') : Tells s' P (fun n => W n ++ writesTo env n s ops) := by
  induction ops generalizing s W V with
  | nil => cases hr; simp only [writesTo, List.append_nil]; exact h
  | cons op ops ih =>
    have hgo : ∀ i o, op = .sheet i o → o.InRange ∧ o.Fits env := fun i o e => hg i o (by rw [e]; exact List.mem_cons_self)
    have h1 := ih (h.step hP hst hV hI op hgo) (hV.step hst hI op hgo) (hI.step hst op) (fun i o hm => hg i o (List.mem_cons_of_mem _ hm)) (run_cons hr)
    simp only [writesTo]
    simp only [List.append_assoc] at h1
    exact h1

/-- Whatever every call leaves true of a sheet holds in a session of the sheets of all handles. -/
theorem ran_tells (hP : Told env P) (hst : env.build.release = true → StampOk env.stamp) {ops : List WbOp} {s : Session} (hg : FittingOps env ops)
    (h : Session.run env ⟨newExcel env theme, []⟩ ops = .ok s) : ∀ g ∈ s.handles, P (writesTo env g.path ⟨newExcel env theme, []⟩ ops) g.data := by
  have h0 : Tells ⟨newExcel env theme, []⟩ P (fun _ => []) := ⟨fun g hg => (by cases hg), fun n _ => rfl⟩
  have v0 : Wrote env ⟨newExcel env theme, []⟩ (fun _ => []) := ⟨fun g hg => (by cases hg), fun g hg => (by cases hg), fun n _ => rfl⟩
  have := (h0.run hP hst ops v0 (newBook env theme) hg h).all
  simpa using this

/-! ## Rows of a sheet -/

/-- The rows of a sheet are those touched, with the properties last given; nothing is known about columns. -/
structure RowsTold (l : List SheetOp) (d : Sheet) : Prop where
  there : ∀ r, (∃ rd, aget r (d.data.getD []) = some rd) ↔ ∃ o ∈ l, o.touches r
  props : ∀ r, rowPropsAt d r = (lastProps r l).getD {}
  cols : d.cols = none

theorem there_put {d : Option SheetRows} (hd : ∀ l, d = some l → SortedKeys l) (row : Nat) (placed : List (Nat × CellProps)) (r : Nat) :
    (∃ rd, aget r (putCells d row placed) = some rd) ↔ row = r ∨ ∃ rd, aget r (d.getD []) = some rd := by
  unfold putCells
  cases d with
  | none =>
    simp only [aget, Option.getD_none]
    by_cases h : row = r <;> simp [h]
  | some l =>
    simp only [Option.getD_some]
    cases ha : aget row l with
    | none =>
      simp only
      rw [aget_sinsert _ _ _ _ (hd l rfl)]
      by_cases h : row = r
      · simp [h]
      · simp [h, Ne.symm h]
    | some rd0 =>
      simp only
      rw [aget_sinsert _ _ _ _ (hd l rfl)]
      by_cases h : row = r
      · simp [h]
      · simp [h, Ne.symm h]

theorem there_props {d : Sheet} (hd : SortedSheet d) (row : Nat) (p : RowProps) (r : Nat) :
    (∃ rd, aget r ((d.setRowProps row p).data.getD []) = some rd) ↔ row = r ∨ ∃ rd, aget r (d.data.getD []) = some rd := by
  obtain ⟨l, h1, _, h2⟩ := setRowProps_data d hd row p r
  rw [h1, Option.getD_some, h2]
  by_cases h : row = r
  · simp [h]
  · simp only [h, if_false, false_or]
    cases d.data <;> rfl

theorem rowsTold (env : Env) : Told env RowsTold := by
  refine ⟨⟨fun r => ?_, fun r => rfl, rfl⟩, ?_⟩
  · constructor
    · rintro ⟨rd, h⟩; cases h
    · rintro ⟨o, h, _⟩; cases h
  · rintro l d t o ⟨d', t'⟩ ⟨h1, h2, h3⟩ hr _ hs hrun
    have split : ∀ r, (∃ o' ∈ l ++ [o], o'.touches r) ↔ o.touches r ∨ ∃ o' ∈ l, o'.touches r := by
      intro r
      simp only [List.mem_append, List.mem_singleton]
      constructor
      · rintro ⟨o', h | rfl, h'⟩
        · exact .inr ⟨o', h, h'⟩
        · exact .inl h'
      · rintro (h | ⟨o', h, h'⟩)
        · exact ⟨o, .inr rfl, h⟩
        · exact ⟨o', .inl h, h'⟩
    refine ⟨fun r => ?_, fun r => ?_, ?_⟩
    · rw [split, ← h1 r]
      cases o with
      | write row col cells =>
        simp only [SheetOp.run] at hrun
        rw [setRow_inRange env.build d t row col cells hr.1 hr.2] at hrun
        cases hrun
        simp only [Option.getD_some]
        exact there_put (fun l hl => (hs l hl).1) _ _ _
      | rowProps row p => cases hrun; exact there_props hs row p r
      | column c p =>
        cases hrun
        simp only [SheetOp.touches, false_or]
        rw [(setColumn_data d c p).1]
    · have h := (runAll_props env.build (d, t) (d', t') [o] hs (by simp only [SheetOp.runAll, hrun]) r).2
      simp only at h
      rw [h, h2, lastProps_snoc]
      cases lastProps r [o] <;> rfl
    · cases o with
      | write row col cells =>
        simp only [SheetOp.run] at hrun
        rw [setRow_inRange env.build d t row col cells hr.1 hr.2] at hrun
        cases hrun
        exact h3
      | rowProps row p => cases hrun; exact h3
      | column c p =>
        cases hrun
        simp only [Sheet.setColumn, h3]

/-! ## Rows of a file -/

/-- What is found for a row of a sheet: every switch given is found on. -/
def seenRowOf (r : Nat) (p : RowProps) : SeenRow :=
  { wantedRow r p with
    hidden := p.hidden.isSome, collapsed := p.collapsed.isSome, thickTop := p.thickTop.isSome, thickBottom := p.thickBottom.isSome, phonetic := p.placeHolder.isSome }

theorem seenRowOf_wanted {r : Nat} {p : RowProps} (h : NothingOff p) : seenRowOf r p = wantedRow r p := by
  obtain ⟨h1, h2, h3, h4, h5⟩ := h
  have on : ∀ {o : Option Bool}, o ≠ some false → o.isSome = decide (o = some true) := by
    intro o ho
    match o with
    | none => rfl
    | some true => rfl
    | some false => exact absurd rfl ho
  unfold seenRowOf wantedRow
  rw [on h1, on h2, on h3, on h4, on h5]

theorem quiet_one : AttrSafe "1" := by unfold AttrSafe NoSpecials White; decide +kernel

theorem quiet_float {t : String} (h : FloatText t.toList) : AttrSafe t := ⟨noSpecials_float h, float_black h⟩

theorem row_read {b : Bool} {kv : Nat × RowData} {n : Node} (h : rowNode kv = .ok n) {i : Item} (hi : Shows Reading.xml (seenNode b n) i)
    (hd : DistinctAttrs (seenNode b n)) (hf : ∀ t, kv.2.props.height = some t → FloatText t.toList) : seenRow i = seenRowOf kv.1 kv.2.props := by
  obtain ⟨cs, hcs, rfl⟩ := rowNode_ok h
  have get : ∀ k v, (aget k (rowTable kv.1 kv.2.props)).join = v → (∀ t, v = some t → AttrSafe t) → i.attrOf k = v.map String.toList := by
    intro k v hv hq
    rw [shows_attr hi (distinct_attrs hd) k, seenNode_attr b (wf_rowNode _ h) (rowTable_keys _ _), hv]
    cases v with
    | none => rfl
    | some t => exact congrArg some (quiet_read b (hq t rfl))
  have num : ∀ (o : Option Nat) t, o.map toString = some t → AttrSafe t := by
    intro o t ht
    cases o with
    | none => cases ht
    | some n => cases ht; exact quiet_nat n
  have flag : ∀ {α : Type} (o : Option α) t, o.map (fun _ => "1") = some t → AttrSafe t := by
    intro α o t ht
    cases o with
    | none => cases ht
    | some n => cases ht; exact quiet_one
  have on : ∀ {α : Type} k (o : Option α), (aget k (rowTable kv.1 kv.2.props)).join = o.map (fun _ => "1") → i.on k = o.isSome := by
    intro α k o ho
    unfold Item.on
    rw [get k _ ho (flag o)]
    cases o with
    | none => simp
    | some x => simp
  unfold seenRow
  rw [on "customHeight" kv.2.props.height rfl, on "customFormat" kv.2.props.style rfl, on "hidden" kv.2.props.hidden rfl, on "collapsed" kv.2.props.collapsed rfl,
    on "thickTop" kv.2.props.thickTop rfl, on "thickBot" kv.2.props.thickBottom rfl, on "ph" kv.2.props.placeHolder rfl,
    get "r" (some (toString kv.1)) rfl (fun t ht => by cases ht; exact quiet_nat _), get "ht" kv.2.props.height rfl (fun t ht => quiet_float (hf t ht)),
    get "s" (kv.2.props.style.map toString) rfl (num kv.2.props.style), get "outlineLevel" (kv.2.props.groupLevel.map toString) rfl (num kv.2.props.groupLevel)]
  unfold seenRowOf wantedRow
  congr 1
  · simp only [Option.map_some, toList_toString_nat]
  · cases kv.2.props.height <;> rfl
  · cases kv.2.props.style with
    | none => rfl
    | some n => simp only [Option.isSome_some, if_true, Option.map_some, toList_toString_nat]
  · cases kv.2.props.groupLevel with
    | none => exact (by decide +kernel : "0".toList = Nat.toDigits 10 0)
    | some n => simp only [Option.map_some, Option.getD_some, toList_toString_nat]

/-- The rows another program finds are the rows of the sheet saved; column elements there are none if the sheet has none. -/
theorem rows_seen {b : Bool} {s : Sheet} {xd : XDoc} (h : s.save bareDoc = .ok xd) (hf : FitsTypes env s) {root : Node} (hroot : xd.root = some root) {ns : Attrs} {item : Item}
    (hs : ShowsRoot Reading.xml ns (seenNode b root) item) (hd : DistinctAttrs (seenNode b root)) :
    seenRows item = (s.data.getD []).map (fun kv => seenRowOf kv.1 kv.2.props) ∧ (s.cols = none → seenCols item = []) := by
  obtain ⟨ref, root0, rows, _, h2, h3, rfl⟩ := save_ok h
  cases h2
  have hr : root = .mk "worksheet" (some []) none (placeSheetParts ref s.cols s.views rows []) := by
    unfold XDoc.mapRootChildren at hroot
    rw [(wf_bareDoc asciiOnly).isRoot] at hroot
    cases hroot
    rfl
  subst hr
  have hch : (seenNode b (.mk "worksheet" (some []) none (placeSheetParts ref s.cols s.views rows []))).children =
    (placeSheetParts ref s.cols s.views rows []).map (seenNode b) := seenNode_children (by rfl)
  refine ⟨?_, fun hcols => ?_⟩
  · have hk := showsRoot_kids "sheetData" hs
    rw [hch, seenNode_filter, place_tags] at hk
    unfold seenRows
    cases hdata : s.data with
    | none =>
      rw [hdata] at h3
      subst h3
      simp only [dataNodes, List.map_nil, ShowsAll] at hk
      rw [hk]
      rfl
    | some d =>
      rw [hdata] at h3
      obtain ⟨nodes, rfl, hn⟩ := h3
      simp only [dataNodes, List.map_cons, List.map_nil] at hk
      cases hkid : item.kids "sheetData" with
      | nil => rw [hkid] at hk; simp [ShowsAll] at hk
      | cons j l =>
        rw [hkid, ShowsAll, ShowsAll] at hk
        obtain ⟨hj, rfl⟩ := hk
        have hk2 := shows_kids "row" hj
        have hrows : ∀ n ∈ nodes, n.tag = "row" := by
          apply mapRes_all hn
          intro x _ y hy
          obtain ⟨cs, _, rfl⟩ := rowNode_ok hy
          rfl
        have hch2 : (seenNode b (.mk "sheetData" none none nodes)).children = nodes.map (seenNode b) := seenNode_children (by rfl)
        rw [hch2, seenNode_filter, filter_all hrows] at hk2
        have hdd : DistinctAttrs (seenNode b (.mk "sheetData" none none nodes)) := by
          refine distinct_kids hd ?_
          rw [hch]
          have hm : Node.mk "sheetData" none none nodes ∈ (placeSheetParts ref s.cols s.views (some nodes) []).filter (fun n => n.tag = "sheetData") := by
            rw [place_tags]
            exact List.mem_singleton.mpr rfl
          exact List.mem_map_of_mem (List.mem_filter.mp hm).1
        have hdr : ∀ n ∈ nodes, DistinctAttrs (seenNode b n) := by
          intro n hnm
          refine distinct_kids hdd ?_
          rw [hch2]
          exact List.mem_map_of_mem hnm
        simp only [List.flatMap_cons, List.flatMap_nil, List.append_nil, Option.getD_some]
        exact mapRes_shows hn hk2 (F := seenRow) (G := fun kv => seenRowOf kv.1 kv.2.props) (by
          intro x hx n hnm hxn i hi
          exact row_read hxn hi (hdr n hnm) (fun t ht => ((hf.rows d hdata x hx).2.1.2.2 t ht).1))
  · have hk := showsRoot_kids "cols" hs
    rw [hch, seenNode_filter, place_filter _ _ _ _ _ (by simp), if_neg (by decide), if_pos rfl, hcols] at hk
    simp only [colsNodes, List.map_nil, ShowsAll] at hk
    unfold seenCols
    rw [hk]
    rfl

theorem sheet_rows {s : Sheet} {xd : XDoc} (h : s.save bareDoc = .ok xd) (hf : FitsTypes env s) (hx : DocX xd) {b : Build} {stamp : List Char}
    (hs : b.release = true → StampXml stamp) {again : Bool} {item : Item} (hi : IsDocument (renderDoc b stamp (seenDoc again b xd)) item) :
    seenRows item = (s.data.getD []).map (fun kv => seenRowOf kv.1 kv.2.props) ∧ (s.cols = none → seenCols item = []) := by
  obtain ⟨root, hr⟩ : ∃ root, xd.root = some root := by
    obtain ⟨t, a, cs, h1, _⟩ := hx
    exact ⟨_, h1.isRoot⟩
  obtain ⟨h1, h2⟩ := (hx.seen again b).reads (seenDoc_root hr again b) (toc_seen h hr again) hs hi
  exact rows_seen h hf hr h1 h2

/-- The rows found under a number. -/
theorem rows_at {d : SheetRows} (hd : SortedKeys d) (r : Nat) :
    (d.map (fun kv => seenRowOf kv.1 kv.2.props)).filter (fun x => decide (x.number = some (Nat.toDigits 10 r))) =
      ((aget r d).map (fun rd => seenRowOf r rd.props)).toList := by
  induction d with
  | nil => rfl
  | cons kv d ih =>
    obtain ⟨k, rd⟩ := kv
    have hd' := List.pairwise_cons.mp hd
    rw [List.map_cons, aget]
    by_cases e : k = r
    · subst e
      rw [List.filter_cons_of_pos (by exact decide_eq_true rfl), if_pos rfl, List.filter_eq_nil_iff.mpr]
      · rfl
      · intro x hx hx'
        obtain ⟨kv, hkv, rfl⟩ := List.mem_map.mp hx
        have := hd'.1 kv.1 (List.mem_map_of_mem hkv)
        have := digits_inj (Option.some.inj (of_decide_eq_true hx'))
        omega
    · rw [List.filter_cons_of_neg, if_neg e, ih hd'.2]
      intro hx
      exact e (digits_inj (Option.some.inj (of_decide_eq_true hx)))

end Oxml
