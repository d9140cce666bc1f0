import Verif.Proofs.PartArena
/-!
# The loads of the parts, as programs over the arena
-/
namespace Oxml
open Spec

theorem foldRes_congr {σ : Type} {f g : σ → Node → Res σ} (h : ∀ s n, f s n = g s n) : ∀ (ns : List Node) (s : σ),
    foldRes f s ns = foldRes g s ns
  | [], _ => rfl
  | n :: ns, s => by
    unfold foldRes
    rw [h s n]
    cases g s n with
    | error e => rfl
    | ok s' => exact foldRes_congr h ns s'

theorem foldRes_noCheck {σ : Type} {f : σ → Node → Res σ} (ns : List Node) (s : σ) :
    foldRes (checked noCheck f) s ns = foldRes f s ns := foldRes_congr (fun _ _ => rfl) ns s

theorem foldRes_push {α : Type} {g : Node → Res α} : ∀ (ns : List Node) (acc : List α),
    foldRes (pushOf g) acc ns = (mapRes g ns).map (acc ++ ·)
  | [], acc => by simp [foldRes, mapRes, Except.map]
  | n :: ns, acc => by
    unfold foldRes mapRes pushOf
    cases g n with
    | error e => rfl
    | ok a =>
      change foldRes (pushOf g) (acc ++ [a]) ns = _
      rw [foldRes_push ns]
      cases mapRes g ns with
      | error e => rfl
      | ok as => simp [Except.map]

theorem foldRes_pushOpt {α : Type} {g : Node → Res (Option α)} : ∀ (ns : List Node) (acc : List α),
    foldRes (fun acc n => pushOpt acc (g n)) acc ns = (mapRes g ns).map (fun l => acc ++ l.filterMap id)
  | [], acc => by simp [foldRes, mapRes, Except.map]
  | n :: ns, acc => by
    unfold foldRes mapRes
    cases g n with
    | error e => rfl
    | ok o =>
      cases o with
      | none =>
        change foldRes (fun acc n => pushOpt acc (g n)) acc ns = _
        rw [foldRes_pushOpt ns]
        cases mapRes g ns with
        | error e => rfl
        | ok as => simp [Except.map]
      | some a =>
        change foldRes (fun acc n => pushOpt acc (g n)) (acc ++ [a]) ns = _
        rw [foldRes_pushOpt ns]
        cases mapRes g ns with
        | error e => rfl
        | ok as => simp [Except.map]

/-! ## Shared strings, calculation chain, relationships, extensions -/

theorem reads_string {u : Unicode} : Reads u arenaString
    (fun acc n => .ok (acc ++ (n.children.head?.map (fun c => c.value.getD "")).toList)) := by
  intro acc e d hinv hk
  obtain ⟨h1, h2, _⟩ := popFirst_reads (u := u) hinv hk
  unfold arenaString
  simp only
  rw [← h1]
  cases hp : popFirst e d with
  | mk o d1 =>
    rw [hp] at h2
    cases o with
    | none => exact ⟨by simp, h2⟩
    | some t => exact ⟨by simp [ownTree, Node.value], h2⟩

theorem arenaLoadStrings_eq {u : Unicode} {d : XmlDoc} (hinv : d.Inv) :
    (arenaLoadStrings d).1 = .ok (loadStrings d.toXDoc).1 ∧ Leaves u d (arenaLoadStrings d).2 (loadStrings d.toXDoc).2 := by
  obtain ⟨h1, h2⟩ := popEach_reads (reads_string (u := u)) hinv "si" []
  refine ⟨?_, h2⟩
  unfold arenaLoadStrings loadStrings
  rw [h1]
  have : ∀ (ns : List Node) (acc : List String),
      foldRes (fun acc n => .ok (acc ++ (n.children.head?.map (fun c => c.value.getD "")).toList)) acc ns =
        .ok (acc ++ ns.filterMap (fun n => n.children.head?.map (fun c => c.value.getD ""))) := by
    intro ns
    induction ns with
    | nil => intro acc; simp [foldRes]
    | cons n ns ih =>
      intro acc
      unfold foldRes
      simp only
      rw [ih, List.filterMap_cons]
      cases n.children.head?.map (fun c => c.value.getD "") <;> simp
  exact this _ []

theorem arenaLoadCalc_eq {u : Unicode} {d : XmlDoc} (hinv : d.Inv) :
    (arenaLoadCalc d).1 = (loadCalc d.toXDoc).1 ∧ Leaves u d (arenaLoadCalc d).2 (loadCalc d.toXDoc).2 := by
  obtain ⟨h1, h2⟩ := popEach_reads (u := u) (reads_looks (f := calcItem) (fun _ _ _ _ _ => rfl)) hinv "c" ([] : List CalcEntry)
  refine ⟨?_, h2⟩
  unfold arenaLoadCalc loadCalc
  rw [h1]
  have : ∀ (ns : List Node) (acc : List CalcEntry),
      foldRes calcItem acc ns =
        (mapRes (fun n : Node =>
          match aget "r" (n.attrs.getD []), aget "i" (n.attrs.getD []) with
          | some r, some i => .ok (r, i, aget "l" (n.attrs.getD []))
          | _, _ => .error (.panic "no entry found for key")) (ns.filter (fun n => n.attrs.isSome))).map (acc ++ ·) := by
    intro ns
    induction ns with
    | nil => intro acc; simp [foldRes, mapRes, Except.map]
    | cons n ns ih =>
      intro acc
      unfold foldRes calcItem
      cases ha : n.attrs with
      | none =>
        refine (ih acc).trans ?_
        rw [List.filter_cons, if_neg (by simp [ha])]
      | some a =>
        rw [List.filter_cons, if_pos (by simp [ha])]
        unfold mapRes
        simp only [ha, Option.getD_some]
        cases aget "r" a with
        | none => rfl
        | some r =>
          cases aget "i" a with
          | none => rfl
          | some i =>
            refine (ih (acc ++ [(r, i, aget "l" a)])).trans ?_
            simp only
            cases mapRes _ _ with
            | error e => rfl
            | ok l => simp [Except.map]
  rw [this]
  cases mapRes _ _ <;> simp [Except.map]

theorem map_nil_append {α : Type} (r : Res (List α)) : r.map (([] : List α) ++ ·) = r := by
  cases r <;> simp [Except.map]

theorem arenaLoadRels_eq {u : Unicode} {d : XmlDoc} (hinv : d.Inv) :
    (arenaLoadRels d).1 = (loadRels d.toXDoc).1 ∧ Leaves u d (arenaLoadRels d).2 (loadRels d.toXDoc).2 := by
  obtain ⟨h1, h2⟩ := popEach_reads (u := u) (reads_looks (f := pushOf loadRel) (fun _ _ _ _ _ => rfl)) hinv "Relationship" ([] : List Rel)
  refine ⟨?_, h2⟩
  unfold arenaLoadRels loadRels
  rw [h1, foldRes_push, map_nil_append]

theorem arenaExtensions_eq {u : Unicode} {d : XmlDoc} (hinv : d.Inv) :
    (arenaExtensions d).1 = getExtensions d.toXDoc ∧ Leaves u d (arenaExtensions d).2 (d.toXDoc.popTag "Default").2 := by
  obtain ⟨h1, h2⟩ := popEach_reads (u := u) (reads_looks (f := pushOf defaultItem) (fun _ _ _ _ _ => rfl)) hinv "Default" ([] : List (String × String))
  refine ⟨?_, h2⟩
  unfold arenaExtensions getExtensions
  rw [h1, foldRes_push, map_nil_append]
  rfl

/-! ## Workbook -/

theorem drain_last {σ : Type} {u : Unicode} {check : String → Option Err} {missing : Option Err}
    {body : σ → Elem → XmlDoc → Res σ × XmlDoc} {f : σ → Node → Res σ} (hb : Reads u body f) (s0 : σ) (e : Elem) (d : XmlDoc)
    (hinv : d.Inv) (hk : Kids d e.children) :
    (drain check missing body e.children s0 d).1 = foldRes (checked check f) s0 (ownTree d e).children ∧
      Cut u d (drain check missing body e.children s0 d).2 (e.children.map Child.id) :=
  drain_reads hb e.children s0 d hinv hk

theorem popLast_drain {σ : Type} {u : Unicode} {check : String → Option Err} {missing : Option Err}
    {body : σ → Elem → XmlDoc → Res σ × XmlDoc} {f : σ → Node → Res σ} (hb : Reads u body f) {d : XmlDoc} (hinv : d.Inv)
    (tag : String) (s0 s : σ) :
    (popLast tag (fun e d => drain check missing body e.children s0 d) s d).1 =
        (match (d.toXDoc.popTag tag).1.getLast? with | none => .ok s | some n => foldRes (checked check f) s0 n.children) ∧
      Leaves u d (popLast tag (fun e d => drain check missing body e.children s0 d) s d).2 (d.toXDoc.popTag tag).2 :=
  popLast_reads (body := fun e d => drain check missing body e.children s0 d) (f := fun n => foldRes (checked check f) s0 n.children)
    (drain_last hb s0) hinv tag s

theorem foldRes_views : ∀ (ns : List Node) (v : Option BookView),
    foldRes bookViewItem v ns = loadBookViews v ns
  | [], _ => rfl
  | n :: ns, v => by
    unfold foldRes loadBookViews bookViewItem
    cases n.attrs with
    | none => exact foldRes_views ns v
    | some a =>
      simp only
      cases loadBookView a with
      | error e => rfl
      | ok w => exact foldRes_views ns (some w)

theorem foldRes_sheets : ∀ (ns : List Node) (acc : List SheetEntry),
    foldRes sheetItem acc ns = (mapRes loadSheetEntry (ns.filterMap Node.attrs)).map (acc ++ ·)
  | [], acc => by simp [foldRes, mapRes, Except.map]
  | n :: ns, acc => by
    unfold foldRes sheetItem
    rw [List.filterMap_cons]
    cases n.attrs with
    | none => exact foldRes_sheets ns acc
    | some a =>
      simp only
      unfold mapRes
      cases loadSheetEntry a with
      | error e => rfl
      | ok x =>
        refine (foldRes_sheets ns (acc ++ [x])).trans ?_
        cases mapRes loadSheetEntry _ with
        | error e => rfl
        | ok l => simp [Except.map]

theorem arenaLoadBook_eq {u : Unicode} {d : XmlDoc} (hinv : d.Inv) :
    (arenaLoadBook d).1 = (loadBook d.toXDoc).1 ∧ Leaves u d (arenaLoadBook d).2 (loadBook d.toXDoc).2 := by
  obtain ⟨h1, h2⟩ := popLast_drain (check := noCheck) (missing := none) (reads_looks (u := u) (f := bookViewItem) (fun _ _ _ _ _ => rfl))
    hinv "bookViews" none none
  have h1' : ∀ l : Option Node, (match l with | none => .ok none | some n => foldRes (checked noCheck bookViewItem) none (Node.children n)) =
      loadBookViews none ((l.map Node.children).getD []) := by
    intro l
    cases l with
    | none => rfl
    | some n => simp only [foldRes_noCheck, foldRes_views]; rfl
  rw [h1'] at h1
  unfold arenaLoadBook loadBook
  simp only
  generalize popLast "bookViews" _ none d = r at h1 h2 ⊢
  obtain ⟨r1, d1⟩ := r
  simp only at h1 h2
  subst h1
  cases loadBookViews none ((((d.toXDoc.popTag "bookViews").1.getLast?).map Node.children).getD []) with
  | error e => exact ⟨rfl, h2⟩
  | ok view =>
    simp only
    obtain ⟨k1, k2⟩ := popLast_drain (check := noCheck) (missing := none) (reads_looks (u := u) (f := sheetItem) (fun _ _ _ _ _ => rfl))
      h2.inv "sheets" [] []
    have k1' : ∀ l : Option Node, (match l with | none => .ok [] | some n => foldRes (checked noCheck sheetItem) [] (Node.children n)) =
        mapRes loadSheetEntry (((l.map Node.children).getD []).filterMap Node.attrs) := by
      intro l
      cases l with
      | none => rfl
      | some n => simp only [foldRes_noCheck, foldRes_sheets, map_nil_append]; rfl
    rw [k1'] at k1
    rw [h2.doc] at k1 k2
    generalize popLast "sheets" _ [] d1 = r at k1 k2 ⊢
    obtain ⟨r2, d2⟩ := r
    simp only at k1 k2
    subst k1
    cases mapRes loadSheetEntry _ with
    | error e => exact ⟨rfl, h2.trans k2⟩
    | ok sheets => exact ⟨rfl, h2.trans k2⟩

/-! ## Worksheet -/

theorem loadCol_bare (env : Env) (t : String) (a : Option Attrs) (v : Option String) (cs : List Node) :
    loadCol env (.mk t a v cs) = loadCol env (.mk t a v []) := rfl

theorem arenaLoadCols_eq {u : Unicode} {env : Env} {d : XmlDoc} (hinv : d.Inv) :
    (arenaLoadCols env d).1 = (loadCols env d.toXDoc).1 ∧ Leaves u d (arenaLoadCols env d).2 (loadCols env d.toXDoc).2 := by
  have hb : ∀ (e : Elem) (d : XmlDoc), d.Inv → Kids d e.children →
      ((arenaColsOf env e d).1 =
        match mapRes (loadCol env) (ownTree d e).children with
        | .error er => .error er
        | .ok cs => .ok (some cs)) ∧
      Cut u d (arenaColsOf env e d).2 (e.children.map Child.id) := by
    unfold arenaColsOf
    intro e d hinv hk
    obtain ⟨h1, h2⟩ := drain_last (u := u) (check := noCheck) (missing := none)
      (reads_looks (f := pushOf (loadCol env)) (fun _ _ _ _ _ => rfl)) [] e d hinv hk
    rw [foldRes_noCheck, foldRes_push, map_nil_append] at h1
    generalize drain noCheck none _ e.children [] d = r at h1 h2 ⊢
    obtain ⟨r, d1⟩ := r
    simp only at h1 h2
    rw [← h1]
    cases r with
    | error er => exact ⟨rfl, h2⟩
    | ok cs => exact ⟨rfl, h2⟩
  obtain ⟨h1, h2⟩ := popLast_reads (u := u) (f := fun n => match mapRes (loadCol env) n.children with | .error er => .error er | .ok cs => .ok (some cs))
    hb hinv "cols" none
  exact ⟨h1, h2⟩

theorem foldRes_viewCheck (ns : List Node) (acc : List View) :
    foldRes (checked viewCheck (pushOf loadView)) acc ns = (mapRes loadView ns).map (acc ++ ·) := by
  rw [← foldRes_push]
  apply foldRes_congr
  intro s n
  unfold checked viewCheck
  by_cases h : n.tag ≠ "sheetView"
  · rw [if_pos h]
    have : loadView n = .error (.fail "Failed to Process Sheet Views child") := by
      unfold loadView
      rw [if_pos h]
    unfold pushOf
    rw [this]
    rfl
  · rw [if_neg h]

theorem loadView_bare (t : String) (a : Option Attrs) (v : Option String) (cs : List Node) :
    loadView (.mk t a v cs) = loadView (.mk t a v []) := rfl

theorem arenaLoadViews_eq {u : Unicode} {d : XmlDoc} (hinv : d.Inv) :
    (arenaLoadViews d).1 = (loadViews d.toXDoc).1 ∧ Leaves u d (arenaLoadViews d).2 (loadViews d.toXDoc).2 := by
  obtain ⟨h1, h2⟩ := popLast_drain (check := viewCheck) (missing := some (.fail "Failed to get Sheet View Element"))
    (reads_looks (u := u) (f := pushOf loadView) (fun _ _ _ _ _ => rfl)) hinv "sheetViews" [{}] [{}]
  refine ⟨?_, h2⟩
  unfold arenaLoadViews loadViews
  rw [h1]
  cases (d.toXDoc.popTag "sheetViews").1.getLast? with
  | none => rfl
  | some n =>
    simp only [foldRes_viewCheck]
    cases mapRes loadView n.children <;> rfl

theorem reads_cellChild {u : Unicode} : Reads u arenaCellChild loadCellChild := by
  intro c e d hinv hk
  unfold arenaCellChild loadCellChild
  have ht : (ownTree d e).tag = e.tag := rfl
  have hv : (ownTree d e).value = e.value := rfl
  rw [ht, hv]
  by_cases h1 : e.tag = "v"
  · rw [if_pos h1, if_pos h1]; exact ⟨rfl, Cut.refl hinv _⟩
  · rw [if_neg h1, if_neg h1]
    by_cases h2 : e.tag = "f"
    · rw [if_pos h2, if_pos h2]; exact ⟨rfl, Cut.refl hinv _⟩
    · rw [if_neg h2, if_neg h2]
      by_cases h3 : e.tag = "is"
      · rw [if_pos h3, if_pos h3]
        obtain ⟨k1, k2, _⟩ := popFirst_reads (u := u) hinv hk
        rw [← k1]
        cases hp : popFirst e d with
        | mk o d1 =>
          rw [hp] at k2
          cases o with
          | none => exact ⟨by simp, k2⟩
          | some t => exact ⟨by simp [ownTree, Node.value], k2⟩
      · rw [if_neg h3, if_neg h3]; exact ⟨rfl, Cut.refl hinv _⟩

theorem foldRes_cellChildren : ∀ (ns : List Node) (c : CellProps), foldRes loadCellChild c ns = loadCellChildren c ns
  | [], _ => rfl
  | n :: ns, c => by
    unfold foldRes loadCellChildren
    cases loadCellChild c n with
    | error e => rfl
    | ok c' => exact foldRes_cellChildren ns c'

/-- One cell seen as a change of the row read so far. -/
def addCell (env : Env) (s : List (Nat × CellProps) × (Nat × Nat)) (n : Node) : Res (List (Nat × CellProps) × (Nat × Nat)) :=
  match loadCell env n with
  | .error e => .error e
  | .ok kv => .ok (sinsert kv.1 kv.2 s.1, dimAdd s.2 kv.1)

theorem reads_cell {u : Unicode} {env : Env} : Reads u (arenaCell env) (addCell env) := by
  intro s e d hinv hk
  unfold arenaCell addCell loadCell
  have ha : (ownTree d e).attrs = e.attrs := rfl
  rw [ha]
  cases e.attrs with
  | none => exact ⟨rfl, Cut.refl hinv _⟩
  | some a =>
    simp only
    cases aget "r" a with
    | none => exact ⟨rfl, Cut.refl hinv _⟩
    | some ref =>
      simp only
      cases getColumnIndex env.build env.uni ref with
      | error er => exact ⟨rfl, Cut.refl hinv _⟩
      | ok col =>
        simp only
        cases parseOpt (parseUInt u32Max) (aget "s" a) with
        | error er => exact ⟨rfl, Cut.refl hinv _⟩
        | ok st =>
          cases parseOpt (parseUInt usizeMax) (aget "cm" a) with
          | error er => exact ⟨rfl, Cut.refl hinv _⟩
          | ok cm =>
            simp only
            obtain ⟨h1, h2⟩ := drain_last (u := u) (check := noCheck) (missing := none) reads_cellChild (cellOfAttrs a st cm) e d hinv hk
            rw [foldRes_noCheck, foldRes_cellChildren] at h1
            generalize drain noCheck none arenaCellChild e.children (cellOfAttrs a st cm) d = r at h1 h2 ⊢
            obtain ⟨r, d1⟩ := r
            simp only at h1 h2
            rw [← h1]
            cases r with
            | error er => exact ⟨rfl, h2⟩
            | ok c => exact ⟨rfl, h2⟩

theorem foldRes_cells {env : Env} : ∀ (ns : List Node) (s : List (Nat × CellProps) × (Nat × Nat)),
    foldRes (addCell env) s ns = (mapRes (loadCell env) ns).map (fun kvs => (extendMap s.1 kvs, kvs.foldl (fun d kv => dimAdd d kv.1) s.2))
  | [], s => rfl
  | n :: ns, s => by
    unfold foldRes mapRes
    rw [show addCell env s n = (match loadCell env n with | .error e => .error e | .ok kv => .ok (sinsert kv.1 kv.2 s.1, dimAdd s.2 kv.1)) from rfl]
    cases loadCell env n with
    | error e => rfl
    | ok kv =>
      simp only
      rw [foldRes_cells ns]
      cases mapRes (loadCell env) ns with
      | error e => rfl
      | ok l => rfl

/-- One row seen as a change of the sheet read so far. -/
def addRow (env : Env) (s : SheetRows × (Nat × Nat)) (n : Node) : Res (SheetRows × (Nat × Nat)) :=
  match loadRow env n with
  | .error e => .error e
  | .ok r => .ok (sinsert r.1 (rowDataOf r.2.1 r.2.2) s.1, r.2.2.foldl (fun d kv => dimAdd d kv.1) s.2)

theorem reads_row {u : Unicode} {env : Env} : Reads u (arenaRow env) (addRow env) := by
  intro s e d hinv hk
  unfold arenaRow addRow loadRow
  have ha : (ownTree d e).attrs = e.attrs := rfl
  rw [ha]
  cases e.attrs with
  | none => exact ⟨rfl, Cut.refl hinv _⟩
  | some a =>
    simp only
    cases aget "r" a with
    | none => exact ⟨rfl, Cut.refl hinv _⟩
    | some ref =>
      simp only
      cases parseUInt u32Max ref with
      | none => exact ⟨rfl, Cut.refl hinv _⟩
      | some row =>
        simp only
        cases loadRowProps env a with
        | error er => exact ⟨rfl, Cut.refl hinv _⟩
        | ok p =>
          simp only
          obtain ⟨h1, h2⟩ := drain_last (u := u) (check := noCheck) (missing := none) (reads_cell (env := env)) ([], s.2) e d hinv hk
          rw [foldRes_noCheck, foldRes_cells] at h1
          generalize drain noCheck none (arenaCell env) e.children ([], s.2) d = r at h1 h2 ⊢
          obtain ⟨r, d1⟩ := r
          simp only at h1 h2
          subst h1
          cases mapRes (loadCell env) (ownTree d e).children with
          | error er => exact ⟨rfl, h2⟩
          | ok cs => exact ⟨rfl, h2⟩

theorem foldRes_rows {env : Env} : ∀ (ns : List Node) (s : SheetRows × (Nat × Nat)),
    foldRes (addRow env) s ns = (mapRes (loadRow env) ns).map (fun rows => (extendMap s.1 (rows.map (fun r => (r.1, rowDataOf r.2.1 r.2.2))),
      rows.foldl (fun d r => r.2.2.foldl (fun d kv => dimAdd d kv.1) d) s.2))
  | [], s => rfl
  | n :: ns, s => by
    unfold foldRes mapRes
    rw [show addRow env s n = (match loadRow env n with | .error e => .error e | .ok r => .ok (sinsert r.1 (rowDataOf r.2.1 r.2.2) s.1, r.2.2.foldl (fun d kv => dimAdd d kv.1) s.2)) from rfl]
    cases loadRow env n with
    | error e => rfl
    | ok kv =>
      simp only
      rw [foldRes_rows ns]
      cases mapRes (loadRow env) ns with
      | error e => rfl
      | ok l => rfl

/-- What is made of a `sheetData` element. -/
def rowsOf (env : Env) (n : Node) : Res (Option SheetRows × (Nat × Nat)) :=
  match mapRes (loadRow env) n.children with
  | .error e => .error e
  | .ok rows =>
    .ok (some (extendMap [] (rows.map (fun r => (r.1, rowDataOf r.2.1 r.2.2)))),
      rows.foldl (fun d r => r.2.2.foldl (fun d kv => dimAdd d kv.1) d) dimDefault)

theorem arenaLoadData_eq {u : Unicode} {env : Env} {d : XmlDoc} (hinv : d.Inv) :
    (arenaLoadData env d).1 = (loadData env d.toXDoc).1 ∧ Leaves u d (arenaLoadData env d).2 (loadData env d.toXDoc).2 := by
  have hb : ∀ (e : Elem) (d : XmlDoc), d.Inv → Kids d e.children →
      (arenaDataOf env e d).1 = rowsOf env (ownTree d e) ∧ Cut u d (arenaDataOf env e d).2 (e.children.map Child.id) := by
    unfold arenaDataOf rowsOf
    intro e d hinv hk
    obtain ⟨h1, h2⟩ := drain_last (u := u) (check := noCheck) (missing := none) (reads_row (env := env)) ([], dimDefault) e d hinv hk
    rw [foldRes_noCheck, foldRes_rows] at h1
    generalize drain noCheck none (arenaRow env) e.children ([], dimDefault) d = r at h1 h2 ⊢
    obtain ⟨r, d1⟩ := r
    simp only at h1 h2
    subst h1
    cases mapRes (loadRow env) (ownTree d e).children with
    | error er => exact ⟨rfl, h2⟩
    | ok cs => exact ⟨rfl, h2⟩
  obtain ⟨h1, h2⟩ := popLast_reads (u := u) (f := rowsOf env) hb hinv "sheetData" (none, dimDefault)
  exact ⟨h1, h2⟩

theorem arenaLoadSheet_eq {u : Unicode} {env : Env} {d : XmlDoc} (hinv : d.Inv) :
    (arenaLoadSheet env d).1 = (Sheet.load env d.toXDoc).1 ∧ Leaves u d (arenaLoadSheet env d).2 (Sheet.load env d.toXDoc).2 := by
  obtain ⟨hinv1, hdoc, hreach, _⟩ := pop_root (u := u) hinv "dimension"
  have l1 : Leaves u d (d.popByTag "dimension" 0).1 (d.toXDoc.popTag "dimension").2 := ⟨hdoc, hinv1, hreach⟩
  obtain ⟨c1, c2⟩ := arenaLoadCols_eq (u := u) (env := env) hinv1
  rw [hdoc] at c1 c2
  unfold arenaLoadSheet Sheet.load
  simp only
  generalize arenaLoadCols env (d.popByTag "dimension" 0).1 = r at c1 c2 ⊢
  generalize loadCols env (d.toXDoc.popTag "dimension").2 = t at c1 c2 ⊢
  obtain ⟨r, d2⟩ := r
  obtain ⟨t, x2⟩ := t
  simp only at c1 c2
  subst c1
  cases r with
  | error e => exact ⟨rfl, l1.trans c2⟩
  | ok cols =>
    simp only
    obtain ⟨s1, s2⟩ := arenaLoadData_eq (u := u) (env := env) c2.inv
    rw [c2.doc] at s1 s2
    generalize arenaLoadData env d2 = r at s1 s2 ⊢
    generalize loadData env x2 = t at s1 s2 ⊢
    obtain ⟨r, d3⟩ := r
    obtain ⟨t, x3⟩ := t
    simp only at s1 s2
    subst s1
    cases r with
    | error e => exact ⟨rfl, l1.trans (c2.trans s2)⟩
    | ok dd =>
      obtain ⟨data, dim⟩ := dd
      simp only
      obtain ⟨v1, v2⟩ := arenaLoadViews_eq (u := u) s2.inv
      rw [s2.doc] at v1 v2
      generalize arenaLoadViews d3 = r at v1 v2 ⊢
      generalize loadViews x3 = t at v1 v2 ⊢
      obtain ⟨r, d4⟩ := r
      obtain ⟨t, x4⟩ := t
      simp only at v1 v2
      subst v1
      cases r with
      | error e => exact ⟨rfl, l1.trans (c2.trans (s2.trans v2))⟩
      | ok views => exact ⟨rfl, l1.trans (c2.trans (s2.trans v2))⟩

end Oxml
