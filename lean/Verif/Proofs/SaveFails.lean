import Verif.Proofs.ExistingRels
import Verif.Proofs.PartDocWrites
import Verif.Proofs.SheetTotal
/-!
# Where closing a sheet can fail
-/
namespace Oxml
open Spec

/-- No cell lies left of the start column of the dimension. -/
def Sheet.Reaches (s : Sheet) : Prop := ∀ d, s.data = some d → ∀ kv ∈ d, ∀ cs, kv.2.cells = some cs → ∀ c ∈ cs, s.dim.1 ≤ c.1

theorem reaches_setRow {b : Build} {s s' : Sheet} {table table' : List String} {row col : Nat} {cells : List CellProps} (h : s.Reaches)
    (e : s.setRow b table row col cells = .ok (s', table')) : s'.Reaches := by
  unfold Sheet.setRow at e
  split at e
  · cases e
  · split at e
    · cases e
    · next placed hp =>
      cases e
      obtain ⟨⟨h1, _⟩, h3, _⟩ := foldl_dimAdd s.dim placed
      have hnew : ∀ m : List (Nat × CellProps), (∀ c ∈ m, s.dim.1 ≤ c.1) → ∀ c ∈ extendMap m placed,
          (placed.foldl (fun d kv => dimAdd d kv.1) s.dim).1 ≤ c.1 := by
        intro m hm c hc
        rcases mem_extendMap hc with hc | hc
        · exact (h3 c hc).1
        · exact Nat.le_trans h1 (hm c hc)
      have hold : ∀ d, s.data = some d → ∀ kv ∈ d, ∀ cs, kv.2.cells = some cs → ∀ c ∈ cs,
          (placed.foldl (fun d kv => dimAdd d kv.1) s.dim).1 ≤ c.1 :=
        fun d hd kv hkv cs hcs c hc => Nat.le_trans h1 (h d hd kv hkv cs hcs c hc)
      intro d hd kv hkv cs hcs c hc
      cases hd
      unfold putCells at hkv
      cases hdata : s.data with
      | none =>
        rw [hdata] at hkv
        cases List.mem_singleton.mp hkv
        cases hcs
        exact hnew [] (fun c hc => by cases hc) c hc
      | some d =>
        rw [hdata] at hkv
        simp only at hkv
        split at hkv
        · rcases mem_sinsert hkv with hkv | hkv
          · cases hkv
            cases hcs
            exact hnew [] (fun c hc => by cases hc) c hc
          · exact hold d hdata kv hkv cs hcs c hc
        · next rd hrd =>
          rcases mem_sinsert hkv with hkv | hkv
          · cases hkv
            cases hcs
            refine hnew (rd.cells.getD []) (fun c hc => ?_) c hc
            cases hrc : rd.cells with
            | none => rw [hrc] at hc; cases hc
            | some cs => rw [hrc] at hc; exact h d hdata (row, rd) (mem_of_aget hrd) cs hrc c hc
          · exact hold d hdata kv hkv cs hcs c hc

theorem reaches_setRowProps {s : Sheet} {row : Nat} {p : RowProps} (h : s.Reaches) : (s.setRowProps row p).Reaches := by
  intro d hd kv hkv cs hcs c hc
  unfold Sheet.setRowProps at hd ⊢
  cases hd
  cases hdata : s.data with
  | none =>
    rw [hdata] at hkv
    cases List.mem_singleton.mp hkv
    cases hcs
  | some d =>
    rw [hdata] at hkv
    simp only at hkv
    split at hkv
    · rcases mem_sinsert hkv with hkv | hkv
      · cases hkv; cases hcs
      · exact h d hdata kv hkv cs hcs c hc
    · next rd hrd =>
      rcases mem_sinsert hkv with hkv | hkv
      · cases hkv
        exact h d hdata (row, rd) (mem_of_aget hrd) cs hcs c hc
      · exact h d hdata kv hkv cs hcs c hc

theorem reaches_run {b : Build} {st st' : Sheet × List String} {op : SheetOp} (h : st.1.Reaches) (e : op.run b st = .ok st') : st'.1.Reaches := by
  cases op with
  | write r c cells => exact reaches_setRow (table' := st'.2) h e
  | rowProps r p => cases e; exact reaches_setRowProps h
  | column c p =>
    cases e
    simp only [Sheet.setColumn]
    split
    · exact h
    · exact h

theorem foldl_rows_dim (rows : List (Nat × RowProps × List (Nat × CellProps))) (d : Nat × Nat) :
    (rows.foldl (fun d r => r.2.2.foldl (fun d kv => dimAdd d kv.1) d) d).1 ≤ d.1 ∧
    ∀ r ∈ rows, ∀ kv ∈ r.2.2, (rows.foldl (fun d r => r.2.2.foldl (fun d kv => dimAdd d kv.1) d) d).1 ≤ kv.1 := by
  induction rows generalizing d with
  | nil => exact ⟨Nat.le_refl _, fun r hr => by cases hr⟩
  | cons r rows ih =>
    obtain ⟨i1, i2⟩ := ih (r.2.2.foldl (fun d kv => dimAdd d kv.1) d)
    obtain ⟨⟨h1, _⟩, h3, _⟩ := foldl_dimAdd d r.2.2
    refine ⟨Nat.le_trans i1 h1, fun r' hr' kv hkv => ?_⟩
    rcases List.mem_cons.mp hr' with rfl | hr'
    · exact Nat.le_trans i1 (h3 kv hkv).1
    · exact i2 r' hr' kv hkv

theorem reaches_load {env : Env} {x x' : XDoc} {s : Sheet} (h : Sheet.load env x = (.ok s, x')) : s.Reaches := by
  obtain ⟨_, hd, _, _⟩ := load_ok h
  unfold dataOf at hd
  split at hd
  · next hn =>
    intro d hsd
    rw [← (Prod.mk.inj (Except.ok.inj hd)).1] at hsd
    cases hsd
  · next n hn =>
    split at hd
    · cases hd
    · next rows hr =>
      have hd1 := (Prod.mk.inj (Except.ok.inj hd)).1
      have hd2 := (Prod.mk.inj (Except.ok.inj hd)).2
      intro d hsd kv hkv cs hcs c hc
      rw [← hd1] at hsd
      cases hsd
      rw [← hd2]
      rcases mem_extendMap hkv with hkv | hkv
      · obtain ⟨r, hr', rfl⟩ := List.mem_map.mp hkv
        simp only [rowDataOf] at hcs
        split at hcs
        · cases hcs
          rcases mem_extendMap hc with hc | hc
          · exact (foldl_rows_dim rows dimDefault).2 r hr' c hc
          · cases hc
        · cases hcs
      · cases hkv

theorem reaches_openSheet {env : Env} {x x1 : Excel} {name : Option String} {h : SheetHandle} (e : x.openSheet env name = (.ok h, x1)) : h.data.Reaches := by
  unfold Excel.openSheet at e
  split at e
  · cases e
  · split at e
    · cases e
    · split at e
      · cases e
      · split at e
        · cases e
        · split at e
          · cases e
          · split at e
            · cases e
            · next s d' hl =>
              cases e
              exact reaches_load hl

/-- Every handle of the session. -/
def Session.Reach (s : Session) : Prop := ∀ h ∈ s.handles, h.data.Reaches

theorem reach_open {env : Env} {s : Session} {name : Option String} (h : s.Reach) : (s.open env name).2.Reach := by
  unfold Session.open
  split
  · exact h
  · next g x1 he =>
    intro k hk
    rcases List.mem_append.mp hk with hk | hk
    · exact h k hk
    · cases List.mem_singleton.mp hk
      exact reaches_openSheet he

theorem reach_step {env : Env} {s : Session} {op : WbOp} (h : s.Reach) : (s.step env op).2.Reach := by
  cases op with
  | add name => exact reach_open h
  | get name => exact reach_open h
  | sheet i op =>
    simp only [Session.step]
    split
    · exact h
    · next g hg =>
      split
      · exact h
      · next d table he =>
        intro k hk
        rcases List.mem_or_eq_of_mem_set hk with hk | hk
        · exact h k hk
        · subst hk
          exact reaches_run (st := (g.data, s.x.strings.data)) (st' := (d, table)) (h g (List.mem_of_getElem? hg)) he
  | drop i =>
    simp only [Session.step]
    split
    · exact h
    · exact fun k hk => h k (List.mem_of_mem_eraseIdx hk)
  | delete i =>
    simp only [Session.step]
    split
    · exact h
    · exact fun k hk => h k (List.mem_of_mem_eraseIdx hk)
  | rename old new =>
    simp only [Session.step]
    split <;> exact h
  | active name => exact h
  | hide name => exact h
  | view op => exact h
  | style hs st =>
    simp only [Session.step]
    split <;> exact h

theorem reach_run {env : Env} {s s' : Session} {ops : List WbOp} (h : s.Reach) (e : s.run env ops = .ok s') : s'.Reach := by
  induction ops generalizing s with
  | nil => cases e; exact h
  | cons op ops ih =>
    have hs := reach_step (env := env) (op := op) h
    unfold Session.run at e
    split at e
    · cases e
    · next s1 _ he =>
      rw [he] at hs
      exact ih hs e

/-- All cells can be written once the dimension can. -/
theorem rows_write {s : Sheet} {d : SheetRows} {ref : String} (h : s.Reaches) (hd : s.data = some d) (hr : s.dimensionRef = .ok ref) :
    ∃ ns, mapRes rowNode d = .ok ns := by
  have hcol : d = [] ∨ s.dim.1 ≠ 0 := by
    cases d with
    | nil => exact Or.inl rfl
    | cons a d =>
      right
      intro h0
      unfold Sheet.dimensionRef at hr
      rw [hd, h0] at hr
      have : ∃ b, (a :: d).getLast? = some b := ⟨_, List.getLast?_eq_some_getLast (by simp)⟩
      obtain ⟨b, hb⟩ := this
      simp only [Option.bind, rowBounds, List.head?_cons, hb] at hr
      rw [show getColumnRef 0 = .error (.fail "Index must be greater than 0") from rfl] at hr
      cases hr
  have hrow : ∀ kv ∈ d, ∃ n, rowNode kv = .ok n := by
    intro kv hkv
    have h0 : s.dim.1 ≠ 0 := hcol.resolve_left (fun h => by rw [h] at hkv; cases hkv)
    have hcell : ∀ c ∈ kv.2.cells.getD [], ∃ n, cellNode kv.1 c = .ok n := by
      intro c hc
      cases hcs : kv.2.cells with
      | none => rw [hcs] at hc; cases hc
      | some cs =>
        rw [hcs] at hc
        have := h d hd kv hkv cs hcs c hc
        unfold cellNode
        rw [getColumnRef_pos c.1 (by omega)]
        exact ⟨_, rfl⟩
    unfold rowNode
    have : ∃ l, mapRes (cellNode kv.1) (kv.2.cells.getD []) = .ok l := mapRes_total _ hcell
    obtain ⟨l, hl⟩ := this
    rw [hl]
    exact ⟨_, rfl⟩
  exact mapRes_total _ hrow

/-- If the sheet cannot be written, that shows before its document changes: either the reference of the dimension cannot be made, or the
document has no root. -/
theorem save_fails {u : Unicode} {s : Sheet} {d : XmlDoc} {e : Err} (h : s.Reaches) (hinv : d.Inv) (he : arenaSaveSheet u s d = .error e) :
    s.dimensionRef = .error e ∨ d.get 0 = none ∧ e = .fail "Parent Element Not Found" := by
  have hw := (arenaSaveSheet_eq (u := u) hinv s).doc
  rw [he] at hw
  unfold Sheet.save at hw
  cases hr : s.dimensionRef with
  | error e' => rw [hr] at hw; cases hw; exact Or.inl rfl
  | ok ref =>
    rw [hr] at hw
    cases hroot : d.toXDoc.root with
    | none =>
      rw [hroot] at hw
      cases hw
      exact Or.inr ⟨root_none hinv hroot, rfl⟩
    | some n =>
      rw [hroot] at hw
      cases hd : s.data with
      | none => rw [hd] at hw; cases hw
      | some rows =>
        rw [hd] at hw
        obtain ⟨ns, hns⟩ := rows_write h hd hr
        simp only [hns] at hw
        cases hw

end Oxml
