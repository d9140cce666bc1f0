import Verif.Proofs.WorksheetSession
/-!
# Sheets without column 0 can always be saved
-/
namespace Oxml
open Spec

/-- No cell is in column 0 and the dimension does not start there. -/
structure PosCols (s : Sheet) : Prop where
  dim : s.dim.1 ≠ 0 ∧ s.dim.2 ≠ 0
  cells : ∀ d, s.data = some d → ∀ kv ∈ d, ∀ cs, kv.2.cells = some cs → ∀ c ∈ cs, c.1 ≠ 0

theorem posCols_empty : PosCols emptySheet := by
  refine ⟨⟨by decide, by decide⟩, ?_⟩
  intro d hd kv hkv
  cases hd
  cases hkv

theorem mapRes_total {α β : Type} {f : α → Res β} (l : List α) (h : ∀ x ∈ l, ∃ y, f x = .ok y) : ∃ ys, mapRes f l = .ok ys := by
  induction l with
  | nil => exact ⟨[], rfl⟩
  | cons a l ih =>
    obtain ⟨y, hy⟩ := h a (by simp)
    obtain ⟨ys, hys⟩ := ih (fun x hx => h x (by simp [hx]))
    exact ⟨y :: ys, by simp only [mapRes, hy, hys]⟩

/-- Such a sheet is written into any document with a root. -/
theorem save_total {s : Sheet} (h : PosCols s) {x : XDoc} {r : Node} (hr : x.root = some r) : ∃ x', s.save x = .ok x' := by
  have hd : ∃ ref, s.dimensionRef = .ok ref := by
    unfold Sheet.dimensionRef
    split
    · exact ⟨_, rfl⟩
    · rw [getColumnRef_pos _ h.dim.1, getColumnRef_pos _ h.dim.2]
      exact ⟨_, rfl⟩
  obtain ⟨ref, hd⟩ := hd
  unfold Sheet.save
  simp only [hd, hr]
  cases hs : s.data with
  | none => exact ⟨_, rfl⟩
  | some d =>
    have : ∃ ns, mapRes rowNode d = .ok ns := by
      apply mapRes_total
      intro kv hkv
      have : ∃ cs, mapRes (cellNode kv.1) (kv.2.cells.getD []) = .ok cs := by
        apply mapRes_total
        intro c hc
        cases hcs : kv.2.cells with
        | none => rw [hcs] at hc; cases hc
        | some cs =>
          rw [hcs] at hc
          have := h.cells d hs kv hkv cs hcs c hc
          unfold cellNode
          rw [getColumnRef_pos _ this]
          exact ⟨_, rfl⟩
      obtain ⟨cs, hcs⟩ := this
      unfold rowNode
      rw [hcs]
      exact ⟨_, rfl⟩
    obtain ⟨ns, hns⟩ := this
    simp only [hns]
    exact ⟨_, rfl⟩

theorem dimAdd_pos (l : List (Nat × CellProps)) (hl : ∀ kv ∈ l, kv.1 ≠ 0) (d : Nat × Nat) (hd : d.1 ≠ 0 ∧ d.2 ≠ 0) :
    (l.foldl (fun d kv => dimAdd d kv.1) d).1 ≠ 0 ∧ (l.foldl (fun d kv => dimAdd d kv.1) d).2 ≠ 0 := by
  induction l generalizing d with
  | nil => exact hd
  | cons kv l ih =>
    apply ih (fun k hk => hl k (by simp [hk]))
    have := hl kv (by simp)
    obtain ⟨h1, h2⟩ := hd
    unfold dimAdd
    simp only
    omega

theorem putCells_pos {data : Option SheetRows} (hd : ∀ d, data = some d → ∀ kv ∈ d, ∀ cs, kv.2.cells = some cs → ∀ c ∈ cs, c.1 ≠ 0) (row : Nat)
    (placed : List (Nat × CellProps)) (hp : ∀ kv ∈ placed, kv.1 ≠ 0) :
    ∀ kv ∈ putCells data row placed, ∀ cs, kv.2.cells = some cs → ∀ c ∈ cs, c.1 ≠ 0 := by
  intro kv hkv cs hcs c hc
  unfold putCells at hkv
  have new : ∀ kv : Nat × RowData, kv = (row, { props := {}, cells := some (extendMap [] placed) }) → kv.2.cells = some cs → c.1 ≠ 0 := by
    rintro _ rfl h
    cases h
    rcases mem_extendMap hc with hc | hc
    · exact hp c hc
    · cases hc
  split at hkv
  · exact new kv (List.mem_singleton.mp hkv) hcs
  · rename_i d
    split at hkv
    · rcases mem_sinsert hkv with h | h
      · exact new kv h hcs
      · exact hd d rfl kv h cs hcs c hc
    · rename_i rd hrd
      rcases mem_sinsert hkv with h | h
      · subst h
        cases hcs
        rcases mem_extendMap hc with hc | hc
        · exact hp c hc
        · cases hx : rd.cells with
          | none => rw [hx] at hc; cases hc
          | some cs' => rw [hx] at hc; exact hd d rfl _ (mem_of_aget hrd) cs' hx c hc
      · exact hd d rfl kv h cs hcs c hc

theorem run_pos {b : Build} {st st' : Sheet × List String} {op : SheetOp} (h : PosCols st.1) (hr : op.InRange) (ho : op.run b st = .ok st') :
    PosCols st'.1 := by
  cases op with
  | write row col cells =>
    obtain ⟨h1, h2⟩ := hr
    have e : SheetOp.run b st (.write row col cells) = st.1.setRow b st.2 row col cells := rfl
    rw [e, setRow_inRange b st.1 st.2 row col cells h1 h2] at ho
    cases ho
    have hp : ∀ kv ∈ placedFrom (col - 1) (typeCells st.2 cells).1, kv.1 ≠ 0 := by
      intro kv hkv
      have := ((mem_placedFrom _ _ _).mp hkv).1
      omega
    refine ⟨dimAdd_pos _ hp _ h.dim, ?_⟩
    intro d hd
    have hd := Option.some.inj hd
    subst hd
    exact putCells_pos h.cells row _ hp
  | rowProps row p =>
    cases ho
    refine ⟨h.dim, ?_⟩
    intro d hd kv hkv
    have hd := Option.some.inj hd
    subst hd
    cases hs : st.1.data with
    | none =>
      rw [hs] at hkv
      simp only [List.mem_singleton] at hkv
      subst hkv; intro cs hcs; cases hcs
    | some d =>
      rw [hs] at hkv
      simp only at hkv
      split at hkv
      · rcases mem_sinsert hkv with rfl | hm
        · intro cs hcs; cases hcs
        · exact h.cells d hs kv hm
      · rename_i rd hrd
        rcases mem_sinsert hkv with rfl | hm
        · exact h.cells d hs (row, rd) (mem_of_aget hrd)
        · exact h.cells d hs kv hm
  | column col p =>
    cases ho
    obtain ⟨e1, e2⟩ := setColumn_data st.1 col p
    refine ⟨by rw [e2]; exact h.dim, ?_⟩
    rw [e1]; exact h.cells

end Oxml
