import Verif.Proofs.WorksheetLoad
/-!
# Loaded and edited sheets fit their types
-/
namespace Oxml
open Spec

theorem mem_sinsert {V : Type} {k : Nat} {v : V} {m : List (Nat × V)} {kv : Nat × V} (h : kv ∈ sinsert k v m) : kv = (k, v) ∨ kv ∈ m := by
  induction m with
  | nil => left; simpa [sinsert] using h
  | cons a m ih =>
    obtain ⟨j, w⟩ := a
    unfold sinsert at h
    split at h
    · rcases List.mem_cons.mp h with h | h
      · exact Or.inl h
      · exact Or.inr h
    · split at h
      · rcases List.mem_cons.mp h with h | h
        · exact Or.inl h
        · exact Or.inr (List.mem_cons_of_mem _ h)
      · rcases List.mem_cons.mp h with h | h
        · exact Or.inr (by rw [h]; simp)
        · rcases ih h with h | h
          · exact Or.inl h
          · exact Or.inr (List.mem_cons_of_mem _ h)

theorem mem_extendMap {V : Type} {m l : List (Nat × V)} {kv : Nat × V} (h : kv ∈ extendMap m l) : kv ∈ l ∨ kv ∈ m := by
  unfold extendMap at h
  induction l generalizing m with
  | nil => exact Or.inr h
  | cons a l ih =>
    rcases ih h with h | h
    · exact Or.inl (List.mem_cons_of_mem _ h)
    · rcases mem_sinsert h with h | h
      · exact Or.inl (by rw [h]; simp)
      · exact Or.inr h

theorem addU16_le {b : Build} {x y n : Nat} (h : addU16 b x y = .ok n) : n ≤ u16Max := by
  unfold addU16 at h
  have : u16Max = 65535 := rfl
  split at h
  · cases h; omega
  · split at h
    · cases h; omega
    · cases h

theorem columnIndexLoop_le {b : Build} (l : List Char) (i acc n : Nat) (ha : acc ≤ u16Max) (h : columnIndexLoop b l i acc = .ok n) : n ≤ u16Max := by
  induction l generalizing i acc with
  | nil => cases h; exact ha
  | cons c cs ih =>
    rw [columnIndexLoop] at h
    cases h1 : charValue b c with
    | error e => rw [h1] at h; cases h
    | ok cv =>
      rw [h1] at h
      cases h2 : pow26 b i with
      | error e => rw [h2] at h; cases h
      | ok p =>
        rw [h2] at h
        cases h3 : mulU16 b cv p with
        | error e =>
          have h : (mulU16 b cv p >>= fun m => addU16 b acc m >>= fun index => columnIndexLoop b cs (i + 1) index) = .ok n := h
          rw [h3] at h; cases h
        | ok m =>
          have h : (mulU16 b cv p >>= fun m => addU16 b acc m >>= fun index => columnIndexLoop b cs (i + 1) index) = .ok n := h
          rw [h3] at h
          have h : (addU16 b acc m >>= fun index => columnIndexLoop b cs (i + 1) index) = .ok n := h
          cases h4 : addU16 b acc m with
          | error e => rw [h4] at h; cases h
          | ok x => rw [h4] at h; exact ih _ _ (addU16_le h4) h

theorem getColumnIndex_le {b : Build} {u : Unicode} {ref : String} {n : Nat} (h : getColumnIndex b u ref = .ok n) : n ≤ u16Max := by
  unfold getColumnIndex at h
  simp only at h
  split at h
  · cases h
  · exact columnIndexLoop_le _ _ _ _ (by decide) h

theorem parseOpt_le {max : Nat} {o : Option String} {v : Option Nat} (h : parseOpt (parseUInt max) o = .ok v) : ∀ g, v = some g → g ≤ max := by
  intro g hg
  cases o with
  | none => cases h; cases hg
  | some t =>
    rw [parseOpt] at h
    cases hp : parseUInt max t with
    | none => rw [hp] at h; cases h
    | some n => rw [hp] at h; cases h; cases hg; exact parseUInt_le hp

theorem parseOpt_f32 {env : Env} (he : PrintsF32 env) {o v : Option String} (h : parseOpt (parseF32 env.show32) o = .ok v) :
    ∀ t, v = some t → Canonical env t := by
  intro g hg
  cases o with
  | none => cases h; cases hg
  | some t =>
    rw [parseOpt] at h
    unfold parseF32 at h
    by_cases hf : isFloatText t = true
    · rw [if_pos hf] at h
      cases h; cases hg
      exact he t ((isFloatText_iff t).mp hf)
    · rw [if_neg hf] at h; cases h

theorem parseI16_range {t : String} {z : Int} (h : parseI16 t = some z) : -32768 ≤ z ∧ z ≤ 32767 := by
  unfold parseI16 at h
  split at h
  · split at h
    · cases h; omega
    · cases h
  · cases hp : parseUInt 32767 t with
    | none => rw [hp] at h; cases h
    | some n =>
      rw [hp] at h
      cases h
      have := parseUInt_le hp
      constructor <;> simp only [Int.ofNat_eq_natCast] <;> omega

theorem parseOpt_i16 {o : Option String} {v : Option Int} (h : parseOpt parseI16 o = .ok v) : ∀ z, v = some z → -32768 ≤ z ∧ z ≤ 32767 := by
  intro z hz
  cases o with
  | none => cases h; cases hz
  | some t =>
    rw [parseOpt] at h
    cases hp : parseI16 t with
    | none => rw [hp] at h; cases h
    | some n => rw [hp] at h; cases h; cases hz; exact parseI16_range hp

theorem loadCol_fit {env : Env} (he : PrintsF32 env) {n : Node} {c : ColProps} (h : loadCol env n = .ok c) : ColFit env c := by
  unfold loadCol at h
  split at h
  · cases h
  · split at h
    · rename_i mn mx st gl w h1 h2 h3 h4 h5
      cases h
      refine ⟨?_, ?_, parseOpt_le h3, ?_⟩
      · cases mn with
        | none => simp [u16Max]
        | some v => exact parseOpt_le h1 v rfl
      · cases mx with
        | none => simp [u16Max]
        | some v => exact parseOpt_le h2 v rfl
      · split at h5
        · split at h5
          · cases h5
          · exact parseOpt_f32 he h5
        · cases h5; intro t ht; cases ht
    · cases h

theorem loadView_fit {n : Node} {v : View} (h : loadView n = .ok v) : ViewFit v := by
  unfold loadView at h
  split at h
  · cases h
  · split at h
    · cases h
    · split at h
      · cases h
      · split at h
        · rename_i z1 z2 z3 z4 h1 h2 h3 h4
          cases h
          intro z hz
          rcases hz with hz | hz | hz | hz
          · exact parseOpt_i16 h1 z hz
          · exact parseOpt_i16 h2 z hz
          · exact parseOpt_i16 h4 z hz
          · exact parseOpt_i16 h3 z hz
        · cases h

theorem loadCellChild_fit {c c' : CellProps} {n : Node} (h : loadCellChild c n = .ok c') : c'.style = c.style ∧ c'.commentId = c.commentId := by
  unfold loadCellChild at h
  split at h
  · cases h; exact ⟨rfl, rfl⟩
  · split at h
    · cases h; exact ⟨rfl, rfl⟩
    · split at h
      · cases h; cases n.children.head? <;> exact ⟨rfl, rfl⟩
      · cases h

theorem loadCellChildren_fit (ns : List Node) {c c' : CellProps} (h : loadCellChildren c ns = .ok c') : c'.style = c.style ∧ c'.commentId = c.commentId := by
  induction ns generalizing c with
  | nil => cases h; exact ⟨rfl, rfl⟩
  | cons n ns ih =>
    rw [loadCellChildren] at h
    cases h1 : loadCellChild c n with
    | error e => rw [h1] at h; cases h
    | ok c1 =>
      rw [h1] at h
      have := ih h
      have h2 := loadCellChild_fit h1
      exact ⟨this.1.trans h2.1, this.2.trans h2.2⟩

theorem loadCell_fit {env : Env} {n : Node} {kv : Nat × CellProps} (h : loadCell env n = .ok kv) : kv.1 ≤ u16Max ∧ CellFit kv.2 := by
  unfold loadCell at h
  split at h
  · cases h
  · split at h
    · cases h
    · split at h
      · cases h
      · rename_i hcol
        split at h
        · rename_i st cm h1 h2
          split at h
          · cases h
          · rename_i c hc
            cases h
            have := loadCellChildren_fit _ hc
            refine ⟨getColumnIndex_le hcol, ?_, ?_⟩
            · intro g hg
              rw [this.1] at hg
              exact parseOpt_le h1 g hg
            · intro g hg
              rw [this.2] at hg
              exact parseOpt_le h2 g hg
        · cases h

theorem loadRowProps_fit {env : Env} (he : PrintsF32 env) {a : Attrs} {p : RowProps} (h : loadRowProps env a = .ok p) : RowPropsFit env p := by
  unfold loadRowProps at h
  split at h
  · rename_i st ht gl h1 h2 h3
    cases h
    refine ⟨parseOpt_le h1, ?_, parseOpt_f32 he h2⟩
    intro g hg
    cases gl with
    | none => cases hg
    | some v =>
      simp only [Option.bind_some] at hg
      split at hg
      · cases hg; exact parseOpt_le h3 _ rfl
      · cases hg
  · cases h

theorem loadRow_fit {env : Env} (he : PrintsF32 env) {n : Node} {r : Nat × RowProps × List (Nat × CellProps)} (h : loadRow env n = .ok r) :
    RowFit env (r.1, rowDataOf r.2.1 r.2.2) := by
  unfold loadRow at h
  split at h
  · cases h
  · split at h
    · cases h
    · split at h
      · cases h
      · rename_i hr
        split at h
        · cases h
        · rename_i hp
          split at h
          · cases h
          · rename_i cs hcs
            cases h
            refine ⟨parseUInt_le hr, loadRowProps_fit he hp, ?_⟩
            intro cs' hcs' c hc
            unfold rowDataOf at hcs'
            simp only at hcs'
            split at hcs'
            · cases hcs'
              rcases mem_extendMap hc with hc | hc
              · exact mapRes_all hcs (fun kv => kv.1 ≤ u16Max ∧ CellFit kv.2) (fun x _ y hy => loadCell_fit hy) c hc
              · cases hc
            · cases hcs'

theorem mapRootChildren_children (x : XDoc) (f : List Node → List Node) (hf : f [] = []) :
    (x.mapRootChildren f).rootChildren = f x.rootChildren := by
  unfold XDoc.mapRootChildren XDoc.rootChildren
  cases hr : x.root with
  | none => simp [hf]
  | some r => cases r; rfl

/-- What a successful load consists of. -/
theorem load_ok {env : Env} {x x' : XDoc} {s : Sheet} (h : Sheet.load env x = (.ok s, x')) :
    colsOf env (x.rootChildren.filter (fun n => n.tag = "cols")).getLast? = .ok s.cols ∧
    dataOf env (x.rootChildren.filter (fun n => n.tag = "sheetData")).getLast? = .ok (s.data, s.dim) ∧
    viewsOf (x.rootChildren.filter (fun n => n.tag = "sheetViews")).getLast? = .ok s.views ∧
    x' = x.mapRootChildren unmanaged := by
  have hpop : ∀ (y : XDoc) (t t' : String), t ≠ t' → ((y.popTag t).2.popTag t').1 = (y.popTag t').1 := by
    intro y t t' hne
    cases hr : y.root with
    | none =>
      unfold XDoc.popTag XDoc.mapRootChildren XDoc.rootChildren
      simp [hr]
    | some r => exact popTag_other hne r hr
  unfold Sheet.load at h
  simp only at h
  split at h
  · cases h
  · rename_i cols x2 hc
    split at h
    · cases h
    · rename_i data dim x3 hd
      split at h
      · cases h
      · rename_i views x4 hv
        cases h
        unfold loadCols at hc
        unfold loadData at hd
        unfold loadViews at hv
        have hx2 := (Prod.mk.inj hc).2
        have hx3 := (Prod.mk.inj hd).2
        have hx4 := (Prod.mk.inj hv).2
        have h1 := (Prod.mk.inj hc).1
        have h2 := (Prod.mk.inj hd).1
        have h3 := (Prod.mk.inj hv).1
        rw [hpop _ _ _ (by decide)] at h1
        rw [← hx2, hpop _ _ _ (by decide), hpop _ _ _ (by decide)] at h2
        rw [← hx3, ← hx2, hpop _ _ _ (by decide), hpop _ _ _ (by decide), hpop _ _ _ (by decide)] at h3
        refine ⟨h1, h2, h3, ?_⟩
        rw [← hx4, ← hx3, ← hx2]
        unfold XDoc.popTag
        cases hr : x.root with
        | none => simp [XDoc.mapRootChildren, hr]
        | some r =>
          cases r with
          | mk t a v cs =>
            simp only [XDoc.mapRootChildren, hr, Option.map_some, Node.children, Node.withChildren, unmanaged, List.filter_filter]
            congr 3
            apply List.filter_congr
            intro n _
            simp only [managedTags, List.mem_cons, List.not_mem_nil, or_false, not_or, decide_not, ← Bool.decide_and]
            simp only [← Bool.decide_and, ← decide_not]
            apply decide_eq_decide.mpr
            constructor
            · rintro ⟨h1, h2, h3, h4⟩; exact ⟨h4, h3, h1, h2⟩
            · rintro ⟨h1, h2, h3, h4⟩; exact ⟨h3, h4, h2, h1⟩

theorem load_unmanaged {env : Env} {x x' : XDoc} {s : Sheet} (h : Sheet.load env x = (.ok s, x')) :
    x'.rootChildren = unmanaged x.rootChildren ∧ ∀ n ∈ x'.rootChildren, n.tag ∉ managedTags := by
  obtain ⟨_, _, _, rfl⟩ := load_ok h
  rw [mapRootChildren_children _ _ rfl]
  refine ⟨rfl, ?_⟩
  intro n hn
  simpa [unmanaged] using (List.mem_filter.mp hn).2

theorem load_sorted {env : Env} {x x' : XDoc} {s : Sheet} (h : Sheet.load env x = (.ok s, x')) : SortedSheet s := by
  obtain ⟨_, hd, _, _⟩ := load_ok h
  intro d hsd
  unfold dataOf at hd
  split at hd
  · have e := (Prod.mk.inj (Except.ok.inj hd)).1
    rw [hsd] at e; cases e
  · split at hd
    · cases hd
    · rename_i rows hrows
      have e := (Prod.mk.inj (Except.ok.inj hd)).1
      rw [hsd] at e
      have e := Option.some.inj e
      subst e
      refine ⟨sorted_extend _ sorted_nil, ?_⟩
      intro r rd cs hr hcs
      rcases mem_extendMap (mem_of_aget hr) with hm | hm
      · obtain ⟨y, _, hy⟩ := List.mem_map.mp hm
        cases hy
        unfold rowDataOf at hcs
        simp only at hcs
        split at hcs
        · cases hcs; exact sorted_extend _ sorted_nil
        · cases hcs
      · cases hm

theorem load_fits {env : Env} (he : PrintsF32 env) {x x' : XDoc} {s : Sheet} (h : Sheet.load env x = (.ok s, x')) : FitsTypes env s := by
  obtain ⟨hc, hd, hv, _⟩ := load_ok h
  refine ⟨?_, ?_, ?_⟩
  · intro d hsd kv hkv
    unfold dataOf at hd
    split at hd
    · have e := (Prod.mk.inj (Except.ok.inj hd)).1
      rw [hsd] at e; cases e
    · split at hd
      · cases hd
      · rename_i rows hrows
        have e := (Prod.mk.inj (Except.ok.inj hd)).1
        rw [hsd] at e
        have e := Option.some.inj e
        subst e
        rcases mem_extendMap hkv with hm | hm
        · obtain ⟨y, hy1, rfl⟩ := List.mem_map.mp hm
          exact mapRes_all hrows (fun r => RowFit env (r.1, rowDataOf r.2.1 r.2.2)) (fun _ _ r hr => loadRow_fit he hr) y hy1
        · cases hm
  · intro cs hcs c hcm
    unfold colsOf at hc
    split at hc
    · have e := Except.ok.inj hc
      rw [hcs] at e; cases e
    · split at hc
      · cases hc
      · rename_i l hl
        have e := Except.ok.inj hc
        rw [hcs] at e
        cases e
        exact mapRes_all hl _ (fun _ _ r hr => loadCol_fit he hr) c hcm
  · intro v hvm
    unfold viewsOf at hv
    have dflt : ViewFit {} := by
      intro z hz; rcases hz with h | h | h | h <;> cases h
    split at hv
    · have e := Except.ok.inj hv
      rw [← e] at hvm
      rw [List.mem_singleton] at hvm
      subst hvm; exact dflt
    · split at hv
      · cases hv
      · rename_i l hl
        have e := Except.ok.inj hv
        rw [← e] at hvm
        rcases List.mem_cons.mp hvm with rfl | hvm
        · exact dflt
        · exact mapRes_all hl _ (fun _ _ r hr => loadView_fit hr) v hvm

/-! ### Operations -/

theorem typeCell_fit (table : List String) (c : CellProps) (h : CellFit c) : CellFit (typeCell table c).1 := by
  have : (typeCell table c).1.style = c.style ∧ (typeCell table c).1.commentId = c.commentId := by
    unfold typeCell
    split
    · exact ⟨rfl, rfl⟩
    · split
      · split
        · exact ⟨rfl, rfl⟩
        · split <;> exact ⟨rfl, rfl⟩
      · exact ⟨rfl, rfl⟩
      · exact ⟨rfl, rfl⟩
      · exact ⟨rfl, rfl⟩
  unfold CellFit
  rw [this.1, this.2]
  exact h

theorem typeCells_fit (table : List String) (cells : List CellProps) (h : ∀ c ∈ cells, CellFit c) : ∀ c ∈ (typeCells table cells).1, CellFit c := by
  induction cells generalizing table with
  | nil => intro c hc; cases hc
  | cons a cells ih =>
    intro c hc
    rw [typeCells] at hc
    rcases List.mem_cons.mp hc with rfl | hc
    · exact typeCell_fit _ _ (h a (by simp))
    · exact ih _ (fun c hc => h c (by simp [hc])) c hc

theorem placed_fit (c0 : Nat) (cells : List CellProps) (hc : ∀ c ∈ cells, CellFit c) (hl : c0 + cells.length ≤ 65535) :
    ∀ kv ∈ placedFrom c0 cells, kv.1 ≤ u16Max ∧ CellFit kv.2 := by
  intro kv hkv
  obtain ⟨h1, h2⟩ := (mem_placedFrom _ _ _).mp hkv
  have hlt := (List.getElem?_eq_some_iff.mp h2).1
  have : u16Max = 65535 := rfl
  exact ⟨by omega, hc _ (mem_of_getElem? h2)⟩

theorem putCells_fit {env : Env} (data : Option SheetRows) (hd : ∀ d, data = some d → ∀ kv ∈ d, RowFit env kv) (row : Nat) (hr : row ≤ u32Max)
    (placed : List (Nat × CellProps)) (hp : ∀ kv ∈ placed, kv.1 ≤ u16Max ∧ CellFit kv.2) : ∀ kv ∈ putCells data row placed, RowFit env kv := by
  have dflt : RowPropsFit env {} := ⟨by simp, by simp, by simp⟩
  have new : RowFit env (row, { props := {}, cells := some (extendMap [] placed) }) := by
    refine ⟨hr, dflt, ?_⟩
    intro cs hcs c hc
    cases hcs
    rcases mem_extendMap hc with hc | hc
    · exact hp c hc
    · cases hc
  intro kv hkv
  unfold putCells at hkv
  split at hkv
  · rw [List.mem_singleton] at hkv
    subst hkv; exact new
  · rename_i d
    split at hkv
    · rcases mem_sinsert hkv with h | h
      · subst h; exact new
      · exact hd d rfl kv h
    · rename_i rd hrd
      rcases mem_sinsert hkv with h | h
      · subst h
        have := hd d rfl _ (mem_of_aget hrd)
        refine ⟨hr, this.2.1, ?_⟩
        intro cs hcs c hc
        cases hcs
        rcases mem_extendMap hc with hc | hc
        · exact hp c hc
        · cases hx : rd.cells with
          | none => rw [hx] at hc; cases hc
          | some l => rw [hx] at hc; exact this.2.2 l hx c hc
      · exact hd d rfl kv h

theorem splitCol_fit {env : Env} {col : Nat} {r : ColProps} (h : ColFit env r) : ∀ c ∈ (splitCol col r).1 ++ (splitCol col r).2, ColFit env c := by
  obtain ⟨h1, h2, h3, h4⟩ := h
  intro c hc
  unfold splitCol at hc
  split at hc
  · cases hc
  · split at hc
    · rename_i hne hin
      split at hc
      · simp at hc; subst hc; exact ⟨by simp only; omega, h2, h3, h4⟩
      · split at hc
        · simp at hc; subst hc; exact ⟨h1, by simp only; omega, h3, h4⟩
        · simp at hc
          rcases hc with rfl | rfl
          · exact ⟨h1, by simp only; omega, h3, h4⟩
          · exact ⟨by simp only; omega, h2, by simp, by simp⟩
    · simp at hc; subst hc; exact ⟨h1, h2, h3, h4⟩

theorem run_fits {env : Env} {b : Build} {st st' : Sheet × List String} {op : SheetOp} (h : FitsTypes env st.1) (hf : op.Fits env) (hr : op.InRange)
    (ho : op.run b st = .ok st') : FitsTypes env st'.1 := by
  cases op with
  | write row col cells =>
    obtain ⟨h1, h2⟩ := hr
    have e : SheetOp.run b st (.write row col cells) = st.1.setRow b st.2 row col cells := rfl
    rw [e, setRow_inRange b st.1 st.2 row col cells h1 h2] at ho
    cases ho
    refine ⟨?_, h.cols, h.views⟩
    intro d hd
    have hd := Option.some.inj hd
    subst hd
    exact putCells_fit _ h.rows row hf.1 _ (placed_fit _ _ (typeCells_fit _ _ hf.2) (by rw [typeCells_length]; omega))
  | rowProps row p =>
    cases ho
    refine ⟨?_, h.cols, h.views⟩
    intro d hd kv hkv
    have hd := Option.some.inj hd
    subst hd
    cases hs : st.1.data with
    | none =>
      rw [hs] at hkv
      simp only [List.mem_singleton] at hkv
      subst hkv; exact ⟨hf.1, hf.2, by simp⟩
    | some d =>
      rw [hs] at hkv
      simp only at hkv
      split at hkv
      · rcases mem_sinsert hkv with rfl | hm
        · exact ⟨hf.1, hf.2, by simp⟩
        · exact h.rows d hs kv hm
      · rename_i rd hrd
        rcases mem_sinsert hkv with rfl | hm
        · exact ⟨hf.1, hf.2, (h.rows d hs _ (mem_of_aget hrd)).2.2⟩
        · exact h.rows d hs kv hm
  | column col p =>
    cases ho
    refine ⟨?_, ?_, ?_⟩
    · intro d hd
      rw [(setColumn_data st.1 col p).1] at hd
      exact h.rows d hd
    · intro cs hcs c hc
      unfold Sheet.setColumn at hcs
      cases hs : st.1.cols with
      | none => rw [hs] at hcs; simp only at hcs; rw [hs] at hcs; cases hcs
      | some l =>
        rw [hs] at hcs
        simp only [Option.some.injEq] at hcs
        subst hcs
        rcases List.mem_append.mp hc with hc | hc
        · rcases List.mem_append.mp hc with hc | hc
          · obtain ⟨r, hr1, hr2⟩ := List.mem_flatMap.mp hc
            exact splitCol_fit (h.cols l hs r hr1) c (List.mem_append_left _ hr2)
          · cases p with
            | none => cases hc
            | some q =>
              rw [List.mem_singleton] at hc
              subst hc
              obtain ⟨_, _, a3, a4⟩ := hf.2 q rfl
              exact ⟨hf.1, hf.1, a3, a4⟩
        · obtain ⟨r, hr1, hr2⟩ := List.mem_flatMap.mp hc
          exact splitCol_fit (h.cols l hs r hr1) c (List.mem_append_right _ hr2)
    · intro v hv
      unfold Sheet.setColumn at hv
      split at hv <;> exact h.views v hv

theorem runAll_fits {env : Env} {b : Build} (ops : List SheetOp) {st st' : Sheet × List String} (hs : SortedSheet st.1) (h : FitsTypes env st.1)
    (hf : ∀ op ∈ ops, op.Fits env) (hr : ∀ op ∈ ops, op.InRange) (ho : SheetOp.runAll b st ops = .ok st') :
    FitsTypes env st'.1 ∧ SortedSheet st'.1 := by
  induction ops generalizing st with
  | nil => cases ho; exact ⟨h, hs⟩
  | cons op ops ih =>
    rw [SheetOp.runAll] at ho
    cases h1 : op.run b st with
    | error e => rw [h1] at ho; cases ho
    | ok st1 =>
      rw [h1] at ho
      obtain ⟨st2, e, hs2, _⟩ := run_spec b st op hs (hr op (by simp))
      rw [h1] at e
      cases e
      exact ih hs2 (run_fits h (hf op (by simp)) (hr op (by simp)) h1) (fun o ho => hf o (by simp [ho])) (fun o ho => hr o (by simp [ho])) ho

/-! ### The dimension of a loaded sheet -/

theorem mem_akeys_extendMap {V : Type} (l m : List (Nat × V)) (k : Nat) : k ∈ akeys (extendMap m l) ↔ k ∈ akeys l ∨ k ∈ akeys m := by
  induction l generalizing m with
  | nil => simp [extendMap, akeys]
  | cons a l ih =>
    have e : extendMap m (a :: l) = extendMap (sinsert a.1 a.2 m) l := rfl
    rw [e, ih, mem_akeys_sinsert]
    simp only [akeys, List.map_cons, List.mem_cons]
    grind

theorem aget_extendMap_nodup {V : Type} (l m : List (Nat × V)) (hn : (akeys l).Nodup) (hm : SortedKeys m) (k : Nat) :
    aget k (extendMap m l) = (aget k l).or (aget k m) := by
  induction l generalizing m with
  | nil => simp [extendMap, aget]
  | cons a l ih =>
    obtain ⟨j, v⟩ := a
    have e : extendMap m ((j, v) :: l) = extendMap (sinsert j v m) l := rfl
    simp only [akeys, List.map_cons, List.nodup_cons] at hn
    rw [e, ih _ hn.2 (sorted_sinsert _ _ _ hm), aget_sinsert _ _ _ _ hm]
    simp only [aget]
    by_cases hk : j = k
    · subst hk
      have : aget j l = none := (aget_eq_none_iff j l).mpr hn.1
      rw [this, if_pos rfl, if_pos rfl]; rfl
    · rw [if_neg hk, if_neg hk]

theorem foldl_rows (rows : List (Nat × RowProps × List (Nat × CellProps))) (d : Nat × Nat) :
    rows.foldl (fun d r => r.2.2.foldl (fun d kv => dimAdd d kv.1) d) d = (rows.flatMap (fun r => r.2.2)).foldl (fun d kv => dimAdd d kv.1) d := by
  induction rows generalizing d with
  | nil => rfl
  | cons r rows ih => rw [List.foldl_cons, ih, List.flatMap_cons, List.foldl_append]

/-- The row numbers of the last `sheetData` element, in document order. -/
def fileRows (env : Env) (x : XDoc) : List Nat :=
  match (x.rootChildren.filter (fun n => n.tag = "sheetData")).getLast? with
  | none => []
  | some n =>
    match mapRes (loadRow env) n.children with
    | .error _ => []
    | .ok rows => rows.map (·.1)

theorem load_dimOf {env : Env} {x x' : XDoc} {s : Sheet} (h : Sheet.load env x = (.ok s, x')) (hn : (fileRows env x).Nodup) : DimOf s := by
  obtain ⟨_, hd, _, _⟩ := load_ok h
  unfold fileRows at hn
  unfold dataOf at hd
  cases hl : (x.rootChildren.filter (fun n => n.tag = "sheetData")).getLast? with
  | none =>
    rw [hl] at hd
    have e1 := (Prod.mk.inj (Except.ok.inj hd)).1
    have e2 := (Prod.mk.inj (Except.ok.inj hd)).2
    have hc : ∀ r c, cellAt s r c = none := by intro r c; unfold cellAt; rw [← e1]
    refine ⟨?_, ?_, ?_, ?_⟩
    · intro r c x hx; rw [hc] at hx; cases hx
    · left; rw [← e2]; rfl
    · left; rw [← e2]; rfl
    · rw [← e2]; decide
  | some n =>
    rw [hl] at hd hn
    simp only at hd hn
    cases hm : mapRes (loadRow env) n.children with
    | error e => rw [hm] at hd; cases hd
    | ok rows =>
      rw [hm] at hd hn
      simp only at hd hn
      have e1 := (Prod.mk.inj (Except.ok.inj hd)).1
      have e2 := (Prod.mk.inj (Except.ok.inj hd)).2
      rw [foldl_rows] at e2
      have hk : (akeys (rows.map (fun r => (r.1, rowDataOf r.2.1 r.2.2)))).Nodup := by
        have : akeys (rows.map (fun r => (r.1, rowDataOf r.2.1 r.2.2))) = rows.map (·.1) := by
          unfold akeys; rw [List.map_map]; rfl
        rw [this]; exact hn
      have hcell : ∀ r c, (∃ y, cellAt s r c = some y) ↔ ∃ row ∈ rows, row.1 = r ∧ c ∈ akeys row.2.2 := by
        intro r c
        have ec : cellAt s r c = match aget r (rows.map (fun r => (r.1, rowDataOf r.2.1 r.2.2))) with
            | none => none
            | some rd => match rd.cells with
              | none => none
              | some cs => aget c cs := by
          unfold cellAt
          rw [← e1]
          simp only
          rw [aget_extendMap_nodup _ _ hk sorted_nil]
          have : ∀ o : Option RowData, o.or (aget r []) = o := fun o => by cases o <;> rfl
          rw [this]
          rfl
        have hrow : ∀ cells : List (Nat × CellProps), ∀ p, (∃ y, (match (rowDataOf p cells).cells with
              | none => none
              | some cs => aget c cs) = some y) ↔ c ∈ akeys cells := by
          intro cells p
          have hke := mem_akeys_extendMap cells ([] : List (Nat × CellProps)) c
          simp only [akeys, List.map_nil, List.not_mem_nil, or_false] at hke
          unfold rowDataOf
          simp only
          split
          · rename_i hpos
            split at hpos
            · cases hpos
            · rename_i hz
              have : extendMap [] cells = [] := by
                cases hx : extendMap ([] : List (Nat × CellProps)) cells with
                | nil => rfl
                | cons _ _ => rw [hx] at hz; simp at hz
              rw [this] at hke
              constructor
              · rintro ⟨y, hy⟩; cases hy
              · intro hc; exact absurd (hke.mpr hc) (by simp)
          · rename_i cs hpos
            split at hpos
            · cases hpos
              constructor
              · rintro ⟨y, hy⟩
                exact hke.mp (mem_akeys_of_aget hy)
              · intro hc
                exact (aget_isSome_iff c _).mpr (hke.mpr hc)
            · cases hpos
        rw [ec]
        constructor
        · rintro ⟨y, hy⟩
          cases ha : aget r (rows.map (fun r => (r.1, rowDataOf r.2.1 r.2.2))) with
          | none => rw [ha] at hy; cases hy
          | some rd =>
            rw [ha] at hy
            obtain ⟨row, hrow1, hrow2⟩ := List.mem_map.mp (mem_of_aget ha)
            cases hrow2
            exact ⟨row, hrow1, rfl, (hrow _ _).mp ⟨y, hy⟩⟩
        · rintro ⟨row, hr1, rfl, hc⟩
          have : aget row.1 (rows.map (fun r => (r.1, rowDataOf r.2.1 r.2.2))) = some (rowDataOf row.2.1 row.2.2) :=
            aget_of_mem hk (List.mem_map.mpr ⟨row, hr1, rfl⟩)
          rw [this]
          exact (hrow _ _).mpr hc
      obtain ⟨⟨h1, h2⟩, h3, h4, h5⟩ := foldl_dimAdd dimDefault (rows.flatMap (fun r => r.2.2))
      rw [e2] at h1 h2 h3 h4 h5
      have toCell : ∀ kv ∈ rows.flatMap (fun r => r.2.2), ∃ r y, cellAt s r kv.1 = some y := by
        intro kv hkv
        obtain ⟨row, hr1, hr2⟩ := List.mem_flatMap.mp hkv
        obtain ⟨y, hy⟩ := (hcell row.1 kv.1).mpr ⟨row, hr1, rfl, List.mem_map.mpr ⟨kv, hr2, rfl⟩⟩
        exact ⟨row.1, y, hy⟩
      refine ⟨?_, ?_, ?_, h1⟩
      · intro r c y hy
        obtain ⟨row, hr1, rfl, hc⟩ := (hcell r c).mp ⟨y, hy⟩
        obtain ⟨kv, hkv, rfl⟩ := List.mem_map.mp hc
        exact h3 kv (List.mem_flatMap.mpr ⟨row, hr1, hkv⟩)
      · rcases h4 with h4 | ⟨kv, hkv, h4⟩
        · left; exact h4
        · right
          rw [h4]; exact toCell kv hkv
      · rcases h5 with h5 | ⟨kv, hkv, h5⟩
        · left; exact h5
        · right
          rw [h5]; exact toCell kv hkv

end Oxml
