import Verif.Proofs.ExistingAgain
/-!
# Strings and styles of an existing workbook only grow
-/
namespace Oxml
open Spec

theorem getStringId_prefix (table : List String) (v : String) : table <+: (getStringId table v).1 := by
  unfold getStringId
  split
  · exact List.prefix_rfl
  · exact List.prefix_append _ _

theorem typeCell_prefix (table : List String) (c : CellProps) : table <+: (typeCell table c).2 := by
  unfold typeCell
  split
  · exact List.prefix_rfl
  · split
    · split
      · exact List.prefix_rfl
      · split
        · exact List.prefix_rfl
        · exact List.prefix_rfl
        · exact getStringId_prefix _ _
    · exact getStringId_prefix _ _
    · exact List.prefix_rfl
    · exact List.prefix_rfl

theorem typeCells_prefix (table : List String) (cs : List CellProps) : table <+: (typeCells table cs).2 := by
  induction cs generalizing table with
  | nil => exact List.prefix_rfl
  | cons c cs ih => exact (typeCell_prefix table c).trans (ih _)

theorem sheetOp_prefix {b : Build} {st st' : Sheet × List String} {op : SheetOp} (h : op.run b st = .ok st') : st.2 <+: st'.2 := by
  cases op with
  | write r c cells =>
    simp only [SheetOp.run, Sheet.setRow] at h
    split at h
    · cases h
    · split at h
      · cases h
      · cases h; exact typeCells_prefix _ _
  | rowProps r p => cases h; exact List.prefix_rfl
  | column c p => cases h; exact List.prefix_rfl

theorem findOrPush_starts {α : Type} (h : α → Nat) (l : List α) (x : α) : l <+: (findOrPush h l x).1 := by
  unfold findOrPush
  split
  · exact List.prefix_rfl
  · exact List.prefix_append _ _

/-- Every table of the styles begins with the old one. -/
structure StylesGrow (a b : Styles) : Prop where
  numFmts : a.numFmts <+: b.numFmts
  fonts : a.fonts <+: b.fonts
  fills : a.fills <+: b.fills
  borders : a.borders <+: b.borders
  styleXfs : a.styleXfs <+: b.styleXfs
  xfs : a.xfs <+: b.xfs

theorem StylesGrow.refl (a : Styles) : StylesGrow a a :=
  ⟨List.prefix_rfl, List.prefix_rfl, List.prefix_rfl, List.prefix_rfl, List.prefix_rfl, List.prefix_rfl⟩

theorem StylesGrow.trans {a b c : Styles} (h : StylesGrow a b) (g : StylesGrow b c) : StylesGrow a c :=
  ⟨h.1.trans g.1, h.2.trans g.2, h.3.trans g.3, h.4.trans g.4, h.5.trans g.5, h.6.trans g.6⟩

theorem getStyleId_grows {b : Build} {hs : Hashes} {st st' : Styles} {s : StyleSetting} {i : Nat} (h : getStyleId b hs st s = .ok (st', i)) :
    StylesGrow st st' := by
  unfold getStyleId at h
  split at h
  · cases h
  · next l n k e =>
    cases h
    refine ⟨?_, findOrPush_starts _ _ _, findOrPush_starts _ _ _, findOrPush_starts _ _ _, findOrPush_starts _ _ _, findOrPush_starts _ _ _⟩
    unfold numFmtPart at e
    split at e
    · split at e
      · cases e
      · split at e
        · split at e
          · cases e
          · cases e; exact List.prefix_rfl
        · cases e; exact List.prefix_append _ _
    · cases e; exact List.prefix_rfl

theorem step_tables (env : Env) (s : Session) (op : WbOp) : s.x.strings.data <+: (s.step env op).2.x.strings.data ∧
    StylesGrow s.x.styles.data (s.step env op).2.x.styles.data := by
  have same : s.x.strings.data <+: s.x.strings.data ∧ StylesGrow s.x.styles.data s.x.styles.data := ⟨List.prefix_rfl, .refl _⟩
  have hopen : ∀ name, (s.open env name).2.x.strings = s.x.strings := by
    intro name
    unfold Session.open
    rw [openSheet_eq]
    have h1 : (s.x.sheetFile name).2.strings = s.x.strings := by
      unfold Excel.sheetFile
      split
      · split <;> rfl
      · split <;> rfl
    cases hf : s.x.sheetFile name with
    | mk r x1 =>
      rw [hf] at h1
      cases r with
      | error e => exact h1
      | ok pn =>
        obtain ⟨path, nm⟩ := pn
        have h2 : (openAt env x1 path nm).2.strings = x1.strings := by
          unfold openAt
          split
          · rfl
          · split
            · rfl
            · split
              · rfl
              · split
                · rfl
                · split <;> rfl
        simp only
        split <;> next e => rw [e] at h2; exact h2.trans h1
  cases op with
  | add name => rw [Session.step, hopen, (open_keeps env s name).2]; exact same
  | get name => rw [Session.step, hopen, (open_keeps env s (some name)).2]; exact same
  | sheet i op =>
    unfold Session.step
    simp only
    split
    · exact same
    · split
      · exact same
      · next e => exact ⟨sheetOp_prefix e, .refl _⟩
  | drop i =>
    unfold Session.step
    simp only
    split <;> exact same
  | delete i =>
    unfold Session.step
    simp only
    split <;> exact same
  | rename old new =>
    unfold Session.step
    simp only
    split <;> exact same
  | active name => exact same
  | hide name => exact same
  | view op => exact same
  | style hs st =>
    unfold Session.step
    simp only
    split
    · exact same
    · next e => exact ⟨List.prefix_rfl, getStyleId_grows e⟩

theorem run_tables {env : Env} {ops : List WbOp} {s s' : Session} (hr : s.run env ops = .ok s') : s.x.strings.data <+: s'.x.strings.data ∧
    StylesGrow s.x.styles.data s'.x.styles.data := by
  induction ops generalizing s with
  | nil => cases hr; exact ⟨List.prefix_rfl, .refl _⟩
  | cons op ops ih =>
    have key : (s.step env op).2.run env ops = .ok s' := by
      rw [Session.run] at hr
      split at hr
      · cases hr
      · next e => rw [e]; exact hr
    obtain ⟨h1, h2⟩ := step_tables env s op
    obtain ⟨g1, g2⟩ := ih key
    exact ⟨h1.trans g1, h2.trans g2⟩

theorem getElem_prefix {α : Type} {a b : List α} (h : a <+: b) {i : Nat} {x : α} (hx : a[i]? = some x) : b[i]? = some x := by
  obtain ⟨t, rfl⟩ := h
  rw [List.getElem?_append_left (List.getElem?_eq_some_iff.mp hx).1]; exact hx

end Oxml
