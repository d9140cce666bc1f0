import Verif.Props.Workbook
import Verif.Proofs.StyleLoad
import Verif.Proofs.ExistingStill
/-!
# Loaded and requested styles and views fit the Rust types
-/
namespace Oxml
open Spec

theorem mapRes_mem {α β : Type} {f : α → Res β} {l : List α} {r : List β} (h : mapRes f l = .ok r) : ∀ y ∈ r, ∃ x ∈ l, f x = .ok y := by
  induction l generalizing r with
  | nil => cases h; intro y hy; cases hy
  | cons a l ih =>
    unfold mapRes at h
    split at h
    · cases h
    · next b hb =>
      split at h
      · cases h
      · next bs hbs =>
        cases h
        intro y hy
        rcases List.mem_cons.mp hy with rfl | hy
        · exact ⟨a, by simp, hb⟩
        · obtain ⟨x, h1, h2⟩ := ih hbs y hy
          exact ⟨x, by simp [h1], h2⟩

theorem u16Attr_le {a : Attrs} {k : String} {n : Nat} (h : u16Attr a k = .ok n) : n ≤ u16Max := by
  unfold u16Attr at h
  split at h
  · cases h; exact Nat.zero_le _
  · split at h
    · cases h
    · next e => cases h; exact parseUInt_le e

theorem loadXf_fit {n : Node} {x : Xf} (h : loadXf n = .ok x) : XfFit x := by
  unfold loadXf at h
  split at h
  · cases h; (unfold XfFit; decide)
  · split at h
    · next h1 h2 h3 h4 h5 =>
      cases h
      unfold loadAlign
      split <;> exact ⟨u16Attr_le h5, u16Attr_le h1, u16Attr_le h2, u16Attr_le h3, u16Attr_le h4⟩
    all_goals cases h

/-- Size and family of the font fit. -/
def FontFit (f : Font) : Prop := f.size ≤ u8Max ∧ f.family ≤ u32Max

theorem loadFontItem_fit {f f' : Font} {n : Node} (hf : FontFit f) (h : loadFontItem f n = .ok f') : FontFit f' := by
  unfold loadFontItem at h
  split at h
  · cases h; exact hf
  split at h
  · cases h; exact hf
  split at h
  · cases h; exact hf
  split at h
  · split at h
    · cases h; exact hf
    · split at h
      · cases h
      · next e => cases h; exact ⟨parseUInt_le e, hf.2⟩
  split at h
  · cases h; exact hf
  split at h
  · cases h; exact hf
  split at h
  · split at h
    · cases h; exact hf
    · split at h
      · cases h
      · next e => cases h; exact ⟨hf.1, parseUInt_le e⟩
  split at h
  · cases h; exact hf
  · cases h

theorem loadFontItems_fit {ns : List Node} {f f' : Font} (hf : FontFit f) (h : loadFontItems f ns = .ok f') : FontFit f' := by
  induction ns generalizing f with
  | nil => cases h; exact hf
  | cons n ns ih =>
    unfold loadFontItems at h
    split at h
    · cases h
    · next e => exact ih (loadFontItem_fit hf e) h

theorem loadNumFmt_fit {n : Node} {f : NumFmt} (h : loadNumFmt n = .ok (some f)) : f.id ≤ usizeMax := by
  unfold loadNumFmt at h
  split at h
  · cases h
  · split at h
    · cases h
    · split at h
      · cases h
      · next e =>
        split at h
        · cases h
        · cases h; exact parseUInt_le e

theorem load_fit {x : XDoc} {st : Styles} (h : (Styles.load x).1 = .ok st) : StylesFit st := by
  unfold Styles.load at h
  split at h
  · next h1 h2 h3 h4 h5 h6 =>
    cases h
    constructor
    · intro f hf
      obtain ⟨o, ho, e⟩ := List.mem_filterMap.mp hf
      cases o with
      | none => cases e
      | some g =>
        cases e
        obtain ⟨n, _, hn⟩ := mapRes_mem h1 _ ho
        exact loadNumFmt_fit hn
    · intro f hf
      obtain ⟨n, _, hn⟩ := mapRes_mem h2 f hf
      exact loadFontItems_fit (f := {}) (by unfold FontFit; decide) hn
    · intro y hy
      obtain ⟨n, _, hn⟩ := mapRes_mem h5 y hy
      exact loadXf_fit hn
    · intro y hy
      obtain ⟨n, _, hn⟩ := mapRes_mem h6 y hy
      exact loadXf_fit hn
  all_goals cases h

theorem mem_findOrPush {α : Type} {h : α → Nat} {l : List α} {x y : α} (hy : y ∈ (findOrPush h l x).1) : y ∈ l ∨ y = x := by
  unfold findOrPush at hy
  split at hy
  · exact Or.inl hy
  · simpa using hy

theorem asU16_le (n : Nat) : asU16 n ≤ u16Max := by
  unfold asU16 u16Max; omega

theorem numFmtPart_fit {b : Build} {hs : Hashes} {l l' : List NumFmt} {s : StyleSetting} {n k : Nat} (hl : ∀ f ∈ l, f.id ≤ usizeMax)
    (h : numFmtPart b hs l s = .ok (l', n, k)) : (∀ f ∈ l', f.id ≤ usizeMax) ∧ n ≤ u16Max := by
  unfold numFmtPart at h
  split at h
  · split at h
    · cases h
    · split at h
      · split at h
        · cases h
        · next e =>
          cases h
          refine ⟨hl, ?_⟩
          unfold addU16 at e
          split at e
          · cases e; unfold u16Max; omega
          · split at e
            · cases e; unfold u16Max; omega
            · cases e
      · cases h
        refine ⟨?_, asU16_le _⟩
        intro f hf
        rcases List.mem_append.mp hf with hf | hf
        · exact hl f hf
        · rw [List.mem_singleton] at hf
          subst hf
          show (customFmt _).id ≤ _
          exact Nat.zero_le _
  · cases h; exact ⟨hl, Nat.zero_le _⟩

theorem getStyleId_fit {b : Build} {hs : Hashes} {st st' : Styles} {s : StyleSetting} {i : Nat} (hf : StylesFit st) (hs8 : s.fontSize ≤ u8Max)
    (h : getStyleId b hs st s = .ok (st', i)) : StylesFit st' := by
  unfold getStyleId at h
  split at h
  · cases h
  · next l n k e =>
    obtain ⟨h1, h2⟩ := numFmtPart_fit hf.numFmts e
    cases h
    have hx : XfFit (requestedXf hs st s n k) := ⟨by unfold requestedXf; exact Nat.zero_le _, h2, asU16_le _, asU16_le _, asU16_le _⟩
    constructor
    · exact h1
    · intro f hf'
      rcases mem_findOrPush hf' with hf' | rfl
      · exact hf.fonts f hf'
      · exact ⟨hs8, show 2 ≤ u32Max by decide⟩
    · intro x hx'
      rcases mem_findOrPush hx' with hx' | rfl
      · exact hf.styleXfs x hx'
      · exact hx
    · intro x hx'
      rcases mem_findOrPush hx' with hx' | rfl
      · exact hf.xfs x hx'
      · exact ⟨asU16_le _, hx.2⟩

theorem parseI16_le {s : String} {r : Int} (h : parseI16 s = some r) : -32768 ≤ r ∧ r ≤ 32767 := by
  unfold parseI16 at h
  split at h
  · split at h
    · next e => cases h; have := e.2; omega
    · cases h
  · cases hp : parseUInt 32767 s with
    | none => rw [hp] at h; cases h
    | some n =>
      rw [hp] at h
      cases h
      have := parseUInt_le hp
      constructor
      · exact Int.le_trans (by decide) (Int.natCast_nonneg n)
      · exact Int.ofNat_le.mpr this

theorem loadBookViews_fit {ns : List Node} {v v' : Option BookView} (hv : FitsBook v) (h : loadBookViews v ns = .ok v') : FitsBook v' := by
  induction ns generalizing v with
  | nil => cases h; exact hv
  | cons n ns ih =>
    unfold loadBookViews at h
    split at h
    · exact ih hv h
    · split at h
      · cases h
      · next w e =>
        refine ih ?_ h
        intro b r hb hr
        cases hb
        unfold loadBookView at e
        split at e
        · cases e
        · next ratio e2 =>
          cases e
          simp only at hr
          subst hr
          unfold parseOpt at e2
          split at e2
          · cases e2
          · split at e2
            · cases e2
            · next e3 => cases e2; exact parseI16_le e3

theorem loadBook_fit {x : XDoc} {l : List SheetEntry} {v : Option BookView} (h : (loadBook x).1 = .ok (l, v)) : FitsBook v := by
  unfold loadBook at h
  simp only at h
  split at h
  · cases h
  · next e =>
    split at h
    · cases h
    · cases h
      exact loadBookViews_fit (fun b r hb => by cases hb) e

theorem open_keeps (env : Env) (s : Session) (name : Option String) :
    (s.open env name).2.x.view = s.x.view ∧ (s.open env name).2.x.styles = s.x.styles := by
  unfold Session.open
  rw [openSheet_eq]
  have h1 : (s.x.sheetFile name).2.view = s.x.view ∧ (s.x.sheetFile name).2.styles = s.x.styles := by
    unfold Excel.sheetFile
    split
    · split <;> exact ⟨rfl, rfl⟩
    · split <;> exact ⟨rfl, rfl⟩
  cases hf : s.x.sheetFile name with
  | mk r x1 =>
    rw [hf] at h1
    cases r with
    | error e => exact h1
    | ok pn =>
      obtain ⟨path, nm⟩ := pn
      have h2 : (openAt env x1 path nm).2.view = x1.view ∧ (openAt env x1 path nm).2.styles = x1.styles := by
        unfold openAt
        split
        · exact ⟨rfl, rfl⟩
        · split
          · exact ⟨rfl, rfl⟩
          · split
            · exact ⟨rfl, rfl⟩
            · split
              · exact ⟨rfl, rfl⟩
              · split <;> exact ⟨rfl, rfl⟩
      simp only
      split <;> next e => rw [e] at h2; exact ⟨h2.1.trans h1.1, h2.2.trans h1.2⟩

theorem step_view {env : Env} {s : Session} {op : WbOp} (h : FitsBook s.x.view) : FitsBook (s.step env op).2.x.view := by
  cases op with
  | add name => rw [Session.step, (open_keeps env s name).1]; exact h
  | get name => rw [Session.step, (open_keeps env s (some name)).1]; exact h
  | sheet i op =>
    unfold Session.step
    simp only
    split
    · exact h
    · split <;> exact h
  | drop i =>
    unfold Session.step
    simp only
    split <;> exact h
  | delete i =>
    unfold Session.step
    simp only
    split <;> exact h
  | rename old new =>
    unfold Session.step
    simp only
    split <;> exact h
  | active name => exact h
  | hide name => exact h
  | view op => exact fits_ops _ h [op]
  | style hs st =>
    unfold Session.step
    simp only
    split
    · exact h
    · exact h

theorem step_fits {env : Env} {s : Session} {op : WbOp} (ho : ∀ hs st, op = .style hs st → st.fontSize ≤ u8Max)
    (h : FitsBook s.x.view ∧ StylesFit s.x.styles.data) : FitsBook (s.step env op).2.x.view ∧ StylesFit (s.step env op).2.x.styles.data := by
  cases op with
  | add name => rw [Session.step, (open_keeps env s name).1, (open_keeps env s name).2]; exact h
  | get name => rw [Session.step, (open_keeps env s (some name)).1, (open_keeps env s (some name)).2]; exact h
  | sheet i op =>
    unfold Session.step
    simp only
    split
    · exact h
    · split <;> exact h
  | drop i =>
    unfold Session.step
    simp only
    split <;> exact h
  | delete i =>
    unfold Session.step
    simp only
    split <;> exact h
  | rename old new =>
    unfold Session.step
    simp only
    split <;> exact h
  | active name => exact h
  | hide name => exact h
  | view op => exact ⟨fits_ops _ h.1 [op], h.2⟩
  | style hs st =>
    unfold Session.step
    simp only
    split
    · exact h
    · next e => exact ⟨h.1, getStyleId_fit h.2 (ho hs st rfl) e⟩

theorem session_fits {env : Env} {ops : List WbOp} {s s' : Session} (ho : SizesFit ops) (h : FitsBook s.x.view ∧ StylesFit s.x.styles.data)
    (hr : s.run env ops = .ok s') : FitsBook s'.x.view ∧ StylesFit s'.x.styles.data := by
  induction ops generalizing s with
  | nil => cases hr; exact h
  | cons op ops ih =>
    have key : (s.step env op).2.run env ops = .ok s' := by
      rw [Session.run] at hr
      split at hr
      · cases hr
      · next e => rw [e]; exact hr
    refine ih (fun hs st hm => ho hs st (by simp [hm])) (step_fits (fun hs st e => ho hs st (by simp [e])) h) key

theorem session_view {env : Env} {ops : List WbOp} {s s' : Session} (h : FitsBook s.x.view) (hr : s.run env ops = .ok s') : FitsBook s'.x.view := by
  induction ops generalizing s with
  | nil => cases hr; exact h
  | cons op ops ih =>
    have key : (s.step env op).2.run env ops = .ok s' := by
      rw [Session.run] at hr
      split at hr
      · cases hr
      · next e => rw [e]; exact hr
    exact ih (step_view h) key

end Oxml
