import Verif.Proofs.SeenStyles
import Verif.Props.Navigate
import Verif.Props.StyledCells
/-!
# C107: other programs see cells as the styles they were given
-/
namespace Oxml
open Spec

variable {env : Env} {theme : XDoc}

/-- A request leaves the format in the tables, until the end of the history. -/
theorem Spec.AskedFor.hasLook {s0 s : Session} {ops : List WbOp} {setting : StyleSetting} {id : Nat} (h : AskedFor env s0 ops setting id)
    (hr : s0.run env ops = .ok s) : HasLook s.x.styles.data id setting := by
  obtain ⟨before, hs, after, s1, styles, rfl, hb, hroom, hc, hg⟩ := h
  rw [run_split hb] at hr
  simp only [Session.run, Session.step, hg] at hr
  exact HasLook.mono (hasLook_request hroom hc hg) (run_tables hr).2.extends

/-- **C107, styles.** Whatever the history, other programs find one styles part, and there the id handed out for a setting stands for exactly the font, fill,
border and alignment asked for, and for the general number format if that was asked for. -/
theorem C107_styles_partial (hst : env.build.release = true → StampOk env.stamp) (hsx : env.build.release = true → StampXml env.stamp) {ops : List WbOp} {x : Excel}
    {s : Session} (hx : Excel.new env theme = .ok x) (hr : Session.run env ⟨x, []⟩ ops = .ok s) (ht : ∀ op ∈ ops, ∀ t ∈ givenTexts op, XmlChars t)
    {setting : StyleSetting} {id : Nat} (ha : AskedFor env ⟨x, []⟩ ops setting id) {now : String} (hnow : XmlChars now) {exts : List (String × String)}
    (he : ∀ p, s.x.saved env now = .ok p → HashSetOrder p.extPairs exts) :
    ∃ z, s.x.toZip env now exts = .ok z ∧ (∃ styles, FindsStyles z styles) ∧ ∀ styles, FindsStyles z styles → LooksElsewhere styles (Nat.toDigits 10 id) setting ∧
      (setting.numberFormat = .general → FormatsElsewhere styles (Nat.toDigits 10 id) .general) := by
  obtain ⟨z, hz⟩ := C65_saves hst ⟨x, hx, hr⟩ now exts
  obtain ⟨p, hf⟩ := savedFile hst hsx ⟨x, hx, hr⟩ ht hnow he hz
  refine ⟨z, hz, ?_, fun styles hs => ?_⟩
  · obtain ⟨styles, h⟩ := (docX_styles hf.clean.styles).wellFormed hf.stamp
    exact ⟨styles, hf.styles.mpr h⟩
  · obtain ⟨h1, h2⟩ := looks_read hf.clean.styles hf.stamp (hf.styles.mp hs) (ha.hasLook hr)
    refine ⟨h1, fun hk => ?_⟩
    obtain ⟨xf, e1, e2⟩ := h2 (by rw [hk]; decide)
    exact ⟨xf, 0, e1, rfl, e2⟩

/-- **C107 fails for number formats.** A style with any other format every program knows (percentages, dates, two decimals, ...) is found with the general one. -/
theorem C107_violated (hst : env.build.release = true → StampOk env.stamp) (hsx : env.build.release = true → StampXml env.stamp) {ops : List WbOp} {x : Excel}
    {s : Session} (hx : Excel.new env theme = .ok x) (hr : Session.run env ⟨x, []⟩ ops = .ok s) (ht : ∀ op ∈ ops, ∀ t ∈ givenTexts op, XmlChars t)
    {setting : StyleSetting} {id : Nat} (ha : AskedFor env ⟨x, []⟩ ops setting id) (hk : setting.numberFormat ≠ .general) (hk' : setting.numberFormat ≠ .custom)
    {now : String} (hnow : XmlChars now) {exts : List (String × String)} (he : ∀ p, s.x.saved env now = .ok p → HashSetOrder p.extPairs exts) :
    ∃ z, s.x.toZip env now exts = .ok z ∧ ∀ styles, FindsStyles z styles → ¬FormatsElsewhere styles (Nat.toDigits 10 id) setting.numberFormat := by
  obtain ⟨z, hz⟩ := C65_saves hst ⟨x, hx, hr⟩ now exts
  obtain ⟨p, hf⟩ := savedFile hst hsx ⟨x, hx, hr⟩ ht hnow he hz
  refine ⟨z, hz, fun styles hs => ?_⟩
  obtain ⟨xf, e1, e2⟩ := (looks_read hf.clean.styles hf.stamp (hf.styles.mp hs) (ha.hasLook hr)).2 hk'
  rintro ⟨xf', n, f1, f2, f3⟩
  rw [e1] at f1
  cases f1
  rw [e2] at f3
  have : n = 0 := digits_inj ((Option.some.inj f3).symm.trans (by decide))
  subst this
  revert f2 hk
  cases setting.numberFormat <;> decide

/-- **C107, cells.** A cell given a style by its last write is found by other programs, under the name of its sheet, with that font, fill, border and alignment. -/
theorem C107_partial (hst : env.build.release = true → StampOk env.stamp) (hsx : env.build.release = true → StampXml env.stamp) {ops ops' : List WbOp} {x : Excel}
    {s s' : Session} (hx : Excel.new env theme = .ok x) (hr : Session.run env ⟨x, []⟩ ops = .ok s) (hf : FittingOps env ops) {i : Nat} {h : SheetHandle}
    (hi : s.handles[i]? = some h) (hr' : (s.step env (.drop i)).2.run env ops' = .ok s') (hca : Careful env ⟨x, []⟩ (ops ++ .drop i :: ops'))
    (ht : ∀ op ∈ ops ++ ops', ∀ t ∈ givenTexts op, XmlChars t) (hc : ∀ n ∈ names s'.x.sheets, CalmName n) {name : String}
    (hn : finalName env (s.step env (.drop i)).2 h.name ops' = some name) {setting : StyleSetting} {id : Nat}
    (ha : AskedFor env ⟨x, []⟩ (ops ++ .drop i :: ops') setting id) {row col : Nat} {given : CellProps}
    (hw : lastWritten row col (writesTo env h.path ⟨x, []⟩ ops) = some given) (hg : given.style = some id) (hnum : NumbersAreNumbers given)
    (hedge : CleanEdges given ∨ NoReopen env (s.step env (.drop i)).2 ops') {now : String} (hnow : XmlChars now) {exts : List (String × String)}
    (he : ∀ p, s'.x.saved env now = .ok p → HashSetOrder p.extPairs exts) :
    ∃ z, s'.x.toZip env now exts = .ok z ∧ (∃ sheet styles, FindsSheet z name.toList sheet ∧ FindsStyles z styles) ∧
      ∀ sheet styles, FindsSheet z name.toList sheet → FindsStyles z styles → ∀ ref, RefText ref row col →
        ∃ c number, (seenCells sheet).filter (fun c => decide (c.ref = some ref)) = [c] ∧ c.style = some number ∧ LooksElsewhere styles number setting := by
  obtain ⟨z, hz, ⟨sheet0, strings, w1, w2⟩, hall⟩ := C106_partial hst hsx hx hr hf hi hr' hca ht hc hn hnow he
  have hrun : Session.run env ⟨x, []⟩ (ops ++ .drop i :: ops') = .ok s' := by
    rw [run_split hr]
    have : s.step env (.drop i) = (.ok (), (s.step env (.drop i)).2) := by simp only [Session.step, hi]
    rw [Session.run, this]
    exact hr'
  have ht' : ∀ op ∈ ops ++ .drop i :: ops', ∀ t ∈ givenTexts op, XmlChars t := by
    intro op ho t htx
    rcases List.mem_append.mp ho with ho | ho
    · exact ht op (List.mem_append_left _ ho) t htx
    · rcases List.mem_cons.mp ho with rfl | ho
      · cases htx
      · exact ht op (List.mem_append_right _ ho) t htx
  obtain ⟨z', hz', ⟨styles0, q1⟩, q2⟩ := C107_styles_partial hst hsx hx hrun ht' ha hnow he
  rw [hz] at hz'
  cases hz'
  refine ⟨z, hz, ⟨sheet0, styles0, w1, q1⟩, fun sheet styles h1 h2 ref href => ?_⟩
  obtain ⟨c, e1, e2⟩ := (hall sheet strings h1 w2 row col ref href).2 given hw hnum hedge
  exact ⟨c, _, e1, by rw [e2.style, hg]; rfl, (q2 styles h2).1⟩

/-! ## Cases -/

/-- A setting with something of everything; also a percentage. -/
def vivid : StyleSetting :=
  { fontFamily := "Arial", fontSize := 14, textColor := { kind := .rgb, value := "FF0000FF" }, bold := true, italic := true, underline := true, pattern := .solid,
    foreground := some "FFFFFF00", borderTop := { style := .thin, color := some { kind := .indexed, value := "64" } }, horizontal := .center, wrapText := true,
    numberFormat := .percentage }

theorem vivid_asked (theme : XDoc) :
    ∃ s h s', Session.run C32_env ⟨newExcel C32_env theme, []⟩ (styledOps vivid) = .ok s ∧ FittingOps C32_env (styledOps vivid) ∧
      s.handles[0]? = some h ∧ (s.step C32_env (.drop 0)).2.run C32_env [] = .ok s' ∧ SizesFit (styledOps vivid ++ [.drop 0]) ∧
      AskedFor C32_env ⟨newExcel C32_env theme, []⟩ (styledOps vivid ++ [.drop 0]) vivid 1 ∧
      lastWritten 1 1 (writesTo C32_env h.path ⟨newExcel C32_env theme, []⟩ (styledOps vivid)) = some { value := some "text", style := some 1 } := by
  refine styled_hyps theme (by decide) ⟨?_, ?_, ?_, ?_⟩ (by decide +kernel)
      ⟨endOf C32_env theme (styledOps vivid), by kernel_rfl, (endOf C32_env theme (styledOps vivid)).handles[0]?.getD ⟨0, ⟨[], 0, ""⟩, emptySheet, "", ""⟩,
        by kernel_rfl, by kernel_rfl⟩
  · unfold Injects; decide +kernel
  · unfold Injects; decide +kernel
  · unfold Injects; decide +kernel
  · intro nf n a h; cases h; decide +kernel

theorem vivid_texts : ∀ op ∈ styledOps vivid ++ [.drop 0], ∀ t ∈ givenTexts op, XmlChars t := by
  intro op ho t ht
  have hm : t ∈ (styledOps vivid ++ [WbOp.drop 0]).flatMap givenTexts := List.mem_flatMap.mpr ⟨op, ho, ht⟩
  have hall : ((styledOps vivid ++ [WbOp.drop 0]).flatMap givenTexts).all (fun t => t.toList.all (fun x => decide (0x20 ≤ x.toNat ∧ x.toNat < 128))) = true := by decide +kernel
  exact xlit (List.all_eq_true.mp hall t hm)

theorem vivid_careful (theme : XDoc) : Careful C32_env ⟨newExcel C32_env theme, []⟩ (styledOps vivid ++ [.drop 0]) := by
  have nd : ∀ (s : Session) (op : WbOp) (l : List String), names (s.step C32_env op).2.x.sheets = l → l.Nodup → (names (s.step C32_env op).2.x.sheets).Nodup := by
    intro s op l h hl; rw [h]; exact hl
  refine ⟨⟨nd _ _ ["sheet1", "a"] (by kernel_rfl) (by decide), Or.inr (by kernel_rfl)⟩, ?_⟩
  refine ⟨⟨nd _ _ ["sheet1", "a"] (by kernel_rfl) (by decide), trivial⟩, ?_⟩
  refine ⟨⟨nd _ _ ["sheet1", "a"] (by kernel_rfl) (by decide), trivial⟩, ?_⟩
  exact ⟨⟨nd _ _ ["sheet1", "a"] (by kernel_rfl) (by decide), trivial⟩, trivial⟩

/-- Example: the cell A1 of the sheet "a" is seen in bold italic Arial, underlined, on yellow, with a line above; as a percentage it is not. -/
example (theme : XDoc) : ∃ s exts z, Ran C32_env theme (styledOps vivid ++ [.drop 0]) s ∧ s.x.toZip C32_env "" exts = .ok z ∧
    ∃ sheet styles c number, FindsSheet z "a".toList sheet ∧ FindsStyles z styles ∧ (seenCells sheet).filter (fun c => decide (c.ref = some "A1".toList)) = [c] ∧
      c.style = some number ∧ LooksElsewhere styles number vivid ∧ (wantedFont vivid).italic = true ∧ (wantedFont vivid).names = [some "Arial".toList] ∧
      ¬FormatsElsewhere styles (Nat.toDigits 10 1) .percentage := by
  obtain ⟨s, h, s', h1, h2, h3, h4, h5, h6, h7⟩ := vivid_asked theme
  have hrun : Session.run C32_env ⟨newExcel C32_env theme, []⟩ (styledOps vivid ++ [.drop 0]) = .ok s' := by
    rw [run_split h1]
    have : s.step C32_env (.drop 0) = (.ok (), (s.step C32_env (.drop 0)).2) := by simp only [Session.step, h3]
    rw [Session.run, this]
    exact h4
  have hR : Ran C32_env theme (styledOps vivid ++ [.drop 0]) s' := ⟨_, new_eq C32_env theme, hrun⟩
  obtain ⟨exts, he⟩ := some_order (fun h => by cases h) hR ""
  have e0 : s' = endOf C32_env theme (styledOps vivid ++ [.drop 0]) := by
    have : Session.run C32_env ⟨newExcel C32_env theme, []⟩ (styledOps vivid ++ [.drop 0]) = .ok (endOf C32_env theme (styledOps vivid ++ [.drop 0])) := by kernel_rfl
    rw [hrun] at this
    exact Except.ok.inj this
  have r3 : names s'.x.sheets = ["sheet1", "a"] := by rw [e0]; kernel_rfl
  have r4 : h.name = "a" := by
    have e1 : s = endOf C32_env theme (styledOps vivid) := by
      have : Session.run C32_env ⟨newExcel C32_env theme, []⟩ (styledOps vivid) = .ok (endOf C32_env theme (styledOps vivid)) := by kernel_rfl
      rw [h1] at this
      exact Except.ok.inj this
    have e2 : (endOf C32_env theme (styledOps vivid)).handles[0]?.map SheetHandle.name = some "a" := by kernel_rfl
    rw [← e1, h3] at e2
    exact Option.some.inj e2
  obtain ⟨z, hz, ⟨sheet, styles, w1, w2⟩, hall⟩ := C107_partial (fun h => by cases h) (fun h => by cases h) (new_eq C32_env theme) h1 h2 h3 h4 (vivid_careful theme)
    (by rw [List.append_nil]; exact fun op ho => vivid_texts op (List.mem_append_left _ ho))
    (by
      rw [r3]
      intro n hn
      simp only [List.mem_cons, List.not_mem_nil, or_false] at hn
      rcases hn with rfl | rfl <;> exact calm_lit (by decide +kernel))
    (name := "a") (by rw [r4]; rfl) h6 h7 rfl
    (by
      intro v hv ht
      cases hv
      rcases ht with ht | ⟨_, ht⟩
      · cases ht
      · exact absurd ((isFloatText_iff "text").mpr ht) (by decide +kernel))
    (.inl ⟨(fun f h => by cases h), fun v _ h => by rcases h with h | h | h <;> cases h⟩) (now := "") (xlit (by decide +kernel)) he
  obtain ⟨z', hz', hno⟩ := C107_violated (fun h => by cases h) (fun h => by cases h) (new_eq C32_env theme) hrun vivid_texts h6 (by decide) (by decide)
    (now := "") (xlit (by decide +kernel)) he
  rw [hz] at hz'
  cases hz'
  obtain ⟨c, number, c1, c2, c3⟩ := hall sheet styles w1 w2 "A1".toList ⟨['A'], by decide +kernel, by decide, (fun c hc => by rw [List.mem_singleton] at hc; subst hc; unfold isUpperLetter; decide), by decide +kernel⟩
  exact ⟨s', exts, z, hR, hz, sheet, styles, c, number, w1, w2, c1, c2, c3, rfl, by decide +kernel, hno styles w2⟩

end Oxml
