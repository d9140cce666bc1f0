import Verif.Spec.StyledCells
import Verif.Props.SessionCells
import Verif.Props.ExistingReget
import Verif.Props.ExistingData
import Verif.Props.Style
/-!
# C95: a cell looks, in the saved file, as the style it was given
-/
namespace Oxml
open Spec

variable {env : Env} {theme : XDoc}

theorem StylesGrow.extends {a b : Styles} (h : StylesGrow a b) : Extends a b :=
  ⟨fun _ _ g => getElem_prefix h.numFmts g, fun _ _ g => getElem_prefix h.fonts g, fun _ _ g => getElem_prefix h.fills g,
    fun _ _ g => getElem_prefix h.borders g, fun _ _ g => getElem_prefix h.styleXfs g, fun _ _ g => getElem_prefix h.xfs g⟩

/-- What an id looks like in the file, whatever was asked for. -/
theorem looksAs_reload {st : Styles} {id : Nat} {s : StyleSetting} (hl : LooksAs st id s) : LooksAs (reloadStyles st) id (keptLook s) := by
  obtain ⟨xf, font, fill, border, h1, h2, h3, h4, ⟨f1, f2, f3, f4, f5, f6, f7⟩, ⟨g1, g2, g3⟩, ⟨k1, k2, k3, k4, k5⟩, l1, l2, l3⟩ := hl
  have key : ∀ (o : Option Color) (w : Option String), o.map Color.value = w → (o.map reloadColor).map Color.value = w.map attrReload := by
    intro o w h
    subst h
    cases o <;> rfl
  refine ⟨reloadXf true xf, reloadFont font, reloadFill fill, reloadBorder border, ?_, ?_, ?_, ?_, ⟨?_, f2, ?_, f4, rfl, rfl, f7⟩,
    ⟨g1, key _ _ g2, key _ _ g3⟩, ⟨?_, ?_, ?_, ?_, ?_⟩, l1, l2, ?_⟩
  · simp [reloadStyles, h1]
  · simp [reloadStyles, reloadXf, h2]
  · simp [reloadStyles, reloadXf, h3]
  · simp [reloadStyles, reloadXf, h4]
  · exact congrArg attrReload f1
  · exact congrArg reloadColor f3
  · exact congrArg reloadSide k1
  · exact congrArg reloadSide k2
  · exact congrArg reloadSide k3
  · exact congrArg reloadSide k4
  · exact congrArg reloadSide k5
  · change _ ↔ s.wrapText = true
    rw [← l3]
    change flag01 xf.wrap = 1 ↔ _
    unfold flag01
    split <;> simp_all

/-- Nothing is lost of a plain setting. -/
theorem keptLook_plain {s : StyleSetting} (h : PlainLook s) : keptLook s = s := by
  obtain ⟨p1, p2, p3, p4, p5, p6, p7, p8, p9, p10, p11⟩ := h
  have key : ∀ w : Option String, (∀ v, w = some v → NoSpecials v) → w.map attrReload = w := by
    intro w hw
    cases w with
    | none => rfl
    | some v => exact congrArg some ((escStr_eq_iff v).mpr (hw v rfl))
  have e3 : attrReload s.fontFamily = s.fontFamily := (escStr_eq_iff _).mpr p3
  have e4 : reloadColor s.textColor = s.textColor := (reloadColor_iff _).mpr p4
  unfold keptLook
  rw [e3, e4, key _ p5, key _ p6, (reloadSide_iff _).mpr p7, (reloadSide_iff _).mpr p8, (reloadSide_iff _).mpr p9, (reloadSide_iff _).mpr p10,
    (reloadSide_iff _).mpr p11]
  cases s
  simp only at p1 p2
  subst p1 p2
  rfl

/-- The id looks as asked at the end of the history. -/
theorem Spec.AskedFor.looks {s0 s : Session} {ops : List WbOp} {setting : StyleSetting} {id : Nat} (h : AskedFor env s0 ops setting id)
    (hr : s0.run env ops = .ok s) : LooksAs s.x.styles.data id setting := by
  obtain ⟨before, hs, after, s1, styles, rfl, hb, hroom, hc, hg⟩ := h
  rw [run_split hb] at hr
  simp only [Session.run, Session.step, hg] at hr
  exact LooksAs.mono (looksAs_request hroom hc hg) (run_tables hr).2.extends

/-- The style part of a new workbook, as saved. -/
theorem saved_new_styles (hst : env.build.release = true → StampOk env.stamp) {ops : List WbOp} {s : Session} (hr : Ran env theme ops s) (hf : SizesFit ops)
    (now : String) {p : Pkg} (ep : s.x.saved env now = .ok p) :
    ∃ t, partDoc env p "xl/styles.xml" = some t ∧ (Styles.load t).1 = .ok (reloadStyles s.x.styles.data) := by
  have hI : SessInv env theme s := ran_inv hst hr
  obtain ⟨p', ep', hw⟩ := hI.written now
  cases ep.symm.trans ep'
  have h4 := (closedParts_book theme now s.x.rels.rels s.x.strings.data s.x.styles.data s.x.sheets s.x.view).2.2.2.1
  have hl : (Styles.load styleDoc).1 = .ok newStyles := by
    have h1 : (Styles.load styleDoc).1.toOption = some newStyles := by decide +kernel
    cases hc : (Styles.load styleDoc).1 with
    | error e => rw [hc] at h1; cases h1
    | ok st => rw [hc] at h1; cases h1; rfl
  obtain ⟨t, a, cs, hwf, hc⟩ := styles_wf (wf_styleDoc env.uni) hl
  obtain ⟨x, hx, hrun⟩ := hr
  rw [new_eq env theme] at hx
  cases hx
  have hfit := (session_fits (s := ⟨newExcel env theme, []⟩) hf ⟨(fun b r h => by cases h), load_fit hl⟩ hrun).2
  obtain ⟨dd, g2, _, g3⟩ := reload_styles env hst hfit hwf hc (x' := stylesSaved s.x.styles.data) rfl
  exact ⟨_, partDoc_eq (hw.parts _ _ _ h4) g2, g3⟩

section
variable {ops ops' : List WbOp} {x : Excel} {s s' : Session} {i : Nat} {h : SheetHandle} {setting : StyleSetting} {id r c : Nat} {given : CellProps}

/-- **C95, new workbooks: what holds.** A cell last written with the id of a style looks in the saved file as the file can say it (`keptLook`). -/
theorem C95_partial_new (hst : env.build.release = true → StampOk env.stamp) (hx : Excel.new env theme = .ok x)
    (hr : Session.run env ⟨x, []⟩ ops = .ok s) (hf : FittingOps env ops) (hi : s.handles[i]? = some h)
    (hr' : (s.step env (.drop i)).2.run env ops' = .ok s') (hz : SizesFit (ops ++ .drop i :: ops'))
    (ha : AskedFor env ⟨x, []⟩ (ops ++ .drop i :: ops') setting id)
    (hw : lastWritten r c (writesTo env h.path ⟨x, []⟩ ops) = some given) (hg : given.style = some id) (now : String) :
    ∃ p d sh t st, s'.x.saved env now = .ok p ∧ partDoc env p h.path = some d ∧ (Sheet.load env d).1 = .ok sh ∧
      partDoc env p "xl/styles.xml" = some t ∧ (Styles.load t).1 = .ok st ∧ CellLooks sh st r c (keptLook setting) := by
  have hall : Session.run env ⟨x, []⟩ (ops ++ .drop i :: ops') = .ok s' := by
    rw [run_split hr]
    have : s.step env (.drop i) = (.ok (), (s.step env (.drop i)).2) := by simp only [Session.step, hi]
    rw [Session.run, this]
    exact hr'
  obtain ⟨p, d, sh, e1, e2, e3, e4, _⟩ := C45_partial hst hx hr hf hi hr' now
  obtain ⟨stored, shown, c1, c2, c3⟩ := (e4 r c).2 given hw
  obtain ⟨t, t1, t2⟩ := saved_new_styles hst ⟨x, hx, hall⟩ hz now e1
  refine ⟨p, d, sh, t, _, e1, e2, e3, t1, t2, shown, id, c1, ?_, looksAs_reload (Spec.AskedFor.looks ha hall)⟩
  have : shown.style = stored.style := by
    rcases c2 with rfl | rfl <;> rfl
  rw [this, c3.2.1, hg]

/-- **C95, new workbooks.** Of a plain setting (not italic, not underlined, no special characters) nothing is lost. -/
theorem C95_partial_plain (hst : env.build.release = true → StampOk env.stamp) (hx : Excel.new env theme = .ok x)
    (hr : Session.run env ⟨x, []⟩ ops = .ok s) (hf : FittingOps env ops) (hi : s.handles[i]? = some h)
    (hr' : (s.step env (.drop i)).2.run env ops' = .ok s') (hz : SizesFit (ops ++ .drop i :: ops'))
    (ha : AskedFor env ⟨x, []⟩ (ops ++ .drop i :: ops') setting id)
    (hw : lastWritten r c (writesTo env h.path ⟨x, []⟩ ops) = some given) (hg : given.style = some id) (hp : PlainLook setting) (now : String) :
    ∃ p d sh t st, s'.x.saved env now = .ok p ∧ partDoc env p h.path = some d ∧ (Sheet.load env d).1 = .ok sh ∧
      partDoc env p "xl/styles.xml" = some t ∧ (Styles.load t).1 = .ok st ∧ CellLooks sh st r c setting := by
  have := C95_partial_new hst hx hr hf hi hr' hz ha hw hg now
  rwa [keptLook_plain hp] at this

/-- **C95 fails whenever** an italic or underlined style was asked for: in the saved file the cell does not look like it. -/
theorem C95_violated_always (hst : env.build.release = true → StampOk env.stamp) (hx : Excel.new env theme = .ok x)
    (hr : Session.run env ⟨x, []⟩ ops = .ok s) (hf : FittingOps env ops) (hi : s.handles[i]? = some h)
    (hr' : (s.step env (.drop i)).2.run env ops' = .ok s') (hz : SizesFit (ops ++ .drop i :: ops'))
    (ha : AskedFor env ⟨x, []⟩ (ops ++ .drop i :: ops') setting id)
    (hw : lastWritten r c (writesTo env h.path ⟨x, []⟩ ops) = some given) (hg : given.style = some id)
    (hb : setting.italic = true ∨ setting.underline = true) {now : String} {p : Pkg} {d t : XDoc} {sh : Sheet} {st : Styles}
    (hs : s'.x.saved env now = .ok p) (hd : partDoc env p h.path = some d) (hl : (Sheet.load env d).1 = .ok sh)
    (ht : partDoc env p "xl/styles.xml" = some t) (hlt : (Styles.load t).1 = .ok st) : ¬ CellLooks sh st r c setting := by
  obtain ⟨p', d', sh', t', st', e1, e2, e3, e4, e5, cell, k, c1, c2, c3⟩ := C95_partial_new hst hx hr hf hi hr' hz ha hw hg now
  cases e1.symm.trans hs
  cases e2.symm.trans hd
  cases e3.symm.trans hl
  cases e4.symm.trans ht
  cases e5.symm.trans hlt
  rintro ⟨cell', k', c1', c2', c3'⟩
  cases c1.symm.trans c1'
  cases c2.symm.trans c2'
  have := (LooksAs.sameLook c3 c3').1
  rcases hb with hb | hb
  · have e := this.2.2.2.2.1; rw [hb] at e; cases e
  · have e := this.2.2.2.2.2.1; rw [hb] at e; cases e

end

/-- **C95 as stated.** In the file saved from a new workbook every cell looks as the style it was last given. -/
def CellsLookAsGiven (env : Env) (theme : XDoc) : Prop :=
  ∀ ops ops' x s s' i h setting id r c given now p, Excel.new env theme = .ok x → Session.run env ⟨x, []⟩ ops = .ok s → FittingOps env ops →
    s.handles[i]? = some h → (s.step env (.drop i)).2.run env ops' = .ok s' → SizesFit (ops ++ .drop i :: ops') →
    AskedFor env ⟨x, []⟩ (ops ++ .drop i :: ops') setting id → lastWritten r c (writesTo env h.path ⟨x, []⟩ ops) = some given →
    given.style = some id → s'.x.saved env now = .ok p →
    ∃ d sh t st, partDoc env p h.path = some d ∧ (Sheet.load env d).1 = .ok sh ∧ partDoc env p "xl/styles.xml" = some t ∧
      (Styles.load t).1 = .ok st ∧ CellLooks sh st r c setting

/-- A style is asked for and given to a cell of a new sheet. -/
def styledOps (setting : StyleSetting) : List WbOp :=
  [.add (some "a"), .style demoHash setting, .sheet 0 (.write 1 1 [{ value := some "text", style := some 1 }])]

theorem styled_hyps (theme : XDoc) {setting : StyleSetting} (hs : setting.fontSize ≤ u8Max) (hc : ClashFree C32_env.build demoHash newStyles setting)
    (he : (match getStyleId C32_env.build demoHash newStyles setting with | .ok (_, i) => i == 1 | .error _ => false) = true)
    (hw : ∃ s, Session.run C32_env ⟨newExcel C32_env theme, []⟩ (styledOps setting) = .ok s ∧ (∃ h, s.handles[0]? = some h ∧
      lastWritten 1 1 (writesTo C32_env h.path ⟨newExcel C32_env theme, []⟩ (styledOps setting)) = some { value := some "text", style := some 1 })) :
    ∃ s h s', Session.run C32_env ⟨newExcel C32_env theme, []⟩ (styledOps setting) = .ok s ∧ FittingOps C32_env (styledOps setting) ∧
      s.handles[0]? = some h ∧ (s.step C32_env (.drop 0)).2.run C32_env [] = .ok s' ∧ SizesFit (styledOps setting ++ [.drop 0]) ∧
      AskedFor C32_env ⟨newExcel C32_env theme, []⟩ (styledOps setting ++ [.drop 0]) setting 1 ∧
      lastWritten 1 1 (writesTo C32_env h.path ⟨newExcel C32_env theme, []⟩ (styledOps setting)) = some { value := some "text", style := some 1 } := by
  obtain ⟨s, h1, h, h2, h3⟩ := hw
  refine ⟨s, h, _, h1, ?_, h2, rfl, ?_, ?_, h3⟩
  · intro i o ho
    simp only [styledOps, List.mem_cons, List.not_mem_nil, or_false, WbOp.sheet.injEq, reduceCtorEq, false_or] at ho
    obtain ⟨_, rfl⟩ := ho
    refine ⟨⟨by decide, by decide⟩, by decide, ?_⟩
    intro c hc
    rw [List.mem_singleton.mp hc]
    exact ⟨(fun g h => by cases h; decide), (fun g h => by cases h)⟩
  · intro k st hm
    simp only [styledOps, List.cons_append, List.nil_append, List.mem_cons, List.not_mem_nil, or_false, WbOp.style.injEq, reduceCtorEq, false_or] at hm
    obtain ⟨_, rfl⟩ := hm
    exact hs
  · have e : (endOf C32_env theme [.add (some "a")]).x.styles.data = newStyles := by kernel_rfl
    split at he
    · next st' i hg =>
      refine ⟨[.add (some "a")], demoHash, _, endOf C32_env theme [.add (some "a")], st', rfl, by kernel_rfl, ?_, ?_, ?_⟩
      · rw [e]; unfold Room; decide
      · rw [e]; exact hc
      · rw [e, hg, eq_of_beq he]
    · cases he

/-- The plain style of the examples: hypotheses of `C95_partial_plain` can be met. -/
example (theme : XDoc) : PlainLook bigBold ∧ ∃ s h s', Session.run C32_env ⟨newExcel C32_env theme, []⟩ (styledOps bigBold) = .ok s ∧
    FittingOps C32_env (styledOps bigBold) ∧ s.handles[0]? = some h ∧ (s.step C32_env (.drop 0)).2.run C32_env [] = .ok s' ∧
    SizesFit (styledOps bigBold ++ [.drop 0]) ∧ AskedFor C32_env ⟨newExcel C32_env theme, []⟩ (styledOps bigBold ++ [.drop 0]) bigBold 1 ∧
    lastWritten 1 1 (writesTo C32_env h.path ⟨newExcel C32_env theme, []⟩ (styledOps bigBold)) = some { value := some "text", style := some 1 } := by
  refine ⟨⟨rfl, rfl, by unfold NoSpecials; decide +kernel, by unfold NoSpecials; decide +kernel, ?_, ?_, ?_, ?_, ?_, ?_, ?_⟩,
    styled_hyps theme (by decide) ⟨?_, ?_, ?_, ?_⟩ (by decide +kernel)
      ⟨endOf C32_env theme (styledOps bigBold), by kernel_rfl, (endOf C32_env theme (styledOps bigBold)).handles[0]?.getD ⟨0, ⟨[], 0, ""⟩, emptySheet, "", ""⟩,
        by kernel_rfl, by kernel_rfl⟩⟩
  · intro v hv; cases hv; unfold NoSpecials; decide +kernel
  · intro v hv; cases hv
  · exact ⟨fun _ => rfl, fun c hc => by cases hc⟩
  · exact ⟨fun _ => rfl, fun c hc => by cases hc⟩
  · exact ⟨fun _ => rfl, fun c hc => by cases hc⟩
  · exact ⟨fun _ => rfl, fun c hc => by cases hc⟩
  · exact ⟨fun _ => rfl, fun c hc => by cases hc⟩
  · unfold Injects; decide +kernel
  · unfold Injects; decide +kernel
  · unfold Injects; decide +kernel
  · intro nf n a h; cases h; decide +kernel

/-- **C95 fails**: an italic cell is not italic in the saved file. -/
theorem C95_violated (theme : XDoc) : ¬ CellsLookAsGiven C32_env theme := by
  intro hc
  have hst : C32_env.build.release = true → StampOk C32_env.stamp := fun h => by cases h
  have hclash : ClashFree C32_env.build demoHash newStyles { italic := true } := by
    refine ⟨?_, ?_, ?_, ?_⟩
    · unfold Injects; decide +kernel
    · unfold Injects; decide +kernel
    · unfold Injects; decide +kernel
    · intro nf n a h; cases h; decide +kernel
  obtain ⟨s, h, s', h1, h2, h3, h4, h5, h6, h7⟩ := styled_hyps theme (setting := { italic := true }) (by decide) hclash (by decide +kernel)
      ⟨endOf C32_env theme (styledOps { italic := true }), by kernel_rfl,
        (endOf C32_env theme (styledOps { italic := true })).handles[0]?.getD ⟨0, ⟨[], 0, ""⟩, emptySheet, "", ""⟩, by kernel_rfl, by kernel_rfl⟩
  obtain ⟨p, _, _, _, _, hp, _⟩ := C95_partial_new hst (new_eq C32_env theme) h1 h2 h3 h4 h5 h6 h7 rfl "now"
  obtain ⟨d, sh, t, st, e1, e2, e3, e4, e5⟩ := hc _ _ _ _ _ _ _ _ _ _ _ _ "now" p (new_eq C32_env theme) h1 h2 h3 h4 h5 h6 h7 rfl hp
  exact C95_violated_always hst (new_eq C32_env theme) h1 h2 h3 h4 h5 h6 h7 rfl (Or.inl rfl) hp e1 e2 e3 e4 e5

section
variable {z z' : Zip} {ops : List WbOp} {path : String} {edits : List SheetOp} {x : Excel} {s : Session} {d0 : XDoc} {now : String}
  {exts : List (String × String)} {setting : StyleSetting} {id r c : Nat}

/-- **C95, existing workbooks: what holds.** A cell or row last given the id of a style looks in the saved file as the file can say it. -/
theorem C95_partial_existing (hst : env.build.release = true → StampOk env.stamp) (he : PrintsF32 env) (hz : (akeys z).Nodup)
    (h : EditedSheet env theme z ops path edits x s) (h0 : zipDoc env z path = some d0) (ht0 : Tidy d0) (hc : ColumnsNamed d0) (ht : TidyParts env z x)
    (hf : SizesFit ops) (hs : s.x.toZip env now exts = .ok z') (ha : AskedFor env ⟨x, []⟩ ops setting id) :
    ∃ d sh t st, zipDoc env z' path = some d ∧ (Sheet.load env d).1 = .ok sh ∧ zipDoc env z' x.styles.path = some t ∧ (Styles.load t).1 = .ok st ∧
      (∀ r c given, lastWritten r c edits = some given → given.style = some id → CellLooks sh st r c (keptLook setting)) ∧
      ∀ r p, lastProps r edits = some p → p.style = some id → RowLooks sh st r (keptLook setting) := by
  have hr : RanOn env theme z ops x s := edited_ran h
  obtain ⟨_, d, sh, _, e2, e3, e4, e5, _⟩ := C85_partial hst he hz h h0 ht0 hc hs
  obtain ⟨t, t1, t2⟩ := C82_styles_partial hst hz hr ht hs hf
  have hl := looksAs_reload (Spec.AskedFor.looks ha hr.2)
  refine ⟨d, sh, t, _, e2, e3, t1, t2, ?_, ?_⟩
  · intro r c given hw hg
    have := e4 r c
    rw [hw] at this
    obtain ⟨stored, c1, c2⟩ := this
    exact ⟨_, id, c2, by rw [← hg, ← c1.2.1]; rfl, hl⟩
  · intro r p hp hg
    refine ⟨id, ?_, hl⟩
    rw [e5 r, hp, ← hg]
    rfl

end

/-- The calls of the example: a style is asked for, given to a cell and to a row. -/
def exStyled : List WbOp :=
  [.style demoHash bigBold, .sheet 0 (.write 1 2 [{ value := some "hello", style := some 1 }]), .sheet 0 (.rowProps 4 { style := some 1 })]

/-- The file, the calls and what comes out. -/
def exStyledRun (chk : Excel → Session → SheetHandle → Session → SheetHandle → Zip → Bool) : Bool :=
  match Excel.openFile exEnv exTheme exSheetBook with
  | .error _ => false
  | .ok x =>
    match Session.step exEnv ⟨x, []⟩ (.get "A") with
    | (.ok (), s1) =>
      match s1.handles[0]?, s1.run exEnv exStyled with
      | some h, .ok s2 =>
        match s2.handles[0]? with
        | some g =>
          match (s2.step exEnv (.drop 0)).2.x.toZip exEnv "now" exExts with
          | .ok z' => chk x s1 h s2 g z'
          | .error _ => false
        | none => false
      | _, _ => false
    | _ => false

/-- The hypotheses of `C95_partial_existing` hold of a sheet of an existing workbook in which a cell and a row are given a style. -/
example : ∃ edits x s z', EditedSheet exEnv exTheme exSheetBook (.get "A" :: (exStyled ++ [.drop 0])) "xl/worksheets/sheet1.xml" edits x s ∧
    TidyParts exEnv exSheetBook x ∧ SizesFit (.get "A" :: (exStyled ++ [.drop 0])) ∧ s.x.toZip exEnv "now" exExts = .ok z' ∧
    AskedFor exEnv ⟨x, []⟩ (.get "A" :: (exStyled ++ [.drop 0])) bigBold 1 ∧
    lastWritten 1 2 edits = some { value := some "hello", style := some 1 } ∧ lastProps 4 edits = some { style := some 1 } := by
  have key : exStyledRun (fun x s1 h s2 g z' => exFacts exSheetBook x && decide (s1.handles.length = 1) && decide (h.path = "xl/worksheets/sheet1.xml") &&
      decide (writesTo exEnv "xl/worksheets/sheet1.xml" s1 exStyled =
        [.write 1 2 [{ value := some "hello", style := some 1 }], .rowProps 4 { style := some 1 }]) && decide (g.handle = h.handle) &&
      decide (s1.x.styles.data = newStyles)) = true := by decide +kernel
  obtain ⟨st, hgs⟩ : ∃ st, getStyleId exEnv.build demoHash newStyles bigBold = .ok (st, 1) := ⟨_, rfl⟩
  unfold exStyledRun at key
  split at key
  · cases key
  · next x hx =>
    split at key
    · next s1 h1 =>
      split at key
      · next h s2 hh hrun =>
        split at key
        · next g hg =>
          split at key
          · next z' hz' =>
            simp only [Bool.and_eq_true, decide_eq_true_eq] at key
            obtain ⟨⟨⟨⟨⟨k0, k1⟩, k2⟩, k3⟩, k4⟩, k5⟩ := key
            refine ⟨_, x, _, z', ⟨[], "A", exStyled, 0, _, [], rfl, ⟨⟨x, []⟩, s1, h, s2, g, ⟨hx, rfl⟩, h1, ?_, k2, hrun, ?_, k3.symm, hg, k4, rfl⟩, rfl, trivial, trivial⟩,
              (exFacts_sound k0).1, ?_, hz', ⟨[.get "A"], demoHash, _, s1, st, rfl, ?_, ?_, ?_, ?_⟩, by decide, by decide⟩
            · obtain ⟨a, ha⟩ := List.length_eq_one_iff.mp k1
              rw [ha] at hh ⊢
              cases hh; rfl
            · intro i o hm
              simp only [exStyled, List.mem_cons, List.not_mem_nil, or_false, WbOp.sheet.injEq, reduceCtorEq, false_or] at hm
              rcases hm with ⟨_, rfl⟩ | ⟨_, rfl⟩
              · exact ⟨⟨by decide, by decide⟩, by decide, fun c hc => by rw [List.mem_singleton.mp hc]; exact ⟨(fun g h => by cases h; decide), fun g h => by cases h⟩⟩
              · exact ⟨trivial, by decide, (fun g h => by cases h; decide), (fun g h => by cases h), (fun t h => by cases h)⟩
            · intro k st hm
              simp only [exStyled, List.cons_append, List.nil_append, List.mem_cons, List.not_mem_nil, or_false, WbOp.style.injEq, reduceCtorEq, false_or] at hm
              obtain ⟨_, rfl⟩ := hm
              decide
            · rw [Session.run, h1]; rfl
            · rw [k5]; unfold Room; decide
            · rw [k5]
              refine ⟨?_, ?_, ?_, ?_⟩
              · unfold Injects; decide +kernel
              · unfold Injects; decide +kernel
              · unfold Injects; decide +kernel
              · intro nf n a h; cases h; decide +kernel
            · rw [k5]; exact hgs
          · cases key
        · cases key
      · cases key
    · cases key

end Oxml
