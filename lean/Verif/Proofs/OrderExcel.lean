import Verif.Proofs.OrderPkg
import Verif.Props.Workbook
import Verif.Props.WorksheetFile
import Verif.Props.OfficeDoc
/-!
# Workbook operations on the same workbook
-/
namespace Oxml
open Spec

theorem Spec.SameRes.bind {α β : Type} {R : α → α → Prop} {S : β → β → Prop} {a b : Res α} {f g : α → Res β} (h : SameRes R a b)
    (hf : ∀ x y, R x y → SameRes S (f x) (g y)) : SameRes S (a >>= f) (b >>= g) := by
  cases h with
  | error e => exact .error e
  | ok h => exact hf _ _ h

theorem Spec.WfDoc.sound {u : Unicode} {x : XDoc} {r : Node} (h : WfDoc u x r) : Sound u x :=
  ⟨h.ns, h.uris, fun s hs => by rw [h.isRoot] at hs; cases hs; exact h.names⟩

theorem sound_core (u : Unicode) : Sound u coreTemplate.doc := by
  obtain ⟨_, _, _, h⟩ := wf_coreDoc u
  exact h.sound

theorem sound_styles (u : Unicode) : Sound u styleTemplate.doc := by
  obtain ⟨_, _, _, h⟩ := wf_styleDoc u
  exact h.sound

theorem Spec.SamePkg.openTyped {env : Env} (hst : env.build.release = true → StampOk env.stamp) {p q : Pkg} (h : SamePkg env p q) (c : Content)
    (dir : Option String) {t : Template} (ht : Sound env.uni t.doc) (r : RelPart) :
    SameRes (fun a b => a.1 = b.1 ∧ a.2.1 = b.2.1 ∧ SamePkg env a.2.2.1 b.2.2.1 ∧ a.2.2.2 = b.2.2.2) (openTyped env c dir t p r) (openTyped env c dir t q r) := by
  unfold Oxml.openTyped
  generalize targetByType r.path r.rels c.type c dir none = z
  obtain ⟨z1, rels⟩ := z
  cases z1 with
  | error e => exact .error e
  | ok path =>
    dsimp only
    have := h.openPart hst ht path
    generalize p.openPart env (.ok t) path = a at this
    generalize q.openPart env (.ok t) path = b at this
    obtain ⟨a1, a2⟩ := a
    obtain ⟨b1, b2⟩ := b
    obtain ⟨h1, h2⟩ := this
    dsimp only at h1 h2
    subst h1
    cases a1 with
    | error e => exact .error e
    | ok j => exact .ok ⟨rfl, rfl, h2, rfl⟩

theorem Spec.SamePkg.loadPart {env : Env} {p q : Pkg} (h : SamePkg env p q) (j : Nat) {α : Type} {load : XDoc → Res α × XDoc}
    (hl : ∀ x y, DocLike env.uni x y → (load x).1 = (load y).1 ∧ DocLike env.uni (load x).2 (load y).2) :
    SameRes (fun a b => a.1 = b.1 ∧ SamePkg env a.2 b.2) (loadPart p j load) (loadPart q j load) := by
  unfold Oxml.loadPart
  have hd := h.docOf j
  generalize p.docOf j = x at hd
  generalize q.docOf j = y at hd
  cases hd with
  | none => exact .error _
  | @some x y hd =>
    dsimp only
    have := hl x y hd
    generalize load x = a at this
    generalize load y = b at this
    obtain ⟨a1, a2⟩ := a
    obtain ⟨b1, b2⟩ := b
    obtain ⟨h1, h2⟩ := this
    dsimp only at h1 h2
    subst h1
    cases a1 with
    | error e => exact .error e
    | ok v => exact .ok ⟨rfl, h.update j h2⟩

theorem Spec.SamePkg.start {env : Env} (hst : env.build.release = true → StampOk env.stamp) {theme : XDoc} (hth : Sound env.uni theme)
    {p q : Pkg} (h : SamePkg env p q) : SameRes (SameExcel env) (Excel.start env theme p) (Excel.start env theme q) := by
  have rel : ∀ {p q : Pkg}, SamePkg env p q → ∀ path, SameRes (fun a b => a.1 = b.1 ∧ SamePkg env a.2 b.2)
      (match RelPart.new env p path with | (.error e, _) => .error e | (.ok r, p) => .ok (r, p) : Res (RelPart × Pkg))
      (match RelPart.new env q path with | (.error e, _) => .error e | (.ok r, p) => .ok (r, p) : Res (RelPart × Pkg)) := by
    intro p q h path
    have := h.relNew hst path
    generalize RelPart.new env p path = a at this
    generalize RelPart.new env q path = b at this
    obtain ⟨a1, a2⟩ := a
    obtain ⟨b1, b2⟩ := b
    obtain ⟨h1, h2⟩ := this
    dsimp only at h1 h2
    subst h1
    cases a1 with
    | error e => exact .error e
    | ok v => exact .ok ⟨rfl, h2⟩
  unfold Excel.start
  refine SameRes.bind (rel h _) ?_
  rintro ⟨rootRels, p⟩ ⟨_, q⟩ ⟨rfl, h⟩
  refine SameRes.bind (h.openTyped hst _ _ (sound_core env.uni) _) ?_
  rintro ⟨corePath, coreH, p, rootRels⟩ ⟨_, _, q, _⟩ ⟨rfl, rfl, h, rfl⟩
  refine SameRes.bind (h.openTyped hst _ _ (wf_workbookDoc env.uni).sound _) ?_
  rintro ⟨bookPath, bookH, p, rootRels⟩ ⟨_, _, q, _⟩ ⟨rfl, rfl, h, rfl⟩
  dsimp only
  refine SameRes.bind (R := Eq) ?_ ?_
  · split
    · exact .error _
    · exact .ok rfl
  rintro dir _ rfl
  refine SameRes.bind (rel h _) ?_
  rintro ⟨rels, p⟩ ⟨_, q⟩ ⟨rfl, h⟩
  refine SameRes.bind (h.openTyped hst _ _ (t := themeTemplate theme) hth _) ?_
  rintro ⟨themePath, themeH, p, rels⟩ ⟨_, _, q, _⟩ ⟨rfl, rfl, h, rfl⟩
  refine SameRes.bind (h.openTyped hst _ _ (wf_stringsTemplate env.uni).sound _) ?_
  rintro ⟨strPath, strH, p, rels⟩ ⟨_, _, q, _⟩ ⟨rfl, rfl, h, rfl⟩
  refine SameRes.bind (h.loadPart _ (fun x y hxy => ?_)) ?_
  · have := loadStrings_same hxy
    exact ⟨by dsimp only; rw [this.1], this.2⟩
  rintro ⟨table, p⟩ ⟨_, q⟩ ⟨rfl, h⟩
  refine SameRes.bind (h.openTyped hst _ _ (wf_calcTemplate env.uni).sound _) ?_
  rintro ⟨calcPath, calcH, p, rels⟩ ⟨_, _, q, _⟩ ⟨rfl, rfl, h, rfl⟩
  refine SameRes.bind (h.loadPart _ (fun x y hxy => loadCalc_same hxy)) ?_
  rintro ⟨chain, p⟩ ⟨_, q⟩ ⟨rfl, h⟩
  refine SameRes.bind (h.openTyped hst _ _ (sound_styles env.uni) _) ?_
  rintro ⟨stylePath, styleH, p, rels⟩ ⟨_, _, q, _⟩ ⟨rfl, rfl, h, rfl⟩
  refine SameRes.bind (h.loadPart _ (fun x y hxy => stylesLoad_same hxy)) ?_
  rintro ⟨styles, p⟩ ⟨_, q⟩ ⟨rfl, h⟩
  refine SameRes.bind (h.loadPart _ (fun x y hxy => loadBook_same hxy)) ?_
  rintro ⟨⟨sheets, view⟩, p⟩ ⟨_, q⟩ ⟨rfl, h⟩
  exact .ok ⟨h, rfl⟩

/-! ### Sheets -/

theorem Spec.SameExcel.of {env : Env} {x : Excel} {q : Pkg} (h : SamePkg env x.pkg q) : SameExcel env x { x with pkg := q } := ⟨h, rfl⟩

theorem Spec.SameExcel.shape {env : Env} {x y : Excel} (h : SameExcel env x y) : ∃ q, y = { x with pkg := q } ∧ SamePkg env x.pkg q :=
  ⟨y.pkg, h.rest.symm, h.pkg⟩

theorem freeSheet_same {env : Env} {p q : Pkg} (h : SamePkg env p q) (dir : String) (n : Nat) : freeSheet p dir n = freeSheet q dir n := by
  unfold freeSheet
  rw [h.archive.length]
  generalize q.archive.length + 1 = fuel
  induction fuel generalizing n with
  | zero => rfl
  | succ fuel ih =>
    unfold freeSheetLoop Pkg.checkFileExist
    rw [h.archive.has, ih]

theorem sheetFile_same {env : Env} {x y : Excel} (h : SameExcel env x y) (name : Option String) :
    (x.sheetFile name).1 = (y.sheetFile name).1 ∧ SameExcel env (x.sheetFile name).2 (y.sheetFile name).2 := by
  obtain ⟨q, rfl, hq⟩ := h.shape
  unfold Excel.sheetFile
  have hf : ∀ dir n, freeSheet x.pkg dir n = freeSheet q dir n := freeSheet_same hq
  simp only [hf]
  split
  · split
    · exact ⟨rfl, .of hq⟩
    · exact ⟨rfl, .of hq⟩
    · exact ⟨rfl, .of hq⟩
  · split
    · exact ⟨rfl, .of hq⟩
    · exact ⟨rfl, hq, rfl⟩

theorem openSheet_same {env : Env} (hst : env.build.release = true → StampOk env.stamp) {x y : Excel} (h : SameExcel env x y) (name : Option String) :
    (x.openSheet env name).1 = (y.openSheet env name).1 ∧ SameExcel env (x.openSheet env name).2 (y.openSheet env name).2 := by
  unfold Excel.openSheet
  have h1 := sheetFile_same h name
  generalize x.sheetFile name = a at h1
  generalize y.sheetFile name = b at h1
  obtain ⟨a1, x1⟩ := a
  obtain ⟨b1, y1⟩ := b
  obtain ⟨e1, h1⟩ := h1
  dsimp only at e1 h1
  subst e1
  obtain ⟨q1, rfl, k1⟩ := h1.shape
  cases a1 with
  | error e => exact ⟨rfl, h1⟩
  | ok r =>
    obtain ⟨path, nm⟩ := r
    dsimp only
    have h2 := k1.openPart hst (wf_worksheetDoc env.uni).sound path (t := worksheetTemplate)
    generalize x1.pkg.openPart env (.ok worksheetTemplate) path = a at h2
    generalize q1.openPart env (.ok worksheetTemplate) path = b at h2
    obtain ⟨a1, p2⟩ := a
    obtain ⟨b1, q2⟩ := b
    obtain ⟨e1, h2⟩ := h2
    dsimp only at e1 h2
    subst e1
    cases a1 with
    | error e => exact ⟨rfl, h2, rfl⟩
    | ok j =>
      dsimp only
      cases sheetRelsPath path with
      | none => exact ⟨rfl, h2, rfl⟩
      | some rp =>
        dsimp only
        have h3 := h2.relNew hst rp
        generalize RelPart.new env p2 rp = a at h3
        generalize RelPart.new env q2 rp = b at h3
        obtain ⟨a1, p3⟩ := a
        obtain ⟨b1, q3⟩ := b
        obtain ⟨e1, h3⟩ := h3
        dsimp only at e1 h3
        subst e1
        cases a1 with
        | error e => exact ⟨rfl, h3, rfl⟩
        | ok rels =>
          dsimp only
          have hd := h3.docOf j
          generalize p3.docOf j = d at hd
          generalize q3.docOf j = d' at hd
          cases hd with
          | none => exact ⟨rfl, (h3.relClose rels).2, rfl⟩
          | @some d d' hd =>
            dsimp only
            have hl := sheetLoad_same (env := env) hd
            generalize Sheet.load env d = a at hl
            generalize Sheet.load env d' = b at hl
            obtain ⟨a1, a2⟩ := a
            obtain ⟨b1, b2⟩ := b
            obtain ⟨e1, hl⟩ := hl
            dsimp only at e1 hl
            subst e1
            cases a1 with
            | error e => exact ⟨rfl, ((h3.update j hl).relClose rels).2, rfl⟩
            | ok s => exact ⟨rfl, h3.update j hl, rfl⟩

/-- Editing an open document through its handle and closing its part. -/
theorem Spec.SamePkg.finish {env : Env} {p q : Pkg} (h : SamePkg env p q) (j : Nat) (path : String) {save : XDoc → Res XDoc}
    (hs : ∀ x y, DocLike env.uni x y → SameRes (DocLike env.uni) (save x) (save y)) {α : Type} (good : Pkg → α) (bad : Err → Pkg → α)
    {S : α → α → Prop} (hgood : ∀ p q, SamePkg env p q → S (good p) (good q)) (hbad : ∀ e, S (bad e p) (bad e q)) :
    S (match p.docOf j with
        | none => good (p.close env path)
        | some d => match save d with
          | .error e => bad e p
          | .ok d' => good ((p.update j (fun _ => d')).close env path))
      (match q.docOf j with
        | none => good (q.close env path)
        | some d => match save d with
          | .error e => bad e q
          | .ok d' => good ((q.update j (fun _ => d')).close env path)) := by
  have hd := h.docOf j
  generalize p.docOf j = x at hd
  generalize q.docOf j = y at hd
  cases hd with
  | none => exact hgood _ _ (h.close path)
  | @some x y hd =>
    dsimp only
    have := hs x y hd
    generalize save x = a at this
    generalize save y = b at this
    cases this with
    | error e => exact hbad e
    | ok h' => exact hgood _ _ ((h.update j h').close path)

theorem closeSheet_same {env : Env} {p q : Pkg} (h : SamePkg env p q) (s : SheetHandle) :
    (closeSheet env p s).1 = (closeSheet env q s).1 ∧ SamePkg env (closeSheet env p s).2 (closeSheet env q s).2 :=
  h.finish s.handle s.path (save := s.data.save) (fun _ _ hd => sheetSave_same hd s.data) (good := fun p => ((.ok (), p) : Res Unit × Pkg))
    (bad := fun e p => (.error e, p)) (S := fun a b => a.1 = b.1 ∧ SamePkg env a.2 b.2) (fun _ _ h => ⟨rfl, h⟩) (fun _ => ⟨rfl, h⟩)

theorem dropSheet_same {env : Env} {p q : Pkg} (h : SamePkg env p q) (s : SheetHandle) : SamePkg env (dropSheet env p s) (dropSheet env q s) :=
  ((closeSheet_same h s).2.relClose s.rels).2

theorem deleteSheet_same {env : Env} {x y : Excel} (h : SameExcel env x y) (s : SheetHandle) :
    (x.deleteSheet env s).1 = (y.deleteSheet env s).1 ∧ SameExcel env (x.deleteSheet env s).2 (y.deleteSheet env s).2 := by
  obtain ⟨q, rfl, hq⟩ := h.shape
  have h1 := closeSheet_same (hq.delete s.path) s
  exact ⟨h1.1, dropSheet_same h1.2 s, rfl⟩

/-! ### Closing -/

/-- An action behaves the same on the same workbook. -/
def SameAct (env : Env) (f : Excel → Res Unit × Excel) : Prop := ∀ x y, SameExcel env x y → (f x).1 = (f y).1 ∧ SameExcel env (f x).2 (f y).2

theorem closeTheme_same (env : Env) : SameAct env (Excel.closeTheme env) := by
  intro x y h
  obtain ⟨q, rfl, hq⟩ := h.shape
  exact ⟨rfl, hq.close _, rfl⟩

theorem closeRels_same (env : Env) : SameAct env (Excel.closeRels env) := by
  intro x y h
  obtain ⟨q, rfl, hq⟩ := h.shape
  exact ⟨(hq.relClose x.rels).1, (hq.relClose x.rels).2, rfl⟩

theorem closeRoot_same (env : Env) : SameAct env (Excel.closeRoot env) := by
  intro x y h
  obtain ⟨q, rfl, hq⟩ := h.shape
  exact ⟨(hq.relClose x.rootRels).1, (hq.relClose x.rootRels).2, rfl⟩

/-- The result of an action on one workbook with two packages. -/
def SameOut (env : Env) (a b : Res Unit × Excel) : Prop := a.1 = b.1 ∧ SameExcel env a.2 b.2

theorem closeCalc_same (env : Env) : SameAct env (Excel.closeCalc env) := by
  intro x y h
  obtain ⟨q, rfl, hq⟩ := h.shape
  unfold Excel.closeCalc
  dsimp only
  split
  · exact ⟨rfl, hq.delete _, rfl⟩
  · exact hq.finish x.chain.handle x.chain.path (save := fun d => saveCalc d x.chain.data) (fun _ _ hd => saveCalc_same hd _)
      (good := fun p => ((.ok (), { x with pkg := p }) : Res Unit × Excel)) (bad := fun e p => (.error e, { x with pkg := p })) (S := SameOut env)
      (fun _ _ h => ⟨rfl, h, rfl⟩) (fun _ => ⟨rfl, hq, rfl⟩)

theorem closeStrings_same (env : Env) : SameAct env (Excel.closeStrings env) := by
  intro x y h
  obtain ⟨q, rfl, hq⟩ := h.shape
  unfold Excel.closeStrings
  dsimp only
  split
  · exact ⟨rfl, hq.delete _, rfl⟩
  · exact hq.finish x.strings.handle x.strings.path (save := fun d => saveStrings d x.strings.data) (fun _ _ hd => saveStrings_same hd _)
      (good := fun p => ((.ok (), { x with pkg := p }) : Res Unit × Excel)) (bad := fun e p => (.error e, { x with pkg := p })) (S := SameOut env)
      (fun _ _ h => ⟨rfl, h, rfl⟩) (fun _ => ⟨rfl, hq, rfl⟩)

theorem closeStyles_same (env : Env) : SameAct env (Excel.closeStyles env) := by
  intro x y h
  obtain ⟨q, rfl, hq⟩ := h.shape
  exact hq.finish x.styles.handle x.styles.path (save := fun d => x.styles.data.save d) (fun _ _ hd => stylesSave_same hd _)
    (good := fun p => ((.ok (), { x with pkg := p }) : Res Unit × Excel)) (bad := fun e p => (.error e, { x with pkg := p })) (S := SameOut env)
    (fun _ _ h => ⟨rfl, h, rfl⟩) (fun _ => ⟨rfl, hq, rfl⟩)

theorem closeDoc_same (env : Env) : SameAct env (Excel.closeDoc env) := by
  intro x y h
  obtain ⟨q, rfl, hq⟩ := h.shape
  exact hq.finish x.book.handle x.book.path (save := fun d => saveBook x.sheets x.view d) (fun _ _ hd => saveBook_same hd _ _)
    (good := fun p => ((.ok (), { x with pkg := p }) : Res Unit × Excel)) (bad := fun e p => (.error e, { x with pkg := p })) (S := SameOut env)
    (fun _ _ h => ⟨rfl, h, rfl⟩) (fun _ => ⟨rfl, hq, rfl⟩)

theorem closeCore_same (env : Env) (now : String) : SameAct env (Excel.closeCore env now) := by
  intro x y h
  obtain ⟨q, rfl, hq⟩ := h.shape
  exact hq.finish x.core.handle x.core.path (save := saveCore now now) (fun _ _ hd => saveCore_same hd _ _)
    (good := fun p => ((.ok (), { x with pkg := p }) : Res Unit × Excel)) (bad := fun e p => (.error e, { x with pkg := p })) (S := SameOut env)
    (fun _ _ h => ⟨rfl, h, rfl⟩) (fun _ => ⟨rfl, hq, rfl⟩)

theorem seq_same {env : Env} {fs : List (Excel → Res Unit × Excel)} (hfs : ∀ f ∈ fs, SameAct env f) : SameAct env (fun x => x.seq fs) := by
  induction fs with
  | nil => exact fun x y h => ⟨rfl, h⟩
  | cons f fs ih =>
    intro x y h
    have h1 := hfs f List.mem_cons_self x y h
    dsimp only
    unfold Excel.seq
    generalize f x = a at h1
    generalize f y = b at h1
    obtain ⟨a1, a2⟩ := a
    obtain ⟨b1, b2⟩ := b
    obtain ⟨e1, h1⟩ := h1
    dsimp only at e1 h1
    subst e1
    cases a1 with
    | error e => exact ⟨rfl, h1⟩
    | ok _ => exact ih (fun f hf => hfs f (List.mem_cons_of_mem _ hf)) _ _ h1

theorem seqDrop_same {env : Env} {fs : List (Excel → Res Unit × Excel)} (hfs : ∀ f ∈ fs, SameAct env f) {x y : Excel} (h : SameExcel env x y) :
    SameExcel env (x.seqDrop fs) (y.seqDrop fs) := by
  unfold Excel.seqDrop
  induction fs generalizing x y with
  | nil => exact h
  | cons f fs ih => exact ih (fun f hf => hfs f (List.mem_cons_of_mem _ hf)) (hfs f List.mem_cons_self x y h).2

theorem closeBook_same (env : Env) : SameAct env (Excel.closeBook env) := by
  refine seq_same ?_
  intro f hf
  simp only [List.mem_cons, List.not_mem_nil, or_false] at hf
  rcases hf with rfl | rfl | rfl | rfl | rfl | rfl
  · exact closeTheme_same env
  · exact closeCalc_same env
  · exact closeStrings_same env
  · exact closeStyles_same env
  · exact closeRels_same env
  · exact closeDoc_same env

theorem flushBook_same (env : Env) : SameAct env (Excel.flushBook env) := by
  intro x y h
  have h1 := closeBook_same env x y h
  refine ⟨h1.1, ?_⟩
  refine seqDrop_same ?_ (closeBook_same env _ _ h1.2).2
  intro f hf
  simp only [List.mem_cons, List.not_mem_nil, or_false] at hf
  rcases hf with rfl | rfl | rfl | rfl | rfl
  · exact closeCalc_same env
  · exact closeStrings_same env
  · exact closeStyles_same env
  · exact closeRels_same env
  · exact closeTheme_same env

theorem flushCore_same (env : Env) (now : String) : SameAct env (Excel.flushCore env now) := by
  intro x y h
  have h1 := closeCore_same env now x y h
  exact ⟨h1.1, (closeCore_same env now _ _ h1.2).2⟩

theorem saved_same {env : Env} {now : String} {x y : Excel} (h : SameExcel env x y) : SameRes (SamePkg env) (x.saved env now) (y.saved env now) := by
  have h1 : SameAct env (fun x => x.seq [Excel.flushBook env, Excel.flushCore env now, Excel.closeRoot env]) := by
    refine seq_same ?_
    intro f hf
    simp only [List.mem_cons, List.not_mem_nil, or_false] at hf
    rcases hf with rfl | rfl | rfl
    · exact flushBook_same env
    · exact flushCore_same env now
    · exact closeRoot_same env
  have h2 := h1 x y h
  unfold Excel.saved
  dsimp only at h2
  generalize x.seq _ = a at h2
  generalize y.seq _ = b at h2
  obtain ⟨a1, a2⟩ := a
  obtain ⟨b1, b2⟩ := b
  obtain ⟨e1, h2⟩ := h2
  dsimp only at e1 h2
  subst e1
  cases a1 with
  | error e => exact .error e
  | ok _ => exact .ok h2.pkg.closedForSave

theorem failedSave_same {env : Env} {now : String} {x y : Excel} (h : SameExcel env x y) (e : Err) : x.failedSave env now e = y.failedSave env now e := by
  unfold Excel.failedSave
  rw [(closeCore_same env now _ _ (flushBook_same env x y h).2).1]

/-! ### Sessions -/

theorem sessionOpen_same {env : Env} (hst : env.build.release = true → StampOk env.stamp) {s t : Session} (h : SameSession env s t) (name : Option String) :
    (s.open env name).1 = (t.open env name).1 ∧ SameSession env (s.open env name).2 (t.open env name).2 := by
  unfold Session.open
  have h1 := openSheet_same hst h.x name
  have hh := h.handles
  generalize s.x.openSheet env name = a at h1
  generalize t.x.openSheet env name = b at h1
  obtain ⟨a1, a2⟩ := a
  obtain ⟨b1, b2⟩ := b
  obtain ⟨e1, h1⟩ := h1
  dsimp only at e1 h1
  subst e1
  cases a1 with
  | error e => exact ⟨rfl, h1, hh⟩
  | ok v => exact ⟨rfl, h1, by dsimp only; rw [hh]⟩

theorem step_same {env : Env} (hst : env.build.release = true → StampOk env.stamp) {s t : Session} (h : SameSession env s t) (op : WbOp) :
    (s.step env op).1 = (t.step env op).1 ∧ SameSession env (s.step env op).2 (t.step env op).2 := by
  cases op with
  | add name => exact sessionOpen_same hst h name
  | get name => exact sessionOpen_same hst h (some name)
  | sheet i op =>
    obtain ⟨x, hs⟩ := s
    obtain ⟨y, ht⟩ := t
    obtain ⟨hx, hh⟩ := h
    dsimp only at hx hh
    subst hh
    obtain ⟨q, rfl, hq⟩ := hx.shape
    unfold Session.step
    dsimp only
    split
    · exact ⟨rfl, ⟨hq, rfl⟩, rfl⟩
    · split
      · exact ⟨rfl, ⟨hq, rfl⟩, rfl⟩
      · exact ⟨rfl, ⟨hq, rfl⟩, rfl⟩
  | drop i =>
    obtain ⟨x, hs⟩ := s
    obtain ⟨y, ht⟩ := t
    obtain ⟨hx, hh⟩ := h
    dsimp only at hx hh
    subst hh
    obtain ⟨q, rfl, hq⟩ := hx.shape
    unfold Session.step
    dsimp only
    split
    · exact ⟨rfl, ⟨hq, rfl⟩, rfl⟩
    · exact ⟨rfl, ⟨dropSheet_same hq _, rfl⟩, rfl⟩
  | delete i =>
    obtain ⟨x, hs⟩ := s
    obtain ⟨y, ht⟩ := t
    obtain ⟨hx, hh⟩ := h
    dsimp only at hx hh
    subst hh
    unfold Session.step
    dsimp only
    split
    · exact ⟨rfl, hx, rfl⟩
    · have := deleteSheet_same hx (by assumption)
      exact ⟨this.1, this.2, rfl⟩
  | rename old new =>
    obtain ⟨x, hs⟩ := s
    obtain ⟨y, ht⟩ := t
    obtain ⟨hx, hh⟩ := h
    dsimp only at hx hh
    subst hh
    obtain ⟨q, rfl, hq⟩ := hx.shape
    unfold Session.step
    dsimp only
    split
    · exact ⟨rfl, ⟨hq, rfl⟩, rfl⟩
    · exact ⟨rfl, ⟨hq, rfl⟩, rfl⟩
  | active name =>
    obtain ⟨q, e, hq⟩ := h.x.shape
    exact ⟨rfl, ⟨h.x.pkg, by simp only [Session.step]; rw [e]⟩, h.handles⟩
  | hide name =>
    obtain ⟨q, e, hq⟩ := h.x.shape
    exact ⟨rfl, ⟨h.x.pkg, by simp only [Session.step]; rw [e]⟩, h.handles⟩
  | view op =>
    obtain ⟨q, e, hq⟩ := h.x.shape
    exact ⟨rfl, ⟨h.x.pkg, by simp only [Session.step]; rw [e]⟩, h.handles⟩
  | style hs st =>
    obtain ⟨x, hs⟩ := s
    obtain ⟨y, ht⟩ := t
    obtain ⟨hx, hh⟩ := h
    dsimp only at hx hh
    subst hh
    obtain ⟨q, rfl, hq⟩ := hx.shape
    unfold Session.step
    dsimp only
    split
    · exact ⟨rfl, ⟨hq, rfl⟩, rfl⟩
    · exact ⟨rfl, ⟨hq, rfl⟩, rfl⟩

end Oxml
