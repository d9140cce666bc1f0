import Verif.Spec.Ffi
import Verif.Props.Sessions
/-!
# C58, C67: the C interface
-/
namespace Oxml
open Spec

/-! ### Single answers -/

/-- C programs compare with 0: success and nothing else is 0. -/
theorem code_zero (s : Status) : s.code = 0 ↔ s = .success := by cases s <;> simp [Status.code]

/-- With an error status other than success, the answer tells whether the operation succeeded. -/
theorem answer_true {α : Type} (sh : Shown) {code : Status} (hc : code ≠ .success) {r : Res α} {a : Reply α} (h : answer sh code r = some a) :
    (a.status = .success ↔ ∃ v, r = .ok v) ∧ a.out = r.toOption ∧ (a.status = .success → a.error = none) := by
  cases r with
  | ok v => cases h; exact ⟨⟨fun _ => ⟨v, rfl⟩, fun _ => rfl⟩, rfl, fun _ => rfl⟩
  | error e =>
    cases e with
    | panic m => cases h
    | fail m =>
      simp only [answer] at h
      split at h <;> cases h
      · exact ⟨⟨(fun e => absurd e hc), (fun ⟨v, e⟩ => by cases e)⟩, rfl, (fun e => absurd e hc)⟩
      · exact ⟨⟨(fun e => by cases e), (fun ⟨v, e⟩ => by cases e)⟩, rfl, (fun e => by cases e)⟩

theorem answer_none {α : Type} (sh : Shown) (code : Status) (r : Res α) : answer sh code r = none ↔ ∃ m, r = .error (.panic m) := by
  cases r with
  | ok v => simp [answer]
  | error e =>
    cases e with
    | panic m => simp [answer]
    | fail m => simp only [answer]; split <;> simp

theorem styleIdOf_ok (env : Env) (hs : Hashes) (s : Session) (st : StyleSetting) :
    (∃ v, styleIdOf env hs s st = .ok v) ↔ (s.step env (.style hs st)).1 = .ok () := by
  unfold styleIdOf
  simp only [Session.step]
  cases getStyleId env.build hs s.x.styles.data st with
  | error e => simp
  | ok v => simp

theorem styleIdOf_panic (env : Env) (hs : Hashes) (s : Session) (st : StyleSetting) (m : String) :
    styleIdOf env hs s st = .error (.panic m) ↔ (s.step env (.style hs st)).1 = .error (.panic m) := by
  unfold styleIdOf
  simp only [Session.step]
  cases getStyleId env.build hs s.x.styles.data st with
  | error e => simp
  | ok v => simp

theorem map_ok_iff {α β : Type} (f : α → β) (r : Res α) : (∃ v, r.map f = .ok v) ↔ ∃ v, r = .ok v := by
  cases r <;> simp [Except.map]

theorem ok_unit (r : Res Unit) : (∃ v, r = .ok v) ↔ r = .ok () := by cases r <;> simp

/-! ### C58 -/

/-- **C58 as stated**: the status of every call on a workbook is success exactly when the call asked for something and it succeeded. -/
def StatusTrue (env : Env) (sh : Shown) : Prop :=
  ∀ s c a s', ffiStep env sh (some s) c = (some a, s') →
    (a.status.code = 0 ↔ ∃ o, request c = some o ∧ (s.step env o).1 = .ok ())

/-- **C58 is violated**, in every environment and whatever the error texts are as long as they have no zero character: renaming a
missing sheet fails and reports success. -/
theorem C58_violated (env : Env) (theme : XDoc) (sh : Shown) (hz : ∀ m, '\x00' ∉ (sh.top m).toList) : ¬ StatusTrue env sh := by
  intro h
  have hstep : (Session.step env ⟨newExcel env theme, []⟩ (.rename "missing" "x")).1 = .error (.fail "Old Sheet Name not found in the stack") := by
    kernel_rfl
  have hc : cString ("Flat Buffer Parse Error. " ++ sh.top "Old Sheet Name not found in the stack") =
      some ("Flat Buffer Parse Error. " ++ sh.top "Old Sheet Name not found in the stack") := by
    unfold cString
    rw [if_neg]
    rw [String.toList_append, List.mem_append]
    rintro (h1 | h1)
    · revert h1; decide
    · exact hz _ h1
  have := h ⟨newExcel env theme, []⟩ (.rename (some "missing") (some "x")) ⟨.success, none, _⟩ _ (by
    simp only [ffiStep, ffiRename, hstep, answer, hc, noResult, Option.map_some]
    exact rfl)
  obtain ⟨o, h1, h2⟩ := this.mp rfl
  cases h1
  rw [hstep] at h2
  cases h2

/-- **C58 is violated by renaming, always**: whatever happens, the status is success. -/
theorem C58_violated_rename (env : Env) (sh : Shown) (hz : ∀ m, '\x00' ∉ (sh.top m).toList) (s : Session) (old new : String) :
    ∃ a, (ffiStep env sh (some s) (.rename (some old) (some new))).1 = some a ∧ a.status.code = 0 := by
  have hc : ∀ m, cString ("Flat Buffer Parse Error. " ++ sh.top m) = some ("Flat Buffer Parse Error. " ++ sh.top m) := by
    intro m
    unfold cString
    rw [if_neg]
    rw [String.toList_append, List.mem_append]
    rintro (h1 | h1)
    · revert h1; decide
    · exact hz _ h1
  have hr : ∀ r : Res Unit, (∀ m, r ≠ .error (.panic m)) → ∃ a, noResult (answer sh .success r) = some a ∧ a.status.code = 0 := by
    intro r hp
    match r with
    | .ok () => exact ⟨_, rfl, rfl⟩
    | .error (.panic m) => exact absurd rfl (hp m)
    | .error (.fail m) =>
      refine ⟨⟨.success, none, some ("Flat Buffer Parse Error. " ++ sh.top m)⟩, ?_, rfl⟩
      simp only [answer, hc, noResult, Option.map_some]
  refine hr _ (fun m => ?_)
  simp only [Session.step, renameSheet]
  split
  · next e he =>
    intro h
    cases h
    split at he
    · cases he
    · split at he <;> cases he
  · simp

/-- **C58, what holds**: every call on a workbook except renaming. The status is success exactly when the call asked for something and it
succeeded; then the error pointer is left alone. Whatever the status, the workbook is the one the call of the crate leaves, or unchanged
when nothing was asked.
Missing from the full claim: `excel_rename_sheet`. -/
theorem C58_partial (env : Env) (sh : Shown) (s : Session) (c : FfiCall) (hc : ¬ IsRename c) (a : Reply Nat) (s' : Option Session)
    (h : ffiStep env sh (some s) c = (some a, s')) :
    (a.status.code = 0 ↔ ∃ o, request c = some o ∧ (s.step env o).1 = .ok ()) ∧
    (a.status.code = 0 → a.error = none) ∧
    s' = some (match request c with | some o => (s.step env o).2 | none => s) := by
  simp only [code_zero]
  cases c with
  | rename o n => exact absurd trivial hc
  | add n =>
    simp only [ffiStep, ffiAdd, Prod.mk.injEq] at h
    have := answer_true sh (by simp) h.1
    refine ⟨?_, this.2.2, h.2.symm⟩
    rw [this.1, map_ok_iff, ok_unit]
    simp [request]
  | get n =>
    cases n with
    | none =>
      simp only [ffiStep, ffiGet, refused, Prod.mk.injEq] at h
      obtain ⟨h1, h2⟩ := h
      cases h1
      exact ⟨⟨(fun e => by cases e), (fun ⟨o, e, _⟩ => by cases e)⟩, (fun e => by cases e), h2.symm⟩
    | some n =>
      simp only [ffiStep, ffiGet, Prod.mk.injEq] at h
      have := answer_true sh (by simp) h.1
      refine ⟨?_, this.2.2, h.2.symm⟩
      rw [this.1, map_ok_iff, ok_unit]
      simp [request]
  | hide n =>
    cases n with
    | none =>
      simp only [ffiStep, ffiHide, refused, Prod.mk.injEq] at h
      obtain ⟨h1, h2⟩ := h
      cases h1
      exact ⟨⟨(fun e => by cases e), (fun ⟨o, e, _⟩ => by cases e)⟩, (fun e => by cases e), h2.symm⟩
    | some n =>
      simp only [ffiStep, ffiHide, Prod.mk.injEq, noResult, Option.map_eq_some_iff] at h
      obtain ⟨⟨b, hb, e⟩, h2⟩ := h
      have := answer_true sh (by simp) hb
      subst e
      refine ⟨?_, this.2.2, h2.symm⟩
      show b.status = .success ↔ _
      rw [this.1, ok_unit]
      simp [request]
  | style hs b =>
    match b with
    | none =>
      simp only [ffiStep, ffiStyle, refused, Prod.mk.injEq] at h
      obtain ⟨h1, h2⟩ := h
      cases h1
      exact ⟨⟨(fun e => by cases e), (fun ⟨o, e, _⟩ => by cases e)⟩, (fun e => by cases e), h2.symm⟩
    | some (.error (.panic m)) => simp [ffiStep, ffiStyle] at h
    | some (.error (.fail m)) =>
      simp only [ffiStep, ffiStyle, Prod.mk.injEq] at h
      obtain ⟨h1, h2⟩ := h
      cases h1
      exact ⟨⟨(fun e => by cases e), (fun ⟨o, e, _⟩ => by cases e)⟩, (fun e => by cases e), h2.symm⟩
    | some (.ok f) =>
      simp only [ffiStep, ffiStyle, Prod.mk.injEq] at h
      have := answer_true sh (by simp) h.1
      refine ⟨?_, this.2.2, h.2.symm⟩
      rw [this.1, styleIdOf_ok]
      simp [request]

/-- **C58 for results.** A call that opens a sheet and reports success sets the result to the handle just opened; one that fails sets no
result. -/
theorem C58_handle (env : Env) (sh : Shown) (s : Session) (c : FfiCall) (hc : (∃ n, c = .add n) ∨ ∃ n, c = .get n) (a : Reply Nat)
    (s' : Session) (h : ffiStep env sh (some s) c = (some a, some s')) :
    (a.status.code = 0 → ∃ hd, a.out = some s.handles.length ∧ s'.handles = s.handles ++ [hd]) ∧
    (a.status.code ≠ 0 → a.out = none ∧ s'.handles = s.handles) := by
  have key : ∀ n, answer sh .io ((s.open env n).1.map (fun _ => s.handles.length)) = some a → (s.open env n).2 = s' →
      (a.status.code = 0 → ∃ hd, a.out = some s.handles.length ∧ s'.handles = s.handles ++ [hd]) ∧
      (a.status.code ≠ 0 → a.out = none ∧ s'.handles = s.handles) := by
    intro n h1 h2
    have := answer_true sh (by simp) h1
    simp only [code_zero, ne_eq, this.1, this.2.1]
    subst h2
    unfold Session.open
    generalize s.x.openSheet env n = r
    obtain ⟨r, x⟩ := r
    cases r with
    | error e => simp [Except.map, Except.toOption]
    | ok hd => simp [Except.map, Except.toOption]
  rcases hc with ⟨n, rfl⟩ | ⟨n, rfl⟩
  · simp only [ffiStep, ffiAdd, Prod.mk.injEq, Option.some.injEq] at h
    exact key n h.1 h.2
  · cases n with
    | none =>
      simp only [ffiStep, ffiGet, refused, Prod.mk.injEq, Option.some.injEq] at h
      obtain ⟨rfl, rfl⟩ := h
      exact ⟨(fun e => by simp [Status.code] at e), fun _ => ⟨rfl, rfl⟩⟩
    | some n =>
      simp only [ffiStep, ffiGet, Prod.mk.injEq, Option.some.injEq] at h
      exact key (some n) h.1 h.2

/-- A null workbook is never touched and never a success. -/
theorem C58_null (env : Env) (sh : Shown) (c : FfiCall) : ffiStep env sh none c = (some ⟨.invalidArgument, none, none⟩, none) := rfl

/-- **C58 for histories.** What C programs do to a workbook is what a history of calls of the crate does: the requests of the calls, in
order. So all that is shown about sessions holds for C programs. -/
theorem C58_history (env : Env) (sh : Shown) (cs : List FfiCall) (s : Session) (s' : Option Session) (h : ffiRun env sh (some s) cs = some s') :
    ∃ t, s' = some t ∧ s.run env (cs.filterMap request) = .ok t := by
  induction cs generalizing s with
  | nil => cases h; exact ⟨s, rfl, rfl⟩
  | cons c cs ih =>
    rw [ffiRun] at h
    -- one call
    have hone : ∀ a s1, ffiStep env sh (some s) c = (some a, s1) →
        s1 = some (match request c with | some o => (s.step env o).2 | none => s) ∧
        ∀ o, request c = some o → ∀ m, (s.step env o).1 ≠ .error (.panic m) := by
      intro a s1 h1
      by_cases hr : IsRename c
      · cases c with
        | rename o n =>
          cases o with
          | none => simp only [ffiStep, ffiRename, Prod.mk.injEq] at h1; exact ⟨h1.2.symm, fun o e => by cases e⟩
          | some o =>
            cases n with
            | none => simp only [ffiStep, ffiRename, Prod.mk.injEq] at h1; exact ⟨h1.2.symm, fun o e => by cases e⟩
            | some n =>
              simp only [ffiStep, ffiRename, Prod.mk.injEq] at h1
              refine ⟨h1.2.symm, fun o' e m => ?_⟩
              cases e
              intro hp
              rw [hp] at h1
              cases h1.1
        | _ => exact absurd hr (by simp [IsRename])
      · refine ⟨(C58_partial env sh s c hr a s1 h1).2.2, fun o e m hp => ?_⟩
        cases c with
        | rename o n => exact hr trivial
        | add n =>
          cases e
          simp only [ffiStep, ffiAdd, hp, Prod.mk.injEq] at h1
          cases h1.1
        | get n =>
          cases n with
          | none => cases e
          | some n =>
            cases e
            simp only [ffiStep, ffiGet, hp, Prod.mk.injEq] at h1
            cases h1.1
        | hide n =>
          cases n with
          | none => cases e
          | some n =>
            cases e
            simp only [ffiStep, ffiHide, hp, Prod.mk.injEq] at h1
            cases h1.1
        | style hs b =>
          match b with
          | none => cases e
          | some (.error _) => cases e
          | some (.ok f) =>
            cases e
            simp only [ffiStep, ffiStyle, (styleIdOf_panic env hs s f.setting m).mpr hp, Prod.mk.injEq] at h1
            cases h1.1
    split at h
    · cases h
    · next a s1 h1 =>
      obtain ⟨e1, e2⟩ := hone a s1 h1
      subst e1
      obtain ⟨t, h2, h3⟩ := ih _ h
      refine ⟨t, h2, ?_⟩
      rw [List.filterMap_cons]
      cases hr : request c with
      | none => rw [hr] at h3; exact h3
      | some o =>
        rw [hr] at h3
        simp only at h3
        simp only [Session.run]
        have := e2 o hr
        split
        · next m s1 hs => rw [hs] at this; exact absurd rfl (this m)
        · next hs => rw [hs] at h3; exact h3

/-- **C58 for saving workbooks.** `excel_save_as` reports success exactly when the package was made and the file written. -/
theorem C58_save (env : Env) (sh : Shown) (now : String) (exts : List (String × String)) (disk : Zip → Res Unit) (s : Session) (file : String)
    (a : Reply Unit) (h : ffiSaveExcel env sh now exts disk (some s) (some file) = some a) :
    a.status.code = 0 ↔ ∃ z, s.x.toZip env now exts = .ok z ∧ disk z = .ok () := by
  have := (answer_true sh (by simp) h).1
  rw [code_zero, this, ok_unit]
  unfold written
  cases s.x.toZip env now exts with
  | error e => simp
  | ok z => simp

/-- **C58 and C65 for C programs.** After any history of calls on a new workbook, `excel_save_as` reports success exactly when the disk takes
the file. -/
theorem C58_save_history (env : Env) (hst : env.build.release = true → StampOk env.stamp) (theme : XDoc) (sh : Shown) (cs : List FfiCall)
    (s : Session) (h : ffiRun env sh (some ⟨newExcel env theme, []⟩) cs = some (some s)) (now : String) (exts : List (String × String))
    (disk : Zip → Res Unit) (hd : ∀ z m, disk z ≠ .error (.panic m)) (file : String) :
    ∃ a z, ffiSaveExcel env sh now exts disk (some s) (some file) = some a ∧ s.x.toZip env now exts = .ok z ∧
      (a.status.code = 0 ↔ disk z = .ok ()) := by
  obtain ⟨t, ht, hrun⟩ := C58_history env sh cs _ _ h
  cases ht
  obtain ⟨z, hz⟩ := C65_saves (env := env) (theme := theme) hst (ops := cs.filterMap request) (s := s) ⟨newExcel env theme, new_eq env theme, hrun⟩ now exts
  cases ha : ffiSaveExcel env sh now exts disk (some s) (some file) with
  | none =>
    obtain ⟨m, hm⟩ := (answer_none sh .io _).mp ha
    unfold written at hm
    rw [hz] at hm
    exact absurd hm (hd z m)
  | some a =>
    refine ⟨a, z, rfl, hz, ?_⟩
    rw [C58_save env sh now exts disk s file a ha, hz]
    simp

/-- **C58 is violated by saving Word and PowerPoint files**: when the file cannot be written the status is success. -/
theorem C58_violated_save (env : Env) (sh : Shown) (hz : ∀ m, '\x00' ∉ (sh.top m).toList) (now : String) (exts : List (String × String))
    (disk : Zip → Res Unit) (d : OfficeDoc) (file : String) (m : String) (hw : written (d.toZip env now exts) disk = .error (.fail m)) :
    ∃ a, ffiSaveDoc env sh now exts disk (some d) (some file) = some a ∧ a.status.code = 0 := by
  have hc : cString ("Flat Buffer Parse Error. " ++ sh.top m) = some ("Flat Buffer Parse Error. " ++ sh.top m) := by
    unfold cString
    rw [if_neg]
    rw [String.toList_append, List.mem_append]
    rintro (h1 | h1)
    · revert h1; decide
    · exact hz _ h1
  refine ⟨⟨.success, none, some ("Flat Buffer Parse Error. " ++ sh.top m)⟩, ?_, rfl⟩
  simp only [ffiSaveDoc, hw, answer, hc]

/-- Example: a full disk. -/
example (env : Env) (d : OfficeDoc) (now : String) (exts : List (String × String)) (z : Zip) (h : d.toZip env now exts = .ok z) :
    written (d.toZip env now exts) (fun _ => .error (.fail "No space left on device")) = .error (.fail "No space left on device") := by
  rw [h]; rfl

/-- **C58 for creating.** The three `.._create` calls report success exactly when the buffer is valid and the object was made; then, and only
then, the result is set. -/
theorem C58_create {α : Type} (sh : Shown) (buffer : Option (Res Unit)) (make : Res α) (a : Reply α) (h : created sh buffer make = some a) :
    (a.status.code = 0 ↔ buffer = some (.ok ()) ∧ ∃ v, make = .ok v) ∧ (∀ v, a.out = some v ↔ a.status.code = 0 ∧ make = .ok v) := by
  match buffer with
  | none => cases h; exact ⟨by simp [Status.code], by simp [Status.code]⟩
  | some (.error (.panic m)) => cases h
  | some (.error (.fail m)) => cases h; exact ⟨by simp [Status.code], by simp [Status.code]⟩
  | some (.ok ()) =>
    cases make with
    | ok v => cases h; exact ⟨by simp [Status.code], by simp [Status.code]⟩
    | error e =>
      cases e with
      | panic m => cases h
      | fail m => cases h; exact ⟨by simp [Status.code], by simp [Status.code]⟩

/-- Example: a new workbook from C, then a sheet added, hidden, and a style asked for. -/
example (env : Env) (theme : XDoc) (sh : Shown) : excelCreate env theme sh none (some (.ok ())) = some ⟨.success, some (newExcel env theme), none⟩ := by
  unfold excelCreate
  simp only [new_eq]
  rfl

/-! ### C67 -/

/-- **C67 as stated**: the style asked for in the buffer is the style the crate is asked for. -/
def StylePassed (f : FbsStyle) : Prop :=
  f.setting.bold = f.bold ∧ f.setting.italic = f.italic ∧ f.setting.underline = f.underline ∧
  f.setting.doubleUnderline = f.doubleUnderline ∧ f.setting.wrapText = f.wrapText ∧
  (∀ c, f.textColor = some c → f.setting.textColor = c) ∧
  f.setting.borderLeft = f.borderLeft ∧ f.setting.borderTop = f.borderTop ∧ f.setting.borderRight = f.borderRight ∧
  f.setting.borderBottom = f.borderBottom ∧ f.setting.borderDiagonal = f.borderDiagonal ∧
  f.setting.horizontal = f.horizontal ∧ f.setting.vertical = f.vertical ∧
  f.setting.background = f.background ∧ f.setting.foreground = f.foreground ∧ f.setting.pattern = f.pattern ∧
  f.setting.fontSize = f.fontSize ∧ (∀ n, f.fontFamily = some n → f.setting.fontFamily = n) ∧ f.setting.customFormat = f.customFormat

/-- **C67 is violated**: bold text comes out italic and underlined as well. -/
theorem C67_violated : ¬ ∀ f, StylePassed f := by
  intro h
  have := (h { bold := true }).2.1
  exact absurd this (by decide)

/-- **C67 is violated for every font setting that is not all or nothing**, text colours, all borders but the left one, and alignment: what
is passed on does not depend on them. -/
theorem C67_violated_lost (f g : FbsStyle) (h1 : f.numberFormat = g.numberFormat) (h2 : f.customFormat = g.customFormat)
    (h3 : f.borderLeft = g.borderLeft) (h4 : f.fontFamily = g.fontFamily) (h5 : f.fontSize = g.fontSize) (h6 : f.bold = g.bold)
    (h7 : f.background = g.background) (h8 : f.foreground = g.foreground) (h9 : f.wrapText = g.wrapText) : f.setting = g.setting := by
  unfold FbsStyle.setting
  rw [h1, h2, h3, h4, h5, h6, h7, h8, h9]

/-- **C67, what holds**: exactly which styles are passed on.
Missing from the full claim: every other style. -/
theorem C67_partial (f : FbsStyle) : StylePassed f ↔
    f.italic = f.bold ∧ f.underline = f.bold ∧ f.doubleUnderline = f.bold ∧ (∀ c, f.textColor = some c → c = {}) ∧
    f.borderTop = {} ∧ f.borderRight = {} ∧ f.borderBottom = {} ∧ f.borderDiagonal = {} ∧ f.horizontal = .none ∧ f.vertical = .none ∧
    f.pattern = .none := by
  unfold StylePassed FbsStyle.setting
  constructor
  · rintro ⟨-, h1, h2, h3, -, h4, -, h5, h6, h7, h8, h9, h10, -, -, h11, -, -, -⟩
    exact ⟨h1.symm, h2.symm, h3.symm, fun c hc => (h4 c hc).symm, h5.symm, h6.symm, h7.symm, h8.symm, h9.symm, h10.symm, h11.symm⟩
  · rintro ⟨h1, h2, h3, h4, h5, h6, h7, h8, h9, h10, h11⟩
    exact ⟨rfl, h1.symm, h2.symm, h3.symm, rfl, fun c hc => (h4 c hc).symm, rfl, h5.symm, h6.symm, h7.symm, h8.symm, h9.symm, h10.symm, rfl, rfl, h11.symm, rfl,
      fun n hn => by rw [hn]; rfl, rfl⟩

/-- Example: a plain style with a left border is passed on. -/
example : StylePassed { fontSize := 11, background := some "FF0000", borderLeft := { style := .thin } } := by
  rw [C67_partial]; simp

/-- **C67 for the font size**: a buffer that does not set the size asks for size 0, where the crate's own default is 11. -/
theorem C67_violated_size : ({} : FbsStyle).setting.fontSize ≠ ({} : StyleSetting).fontSize := by decide

end Oxml
