import Verif.Props.DotNet
/-!
# C79: the reason of a failure reaches the caller
-/
namespace Oxml
open Spec

/-- The text a C program finds for an error shown as `t`. -/
def Spec.errorText (t : String) : String := "Flat Buffer Parse Error. " ++ t

theorem cString_text {t : String} (h : '\x00' ∉ t.toList) : cString ("Flat Buffer Parse Error. " ++ t) = some (errorText t) := by
  unfold cString errorText
  rw [if_neg]
  rw [String.toList_append, List.mem_append]
  rintro (h1 | h1)
  · revert h1; decide
  · exact h h1

theorem answer_fail {α : Type} {sh : Shown} {code : Status} {m : String} (h : '\x00' ∉ (sh.top m).toList) :
    answer (α := α) sh code (.error (.fail m)) = some ⟨code, none, some (errorText (sh.top m))⟩ := by
  unfold answer
  simp only
  rw [cString_text h]

/-- **C79 for C programs.** When the wrapped operation fails, the error string is the text of the error. For every call on a workbook
with the pointers it insists on, renaming included, as long as the text has no zero character. -/
theorem C79_c (env : Env) (sh : Shown) (s : Session) (c : FfiCall) (o : WbOp) (m : String) (hr : request c = some o)
    (hz : '\x00' ∉ (sh.top m).toList) (hf : (s.step env o).1 = .error (.fail m)) :
    ∃ a s', ffiStep env sh (some s) c = (some a, s') ∧ a.out = none ∧ a.error = some (errorText (sh.top m)) := by
  cases c with
  | add n =>
    cases hr
    refine ⟨⟨.io, none, _⟩, some (s.step env (.add n)).2, ?_, rfl, rfl⟩
    simp only [ffiStep, ffiAdd, hf, Except.map]
    rw [answer_fail hz]
  | get n =>
    cases n with
    | none => cases hr
    | some n =>
      cases hr
      refine ⟨⟨.io, none, _⟩, some (s.step env (.get n)).2, ?_, rfl, rfl⟩
      simp only [ffiStep, ffiGet, hf, Except.map]
      rw [answer_fail hz]
  | rename o' n =>
    cases o' with
    | none => cases hr
    | some o' =>
      cases n with
      | none => cases hr
      | some n =>
        cases hr
        refine ⟨⟨.success, none, _⟩, some (s.step env (.rename o' n)).2, ?_, rfl, rfl⟩
        simp only [ffiStep, ffiRename, hf]
        rw [answer_fail hz]
        rfl
  | hide n =>
    cases n with
    | none => cases hr
    | some n =>
      cases hr
      refine ⟨⟨.io, none, _⟩, some (s.step env (.hide n)).2, ?_, rfl, rfl⟩
      simp only [ffiStep, ffiHide, hf]
      rw [answer_fail hz]
      rfl
  | style hs b =>
    match b, hr with
    | some (.ok f), hr =>
      cases hr
      refine ⟨⟨.io, none, _⟩, some (s.step env (.style hs f.setting)).2, ?_, rfl, rfl⟩
      have : styleIdOf env hs s f.setting = .error (.fail m) := by
        unfold styleIdOf
        simp only [Session.step] at hf
        cases hg : getStyleId env.build hs s.x.styles.data f.setting with
        | error e => rw [hg] at hf; cases hf; rfl
        | ok p => rw [hg] at hf; cases hf
      simp only [ffiStep, ffiStyle, this]
      rw [answer_fail hz]

/-- **C79 in .NET, what holds.** `AddSheet` and `GetWorksheet` that fail throw an exception with the text of the error.
Missing from the full claim: `RenameSheet`, which does not throw. -/
theorem C79_partial (env : Env) (sh : Shown) (ansi : String → String) (w : World) (s : Session) (c : NetCall) (o : WbOp) (m : String)
    (hc : (∃ n, c = .addSheet n) ∨ ∃ n, c = .getWorksheet n) (hr : netRequest ansi c = some o)
    (hz : '\x00' ∉ (sh.top m).toList) (hf : (s.step env o).1 = .error (.fail m)) :
    (netStep env sh ansi w ⟨s, false⟩ c).1 = .thrown .fileLoad (errorText (sh.top m)) := by
  rcases hc with ⟨n, rfl⟩ | ⟨n, rfl⟩
  · cases hr
    simp only [netStep, Bool.false_eq_true, if_false, netLive, ffiAdd, hf, Except.map]
    rw [answer_fail hz]
    rfl
  · cases n with
    | none => cases hr
    | some n =>
      cases hr
      simp only [netStep, Bool.false_eq_true, if_false, netLive, ffiGet, Option.map_some, hf, Except.map]
      rw [answer_fail hz]
      rfl

/-- **C79 for saving in .NET.** -/
theorem C79_save (env : Env) (sh : Shown) (ansi : String → String) (w : World) (s : Session) (path m : String)
    (hz : '\x00' ∉ (sh.top m).toList)
    (hf : s.x.toZip env w.now w.exts = .error (.fail m) ∨
      ∃ z, s.x.toZip env w.now w.exts = .ok z ∧ w.disk (marshal ansi path) z = .error (.fail m)) :
    (netStep env sh ansi w ⟨s, false⟩ (.saveAs (some path))).1 = .thrown .fileLoad (errorText (sh.top m)) := by
  have hw : written (s.x.toZip env w.now w.exts) (w.disk (marshal ansi path)) = .error (.fail m) := by
    unfold written
    rcases hf with h | ⟨z, h1, h2⟩
    · rw [h]
    · rw [h1]; exact h2
  simp only [netStep, Bool.false_eq_true, if_false, netLive, Option.map_some, Option.getD_some, ffiSaveExcel, hw]
  rw [answer_fail hz]
  rfl

/-- **C79 for the constructors.** The message is the whole chain of the error. -/
theorem C79_create (env : Env) (theme : XDoc) (sh : Shown) (file : Option (Res Zip)) (m : String) (hz : '\x00' ∉ (sh.chain m).toList)
    (hf : file = some (.error (.fail m)) ∨ (∃ z, file = some (.ok z) ∧ Excel.openFile env theme z = .error (.fail m))) :
    netNew env theme sh file = .thrown .other (sh.chain m) := by
  have hc : cString (sh.chain m) = some (sh.chain m) := by
    unfold cString
    rw [if_neg hz]
  unfold netNew excelCreate created
  rcases hf with rfl | ⟨z, rfl, h⟩
  · simp only [hc, netEnd]
    rfl
  · simp only [h, hc, netEnd]
    rfl

/-- **C79 is violated by renaming**: whatever the reason of the failure, the caller of `RenameSheet` gets `true` and no text. -/
theorem C79_violated (env : Env) (sh : Shown) (hz : ∀ m, '\x00' ∉ (sh.top m).toList) (ansi : String → String)
    (ha : ansi "missing" = "missing") (hb : ansi "x" = "x") :
    ¬ ∀ (w : World) (s : Session) (c : NetCall) (o : WbOp) (m : String), netRequest ansi c = some o → (s.step env o).1 = .error (.fail m) →
      ∃ k t, (netStep env sh ansi w ⟨s, false⟩ c).1 = .thrown k t := by
  intro h
  have hm : marshal ansi "missing" = "missing" := by unfold marshal; rw [ha]; decide +kernel
  have hx : marshal ansi "x" = "x" := by unfold marshal; rw [hb]; decide +kernel
  have hf : (Session.step env ⟨newExcel env ⟨[], none⟩, []⟩ (.rename (marshal ansi "missing") (marshal ansi "x"))).1 =
      .error (.fail "Old Sheet Name not found in the stack") := by
    rw [hm, hx]
    kernel_rfl
  obtain ⟨k, t, hk⟩ := h goodWorld _ (.renameSheet (some "missing") (some "x")) _ _ rfl hf
  rw [C76_violated_rename env sh hz] at hk
  cases hk

/-- A case: the failing call of `C49_violated`. -/
example (env : Env) (theme : XDoc) (sh : Shown) (hz : ∀ m, '\x00' ∉ (sh.top m).toList) :
    ∃ s m, Session.run env ⟨newExcel env theme, []⟩ [.add (some "a"), .add (some "b"), .delete 0] = .ok s ∧
      (netStep env sh id goodWorld ⟨s, false⟩ (.addSheet (some "c"))).1 = .thrown .fileLoad (errorText (sh.top m)) := by
  obtain ⟨x, s, s', m, h1, h2, h3, _⟩ := C49_violated env theme
  rw [new_eq] at h1
  cases h1
  exact ⟨s, m, h2, C79_partial env sh id goodWorld s _ (.add (some "c")) m (.inl ⟨_, rfl⟩)
    (congrArg (fun s => some (WbOp.add (some s))) (by decide +kernel)) (hz _) (by rw [h3])⟩

/-- A case for saving: a full disk. -/
example (env : Env) (hst : env.build.release = true → StampOk env.stamp) (theme : XDoc) (sh : Shown) (hz : ∀ m, '\x00' ∉ (sh.top m).toList) :
    (netStep env sh id ⟨"now", [], fun _ _ => .error (.fail "full")⟩ ⟨⟨newExcel env theme, []⟩, false⟩ (.saveAs (some "p"))).1 =
      .thrown .fileLoad (errorText (sh.top "full")) := by
  obtain ⟨z, h⟩ := C65_saves (env := env) (theme := theme) hst (ops := []) (s := ⟨newExcel env theme, []⟩) ⟨newExcel env theme, new_eq env theme, rfl⟩ "now" []
  exact C79_save env sh id _ _ "p" "full" (hz _) (.inr ⟨z, h, rfl⟩)

/-- A case for the constructors: the file cannot be read. -/
example (env : Env) (theme : XDoc) (sh : Shown) (hz : ∀ m, '\x00' ∉ (sh.chain m).toList) :
    netNew env theme sh (some (.error (.fail "no file"))) = .thrown .other (sh.chain "no file") :=
  C79_create env theme sh _ _ (hz _) (.inl rfl)

end Oxml
