import Verif.Spec.DotNet
import Verif.Props.Ffi
import Verif.Props.SessionCells
/-!
# C74–C76: C and .NET programs
-/
namespace Oxml
open Spec

/-! ### C74 -/

theorem open_handles (env : Env) (s : Session) (name : Option String) : ∃ more, (s.open env name).2.handles = s.handles ++ more := by
  unfold Session.open
  generalize s.x.openSheet env name = r
  obtain ⟨r, x⟩ := r
  cases r with
  | error e => exact ⟨[], by simp⟩
  | ok h => exact ⟨[h], rfl⟩

/-- No C function closes a handle. -/
theorem request_handles (env : Env) (s : Session) {c : FfiCall} {o : WbOp} (h : request c = some o) :
    ∃ more, (s.step env o).2.handles = s.handles ++ more := by
  have same : ∀ t : Session, t.handles = s.handles → ∃ more, t.handles = s.handles ++ more := fun t h => ⟨[], by rw [h]; simp⟩
  match c, h with
  | .add n, h => cases h; exact open_handles env s n
  | .get (some n), h => cases h; exact open_handles env s (some n)
  | .rename (some a) (some b), h =>
    cases h
    simp only [Session.step]
    split <;> exact same _ rfl
  | .hide (some n), h => cases h; exact same _ rfl
  | .style hs (some (.ok f)), h =>
    cases h
    simp only [Session.step]
    split <;> exact same _ rfl

theorem run_handles (env : Env) (cs : List FfiCall) (s t : Session) (h : s.run env (cs.filterMap request) = .ok t) :
    ∃ more, t.handles = s.handles ++ more := by
  induction cs generalizing s with
  | nil => cases h; exact ⟨[], by simp⟩
  | cons c cs ih =>
    rw [List.filterMap_cons] at h
    cases hr : request c with
    | none => rw [hr] at h; exact ih s h
    | some o =>
      rw [hr] at h
      obtain ⟨m1, h1⟩ := request_handles env s hr
      obtain ⟨m2, h2⟩ := ih _ (run_cons h)
      exact ⟨m1 ++ m2, by rw [h2, h1, List.append_assoc]⟩

/-- **C74 as stated**: the part of a sheet opened by a C program can be read in the file it saves. -/
def SheetsReadable (env : Env) (theme : XDoc) (sh : Shown) : Prop :=
  ∀ (cs1 cs2 : List FfiCall) (c : FfiCall) (s1 s2 t : Session) (a : Reply Nat) (now : String) (p : Pkg), Opens c →
    ffiRun env sh (some ⟨newExcel env theme, []⟩) cs1 = some (some s1) → ffiStep env sh (some s1) c = (some a, some s2) → a.status.code = 0 →
    ffiRun env sh (some s2) cs2 = some (some t) → t.x.saved env now = .ok p →
    ∀ hd, s2.handles = s1.handles ++ [hd] → partDoc env p hd.path ≠ none

/-- **C74 fails, always.** Whatever a C program does on a new workbook before and after, the part of each sheet it opened is in the saved
package and cannot be read: the interface has no call that closes a sheet. -/
theorem C74_violated_always (env : Env) (hst : env.build.release = true → StampOk env.stamp) (theme : XDoc) (sh : Shown) (cs1 cs2 : List FfiCall)
    (c : FfiCall) (s1 s2 t : Session) (a : Reply Nat) (now : String) (hc : Opens c)
    (h1 : ffiRun env sh (some ⟨newExcel env theme, []⟩) cs1 = some (some s1)) (h2 : ffiStep env sh (some s1) c = (some a, some s2))
    (h3 : a.status.code = 0) (h4 : ffiRun env sh (some s2) cs2 = some (some t)) :
    ∃ hd p, s2.handles = s1.handles ++ [hd] ∧ t.x.saved env now = .ok p ∧ hd.path ∈ akeys p.archive ∧ partDoc env p hd.path = none := by
  obtain ⟨hd, _, e⟩ := (C58_handle env sh s1 c hc a s2 h2).1 h3
  obtain ⟨u1, e1, r1⟩ := C58_history env sh cs1 _ _ h1
  cases e1
  obtain ⟨u2, e2, r2⟩ := C58_history env sh cs2 _ _ h4
  cases e2
  obtain ⟨more, hm⟩ := run_handles env cs2 s2 t r2
  -- the whole program as one history
  have hall : ffiRun env sh (some ⟨newExcel env theme, []⟩) (cs1 ++ c :: cs2) = some (some t) := by
    clear e r1 r2 hm h3
    revert h1
    generalize (⟨newExcel env theme, []⟩ : Session) = s0
    intro h1
    induction cs1 generalizing s0 with
    | nil =>
      cases h1
      rw [List.nil_append, ffiRun, h2]
      exact h4
    | cons d cs1 ih =>
      rw [ffiRun] at h1
      rw [List.cons_append, ffiRun]
      cases hd1 : ffiStep env sh (some s0) d with
      | mk r s' =>
        rw [hd1] at h1
        cases r with
        | none => cases h1
        | some r =>
          simp only at h1 ⊢
          cases s' with
          | none =>
            exfalso
            have : (ffiStep env sh (some s0) d).2 ≠ none := by simp [ffiStep]
            rw [hd1] at this
            exact this rfl
          | some s' => exact ih s' h1
  obtain ⟨u, eu, ru⟩ := C58_history env sh _ _ _ hall
  cases eu
  have hmem : hd ∈ t.handles := by rw [hm, e]; simp
  obtain ⟨p, hp1, hp2, hp3⟩ := C45_violated hst (theme := theme) ⟨_, new_eq env theme, ru⟩ hmem now
  exact ⟨hd, p, e, hp1, hp2, hp3⟩

/-- **C74 is violated** in every environment. -/
theorem C74_violated (env : Env) (hst : env.build.release = true → StampOk env.stamp) (theme : XDoc) (sh : Shown) : ¬ SheetsReadable env theme sh := by
  intro h
  have hadd : ∃ s2, ffiStep env sh (some ⟨newExcel env theme, []⟩) (.add (some "a")) = (some ⟨.success, some 0, none⟩, some s2) := by
    refine ⟨((⟨newExcel env theme, []⟩ : Session).step env (.add (some "a"))).2, ?_⟩
    have e : ((⟨newExcel env theme, []⟩ : Session).step env (.add (some "a"))).1 = .ok () := by kernel_rfl
    simp only [ffiStep, ffiAdd, e]
    rfl
  obtain ⟨s2, h2⟩ := hadd
  obtain ⟨hd, p, e1, e2, _, e3⟩ := C74_violated_always env hst theme sh [] [] (.add (some "a")) _ s2 s2 _ "" (.inl ⟨_, rfl⟩) rfl h2 rfl rfl
  exact h [] [] (.add (some "a")) _ s2 s2 _ "" p (.inl ⟨_, rfl⟩) rfl h2 rfl rfl e2 hd e1 e3

/-- **C74, partial.** Whatever a C program does on a new workbook, the part of the sheet the workbook was created with can be read in the
file it saves. Missing: every sheet the program opened, see `C74_violated_always`. -/
theorem C74_partial (env : Env) (hst : env.build.release = true → StampOk env.stamp) (theme : XDoc) (sh : Shown) (cs : List FfiCall) (t : Session) (now : String)
    (h : ffiRun env sh (some ⟨newExcel env theme, []⟩) cs = some (some t)) :
    ∃ p, t.x.saved env now = .ok p ∧ partDoc env p "xl/worksheets/sheet1.xml" ≠ none := by
  obtain ⟨u, eu, ru⟩ := C58_history env sh cs _ _ h
  cases eu
  obtain ⟨p, d, _, h1, h2, _⟩ := C45_default hst (theme := theme) ⟨_, new_eq env theme, ru⟩ now
  exact ⟨p, h1, by rw [h2]; simp⟩

/-- Example: a program that adds a sheet. -/
example (env : Env) (theme : XDoc) (sh : Shown) : ∃ t, ffiRun env sh (some ⟨newExcel env theme, []⟩) [.add (some "a")] = some (some t) ∧ t.handles.length = 1 := by
  refine ⟨((⟨newExcel env theme, []⟩ : Session).step env (.add (some "a"))).2, ?_, by kernel_rfl⟩
  have e : ((⟨newExcel env theme, []⟩ : Session).step env (.add (some "a"))).1 = .ok () := by kernel_rfl
  simp only [ffiRun, ffiStep, ffiAdd, e]
  rfl

/-! ### C75 -/

/-- **C75 as stated**: no .NET program passes the library an object it has freed. -/
def MemorySafe (env : Env) (sh : Shown) (ansi : String → String) : Prop := ∀ s prog, netRun env sh ansi ⟨s, false⟩ prog ≠ .undefined

theorem asks_iff (c : NetCall) : Asks c ↔ c.reads = true := by
  cases c with
  | addSheet n => simp [Asks, NetCall.reads]
  | getWorksheet n => cases n <;> simp [Asks, NetCall.reads]
  | renameSheet o n => cases o <;> cases n <;> simp [Asks, NetCall.reads]
  | saveAs p => cases p <;> simp [Asks, NetCall.reads]

theorem netEnd_defined {α β : Type} (f : Reply α → β) (r : Option (Reply α)) : netEnd f r ≠ .undefined := by
  cases r with
  | none => simp [netEnd]
  | some a => simp only [netEnd]; split <;> simp

theorem netLive_defined (env : Env) (sh : Shown) (ansi : String → String) (w : World) (s : Session) (c : NetCall) :
    (netLive env sh ansi w s c).1 ≠ .undefined := by
  cases c <;> exact netEnd_defined _ _

theorem netLive_freed (env : Env) (sh : Shown) (ansi : String → String) (w : World) (s : Session) (c : NetCall) :
    (netLive env sh ansi w s c).2.freed = true ↔ Saves c := by
  cases c with
  | saveAs p => cases p <;> simp [netLive, Saves]
  | _ => simp [netLive, Saves]

/-- Nothing that reads the object is called in the program once it was saved. -/
def SavesLast : List (World × NetCall) → Prop
  | [] => True
  | (_, c) :: cs => (Saves c → ∀ e ∈ cs, ¬ Asks e.2) ∧ SavesLast cs

theorem freed_run (env : Env) (sh : Shown) (ansi : String → String) (prog : List (World × NetCall)) (s : Session) :
    netRun env sh ansi ⟨s, true⟩ prog = .undefined ↔ ∃ e ∈ prog, Asks e.2 := by
  induction prog with
  | nil => simp [netRun]
  | cons e prog ih =>
    obtain ⟨w, c⟩ := e
    by_cases hc : Asks c
    · refine ⟨fun _ => ⟨(w, c), by simp, hc⟩, fun _ => ?_⟩
      simp [netRun, netStep, (asks_iff c).mp hc]
    · have hr : c.reads = false := by
        cases h : c.reads with
        | false => rfl
        | true => exact absurd ((asks_iff c).mpr h) hc
      have : netRun env sh ansi ⟨s, true⟩ ((w, c) :: prog) = netRun env sh ansi ⟨s, true⟩ prog := by simp [netRun, netStep, hr]
      rw [this, ih]
      simp [hc]

/-- **C75, what holds**: a program that asks nothing of an object once it was saved is safe.
Missing from the full claim: every other program, see `C75_violated_always`. -/
theorem C75_partial (env : Env) (sh : Shown) (ansi : String → String) (s : Session) (prog : List (World × NetCall)) (h : SavesLast prog) :
    netRun env sh ansi ⟨s, false⟩ prog ≠ .undefined := by
  induction prog generalizing s with
  | nil => simp [netRun]
  | cons e prog ih =>
    obtain ⟨w, c⟩ := e
    have hd := netLive_defined env sh ansi w s c
    have hf := netLive_freed env sh ansi w s c
    rw [netRun]
    simp only [netStep, Bool.false_eq_true, if_false]
    cases hr : netLive env sh ansi w s c with
    | mk r x1 =>
      rw [hr] at hd hf
      have hrest : netRun env sh ansi x1 prog ≠ .undefined := by
        obtain ⟨s1, f⟩ := x1
        cases f with
        | false => exact ih s1 h.2
        | true =>
          intro hu
          obtain ⟨e, he, ha⟩ := (freed_run env sh ansi prog s1).mp hu
          exact h.1 (hf.mp rfl) e he ha
      cases r with
      | returned v => exact hrest
      | thrown k m => exact hrest
      | processEnds => simp
      | undefined => exact absurd rfl hd

/-- **C75 fails, always**: asking anything of an object that was saved, successfully or not, passes freed memory to the library, unless the
process ended before. -/
theorem C75_violated_always (env : Env) (sh : Shown) (ansi : String → String) (before after : List (World × NetCall)) (w : World) (path : String)
    (s s1 s2 : Session) (hb : netRun env sh ansi ⟨s, false⟩ before = .finished ⟨s1, false⟩)
    (hs : netRun env sh ansi ⟨s1, false⟩ [(w, .saveAs (some path))] = .finished ⟨s2, true⟩) (ha : ∃ e ∈ after, Asks e.2) :
    netRun env sh ansi ⟨s, false⟩ (before ++ (w, .saveAs (some path)) :: after) = .undefined := by
  have happ : ∀ (l m : List (World × NetCall)) (x y : NetExcel), netRun env sh ansi x l = .finished y →
      netRun env sh ansi x (l ++ m) = netRun env sh ansi y m := by
    intro l m
    induction l with
    | nil => intro x y h; cases h; rfl
    | cons e l ih =>
      obtain ⟨w, c⟩ := e
      intro x y h
      rw [netRun] at h
      rw [List.cons_append, netRun]
      split at h
      · cases h
      · cases h
      · exact ih _ _ h
  rw [happ _ _ _ _ hb, show (w, NetCall.saveAs (some path)) :: after = [(w, NetCall.saveAs (some path))] ++ after from rfl, happ _ _ _ _ hs]
  exact (freed_run env sh ansi after s2).mpr ha

/-- A disk that takes everything. -/
def goodWorld : World := ⟨"now", [], fun _ _ => .ok ()⟩

theorem newBook_saves (env : Env) (hst : env.build.release = true → StampOk env.stamp) (theme : XDoc) (sh : Shown) (ansi : String → String) (path : String) :
    netStep env sh ansi goodWorld ⟨⟨newExcel env theme, []⟩, false⟩ (.saveAs (some path)) = (.returned .nothing, ⟨⟨newExcel env theme, []⟩, true⟩) := by
  obtain ⟨z, hz⟩ := C65_saves (env := env) (theme := theme) hst (ops := []) (s := ⟨newExcel env theme, []⟩) ⟨newExcel env theme, new_eq env theme, rfl⟩ "now" []
  simp only [netStep, Bool.false_eq_true, if_false, netLive, goodWorld, Option.map_some, ffiSaveExcel, hz, written, answer]
  rfl

/-- **C75 is violated** in every environment: a new workbook saved twice. -/
theorem C75_violated (env : Env) (hst : env.build.release = true → StampOk env.stamp) (sh : Shown) (ansi : String → String) : ¬ MemorySafe env sh ansi := by
  intro h
  refine h ⟨newExcel env ⟨[], none⟩, []⟩ ([] ++ (goodWorld, .saveAs (some "a.xlsx")) :: [(goodWorld, .saveAs (some "b.xlsx"))]) ?_
  refine C75_violated_always env sh ansi [] [(goodWorld, .saveAs (some "b.xlsx"))] goodWorld "a.xlsx" _ _ ⟨newExcel env ⟨[], none⟩, []⟩ rfl ?_
    ⟨(goodWorld, .saveAs (some "b.xlsx")), by simp, by simp [Asks]⟩
  rw [netRun, newBook_saves env hst]
  rfl

/-- A program that meets the hypothesis of `C75_partial`. -/
example : SavesLast [(goodWorld, .addSheet (some "a")), (goodWorld, .saveAs none), (goodWorld, .renameSheet (some "a") (some "b")), (goodWorld, .saveAs (some "a.xlsx"))] := by
  simp [SavesLast, Saves]

/-! ### C76 -/

theorem processStatus_none (s : Status) (e : Option String) : processStatus s.code e = none ↔ s = .success := by
  cases s <;> simp [processStatus, Status.code]

theorem netEnd_returns {α : Type} (f : Reply α → NetValue) (a : Reply α) : Returns (netEnd f (some a)) ↔ a.status = .success := by
  unfold Returns netEnd
  simp only
  have := processStatus_none a.status a.error
  cases h : processStatus a.status.code a.error with
  | none => simp only [NetEnd.returned.injEq, exists_eq', true_iff]; exact this.mp h
  | some km =>
    obtain ⟨k, m⟩ := km
    simp only [reduceCtorEq, exists_false, false_iff]
    intro hs
    rw [this.mpr hs] at h
    cases h

/-- **C76 as stated**: a method returns exactly when what it was asked to do was done. -/
def ThrowsRightly (env : Env) (sh : Shown) (ansi : String → String) : Prop :=
  ∀ w s c, (∀ p, c ≠ .saveAs p) → (netStep env sh ansi w ⟨s, false⟩ c).1 ≠ .processEnds →
    (Returns (netStep env sh ansi w ⟨s, false⟩ c).1 ↔ ∃ o, netRequest ansi c = some o ∧ (s.step env o).1 = .ok ())

/-- **C76 is violated**: renaming a missing sheet returns true, whatever the error texts are as long as they have no zero character. -/
theorem C76_violated (env : Env) (sh : Shown) (hz : ∀ m, '\x00' ∉ (sh.top m).toList) (ansi : String → String) (ha : ansi "missing" = "missing")
    (hb : ansi "x" = "x") : ¬ ThrowsRightly env sh ansi := by
  intro h
  have hm : marshal ansi "missing" = "missing" := by unfold marshal; rw [ha]; decide +kernel
  have hx : marshal ansi "x" = "x" := by unfold marshal; rw [hb]; decide +kernel
  obtain ⟨a, h1, h2⟩ := C58_violated_rename env sh hz ⟨newExcel env ⟨[], none⟩, []⟩ "missing" "x"
  have hstep : (Session.step env ⟨newExcel env ⟨[], none⟩, []⟩ (.rename "missing" "x")).1 = .error (.fail "Old Sheet Name not found in the stack") := by
    kernel_rfl
  have hr : (netStep env sh ansi goodWorld ⟨⟨newExcel env ⟨[], none⟩, []⟩, false⟩ (.renameSheet (some "missing") (some "x"))).1 = .returned .yes := by
    simp only [ffiStep] at h1
    simp only [netStep, Bool.false_eq_true, if_false, netLive, Option.map_some, hm, hx, h1, netEnd]
    rw [(processStatus_none a.status a.error).mpr ((code_zero a.status).mp h2)]
  obtain ⟨o, e1, e2⟩ := (h goodWorld _ (.renameSheet (some "missing") (some "x")) (by simp) (by rw [hr]; simp)).mp ⟨_, hr⟩
  simp only [netRequest, hm, hx, Option.some.injEq] at e1
  subst e1
  rw [hstep] at e2
  cases e2

/-- **C76 fails for renaming, always**: with both names given, `RenameSheet` returns true whatever happened. -/
theorem C76_violated_rename (env : Env) (sh : Shown) (hz : ∀ m, '\x00' ∉ (sh.top m).toList) (ansi : String → String) (w : World) (s : Session) (old new : String) :
    (netStep env sh ansi w ⟨s, false⟩ (.renameSheet (some old) (some new))).1 = .returned .yes := by
  obtain ⟨a, h1, h2⟩ := C58_violated_rename env sh hz s (marshal ansi old) (marshal ansi new)
  simp only [ffiStep] at h1
  simp only [netStep, Bool.false_eq_true, if_false, netLive, Option.map_some, h1, netEnd]
  rw [(processStatus_none a.status a.error).mpr ((code_zero a.status).mp h2)]

/-- **C76, what holds**: `AddSheet` and `GetWorksheet` return exactly when the sheet was opened, and then a new worksheet object with the handle just
opened; otherwise they throw `FileLoadException`, or `ArgumentException` for a null name, and the list of open handles is unchanged.
Missing from the full claim: `RenameSheet`. -/
theorem C76_partial (env : Env) (sh : Shown) (ansi : String → String) (w : World) (s : Session) (c : NetCall)
    (hc : (∃ n, c = .addSheet n) ∨ ∃ n, c = .getWorksheet n) (e : NetEnd NetValue) (x : NetExcel) (h : netStep env sh ansi w ⟨s, false⟩ c = (e, x))
    (hp : e ≠ .processEnds) :
    (Returns e ↔ ∃ o, netRequest ansi c = some o ∧ (s.step env o).1 = .ok ()) ∧
    (Returns e → e = .returned (.sheet (some s.handles.length)) ∧ ∃ hd, x.session.handles = s.handles ++ [hd]) ∧
    (¬ Returns e → (∃ m, e = .thrown (if netRequest ansi c = none then .argument else .fileLoad) m) ∧ x.session.handles = s.handles) := by
  -- both methods end the same way
  have key : ∀ (d : FfiCall) (a : Reply Nat) (s' : Session), Opens d → ffiStep env sh (some s) d = (some a, some s') →
      (a.status = .success ∨ a.status = if request d = none then .invalidArgument else .io) →
      (Returns (netEnd (fun r : Reply Nat => NetValue.sheet r.out) (some a)) ↔ ∃ o, request d = some o ∧ (s.step env o).1 = .ok ()) ∧
      (Returns (netEnd (fun r : Reply Nat => NetValue.sheet r.out) (some a)) →
        netEnd (fun r : Reply Nat => NetValue.sheet r.out) (some a) = .returned (.sheet (some s.handles.length)) ∧ ∃ hd, s'.handles = s.handles ++ [hd]) ∧
      (¬ Returns (netEnd (fun r : Reply Nat => NetValue.sheet r.out) (some a)) →
        (∃ m, netEnd (fun r : Reply Nat => NetValue.sheet r.out) (some a) = .thrown (if request d = none then .argument else .fileLoad) m) ∧
        s'.handles = s.handles) := by
    intro d a s' hd ha hk
    have hnr : ¬ IsRename d := by rcases hd with ⟨n, rfl⟩ | ⟨n, rfl⟩ <;> simp [IsRename]
    have h1 := (C58_partial env sh s d hnr a _ ha).1
    obtain ⟨h2, h3⟩ := C58_handle env sh s d hd a s' ha
    rw [code_zero] at h1 h2
    rw [ne_eq, code_zero] at h3
    rw [netEnd_returns]
    refine ⟨h1, ?_, ?_⟩
    · intro hs
      obtain ⟨hd, e1, e2⟩ := h2 hs
      refine ⟨?_, hd, e2⟩
      simp only [netEnd, (processStatus_none a.status a.error).mpr hs, e1]
    · intro hs
      refine ⟨?_, (h3 hs).2⟩
      have hk := hk.resolve_left hs
      simp only [netEnd, hk]
      by_cases hr : request d = none
      · rw [if_pos hr, if_pos hr]; exact ⟨_, rfl⟩
      · rw [if_neg hr, if_neg hr]; exact ⟨_, rfl⟩
  have hans : ∀ (r : Res Nat) (a : Reply Nat), answer sh .io r = some a → a.status = .success ∨ a.status = .io := by
    intro r a h
    match r, h with
    | .ok v, h => cases h; exact .inl rfl
    | .error (.fail m), h =>
      simp only [answer] at h
      split at h <;> (cases h; exact .inr rfl)
  simp only [netStep, Bool.false_eq_true, if_false] at h
  rcases hc with ⟨n, rfl⟩ | ⟨n, rfl⟩
  · simp only [netLive, Prod.mk.injEq] at h
    obtain ⟨h1, h2⟩ := h
    subst h1 h2
    cases ha : (ffiAdd env sh s (n.map (marshal ansi))).1 with
    | none => rw [ha] at hp; exact absurd rfl hp
    | some a =>
      refine key (.add (n.map (marshal ansi))) a _ (.inl ⟨_, rfl⟩) (by simp only [ffiStep, ha]) ?_
      have := hans _ _ ha
      simpa [request] using this
  · simp only [netLive, Prod.mk.injEq] at h
    obtain ⟨h1, h2⟩ := h
    subst h1 h2
    cases ha : (ffiGet env sh s (n.map (marshal ansi))).1 with
    | none => rw [ha] at hp; exact absurd rfl hp
    | some a =>
      have := key (.get (n.map (marshal ansi))) a (ffiGet env sh s (n.map (marshal ansi))).2 (.inr ⟨_, rfl⟩) (by simp only [ffiStep, ha]) ?_
      · cases n <;> exact this
      · cases n with
        | none => simp only [Option.map_none, ffiGet, refused] at ha; cases ha; exact .inr rfl
        | some n =>
          simp only [Option.map_some, ffiGet] at ha
          have := hans _ _ ha
          simpa [request] using this

/-- **C76 for saving**: `SaveAs` with a path returns exactly when the package was made and the disk took it. -/
theorem C76_save (env : Env) (sh : Shown) (ansi : String → String) (w : World) (s : Session) (path : String)
    (hp : (netStep env sh ansi w ⟨s, false⟩ (.saveAs (some path))).1 ≠ .processEnds) :
    Returns (netStep env sh ansi w ⟨s, false⟩ (.saveAs (some path))).1 ↔
      ∃ z, s.x.toZip env w.now w.exts = .ok z ∧ w.disk (marshal ansi path) z = .ok () := by
  simp only [netStep, Bool.false_eq_true, if_false, netLive, Option.map_some, Option.getD_some] at hp ⊢
  cases ha : ffiSaveExcel env sh w.now w.exts (w.disk (marshal ansi path)) (some s) (some (marshal ansi path)) with
  | none => rw [ha] at hp; exact absurd rfl hp
  | some a => rw [netEnd_returns, ← code_zero]; exact C58_save env sh w.now w.exts _ s _ a ha

/-- **C76 fails for saving Word and PowerPoint files**: `SaveAs` returns when the file could not be written. -/
theorem C76_violated_save (env : Env) (sh : Shown) (hz : ∀ m, '\x00' ∉ (sh.top m).toList) (ansi : String → String) (w : World) (d : OfficeDoc) (path m : String)
    (hw : written (d.toZip env w.now w.exts) (w.disk (marshal ansi path)) = .error (.fail m)) :
    netSaveDoc env sh ansi w d (some path) = .returned () := by
  obtain ⟨a, h1, h2⟩ := C58_violated_save env sh hz w.now w.exts (w.disk (marshal ansi path)) d (marshal ansi path) m hw
  simp only [netSaveDoc, Option.map_some, Option.getD_some, h1, netEnd]
  rw [(processStatus_none a.status a.error).mpr ((code_zero a.status).mp h2)]

/-- **C76 for names**: a name the platform's encoding keeps and that has no zero character arrives as it is; one with a zero character is cut
there. -/
theorem C76_names (ansi : String → String) (s : String) (h : ansi s = s) :
    marshal ansi s = String.ofList (s.toList.takeWhile (fun c => c ≠ '\x00')) ∧ (marshal ansi s = s ↔ '\x00' ∉ s.toList) := by
  have e : marshal ansi s = String.ofList (s.toList.takeWhile (fun c => c ≠ '\x00')) := by unfold marshal; rw [h]
  refine ⟨e, ?_⟩
  rw [e]
  constructor
  · intro hs hm
    have h2 : s.toList.takeWhile (fun c => c ≠ '\x00') = s.toList := by
      have := congrArg String.toList hs
      simpa using this
    have : ∀ l : List Char, l.takeWhile (fun c => c ≠ '\x00') = l → '\x00' ∉ l := by
      intro l
      induction l with
      | nil => simp
      | cons c l ih =>
        intro hl hm
        by_cases hc : c = '\x00'
        · subst hc; simp at hl
        · simp only [List.takeWhile_cons, hc, ne_eq, not_false_eq_true, decide_true, if_true, List.cons.injEq, true_and] at hl
          rcases List.mem_cons.mp hm with h | h
          · exact hc h.symm
          · exact ih (by simpa using hl) h
    exact this _ h2 hm
  · intro hm
    have : ∀ l : List Char, '\x00' ∉ l → l.takeWhile (fun c => c ≠ '\x00') = l := by
      intro l
      induction l with
      | nil => intro _; rfl
      | cons c l ih =>
        intro hl
        have hc : c ≠ '\x00' := fun e => hl (by simp [e])
        rw [List.takeWhile_cons, if_pos (by simpa using hc), ih (fun h => hl (by simp [h]))]
    rw [this _ hm]
    simp

/-- Example: a program that adds a sheet, asks for a missing argument and saves. -/
example (env : Env) (hst : env.build.release = true → StampOk env.stamp) (theme : XDoc) (sh : Shown) :
    netStep env sh id goodWorld ⟨⟨newExcel env theme, []⟩, false⟩ (.getWorksheet none) = (.thrown .argument "Unknown Error", ⟨⟨newExcel env theme, []⟩, false⟩) ∧
    netStep env sh id goodWorld ⟨⟨newExcel env theme, []⟩, false⟩ (.saveAs (some "a.xlsx")) = (.returned .nothing, ⟨⟨newExcel env theme, []⟩, true⟩) :=
  ⟨rfl, newBook_saves env hst theme sh id "a.xlsx"⟩

end Oxml
