import Verif.Proofs.CrashSave
/-!
# C93: damaged files are reported, they do not crash the program
-/
namespace Oxml
open Spec

variable {env : Env} {theme : XDoc} {z : Zip} {ops : List WbOp} {x : Excel} {s : Session} {now : String} {exts : List (String × String)}

namespace Spec

/-- The claim: neither opening a file nor any history of calls and a save ends in a crash. -/
def NeverCrashes (env : Env) (theme : XDoc) : Prop :=
  ∀ z, (akeys z).Nodup → ¬ Crashes (Excel.openFile env theme z) ∧
    ∀ x, Excel.openFile env theme z = .ok x → ∀ ops, ¬ Crashes (Session.run env ⟨x, []⟩ ops) ∧
      ∀ s now exts, Session.run env ⟨x, []⟩ ops = .ok s → ¬ Crashes (s.x.toZip env now exts)

end Spec

/-! ## Reading -/

/-- **C93, reading.** No text whatever crashes the XML reader. -/
theorem C93_reads (u : Unicode) (text : List Char) : ¬ Crashes (readXml u text) := calm_readXml u text

/-! ## Opening -/

/-- **C93, opening.** If opening a file as a workbook crashes then a content type is missing in the list of content types, the core properties have no root
element, the workbook part lies in no folder, the folder of the workbook relationships ends in a character outside ASCII, or an entry of the calculation chain
names no cell or sheet. Whatever else is wrong with the file is reported as an error. -/
theorem C93_open (hz : (akeys z).Nodup) (h : Crashes (Excel.openFile env theme z)) : UntypedPart env z ∨ RootlessCore env z ∨
    ∃ n, LeadsTo env z "_rels/.rels" workbookContent n ∧
      ('/' ∉ n.toList ∨ ∃ rp, WorkbookRels n rp ∧ (OddName rp ∨ BrokenChain env z rp)) := by
  unfold Excel.openFile at h
  split at h
  · next e he => exact Or.inl (crash_ofZip ⟨_, he.trans (congrArg _ (crash_error.mp h).choose_spec)⟩)
  · next p hp =>
    split at h
    · next e he =>
      obtain ⟨m, hm⟩ := crash_error.mp h
      rcases core_of_failed hz hp hm with h | h
      · exact Or.inr (Or.inr (crash_start hz hp ⟨m, by rw [he, h]⟩))
      · exact Or.inr (Or.inl h)
    · exact absurd h crash_ok

/-- **C93, opening documents and presentations.** Only a missing content type crashes. -/
theorem C93_open_document (h : Crashes (OfficeDoc.openFile env z)) : UntypedPart env z := by
  unfold OfficeDoc.openFile at h
  split at h
  · next e he => exact crash_ofZip ⟨_, he.trans (congrArg _ (crash_error.mp h).choose_spec)⟩
  · next p hp =>
    exfalso
    unfold OfficeDoc.start at h
    split at h
    · next e _ he => exact calm_of_eq (congrArg Prod.fst he) (calm_relNew _ _ _) h
    · next r p1 hr =>
      split at h
      · next e he =>
        have : OddName r.path := crash_openTyped ⟨_, he.trans (congrArg _ (crash_error.mp h).choose_spec)⟩
        rw [relNew_path hr] at this
        exact not_odd_root this
      · exact crash_ok h

/-! ## Calls -/

theorem ran_live (hz : (akeys z).Nodup) (hr : RanOn env theme z ops x s) : LiveSess s := by
  obtain ⟨p, o1, o2, o3, o4, o5, o6, o7, o8, r1, r2, hp, hb⟩ := openFile_book hz hr.1
  exact hb.live.run env ops hr.2

/-- **C93, calls.** After any history on a workbook opened from a file, a call crashes only for the reasons listed in `CallTrouble`; renaming, activating and
hiding sheets, view settings, dropping and deleting never crash. -/
theorem C93_calls (hz : (akeys z).Nodup) (hr : RanOn env theme z ops x s) {op : WbOp} (h : Crashes (s.step env op).1) : CallTrouble env s op :=
  crash_step (ran_live hz hr).inv h

/-- **C93, histories.** In a release build, if all listed sheets lie in folders and the folder of the workbook ends in ASCII, no history of calls crashes. -/
theorem C93_history (hb : env.build.release = true) (hz : (akeys z).Nodup) (hx : Excel.openFile env theme z = .ok x) (ho : ¬ OddName x.rels.path)
    (hf : SheetsInFolders x) (ops : List WbOp) : ∃ s, Session.run env ⟨x, []⟩ ops = .ok s :=
  calm_run hb ops (ran_live (ops := []) (s := ⟨x, []⟩) hz ⟨hx, rfl⟩) ho hf

theorem not_odd_ascii {p : String} (h : ∀ c ∈ p.toList, ¬ 128 ≤ c.val) : ¬ OddName p := by
  rintro ⟨a, c, b, e, hc⟩
  exact h c (by rw [e]; simp) hc

/-- What `Excel::new(None)` does, as calls. -/
theorem new_session (env : Env) (theme : XDoc) : ∃ x0, Excel.start env theme Pkg.empty = .ok x0 ∧ x0.sheets = [] ∧ x0.rels.path = "xl/_rels/workbook.xml.rels" ∧
    ∀ x, Excel.new env theme = .ok x → Session.run env ⟨x0, []⟩ [.add none, .drop 0] = .ok ⟨x, []⟩ := by
  have key : (Excel.start env theme Pkg.empty).toOption.map (fun x => (x.sheets, x.rels.path)) = some ([], "xl/_rels/workbook.xml.rels") := by kernel_rfl
  have key : ∃ x0, Excel.start env theme Pkg.empty = .ok x0 ∧ x0.sheets = [] ∧ x0.rels.path = "xl/_rels/workbook.xml.rels" := by
    cases he : Excel.start env theme Pkg.empty with
    | error e => rw [he] at key; cases key
    | ok x0 =>
      rw [he] at key
      have key := Option.some.inj key
      exact ⟨x0, rfl, congrArg Prod.fst key, congrArg Prod.snd key⟩
  obtain ⟨x0, h1, h2, h3⟩ := key
  refine ⟨x0, h1, h2, h3, ?_⟩
  intro x hx
  unfold Excel.new at hx
  rw [h1] at hx
  simp only at hx
  split at hx
  · cases hx
  · next h x1 he =>
    cases hx
    simp only [Session.run, Session.step, Session.open, he, List.nil_append, List.getElem?_cons_zero, List.eraseIdx_cons_zero]

theorem run_then {l2 : List WbOp} : ∀ (l1 : List WbOp) {s s' : Session}, s.run env l1 = .ok s' → s.run env (l1 ++ l2) = s'.run env l2
  | [], _, _, h => by cases h; rfl
  | op :: l1, s, s', h => by
    have h1 := run_then l1 (run_cons h) (l2 := l2)
    rw [← h1, List.cons_append, Session.run]
    unfold Session.run at h
    split at h
    · cases h
    · next r s1 hno e =>
      rw [e]

/-- **C93, new workbooks.** In a release build no history of calls on a new workbook crashes. (That saving it succeeds is C65.) -/
theorem C93_new (hb : env.build.release = true) (ops : List WbOp) : ∃ s, Ran env theme ops s := by
  obtain ⟨x0, h1, h2, h3, h4⟩ := new_session env theme
  have h5 := h4 _ (new_eq env theme)
  obtain ⟨_, _, _, _, _, _, _, _, _, _, hb0⟩ := start_book Pkg.Inv.empty rfl h1
  have ho : ¬ OddName x0.rels.path := by rw [h3]; exact not_odd_ascii (by decide +kernel)
  have hf : SheetsInFolders x0 := by intro e he; rw [h2] at he; cases he
  obtain ⟨s, hs⟩ := calm_run hb (.add none :: .drop 0 :: ops) hb0.live ho hf
  refine ⟨s, _, new_eq env theme, ?_⟩
  rw [← run_then [.add none, .drop 0] h5]
  exact hs

/-! ## Saving -/

/-- **C93, saving.** After any history on a workbook opened from a file, saving crashes exactly when the core properties of the file have no root element;
whatever else is wrong is reported as an error. -/
theorem C93_save (hz : (akeys z).Nodup) (hr : RanOn env theme z ops x s) :
    Crashes (s.x.toZip env now exts) ↔ x.core.path ≠ contentTypesName ∧ ¬ HasRoot env z x.core.path := by
  obtain ⟨p, o1, o2, o3, o4, o5, o6, o7, o8, r1, r2, hp, hb⟩ := openFile_book hz hr.1
  obtain ⟨hown, A⟩ := opened_docs hb hr.2
  rw [toZip_crash A.coreKept]
  constructor
  · intro h
    refine ⟨?_, core_rootless hp hb.coreSource h⟩
    rintro he
    rcases hb.coreSource with ⟨_, h', _⟩ | ⟨e, d, h', _⟩
    · rw [h'] at h; cases h
    · rw [he] at h'; exact ofZip_no_types hp (mem_akeys_of_aget h')
  · rintro ⟨h1, h2⟩
    refine Classical.byContradiction fun h => h2 ((source_root hp h1 hb.coreSource (fun h => by cases h)).mp h)

/-- The core properties are the part the root relationships lead to. -/
theorem C93_core (hz : (akeys z).Nodup) (hx : Excel.openFile env theme z = .ok x) : LeadsTo env z "_rels/.rels" coreContent x.core.path := by
  obtain ⟨p, o1, o2, o3, o4, o5, o6, o7, o8, r1, r2, hp, hb⟩ := openFile_book hz hx
  obtain ⟨root2, h1, _⟩ := hb.rootTargets
  exact leads_of hp (by decide +kernel) hb.rootSource hb.rootLoad rfl h1

/-- **C93, saving documents and presentations.** -/
theorem C93_save_document {d : OfficeDoc} (hz : (akeys z).Nodup) (hd : OfficeDoc.openFile env z = .ok d) :
    Crashes (d.toZip env now exts) ↔ d.core.path ≠ contentTypesName ∧ ¬ HasRoot env z d.core.path := by
  unfold OfficeDoc.openFile at hd
  split at hd
  · cases hd
  next p hp =>
  obtain ⟨orel, ocore, rels, h⟩ := start_ok (Pkg.Inv.ofZip hz hp) hd
  have hdoc : d.pkg.docOf d.core.handle = some ocore.doc := by rw [← h.coreHandle]; exact h.inv.docOf h.coreOpen
  have hroot : ocore.doc.root = none ↔ d.core.path ≠ contentTypesName ∧ ¬ HasRoot env z d.core.path := by
    constructor
    · intro hn
      refine ⟨?_, core_rootless hp h.coreSource hn⟩
      rintro he
      rcases h.coreSource with ⟨_, h', _⟩ | ⟨e, _, h', _⟩
      · rw [h'] at hn; cases hn
      · rw [he] at h'; exact ofZip_no_types hp (mem_akeys_of_aget h')
    · rintro ⟨h1, h2⟩
      refine Classical.byContradiction fun hn => h2 ((source_root hp h1 h.coreSource (fun h => by cases h)).mp hn)
  rw [← hroot, ← saveCore_crash (a := now) (b := now)]
  have hc : Crashes (d.closeCore env now).1 ↔ Crashes (saveCore now now ocore.doc) := by
    unfold OfficeDoc.closeCore
    rw [hdoc]
    simp only
    split
    · next e he => rw [he]; exact crash_cast
    · next d' he => rw [he]; exact ⟨fun h => absurd h crash_ok, fun h => absurd h crash_ok⟩
  rw [← hc]
  unfold OfficeDoc.toZip OfficeDoc.saved
  cases hcc : d.closeCore env now with
  | mk r d1 =>
    cases r with
    | error e => exact crash_cast
    | ok _ =>
      simp only
      refine ⟨fun hcr => ?_, fun h => absurd h crash_ok⟩
      exfalso
      cases hrc : (d1.closeCore env now).2.rootRels.close env (d1.closeCore env now).2.pkg with
      | mk r p3 =>
        rw [hrc] at hcr
        cases r with
        | error e => exact calm_of_eq (congrArg Prod.fst hrc) (calm_relClose _ _ _) hcr
        | ok _ =>
          simp only at hcr
          unfold Pkg.toZip at hcr
          split at hcr
          · exact crash_fail hcr
          · exact crash_ok hcr

/-! ## The files that crash the program -/

/-- The call crashed, computed. -/
def crashed {α : Type} : Res α → Bool
  | .error (.panic _) => true
  | _ => false

theorem crashed_sound {α : Type} {r : Res α} (h : crashed r = true) : Crashes r := by
  unfold crashed at h
  split at h
  · exact ⟨_, rfl⟩
  · cases h

/-- The example workbook with one part replaced or added. -/
def exWith (n : String) (t : List Char) : Zip := (n, t) :: exBook.filter (fun e => e.1 ≠ n)

/-- Root relationships leading to the workbook. -/
def exRoot (target : List Char) : List Char :=
  "<Relationships><Relationship Id=\"rId1\" Type=\"".toList ++ workbookContent.type.toList ++ "\" Target=\"".toList ++ target ++ "\"/></Relationships>".toList

/-- A content type is missing. -/
def exUntyped : Zip := exWith contentTypesName "<Types><Override PartName=\"/xl/workbook.xml\"/></Types>".toList

/-- The core properties are empty. -/
def exRootless : Zip := exWith "docProps/core.xml" []

/-- The core properties are empty and a relationship of the workbook has no target. -/
def exRootlessToo : Zip := ("xl/_rels/workbook.xml.rels", "<Relationships><Relationship Id=\"rId1\"/></Relationships>".toList) ::
  exRootless.filter (fun e => e.1 ≠ "xl/_rels/workbook.xml.rels")

/-- The workbook lies in no folder. -/
def exFlat : Zip := exWith "_rels/.rels" (exRoot "workbook.xml".toList)

/-- An entry of the calculation chain names no cell. -/
def exChain : Zip := exWith "xl/calcChain.xml" "<calcChain><c i=\"1\"/></calcChain>".toList

/-- The folder of the workbook is called `é_rels`. -/
def exFolder : Zip := ("é_rels/_rels/workbook.xml.rels", "<Relationships><Relationship Id=\"rId1\" Target=\"t\" Type=\"".toList ++ themeContent.type.toList ++
  "\"/></Relationships>".toList) :: exWith "_rels/.rels" (exRoot "é_rels/workbook.xml".toList)

/-- A sheet lies in no folder. -/
def exTop : Zip :=
  exWith "xl/_rels/workbook.xml.rels" "<Relationships><Relationship Id=\"rId1\" Type=\"w\" Target=\"/sheet1.xml\"/></Relationships>".toList

/-- **C93 is violated.** Each of these files crashes the program when it is opened, in every build. -/
theorem C93_violated_open (env : Env) (theme : XDoc) : ∀ z ∈ [exUntyped, exRootlessToo, exFlat, exChain, exFolder],
    (akeys z).Nodup ∧ Crashes (Excel.openFile env theme z) := by
  intro z hz
  refine ⟨?_, ?_⟩
  · have : ∀ z ∈ [exUntyped, exRootlessToo, exFlat, exChain, exFolder], (akeys z).Nodup := by decide +kernel
    exact this z hz
  · simp only [List.mem_cons, List.not_mem_nil, or_false] at hz
    rcases hz with rfl | rfl | rfl | rfl | rfl
    · exact crashed_sound (by kernel_rfl)
    · exact crashed_sound (by kernel_rfl)
    · exact crashed_sound (by kernel_rfl)
    · exact crashed_sound (by kernel_rfl)
    · exact crashed_sound (by kernel_rfl)

/-- **C93 is violated.** This file opens, and asking for its sheet crashes. -/
theorem C93_violated_call (env : Env) (theme : XDoc) : (akeys exTop).Nodup ∧
    ∃ x, Excel.openFile env theme exTop = .ok x ∧ Crashes (Session.run env ⟨x, []⟩ [.get "A"]) := by
  have h : (Excel.openFile env theme exTop).toOption.map (fun x => crashed (Session.run env ⟨x, []⟩ [.get "A"])) = some true := by kernel_rfl
  refine ⟨by decide +kernel, ?_⟩
  cases he : Excel.openFile env theme exTop with
  | error e => rw [he] at h; cases h
  | ok x => rw [he] at h; exact ⟨x, rfl, crashed_sound (Option.some.inj h)⟩

/-- **C93 is violated.** This file opens, and saving it crashes. -/
theorem C93_violated_save (env : Env) (theme : XDoc) (now : String) (exts : List (String × String)) : (akeys exRootless).Nodup ∧
    ∃ x, Excel.openFile env theme exRootless = .ok x ∧ Crashes (x.toZip env now exts) := by
  have h : (Excel.openFile env theme exRootless).toOption.map (fun x => x.core.path) = some "docProps/core.xml" := by kernel_rfl
  have hz : (akeys exRootless).Nodup := by decide +kernel
  refine ⟨hz, ?_⟩
  cases he : Excel.openFile env theme exRootless with
  | error e => rw [he] at h; cases h
  | ok x =>
    rw [he] at h
    have hc : x.core.path = "docProps/core.xml" := Option.some.inj h
    refine ⟨x, rfl, (C93_save (ops := []) (s := ⟨x, []⟩) hz ⟨he, rfl⟩).mpr ?_⟩
    rw [hc]
    refine ⟨by decide +kernel, fun hr => ?_⟩
    have hd : zipDoc env exRootless "docProps/core.xml" = some ⟨[], none⟩ := by kernel_rfl
    exact hr _ hd rfl

/-- **C93 is violated.** -/
theorem C93_violated (env : Env) (theme : XDoc) : ¬ NeverCrashes env theme := by
  intro h
  obtain ⟨h1, x, h2, h3⟩ := C93_violated_call env theme
  exact ((h _ h1).2 x h2 _).1 h3

/-! ## The theorems apply -/

/-- The example workbook opens; its sheets lie in folders. -/
theorem exBook_calm (env : Env) (theme : XDoc) : ∃ x, Excel.openFile env theme exBook = .ok x ∧ ¬ OddName x.rels.path ∧ SheetsInFolders x ∧
    x.core.path ≠ contentTypesName ∧ HasRoot env exBook x.core.path := by
  have h : (Excel.openFile env theme exBook).toOption.map (fun x => (x.rels.path, x.core.path, x.rels.rels.map (fun r => r.target), x.sheets.length)) =
      some ("xl/_rels/workbook.xml.rels", "docProps/core.xml", ["worksheets/sheet1.xml", "worksheets/sheet2.xml", "/xl/theme/theme1.xml", "/xl/sharedStrings.xml",
        "/xl/calcChain.xml", "/xl/styles.xml"], 2) := by kernel_rfl
  cases he : Excel.openFile env theme exBook with
  | error e => rw [he] at h; cases h
  | ok x =>
    rw [he] at h
    have h := Option.some.inj h
    have h1 : x.rels.path = "xl/_rels/workbook.xml.rels" := congrArg Prod.fst h
    have h2 : x.core.path = "docProps/core.xml" := congrArg (fun p => p.2.1) h
    have h3 : x.rels.rels.map (fun r => r.target) = _ := congrArg (fun p => p.2.2.1) h
    refine ⟨x, rfl, by rw [h1]; exact not_odd_ascii (by decide +kernel), ?_, by rw [h2]; decide +kernel, ?_⟩
    · intro e _ r hr _ n hn
      have hm : r.target ∈ x.rels.rels.map (fun r => r.target) := List.mem_map.mpr ⟨r, hr, rfl⟩
      rw [h3] at hm
      rw [h1] at hn
      generalize r.target = t at hm hn
      have all : ∀ t ∈ ["worksheets/sheet1.xml", "worksheets/sheet2.xml", "/xl/theme/theme1.xml", "/xl/sharedStrings.xml", "/xl/calcChain.xml", "/xl/styles.xml"],
          (resolveTarget "xl/_rels/workbook.xml.rels" t).toOption.any (fun n => '/' ∈ n.toList) = true := by decide +kernel
      have := all t hm
      rw [hn] at this
      simpa [Except.toOption] using this
    · rw [h2]
      intro d hd
      have : zipDoc env exBook "docProps/core.xml" = none := by kernel_rfl
      rw [this] at hd
      cases hd

/-- A release build, for examples. -/
def exRelease : Env := { exEnv with build := ⟨true⟩ }

/-- The hypotheses of C93_history hold of the example workbook; any history runs, and saving after it does not crash. -/
example (ops : List WbOp) : ∃ x s, Excel.openFile exRelease exTheme exBook = .ok x ∧ Session.run exRelease ⟨x, []⟩ ops = .ok s ∧
    ¬ Crashes (s.x.toZip exRelease "now" exExts) := by
  obtain ⟨x, h1, h2, h3, h4, h5⟩ := exBook_calm exRelease exTheme
  obtain ⟨s, hs⟩ := C93_history rfl (by decide +kernel) h1 h2 h3 ops
  exact ⟨x, s, h1, hs, fun h => ((C93_save (by decide +kernel) ⟨h1, hs⟩).mp h).2 h5⟩

/-- A document whose core properties are empty. -/
example : ∃ d, OfficeDoc.openFile exEnv exRootless = .ok d ∧ Crashes (d.toZip exEnv "now" exExts) := by
  have h : (OfficeDoc.openFile exEnv exRootless).toOption.map (fun d => crashed (d.toZip exEnv "now" exExts)) = some true := by decide +kernel
  cases he : OfficeDoc.openFile exEnv exRootless with
  | error e => rw [he] at h; cases h
  | ok d => rw [he] at h; exact ⟨d, rfl, crashed_sound (Option.some.inj h)⟩

/-- A document without a content type. -/
example : Crashes (OfficeDoc.openFile exEnv exUntyped) := crashed_sound (by decide +kernel)

/-- A cell far outside the sheet. -/
def exFar : Zip := exWith "xl/worksheets/sheet1.xml" "<worksheet><sheetData><row r=\"1\"><c r=\"ZZZZ1\"/></row></sheetData></worksheet>".toList

/-- Calls that crash a checked build: a cell left of the first column, and a sheet with a cell called `ZZZZ1`. -/
example : ∃ x, Excel.openFile exEnv exTheme exFar = .ok x ∧
    Crashes (Session.step exEnv ⟨x, []⟩ (.get "A")).1 ∧ Crashes (Session.run exEnv ⟨x, []⟩ [.get "B", .sheet 0 (.write 1 0 [{ value := some "a" }])]) := by
  have h : (Excel.openFile exEnv exTheme exFar).toOption.map
      (fun x => crashed (Session.step exEnv ⟨x, []⟩ (.get "A")).1 && crashed (Session.run exEnv ⟨x, []⟩ [.get "B", .sheet 0 (.write 1 0 [{ value := some "a" }])])) =
      some true := by decide +kernel
  cases he : Excel.openFile exEnv exTheme exFar with
  | error e => rw [he] at h; cases h
  | ok x =>
    rw [he] at h
    have h := Bool.and_eq_true_iff.mp (Option.some.inj h)
    exact ⟨x, rfl, crashed_sound h.1, crashed_sound h.2⟩

end Oxml
