import Verif.Props.Handles -- only to build one after the other: both need much memory
import Verif.Props.DropOrder -- only to build one after the other: both need much memory
import Verif.Props.SheetRefused -- only to build one after the other: both need much memory
import Verif.Props.StyledCells -- only to build one after the other: both need much memory
import Verif.Props.ExistingSaves -- only to build one after the other: both need much memory
import Verif.Proofs.CycleFile
import Verif.Props.ExistingData
/-!
# C97: opening and saving again
-/
namespace Oxml
open Spec

section
variable {env : Env} {theme : XDoc} {z z1 : Zip} {ops : List WbOp} {x : Excel} {s : Session} {now : String} {exts : List (String × String)}

/-- **C97, what holds.** A file the library saved, opened and saved again any number of times, keeps relationships, theme, strings,
calculation chain and styles as they read, every other part to the letter, and the core properties but for the time of the last change. In the
workbook part the flag for showing sheet tabs is turned around each time, and nothing else changes. -/
theorem C97_partial (hst : env.build.release = true → StampOk env.stamp) (hz : (akeys z).Nodup) (hr : RanOn env theme z ops x s) (ht : TidyParts env z x)
    (hp : PlainRels x) (hf : SizesFit ops) (hth : GoodTheme env theme) (hc1 : HasContent env z x.theme.path) (hc2 : HasContent env z x.core.path)
    (hexts : ∀ q, s.x.saved env now = .ok q → HashSetOrder q.extPairs exts) (hs : s.x.toZip env now exts = .ok z1)
    (h6 : s.x.strings.data ≠ []) (h7 : s.x.chain.data ≠ []) (hu : UprightFonts s.x.styles.data) (htr : TrimmedTexts s.x.strings.data)
    (hpl : PlainParts env z1 x) (hcs : CoreStamped env z1 x) {k : Nat} {zk : Zip} (hk : Resaved env theme k z1 zk) :
    (∀ n ∈ ownParts x, n ≠ x.book.path → n ≠ x.core.path → ∃ d, zipDoc env z1 n = some d ∧ zipDoc env zk n = some d) ∧
    (∃ d, zipDoc env z1 x.book.path = some d ∧ zipDoc env zk x.book.path = some (iterate flipTabs k d)) ∧
    (∃ d d', zipDoc env z1 x.core.path = some d ∧ zipDoc env zk x.core.path = some d' ∧ blankModified d' = blankModified d) ∧
    ∀ n, n ≠ contentTypesName → n ∉ ownParts x → aget n zk = aget n z1 := by
  obtain ⟨c, d, g1, g2⟩ := hth.read
  obtain ⟨t, a, cs, hroot⟩ := hth.tidy.root
  have hw : WfRoot env.uni theme := by
    subst g2
    exact ⟨t, a, cs, (Reachable.read g1).wf hroot hth.tidy.uris⟩
  obtain ⟨h, _⟩ := again_times hst hw hth.content ⟨hz, hr, ht, hp, hf, hc1, hc2, hexts, hs, h6, h7, hu, htr, hpl, hcs⟩ hk
  exact ⟨h.own, h.book, h.core, h.others⟩

theorem flipFlag_thrice (kv : String × String) : flipFlag (flipFlag (flipFlag kv)) = flipFlag kv := by
  unfold flipFlag
  by_cases h : kv.1 = "showSheetTabs"
  · by_cases h1 : kv.2 = "1"
    · simp [h, h1]
    · simp [h, h1]
  · simp [h]

theorem flipChild_thrice (n : Node) : flipChild (flipChild (flipChild n)) = flipChild n := by
  have e : ∀ m : Node, flipChild m = if m.tag = "bookViews" then m.withChildren (m.children.map flipView) else m := fun _ => rfl
  by_cases h : n.tag = "bookViews"
  · obtain ⟨t, a, v, cs⟩ := n
    have h : t = "bookViews" := h
    subst h
    show Node.mk "bookViews" a v (((cs.map flipView).map flipView).map flipView) = .mk "bookViews" a v (cs.map flipView)
    rw [List.map_map, List.map_map]
    congr 1
    apply List.map_congr_left
    rintro ⟨t, a, v, cs⟩ _
    simp only [Function.comp_apply, flipView, Option.map_map]
    congr 1
    cases a with
    | none => rfl
    | some a =>
      simp only [Option.map_some, Function.comp_apply, List.map_map]
      congr 1
      apply List.map_congr_left
      intro kv _
      exact flipFlag_thrice kv
  · have h1 : flipChild n = n := by rw [e, if_neg h]
    rw [h1, h1, h1]

theorem flipTabs_thrice (d : XDoc) : flipTabs (flipTabs (flipTabs d)) = flipTabs d := by
  obtain ⟨ns, root⟩ := d
  cases root with
  | none => rfl
  | some r =>
    obtain ⟨t, a, v, cs⟩ := r
    rw [flipTabs_mk, flipTabs_mk, flipTabs_mk, List.map_map, List.map_map]
    congr 4
    funext n
    exact flipChild_thrice n

/-- **C97.** From the second save on the workbook part is back after every second time. -/
theorem C97_alternates_partial (hst : env.build.release = true → StampOk env.stamp) (hz : (akeys z).Nodup) (hr : RanOn env theme z ops x s) (ht : TidyParts env z x)
    (hp : PlainRels x) (hf : SizesFit ops) (hth : GoodTheme env theme) (hc1 : HasContent env z x.theme.path) (hc2 : HasContent env z x.core.path)
    (hexts : ∀ q, s.x.saved env now = .ok q → HashSetOrder q.extPairs exts) (hs : s.x.toZip env now exts = .ok z1)
    (h6 : s.x.strings.data ≠ []) (h7 : s.x.chain.data ≠ []) (hu : UprightFonts s.x.styles.data) (htr : TrimmedTexts s.x.strings.data)
    (hpl : PlainParts env z1 x) (hcs : CoreStamped env z1 x) {k : Nat} {zk zk' : Zip} (hk : Resaved env theme (k + 1) z1 zk)
    (hk' : Resaved env theme (k + 3) z1 zk') : ∃ d, zipDoc env zk x.book.path = some d ∧ zipDoc env zk' x.book.path = some d := by
  obtain ⟨_, ⟨d, h1, h2⟩, _⟩ := C97_partial hst hz hr ht hp hf hth hc1 hc2 hexts hs h6 h7 hu htr hpl hcs hk
  obtain ⟨_, ⟨d', h3, h4⟩, _⟩ := C97_partial hst hz hr ht hp hf hth hc1 hc2 hexts hs h6 h7 hu htr hpl hcs hk'
  rw [h1] at h3
  cases h3
  refine ⟨_, h2, ?_⟩
  rw [h4]
  exact congrArg some (flipTabs_thrice (iterate flipTabs k d))

/-- The views of a workbook document, with their attributes. -/
def viewFlags (d : XDoc) : List (Option String) :=
  (d.rootChildren.filter (fun n => n.tag = "bookViews")).flatMap (fun n => n.children.map (fun w => w.attr? "showSheetTabs"))

theorem viewFlags_flip (d : XDoc) : viewFlags (flipTabs d) = (viewFlags d).map (fun o => o.map (fun v => if v = "1" then "0" else "1")) := by
  obtain ⟨ns, root⟩ := d
  cases root with
  | none => rfl
  | some r =>
    obtain ⟨t, a, v, cs⟩ := r
    rw [flipTabs_mk]
    unfold viewFlags
    show ((cs.map flipChild).filter _).flatMap _ = ((cs.filter _).flatMap _).map _
    induction cs with
    | nil => rfl
    | cons c cs ih =>
      by_cases h : c.tag = "bookViews"
      · rw [List.map_cons, List.filter_cons_of_pos (by rw [flipChild_tag]; exact decide_eq_true h), List.filter_cons_of_pos (by simpa using h),
          List.flatMap_cons, List.flatMap_cons, List.map_append, ih]
        congr 1
        obtain ⟨t, a, v, ks⟩ := c
        have h : t = "bookViews" := h
        subst h
        show ((ks.map flipView).map _) = (ks.map _).map _
        rw [List.map_map, List.map_map]
        apply List.map_congr_left
        rintro ⟨t, a, v, ks⟩ hmem
        clear hmem
        simp only [Function.comp_apply, flipView, Node.attr?, Node.attrs]
        cases a with
        | none => rfl
        | some a =>
          simp only [Option.map_some]
          induction a with
          | nil => rfl
          | cons kv a ih =>
            obtain ⟨k, v⟩ := kv
            by_cases hk : k = "showSheetTabs"
            · subst hk
              simp [flipFlag, aget]
            · simp only [List.map_cons, flipFlag, hk, if_false]
              simpa [aget, hk] using ih
      · rw [List.map_cons, List.filter_cons_of_neg (by rw [flipChild_tag]; simpa using h), List.filter_cons_of_neg (by simpa using h)]
        exact ih

/-- **C97 fails wherever the workbook has a view.** One opening and saving turns the flag of every view around: sheet tabs that were shown
are hidden, and hidden ones are shown. -/
theorem C97_tabs (hst : env.build.release = true → StampOk env.stamp) (hz : (akeys z).Nodup) (hr : RanOn env theme z ops x s) (ht : TidyParts env z x)
    (hp : PlainRels x) (hf : SizesFit ops) (hth : GoodTheme env theme) (hc1 : HasContent env z x.theme.path) (hc2 : HasContent env z x.core.path)
    (hexts : ∀ q, s.x.saved env now = .ok q → HashSetOrder q.extPairs exts) (hs : s.x.toZip env now exts = .ok z1)
    (h6 : s.x.strings.data ≠ []) (h7 : s.x.chain.data ≠ []) (hu : UprightFonts s.x.styles.data) (htr : TrimmedTexts s.x.strings.data)
    (hpl : PlainParts env z1 x) (hcs : CoreStamped env z1 x) {z2 : Zip} (hk : Resaves env theme z1 z2) :
    ∃ d d', zipDoc env z1 x.book.path = some d ∧ zipDoc env z2 x.book.path = some d' ∧
      viewFlags d' = (viewFlags d).map (fun o => o.map (fun v => if v = "1" then "0" else "1")) := by
  obtain ⟨_, ⟨d, h1, h2⟩, _⟩ := C97_partial hst hz hr ht hp hf hth hc1 hc2 hexts hs h6 h7 hu htr hpl hcs (.succ (.zero z1) hk)
  exact ⟨d, _, h1, h2, viewFlags_flip d⟩

end

/-! ## A file that meets the hypotheses -/

/-- No special character, computed. -/
def plainB (t : String) : Bool := t.toList.all (fun c => c != '<' && c != '>' && c != '&' && c != '\'' && c != '"')

theorem plainB_sound {t : String} (h : plainB t = true) : NoSpecials t := by
  simp only [plainB, List.all_eq_true, Bool.and_eq_true, bne_iff_ne] at h
  intro c hc
  obtain ⟨⟨⟨⟨a, b⟩, c'⟩, d⟩, e⟩ := h c hc
  exact ⟨a, b, c', d, e⟩

mutual
/-- No special character in attribute values, computed. -/
def plainNodeB : Node → Bool
  | .mk _ attrs _ cs => (attrs.getD []).all (fun kv => plainB kv.2) && plainNodesB cs
def plainNodesB : List Node → Bool
  | [] => true
  | c :: cs => plainNodeB c && plainNodesB cs
end

mutual
theorem plainNodeB_sound : ∀ n : Node, plainNodeB n = true → PlainNode n
  | .mk t a v cs, h => by
    rw [plainNodeB, Bool.and_eq_true, List.all_eq_true] at h
    rw [PlainNode]
    exact ⟨fun kv hkv => plainB_sound (h.1 kv hkv), plainNodesB_sound cs h.2⟩
theorem plainNodesB_sound : ∀ l : List Node, plainNodesB l = true → PlainNodes l
  | [], _ => trivial
  | c :: cs, h => by
    rw [plainNodesB, Bool.and_eq_true] at h
    rw [PlainNodes]
    exact ⟨plainNodeB_sound c h.1, plainNodesB_sound cs h.2⟩
end

/-- A workbook file with a view that shows sheet tabs, strings and a chain. -/
def exCycle : Zip :=
  exBook.map (fun e => if e.1 = "xl/workbook.xml" then (e.1, ("<workbook><bookViews><workbookView showSheetTabs=\"1\" activeTab=\"1\"/></bookViews>" ++
      "<sheets><sheet name=\"A\" sheetId=\"1\" r:id=\"rId1\"/><sheet name=\"B\" sheetId=\"2\" r:id=\"rId2\"/></sheets></workbook>").toList) else e) ++
    [("xl/sharedStrings.xml", "<sst><si><t>plain</t></si><si><t>text</t></si></sst>".toList),
     ("xl/calcChain.xml", "<calcChain><c r=\"A1\" i=\"1\"/></calcChain>".toList)]

/-- The extension pairs when it is saved once more. -/
def exLater : List (String × String) := [("rels", "r"), ("xml", "x"), ("png", "p")]

/-- What the examples need to know about the saved file, computed. -/
def cycleCheck (x : Excel) (z1 : Zip) : Bool :=
  (ownParts x).all (fun n => match zipDoc exEnv z1 n with
    | some d => match d.root with | some r => plainNodeB r | none => false
    | none => false) &&
  (match zipDoc exEnv z1 x.core.path with
    | some d => match d.root with
      | some r => decide (r.tag = "cp:coreProperties") && r.children.all (fun n => decide (n.tag = "dcterms:created" → n.value ≠ none))
      | none => false
    | none => false) &&
  x.styles.data.fonts.all (fun f => decide (f.italic = false ∧ f.underline = false)) &&
  x.strings.data.all (fun t => decide (trimXml t.toList = t.toList)) && decide (x.strings.data = ["plain", "text"]) && decide (x.chain.data ≠ []) &&
  (match Excel.openFile exEnv exTheme z1 with
    | .ok x1 => match x1.toZip exEnv "later" exLater with
      | .ok z2 => decide ((zipDoc exEnv z1 x.book.path).map viewFlags = some [some "0"]) && decide ((zipDoc exEnv z2 x.book.path).map viewFlags = some [some "1"]) &&
        (match x1.saved exEnv "later" with | .ok q => q.extPairs.all (fun e => exLater.contains e) && exLater.all (fun e => q.extPairs.contains e) | .error _ => true)
      | .error _ => false
    | .error _ => false)

theorem cycleCheck_sound {x : Excel} {z1 : Zip} (h : cycleCheck x z1 = true) : PlainParts exEnv z1 x ∧ CoreStamped exEnv z1 x ∧ UprightFonts x.styles.data ∧
    TrimmedTexts x.strings.data ∧ x.strings.data = ["plain", "text"] ∧ x.chain.data ≠ [] ∧ ∃ z2, Resaves exEnv exTheme z1 z2 ∧
      (zipDoc exEnv z1 x.book.path).map viewFlags = some [some "0"] ∧ (zipDoc exEnv z2 x.book.path).map viewFlags = some [some "1"] := by
  unfold cycleCheck at h
  simp only [Bool.and_eq_true] at h
  obtain ⟨⟨⟨⟨⟨⟨h1, h2⟩, h3⟩, h4⟩, h5⟩, h6⟩, h7⟩ := h
  refine ⟨?_, ?_, ?_, ?_, of_decide_eq_true h5, of_decide_eq_true h6, ?_⟩
  · intro n hn
    have := List.all_eq_true.mp h1 n hn
    split at this
    · next d e =>
      split at this
      · next r e' => exact ⟨d, r, e, e', plainNodeB_sound r this⟩
      · cases this
    · cases this
  · split at h2
    · next d e =>
      split at h2
      · next r e' =>
        rw [Bool.and_eq_true, List.all_eq_true] at h2
        exact ⟨d, r, e, e', of_decide_eq_true h2.1, fun n hn => of_decide_eq_true (h2.2 n hn)⟩
      · cases h2
    · cases h2
  · intro f hf; exact of_decide_eq_true (List.all_eq_true.mp h3 f hf)
  · intro t ht; exact of_decide_eq_true (List.all_eq_true.mp h4 t ht)
  · split at h7
    · next x1 e1 =>
      split at h7
      · next z2 e2 =>
        simp only [Bool.and_eq_true] at h7
        refine ⟨z2, ⟨x1, "later", exLater, e1, ?_, e2⟩, of_decide_eq_true h7.1.1, of_decide_eq_true h7.1.2⟩
        intro q hq
        have h8 := h7.2
        rw [hq] at h8
        simp only [Bool.and_eq_true, List.all_eq_true, List.contains_iff_mem] at h8
        exact ⟨by decide, fun e => ⟨h8.2 e, h8.1 e⟩⟩
      · cases h7
    · cases h7

theorem exCycle_saved : ∃ x z1, Excel.openFile exEnv exTheme exCycle = .ok x ∧ x.toZip exEnv "now" exExts = .ok z1 ∧ exFacts exCycle x = true ∧
    cycleCheck x z1 = true := opensSaves_sound (by decide +kernel)

/-- The hypotheses of C97 hold for a file with two sheets, a view, strings and a chain, which can be opened and saved again. -/
example : ∃ x z1 z2, (akeys exCycle).Nodup ∧ RanOn exEnv exTheme exCycle [] x ⟨x, []⟩ ∧ TidyParts exEnv exCycle x ∧ PlainRels x ∧ SizesFit [] ∧
    HasContent exEnv exCycle x.theme.path ∧ HasContent exEnv exCycle x.core.path ∧ (∀ q, x.saved exEnv "now" = .ok q → HashSetOrder q.extPairs exExts) ∧
    x.toZip exEnv "now" exExts = .ok z1 ∧ x.strings.data ≠ [] ∧ x.chain.data ≠ [] ∧ UprightFonts x.styles.data ∧ TrimmedTexts x.strings.data ∧
    PlainParts exEnv z1 x ∧ CoreStamped exEnv z1 x ∧ Resaved exEnv exTheme 1 z1 z2 := by
  obtain ⟨x, z1, h1, hs, h2, h3⟩ := exCycle_saved
  obtain ⟨f1, f2, f3, f4, f5⟩ := exFacts_sound h2
  obtain ⟨c1, c2, c3, c4, c5, c6, z2, c7, _⟩ := cycleCheck_sound h3
  exact ⟨x, z1, z2, by decide +kernel, ⟨h1, rfl⟩, f1, f2, (fun _ _ h => by cases h), f3, f4, f5, hs, (by rw [c5]; intro h; cases h), c6, c3, c4, c1, c2, .succ (.zero _) c7⟩

/-- **C97 as stated.** A file saved by the library, opened and saved again, has the same workbook part. -/
def StaysPut (env : Env) (theme : XDoc) : Prop :=
  ∀ z z1 z2 ops x s now exts, (akeys z).Nodup → RanOn env theme z ops x s → TidyParts env z x → PlainRels x → SizesFit ops →
    HasContent env z x.theme.path → HasContent env z x.core.path → (∀ q, s.x.saved env now = .ok q → HashSetOrder q.extPairs exts) →
    s.x.toZip env now exts = .ok z1 → PlainParts env z1 x → Resaves env theme z1 z2 → zipDoc env z2 x.book.path = zipDoc env z1 x.book.path

/-- **C97 is violated**: sheet tabs hidden in the saved file are shown after opening it and saving it again. -/
theorem C97_violated : ¬ StaysPut exEnv exTheme := by
  intro h
  obtain ⟨x, z1, h1, hs, h2, h3⟩ := exCycle_saved
  obtain ⟨f1, f2, f3, f4, f5⟩ := exFacts_sound h2
  obtain ⟨c1, c2, c3, c4, c5, c6, z2, c7, c8, c9⟩ := cycleCheck_sound h3
  have := h exCycle z1 z2 [] x ⟨x, []⟩ "now" exExts (by decide +kernel) ⟨h1, rfl⟩ f1 f2 (fun _ _ h => by cases h) f3 f4 f5 hs c1 c7
  rw [this, c8] at c9
  exact absurd c9 (by decide)

end Oxml
