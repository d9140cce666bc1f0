import Verif.Proofs.ExistingDead
import Verif.Proofs.Crash
import Verif.Props.ExistingData
/-!
# C83: which files do not open again
-/
namespace Oxml
open Spec

section
variable {env : Env} {theme : XDoc} {z z' : Zip} {ops : List WbOp} {x : Excel} {s : Session} {now : String} {exts : List (String × String)}

/-- **C83 fails for every workbook without formulas.** If the file has no calculation chain, whatever is done to the workbook, the saved
file cannot be opened by the library. -/
theorem C83_violated_always (hst : env.build.release = true → StampOk env.stamp) (hz : (akeys z).Nodup) (hr : RanOn env theme z ops x s) (ht : TidyParts env z x)
    (hp : PlainRels x) (hno : aget "xl/calcChain.xml" z = none) (hrel : ∀ d, zipDoc env z x.rels.path = some d → firstOfType d calcChainContent.type = none)
    (hs : s.x.toZip env now exts = .ok z') (theme' : XDoc) (x' : Excel) : Excel.openFile env theme' z' ≠ .ok x' := by
  obtain ⟨p, o1, o2, o3, o4, o5, o6, o7, o8, r1, r2, hpz, hb⟩ := openFile_book hz hr.1
  obtain ⟨_, _, _, _, _, _, _, _, _, _, _, _, _, _, _, _, _, _, _, _, _, _, _, _, _, _, _, hct⟩ := saved_base hz hr hs
  have hn4 : x.rels.path ∈ ownParts x := by simp [ownParts]
  have hn7 : x.chain.path ∈ ownParts x := by simp [ownParts]
  have hf := find_loaded (ty := calcChainContent.type) hb.relLoad
  have hfirst : firstOfType o4.doc calcChainContent.type = none := by
    rcases source_zip hpz (hct _ hn4) hb.relSource with ⟨_, h2⟩ | ⟨c, d, g1, g2, g3⟩
    · rw [h2]; rfl
    · rw [g3]; exact hrel _ (zipDoc_eq g1 g2)
  have hfirst' : (o4.doc.popTag "Relationship").1.find? (fun n => n.attr? "Type" = some calcChainContent.type) = none := hfirst
  rw [hfirst'] at hf
  simp only at hf
  obtain ⟨R2, R3, R4, t5, t6, t7, t8⟩ := hb.targets
  have h3 : R3.find? (fun r => r.type = calcChainContent.type) = none := by
    rw [find_after (by decide +kernel) t6, find_after (by decide +kernel) t5]; exact hf
  have hx : x.chain.path = partPath calcChainContent none none ∧ R4 = (newRel R3 calcChainContent none none).1 := by
    unfold targetByType at t7
    rw [h3] at t7
    simp only [Prod.mk.injEq, Except.ok.injEq] at t7
    exact ⟨t7.1.symm, t7.2.symm⟩
  have hpath : partPath calcChainContent none none = "xl/calcChain.xml" := by decide +kernel
  have hchain : x.chain.data = [] := by
    have hl := hb.calcLoad
    rcases source_zip hpz (hct _ hn7) hb.calcSource with ⟨_, h2⟩ | ⟨c, d, g1, _, _⟩
    · rw [h2] at hl
      exact (Except.ok.inj hl).symm
    · rw [hx.1, hpath, hno] at g1; cases g1
  obtain ⟨m8, em8, h8⟩ := targetByType_adds t8
  refine dead_chain hst hz hr ht hp hs (by rw [run_chain (s := ⟨x, []⟩) hr.2]; exact hchain) ?_ hx.1 ?_ theme' x'
  · intro d hd
    obtain ⟨c, _, h, _⟩ := of_zipDoc hd
    rw [hx.1, hpath, hno] at h; cases h
  · intro r hr' htype
    rw [em8, hx.2] at hr'
    rcases List.mem_append.mp hr' with hr' | hr'
    · rcases List.mem_append.mp hr' with hr' | hr'
      · exact absurd (decide_eq_true htype) (by simpa using List.find?_eq_none.mp h3 r hr')
      · rw [List.mem_singleton] at hr'
        subst hr'
        obtain ⟨dir, hd, _⟩ := hp.dir
        rw [hx.1]
        unfold resolveTarget
        rw [hd]
        have e : ("/" ++ partPath calcChainContent none none).toList = '/' :: (partPath calcChainContent none none).toList := by
          rw [String.toList_append]; rfl
        simp only [e, String.ofList_toList]
    · rw [h8 r hr'] at htype; exact absurd htype (by decide +kernel)

/-- The part has the usual name, all relationships of its type lead to it, and it holds nothing but elements with the tag. -/
def UsualPart (env : Env) (z : Zip) (x : Excel) (path tag : String) (c : Content) : Prop :=
  path = c.path ++ "/" ++ c.name ++ "." ++ c.ext ∧ (∀ r ∈ x.rels.rels, r.type = c.type → resolveTarget x.rels.path r.target = .ok path) ∧
    ∀ d, zipDoc env z path = some d → ∀ n ∈ d.rootChildren, n.tag = tag

/-- **C83, exactly.** After any history on a workbook with the usual string and chain parts, the saved file opens again exactly when the
session has both a text and an entry in the calculation chain. -/
theorem C83_exact (hst : env.build.release = true → StampOk env.stamp) (hz : (akeys z).Nodup) (hr : RanOn env theme z ops x s) (ht : TidyParts env z x)
    (hp : PlainRels x) (hf : SizesFit ops) (hth : GoodTheme env theme) (hc1 : HasContent env z x.theme.path) (hc2 : HasContent env z x.core.path)
    (hexts : ∀ q, s.x.saved env now = .ok q → HashSetOrder q.extPairs exts) (hs : s.x.toZip env now exts = .ok z')
    (h6 : UsualPart env z x x.strings.path "si" sharedStringContent) (h7 : UsualPart env z x x.chain.path "c" calcChainContent) :
    (∃ x', Excel.openFile env theme z' = .ok x') ↔ s.x.strings.data ≠ [] ∧ s.x.chain.data ≠ [] := by
  constructor
  · rintro ⟨x', hx'⟩
    refine ⟨fun he => ?_, fun he => ?_⟩
    · exact dead_strings hst hz hr ht hp hs he h6.2.2 h6.1 h6.2.1 theme x' hx'
    · exact dead_chain hst hz hr ht hp hs he h7.2.2 h7.1 h7.2.1 theme x' hx'
  · rintro ⟨g6, g7⟩
    obtain ⟨x', hx', _⟩ := C83_partial hst hz hr ht hp hf hth hc1 hc2 hexts hs g6 g7
    exact ⟨x', hx'⟩

end

/-- The hypotheses of `C83_violated_always` hold for a file with two sheets and no formulas. -/
example : ∃ x z', (akeys exBook).Nodup ∧ RanOn exEnv exTheme exBook [] x ⟨x, []⟩ ∧ TidyParts exEnv exBook x ∧ PlainRels x ∧
    aget "xl/calcChain.xml" exBook = none ∧ (∀ d, zipDoc exEnv exBook x.rels.path = some d → firstOfType d calcChainContent.type = none) ∧
    x.toZip exEnv "now" exExts = .ok z' := by
  obtain ⟨x, z', h1, hs, h2, h3⟩ := opensSaves_sound (z := exBook)
    (chk := fun x _ => match zipDoc exEnv exBook x.rels.path with | some d => (firstOfType d calcChainContent.type).isNone | none => true) (by decide +kernel)
  obtain ⟨f1, f2, _⟩ := exFacts_sound h2
  refine ⟨x, z', by decide +kernel, ⟨h1, rfl⟩, f1, f2, by decide +kernel, ?_, hs⟩
  intro d hd
  rw [hd] at h3
  simpa using h3

/-- Those of `C83_exact` hold for a file with strings and a chain. -/
example : ∃ x z', RanOn exEnv exTheme exFull [] x ⟨x, []⟩ ∧ TidyParts exEnv exFull x ∧ PlainRels x ∧ x.toZip exEnv "now" exExts = .ok z' ∧
    UsualPart exEnv exFull x x.strings.path "si" sharedStringContent ∧ UsualPart exEnv exFull x x.chain.path "c" calcChainContent := by
  obtain ⟨x, z', h1, hs, h2, h3⟩ := opensSaves_sound (z := exFull)
    (chk := fun x _ => decide (x.strings.path = "xl/sharedStrings.xml") && decide (x.chain.path = "xl/calcChain.xml") &&
      x.rels.rels.all (fun r => (decide (r.type ≠ sharedStringContent.type) || decide ((resolveTarget x.rels.path r.target).toOption = some "xl/sharedStrings.xml")) &&
        (decide (r.type ≠ calcChainContent.type) || decide ((resolveTarget x.rels.path r.target).toOption = some "xl/calcChain.xml"))) &&
      (match zipDoc exEnv exFull x.strings.path with | some d => d.rootChildren.all (fun n => decide (n.tag = "si")) | none => true) &&
      (match zipDoc exEnv exFull x.chain.path with | some d => d.rootChildren.all (fun n => decide (n.tag = "c")) | none => true)) (by decide +kernel)
  obtain ⟨f1, f2, _⟩ := exFacts_sound h2
  simp only [Bool.and_eq_true, decide_eq_true_eq, List.all_eq_true, Bool.or_eq_true] at h3
  obtain ⟨⟨⟨⟨a1, a2⟩, a3⟩, a4⟩, a5⟩ := h3
  have get : ∀ {r : Res String} {l}, r.toOption = some l → r = .ok l := by
    intro r l h; cases r with | error _ => cases h | ok _ => exact congrArg _ (Option.some.inj h)
  refine ⟨x, z', ⟨h1, rfl⟩, f1, f2, hs, ⟨a1.trans (by decide +kernel), ?_, ?_⟩, ⟨a2.trans (by decide +kernel), ?_, ?_⟩⟩
  · intro r hr ht
    rcases (a3 r hr).1 with h | h
    · exact absurd ht h
    · rw [a1]; exact get h
  · intro d hd
    rw [hd] at a4
    simpa using a4
  · intro r hr ht
    rcases (a3 r hr).2 with h | h
    · exact absurd ht h
    · rw [a2]; exact get h
  · intro d hd
    rw [hd] at a5
    simpa using a5

end Oxml
