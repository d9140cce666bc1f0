import Verif.Props.ExistingDead -- only to build one after the other: both need much memory
import Verif.Props.ExistingData
/-!
# C84: which texts are lost
-/
namespace Oxml
open Spec

section
variable {env : Env} {theme : XDoc} {z z' : Zip} {ops : List WbOp} {x : Excel} {s : Session} {now : String} {exts : List (String × String)}

/-- The texts the library finds in string items: that of the first child of each item; items without children have none. -/
def firstTexts (items : List Node) : List String := items.filterMap (fun n => n.children.head?.map (fun c => c.value.getD ""))

/-- **C84, exactly.** For every file and history, the texts of the saved part begin with those of the first children of the items, white space
around them removed; what is not the first child of an item is lost, and items without children are left out. -/
theorem C84_exact (hst : env.build.release = true → StampOk env.stamp) (hz : (akeys z).Nodup) (hr : RanOn env theme z ops x s)
    (ht : TidyParts env z x) (hs : s.x.toZip env now exts = .ok z') {d : XDoc} (hd : zipDoc env z x.strings.path = some d)
    (hne : firstTexts (stringItems d) ≠ []) : ∃ d', zipDoc env z' x.strings.path = some d' ∧
      ∃ rest, (stringItems d').map siText = (firstTexts (stringItems d)).map (fun t => String.ofList (trimXml t.toList)) ++ rest := by
  obtain ⟨p, o1, o2, o3, o4, o5, o6, o7, o8, r1, r2, hp, hb⟩ := openFile_book hz hr.1
  obtain ⟨_, _, _, _, _, _, _, _, _, _, _, _, _, _, _, _, _, _, _, _, _, _, _, _, _, _, _, hct⟩ := saved_base hz hr hs
  have hn := hct x.strings.path (by simp [ownParts])
  have hdoc : o6.doc = d := (ready_of_zipDoc hp hn hd).source hb.strSource
  have hl := hb.strLoad
  rw [hdoc] at hl
  have hx : x.strings.data = firstTexts (stringItems d) := hl.symm
  obtain ⟨l, e⟩ := (run_tables hr.2).1
  have e : s.x.strings.data = x.strings.data ++ l := e.symm
  obtain ⟨d', g1, g2, _⟩ := C82_strings_partial hst hz hr ht hs (by
    intro h
    rw [h, hx] at e
    exact hne (List.append_eq_nil_iff.mp e.symm).1)
  refine ⟨d', g1, l.map (fun s => (reloadText s).getD ""), ?_⟩
  rw [g2, e, List.map_append, hx]
  congr 1
  apply List.map_congr_left
  intro t _
  unfold reloadText
  split
  · next h => rw [h]; rfl
  · rfl

theorem firstTexts_get {items : List Node} {i : Nat} {n : Node} (hc : ∀ j m, j ≤ i → items[j]? = some m → m.children ≠ []) (hi : items[i]? = some n) :
    (firstTexts items)[i]? = n.children.head?.map (fun c => c.value.getD "") := by
  induction items generalizing i with
  | nil => cases hi
  | cons m items ih =>
    have hm := hc 0 m (by omega) rfl
    cases hcs : m.children with
    | nil => exact absurd hcs hm
    | cons c cs =>
      have e : firstTexts (m :: items) = c.value.getD "" :: firstTexts items := by
        unfold firstTexts; rw [List.filterMap_cons, hcs]; rfl
      rw [e]
      cases i with
      | zero =>
        cases hi
        rw [hcs]; rfl
      | succ i =>
        rw [List.getElem?_cons_succ]
        exact ih (fun j m' hj hm' => hc (j + 1) m' (by omega) (by rw [List.getElem?_cons_succ]; exact hm')) (by rw [List.getElem?_cons_succ] at hi; exact hi)

/-- **C84 fails for every rich text.** If the first child of an item has no text of its own, as in rich text, every cell that refers to the item
shows the empty text after opening and saving the file, whatever is done in between. -/
theorem C84_violated_always (hst : env.build.release = true → StampOk env.stamp) (hz : (akeys z).Nodup) (hr : RanOn env theme z ops x s)
    (ht : TidyParts env z x) (hs : s.x.toZip env now exts = .ok z') {d : XDoc} (hd : zipDoc env z x.strings.path = some d)
    {i : Nat} {n c : Node} (hc : ∀ j m, j ≤ i → (stringItems d)[j]? = some m → m.children ≠ []) (hi : (stringItems d)[i]? = some n)
    (hn : n.children.head? = some c) (hv : c.value = none) :
    ∃ d' n', zipDoc env z' x.strings.path = some d' ∧ (stringItems d')[i]? = some n' ∧ siText n' = "" := by
  have h1 := firstTexts_get hc hi
  rw [hn] at h1
  simp only [Option.map_some, hv, Option.getD_none] at h1
  obtain ⟨d', g1, rest, g2⟩ := C84_exact hst hz hr ht hs hd (by intro h; rw [h] at h1; cases h1)
  have h3 : ((stringItems d').map siText)[i]? = some "" := by
    have hlt : i < (firstTexts (stringItems d)).length := (List.getElem?_eq_some_iff.mp h1).1
    rw [g2, List.getElem?_append_left (by simpa using hlt), List.getElem?_map, h1]
    decide +kernel
  rw [List.getElem?_map] at h3
  cases hi' : (stringItems d')[i]? with
  | none => rw [hi'] at h3; cases h3
  | some n' =>
    rw [hi'] at h3
    exact ⟨d', n', g1, hi', Option.some.inj h3⟩

/-- **C84 fails behind every empty item.** If an item has no children, cells that refer to it show the text of the next item after opening and
saving the file, whatever is done in between, and so on for all items behind. -/
theorem C84_violated_shift (hst : env.build.release = true → StampOk env.stamp) (hz : (akeys z).Nodup) (hr : RanOn env theme z ops x s)
    (ht : TidyParts env z x) (hs : s.x.toZip env now exts = .ok z') {d : XDoc} (hd : zipDoc env z x.strings.path = some d)
    {before after : List Node} {e : Node} (hd' : stringItems d = before ++ e :: after) (he : e.children = [])
    (hb : ∀ n ∈ before, n.children ≠ []) (ha : ∀ n ∈ after, n.children ≠ []) {k : Nat} {n : Node} (hk : after[k]? = some n) :
    ∃ d' n', zipDoc env z' x.strings.path = some d' ∧ (stringItems d')[before.length + k]? = some n' ∧
      some (siText n') = n.children.head?.map (fun c => String.ofList (trimXml (c.value.getD "").toList)) := by
  have hlen : ∀ l : List Node, (∀ n ∈ l, n.children ≠ []) → (firstTexts l).length = l.length := by
    intro l hl
    induction l with
    | nil => rfl
    | cons m l ih =>
      cases hcs : m.children with
      | nil => exact absurd hcs (hl m (by simp))
      | cons c cs =>
        have e : firstTexts (m :: l) = c.value.getD "" :: firstTexts l := by
          unfold firstTexts; rw [List.filterMap_cons, hcs]; rfl
        rw [e, List.length_cons, List.length_cons, ih (fun n hn => hl n (by simp [hn]))]
  have e1 : firstTexts (stringItems d) = firstTexts before ++ firstTexts after := by
    rw [hd']
    unfold firstTexts
    rw [List.filterMap_append, List.filterMap_cons, he]
    rfl
  have h1 : (firstTexts after)[k]? = n.children.head?.map (fun c => c.value.getD "") :=
    firstTexts_get (fun j m _ hm => ha m (List.mem_of_getElem? hm)) hk
  cases hcs : n.children with
  | nil => exact absurd hcs (ha n (List.mem_of_getElem? hk))
  | cons c cs =>
    rw [hcs] at h1
    simp only [List.head?_cons, Option.map_some] at h1
    have h2 : (firstTexts (stringItems d))[before.length + k]? = some (c.value.getD "") := by
      rw [e1, List.getElem?_append_right (by rw [hlen before hb]; omega), hlen before hb, Nat.add_sub_cancel_left]; exact h1
    obtain ⟨d', g1, rest, g2⟩ := C84_exact hst hz hr ht hs hd (by intro h; rw [h] at h2; cases h2)
    have h3 : ((stringItems d').map siText)[before.length + k]? = some (String.ofList (trimXml (c.value.getD "").toList)) := by
      have hlt := (List.getElem?_eq_some_iff.mp h2).1
      rw [g2, List.getElem?_append_left (by simpa using hlt), List.getElem?_map, h2]
      rfl
    rw [List.getElem?_map] at h3
    cases hi' : (stringItems d')[before.length + k]? with
    | none => rw [hi'] at h3; cases h3
    | some n' =>
      rw [hi'] at h3
      exact ⟨d', n', g1, hi', by rw [Option.some.inj h3]; rfl⟩

end

/-- A file with rich text and an empty item, for which the hypotheses of these theorems hold. -/
def exTexts : Zip :=
  exBook ++ [("xl/sharedStrings.xml", "<sst><si><r><t>rich</t></r></si><si></si><si><t>last</t></si></sst>".toList)]

example : ∃ x z' d n c before e after m, (akeys exTexts).Nodup ∧ RanOn exEnv exTheme exTexts [] x ⟨x, []⟩ ∧ TidyParts exEnv exTexts x ∧
    x.toZip exEnv "now" exExts = .ok z' ∧ zipDoc exEnv exTexts x.strings.path = some d ∧
    (stringItems d)[0]? = some n ∧ n.children.head? = some c ∧ c.value = none ∧
    stringItems d = before ++ e :: after ∧ e.children = [] ∧ (∀ n ∈ before, n.children ≠ []) ∧ (∀ n ∈ after, n.children ≠ []) ∧ after[0]? = some m ∧
    siText m = "last" := by
  obtain ⟨x, z', h1, hs, h2, h3⟩ := opensSaves_sound (z := exTexts)
    (chk := fun x _ => decide (x.strings.path = "xl/sharedStrings.xml")) (by decide +kernel)
  have hp : x.strings.path = "xl/sharedStrings.xml" := of_decide_eq_true h3
  obtain ⟨f1, _⟩ := exFacts_sound h2
  obtain ⟨d, g1, g2⟩ := read_then (u := exEnv.uni) (s := "<sst><si><r><t>rich</t></r></si><si></si><si><t>last</t></si></sst>".toList) (f := XmlDoc.toXDoc)
    (v := ⟨[], some (.mk "sst" (some []) none [.mk "si" (some []) none [.mk "r" (some []) none [.mk "t" (some []) (some "rich") []]], .mk "si" (some []) none [],
      .mk "si" (some []) none [.mk "t" (some []) (some "last") []]])⟩) (by decide +kernel)
  refine ⟨x, z', d.toXDoc, _, _, [.mk "si" (some []) none [.mk "r" (some []) none [.mk "t" (some []) (some "rich") []]]], .mk "si" (some []) none [],
    [.mk "si" (some []) none [.mk "t" (some []) (some "last") []]], _, by decide +kernel, ⟨h1, rfl⟩, f1, hs, ?_, by rw [g2]; rfl, rfl, rfl, by rw [g2]; rfl, rfl, ?_, ?_, rfl, by decide +kernel⟩
  · rw [hp]
    exact zipDoc_eq (c := "<sst><si><r><t>rich</t></r></si><si></si><si><t>last</t></si></sst>".toList) rfl g1
  · intro n hn
    rw [List.mem_singleton] at hn
    subst hn
    intro h; cases h
  · intro n hn
    rw [List.mem_singleton] at hn
    subst hn
    intro h; cases h

end Oxml
