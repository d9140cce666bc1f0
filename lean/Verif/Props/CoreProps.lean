import Verif.Spec.CoreProps
import Verif.Props.Sessions
/-!
# C57: the times in the core properties
-/
namespace Oxml
open Spec

theorem mapFirst_get (t : String) (f : Node → Node) (cs : List Node) (i : Nat) (c : Node) (hc : cs[i]? = some c) :
    (FirstWith t cs i → (mapFirst (fun c => c.tag = t) f cs)[i]? = some (f c)) ∧
    (¬ FirstWith t cs i → (mapFirst (fun c => c.tag = t) f cs)[i]? = some c) := by
  induction cs generalizing i with
  | nil => cases hc
  | cons d ds ih =>
    unfold mapFirst
    by_cases hd : d.tag = t
    · simp only [hd, decide_true, if_true]
      cases i with
      | zero =>
        cases hc
        refine ⟨fun _ => rfl, fun h => absurd ⟨⟨c, rfl, hd⟩, ?_⟩ h⟩
        intro j _ hj; omega
      | succ i =>
        refine ⟨fun h => absurd hd (h.2 0 d (by omega) rfl), fun _ => hc⟩
    · simp only [hd, decide_false]
      cases i with
      | zero =>
        cases hc
        exact ⟨fun h => by obtain ⟨c, h1, h2⟩ := h.1; cases h1; exact absurd h2 hd, fun _ => rfl⟩
      | succ i =>
        have h := ih i hc
        have he : FirstWith t (d :: ds) (i + 1) ↔ FirstWith t ds i := by
          constructor
          · rintro ⟨h1, h2⟩
            exact ⟨h1, fun j c hj he => h2 (j + 1) c (by omega) he⟩
          · rintro ⟨h1, h2⟩
            refine ⟨h1, fun j c hj he => ?_⟩
            cases j with
            | zero => cases he; exact hd
            | succ j => exact h2 j c (by omega) he
        rw [he]
        exact h

theorem mapFirst_length {α : Type} (p : α → Bool) (f : α → α) (l : List α) : (mapFirst p f l).length = l.length := by
  induction l with
  | nil => rfl
  | cons x xs ih => unfold mapFirst; split <;> simp [ih]

theorem mapFirst_tags (t : String) (f : Node → Node) (hf : ∀ c, (f c).tag = c.tag) (cs : List Node) (i : Nat) (s : String) :
    FirstWith s (mapFirst (fun c => c.tag = t) f cs) i ↔ FirstWith s cs i := by
  have key : ∀ j : Nat, ((mapFirst (fun c => c.tag = t) f cs)[j]?).map Node.tag = (cs[j]?).map Node.tag := by
    intro j
    cases hj : cs[j]? with
    | none =>
      have : (mapFirst (fun c => decide (c.tag = t)) f cs)[j]? = none := by
        rw [List.getElem?_eq_none_iff, mapFirst_length]; exact List.getElem?_eq_none_iff.mp hj
      rw [this]
    | some c =>
      have h := mapFirst_get t f cs j c hj
      by_cases hF : FirstWith t cs j
      · rw [h.1 hF]; simp [hf]
      · rw [h.2 hF]
  have hex : ∀ (l l' : List Node), (∀ j : Nat, (l[j]?).map Node.tag = (l'[j]?).map Node.tag) → FirstWith s l i → FirstWith s l' i := by
    intro l l' hk h
    obtain ⟨⟨c, h1, h2⟩, h3⟩ := h
    constructor
    · have := hk i
      rw [h1] at this
      cases hl : l'[i]? with
      | none => rw [hl] at this; cases this
      | some c' =>
        rw [hl] at this
        simp only [Option.map_some, Option.some.injEq] at this
        exact ⟨c', rfl, by rw [← this]; exact h2⟩
    · intro j c' hj hc'
      have := hk j
      rw [hc'] at this
      cases hl : l[j]? with
      | none => rw [hl] at this; cases this
      | some d =>
        rw [hl] at this
        simp only [Option.map_some, Option.some.injEq] at this
        rw [← this]; exact h3 j d hj hl
  exact ⟨hex _ _ key, hex _ _ (fun j => (key j).symm)⟩

theorem withValue_tag (n : Node) (v : String) : (n.withValue v).tag = n.tag := by cases n; rfl
theorem withValue_attrs (n : Node) (v : String) : (n.withValue v).attrs = n.attrs := by cases n; rfl
theorem withValue_children (n : Node) (v : String) : (n.withValue v).children = n.children := by cases n; rfl
theorem withValue_value (n : Node) (v : String) : (n.withValue v).value = some v := by cases n; rfl

/-- What happens to an empty creation time. -/
theorem fillValue (n : Node) (now : String) :
    (match n.value with | some _ => n | none => n.withValue now).tag = n.tag ∧
    (match n.value with | some _ => n | none => n.withValue now).attrs = n.attrs ∧
    (match n.value with | some _ => n | none => n.withValue now).children = n.children ∧
    (match n.value with | some _ => n | none => n.withValue now).value = some (n.value.getD now) := by
  cases n with
  | mk t a v cs => cases v <;> exact ⟨rfl, rfl, rfl, rfl⟩

theorem saveCore_root (now : String) {x : XDoc} {t : String} {a : Option Attrs} {v : Option String} {cs : List Node}
    (hr : x.root = some (.mk t a v cs)) (ht : t = "cp:coreProperties") :
    saveCore now now x = .ok { x with root := some (.mk t a v (mapFirst (fun c => c.tag = "dcterms:created")
      (fun n => match n.value with | some _ => n | none => n.withValue now)
      (mapFirst (fun c => c.tag = "dcterms:modified") (fun n => n.withValue now) cs))) } := by
  subst ht
  unfold saveCore
  rw [hr]
  rfl

theorem stamped_mk (now : String) (t : String) (a : Option Attrs) (v : Option String) (cs : List Node) :
    Stamped now (.mk t a v cs) (.mk t a v (mapFirst (fun c => c.tag = "dcterms:created")
      (fun n => match n.value with | some _ => n | none => n.withValue now)
      (mapFirst (fun c => c.tag = "dcterms:modified") (fun n => n.withValue now) cs))) := by
  refine ⟨rfl, rfl, rfl, by simp [Node.children, mapFirst_length], ?_⟩
  intro i c hc
  simp only [Node.children] at hc ⊢
  have h1 := mapFirst_get "dcterms:modified" (fun n => n.withValue now) cs i c hc
  have hno : FirstWith "dcterms:modified" cs i → ¬ FirstWith "dcterms:created" cs i := by
    rintro ⟨⟨d, d1, d2⟩, _⟩ ⟨⟨e, e1, e2⟩, _⟩
    rw [d1] at e1; cases e1
    rw [d2] at e2; exact absurd e2 (by decide)
  by_cases hm : FirstWith "dcterms:modified" cs i
  · have h2 := mapFirst_get "dcterms:created" (fun n => match n.value with | some _ => n | none => n.withValue now) _ i _ (h1.1 hm)
    have hcr : ¬ FirstWith "dcterms:created" (mapFirst (fun c => decide (c.tag = "dcterms:modified")) (fun n => n.withValue now) cs) i := by
      rw [mapFirst_tags _ _ (fun c => withValue_tag c now)]; exact hno hm
    exact ⟨_, h2.2 hcr, withValue_tag c now, withValue_attrs c now, withValue_children c now, fun _ => withValue_value c now,
      fun h => absurd h (hno hm), fun h => absurd hm h⟩
  · have h2 := mapFirst_get "dcterms:created" (fun n => match n.value with | some _ => n | none => n.withValue now) _ i _ (h1.2 hm)
    rw [mapFirst_tags _ _ (fun c => withValue_tag c now)] at h2
    by_cases hcr : FirstWith "dcterms:created" cs i
    · obtain ⟨f1, f2, f3, f4⟩ := fillValue c now
      exact ⟨_, h2.1 hcr, f1, f2, f3, fun h => absurd h hm, fun _ => f4, fun _ h => absurd hcr h⟩
    · exact ⟨c, h2.2 hcr, rfl, rfl, rfl, fun h => absurd h hm, fun h => absurd h hcr, fun _ _ => rfl⟩

/-- **C57 as stated.** After saving, the properties show a modification time of now and a creation time, which is the old one where there
was one. -/
def TimesRecorded : Prop :=
  ∀ now x x', x.root.isSome → saveCore now now x = .ok x' →
    coreText x' "dcterms:modified" = some now ∧ coreText x' "dcterms:created" = some ((coreText x "dcterms:created").getD now)

/-- **C57 is violated**: properties without time elements, which the format allows, get none. -/
theorem C57_violated : ¬ TimesRecorded := by
  intro h
  have := h "2024-01-01T00:00:00Z" { ns := [], root := some (.mk "cp:coreProperties" (some []) none [.mk "dc:creator" (some []) (some "x") []]) }
    _ rfl rfl
  exact absurd this.1 (by decide +kernel)

/-- **C57 is violated** also where the elements are present: a root written with another prefix is not recognised, so the old
modification time stays. -/
theorem C57_violated_prefix : ∃ d x', readXml ⟨fun _ => false⟩
      "<q:coreProperties xmlns:q=\"http://schemas.openxmlformats.org/package/2006/metadata/core-properties\" xmlns:dcterms=\"http://purl.org/dc/terms/\"><dcterms:modified>2020</dcterms:modified></q:coreProperties>".toList = .ok d ∧
    saveCore "2024" "2024" d.toXDoc = .ok x' ∧ coreText x' "dcterms:modified" = some "2020" := by
  have h : (readXml ⟨fun _ => false⟩
      "<q:coreProperties xmlns:q=\"http://schemas.openxmlformats.org/package/2006/metadata/core-properties\" xmlns:dcterms=\"http://purl.org/dc/terms/\"><dcterms:modified>2020</dcterms:modified></q:coreProperties>".toList).toOption.map
      (fun d => (saveCore "2024" "2024" d.toXDoc).toOption.map (fun x' => coreText x' "dcterms:modified")) = some (some (some "2020")) := by
    decide +kernel
  obtain ⟨d, h1, h2⟩ := read_then h
  cases hs : saveCore "2024" "2024" d.toXDoc with
  | error e => rw [hs] at h2; cases h2
  | ok x' =>
    rw [hs] at h2
    exact ⟨d, x', h1, hs, Option.some.inj h2⟩

theorem coreText_of_child {x : XDoc} {r : Node} (hr : x.root = some r) {t : String} {i : Nat} {c : Node} (hi : FirstWith t r.children i)
    (hc : r.children[i]? = some c) : coreText x t = c.value := by
  unfold coreText XDoc.rootChildren
  rw [hr]
  simp only
  have : r.children.find? (fun c => c.tag = t) = some c := by
    generalize r.children = cs at hi hc
    induction cs generalizing i with
    | nil => cases hc
    | cons d ds ih =>
      cases i with
      | zero =>
        cases hc
        obtain ⟨⟨e, h1, h2⟩, _⟩ := hi
        cases h1
        rw [List.find?_cons_of_pos]; simpa using h2
      | succ i =>
        have hd := hi.2 0 d (by omega) rfl
        rw [List.find?_cons_of_neg (by simpa using hd)]
        exact ih ⟨hi.1, fun j c hj he => hi.2 (j + 1) c (by omega) he⟩ hc
  rw [this]; rfl

theorem firstWith_of_mem {t : String} {cs : List Node} (h : ∃ c ∈ cs, c.tag = t) : ∃ i c, FirstWith t cs i ∧ cs[i]? = some c := by
  induction cs with
  | nil => obtain ⟨c, hc, _⟩ := h; cases hc
  | cons d ds ih =>
    by_cases hd : d.tag = t
    · exact ⟨0, d, ⟨⟨d, rfl, hd⟩, fun j _ hj => by omega⟩, rfl⟩
    · obtain ⟨c, hc, ht⟩ := h
      rcases List.mem_cons.mp hc with rfl | hc
      · exact absurd ht hd
      · obtain ⟨i, c', h1, h2⟩ := ih ⟨c, hc, ht⟩
        refine ⟨i + 1, c', ⟨h1.1, fun j e hj he => ?_⟩, h2⟩
        cases j with
        | zero => cases he; exact hd
        | succ j => exact h1.2 j e (by omega) he

/-- **C57, what holds.** For properties whose root is written `cp:coreProperties`, closing succeeds and changes nothing but the first
modification time, which becomes now, and an empty first creation time, which becomes now.
Missing from the full claim: properties without these elements or with another prefix are not given times. -/
theorem C57_partial (now : String) (x : XDoc) (r : Node) (hr : x.root = some r) (ht : r.tag = "cp:coreProperties") :
    ∃ r', saveCore now now x = .ok { x with root := some r' } ∧ Stamped now r r' ∧
      ((∃ c ∈ r.children, c.tag = "dcterms:modified") → coreText { x with root := some r' } "dcterms:modified" = some now) ∧
      ((∃ c ∈ r.children, c.tag = "dcterms:created") →
        coreText { x with root := some r' } "dcterms:created" = some ((coreText x "dcterms:created").getD now)) := by
  cases r with
  | mk t a v cs =>
    have hs := stamped_mk now t a v cs
    refine ⟨_, saveCore_root now hr ht, hs, ?_, ?_⟩
    · intro h
      obtain ⟨i, c, h1, h2⟩ := firstWith_of_mem h
      obtain ⟨c', e1, e2, _, _, e3, _⟩ := hs.child i c h2
      rw [coreText_of_child rfl ?_ e1, e3 h1]
      simp only [Node.children] at h1 ⊢
      rw [mapFirst_tags _ _ (fun c => (fillValue c now).1), mapFirst_tags _ _ (fun c => withValue_tag c now)]
      exact h1
    · intro h
      obtain ⟨i, c, h1, h2⟩ := firstWith_of_mem h
      obtain ⟨c', e1, e2, _, _, _, e3, _⟩ := hs.child i c h2
      rw [coreText_of_child rfl ?_ e1, e3 h1, coreText_of_child hr h1 h2]
      simp only [Node.children] at h1 ⊢
      rw [mapFirst_tags _ _ (fun c => (fillValue c now).1), mapFirst_tags _ _ (fun c => withValue_tag c now)]
      exact h1

/-- The properties of a new document meet the hypotheses. -/
example : ∃ r, coreDoc.root = some r ∧ r.tag = "cp:coreProperties" ∧ (∃ c ∈ r.children, c.tag = "dcterms:modified") ∧
    ∃ c ∈ r.children, c.tag = "dcterms:created" :=
  ⟨_, rfl, by decide +kernel⟩

example : ∃ x', saveCore "2024" "2024" { ns := [], root := some (.mk "cp:coreProperties" none none
      [.mk "dcterms:created" none (some "2020") [], .mk "dcterms:modified" none (some "2021") [], .mk "dcterms:modified" none (some "2022") []]) } = .ok x' ∧
    x'.rootChildren.map Node.value = [some "2020", some "2024", some "2022"] := ⟨_, rfl, by decide +kernel⟩

theorem wf_coreSaved (u : Unicode) (now : String) : WfDoc u (coreSaved now) (.mk "cp:coreProperties" (some []) none
      [.mk "dc:creator" (some []) (some "OpenXML-Office") [],
       .mk "cp:lastModifiedBy" (some []) (some "OpenXML-Office") [],
       .mk "dcterms:created" (some [("xsi:type", "dcterms:W3CDTF")]) (some now) [],
       .mk "dcterms:modified" (some [("xsi:type", "dcterms:W3CDTF")]) (some now) []]) := by
  refine ⟨rfl, ?_, ⟨show (akeys coreDoc.ns).Nodup by decide, ?_⟩, ?_⟩
  · refine wfNode_attrs (by decide +kernel) rfl (by simp [akeys]) ⟨?_, ?_, ?_, ?_, trivial⟩ <;>
      exact wfNode_attrs (by decide +kernel) (by decide +kernel) (by simp [akeys]) trivial
  · intro k hk
    right
    have h : ∀ k ∈ akeys coreDoc.ns, isValidXmlName ⟨fun _ => false⟩ ("xmlns:" ++ k) = true ∧ ':' ∉ k.toList := by decide +kernel
    exact ⟨validName_ascii u (h k hk).1, (h k hk).2⟩
  · change ∀ kv ∈ coreDoc.ns, '"' ∉ kv.2.toList ∧ (kv.1 ≠ defaultNsKey → ¬Reserved kv.1 kv.2)
    decide +kernel

/-- **C57 in saved workbooks.** Whatever was done in a new workbook, the properties in the saved file show now as the modification and
creation time. -/
theorem C57_session (env : Env) (hst : env.build.release = true → StampOk env.stamp) (theme : XDoc) (ops : List WbOp) (s : Session)
    (h : Ran env theme ops s) (now : String) (hn : Trimmed now) :
    ∃ p d, s.x.saved env now = .ok p ∧ partDoc env p "docProps/core.xml" = some d ∧ coreText d "dcterms:modified" = some now ∧
      coreText d "dcterms:created" = some now ∧ coreText d "dc:creator" = some "OpenXML-Office" := by
  obtain ⟨p, hp, hw⟩ := (ran_inv hst h).written now
  have hk := closedParts_book theme now s.x.rels.rels s.x.strings.data s.x.styles.data s.x.sheets s.x.view
  obtain ⟨d, hd1, hd2⟩ := read_doc env hst (wf_coreSaved env.uni now) (by simp)
  have ht : reloadText now = some now := by
    unfold reloadText
    rw [if_neg (by rw [hn.2]; exact hn.1), hn.2, String.ofList_toList]
  refine ⟨p, d.toXDoc, hp, partDoc_eq (hw.parts _ _ _ hk.2.2.2.2.2.1) hd1, ?_, ?_, ?_⟩ <;> rw [hd2]
  · exact ht
  · exact ht
  · rfl

end Oxml
