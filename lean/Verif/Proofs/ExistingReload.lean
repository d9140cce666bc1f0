import Verif.Proofs.ExistingStill
import Verif.Props.Workbook
import Verif.Props.ShareString
import Verif.Props.OfficeDoc
import Verif.Props.Style
import Verif.Proofs.SessionFile
/-!
# Reading the workbook's own parts back after saving an existing file
-/
namespace Oxml
open Spec

/-- The document is well formed and its root has no text. -/
def WfRoot (u : Unicode) (x : XDoc) : Prop := ∃ t a cs, WfDoc u x (.mk t a none cs)

theorem wf_filter {u : Unicode} {x : XDoc} {t : String} {a : Option Attrs} {cs : List Node} (h : WfDoc u x (.mk t a none cs)) (p : Node → Bool) :
    WfDoc u (x.mapRootChildren (fun l => l.filter p)) (.mk t a none (cs.filter p)) := by
  refine ⟨?_, ⟨h.names.1, h.names.2.1, ?_⟩, h.ns, h.uris⟩
  · unfold XDoc.mapRootChildren; rw [h.isRoot]; rfl
  · rw [wfNodes_iff]
    intro c hc
    exact (wfNodes_iff.mp h.names.2.2) c (List.mem_filter.mp hc).1

theorem WfRoot.pop {u : Unicode} {x : XDoc} (h : WfRoot u x) (tag : String) :
    ∃ t a cs, WfDoc u (x.popTag tag).2 (.mk t a none cs) ∧ ∀ c ∈ cs, c.tag ≠ tag := by
  obtain ⟨t, a, cs, hw⟩ := h
  refine ⟨t, a, _, wf_filter hw _, ?_⟩
  intro c hc
  simpa using (List.mem_filter.mp hc).2

/-- An own part of a file is well formed when it is missing, and the template is, or tidy. -/
theorem own_wf {env : Env} {z : Zip} {p : Pkg} {t : Template} {n : String} {o : OpenDoc} (hp : Pkg.ofZip env z = .ok p)
    (hn : n ≠ contentTypesName) (h : Source env p t n o) (ht : WfRoot env.uni t.doc)
    (hd : aget n z ≠ none → ∃ d, zipDoc env z n = some d ∧ Tidy d) : WfRoot env.uni o.doc := by
  rcases source_zip hp hn h with ⟨_, h2⟩ | ⟨c, d, h1, h2, h3⟩
  · rw [h2]; exact ht
  · obtain ⟨d', e1, e2⟩ := hd (by rw [h1]; simp)
    rw [zipDoc_eq h1 h2] at e1
    cases e1
    obtain ⟨tg, a, cs, hroot⟩ := e2.root
    rw [h3]
    exact ⟨tg, a, cs, (Reachable.read h2).wf hroot e2.uris⟩

theorem book_wf {u : Unicode} {x : XDoc} {r : List SheetEntry × Option BookView} (h : WfRoot u x) (hl : (loadBook x).1 = .ok r) :
    ∃ t a cs, WfDoc u (loadBook x).2 (.mk t a none cs) ∧ ∀ n ∈ cs, n.tag ∉ bookTags := by
  have hl' : loadBook x = (.ok r, (loadBook x).2) := by rw [← hl]
  have hu := loadBook_unmanaged hl'
  obtain ⟨t, a, cs, hw, _⟩ := h.pop "bookViews"
  obtain ⟨t2, a2, cs2, hw2, _⟩ := WfRoot.pop ⟨t, a, cs, hw⟩ "sheets"
  have e : (loadBook x).2 = ((x.popTag "bookViews").2.popTag "sheets").2 := by
    unfold loadBook at hl ⊢
    simp only at hl ⊢
    split
    · next e => rw [e] at hl; cases hl
    · next v e =>
      rw [e] at hl
      simp only at hl
      split
      · next e2 => rw [e2] at hl
      · rfl
  rw [e] at hu ⊢
  refine ⟨t2, a2, cs2, hw2, ?_⟩
  intro n hn
  apply hu
  unfold XDoc.rootChildren; rw [hw2.isRoot]; exact hn

theorem styles_wf {u : Unicode} {x : XDoc} {st : Styles} (h : WfRoot u x) (hl : (Styles.load x).1 = .ok st) :
    ∃ t a cs, WfDoc u (Styles.load x).2 (.mk t a none cs) ∧ ∀ n ∈ cs, n.tag ∉ styleTags := by
  obtain ⟨t, a, cs, hw⟩ := h
  have e : (Styles.load x).2 = x.mapRootChildren (fun cs => cs.filter (fun n => n.tag ∉ styleTags)) := by
    revert hl
    unfold Styles.load
    split <;> intro hl <;> first | rfl | cases hl
  rw [e]
  refine ⟨t, a, _, wf_filter hw _, ?_⟩
  intro c hc
  simpa using (List.mem_filter.mp hc).2

theorem wf_styleDoc (u : Unicode) : WfRoot u styleDoc := by
  refine ⟨_, _, _, rfl, ?_, ?_, ?_⟩
  · refine wfNode_attrs (by decide +kernel) (by decide +kernel) (by decide +kernel) ?_
    repeat (first
      | exact trivial
      | refine ⟨wfNode_attrs (by decide +kernel) (by decide +kernel) (by decide +kernel) ?_, ?_⟩)
  · exact (wfDoc_template (u := u) (tag := "styleSheet") (uri := mainNs) (by decide +kernel) (by decide +kernel)).ns
  · exact (wfDoc_template (u := u) (tag := "styleSheet") (uri := mainNs) (by decide +kernel) (by decide +kernel)).uris

/-- Reading back the strings, also under a root that never had attributes. -/
theorem strings_readable (env : Env) (hst : env.build.release = true → StampOk env.stamp) {x : XDoc} {t : String} {a : Option Attrs}
    {cs : List Node} (hx : WfDoc env.uni x (.mk t a none cs)) (hcs : ∀ c ∈ cs, c.tag ≠ "si") (table : List String) (hne : table ≠ []) :
    ∃ x' d, saveStrings x table = .ok x' ∧ readXml env.uni (renderDoc env.build env.stamp x') = .ok d ∧
      (loadStrings d.toXDoc).1 = table.map (fun s => (reloadText s).getD "") ∧
      (stringItems d.toXDoc).map siText = table.map (fun s => (reloadText s).getD "") := by
  cases a with
  | some a =>
    obtain ⟨x', d, r, h1, h2, _, h3, _, _, _, h4⟩ := strings_reload env hst hx hcs table hne
    exact ⟨x', d, h1, h2, h3, h4⟩
  | none =>
    have hroot : (x.insertRootAttrs [("count", toString table.length), ("uniqueCount", toString (distinctCount table))]) = x := by
      unfold XDoc.insertRootAttrs
      rw [hx.isRoot]
      have := hx.isRoot
      cases x; cases this; rfl
    have hsave : saveStrings x table = .ok { ns := x.ns, root := some (.mk t none none (cs ++ table.map siNode)) } := by
      unfold saveStrings
      rw [hroot, appendAll_doc hx.isRoot]
    have hwf := wfDoc_append hx (ns := table.map siNode) (wfNodes_iff.mpr (by
      intro c hc
      obtain ⟨s, _, rfl⟩ := List.mem_map.mp hc
      exact wf_siNode env.uni s))
    have hne' : cs ++ table.map siNode ≠ [] := by
      intro he
      exact hne (List.map_eq_nil_iff.mp (List.append_eq_nil_iff.mp he).2)
    obtain ⟨d, hd, hdx⟩ := read_doc env hst hwf hne'
    refine ⟨_, d, hsave, hd, ?_, by rw [hdx]; exact stringItems_reload hcs table⟩
    unfold loadStrings XDoc.popTag
    rw [hdx, reloadDoc_rootChildren ⟨rfl⟩]
    simp only
    rw [List.map_append, filter_tag_append, List.map_map, List.filterMap_map]
    · exact filterMap_siNode table
    · intro c hc
      obtain ⟨n, hn, rfl⟩ := List.mem_map.mp hc
      rw [reload_tag]; exact hcs n hn
    · intro c hc
      obtain ⟨n, hn, rfl⟩ := List.mem_map.mp hc
      obtain ⟨s, _, rfl⟩ := List.mem_map.mp hn
      rw [reload_tag]; rfl

/-! ### Core properties -/

theorem wfNode_withValue {u : Unicode} {n : Node} (h : WfNode u n) (v : String) : WfNode u (n.withValue v) := by
  cases n; exact h

theorem wfNodes_mapFirst {u : Unicode} {cs : List Node} (h : WfNodes u cs) (p : Node → Bool) {f : Node → Node} (hf : ∀ n, WfNode u n → WfNode u (f n)) :
    WfNodes u (mapFirst p f cs) := by
  induction cs with
  | nil => exact h
  | cons c cs ih =>
    unfold mapFirst
    split
    · exact ⟨hf _ h.1, h.2⟩
    · exact ⟨h.1, ih h.2⟩

theorem mapFirst_ne_nil {p : Node → Bool} {f : Node → Node} {cs : List Node} (h : cs ≠ []) : mapFirst p f cs ≠ [] := by
  cases cs with
  | nil => exact absurd rfl h
  | cons c cs => unfold mapFirst; split <;> simp

theorem wfNode_item {u : Unicode} {n : Node} (h : WfNode u n) {g : List Node → List Node} (hg : ∀ l, WfNodes u l → WfNodes u (g l)) :
    WfNode u (n.withChildren (g n.children)) := by
  cases n; exact ⟨h.1, h.2.1, hg _ h.2.2⟩

theorem mapCoreItem_root {u : Unicode} {t : String} {a : Option Attrs} {cs : List Node} (h : WfNode u (.mk t a none cs)) (tag : String) {f : Node → Node}
    (hf : ∀ n, WfNode u n → WfNode u (f n)) : ∃ cs', Node.mapCoreItem tag f (.mk t a none cs) = .mk t a none cs' ∧ WfNode u (.mk t a none cs') ∧
      (cs ≠ [] → cs' ≠ []) := by
  unfold Node.mapCoreItem
  simp only
  split
  · exact ⟨_, rfl, ⟨h.1, h.2.1, wfNodes_mapFirst h.2.2 _ hf⟩, mapFirst_ne_nil⟩
  · refine ⟨_, rfl, ⟨h.1, h.2.1, wfNodes_mapFirst h.2.2 _ ?_⟩, mapFirst_ne_nil⟩
    intro n hn
    exact wfNode_item hn (fun l hl => wfNodes_mapFirst hl _ hf)

theorem core_readable (env : Env) (hst : env.build.release = true → StampOk env.stamp) {x x' : XDoc} {now : String} (h : WfRoot env.uni x)
    (hne : x.rootChildren ≠ []) (hs : saveCore now now x = .ok x') : ∃ d, readXml env.uni (renderDoc env.build env.stamp x') = .ok d := by
  obtain ⟨t, a, cs, hw⟩ := h
  unfold XDoc.rootChildren at hne
  rw [hw.isRoot] at hne
  unfold saveCore at hs
  rw [hw.isRoot] at hs
  simp only [Except.ok.injEq] at hs
  obtain ⟨c1, e1, w1, n1⟩ := mapCoreItem_root hw.names "dcterms:modified" (f := fun n => n.withValue now) (fun n hn => wfNode_withValue hn _)
  obtain ⟨c2, e2, w2, n2⟩ := mapCoreItem_root w1 "dcterms:created" (f := fun n => match n.value with | some _ => n | none => n.withValue now) (by
    intro n hn
    split
    · exact hn
    · exact wfNode_withValue hn _)
  rw [e1] at hs
  have hs := (congrArg (fun n => ({ ns := x.ns, root := some n } : XDoc)) e2).symm.trans hs
  rw [← hs]
  obtain ⟨d, hd, _⟩ := read_doc env hst (x := { x with root := some (.mk t a none c2) }) ⟨rfl, w2, hw.ns, hw.uris⟩ (n2 (n1 hne))
  exact ⟨d, hd⟩

end Oxml
