import Verif.Proofs.ContentTypes
/-!
# Saving and reading document values, seen from the root's children
-/
namespace Oxml
open Spec

theorem reload_tag (n : Node) : (reload n).tag = n.tag := by
  cases n with
  | mk t a v cs => cases v <;> rfl

theorem reload_children_of_none {n : Node} (h : n.value = none) : (reload n).children = n.children.map reload := by
  cases n with
  | mk t a v cs =>
    cases h
    simp [reload, Node.children, reloads_eq]

theorem reload_value (n : Node) : (reload n).value = n.value.bind reloadText := by
  cases n with
  | mk t a v cs => cases v <;> rfl

theorem reload_attrs_some (n : Node) : (reload n).attrs = some (reloadAttrs n.attrs) := by
  cases n with
  | mk t a v cs => cases v <;> rfl

theorem reload_attr {u : Unicode} {n : Node} (h : WfNode u n) (k : String) : (reload n).attr? k = (n.attr? k).map escStr := by
  cases n with
  | mk t a v cs =>
    have := aget_reloadAttrs h.2.1 k
    unfold Node.attr?
    rw [reload_attrs_some]
    simp only [Node.attrs]
    rw [this]
    cases a <;> rfl

/-- A document value with a given root having no text. -/
structure DocWith (x : XDoc) (t : String) (a : Option Attrs) (cs : List Node) : Prop where
  isRoot : x.root = some (.mk t a none cs)

theorem DocWith.children {x : XDoc} {t : String} {a : Option Attrs} {cs : List Node} (h : DocWith x t a cs) : x.rootChildren = cs := by
  unfold XDoc.rootChildren; rw [h.isRoot]; rfl

theorem reloadDoc_rootChildren {b : Build} {x : XDoc} {t : String} {a : Option Attrs} {cs : List Node} (h : DocWith x t a cs) :
    (reloadDoc b x).rootChildren = cs.map reload := by
  unfold XDoc.rootChildren reloadDoc
  simp only [h.isRoot, Option.map_some, reload, Node.children, reloads_eq]

/-- Writing and reading a document with children. -/
theorem read_doc (env : Env) (hst : env.build.release = true → StampOk env.stamp) {x : XDoc} {t : String} {a : Option Attrs}
    {cs : List Node} (h : WfDoc env.uni x (.mk t a none cs)) (hne : cs ≠ []) :
    ∃ d, readXml env.uni (renderDoc env.build env.stamp x) = .ok d ∧ d.toXDoc = reloadDoc env.build x := by
  obtain ⟨d, h1, _, h3⟩ := readXml_renderDoc env.build env.uni hst h (by
    cases cs with
    | nil => exact absurd rfl hne
    | cons _ _ => rfl)
  exact ⟨d, h1, h3⟩

theorem filter_tag_append (cs ns : List Node) (tag : String) (h1 : ∀ c ∈ cs, c.tag ≠ tag) (h2 : ∀ n ∈ ns, n.tag = tag) :
    (cs ++ ns).filter (fun n => n.tag = tag) = ns := by
  rw [List.filter_append, List.filter_eq_nil_iff.mpr, List.filter_eq_self.mpr, List.nil_append]
  · intro n hn; simp [h2 n hn]
  · intro n hn; simp [h1 n hn]

theorem filter_ne_tag_append (cs ns : List Node) (tag : String) (h1 : ∀ c ∈ cs, c.tag ≠ tag) (h2 : ∀ n ∈ ns, n.tag = tag) :
    (cs ++ ns).filter (fun n => n.tag ≠ tag) = cs := by
  rw [List.filter_append, List.filter_eq_self.mpr, List.filter_eq_nil_iff.mpr, List.append_nil]
  · intro n hn; simp [h2 n hn]
  · intro n hn; simp [h1 n hn]

theorem appendAll_doc {x : XDoc} {t : String} {a : Option Attrs} {cs : List Node} (h : x.root = some (.mk t a none cs)) (ns : List Node) :
    x.appendAll ns = .ok { ns := x.ns, root := some (.mk t a none (cs ++ ns)) } := by
  unfold XDoc.appendAll XDoc.mapRootChildren
  rw [h]
  simp [Node.withChildren, Node.children]

theorem wfNodes_append {u : Unicode} {a b : List Node} : WfNodes u (a ++ b) ↔ WfNodes u a ∧ WfNodes u b := by
  rw [wfNodes_iff, wfNodes_iff, wfNodes_iff]
  constructor
  · intro h; exact ⟨fun c hc => h c (by simp [hc]), fun c hc => h c (by simp [hc])⟩
  · rintro ⟨h1, h2⟩ c hc
    rcases List.mem_append.mp hc with hc | hc
    · exact h1 c hc
    · exact h2 c hc

theorem wfDoc_append {u : Unicode} {x : XDoc} {t : String} {a : Option Attrs} {cs ns : List Node} (h : WfDoc u x (.mk t a none cs))
    (hn : WfNodes u ns) : WfDoc u { ns := x.ns, root := some (.mk t a none (cs ++ ns)) } (.mk t a none (cs ++ ns)) :=
  ⟨rfl, ⟨h.names.1, h.names.2.1, wfNodes_append.mpr ⟨h.names.2.2, hn⟩⟩, h.ns, h.uris⟩

/-- A leaf with a fixed tag and attribute names is well-formed when the names are. -/
theorem wfNode_attrs {u : Unicode} {tag : String} {a : Attrs} {v : Option String} {cs : List Node}
    (ht : isValidXmlName ⟨fun _ => false⟩ tag = true)
    (hk : (akeys a).all (fun k => isValidXmlName ⟨fun _ => false⟩ k && !isNsKey k) = true) (hn : (akeys a).Nodup)
    (hc : WfNodes u cs) : WfNode u (.mk tag (some a) v cs) := by
  refine ⟨validName_ascii u ht, ?_, hc⟩
  intro a' ha'
  cases ha'
  refine ⟨hn, ?_⟩
  intro k hk'
  have := List.all_eq_true.mp hk k hk'
  simp only [Bool.and_eq_true, Bool.not_eq_true'] at this
  exact ⟨validName_ascii u this.1, this.2⟩

theorem wfNode_bare {u : Unicode} {tag : String} {v : Option String} {cs : List Node}
    (ht : isValidXmlName ⟨fun _ => false⟩ tag = true) (hc : WfNodes u cs) : WfNode u (.mk tag none v cs) :=
  ⟨validName_ascii u ht, wfAttrs_none u, hc⟩

theorem wfDoc_template {u : Unicode} {tag uri : String} (ht : isValidXmlName ⟨fun _ => false⟩ tag = true) (hu : '"' ∉ uri.toList) :
    WfDoc u (XDoc.template tag uri) (.mk tag (some []) none []) := by
  refine ⟨rfl, wfNode_attrs ht rfl (by simp [akeys]) trivial, ⟨by simp [XDoc.template, akeys], ?_⟩, ?_⟩
  · intro k hk; left; simpa [XDoc.template, akeys] using hk
  · intro kv hkv
    simp only [XDoc.template, List.mem_singleton] at hkv
    subst hkv; exact ⟨hu, fun h => absurd rfl h⟩

/-- Reading a concrete text and then looking at the result. -/
theorem read_then {α : Type} {u : Unicode} {s : List Char} {f : XmlDoc → α} {v : α} (h : (readXml u s).toOption.map f = some v) :
    ∃ d, readXml u s = .ok d ∧ f d = v := by
  cases hr : readXml u s with
  | error e => rw [hr] at h; cases h
  | ok d => rw [hr] at h; exact ⟨d, rfl, Option.some.inj h⟩

theorem nodup_eraseDups {α : Type} [DecidableEq α] (l : List α) : l.eraseDups.Nodup := by
  generalize hn : l.length = n
  induction n using Nat.strongRecOn generalizing l with
  | _ n ih =>
    cases l with
    | nil => simp
    | cons a as =>
      rw [List.eraseDups_cons, List.nodup_cons]
      constructor
      · intro h
        have := List.mem_eraseDups.mp h
        simp at this
      · apply ih (List.filter _ as).length _ _ rfl
        have := List.length_filter_le (fun b => !b == a) as
        simp at hn
        omega

end Oxml
