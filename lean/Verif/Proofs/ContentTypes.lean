import Verif.Proofs.Package
/-!
# The content type part after saving and loading
-/
namespace Oxml
open Spec

/-- Escaping a string. -/
def escStr (v : String) : String := String.ofList (escape v.toList)

theorem escStr_eq_self {v : String} (h : NoSpecials v) : escStr v = v := by
  unfold escStr; rw [escape_eq_self h, String.ofList_toList]

theorem escStr_eq_iff (v : String) : escStr v = v ↔ NoSpecials v := by
  rw [← String.toList_inj, escStr, String.toList_ofList, escape_eq_self_iff]; rfl

theorem escStr_inj {v w : String} (h : escStr v = escStr w) : v = w := by
  rw [← String.toList_inj, escStr, escStr, String.toList_ofList, String.toList_ofList] at h
  exact String.toList_inj.mp (escape_inj h)

theorem noSpecials_slash {n : String} (h : NoSpecials n) : NoSpecials ("/" ++ n) := by
  intro c hc
  rw [String.toList_append] at hc
  rcases List.mem_append.mp hc with hc | hc
  · simp at hc; subst hc; decide
  · exact h c hc

theorem slash_inj {m n : String} (h : "/" ++ m = "/" ++ n) : m = n := by
  rw [← String.toList_inj] at h ⊢
  simpa [String.toList_append] using h

/-- A `Default` or `Override` element. -/
def ctNode (tag key : String) (e : String × String) : Node := .mk tag (some [(key, e.1), ("ContentType", e.2)]) none []

theorem wf_ctNode (u : Unicode) {tag key : String} (ht : isValidXmlName u tag = true) (hk : isValidXmlName u key = true)
    (hn : isNsKey key = false) (hd : key ≠ "ContentType") (e : String × String) : WfNode u (ctNode tag key e) := by
  refine ⟨ht, ?_, trivial⟩
  intro a ha
  cases ha
  refine ⟨by simp [akeys, hd], ?_⟩
  intro k hk'
  simp only [akeys, List.map_cons, List.map_nil, List.mem_cons, List.not_mem_nil, or_false] at hk'
  rcases hk' with rfl | rfl
  · exact ⟨hk, hn⟩
  · exact ⟨validName_ascii u (by decide +kernel), by decide +kernel⟩

theorem reload_ctNode_attr (u : Unicode) {tag key : String} (ht : isValidXmlName u tag = true) (hk : isValidXmlName u key = true)
    (hn : isNsKey key = false) (hd : key ≠ "ContentType") (e : String × String) :
    (reload (ctNode tag key e)).attr? key = some (escStr e.1) ∧ (reload (ctNode tag key e)).attr? "ContentType" = some (escStr e.2) ∧
    (reload (ctNode tag key e)).tag = tag := by
  have h1 := aget_reloadAttrs (wf_ctNode u ht hk hn hd e).2.1
  refine ⟨?_, ?_, rfl⟩
  · have := h1 key
    simpa [Node.attr?, Node.attrs, reload, ctNode, aget, escStr] using this
  · have := h1 "ContentType"
    simpa [Node.attr?, Node.attrs, reload, ctNode, aget, escStr, hd] using this

theorem valid_Default (u : Unicode) : isValidXmlName u "Default" = true := validName_ascii u (by decide +kernel)
theorem valid_Override (u : Unicode) : isValidXmlName u "Override" = true := validName_ascii u (by decide +kernel)
theorem valid_Extension (u : Unicode) : isValidXmlName u "Extension" = true := validName_ascii u (by decide +kernel)
theorem valid_PartName (u : Unicode) : isValidXmlName u "PartName" = true := validName_ascii u (by decide +kernel)

/-- The root of the content type part. -/
def ctRoot (exts ovs : List (String × String)) : Node :=
  .mk "Types" (some []) none (exts.map (ctNode "Default" "Extension") ++ ovs.map (ctNode "Override" "PartName"))

theorem contentTypesDoc_eq (exts ovs : List (String × String)) :
    contentTypesDoc exts ovs = { ns := [(defaultNsKey, contentTypesNs)], root := some (ctRoot exts ovs) } := rfl

theorem wf_contentTypesDoc (u : Unicode) (exts ovs : List (String × String)) :
    WfDoc u (contentTypesDoc exts ovs) (ctRoot exts ovs) := by
  refine ⟨rfl, ⟨validName_ascii u (by decide +kernel), ?_, ?_⟩, ⟨by simp [contentTypesDoc, akeys], ?_⟩, ?_⟩
  · intro a ha; cases ha; exact ⟨by simp [akeys], by simp [akeys]⟩
  · rw [wfNodes_iff]
    intro c hc
    rcases List.mem_append.mp hc with hc | hc
    · obtain ⟨e, _, rfl⟩ := List.mem_map.mp hc
      exact wf_ctNode u (valid_Default u) (valid_Extension u) (by decide +kernel) (by decide +kernel) e
    · obtain ⟨e, _, rfl⟩ := List.mem_map.mp hc
      exact wf_ctNode u (valid_Override u) (valid_PartName u) (by decide +kernel) (by decide +kernel) e
  · intro k hk
    left
    simpa [contentTypesDoc, akeys] using hk
  · intro kv hkv
    simp only [contentTypesDoc, List.mem_singleton] at hkv
    subst hkv
    simp only
    decide +kernel

theorem reload_ctRoot_children (exts ovs : List (String × String)) :
    (reload (ctRoot exts ovs)).children =
      exts.map (fun e => reload (ctNode "Default" "Extension" e)) ++ ovs.map (fun e => reload (ctNode "Override" "PartName" e)) := by
  simp only [ctRoot, reload, Node.children, reloads_eq, List.map_append, List.map_map]
  rfl

theorem filter_tag_default (u : Unicode) (exts ovs : List (String × String)) :
    (reload (ctRoot exts ovs)).children.filter (fun n => n.tag = "Default") = exts.map (fun e => reload (ctNode "Default" "Extension" e)) := by
  rw [reload_ctRoot_children, List.filter_append, List.filter_eq_self.mpr, List.filter_eq_nil_iff.mpr, List.append_nil]
  · intro n hn
    obtain ⟨e, _, rfl⟩ := List.mem_map.mp hn
    have := (reload_ctNode_attr u (valid_Override u) (valid_PartName u) (by decide +kernel) (by decide +kernel) e).2.2
    rw [this]; decide
  · intro n hn
    obtain ⟨e, _, rfl⟩ := List.mem_map.mp hn
    have := (reload_ctNode_attr u (valid_Default u) (valid_Extension u) (by decide +kernel) (by decide +kernel) e).2.2
    rw [this]; decide

theorem filter_tag_override (u : Unicode) (exts ovs : List (String × String)) :
    (reload (ctRoot exts ovs)).children.filter (fun n => n.tag ≠ "Default") = ovs.map (fun e => reload (ctNode "Override" "PartName" e)) := by
  rw [reload_ctRoot_children, List.filter_append, List.filter_eq_nil_iff.mpr, List.filter_eq_self.mpr, List.nil_append]
  · intro n hn
    obtain ⟨e, _, rfl⟩ := List.mem_map.mp hn
    have := (reload_ctNode_attr u (valid_Override u) (valid_PartName u) (by decide +kernel) (by decide +kernel) e).2.2
    rw [this]; decide
  · intro n hn
    obtain ⟨e, _, rfl⟩ := List.mem_map.mp hn
    have := (reload_ctNode_attr u (valid_Default u) (valid_Extension u) (by decide +kernel) (by decide +kernel) e).2.2
    rw [this]; decide

theorem getExtensions_reload (b : Build) (u : Unicode) (exts ovs : List (String × String)) :
    getExtensions (reloadDoc b (contentTypesDoc exts ovs)) = .ok (exts.map (fun e => (escStr e.1, escStr e.2))) := by
  unfold getExtensions
  have : (reloadDoc b (contentTypesDoc exts ovs)).rootChildren = (reload (ctRoot exts ovs)).children := rfl
  rw [this, filter_tag_default u]
  have key : ∀ f : Node → Res (String × String),
      (∀ e, f (reload (ctNode "Default" "Extension" e)) = .ok (escStr e.1, escStr e.2)) →
      mapRes f (exts.map (fun e => reload (ctNode "Default" "Extension" e))) = .ok (exts.map (fun e => (escStr e.1, escStr e.2))) := by
    intro f hf
    clear this
    induction exts with
    | nil => rfl
    | cons x xs ih => simp only [List.map_cons, mapRes, hf x, ih]
  apply key
  intro e
  obtain ⟨h1, h2, _⟩ := reload_ctNode_attr u (valid_Default u) (valid_Extension u) (by decide +kernel) (by decide +kernel) e
  simp only [needAttr, h1, h2]

theorem overrideContentType_reload (b : Build) (u : Unicode) (exts ovs : List (String × String)) (n : String) :
    overrideContentType (reloadDoc b (contentTypesDoc exts ovs)) n =
      .ok (((ovs.filter (fun o => escStr o.1 = "/" ++ n)).getLast?).map (fun o => escStr o.2)) := by
  unfold overrideContentType
  have : (reloadDoc b (contentTypesDoc exts ovs)).rootChildren = (reload (ctRoot exts ovs)).children := rfl
  rw [this, filter_tag_override u, List.filter_map]
  have h1 : ((fun n_1 : Node => decide (n_1.attr? "PartName" = some ("/" ++ n))) ∘ fun e => reload (ctNode "Override" "PartName" e)) =
      (fun o : String × String => decide (escStr o.1 = "/" ++ n)) := by
    funext o
    obtain ⟨h1, h2, _⟩ := reload_ctNode_attr u (valid_Override u) (valid_PartName u) (by decide +kernel) (by decide +kernel) o
    simp only [Function.comp, h1, Option.some.injEq]
  rw [h1, List.getLast?_map]
  cases hl : (ovs.filter (fun o => escStr o.1 = "/" ++ n)).getLast? with
  | none => rfl
  | some o =>
    obtain ⟨h1, h2, _⟩ := reload_ctNode_attr u (valid_Override u) (valid_PartName u) (by decide +kernel) (by decide +kernel) o
    simp only [Option.map_some, h2]

theorem overrides_mem {p : Pkg} {o : String × String} :
    o ∈ p.overrides ↔ ∃ n e c, (n, e) ∈ p.archive ∧ e.ctype = some c ∧ o = ("/" ++ n, c) := by
  unfold Pkg.overrides
  rw [List.mem_filterMap]
  constructor
  · rintro ⟨⟨n, e⟩, hm, ho⟩
    cases hc : e.ctype with
    | none => simp [hc] at ho
    | some c => simp [hc] at ho; exact ⟨n, e, c, hm, hc, ho.symm⟩
  · rintro ⟨n, e, c, hm, hc, rfl⟩
    exact ⟨(n, e), hm, by simp [hc]⟩

theorem overrides_filter_aux {m : List (String × Entry)} {n : String} (hm : (akeys m).Nodup) :
    (m.filterMap (fun kv => kv.2.ctype.map (fun c => ("/" ++ kv.1, c)))).filter (fun o => o.1 = "/" ++ n) =
      match (aget n m).bind Entry.ctype with
      | none => []
      | some c => [("/" ++ n, c)] := by
  induction m with
  | nil => rfl
  | cons x xs ih =>
    obtain ⟨k, e⟩ := x
    simp only [akeys, List.map_cons, List.nodup_cons] at hm
    have ih := ih hm.2
    simp only [aget]
    by_cases hk : k = n
    · subst hk
      rw [if_pos rfl]
      have hnone : aget k xs = none := (aget_eq_none_iff _ _).mpr hm.1
      rw [hnone] at ih
      simp only [Option.bind_none] at ih
      cases hc : e.ctype with
      | none => simp only [List.filterMap_cons, hc, Option.map_none, Option.bind_some]; exact ih
      | some c =>
        simp only [List.filterMap_cons, hc, Option.map_some, Option.bind_some, List.filter_cons, decide_true, if_true]
        rw [ih]
    · rw [if_neg hk]
      cases hc : e.ctype with
      | none => simp only [List.filterMap_cons, hc, Option.map_none]; exact ih
      | some c =>
        simp only [List.filterMap_cons, hc, Option.map_some, List.filter_cons]
        rw [if_neg]
        · exact ih
        · simp only [decide_eq_true_eq]; intro h; exact hk (slash_inj h)

theorem overrides_filter {p : Pkg} (hp : p.Inv) (n : String) :
    p.overrides.filter (fun o => o.1 = "/" ++ n) =
      match (aget n p.archive).bind Entry.ctype with
      | none => []
      | some c => [("/" ++ n, c)] := overrides_filter_aux hp.archive

theorem filter_escStr {p : Pkg} {n : String} (hn : NoSpecials n) :
    p.overrides.filter (fun o => escStr o.1 = "/" ++ n) = p.overrides.filter (fun o => o.1 = "/" ++ n) := by
  apply List.filter_congr
  intro o _
  have h := escStr_eq_self (noSpecials_slash hn)
  by_cases ho : o.1 = "/" ++ n
  · simp [ho, h]
  · have : ¬ escStr o.1 = "/" ++ n := fun he => ho (escStr_inj (he.trans h.symm))
    simp [ho, this]

/-- The text of the content type part of a non-empty package reads back. -/
theorem readXml_contentTypes (env : Env) (hst : env.build.release = true → StampOk env.stamp) (exts ovs : List (String × String))
    (he : exts ≠ []) :
    ∃ d, readXml env.uni (renderDoc env.build env.stamp (contentTypesDoc exts ovs)) = .ok d ∧
      d.toXDoc = reloadDoc env.build (contentTypesDoc exts ovs) := by
  obtain ⟨d, h1, _, h3⟩ := readXml_renderDoc env.build env.uni hst (wf_contentTypesDoc env.uni exts ovs) (by
    cases exts with
    | nil => exact absurd rfl he
    | cons x xs => rfl)
  exact ⟨d, h1, h3⟩

theorem loadEntries_total {types : XDoc} {exts : List (String × String)} {z : Zip}
    (h : ∀ n c, ∃ e, loadEntry types exts n c = .ok e) : ∃ m, loadEntries types exts z = .ok m := by
  induction z with
  | nil => exact ⟨_, rfl⟩
  | cons x xs ih =>
    obtain ⟨k, c⟩ := x
    obtain ⟨m, hm⟩ := ih
    obtain ⟨e, he⟩ := h k c
    exact ⟨(k, e) :: m, by simp only [loadEntries, he, hm]⟩

/-- Loading a saved package: the parts and, for plain names, their content types. -/
theorem ofZip_toZip (env : Env) (hst : env.build.release = true → StampOk env.stamp) {p : Pkg}
    {exts : List (String × String)} (ho : HashSetOrder p.extPairs exts) {z : Zip} (hz : p.toZip env exts = .ok z)
    (hne : p.archive ≠ []) :
    ∃ q, Pkg.ofZip env z = .ok q ∧ akeys q.archive = akeys p.archive ∧ q.opened = [] ∧
      ∀ n e, aget n p.archive = some e → ∃ e', aget n q.archive = some e' ∧ e'.content = e.content ∧
        e'.ctype = ((p.overrides.filter (fun o => escStr o.1 = "/" ++ n)).getLast?).map (fun o => escStr o.2) ∧
        (∀ x, (exts.map (fun e => (escStr e.1, escStr e.2))).find? (fun x => x.1 = fileExtension n) = some x → e'.ext = x.1 ∧ e'.extType = x.2) ∧
        ((exts.map (fun e => (escStr e.1, escStr e.2))).find? (fun x => x.1 = fileExtension n) = none → e'.ext = "" ∧ e'.extType = "") := by
  have hexts : exts ≠ [] := by
    intro he
    cases ha : p.archive with
    | nil => exact hne ha
    | cons x xs =>
      have : (x.2.ext, x.2.extType) ∈ exts := (ho.mem _).mpr (by simp [Pkg.extPairs, ha])
      rw [he] at this; cases this
  obtain ⟨d, hd, hx⟩ := readXml_contentTypes env hst exts p.overrides hexts
  obtain ⟨hnt, rfl⟩ := toZip_ok hz
  have hload : ∀ n c, ∃ e, loadEntry d.toXDoc (exts.map (fun e => (escStr e.1, escStr e.2))) n c = .ok e := by
    intro n c
    unfold loadEntry
    rw [hx, overrideContentType_reload _ env.uni]
    simp only
    split <;> exact ⟨_, rfl⟩
  have hct : aget contentTypesName (p.archive.map (fun kv => (kv.1, kv.2.content)) ++
      [(contentTypesName, renderDoc env.build env.stamp (contentTypesDoc exts p.overrides))]) =
      some (renderDoc env.build env.stamp (contentTypesDoc exts p.overrides)) := by
    rw [aget_append, aget_map_content, (aget_eq_none_iff _ _).mpr hnt]
    simp [aget]
  have hfil : (p.archive.map (fun kv => (kv.1, kv.2.content)) ++
      [(contentTypesName, renderDoc env.build env.stamp (contentTypesDoc exts p.overrides))]).filter (fun kv => kv.1 ≠ contentTypesName) =
      p.archive.map (fun kv => (kv.1, kv.2.content)) := by
    rw [List.filter_append, List.filter_eq_self.mpr, List.filter_eq_nil_iff.mpr, List.append_nil]
    · intro kv hkv
      simp only [List.mem_singleton] at hkv
      subst hkv; simp
    · intro kv hkv
      obtain ⟨x, hx, rfl⟩ := List.mem_map.mp hkv
      simp only [ne_eq, decide_not, Bool.not_eq_true', decide_eq_false_iff_not]
      intro he
      exact hnt (List.mem_map.mpr ⟨x, hx, he⟩)
  obtain ⟨m, hm⟩ := loadEntries_total (z := p.archive.map (fun kv => (kv.1, kv.2.content))) hload
  refine ⟨{ opened := [], archive := m, nextHandle := 0 }, ?_, ?_, rfl, ?_⟩
  · unfold Pkg.ofZip
    simp only [hct, hd]
    rw [hx, getExtensions_reload _ env.uni]
    simp only
    rw [← hx, hfil, hm]
  · simp only
    rw [(loadEntries_ok hm).1, akeys_map_content]
  · intro n e he
    have h2 := (loadEntries_ok hm).2 n
    rw [aget_map_content, he] at h2
    simp only [Option.map_some] at h2
    cases hq : aget n m with
    | none => rw [hq] at h2; cases h2
    | some e' =>
      rw [hq] at h2
      simp only [Option.map_some, Option.some.injEq] at h2
      refine ⟨e', rfl, loadEntry_content h2.symm, ?_, ?_, ?_⟩
      · unfold loadEntry at h2
        rw [hx, overrideContentType_reload _ env.uni] at h2
        simp only at h2
        split at h2 <;> cases h2 <;> rfl
      · intro x hx'
        unfold loadEntry at h2
        rw [hx, overrideContentType_reload _ env.uni, hx'] at h2
        simp only at h2
        cases h2; exact ⟨rfl, rfl⟩
      · intro hx'
        unfold loadEntry at h2
        rw [hx, overrideContentType_reload _ env.uni, hx'] at h2
        simp only at h2
        cases h2; exact ⟨rfl, rfl⟩

end Oxml
