import Verif.Proofs.XmlSpec
/-!
# C06-C14: the XML layer
-/
namespace Oxml
open Spec

theorem Reachable.good {u : Unicode} {d : XmlDoc} (h : Reachable u d) : d.Inv ∧ d.Named u := by
  induction h with
  | new => exact ⟨.new, .new u⟩
  | read h => exact readXml_good h
  | edit _ e he ih => exact ⟨ih.1.edit e, ih.2.edit e he⟩

theorem Reachable.wf {u : Unicode} {d : XmlDoc} (h : Reachable u d) {root : Node} (hr : d.toXDoc.root = some root)
    (hc : CleanUris d.ns) : WfDoc u d.toXDoc root :=
  ⟨hr, wfNode_toNode h.good.2 _ _ _ hr, h.good.2.ns, hc⟩

/-! ## C06 -/

/-- **C06.** Unescaping the escaped text gives the text back. -/
theorem C06_escape_lossless (s : List Char) : unescape (escape s) = .ok s := unescape_escape s

/-- **C06.** The escaped text has no raw `<`, `>`, quote or apostrophe, and every `&` starts one of the five entities. -/
theorem C06_escape_markup_safe (s : List Char) :
    (∀ x ∈ escape s, x ≠ '<' ∧ x ≠ '>' ∧ x ≠ '"' ∧ x ≠ '\'') ∧
    (∀ l r, escape s = l ++ '&' :: r → ∃ name ∈ entityNames, ∃ r', r = name ++ ';' :: r') :=
  ⟨fun _ hx => escape_no_markup hx, fun _ _ h => escape_amp_entity h⟩

/-- **C06.** Different texts are escaped differently. -/
theorem C06_escape_injective (s t : List Char) (h : escape s = escape t) : s = t := escape_inj h

example : escape "a<b & \"c\"".toList = "a&lt;b &amp; &quot;c&quot;".toList := by decide +kernel
example : unescape "a&lt;b &amp; &#x41;&#66;".toList = .ok "a<b & AB".toList := by decide +kernel

/-! ## C07 -/

/-- **C07.** For every document the library can hold, writing succeeds and produces the document-order rendering of
its tree; the tree is there as soon as a root was created. -/
theorem C07_write_total (b : Build) (u : Unicode) (stamp : List Char) (d : XmlDoc) (h : Reachable u d) :
    writeXml b stamp d = .ok (renderDoc b stamp d.toXDoc) ∧ (d.toXDoc.root.isSome = (d.get 0).isSome) := by
  refine ⟨writeXml_eq b stamp h.good.1, ?_⟩
  cases h0 : d.get 0 with
  | none =>
    have : d.toXDoc.root = none := by
      change XmlDoc.toNode d (d.runningId + 1) 0 = none
      rw [XmlDoc.toNode, h0]
    rw [this]; rfl
  | some e =>
    obtain ⟨n, hn⟩ := toXDoc_root h.good.1 h0
    rw [hn]; rfl

/-- The edits of the examples: a root with two children, the second moved first, one of them later removed. -/
def exampleEdits : List Edit :=
  [.createRoot "a", .append "b" 0, .before "c" "b" 0, .append "d" 1, .value 3 "x<y", .attributes 2 [("k", "1"), ("j", "2")]]

example : writeXml ⟨false⟩ [] (XmlDoc.history ⟨fun _ => false⟩ exampleEdits) =
    .ok "<?xml version=\"1.0\" encoding=\"utf-8\"?><a  ><c j=\"2\" k=\"1\" /><b ><d >x&lt;y</d></b></a>".toList := by
  decide +kernel

/-! ## C08 -/

/-- **C08.** Writing any document with a non-self-closing root and reading the text back succeeds, and the tree read is
exactly `reloadDoc`: the specification in `Spec/Reload.lean`. -/
theorem C08_reload_exact (b : Build) (u : Unicode) (stamp : List Char) (hst : b.release = true → StampOk stamp)
    (d : XmlDoc) (h : Reachable u d) (root : Node) (hr : d.toXDoc.root = some root) (hnc : selfClosing root = false)
    (hc : CleanUris d.ns) :
    ∃ text d', writeXml b stamp d = .ok text ∧ readXml u text = .ok d' ∧ d'.toXDoc = reloadDoc b d.toXDoc := by
  obtain ⟨d', h1, _, h3⟩ := readXml_renderDoc b u hst (h.wf hr hc) hnc
  exact ⟨_, d', (C07_write_total b u stamp d h).1, h1, h3⟩

/-- **C08.** If moreover texts are trimmed, attribute values contain no special character and no element has both text
and children, the tree read back is the same: tags, nesting, order, attributes, texts and namespace bindings
(a release build only adds its own prefix). -/
theorem C08_roundtrip (b : Build) (u : Unicode) (stamp : List Char) (hst : b.release = true → StampOk stamp)
    (d : XmlDoc) (h : Reachable u d) (root : Node) (hr : d.toXDoc.root = some root) (hnc : selfClosing root = false)
    (hc : CleanUris d.ns) (hp : Plain root) :
    ∃ text d' root', writeXml b stamp d = .ok text ∧ readXml u text = .ok d' ∧ d'.toXDoc.root = some root' ∧
      Same root root' ∧ ∀ k, (b.release = false ∨ k ≠ "dvmo") → aget k d'.ns = aget k d.ns := by
  obtain ⟨text, d', h1, h2, h3⟩ := C08_reload_exact b u stamp hst d h root hr hnc hc
  refine ⟨text, d', reload root, h1, h2, ?_, same_reload root (h.wf hr hc).names hp, ?_⟩
  · rw [h3]; simp [reloadDoc, hr]
  · intro k hk
    have : d'.ns = releaseNs b d.ns := by
      have := congrArg XDoc.ns h3
      exact this
    rw [this]
    unfold releaseNs
    split
    · rename_i hb
      rcases hk with hk | hk
      · rw [hb] at hk; cases hk
      · rw [aget_ainsert, if_neg (Ne.symm hk)]
    · rfl

/-- The example document meets the hypotheses of `C08_roundtrip`. -/
example : ∃ root, (XmlDoc.history ⟨fun _ => false⟩ exampleEdits).toXDoc.root = some root ∧ selfClosing root = false ∧
    root = .mk "a" none none [.mk "c" (some [("k", "1"), ("j", "2")]) none [], .mk "b" none none [.mk "d" none (some "x<y") []]] := by
  refine ⟨_, ?_, ?_, rfl⟩ <;> decide +kernel

example : Plain (.mk "a" none none [.mk "c" (some [("k", "1"), ("j", "2")]) none [], .mk "b" none none [.mk "d" none (some "x<y") []]]) := by
  simp only [Plain, Plains, NoSpecials, Trimmed, and_true, Option.some.injEq, forall_eq', reduceCtorEq, false_implies, implies_true,
    true_and]
  decide +kernel

/-- **C08, the excluded case.** A document whose root has neither text nor children is written as a self-closing root,
which the library cannot read back. -/
theorem C08_selfclosing_unreadable (b : Build) (u : Unicode) (stamp : List Char) (hst : b.release = true → StampOk stamp)
    (d : XmlDoc) (h : Reachable u d) (root : Node) (hr : d.toXDoc.root = some root) (hnc : selfClosing root = true)
    (hc : CleanUris d.ns) :
    ∃ text, writeXml b stamp d = .ok text ∧ readXml u text = .error (.fail "Parent Element Not Found") :=
  ⟨_, (C07_write_total b u stamp d h).1, readXml_selfClosing b u hst (h.wf hr hc) hnc⟩

example : writeXml ⟨false⟩ [] (XmlDoc.history ⟨fun _ => false⟩ [.createRoot "calcChain"]) =
    .ok "<?xml version=\"1.0\" encoding=\"utf-8\"?><calcChain  />".toList ∧
    readXml ⟨fun _ => false⟩ "<?xml version=\"1.0\" encoding=\"utf-8\"?><calcChain  />".toList =
      .error (.fail "Parent Element Not Found") := by decide +kernel

/-! ## C09 -/

/-- **C09 as stated.** Reading a text, writing it and reading it again leaves the text denoted by each attribute value
(its unescaped form) the same. -/
def AttributeValuesSurvive (b : Build) (u : Unicode) (stamp : List Char) : Prop :=
  ∀ s d t d' root root' p x, readXml u s = .ok d → writeXml b stamp d = .ok t → readXml u t = .ok d' →
    d.toXDoc.root = some root → d'.toXDoc.root = some root' → nodeAt root p = some x →
    ∃ x', nodeAt root' p = some x' ∧ ∀ k v, x.attr? k = some v →
      ∃ v', x'.attr? k = some v' ∧ unescape v'.toList = unescape v.toList

/-- The witness: a document with an attribute `k` denoting `<`. -/
def ltDoc : XDoc := { ns := [], root := some (.mk "a" none none [.mk "b" (some [("k", "<")]) none []]) }

theorem ltDoc_wf (u : Unicode) : WfDoc u ltDoc (.mk "a" none none [.mk "b" (some [("k", "<")]) none []]) := by
  have ha : isValidXmlName u "a" = true := validName_ascii u (by decide +kernel)
  have hb : isValidXmlName u "b" = true := validName_ascii u (by decide +kernel)
  have hk : isValidXmlName u "k" = true := validName_ascii u (by decide +kernel)
  refine ⟨rfl, ⟨ha, wfAttrs_none u, ⟨hb, ?_, trivial⟩, trivial⟩, ⟨by simp [ltDoc, akeys], by simp [ltDoc, akeys]⟩, by simp [ltDoc, CleanUris]⟩
  intro a he
  cases he
  refine ⟨by simp [akeys], ?_⟩
  intro k hk'
  simp [akeys] at hk'
  subst hk'
  exact ⟨hk, by decide +kernel⟩

/-- **C09 is violated**, in every build: attribute values are read raw but written escaped, so the value `&lt;` of a
file becomes `&amp;lt;` after one read and write. -/
theorem C09_violated (b : Build) (u : Unicode) (stamp : List Char) (hst : b.release = true → StampOk stamp) :
    ¬ AttributeValuesSurvive b u stamp := by
  intro h
  obtain ⟨d, h1, h2, h3⟩ := readXml_renderDoc b u hst (ltDoc_wf u) rfl
  have hr : d.toXDoc.root = some (reload (.mk "a" none none [.mk "b" (some [("k", "<")]) none []])) := by
    rw [h3]; rfl
  have hns : d.ns = releaseNs b [] := congrArg XDoc.ns h3
  have hc : CleanUris d.ns := by rw [hns]; exact cleanUris_release b (by simp [CleanUris])
  obtain ⟨t, d', w1, w2, w3⟩ := C08_reload_exact b u stamp hst d (.read h1) _ hr rfl hc
  have hr' : d'.toXDoc.root = some (reload (reload (.mk "a" none none [.mk "b" (some [("k", "<")]) none []]))) := by
    rw [w3]; simp only [reloadDoc, hr, Option.map_some]
  obtain ⟨x', hx', hk⟩ := h _ d t d' _ _ [0] _ h1 w1 w2 hr hr' rfl
  obtain ⟨v', hv', he⟩ := hk "k" "&lt;" (by decide +kernel)
  have hx2 : x' = reload (reload (.mk "b" (some [("k", "<")]) none [])) := by
    have : nodeAt (reload (reload (.mk "a" none none [.mk "b" (some [("k", "<")]) none []]))) [0] =
        some (reload (reload (.mk "b" (some [("k", "<")]) none []))) := rfl
    rw [this] at hx'; cases hx'; rfl
  have hv2 : v' = "&amp;lt;" := by
    have : (reload (reload (.mk "b" (some [("k", "<")]) none []))).attr? "k" = some "&amp;lt;" := by decide +kernel
    rw [hx2, this] at hv'; cases hv'; rfl
  rw [hv2] at he
  revert he
  decide +kernel

/-- **C09, what holds.** After writing and reading, every attribute of every element reachable without passing a text
is still there, with its value escaped once more; so a value is unchanged exactly when it has no special character.
Missing from the full claim: values with special characters. -/
theorem C09_partial (b : Build) (u : Unicode) (stamp : List Char) (hst : b.release = true → StampOk stamp)
    (d : XmlDoc) (h : Reachable u d) (root : Node) (hr : d.toXDoc.root = some root) (hnc : selfClosing root = false)
    (hc : CleanUris d.ns) :
    ∃ text d' root', writeXml b stamp d = .ok text ∧ readXml u text = .ok d' ∧ d'.toXDoc.root = some root' ∧
      ∀ p x, nodeAt root p = some x → ∃ x', nodeAt root' p = some x' ∧
        (∀ k, x'.attr? k = (x.attr? k).map (fun v => String.ofList (escape v.toList))) ∧
        (∀ k v, x.attr? k = some v → (x'.attr? k = some v ↔ NoSpecials v)) := by
  obtain ⟨text, d', h1, h2, h3⟩ := C08_reload_exact b u stamp hst d h root hr hnc hc
  refine ⟨text, d', reload root, h1, h2, ?_, ?_⟩
  · rw [h3]; simp [reloadDoc, hr]
  · intro p x hx
    have hw := wfNode_nodeAt (h.wf hr hc).names hx
    have hattr : ∀ k, (reload x).attr? k = (x.attr? k).map (fun v => String.ofList (escape v.toList)) := by
      intro k
      cases x with
      | mk t a v cs =>
        have := aget_reloadAttrs hw.2.1 k
        cases v <;> cases a <;> simpa [Node.attr?, Node.attrs, reload] using this
    refine ⟨reload x, nodeAt_reload_some hx, hattr, ?_⟩
    intro k v hv
    rw [hattr, hv]
    simp only [Option.map_some, Option.some.injEq]
    rw [← String.toList_inj, String.toList_ofList, escape_eq_self_iff]
    rfl

/-! ## C10 -/

/-- **C10 as stated.** Writing a document and reading it back leaves every text the same. -/
def TextsSurvive (b : Build) (u : Unicode) (stamp : List Char) : Prop :=
  ∀ d t d' root root' p x, Reachable u d → writeXml b stamp d = .ok t → readXml u t = .ok d' →
    d.toXDoc.root = some root → d'.toXDoc.root = some root' → nodeAt root p = some x →
    ∃ x', nodeAt root' p = some x' ∧ x'.value = x.value

/-- **C10 is violated**, in every build: the text ` x` comes back as `x`. -/
theorem C10_violated (b : Build) (u : Unicode) (stamp : List Char) (hst : b.release = true → StampOk stamp) :
    ¬ TextsSurvive b u stamp := by
  intro h
  have ha : isValidXmlName u "a" = true := validName_ascii u (by decide +kernel)
  have hd : ((XmlDoc.new.edit u (.createRoot "a")).edit u (.value 0 " x")) =
      { runningId := 0, ns := [], elems := [(0, { id := 0, parentId := 0, tag := "a", attrs := none, value := some " x", children := [] })] } := by
    simp [XmlDoc.edit, XmlDoc.createRoot, newElem, ha, bind, Except.bind, Except.toOption, XmlDoc.setValue, XmlDoc.put, XmlDoc.new, XmlDoc.get, ainsert, aget]
  have hreach : Reachable u ((XmlDoc.new.edit u (.createRoot "a")).edit u (.value 0 " x")) :=
    .edit (.edit .new (.createRoot "a") trivial) (.value 0 " x") trivial
  have hr : ((XmlDoc.new.edit u (.createRoot "a")).edit u (.value 0 " x")).toXDoc.root = some (.mk "a" none (some " x") []) := by
    rw [hd]; decide +kernel
  obtain ⟨t, d', w1, w2, w3⟩ := C08_reload_exact b u stamp hst _ hreach _ hr rfl (by rw [hd]; simp [CleanUris])
  have hr' : d'.toXDoc.root = some (reload (.mk "a" none (some " x") [])) := by
    rw [w3]; simp only [reloadDoc, hr, Option.map_some]
  obtain ⟨x', hx', he⟩ := h _ t d' _ _ [] _ hreach w1 w2 hr hr' rfl
  cases hx'
  revert he
  decide +kernel

/-- **C10, what holds.** Every text reachable without passing another text comes back trimmed (empty or blank text as no
text), hence unchanged exactly when it is trimmed and non-empty.
Missing from the full claim: surrounding white space, and children of elements with a text. -/
theorem C10_partial (b : Build) (u : Unicode) (stamp : List Char) (hst : b.release = true → StampOk stamp)
    (d : XmlDoc) (h : Reachable u d) (root : Node) (hr : d.toXDoc.root = some root) (hnc : selfClosing root = false)
    (hc : CleanUris d.ns) :
    ∃ text d' root', writeXml b stamp d = .ok text ∧ readXml u text = .ok d' ∧ d'.toXDoc.root = some root' ∧
      ∀ p x, nodeAt root p = some x → ∃ x', nodeAt root' p = some x' ∧
        (x.value = none → x'.value = none) ∧
        (∀ v, x.value = some v → x'.value = reloadText v ∧ (x'.value = some v ↔ Trimmed v)) := by
  obtain ⟨text, d', h1, h2, h3⟩ := C08_reload_exact b u stamp hst d h root hr hnc hc
  refine ⟨text, d', reload root, h1, h2, ?_, ?_⟩
  · rw [h3]; simp [reloadDoc, hr]
  · intro p x hx
    refine ⟨reload x, nodeAt_reload_some hx, ?_, ?_⟩
    · intro hv
      cases x with
      | mk t a v cs => cases hv; simp [reload, Node.value]
    · intro v hv
      cases x with
      | mk t a v' cs =>
        cases hv
        refine ⟨by simp [reload, Node.value], ?_⟩
        simp only [reload, Node.value]
        constructor
        · intro he
          unfold reloadText at he
          split at he
          · cases he
          · rename_i hne
            simp only [Option.some.injEq] at he
            have := congrArg String.toList he
            rw [String.toList_ofList] at this
            exact ⟨by rw [← this]; exact hne, this⟩
        · exact reloadText_trimmed

example : reloadText "a b" = some "a b" ∧ reloadText "\n a b " = some "a b" ∧ reloadText "  " = none := by decide +kernel

/-! ## C11 -/

/-- **C11.** After any edit history the arena holds a proper ordered tree. -/
theorem C11_tree_integrity (u : Unicode) (d : XmlDoc) (h : Reachable u d) :
    TreeShaped d.get ∧ ((d.get 0).isSome → ∃ root, d.toXDoc.root = some root) := by
  refine ⟨h.good.1.tree, ?_⟩
  intro h0
  obtain ⟨e, he⟩ := Option.isSome_iff_exists.mp h0
  exact toXDoc_root h.good.1 he

/-- **C11.** An id handed out by an insertion was never in use before, in any earlier state of the document. -/
theorem C11_ids_fresh (u : Unicode) (d d' : XmlDoc) (h : Reachable u d) (later : List Edit) (tag other : String)
    (pos parent id : Nat)
    (hins : (later.foldl (XmlDoc.edit u) d).appendChild u tag parent = .ok (d', id) ∨
      (later.foldl (XmlDoc.edit u) d).insertBefore u tag other parent = .ok (d', id) ∨
      (later.foldl (XmlDoc.edit u) d).insertAfter u tag other parent = .ok (d', id) ∨
      (later.foldl (XmlDoc.edit u) d).insertAt u tag pos parent = .ok (d', id)) :
    d.get id = none ∧ ∃ e, d'.get id = some e ∧ e.tag = tag ∧ e.parentId = parent := by
  have key : ∀ place, (later.foldl (XmlDoc.edit u) d).insertWith u tag parent place = .ok (d', id) →
      d.get id = none ∧ ∃ e, d'.get id = some e ∧ e.tag = tag ∧ e.parentId = parent := by
    intro place hp
    obtain ⟨p, cs, _, _, _, rfl, rfl⟩ := insertWith_ok hp
    constructor
    · cases hg : d.get ((later.foldl (XmlDoc.edit u) d).runningId + 1) with
      | none => rfl
      | some e =>
        have h1 := h.good.1.le _ _ hg
        have h2 := XmlDoc.foldl_runningId u later d
        omega
    · exact ⟨_, XmlDoc.get_put_self _ _ _, rfl, rfl⟩
  rcases hins with h | h | h | h
  · exact key _ h
  · exact key _ h
  · exact key _ h
  · exact key _ h

example : ((XmlDoc.history ⟨fun _ => false⟩ (exampleEdits ++ [.popTag "b" 0])).appendChild ⟨fun _ => false⟩ "e" 0).toOption.map Prod.snd
    = some 4 ∧ (XmlDoc.history ⟨fun _ => false⟩ (exampleEdits ++ [.popTag "b" 0])).get 1 = none := by decide +kernel

/-! ## C12 -/

/-- **C12.** Ordering children by a list of distinct tags gives a permutation; listed tags come in list order and
unlisted tags last; elements with the same tag keep their order. -/
theorem C12_order_children {α : Type} (tagOf : α → String) (skeleton : List String) (cs : List α)
    (hn : skeleton.Nodup) (hl : skeleton.length ≤ usizeMax) :
    (orderChildren tagOf skeleton cs).Perm cs ∧
    (orderChildren tagOf skeleton cs).Pairwise (fun x y => skeleton.idxOf (tagOf x) ≤ skeleton.idxOf (tagOf y)) ∧
    ∀ tag, (orderChildren tagOf skeleton cs).filter (fun c => tagOf c = tag) = cs.filter (fun c => tagOf c = tag) := by
  refine ⟨orderChildren_perm _ _ _, ?_, ?_⟩
  · unfold orderChildren
    split
    · refine (stableSort_pairwise (fun c => orderKey skeleton (tagOf c)) cs).imp ?_
      intro x y hxy
      rw [orderKey_nodup hn, orderKey_nodup hn] at hxy
      have hlt : ∀ t, t ∈ skeleton → skeleton.idxOf t < skeleton.length := fun t ht => List.idxOf_lt_length_of_mem ht
      have hge : ∀ t, t ∉ skeleton → skeleton.idxOf t = skeleton.length := fun t ht => List.idxOf_eq_length ht
      by_cases hx : tagOf x ∈ skeleton <;> by_cases hy : tagOf y ∈ skeleton
      · simpa [hx, hy] using hxy
      · have := hlt _ hx; rw [hge _ hy]; omega
      · rw [if_neg hx, if_pos hy] at hxy
        have := hlt _ hy; omega
      · rw [hge _ hx, hge _ hy]; exact Nat.le_refl _
    · rename_i hc
      by_cases h1 : cs = []
      · subst h1; exact List.Pairwise.nil
      · have h2 : skeleton = [] := by
          apply Classical.byContradiction
          intro h2; exact hc ⟨h1, h2⟩
        subst h2
        exact List.pairwise_of_forall (fun _ _ => Nat.le_refl _)
  · intro tag
    unfold orderChildren
    split
    · apply stableSort_filter
      intro a b ha hb
      simp only [decide_eq_true_eq] at ha hb
      rw [ha, hb]
    · rfl

example : orderChildren id ["cols", "sheetData", "legacy"] ["x", "legacy", "sheetData", "y", "cols", "legacy"] =
    ["cols", "sheetData", "legacy", "legacy", "x", "y"] := by decide +kernel

/-- **C12.** On a document, `order_child` rearranges the children of that element only. -/
theorem C12_order_child_document (d d' : XmlDoc) (id : Nat) (skeleton : List String) (h : d.orderChild id skeleton = .ok d') :
    (∃ e, d.get id = some e ∧ d'.get id = some { e with children := orderChildren Child.tag skeleton e.children }) ∧
    ∀ j, j ≠ id → d'.get j = d.get j := by
  obtain ⟨e, he, rfl⟩ := orderChild_ok h
  exact ⟨⟨e, he, XmlDoc.get_put_self _ _ _⟩, fun j hj => XmlDoc.get_put_ne _ (Ne.symm hj) _⟩

/-! ## C13 -/

/-- **C13.** All tags and attribute names ever held by a document are legal XML names. -/
theorem C13_names_legal (u : Unicode) (d : XmlDoc) (h : Reachable u d) (i : Nat) (e : Elem) (he : d.get i = some e) :
    LegalName u e.tag ∧ ∀ a, e.attrs = some a → ∀ kv ∈ a, LegalName u kv.1 := by
  obtain ⟨h1, h2⟩ := h.good.2.elem i e he
  refine ⟨(isValidXmlName_iff u _).mp h1, ?_⟩
  intro a ha kv hkv
  exact (isValidXmlName_iff u _).mp ((h2 a ha).2 kv.1 (List.mem_map.mpr ⟨kv, hkv, rfl⟩)).1

/-- **C13.** An illegal name is refused with an error (and hence leaves the document unchanged). -/
theorem C13_illegal_refused (u : Unicode) (d : XmlDoc) (tag other : String) (pos parent id : Nat) (attrs : Attrs) :
    (¬ LegalName u tag →
      (∃ e, d.createRoot u tag = .error e) ∧ (∃ e, d.appendChild u tag parent = .error e) ∧
      (∃ e, d.insertBefore u tag other parent = .error e) ∧ (∃ e, d.insertAfter u tag other parent = .error e) ∧
      (∃ e, d.insertAt u tag pos parent = .error e)) ∧
    ((∃ kv ∈ attrs, ¬ LegalName u kv.1) → ∃ e, d.setAttribute u id attrs = .error e) := by
  constructor
  · intro hn
    have hv : isValidXmlName u tag = false := by
      cases hb : isValidXmlName u tag with
      | false => rfl
      | true => exact absurd ((isValidXmlName_iff u tag).mp hb) hn
    have key : ∀ place, ∃ e, d.insertWith u tag parent place = .error e := by
      intro place
      unfold XmlDoc.insertWith
      split
      · exact ⟨_, rfl⟩
      · simp [newElem, hv, bind, Except.bind]
    refine ⟨?_, key _, key _, key _, key _⟩
    simp [XmlDoc.createRoot, newElem, hv, bind, Except.bind]
  · rintro ⟨kv, hkv, hn⟩
    unfold XmlDoc.setAttribute
    split
    · exact ⟨_, rfl⟩
    · rw [if_pos]
      · exact ⟨_, rfl⟩
      · simp only [Bool.not_eq_true', List.all_eq_false]
        refine ⟨kv.1, List.mem_map.mpr ⟨kv, hkv, rfl⟩, ?_⟩
        intro hv
        exact hn ((isValidXmlName_iff u kv.1).mp hv)

example : LegalName ⟨fun _ => false⟩ "x14ac:dyDescent" :=
  (isValidXmlName_iff _ _).mp (by decide +kernel)
example : ¬ LegalName ⟨fun _ => false⟩ "a:b:c" := by
  rw [← isValidXmlName_iff]; decide +kernel

/-! ## C14 -/

/-- **C14 as stated.** Reading a text and writing it leaves the namespace bound to each prefix at each element the same. -/
def NamespacesSurvive (b : Build) (u : Unicode) (stamp : List Char) : Prop :=
  ∀ s d t toks toks' pre, lex s = .ok toks → readXml u s = .ok d → writeXml b stamp d = .ok t → lex t = .ok toks' →
    pre ≠ "dvmo".toList → boundAt pre [] toks' = boundAt pre [] toks

/-- **C14 is violated**: a prefix declared differently on two siblings is bound to the first declaration everywhere
after saving. -/
theorem C14_violated : ¬ NamespacesSurvive ⟨false⟩ ⟨fun _ => false⟩ [] := by
  intro h
  have hd : ∃ d, readXml ⟨fun _ => false⟩ "<a><p:b xmlns:p=\"u\"/><p:c xmlns:p=\"v\"/></a>".toList = .ok d ∧
      writeXml ⟨false⟩ [] d = .ok ("<?xml version=\"1.0\" encoding=\"utf-8\"?><a xmlns:p=\"u\"  ><p:b  /><p:c  /></a>".toList) := by
    have : (readXml ⟨fun _ => false⟩ "<a><p:b xmlns:p=\"u\"/><p:c xmlns:p=\"v\"/></a>".toList).bind
        (fun d => writeXml ⟨false⟩ [] d) = .ok ("<?xml version=\"1.0\" encoding=\"utf-8\"?><a xmlns:p=\"u\"  ><p:b  /><p:c  /></a>".toList) := by
      decide +kernel
    cases hr : readXml ⟨fun _ => false⟩ "<a><p:b xmlns:p=\"u\"/><p:c xmlns:p=\"v\"/></a>".toList with
    | error e => rw [hr] at this; cases this
    | ok d => exact ⟨d, rfl, by rw [hr] at this; exact this⟩
  obtain ⟨d, h1, h2⟩ := hd
  have h3 : lex "<a><p:b xmlns:p=\"u\"/><p:c xmlns:p=\"v\"/></a>".toList =
      .ok [.start ['a'] [], .empty "p:b".toList [("xmlns:p".toList, ['u'])], .empty "p:c".toList [("xmlns:p".toList, ['v'])], .close ['a']] := by
    decide +kernel
  have h4 : lex "<?xml version=\"1.0\" encoding=\"utf-8\"?><a xmlns:p=\"u\"  ><p:b  /><p:c  /></a>".toList =
      .ok [.start ['a'] [("xmlns:p".toList, ['u'])], .empty "p:b".toList [], .empty "p:c".toList [], .close ['a']] := by
    decide +kernel
  have := h _ d _ _ _ ['p'] h3 h1 h2 h4 (by decide)
  revert this
  decide +kernel

/-- **C14, what holds.** The document-wide namespace bindings survive writing and reading: every prefix and the default
namespace keep their URI (a release build only adds its own prefix).
Missing from the full claim: declarations below the root, which are moved to the root when read. -/
theorem C14_partial (b : Build) (u : Unicode) (stamp : List Char) (hst : b.release = true → StampOk stamp)
    (d : XmlDoc) (h : Reachable u d) (root : Node) (hr : d.toXDoc.root = some root) (hnc : selfClosing root = false)
    (hc : CleanUris d.ns) :
    ∃ text d', writeXml b stamp d = .ok text ∧ readXml u text = .ok d' ∧
      ∀ k, (b.release = false ∨ k ≠ "dvmo") → aget k d'.ns = aget k d.ns := by
  obtain ⟨text, d', h1, h2, h3⟩ := C08_reload_exact b u stamp hst d h root hr hnc hc
  refine ⟨text, d', h1, h2, ?_⟩
  intro k hk
  have : d'.ns = releaseNs b d.ns := congrArg XDoc.ns h3
  rw [this]
  unfold releaseNs
  split
  · rename_i hb
    rcases hk with hk | hk
    · rw [hb] at hk; cases hk
    · rw [aget_ainsert, if_neg (Ne.symm hk)]
  · rfl

example : (readXml ⟨fun _ => false⟩ "<a xmlns=\"u\" xmlns:p=\"v\"><b/></a>".toList).toOption.map XmlDoc.ns =
    some [("<Default>", "u"), ("p", "v")] := by decide +kernel

end Oxml
