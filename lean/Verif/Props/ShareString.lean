import Verif.Model.ShareString
import Verif.Proofs.Relations
/-!
# C24–C26, C59: shared strings and the calculation chain
-/
namespace Oxml
open Spec

/-! ## C24 -/

/-- The table after a sequence of insertions. -/
def insertStrings (table : List String) (vs : List String) : List String := vs.foldl (fun t v => (getStringId t v).1) table

theorem findIdx?_first {l : List String} {v : String} {i : Nat} (h : l.findIdx? (fun s => s = v) = some i) : l[i]? = some v := by
  obtain ⟨hlt, hp, _⟩ := List.findIdx?_eq_some_iff_getElem.mp h
  rw [List.getElem?_eq_getElem hlt]
  exact congrArg some (of_decide_eq_true hp)

theorem getStringId_spec (table : List String) (v : String) :
    ∃ i : Nat, (getStringId table v).2 = toString i ∧ (getStringId table v).1[i]? = some v ∧
      (getStringId table v).1.findIdx? (fun s => s = v) = some i ∧ ∃ more, (getStringId table v).1 = table ++ more := by
  unfold getStringId
  split
  · rename_i i h
    exact ⟨i, rfl, findIdx?_first h, h, [], by simp⟩
  · rename_i h
    have hf : (table ++ [v]).findIdx? (fun s => s = v) = some table.length := by
      rw [List.findIdx?_append, h]; simp
    refine ⟨table.length, by simp, findIdx?_first hf, hf, [v], rfl⟩

theorem insertStrings_grows (table vs : List String) : ∃ more, insertStrings table vs = table ++ more := by
  unfold insertStrings
  induction vs generalizing table with
  | nil => exact ⟨[], by simp⟩
  | cons v vs ih =>
    obtain ⟨_, _, _, _, m1, h1⟩ := getStringId_spec table v
    obtain ⟨m2, h2⟩ := ih (getStringId table v).1
    exact ⟨m1 ++ m2, by rw [List.foldl_cons, h2, h1, List.append_assoc]⟩

/-- **C24.** The id of a text is a decimal index that denotes it after every later history, and asking for the text again
gives that id and changes nothing. -/
theorem C24_ids_permanent (table : List String) (v : String) (later : List String) :
    ∃ i : Nat, (getStringId table v).2 = toString i ∧
      (insertStrings (getStringId table v).1 later)[i]? = some v ∧
      getStringId (insertStrings (getStringId table v).1 later) v = (insertStrings (getStringId table v).1 later, toString i) := by
  obtain ⟨i, h1, h2, h3, _⟩ := getStringId_spec table v
  obtain ⟨m, hm⟩ := insertStrings_grows (getStringId table v).1 later
  refine ⟨i, h1, ?_, ?_⟩
  · rw [hm, List.getElem?_append_left]
    · exact h2
    · exact (List.getElem?_eq_some_iff.mp h2).1
  · have : (insertStrings (getStringId table v).1 later).findIdx? (fun s => s = v) = some i := by
      rw [hm, List.findIdx?_append, h3]; rfl
    generalize insertStrings (getStringId table v).1 later = T at this
    unfold getStringId
    rw [this]

/-- **C24.** Different texts have different ids, whenever they are asked for. -/
theorem C24_ids_distinct (table : List String) (v w : String) (between : List String) (hne : v ≠ w) :
    (getStringId table v).2 ≠ (getStringId (insertStrings (getStringId table v).1 between) w).2 := by
  obtain ⟨i, h1, h2, _⟩ := C24_ids_permanent table v between
  obtain ⟨j, h3, h4, _, m, hm⟩ := getStringId_spec (insertStrings (getStringId table v).1 between) w
  rw [h1, h3]
  intro he
  have := toString_nat_inj he
  subst this
  rw [hm, List.getElem?_append_left (List.getElem?_eq_some_iff.mp h2).1, h2] at h4
  exact hne (Option.some.inj h4)

/-- **C24.** Existing entries are never moved or replaced. -/
theorem C24_entries_stay (table : List String) (vs : List String) (i : Nat) (s : String) (h : table[i]? = some s) :
    (insertStrings table vs)[i]? = some s := by
  obtain ⟨m, hm⟩ := insertStrings_grows table vs
  rw [hm, List.getElem?_append_left (List.getElem?_eq_some_iff.mp h).1, h]

example : (getStringId ["a", "b", "a"] "c").2 = "3" ∧ (getStringId ["a", "b", "a"] "a").2 = "0" ∧ ("a" : String) ≠ "c" := by decide +kernel

/-! ## C25 -/

/-- `k` is the number of different members of the list. -/
def CountsDistinct (l : List String) (k : Nat) : Prop := ∃ d : List String, d.Nodup ∧ (∀ s, s ∈ d ↔ s ∈ l) ∧ d.length = k

/-- **C25 as stated**, for tables kept by the library: the table read back is the table written. -/
def SharedStringsSurvive (env : Env) : Prop :=
  ∀ table x d, table ≠ [] → saveStrings stringsTemplate.doc table = .ok x →
    readXml env.uni (renderDoc env.build env.stamp x) = .ok d → (loadStrings d.toXDoc).1 = table

theorem insertRootAttrs_doc {x : XDoc} {t : String} {a : Attrs} {cs : List Node} (h : x.root = some (.mk t (some a) none cs)) (kvs : Attrs) :
    x.insertRootAttrs kvs = { ns := x.ns, root := some (.mk t (some (kvs.foldl (fun m kv => ainsert kv.1 kv.2 m) a)) none cs) } := by
  unfold XDoc.insertRootAttrs
  rw [h]; rfl

theorem wfAttrs_insert {u : Unicode} {a : Attrs} (h : WfAttrs u (some a)) {k : String} (v : String)
    (hk : isValidXmlName u k = true) (hn : isNsKey k = false) : WfAttrs u (some (ainsert k v a)) := by
  intro a' ha'
  cases ha'
  obtain ⟨h1, h2⟩ := h a rfl
  refine ⟨nodup_ainsert _ _ h1, ?_⟩
  intro k' hk'
  rcases (mem_akeys_ainsert _ _ _ _).mp hk' with rfl | h'
  · exact ⟨hk, hn⟩
  · exact h2 k' h'

theorem wf_siNode (u : Unicode) (s : String) : WfNode u (siNode s) :=
  wfNode_bare (by decide +kernel) ⟨wfNode_bare (by decide +kernel) trivial, trivial⟩

theorem siNode_text (s : String) : (reload (siNode s)).children.head?.map (fun c => c.value.getD "") = some ((reloadText s).getD "") := rfl

theorem filterMap_siNode (table : List String) :
    table.filterMap ((fun n : Node => n.children.head?.map (fun c => c.value.getD "")) ∘ reload ∘ siNode) =
      table.map (fun s => (reloadText s).getD "") := by
  induction table with
  | nil => rfl
  | cons s ss ih => rw [List.filterMap_cons, List.map_cons, ← ih]; rfl

/-- The text of a string item: its direct text, or its rich text runs put together (ECMA-376 18.4.8). -/
def siText (n : Node) : String :=
  String.join (n.children.map (fun c =>
    if c.tag = "t" then c.value.getD ""
    else if c.tag = "r" then String.join ((c.children.filter (fun x => x.tag = "t")).map (fun x => x.value.getD ""))
    else ""))

theorem siText_reload (s : String) : siText (reload (siNode s)) = (reloadText s).getD "" := by
  apply String.toList_inj.mp
  show (String.join [(reloadText s).getD ""]).toList = _
  simp [String.join]

/-- The string items of a document. -/
def stringItems (x : XDoc) : List Node := x.rootChildren.filter (fun n => n.tag = "si")

theorem stringItems_reload {b : Build} {ns : Attrs} {t : String} {a : Option Attrs} {cs : List Node} (hcs : ∀ c ∈ cs, c.tag ≠ "si") (table : List String) :
    (stringItems (reloadDoc b ⟨ns, some (.mk t a none (cs ++ table.map siNode))⟩)).map siText = table.map (fun s => (reloadText s).getD "") := by
  unfold stringItems
  rw [reloadDoc_rootChildren ⟨rfl⟩, List.map_append, filter_tag_append]
  · rw [List.map_map, List.map_map]
    exact List.map_congr_left (fun s _ => siText_reload s)
  · intro c hc
    obtain ⟨n, hn, rfl⟩ := List.mem_map.mp hc
    rw [reload_tag]; exact hcs n hn
  · intro c hc
    obtain ⟨n, hn, rfl⟩ := List.mem_map.mp hc
    obtain ⟨s, _, rfl⟩ := List.mem_map.mp hn
    rw [reload_tag]; rfl

/-- Exact effect of saving and loading. -/
theorem strings_reload (env : Env) (hst : env.build.release = true → StampOk env.stamp) {x : XDoc} {t : String} {a : Attrs}
    {cs : List Node} (hx : WfDoc env.uni x (.mk t (some a) none cs)) (hcs : ∀ c ∈ cs, c.tag ≠ "si") (table : List String) (hne : table ≠ []) :
    ∃ x' d r, saveStrings x table = .ok x' ∧ readXml env.uni (renderDoc env.build env.stamp x') = .ok d ∧ x'.root = some r ∧
      (loadStrings d.toXDoc).1 = table.map (fun s => (reloadText s).getD "") ∧
      r.attr? "count" = some (toString table.length) ∧ r.attr? "uniqueCount" = some (toString (distinctCount table)) ∧
      (∀ k, k ≠ "count" → k ≠ "uniqueCount" → r.attr? k = aget k a) ∧
      (stringItems d.toXDoc).map siText = table.map (fun s => (reloadText s).getD "") := by
  have hroot : (x.insertRootAttrs [("count", toString table.length), ("uniqueCount", toString (distinctCount table))]).root =
      some (.mk t (some (ainsert "uniqueCount" (toString (distinctCount table)) (ainsert "count" (toString table.length) a))) none cs) := by
    rw [insertRootAttrs_doc hx.isRoot]; rfl
  have hsave : saveStrings x table = .ok { ns := x.ns, root := some (.mk t (some (ainsert "uniqueCount" (toString (distinctCount table))
      (ainsert "count" (toString table.length) a))) none (cs ++ table.map siNode)) } := by
    unfold saveStrings
    rw [appendAll_doc hroot]
    congr 1
  have hwf : WfDoc env.uni { ns := x.ns, root := some (.mk t (some (ainsert "uniqueCount" (toString (distinctCount table))
      (ainsert "count" (toString table.length) a))) none (cs ++ table.map siNode)) } _ :=
    ⟨rfl, ⟨hx.names.1, wfAttrs_insert (wfAttrs_insert hx.names.2.1 _ (validName_ascii _ (by decide +kernel)) (by decide +kernel)) _
        (validName_ascii _ (by decide +kernel)) (by decide +kernel),
      wfNodes_append.mpr ⟨hx.names.2.2, wfNodes_iff.mpr (by
        intro c hc
        obtain ⟨s, _, rfl⟩ := List.mem_map.mp hc
        exact wf_siNode env.uni s)⟩⟩, hx.ns, hx.uris⟩
  have hne' : cs ++ table.map siNode ≠ [] := by
    intro he
    exact hne (List.map_eq_nil_iff.mp (List.append_eq_nil_iff.mp he).2)
  obtain ⟨d, hd, hdx⟩ := read_doc env hst hwf hne'
  refine ⟨_, d, _, hsave, hd, rfl, ?_, ?_, ?_, ?_, by rw [hdx]; exact stringItems_reload hcs table⟩
  · unfold loadStrings XDoc.popTag
    rw [hdx, reloadDoc_rootChildren ⟨rfl⟩]
    simp only
    rw [List.map_append, filter_tag_append, List.map_map, List.filterMap_map]
    · exact filterMap_siNode table
    · intro c hc
      obtain ⟨n, hn, rfl⟩ := List.mem_map.mp hc
      rw [reload_tag]; exact hcs n hn
    · intro c hc
      obtain ⟨n, hn, rfl⟩ := List.mem_map.mp hc
      obtain ⟨s, _, rfl⟩ := List.mem_map.mp hn
      rw [reload_tag]; rfl
  · change aget _ _ = _
    rw [aget_ainsert_ne (by simp), aget_ainsert_self]
  · change aget _ _ = _
    rw [aget_ainsert_self]
  · intro k h1 h2
    change aget _ _ = _
    rw [aget_ainsert_ne (Ne.symm h2), aget_ainsert_ne (Ne.symm h1)]

theorem countsDistinct_distinctCount (l : List String) : CountsDistinct l (distinctCount l) :=
  ⟨l.eraseDups, nodup_eraseDups l, fun _ => List.mem_eraseDups, rfl⟩

theorem wf_stringsTemplate (u : Unicode) : WfDoc u stringsTemplate.doc (.mk "sst" (some []) none []) :=
  wfDoc_template (by decide +kernel) (by decide +kernel)

/-- **C25 is violated** in every build: the text `" a"` comes back as `"a"`. -/
theorem C25_violated (env : Env) (hst : env.build.release = true → StampOk env.stamp) : ¬ SharedStringsSurvive env := by
  intro h
  obtain ⟨x', d, r, h1, h2, _, h3, _⟩ := strings_reload env hst (wf_stringsTemplate env.uni) (by simp) [" a"] (by simp)
  have := h [" a"] x' d (by simp) h1 h2
  rw [h3] at this
  have hne : ¬ ([" a"].map (fun s => (reloadText s).getD "") = [" a"]) := by decide +kernel
  exact hne this

/-- **C25, what holds.** For every shared string document without entries, whatever else it contains: `count` is the number of
entries and `uniqueCount` the number of different ones; the items of the saved document are the table that comes back, which has the
same length, and an entry is
unchanged exactly when it is empty or has no surrounding white space (in general it comes back trimmed). Special
characters are no problem. Missing from the full claim: surrounding white space. -/
theorem C25_partial (env : Env) (hst : env.build.release = true → StampOk env.stamp) (x : XDoc) (t : String) (a : Attrs)
    (cs : List Node) (hx : WfDoc env.uni x (.mk t (some a) none cs)) (hcs : ∀ c ∈ cs, c.tag ≠ "si") (table : List String) (hne : table ≠ []) :
    ∃ x' d r k table', saveStrings x table = .ok x' ∧ readXml env.uni (renderDoc env.build env.stamp x') = .ok d ∧ x'.root = some r ∧
      r.attr? "count" = some (toString table.length) ∧ r.attr? "uniqueCount" = some (toString k) ∧ CountsDistinct table k ∧
      (loadStrings d.toXDoc).1 = table' ∧ (stringItems d.toXDoc).map siText = table' ∧ table'.length = table.length ∧
      ∀ (i : Nat) (s s' : String), table[i]? = some s → table'[i]? = some s' →
        s'.toList = trimXml s.toList ∧ (s' = s ↔ trimXml s.toList = s.toList) := by
  obtain ⟨x', d, r, h1, h2, h3, h4, h5, h6, _, h7⟩ := strings_reload env hst hx hcs table hne
  refine ⟨x', d, r, _, _, h1, h2, h3, h5, h6, countsDistinct_distinctCount table, h4, h7, by simp, ?_⟩
  intro i s s' hs hs'
  rw [List.getElem?_map, hs] at hs'
  cases hs'
  have : ((reloadText s).getD "").toList = trimXml s.toList := by
    unfold reloadText
    split
    · rename_i h; rw [h]; rfl
    · rw [Option.getD_some, String.toList_ofList]
  refine ⟨this, ?_⟩
  rw [← String.toList_inj, this]

example : (loadStrings (reloadDoc ⟨false⟩ ⟨[], some (.mk "sst" (some []) none (["x < y", "", "x < y"].map siNode))⟩)).1 = ["x < y", "", "x < y"] ∧
    CountsDistinct ["x < y", "", "x < y"] 2 := by
  refine ⟨by decide +kernel, ["x < y", ""], by decide +kernel, ?_, rfl⟩
  intro s
  by_cases h : s = "x < y" <;> simp [h]

/-! ## C26 -/

/-- **C26 as stated**: entry `i` is the text of the `i`-th item. -/
def LoadingKeepsIndices : Prop := ∀ x : XDoc, (loadStrings x).1 = (x.rootChildren.filter (fun n => n.tag = "si")).map siText

/-- **C26 is violated**: an item without children is skipped, so later indices shift; and the text of a rich text item is
lost. Both parts are read from real XML below. -/
theorem C26_violated : ¬ LoadingKeepsIndices := by
  intro h
  have := h ⟨[], some (.mk "sst" none none [.mk "si" none none [], siNode "a"])⟩
  revert this
  decide +kernel

/-- The two parts, from their text. -/
theorem C26_violated_from_file :
    (∃ d, readXml ⟨fun _ => false⟩ "<sst><si></si><si><t>a</t></si></sst>".toList = .ok d ∧ (loadStrings d.toXDoc).1 = ["a"]) ∧
    (∃ d, readXml ⟨fun _ => false⟩ "<sst><si><r><t>rich</t></r></si></sst>".toList = .ok d ∧ (loadStrings d.toXDoc).1 = [""]) := by
  exact ⟨read_then (by decide +kernel), read_then (by decide +kernel)⟩

/-- The first child of the item is its text, and it has no rich text runs. -/
def SimpleItem (n : Node) : Prop :=
  ∃ c cs, n.children = c :: cs ∧ c.tag = "t" ∧ ∀ x ∈ cs, x.tag ≠ "t" ∧ x.tag ≠ "r"

theorem join_blanks (s : String) (cs : List Node) : String.join (s :: cs.map (fun _ => "")) = s := by
  apply String.toList_inj.mp
  induction cs with
  | nil => simp
  | cons _ _ _ => simp

/-- **C26, what holds.** A part all of whose items are simple is loaded faithfully; other children of the root are kept.
Missing: rich text and empty items. -/
theorem C26_partial (x : XDoc) (h : ∀ n ∈ x.rootChildren, n.tag = "si" → SimpleItem n) :
    (loadStrings x).1 = (x.rootChildren.filter (fun n => n.tag = "si")).map siText ∧
    (loadStrings x).2.rootChildren = x.rootChildren.filter (fun n => n.tag ≠ "si") := by
  constructor
  · unfold loadStrings XDoc.popTag
    simp only
    have h' : ∀ n ∈ x.rootChildren.filter (fun n => n.tag = "si"), SimpleItem n := by
      intro n hn
      obtain ⟨h1, h2⟩ := List.mem_filter.mp hn
      exact h n h1 (of_decide_eq_true h2)
    generalize x.rootChildren.filter (fun n => n.tag = "si") = l at h'
    induction l with
    | nil => rfl
    | cons n ns ih =>
      obtain ⟨c, cs, hc, ht, hr⟩ := h' n (by simp)
      rw [List.map_cons, ← ih (fun m hm => h' m (by simp [hm])), List.filterMap_cons]
      have : siText n = c.value.getD "" := by
        unfold siText
        rw [hc, List.map_cons, if_pos ht]
        have : cs.map (fun c =>
            if c.tag = "t" then c.value.getD ""
            else if c.tag = "r" then String.join ((c.children.filter (fun x => x.tag = "t")).map (fun x => x.value.getD ""))
            else "") = cs.map (fun _ => "") := by
          apply List.map_congr_left
          intro y hy
          rw [if_neg (hr y hy).1, if_neg (hr y hy).2]
        rw [this]
        exact join_blanks _ cs
      rw [hc, this]; rfl
  · unfold loadStrings XDoc.popTag XDoc.mapRootChildren XDoc.rootChildren
    cases x.root with
    | none => rfl
    | some r => cases r; rfl

example : SimpleItem (siNode "a") ∧ (loadStrings ⟨[], some (.mk "sst" none none [siNode "a", .mk "extLst" none none [], siNode "b"])⟩).1 = ["a", "b"] := by
  refine ⟨⟨_, [], rfl, rfl, by simp⟩, by decide +kernel⟩

/-! ## C59 -/

/-- **C59 as stated**: loading never crashes, and the chain written and read is the chain. -/
def CalcChainSurvives (env : Env) : Prop :=
  (∀ x m, (loadCalc x).1 ≠ .error (.panic m)) ∧
  ∀ chain x d, chain ≠ [] → saveCalc calcTemplate.doc chain = .ok x →
    readXml env.uni (renderDoc env.build env.stamp x) = .ok d → (loadCalc d.toXDoc).1 = .ok chain

theorem wf_calcNode (u : Unicode) (e : CalcEntry) : WfNode u (calcNode e) :=
  wfNode_attrs (by decide +kernel) (by simp only [akeys, List.map_cons, List.map_nil]; decide +kernel) (by simp [akeys]) trivial

/-- The entry as read back. -/
def reloadEntry (e : CalcEntry) : CalcEntry := (escStr e.1, escStr e.2.1, none)

theorem calc_reload (env : Env) (hst : env.build.release = true → StampOk env.stamp) {x : XDoc} {t : String} {a : Option Attrs}
    {cs : List Node} (hx : WfDoc env.uni x (.mk t a none cs)) (hcs : ∀ c ∈ cs, c.tag ≠ "c") (chain : List CalcEntry) (hne : chain ≠ []) :
    ∃ x' d, saveCalc x chain = .ok x' ∧ readXml env.uni (renderDoc env.build env.stamp x') = .ok d ∧
      (loadCalc d.toXDoc).1 = .ok (chain.map reloadEntry) := by
  have hwf := wfDoc_append hx (ns := chain.map calcNode) (wfNodes_iff.mpr (by
    intro c hc
    obtain ⟨r, _, rfl⟩ := List.mem_map.mp hc
    exact wf_calcNode env.uni r))
  have hne' : cs ++ chain.map calcNode ≠ [] := by
    intro he
    exact hne (List.map_eq_nil_iff.mp (List.append_eq_nil_iff.mp he).2)
  obtain ⟨d, hd, hdx⟩ := read_doc env hst hwf hne'
  refine ⟨_, d, appendAll_doc hx.isRoot _, hd, ?_⟩
  unfold loadCalc XDoc.popTag
  rw [hdx, reloadDoc_rootChildren ⟨rfl⟩]
  simp only
  rw [List.map_append, filter_tag_append, List.map_map, List.filter_eq_self.mpr]
  · apply mapRes_map
    intro e
    have hk : ∀ k, aget k ((reload (calcNode e)).attrs.getD []) = ((calcNode e).attr? k).map escStr := by
      intro k
      have := reload_attr (wf_calcNode env.uni e) k
      unfold Node.attr? at this
      rw [reload_attrs_some] at this ⊢
      exact this
    simp only [Function.comp, hk]
    rfl
  · intro n hn
    obtain ⟨e, _, rfl⟩ := List.mem_map.mp hn
    simp only [Function.comp, reload_attrs_some]; rfl
  · intro c hc
    obtain ⟨n, hn, rfl⟩ := List.mem_map.mp hc
    rw [reload_tag]; exact hcs n hn
  · intro c hc
    obtain ⟨n, hn, rfl⟩ := List.mem_map.mp hc
    obtain ⟨s, _, rfl⟩ := List.mem_map.mp hn
    rw [reload_tag]; rfl

theorem wf_calcTemplate (u : Unicode) : WfDoc u calcTemplate.doc (.mk "calcChain" (some []) none []) :=
  wfDoc_template (by decide +kernel) (by decide +kernel)

/-- **C59 is violated**: an entry without `i` (legal: it repeats the previous sheet id) crashes the load. -/
theorem C59_violated_crash : ∃ d, readXml ⟨fun _ => false⟩ "<calcChain><c r=\"B1\" i=\"1\"/><c r=\"B2\"/></calcChain>".toList = .ok d ∧
    ∃ m, (loadCalc d.toXDoc).1 = .error (.panic m) := by
  obtain ⟨d, h1, h2⟩ := read_then (u := ⟨fun _ => false⟩) (s := "<calcChain><c r=\"B1\" i=\"1\"/><c r=\"B2\"/></calcChain>".toList)
    (f := fun d => match (loadCalc d.toXDoc).1 with | .error (.panic m) => m | _ => "") (v := "no entry found for key") (by decide +kernel)
  refine ⟨d, h1, "no entry found for key", ?_⟩
  split at h2
  · rename_i m hm; rw [hm, h2]
  · simp at h2

/-- **C59 is violated** also without the crash: the `l` flag of an entry is not written. -/
theorem C59_violated (env : Env) (hst : env.build.release = true → StampOk env.stamp) : ¬ CalcChainSurvives env := by
  rintro ⟨_, h⟩
  obtain ⟨x', d, h1, h2, h3⟩ := calc_reload env hst (wf_calcTemplate env.uni) (by simp) [("B1", "1", some "1")] (by simp)
  have := h [("B1", "1", some "1")] x' d (by simp) h1 h2
  rw [h3] at this
  have := Except.ok.inj this
  simp [reloadEntry] at this

/-- **C59, what holds.** Loading succeeds exactly when every entry has `r` and `i`, and then gives every entry in order. Saving
and loading keeps the number and order of entries; an entry is unchanged exactly when it has no `l` flag and no special
character. Missing: the `l` flag, and entries without `r` or `i`. -/
theorem C59_partial (env : Env) (hst : env.build.release = true → StampOk env.stamp) (x : XDoc) (t : String) (a : Option Attrs)
    (cs : List Node) (hx : WfDoc env.uni x (.mk t a none cs)) (hcs : ∀ c ∈ cs, c.tag ≠ "c") (chain : List CalcEntry) (hne : chain ≠ []) :
    ∃ x' d chain', saveCalc x chain = .ok x' ∧ readXml env.uni (renderDoc env.build env.stamp x') = .ok d ∧
      (loadCalc d.toXDoc).1 = .ok chain' ∧ chain'.length = chain.length ∧
      ∀ (i : Nat) (e e' : CalcEntry), chain[i]? = some e → chain'[i]? = some e' →
        (e' = e ↔ NoSpecials e.1 ∧ NoSpecials e.2.1 ∧ e.2.2 = none) := by
  obtain ⟨x', d, h1, h2, h3⟩ := calc_reload env hst hx hcs chain hne
  refine ⟨x', d, _, h1, h2, h3, by simp, ?_⟩
  intro i e e' he he'
  rw [List.getElem?_map, he] at he'
  cases he'
  obtain ⟨r, s, l⟩ := e
  simp only [reloadEntry, Prod.mk.injEq, escStr_eq_iff]
  constructor
  · rintro ⟨p, q, r⟩; exact ⟨p, q, r.symm⟩
  · rintro ⟨p, q, r⟩; exact ⟨p, q, r.symm⟩

theorem mapRes_ok_iff {α β : Type} (f : α → Res β) (l : List α) : (∃ r, mapRes f l = .ok r) ↔ ∀ x ∈ l, ∃ y, f x = .ok y := by
  induction l with
  | nil => simp [mapRes]
  | cons x xs ih =>
    rw [mapRes]
    constructor
    · rintro ⟨r, hr⟩
      split at hr
      · cases hr
      · rename_i y hy
        split at hr
        · cases hr
        · rename_i ys hys
          intro z hz
          rcases List.mem_cons.mp hz with rfl | hz
          · exact ⟨y, hy⟩
          · exact ih.mp ⟨ys, hys⟩ z hz
    · intro h
      obtain ⟨y, hy⟩ := h x (by simp)
      obtain ⟨ys, hys⟩ := ih.mpr (fun z hz => h z (by simp [hz]))
      rw [hy, hys]; exact ⟨_, rfl⟩

/-- **C59, what holds.** A chain loads exactly when each of its `c` entries with attributes has `r` and `i`. -/
theorem C59_load_partial (x : XDoc) : (∃ chain, (loadCalc x).1 = .ok chain) ↔
    ∀ n ∈ x.rootChildren, n.tag = "c" → n.attrs.isSome → (n.attr? "r").isSome ∧ (n.attr? "i").isSome := by
  unfold loadCalc
  simp only
  rw [mapRes_ok_iff]
  have key : ∀ n : Node, n.attrs.isSome = true → ((∃ y : CalcEntry, (match aget "r" (n.attrs.getD []), aget "i" (n.attrs.getD []) with
      | some r, some i => .ok (r, i, aget "l" (n.attrs.getD []))
      | _, _ => .error (.panic "no entry found for key") : Res CalcEntry) = .ok y) ↔ (n.attr? "r").isSome ∧ (n.attr? "i").isSome) := by
    intro n hn
    cases n with
    | mk t a v cs =>
      cases a with
      | none => cases hn
      | some a =>
        simp only [Node.attrs, Node.attr?, Option.getD_some]
        cases aget "r" a <;> cases aget "i" a <;> simp
  constructor
  · intro h n hn ht ha
    exact (key n ha).mp (h n (by simp [XDoc.popTag, hn, ht, ha]))
  · intro h n hn
    simp only [XDoc.popTag, List.mem_filter, decide_eq_true_eq] at hn
    exact (key n hn.2).mpr (h n hn.1.1 hn.1.2 hn.2)

example : (loadCalc ⟨[], some (.mk "calcChain" none none [calcNode ("B1", "1", none), calcNode ("C2", "2", none)])⟩).1.toOption =
    some [("B1", "1", none), ("C2", "2", none)] := by decide +kernel

end Oxml
