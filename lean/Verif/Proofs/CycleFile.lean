import Verif.Proofs.CycleParts
import Verif.Proofs.CycleFlags
import Verif.Props.Existing
/-!
# A saved file, opened and saved again
-/
namespace Oxml
open Spec

/-- The document opened for the part is the one the file has, if it has one. -/
def OpensAs (env : Env) (z : Zip) (n : String) (e : XDoc) : Prop := ∀ d, zipDoc env z n = some d → e = d

/-- The saved document is well formed, has content, and is what the saved file shows. -/
def SavesAs (env : Env) (z' : Zip) (n : String) (d : XDoc) : Prop :=
  ∃ t a cs, WfDoc env.uni d (.mk t a none cs) ∧ cs ≠ [] ∧ zipDoc env z' n = some (reloadDoc env.build d)

theorem SavesAs.tidy {env : Env} {z' : Zip} {n : String} {d : XDoc} (h : SavesAs env z' n d) : ∃ d', zipDoc env z' n = some d' ∧ Tidy d' ∧ d'.rootChildren ≠ [] := by
  obtain ⟨t, a, cs, hw, hne, hz⟩ := h
  refine ⟨_, hz, ⟨cleanUris_release _ hw.uris, t, some (reloadAttrs a), cs.map reload, ?_⟩, ?_⟩
  · unfold reloadDoc
    rw [hw.isRoot, Option.map_some, reload, reloads_eq]
  · rw [reloadDoc_rootChildren ⟨hw.isRoot⟩]
    simpa using hne

/-- What opening a file, a history and saving leave of each own part. -/
structure SavedOwn (env : Env) (z z' : Zip) (x y : Excel) (now : String) : Prop where
  root : ∃ e d t a cs k, OpensAs env z x.rootRels.path e ∧ WfDoc env.uni (loadRels e).2 (.mk t a none cs) ∧ (∀ c ∈ cs, c.tag ≠ "Relationship") ∧
    saveRels (loadRels e).2 y.rootRels.rels = .ok (d, k) ∧ SavesAs env z' x.rootRels.path d
  core : ∃ e d, OpensAs env z x.core.path e ∧ saveCore now now e = .ok d ∧ SavesAs env z' x.core.path d
  book : ∃ e d t a cs r, OpensAs env z x.book.path e ∧ (loadBook e).1 = .ok r ∧ WfDoc env.uni (loadBook e).2 (.mk t a none cs) ∧ (∀ c ∈ cs, c.tag ∉ bookTags) ∧
    saveBook y.sheets y.view (loadBook e).2 = .ok d ∧ SavesAs env z' x.book.path d
  rels : ∃ e d t a cs k, OpensAs env z x.rels.path e ∧ WfDoc env.uni (loadRels e).2 (.mk t a none cs) ∧ (∀ c ∈ cs, c.tag ≠ "Relationship") ∧
    saveRels (loadRels e).2 y.rels.rels = .ok (d, k) ∧ SavesAs env z' x.rels.path d
  theme : ∃ e, OpensAs env z x.theme.path e ∧ SavesAs env z' x.theme.path e
  strings : ∃ e d t a cs, OpensAs env z x.strings.path e ∧ WfDoc env.uni (loadStrings e).2 (.mk t (some a) none cs) ∧ (∀ c ∈ cs, c.tag ≠ "si") ∧
    saveStrings (loadStrings e).2 y.strings.data = .ok d ∧ SavesAs env z' x.strings.path d
  chain : ∃ e d t a cs, OpensAs env z x.chain.path e ∧ WfDoc env.uni (loadCalc e).2 (.mk t a none cs) ∧ (∀ c ∈ cs, c.tag ≠ "c") ∧
    saveCalc (loadCalc e).2 y.chain.data = .ok d ∧ SavesAs env z' x.chain.path d
  styles : ∃ e d t a cs r, OpensAs env z x.styles.path e ∧ (Styles.load e).1 = .ok r ∧ WfDoc env.uni (Styles.load e).2 (.mk t a none cs) ∧
    (∀ c ∈ cs, c.tag ∉ styleTags) ∧ y.styles.data.save (Styles.load e).2 = .ok d ∧ SavesAs env z' x.styles.path d

theorem saves_as {env : Env} (hst : env.build.release = true → StampOk env.stamp) {q : Pkg} {z' : Zip} {exts : List (String × String)}
    (hq : q.toZip env exts = .ok z') {n : String} (hn : n ≠ contentTypesName) {o : OpenDoc} {d : XDoc} {t : String} {a : Option Attrs} {cs : List Node}
    (hs : aget n q.archive = some (o.entry env d)) (hw : WfDoc env.uni d (.mk t a none cs)) (hne : cs ≠ []) : SavesAs env z' n d := by
  obtain ⟨dd, h1, h2⟩ := read_doc env hst hw hne
  exact ⟨t, a, cs, hw, hne, by rw [saved_doc hq hn hs h1, h2]⟩

theorem wf_core {u : Unicode} {x x' : XDoc} {now : String} (h : WfRoot u x) (hne : x.rootChildren ≠ []) (hs : saveCore now now x = .ok x') :
    ∃ t a cs, WfDoc u x' (.mk t a none cs) ∧ cs ≠ [] := by
  obtain ⟨t, a, cs, hw⟩ := h
  unfold XDoc.rootChildren at hne
  rw [hw.isRoot] at hne
  unfold saveCore at hs
  rw [hw.isRoot] at hs
  simp only [Except.ok.injEq] at hs
  obtain ⟨c1, e1, w1, n1⟩ := mapCoreItem_root hw.names "dcterms:modified" (f := fun n => n.withValue now) (fun n hn => wfNode_withValue hn _)
  obtain ⟨c2, e2, w2, n2⟩ := mapCoreItem_root w1 "dcterms:created" (f := fun n => match n.value with | some _ => n | none => n.withValue now) (by
    intro n hn
    split
    · exact hn
    · exact wfNode_withValue hn _)
  rw [e1] at hs
  have hs := (congrArg (fun n => ({ ns := x.ns, root := some n } : XDoc)) e2).symm.trans hs
  rw [← hs]
  exact ⟨t, a, c2, ⟨rfl, w2, hw.ns, hw.uris⟩, n2 (n1 hne)⟩

theorem wf_rels {u : Unicode} {x x' : XDoc} {t : String} {a : Option Attrs} {cs : List Node} {rels : List Rel} {k : Bool} (hx : WfDoc u x (.mk t a none cs))
    (hne : rels ≠ []) (h : saveRels x rels = .ok (x', k)) : WfDoc u x' (.mk t a none (cs ++ rels.map relNode)) ∧ cs ++ rels.map relNode ≠ [] := by
  unfold saveRels at h
  rw [hx.isRoot] at h
  simp only [appendAll_doc hx.isRoot, Except.ok.injEq, Prod.mk.injEq] at h
  rw [← h.1]
  refine ⟨wfDoc_append hx (wfNodes_iff.mpr ?_), ?_⟩
  · intro c hc
    obtain ⟨r, _, rfl⟩ := List.mem_map.mp hc
    exact wf_relNode u r
  · intro he
    exact hne (List.map_eq_nil_iff.mp (List.append_eq_nil_iff.mp he).2)

theorem wf_calc {u : Unicode} {x x' : XDoc} {t : String} {a : Option Attrs} {cs : List Node} {l : List CalcEntry} (hx : WfDoc u x (.mk t a none cs))
    (hne : l ≠ []) (h : saveCalc x l = .ok x') : WfDoc u x' (.mk t a none (cs ++ l.map calcNode)) ∧ cs ++ l.map calcNode ≠ [] := by
  unfold saveCalc at h
  rw [appendAll_doc hx.isRoot] at h
  cases h
  refine ⟨wfDoc_append hx (wfNodes_iff.mpr ?_), ?_⟩
  · intro c hc
    obtain ⟨r, _, rfl⟩ := List.mem_map.mp hc
    exact wf_calcNode u r
  · intro he
    exact hne (List.map_eq_nil_iff.mp (List.append_eq_nil_iff.mp he).2)

theorem wf_strings {u : Unicode} {x x' : XDoc} {t : String} {a : Attrs} {cs : List Node} {l : List String} (hx : WfDoc u x (.mk t (some a) none cs))
    (hne : l ≠ []) (h : saveStrings x l = .ok x') : ∃ a', WfDoc u x' (.mk t (some a') none (cs ++ l.map siNode)) ∧ cs ++ l.map siNode ≠ [] := by
  unfold saveStrings at h
  rw [insertRootAttrs_doc hx.isRoot, appendAll_doc rfl] at h
  cases h
  refine ⟨_, ⟨rfl, ⟨hx.names.1, wfAttrs_insert (wfAttrs_insert hx.names.2.1 (k := "count") _ (validName_ascii u (by decide +kernel)) (by decide +kernel)) (k := "uniqueCount") _
        (validName_ascii u (by decide +kernel)) (by decide +kernel),
      wfNodes_append.mpr ⟨hx.names.2.2, wfNodes_iff.mpr ?_⟩⟩, hx.ns, hx.uris⟩, ?_⟩
  · intro c hc
    obtain ⟨s, _, rfl⟩ := List.mem_map.mp hc
    exact wf_siNode u s
  · intro he
    exact hne (List.map_eq_nil_iff.mp (List.append_eq_nil_iff.mp he).2)

theorem wf_styles {u : Unicode} {x x' : XDoc} {t : String} {a : Option Attrs} {cs : List Node} {st : Styles} (hx : WfDoc u x (.mk t a none cs))
    (hc : ∀ n ∈ cs, n.tag ∉ styleTags) (h : st.save x = .ok x') : WfDoc u x' (.mk t a none (placeStyles st cs)) ∧ placeStyles st cs ≠ [] := by
  have hx' : x' = x.mapRootChildren (placeStyles st) := by
    unfold Styles.save at h
    rw [hx.isRoot] at h
    cases h; rfl
  have hroot : x'.root = some (.mk t a none (placeStyles st cs)) := by
    rw [hx']; unfold XDoc.mapRootChildren; rw [hx.isRoot]; rfl
  refine ⟨⟨hroot, ⟨hx.names.1, hx.names.2.1, wf_placeStyles st hc hx.names.2.2⟩, ?_, ?_⟩, ?_⟩
  · rw [hx']; exact hx.ns
  · rw [hx']; exact hx.uris
  · rw [placeStyles_nodes st cs hc]; simp [styleNodes]

section
variable {env : Env} {theme : XDoc} {z z' : Zip} {ops : List WbOp} {x : Excel} {s : Session} {now : String} {exts : List (String × String)}

theorem saved_own (hst : env.build.release = true → StampOk env.stamp) (hz : (akeys z).Nodup) (hr : RanOn env theme z ops x s) (ht : TidyParts env z x)
    (hp : PlainRels x) (hth : WfRoot env.uni theme) (hthc : theme.rootChildren ≠ []) (hc1 : HasContent env z x.theme.path)
    (hc2 : HasContent env z x.core.path) (hs : s.x.toZip env now exts = .ok z') (h6 : s.x.strings.data ≠ []) (h7 : s.x.chain.data ≠ []) :
    SavedOwn env z z' x s.x now := by
  obtain ⟨p, o1, o2, o3, o4, o5, o6, o7, o8, r1, r2, q, d1, d2, d3, d4, d6, d7, d8, keep, keep0, hpz, hb, hq, W, S, hown, hct⟩ := saved_base hz hr hs
  obtain ⟨pe1, pe2, pe3, pe4, pe5, pe6, pe7, pe8⟩ := own_paths hown
  have hfin : finalRels s.x = s.x.rels.rels := by
    unfold finalRels stringRels chainRels; rw [if_neg h6, if_neg h7]
  have hroot : s.x.rootRels = x.rootRels := run_rootRels (s := ⟨x, []⟩) hr.2
  obtain ⟨ho, hl⟩ := leads_run (s := ⟨x, []⟩) hb.live (plainRels_orderly hp) hr.2
  obtain ⟨rdir, hrd, _⟩ := hp.dir
  obtain ⟨root2, t1, t2⟩ := hb.rootTargets
  have hrp : ∃ d, relativePath "_rels/.rels" = .ok d := by
    cases e : relativePath "_rels/.rels" with
    | ok d => exact ⟨d, rfl⟩
    | error e' =>
      have h : (relativePath "_rels/.rels").toOption.isSome = true := by decide +kernel
      rw [e] at h; cases h
  obtain ⟨l2, _⟩ := targetByType_leads hrp t2
  obtain ⟨R2, R3, R4, t5, t6, t7, t8⟩ := hb.targets
  obtain ⟨l8, m8, em8⟩ := targetByType_leads ⟨_, hrd⟩ t8
  have k8 := hl _ _ (by simp [ownParts]) l8
  have src : ∀ {t : Template} {n : String} {o : OpenDoc}, n ∈ ownParts x → Source env p t n o → OpensAs env z n o.doc :=
    fun hn h d hd => (ready_of_zipDoc hpz (hct _ hn) hd).source h
  have n1 : "_rels/.rels" ∈ ownParts x := by simp [ownParts, hb.rootPath]
  have n2 : x.core.path ∈ ownParts x := by simp [ownParts]
  have n3 : x.book.path ∈ ownParts x := by simp [ownParts]
  have n4 : x.rels.path ∈ ownParts x := by simp [ownParts]
  have n5 : x.theme.path ∈ ownParts x := by simp [ownParts]
  have n6 : x.strings.path ∈ ownParts x := by simp [ownParts]
  have n7 : x.chain.path ∈ ownParts x := by simp [ownParts]
  have n8 : x.styles.path ∈ ownParts x := by simp [ownParts]
  constructor
  · obtain ⟨t, a, cs, hw, hc⟩ := (own_wf hpz (hct _ n1) hb.rootSource ⟨_, _, _, wf_relsTemplate env.uni⟩ (ht _ n1)).pop "Relationship"
    obtain ⟨w1, w2⟩ := wf_rels hw (by rw [hroot]; exact l2.ne_nil) W.root
    rw [hb.rootPath]
    exact ⟨_, _, t, a, cs, _, src n1 hb.rootSource, hw, hc, W.root, saves_as hst hq (hct _ n1) ((pe1.trans hb.rootPath) ▸ S.root) w1 w2⟩
  · have hw := own_wf hpz (hct _ n2) hb.coreSource (wf_coreDoc env.uni) (ht _ n2)
    have hch : o2.doc.rootChildren ≠ [] := by
      rcases source_zip hpz (hct _ n2) hb.coreSource with ⟨_, h2⟩ | ⟨c, d, h1, h2, h3⟩
      · rw [h2]; intro h; cases h
      · rw [h3]; exact hc2 _ (zipDoc_eq h1 h2)
    obtain ⟨t, a, cs, w1, w2⟩ := wf_core hw hch W.core
    exact ⟨_, _, src n2 hb.coreSource, W.core, saves_as hst hq (hct _ n2) (pe2 ▸ S.core) w1 w2⟩
  · obtain ⟨t, a, cs, hw, hc⟩ := book_wf (own_wf hpz (hct _ n3) hb.bookSource ⟨_, _, _, wf_workbookDoc env.uni⟩ (ht _ n3)) hb.bookLoad
    obtain ⟨w1, _, w2⟩ := wf_savedBook env.uni (sheets := s.x.sheets) (view := s.x.view) hw hc
    have e : d3 = (loadBook o3.doc).2.mapRootChildren (placeBook s.x.sheets s.x.view) := Except.ok.inj (W.book.symm.trans (saveBook_ok hw.isRoot))
    exact ⟨_, d3, t, a, cs, _, src n3 hb.bookSource, hb.bookLoad, hw, hc, W.book, saves_as hst hq (hct _ n3) (pe3 ▸ S.book) (e ▸ w1) w2⟩
  · obtain ⟨t, a, cs, hw, hc⟩ := (own_wf hpz (hct _ n4) hb.relSource ⟨_, _, _, wf_relsTemplate env.uni⟩ (ht _ n4)).pop "Relationship"
    have W4 := W.rels
    rw [hfin] at W4
    obtain ⟨w1, w2⟩ := wf_rels hw k8.ne_nil W4
    exact ⟨_, _, t, a, cs, _, src n4 hb.relSource, hw, hc, W4, saves_as hst hq (hct _ n4) (pe4 ▸ S.rels) w1 w2⟩
  · obtain ⟨t, a, cs, hw⟩ := own_wf hpz (hct _ n5) hb.themeSource hth (ht _ n5)
    have hch : o5.doc.rootChildren ≠ [] := by
      rcases source_zip hpz (hct _ n5) hb.themeSource with ⟨_, h2⟩ | ⟨c, d, h1, h2, h3⟩
      · rw [h2]; exact hthc
      · rw [h3]; exact hc1 _ (zipDoc_eq h1 h2)
    have hcs : cs ≠ [] := by
      unfold XDoc.rootChildren at hch
      rw [hw.isRoot] at hch
      exact hch
    exact ⟨_, src n5 hb.themeSource, saves_as hst hq (hct _ n5) (pe5 ▸ S.theme) hw hcs⟩
  · obtain ⟨t, a, cs, hw, hc⟩ := (own_wf hpz (hct _ n6) hb.strSource ⟨_, _, _, wf_stringsTemplate env.uni⟩ (ht _ n6)).pop "si"
    have ha : ∃ a0, a = some a0 := by
      have hroot' := hw.isRoot
      unfold XDoc.popTag XDoc.mapRootChildren at hroot'
      cases hr0 : o6.doc.root with
      | none => rw [hr0] at hroot'; cases hroot'
      | some r =>
        have hra : ∃ a0, r.attrs = some a0 := by
          rcases source_zip hpz (hct _ n6) hb.strSource with ⟨_, h2⟩ | ⟨c, d, h1, h2, h3⟩
          · rw [h2] at hr0; cases hr0; exact ⟨_, rfl⟩
          · rw [h3] at hr0; exact read_root_attrs h2 hr0
        rw [hr0] at hroot'
        obtain ⟨t', a', v', cs'⟩ := r
        simp only [Option.map_some, Node.withChildren, Option.some.injEq, Node.mk.injEq] at hroot'
        obtain ⟨a0, e⟩ := hra
        exact ⟨a0, hroot'.2.1.symm.trans e⟩
    obtain ⟨a, rfl⟩ := ha
    have W6 := W.strings
    rw [if_neg h6] at W6
    obtain ⟨a', w1, w2⟩ := wf_strings hw h6 W6
    exact ⟨_, _, t, a, cs, src n6 hb.strSource, hw, hc, W6, saves_as hst hq (hct _ n6) (pe6 ▸ S.strings) w1 w2⟩
  · obtain ⟨t, a, cs, hw, hc⟩ := (own_wf hpz (hct _ n7) hb.calcSource ⟨_, _, _, wf_calcTemplate env.uni⟩ (ht _ n7)).pop "c"
    have W7 := W.chain
    rw [if_neg h7] at W7
    obtain ⟨w1, w2⟩ := wf_calc hw h7 W7
    exact ⟨_, _, t, a, cs, src n7 hb.calcSource, hw, hc, W7, saves_as hst hq (hct _ n7) (pe7 ▸ S.chain) w1 w2⟩
  · obtain ⟨t, a, cs, hw, hc⟩ := styles_wf (own_wf hpz (hct _ n8) hb.styleSource (wf_styleDoc env.uni) (ht _ n8)) hb.styleLoad
    obtain ⟨w1, w2⟩ := wf_styles hw hc W.styles
    exact ⟨_, _, t, a, cs, _, src n8 hb.styleSource, hb.styleLoad, hw, hc, W.styles, saves_as hst hq (hct _ n8) (pe8 ▸ S.styles) w1 w2⟩


/-- Everything the library needs to leave a saved file alone from then on. -/
structure Settled (env : Env) (theme : XDoc) (z : Zip) (ops : List WbOp) (x : Excel) (s : Session) (now : String) (exts : List (String × String)) (z1 : Zip) :
    Prop where
  nodup : (akeys z).Nodup
  ran : RanOn env theme z ops x s
  tidy : TidyParts env z x
  rels : PlainRels x
  sizes : SizesFit ops
  theme : HasContent env z x.theme.path
  core : HasContent env z x.core.path
  order : ∀ q, s.x.saved env now = .ok q → HashSetOrder q.extPairs exts
  saved : s.x.toZip env now exts = .ok z1
  strings : s.x.strings.data ≠ []
  chain : s.x.chain.data ≠ []
  upright : UprightFonts s.x.styles.data
  trimmed : TrimmedTexts s.x.strings.data
  plain : PlainParts env z1 x
  stamped : CoreStamped env z1 x

/-- What one more opening and saving does to the file. -/
structure Again (env : Env) (x : Excel) (k : Nat) (z z' : Zip) : Prop where
  own : ∀ n ∈ ownParts x, n ≠ x.book.path → n ≠ x.core.path → ∃ d, zipDoc env z n = some d ∧ zipDoc env z' n = some d
  book : ∃ d, zipDoc env z x.book.path = some d ∧ zipDoc env z' x.book.path = some (iterate flipTabs k d)
  core : ∃ d d', zipDoc env z x.core.path = some d ∧ zipDoc env z' x.core.path = some d' ∧ blankModified d' = blankModified d
  others : ∀ n, n ≠ contentTypesName → n ∉ ownParts x → aget n z' = aget n z

theorem Spec.WfDoc.eta {u : Unicode} {x : XDoc} {r : Node} (h : WfDoc u x r) : x = ⟨x.ns, some r⟩ := by
  obtain ⟨ns, root⟩ := x
  have := h.isRoot
  simp only at this
  rw [this]

theorem plain_part {env : Env} {z : Zip} {x : Excel} (h : PlainParts env z x) {n : String} (hn : n ∈ ownParts x) {b : Build} {ns : Attrs} {r : Node}
    (hz : zipDoc env z n = some (reloadDoc b ⟨ns, some r⟩)) : PlainNode (reload r) := by
  obtain ⟨d, r', h1, h2, h3⟩ := h n hn
  rw [hz] at h1
  cases h1
  unfold reloadDoc at h2
  simp only [Option.map_some, Option.some.injEq] at h2
  rw [h2]; exact h3

theorem again_rels {env : Env} {z z1 z2 : Zip} {x : Excel} {path : String} {R : List Rel} (hn : path ∈ ownParts x) (hpl : PlainParts env z1 x)
    (hA : ∃ e d t a cs k, OpensAs env z path e ∧ WfDoc env.uni (loadRels e).2 (.mk t a none cs) ∧ (∀ c ∈ cs, c.tag ≠ "Relationship") ∧
      saveRels (loadRels e).2 R = .ok (d, k) ∧ SavesAs env z1 path d)
    (hB : ∃ e d t a cs k, OpensAs env z1 path e ∧ WfDoc env.uni (loadRels e).2 (.mk t a none cs) ∧ (∀ c ∈ cs, c.tag ≠ "Relationship") ∧
      saveRels (loadRels e).2 R = .ok (d, k) ∧ SavesAs env z2 path d) :
    ∃ d, zipDoc env z1 path = some d ∧ zipDoc env z2 path = some d := by
  obtain ⟨e, d, t, a, cs, k, _, hw, hc, hs, _, _, _, _, _, ho⟩ := hA
  obtain ⟨e', d', t', a', cs', k', hsrc, hw', _, hs', _, _, _, _, _, ho'⟩ := hB
  have he := hsrc _ ho
  subst he
  have hd : d = ⟨(loadRels e).2.ns, some (.mk t a none (cs ++ R.map relNode))⟩ := by
    unfold saveRels at hs
    rw [hw.isRoot] at hs
    simp only [appendAll_doc hw.isRoot, Except.ok.injEq, Prod.mk.injEq] at hs
    exact hs.1.symm
  have hs2 : ((reloadDoc env.build d).popTag "Relationship").2.appendAll (R.map relNode) = .ok d' := by
    unfold saveRels at hs'
    rw [hw'.isRoot] at hs'
    simp only at hs'
    split at hs'
    · cases hs'
    · next e => cases hs'; exact e
  refine ⟨_, ho, ho'.trans (congrArg some ?_)⟩
  rw [hd] at hs2 ho ⊢
  exact settled_append hc (by intro c hc; obtain ⟨r, _, rfl⟩ := List.mem_map.mp hc; rfl) (plain_part hpl hn ho) rfl hs2

theorem loadCalc_pop (e : XDoc) : (loadCalc e).2 = (e.popTag "c").2 := by
  unfold loadCalc
  rfl

theorem again_calc {env : Env} {z z1 z2 : Zip} {x : Excel} {path : String} {l : List CalcEntry} (hn : path ∈ ownParts x) (hpl : PlainParts env z1 x)
    (hA : ∃ e d t a cs, OpensAs env z path e ∧ WfDoc env.uni (loadCalc e).2 (.mk t a none cs) ∧ (∀ c ∈ cs, c.tag ≠ "c") ∧
      saveCalc (loadCalc e).2 l = .ok d ∧ SavesAs env z1 path d)
    (hB : ∃ e d t a cs, OpensAs env z1 path e ∧ WfDoc env.uni (loadCalc e).2 (.mk t a none cs) ∧ (∀ c ∈ cs, c.tag ≠ "c") ∧
      saveCalc (loadCalc e).2 (l.map reloadEntry) = .ok d ∧ SavesAs env z2 path d) :
    ∃ d, zipDoc env z1 path = some d ∧ zipDoc env z2 path = some d := by
  obtain ⟨e, d, t, a, cs, _, hw, hc, hs, _, _, _, _, _, ho⟩ := hA
  obtain ⟨e', d', t', a', cs', hsrc, _, _, hs', _, _, _, _, _, ho'⟩ := hB
  have he := hsrc _ ho
  subst he
  have hd : d = ⟨(loadCalc e).2.ns, some (.mk t a none (cs ++ l.map calcNode))⟩ := by
    unfold saveCalc at hs
    rw [appendAll_doc hw.isRoot] at hs
    exact (Except.ok.inj hs).symm
  unfold saveCalc at hs'
  rw [loadCalc_pop] at hs'
  refine ⟨_, ho, ho'.trans (congrArg some ?_)⟩
  rw [hd] at hs' ho ⊢
  have hpn := plain_part hpl hn ho
  refine settled_append hc (by intro c hc; obtain ⟨r, _, rfl⟩ := List.mem_map.mp hc; rfl) hpn ?_ hs'
  rw [again_map (fun e _ => esc_calcNode e)]
  obtain ⟨_, h2⟩ := plain_root hpn
  rw [List.map_append, List.map_append] at h2
  have h3 := (List.append_inj h2 (by simp)).2
  rw [← h3, List.map_map (f := escNode), List.map_map (f := reload)]
  apply List.map_congr_left
  intro n _
  exact again_of_esc rfl

theorem again_strings {env : Env} {z z1 z2 : Zip} {x : Excel} {path : String} {l : List String} (hn : path ∈ ownParts x) (hpl : PlainParts env z1 x)
    (hA : ∃ e d t a cs, OpensAs env z path e ∧ WfDoc env.uni (loadStrings e).2 (.mk t (some a) none cs) ∧ (∀ c ∈ cs, c.tag ≠ "si") ∧
      saveStrings (loadStrings e).2 l = .ok d ∧ SavesAs env z1 path d)
    (hB : ∃ e d t a cs, OpensAs env z1 path e ∧ WfDoc env.uni (loadStrings e).2 (.mk t (some a) none cs) ∧ (∀ c ∈ cs, c.tag ≠ "si") ∧
      saveStrings (loadStrings e).2 l = .ok d ∧ SavesAs env z2 path d) :
    ∃ d, zipDoc env z1 path = some d ∧ zipDoc env z2 path = some d := by
  obtain ⟨e, d, t, a, cs, _, hw, hc, hs, _, _, _, _, _, ho⟩ := hA
  obtain ⟨e', d', t', a', cs', hsrc, _, _, hs', _, _, _, _, _, ho'⟩ := hB
  have he := hsrc _ ho
  subst he
  obtain ⟨dd, r, h1, h2, h3⟩ := hpl _ hn
  rw [ho] at h1
  cases h1
  have hw2 := hw
  rw [hw.eta] at hw2 hs
  exact ⟨_, ho, ho'.trans (congrArg some (settled_strings hw2 hc hs h2 h3 hs'))⟩

theorem again_styles {env : Env} {z z1 z2 : Zip} {x : Excel} {path : String} {st : Styles} (hn : path ∈ ownParts x) (hpl : PlainParts env z1 x)
    (hu : UprightFonts st) (hb : FlagBits st)
    (hA : ∃ e d t a cs r, OpensAs env z path e ∧ (Styles.load e).1 = .ok r ∧ WfDoc env.uni (Styles.load e).2 (.mk t a none cs) ∧
      (∀ c ∈ cs, c.tag ∉ styleTags) ∧ st.save (Styles.load e).2 = .ok d ∧ SavesAs env z1 path d)
    (hB : ∃ e d t a cs r, OpensAs env z1 path e ∧ (Styles.load e).1 = .ok r ∧ WfDoc env.uni (Styles.load e).2 (.mk t a none cs) ∧
      (∀ c ∈ cs, c.tag ∉ styleTags) ∧ (reloadStyles st).save (Styles.load e).2 = .ok d ∧ SavesAs env z2 path d) :
    ∃ d, zipDoc env z1 path = some d ∧ zipDoc env z2 path = some d := by
  obtain ⟨e, d, t, a, cs, r, _, _, hw, hc, hs, _, _, _, _, _, ho⟩ := hA
  obtain ⟨e', d', t', a', cs', r', hsrc, hl', _, _, hs', _, _, _, _, _, ho'⟩ := hB
  have he := hsrc _ ho
  subst he
  have hd : d = ⟨(Styles.load e).2.ns, some (.mk t a none (placeStyles st cs))⟩ := by
    unfold Styles.save at hs
    rw [hw.isRoot] at hs
    rw [← Except.ok.inj hs, hw.eta]
    rfl
  refine ⟨_, ho, ho'.trans (congrArg some ?_)⟩
  rw [hd] at hs' ho hl' ⊢
  exact settled_styles hc hu hb (plain_part hpl hn ho) ⟨_, hl'⟩ hs'

theorem again_book {env : Env} {z z1 z2 : Zip} {x : Excel} {path : String} {sheets : List SheetEntry} {view : Option BookView} (hn : path ∈ ownParts x)
    (hpl : PlainParts env z1 x)
    (hA : ∃ e d t a cs r, OpensAs env z path e ∧ (loadBook e).1 = .ok r ∧ WfDoc env.uni (loadBook e).2 (.mk t a none cs) ∧ (∀ c ∈ cs, c.tag ∉ bookTags) ∧
      saveBook sheets view (loadBook e).2 = .ok d ∧ SavesAs env z1 path d)
    (hB : ∃ e d t a cs r, OpensAs env z1 path e ∧ (loadBook e).1 = .ok r ∧ WfDoc env.uni (loadBook e).2 (.mk t a none cs) ∧ (∀ c ∈ cs, c.tag ∉ bookTags) ∧
      saveBook (sheets.map reloadSheetEntry) (view.map reloadBookView) (loadBook e).2 = .ok d ∧ SavesAs env z2 path d) :
    ∃ d, zipDoc env z1 path = some d ∧ zipDoc env z2 path = some (flipTabs d) := by
  obtain ⟨e, d, t, a, cs, r, _, _, hw, hc, hs, _, _, _, _, _, ho⟩ := hA
  obtain ⟨e', d', t', a', cs', r', hsrc, hl', _, _, hs', _, _, _, _, _, ho'⟩ := hB
  have he := hsrc _ ho
  subst he
  have hd : d = ⟨(loadBook e).2.ns, some (.mk t a none (placeBook sheets view cs))⟩ := by
    rw [saveBook_ok hw.isRoot] at hs
    rw [← Except.ok.inj hs, hw.eta]
    rfl
  refine ⟨_, ho, ho'.trans (congrArg some ?_)⟩
  rw [hd] at hs' ho hl' ⊢
  exact settled_book hc (plain_part hpl hn ho) ⟨_, hl'⟩ hs'

theorem again_core {env : Env} {z z1 z2 : Zip} {x : Excel} {now now' : String} (hpl : PlainParts env z1 x) (hst : CoreStamped env z1 x)
    (hA : ∃ e d, OpensAs env z x.core.path e ∧ saveCore now now e = .ok d ∧ SavesAs env z1 x.core.path d)
    (hB : ∃ e d, OpensAs env z1 x.core.path e ∧ saveCore now' now' e = .ok d ∧ SavesAs env z2 x.core.path d) :
    ∃ d d' r, zipDoc env z1 x.core.path = some d ∧ zipDoc env z2 x.core.path = some d' ∧ blankModified d' = blankModified d ∧ d'.root = some r ∧
      PlainNode r ∧ r.tag = "cp:coreProperties" ∧ ∀ n ∈ r.children, n.tag = "dcterms:created" → n.value ≠ none := by
  obtain ⟨e, d, _, hs, t, a, cs, hw, _, ho⟩ := hA
  obtain ⟨e', d', hsrc, hs', _, _, _, _, _, ho'⟩ := hB
  have he := hsrc _ ho
  subst he
  obtain ⟨dd, r, c1, c2, c3, c4⟩ := hst
  rw [ho] at c1
  cases c1
  rw [hw.eta] at hs' ho c2
  unfold reloadDoc at c2
  simp only [Option.map_some, Option.some.injEq, reload, reloads_eq] at c2
  subst c2
  cases c3
  have hpn := plain_part hpl (by simp [ownParts]) ho
  obtain ⟨l2, g1, g2, g3, g4⟩ := settled_core hpn c4 hs'
  refine ⟨_, _, .mk "cp:coreProperties" (some (reloadAttrs a)) none l2, ho, ho', ?_, by rw [g1], ?_, rfl, g3⟩
  · rw [g1, reloadDoc_mk, blankModified_mk, blankModified_mk, g4]
  · rw [reload, PlainNode] at hpn
    rw [PlainNode]
    exact ⟨hpn.1, g2⟩

theorem flip_plain {n : Node} (h : PlainNode n) : PlainNode (flipChild n) := by
  unfold flipChild
  split
  · obtain ⟨t, a, v, cs⟩ := n
    rw [PlainNode] at h
    simp only [Node.withChildren, Node.children]
    rw [PlainNode]
    refine ⟨h.1, plainNodes_iff.mpr ?_⟩
    intro c hc
    obtain ⟨c0, hc0, rfl⟩ := List.mem_map.mp hc
    have h0 := plainNodes_iff.mp h.2 c0 hc0
    obtain ⟨t, a, v, cs⟩ := c0
    rw [PlainNode] at h0
    rw [flipView, PlainNode]
    refine ⟨?_, h0.2⟩
    cases a with
    | none => exact h0.1
    | some a =>
      intro kv hkv
      simp only [Option.map_some, Option.getD_some, List.mem_map] at hkv
      obtain ⟨kv0, h1, rfl⟩ := hkv
      unfold flipFlag
      split
      · simp only
        split <;> (unfold NoSpecials; decide +kernel)
      · exact h0.1 _ h1
  · exact h

theorem again_step (hst : env.build.release = true → StampOk env.stamp) (hth : WfRoot env.uni theme) (hthc : theme.rootChildren ≠ [])
    {z1 z2 : Zip} (S : Settled env theme z ops x s now exts z1) (hrs : Resaves env theme z1 z2) :
    ∃ x1 now1 exts1, ownParts x1 = ownParts x ∧ Again env x 1 z1 z2 ∧ Settled env theme z1 [] x1 ⟨x1, []⟩ now1 exts1 z2 := by
  obtain ⟨x1, now1, exts1, hopen, hext1, hz2⟩ := hrs
  obtain ⟨x1', ho', a1, a2, a3, a4, a5, a6, a7, a8⟩ := opens_again hst S.nodup S.ran S.tidy S.rels S.sizes hth hthc S.theme S.core S.order S.saved S.strings S.chain
  rw [hopen] at ho'
  cases ho'
  have A := saved_own hst S.nodup S.ran S.tidy S.rels hth hthc S.theme S.core S.saved S.strings S.chain
  obtain ⟨p, o1, o2, o3, o4, o5, o6, o7, o8, r1, r2, hpz, hb⟩ := openFile_book S.nodup S.ran.1
  have hroot : s.x.rootRels = x.rootRels := run_rootRels (s := ⟨x, []⟩) S.ran.2
  obtain ⟨ho, _⟩ := leads_run (s := ⟨x, []⟩) hb.live (plainRels_orderly S.rels) S.ran.2
  obtain ⟨_, _, _, _, _, _, _, _, _, _, _, _, _, _, _, _, _, _, _, _, _, _, _, _, _, _, hown, _⟩ := saved_base S.nodup S.ran S.saved
  have hfb : FlagBits s.x.styles.data := session_bits (s := ⟨x, []⟩) (load_bits hb.styleLoad) S.ran.2
  have pe4 := (own_paths hown).2.2.2.1
  have hq : ∃ q, s.x.saved env now = .ok q ∧ q.toZip env exts = .ok z1 := by
    have hs := S.saved
    unfold Excel.toZip at hs
    split at hs
    · cases hs
    · next q' e => exact ⟨q', e, hs⟩
  obtain ⟨q, hq1, hq2⟩ := hq
  have hz1 : (akeys z1).Nodup := by
    obtain ⟨_, _, _, _, _, _, _, _, B⟩ := (hb.live.run env ops S.ran.2).allHeld
    obtain ⟨_, _, _, _, _, _, _, _, _, _, S'⟩ := saved_all B hq1
    exact toZip_nodup S'.inv hq2
  have hpaths := a1
  simp only [ownParts, List.cons.injEq, and_true] at hpaths
  obtain ⟨e1, e2, e3, e4, e5, e6, e7, e8⟩ := hpaths
  have tid : ∀ n ∈ ownParts x, ∃ d, zipDoc env z1 n = some d ∧ Tidy d ∧ d.rootChildren ≠ [] := by
    intro n hn
    simp only [ownParts, List.mem_cons, List.not_mem_nil, or_false] at hn
    rcases hn with rfl | rfl | rfl | rfl | rfl | rfl | rfl | rfl
    · obtain ⟨_, _, _, _, _, _, _, _, _, _, h⟩ := A.root; exact h.tidy
    · obtain ⟨_, _, _, _, h⟩ := A.core; exact h.tidy
    · obtain ⟨_, _, _, _, _, _, _, _, _, _, _, h⟩ := A.book; exact h.tidy
    · obtain ⟨_, _, _, _, _, _, _, _, _, _, h⟩ := A.rels; exact h.tidy
    · obtain ⟨_, _, h⟩ := A.theme; exact h.tidy
    · obtain ⟨_, _, _, _, _, _, _, _, _, h⟩ := A.strings; exact h.tidy
    · obtain ⟨_, _, _, _, _, _, _, _, _, h⟩ := A.chain; exact h.tidy
    · obtain ⟨_, _, _, _, _, _, _, _, _, _, _, h⟩ := A.styles; exact h.tidy
  have hran : RanOn env theme z1 [] x1 ⟨x1, []⟩ := ⟨hopen, rfl⟩
  have htidy : TidyParts env z1 x1 := by
    intro n hn _
    rw [a1] at hn
    obtain ⟨d, h1, h2, _⟩ := tid n hn
    exact ⟨d, h1, h2⟩
  have hcont : ∀ n ∈ ownParts x, HasContent env z1 n := by
    intro n hn d hd
    obtain ⟨d', h1, _, h3⟩ := tid n hn
    rw [h1] at hd
    cases hd
    exact h3
  have hpr : PlainRels x1 := by
    constructor
    · rw [a8]; exact S.rels.root
    · rw [e4]; exact S.rels.dir
    · rw [e4, a7, ← pe4]; exact ho.rels
  have hc1 : HasContent env z1 x1.theme.path := by rw [e5]; exact hcont _ (by simp [ownParts])
  have hc2 : HasContent env z1 x1.core.path := by rw [e2]; exact hcont _ (by simp [ownParts])
  have h6 : x1.strings.data ≠ [] := by rw [a4]; simpa using S.strings
  have h7 : x1.chain.data ≠ [] := by rw [a5]; simpa using S.chain
  have B := saved_own (s := ⟨x1, []⟩) hst hz1 hran htidy hpr hth hthc hc1 hc2 hz2 h6 h7
  have n1 : x.rootRels.path ∈ ownParts x := by simp [ownParts]
  have n3 : x.book.path ∈ ownParts x := by simp [ownParts]
  have n4 : x.rels.path ∈ ownParts x := by simp [ownParts]
  have n5 : x.theme.path ∈ ownParts x := by simp [ownParts]
  have n6 : x.strings.path ∈ ownParts x := by simp [ownParts]
  have n7 : x.chain.path ∈ ownParts x := by simp [ownParts]
  have n8 : x.styles.path ∈ ownParts x := by simp [ownParts]
  have B1 := B.root
  have B2 := B.core
  have B3 := B.book
  have B4 := B.rels
  have B5 := B.theme
  have B6 := B.strings
  have B7 := B.chain
  have B8 := B.styles
  have A1 := A.root
  rw [hroot] at A1
  rw [e1, a8] at B1
  rw [e2] at B2
  rw [e3, a2, a3] at B3
  rw [e4, a7] at B4
  rw [e5] at B5
  rw [e6, a4, trimmed_reload S.trimmed] at B6
  rw [e7, a5] at B7
  rw [e8, a6] at B8
  have g1 := again_rels n1 S.plain A1 B1
  have g4 := again_rels n4 S.plain A.rels B4
  have g6 := again_strings n6 S.plain A.strings B6
  have g7 := again_calc n7 S.plain A.chain B7
  have g8 := again_styles n8 S.plain S.upright hfb A.styles B8
  have g3 := again_book n3 S.plain A.book B3
  have g2 := again_core S.plain S.stamped A.core B2
  have g5 : ∃ d, zipDoc env z1 x.theme.path = some d ∧ zipDoc env z2 x.theme.path = some d := by
    obtain ⟨e, _, t, a, cs, hw, _, v⟩ := A.theme
    obtain ⟨e', hsrc, _, _, _, _, _, v'⟩ := B5
    have he := hsrc _ v
    subst he
    obtain ⟨dd, r, h1, h2, h3⟩ := S.plain _ n5
    rw [v] at h1
    cases h1
    have hr : (reloadDoc env.build e).root = some (reload (.mk t a none cs)) := by unfold reloadDoc; rw [hw.isRoot]; rfl
    rw [hr] at h2
    cases h2
    exact ⟨_, v, by rw [v', reloadDoc_fix hw.isRoot h3]⟩
  have hownp : ∀ n ∈ ownParts x, n ≠ x.book.path → n ≠ x.core.path → ∃ d, zipDoc env z1 n = some d ∧ zipDoc env z2 n = some d := by
    intro n hn nb nc
    simp only [ownParts, List.mem_cons, List.not_mem_nil, or_false] at hn
    rcases hn with rfl | rfl | rfl | rfl | rfl | rfl | rfl | rfl
    · exact g1
    · exact absurd rfl nc
    · exact absurd rfl nb
    · exact g4
    · exact g5
    · exact g6
    · exact g7
    · exact g8
  obtain ⟨k, k', kr, k1, k2, k3, k4, k5, k6, k7⟩ := g2
  obtain ⟨b, b1, b2⟩ := g3
  refine ⟨x1, now1, exts1, a1, ⟨hownp, ⟨b, b1, b2⟩, ⟨k, k', k1, k2, k3⟩, ?_⟩,
    ⟨hz1, hran, htidy, hpr, (fun hs st h => by cases h), hc1, hc2, hext1, hz2, h6, h7, ?_, ?_, ?_, ?_⟩⟩
  · intro n hn hnown
    exact C81_kept hz1 hran hz2 hn (a1 ▸ hnown) trivial
  · show UprightFonts x1.styles.data
    rw [a6]
    intro f hf
    obtain ⟨f0, _, rfl⟩ := List.mem_map.mp hf
    exact ⟨rfl, rfl⟩
  · show TrimmedTexts x1.strings.data
    rw [a4, trimmed_reload S.trimmed]; exact S.trimmed
  · intro n hn
    rw [a1] at hn
    by_cases nb : n = x.book.path
    · subst nb
      obtain ⟨d, r, h1, h2, h3⟩ := S.plain _ hn
      rw [b1] at h1
      cases h1
      obtain ⟨ns, root⟩ := b
      simp only at h2
      subst h2
      obtain ⟨t, a, v, cs⟩ := r
      refine ⟨_, _, b2, by rw [flipTabs_mk], ?_⟩
      rw [PlainNode] at h3 ⊢
      refine ⟨h3.1, plainNodes_iff.mpr ?_⟩
      intro c hc
      obtain ⟨c0, hc0, rfl⟩ := List.mem_map.mp hc
      exact flip_plain (plainNodes_iff.mp h3.2 c0 hc0)
    · by_cases nc : n = x.core.path
      · subst nc
        exact ⟨k', kr, k2, k4, k5⟩
      · obtain ⟨d, h1, h2⟩ := hownp n hn nb nc
        obtain ⟨d', r, h3, h4, h5⟩ := S.plain n hn
        rw [h1] at h3
        cases h3
        exact ⟨d, r, h2, h4, h5⟩
  · rw [← e2] at k2
    exact ⟨k', kr, k2, k4, k6, k7⟩

theorem Again.trans {x x' : Excel} {z1 z2 z3 : Zip} {k : Nat} (hx : ownParts x' = ownParts x) (h : Again env x k z1 z2) (h' : Again env x' 1 z2 z3) :
    Again env x (k + 1) z1 z3 := by
  have hpaths := hx
  simp only [ownParts, List.cons.injEq, and_true] at hpaths
  obtain ⟨e1, e2, e3, e4, e5, e6, e7, e8⟩ := hpaths
  constructor
  · intro n hn nb nc
    obtain ⟨d, h1, h2⟩ := h.own n hn nb nc
    obtain ⟨d', h3, h4⟩ := h'.own n (hx ▸ hn) (e3 ▸ nb) (e2 ▸ nc)
    rw [h2] at h3
    cases h3
    exact ⟨d, h1, h4⟩
  · obtain ⟨d, h1, h2⟩ := h.book
    obtain ⟨d', h3, h4⟩ := h'.book
    rw [e3] at h3 h4
    rw [h2] at h3
    cases h3
    exact ⟨d, h1, h4⟩
  · obtain ⟨d, d', h1, h2, h3⟩ := h.core
    obtain ⟨c, c', h4, h5, h6⟩ := h'.core
    rw [e2] at h4 h5
    rw [h2] at h4
    cases h4
    exact ⟨d, c', h1, h5, h6.trans h3⟩
  · intro n hn hown
    rw [h'.others n hn (hx ▸ hown), h.others n hn hown]

theorem Again.zero {z1 : Zip} (hpl : PlainParts env z1 x) : Again env x 0 z1 z1 := by
  constructor
  · intro n hn _ _
    obtain ⟨d, _, h, _⟩ := hpl n hn
    exact ⟨d, h, h⟩
  · obtain ⟨d, _, h, _⟩ := hpl x.book.path (by simp [ownParts])
    exact ⟨d, h, h⟩
  · obtain ⟨d, _, h, _⟩ := hpl x.core.path (by simp [ownParts])
    exact ⟨d, d, h, h, rfl⟩
  · intro n _ _; rfl

theorem again_times (hst : env.build.release = true → StampOk env.stamp) (hth : WfRoot env.uni theme) (hthc : theme.rootChildren ≠ [])
    {z1 zk : Zip} {k : Nat} (S : Settled env theme z ops x s now exts z1) (hrs : Resaved env theme k z1 zk) :
    Again env x k z1 zk ∧ ∃ z0 ops' x' s' now' exts', ownParts x' = ownParts x ∧ Settled env theme z0 ops' x' s' now' exts' zk := by
  induction hrs with
  | zero z1 => exact ⟨.zero S.plain, _, _, _, _, _, _, rfl, S⟩
  | succ _ h2 ih =>
    obtain ⟨g1, z0, ops', x', s', now', exts', g2, g3⟩ := ih S
    obtain ⟨x1, now1, exts1, h3, h4, h5⟩ := again_step hst hth hthc g3 h2
    exact ⟨g1.trans g2 h4, _, _, _, _, _, _, h3.trans g2, h5⟩

end
end Oxml
