import Verif.Spec.OfficeDoc
import Verif.Proofs.OfficeDoc
import Verif.Props.CoreProps
/-!
# C60, C66: Word and PowerPoint packages
-/
namespace Oxml
open Spec

theorem zipDoc_eq {env : Env} {z : Zip} {n : String} {c : List Char} {d : XmlDoc} (h : aget n z = some c) (hd : readXml env.uni c = .ok d) :
    zipDoc env z n = some d.toXDoc := by
  unfold zipDoc; simp only [h, hd]

theorem of_zipDoc {env : Env} {z : Zip} {n : String} {x : XDoc} (h : zipDoc env z n = some x) :
    ∃ c d, aget n z = some c ∧ readXml env.uni c = .ok d ∧ d.toXDoc = x := by
  unfold zipDoc at h
  split at h
  · cases h
  · next c hc =>
    split at h
    · cases h
    · next d hd => exact ⟨c, d, hc, hd, Option.some.inj h⟩

/-- A file opened and saved. -/
theorem resaved {env : Env} {z z' : Zip} {now : String} {d : OfficeDoc} {exts : List (String × String)} (hz : (akeys z).Nodup)
    (ho : OfficeDoc.openFile env z = .ok d) (hs : d.toZip env now exts = .ok z') :
    ∃ p q orel ocore rels xc xr, Pkg.ofZip env z = .ok p ∧ Started env p d orel ocore rels ∧ q.toZip env exts = .ok z' ∧ d.saved env now = .ok q ∧
      saveCore now now ocore.doc = .ok xc ∧ saveRels (loadRels orel.doc).2 d.rootRels.rels = .ok (xr, true) ∧ q.Inv ∧
      aget d.core.path q.archive = some { ext := ocore.ext, extType := ocore.extType, ctype := ocore.ctype, content := renderDoc env.build env.stamp xc } ∧
      aget "_rels/.rels" q.archive = some { ext := orel.ext, extType := orel.extType, ctype := orel.ctype, content := renderDoc env.build env.stamp xr } ∧
      ∀ m, m ≠ "_rels/.rels" → m ≠ d.core.path → aget m q.archive = aget m p.archive := by
  unfold OfficeDoc.openFile at ho
  split at ho
  · cases ho
  · next p hp =>
    obtain ⟨orel, ocore, rels, st⟩ := start_ok (Pkg.Inv.ofZip hz hp) ho
    unfold OfficeDoc.toZip at hs
    split at hs
    · cases hs
    · next q hq =>
      obtain ⟨xc, xr, h1, h2, h3, h4, h5, h6⟩ := (st.saved now).1 q hq
      refine ⟨p, q, orel, ocore, rels, xc, xr, hp, st, hs, hq, h1, h2, h3, h4, h5, ?_⟩
      intro m a b
      apply h6 m a b
      obtain ⟨_, _, _, _, _, _, _, hop, _⟩ := ofZip_ok hp
      rw [hop]; rfl

theorem relsName_ne : "_rels/.rels" ≠ contentTypesName := by decide

/-- **C60.** Every part of a package that is opened as a Word or PowerPoint document and saved is still there; every part except the root
relationships, the core properties and the content types has the bytes it had; no part occurs twice. -/
theorem C60_parts_kept (env : Env) (z z' : Zip) (now : String) (d : OfficeDoc) (exts : List (String × String)) (hz : (akeys z).Nodup)
    (ho : OfficeDoc.openFile env z = .ok d) (hs : d.toZip env now exts = .ok z') :
    (akeys z').Nodup ∧ (∀ n ∈ akeys z, n ∈ akeys z') ∧
    ∀ n, n ≠ "_rels/.rels" → n ≠ d.core.path → n ≠ contentTypesName → aget n z' = aget n z := by
  obtain ⟨p, q, orel, ocore, rels, xc, xr, hp, st, hq, _, _, _, hi, hc, hr, hoth⟩ := resaved hz ho hs
  have hbytes : ∀ n, n ≠ "_rels/.rels" → n ≠ d.core.path → n ≠ contentTypesName → aget n z' = aget n z := by
    intro n h1 h2 h3
    rw [toZip_aget hq h3, hoth n h1 h2, ofZip_content hp h3]
  refine ⟨toZip_nodup hi hq, ?_, hbytes⟩
  intro n hn
  have hct : contentTypesName ∈ akeys z' := by
    obtain ⟨_, rfl⟩ := toZip_ok hq
    simp [akeys]
  by_cases h3 : n = contentTypesName
  · rw [h3]; exact hct
  · by_cases h1 : n = "_rels/.rels"
    · rw [← aget_isSome_iff, toZip_aget hq h3, h1, hr]; exact ⟨_, rfl⟩
    · by_cases h2 : n = d.core.path
      · rw [← aget_isSome_iff, toZip_aget hq h3, h2, hc]; exact ⟨_, rfl⟩
      · rw [← aget_isSome_iff, hbytes n h1 h2 h3, aget_isSome_iff]; exact hn

/-- The source of an opened part of a file. -/
theorem source_zip {env : Env} {z : Zip} {p : Pkg} {t : Template} {n : String} {o : OpenDoc} (hp : Pkg.ofZip env z = .ok p)
    (hn : n ≠ contentTypesName) (h : Source env p t n o) : (aget n z = none ∧ o.doc = t.doc) ∨
      ∃ c d, aget n z = some c ∧ readXml env.uni c = .ok d ∧ o.doc = d.toXDoc := by
  have hcont := ofZip_content hp hn
  rcases h with ⟨h1, h2, _⟩ | ⟨e, dd, h1, h2, h3, _⟩
  · left; rw [h1] at hcont; exact ⟨hcont.symm, h2⟩
  · right; rw [h1] at hcont; exact ⟨e.content, dd, hcont.symm, h2, h3⟩

theorem Started.target_eq {env : Env} {p : Pkg} {d : OfficeDoc} {orel ocore : OpenDoc} {rels : List Rel} (h : Started env p d orel ocore rels) :
    (∃ r, rels.find? (fun r => r.type = coreType) = some r ∧ resolveTarget "_rels/.rels" r.target = .ok d.core.path ∧ d.rootRels.rels = rels) ∨
    (rels.find? (fun r => r.type = coreType) = none ∧ d.core.path = "docProps/core.xml" ∧
      d.rootRels.rels = rels ++ [⟨nextRelId rels, "/docProps/core.xml", coreType, none⟩]) := by
  have := h.target
  unfold targetByType at this
  split at this
  · next r hr =>
    simp only [Prod.mk.injEq] at this
    exact Or.inl ⟨r, hr, this.1, this.2.symm⟩
  · next hr =>
    simp only [Prod.mk.injEq, Except.ok.injEq] at this
    refine Or.inr ⟨hr, ?_, ?_⟩
    · rw [← this.1]; decide +kernel
    · rw [← this.2, newRel, show partPath coreContent none none = "docProps/core.xml" from by decide +kernel]
      rfl

theorem plain_core (rels : List Rel) : PlainRel ⟨nextRelId rels, "/docProps/core.xml", coreType, none⟩ :=
  ⟨noSpecials_nextRelId rels, show NoSpecials "/docProps/core.xml" by unfold NoSpecials; decide +kernel,
    show NoSpecials coreType by unfold NoSpecials; decide +kernel, (fun m hm => by cases hm)⟩

/-- The relationship document opened from a file that has none, or a tidy one. -/
theorem rels_wf {env : Env} {o : OpenDoc} (h : o.doc = relsTemplate.doc ∨ ∃ c d, readXml env.uni c = .ok d ∧ o.doc = d.toXDoc ∧ Tidy o.doc) :
    ∃ t a cs, WfDoc env.uni (loadRels o.doc).2 (.mk t a none cs) ∧ ∀ c ∈ cs, c.tag ≠ "Relationship" := by
  rcases h with h | ⟨c, d, h1, h2, h3⟩
  · rw [h]
    exact ⟨_, _, _, wf_relsTemplate env.uni, by intro c hc; cases hc⟩
  · obtain ⟨t, a, cs, hr⟩ := h3.root
    have hw : WfDoc env.uni o.doc (.mk t a none cs) := by
      rw [h2] at hr ⊢
      exact (Reachable.read h1).wf hr (by have := h3.uris; rw [h2] at this; exact this)
    refine ⟨t, a, cs.filter (fun n => n.tag ≠ "Relationship"), ⟨?_, ?_, hw.ns, hw.uris⟩, ?_⟩
    · simp only [loadRels, XDoc.popTag, XDoc.mapRootChildren, hr]
      rfl
    · refine ⟨hw.names.1, hw.names.2.1, ?_⟩
      rw [wfNodes_iff]
      intro c hc
      exact (wfNodes_iff.mp hw.names.2.2) c (List.mem_filter.mp hc).1
    · intro c hc
      have := (List.mem_filter.mp hc).2
      simpa using this

theorem saveRels_ns {x x' : XDoc} {rels : List Rel} {k : Bool} (h : saveRels x rels = .ok (x', k)) : x'.ns = x.ns := by
  unfold saveRels XDoc.appendAll at h
  split at h
  · cases h
  · next r hr =>
    simp only [hr] at h
    cases h
    rfl

/-- **C60 as stated, for relationships.** Opening and saving keeps the root relationships. -/
def RootRelationshipsKept (env : Env) : Prop :=
  ∀ z z' now d exts x x' rels, (akeys z).Nodup → OfficeDoc.openFile env z = .ok d → d.toZip env now exts = .ok z' →
    zipDoc env z "_rels/.rels" = some x → (loadRels x).1 = .ok rels → zipDoc env z' "_rels/.rels" = some x' →
    ∃ more, (loadRels x').1 = .ok (rels ++ more)

/-- A Word file with a link in its root relationships. -/
def linkZip : Zip :=
  [("_rels/.rels", "<Relationships><Relationship Id=\"r1\" Type=\"t\" Target=\"http://x/?a=1&amp;b=2\" TargetMode=\"External\"/></Relationships>".toList),
   (contentTypesName, "<Types><Default Extension=\"rels\" ContentType=\"r\"/></Types>".toList)]

/-- The targets of the root relationships before and after opening and saving. -/
def targetsOf (env : Env) (z : Zip) (n : String) : Option (List String) :=
  (zipDoc env z n).bind (fun x => (loadRels x).1.toOption.map (fun l => l.map Rel.target))

theorem linkZip_saved : ∃ d z', OfficeDoc.openFile exEnv linkZip = .ok d ∧ d.toZip exEnv "now" [("rels", "r"), ("xml", "application/xml")] = .ok z' ∧
    targetsOf exEnv z' "_rels/.rels" = some ["http://x/?a=1&amp;amp;b=2", "/docProps/core.xml"] := by
  have h : (OfficeDoc.openFile exEnv linkZip).toOption.bind (fun d =>
      (d.toZip exEnv "now" [("rels", "r"), ("xml", "application/xml")]).toOption.bind (fun z' => targetsOf exEnv z' "_rels/.rels")) =
        some ["http://x/?a=1&amp;amp;b=2", "/docProps/core.xml"] := by
    decide +kernel
  cases hd : OfficeDoc.openFile exEnv linkZip with
  | error e => rw [hd] at h; cases h
  | ok d =>
    rw [hd] at h
    simp only [Except.toOption, Option.bind_some] at h
    cases hz : d.toZip exEnv "now" [("rels", "r"), ("xml", "application/xml")] with
    | error e => rw [hz] at h; cases h
    | ok z' => rw [hz] at h; exact ⟨d, z', rfl, hz, h⟩

/-- **C60 is violated** for relationships: a link with `&` in the root relationships is changed by opening and saving. -/
theorem C60_violated : ¬ RootRelationshipsKept exEnv := by
  intro h
  obtain ⟨d, z', h1, h2, h3⟩ := linkZip_saved
  have hx : targetsOf exEnv linkZip "_rels/.rels" = some ["http://x/?a=1&amp;b=2"] := by decide +kernel
  unfold targetsOf at hx h3
  cases hzx : zipDoc exEnv linkZip "_rels/.rels" with
  | none => rw [hzx] at hx; cases hx
  | some x =>
    rw [hzx] at hx
    cases hzx' : zipDoc exEnv z' "_rels/.rels" with
    | none => rw [hzx'] at h3; cases h3
    | some x' =>
      rw [hzx'] at h3
      simp only [Option.bind_some] at hx h3
      cases hl : (loadRels x).1 with
      | error e => rw [hl] at hx; cases hx
      | ok rels =>
        rw [hl] at hx
        obtain ⟨more, hm⟩ := h linkZip z' "now" d _ x x' rels (by decide +kernel) h1 h2 hzx hl hzx'
        rw [hm] at h3
        simp only [Except.toOption, Option.map_some, Option.some.injEq, List.map_append] at hx h3
        rw [hx] at h3
        simp only [List.cons_append, List.cons.injEq] at h3
        exact absurd h3.1 (by decide)

/-- **C60, what holds for relationships.** Root relationships without special characters come back in order, and a relationship to the core
properties is added if there was none. A package without root relationships gets that one.
Missing from the full claim: relationships with one of the five special characters (changed), and roots with text between the elements. -/
theorem C60_relationships_partial (env : Env) (hst : env.build.release = true → StampOk env.stamp) (z z' : Zip) (now : String) (d : OfficeDoc)
    (exts : List (String × String)) (hz : (akeys z).Nodup) (ho : OfficeDoc.openFile env z = .ok d) (hs : d.toZip env now exts = .ok z')
    (rels : List Rel) (hrels : (aget "_rels/.rels" z = none ∧ rels = []) ∨
      ∃ x, zipDoc env z "_rels/.rels" = some x ∧ Tidy x ∧ (loadRels x).1 = .ok rels ∧ ∀ r ∈ rels, PlainRel r) :
    ∃ x', zipDoc env z' "_rels/.rels" = some x' ∧ Tidy x' ∧ (loadRels x').1 = .ok d.rootRels.rels ∧
      ((∃ r ∈ rels, r.type = coreType) → d.rootRels.rels = rels) ∧
      ((∀ r ∈ rels, r.type ≠ coreType) → ∃ id, id ∉ rels.map Rel.id ∧ d.rootRels.rels = rels ++ [⟨id, "/docProps/core.xml", coreType, none⟩]) := by
  obtain ⟨p, q, orel, ocore, rels0, xc, xr, hp, st, hq, _, _, hsr, hi, hc, hr, hoth⟩ := resaved hz ho hs
  have hsrc := source_zip hp relsName_ne st.relSource
  have key : rels0 = rels ∧ (∀ r ∈ rels, PlainRel r) ∧
      (orel.doc = relsTemplate.doc ∨ ∃ c d, readXml env.uni c = .ok d ∧ orel.doc = d.toXDoc ∧ Tidy orel.doc) := by
    rcases hrels with ⟨h1, rfl⟩ | ⟨x, h1, h2, h3, h4⟩
    · rcases hsrc with ⟨_, h⟩ | ⟨c, dd, h, _⟩
      · have := st.relLoad
        rw [h] at this
        exact ⟨(Except.ok.inj this).symm, (fun r hr => by cases hr), Or.inl h⟩
      · rw [h1] at h; cases h
    · obtain ⟨c, dd, e1, e2, e3⟩ := of_zipDoc h1
      rcases hsrc with ⟨h, _⟩ | ⟨c', dd', f1, f2, f3⟩
      · rw [e1] at h; cases h
      · rw [e1] at f1; cases f1
        rw [e2] at f2; cases f2
        have hl := st.relLoad
        rw [f3, e3, h3] at hl
        refine ⟨(Except.ok.inj hl).symm, h4, Or.inr ⟨c, dd, e2, f3, ?_⟩⟩
        rw [f3, e3]; exact h2
  obtain ⟨rfl, hpl, hw⟩ := key
  obtain ⟨t, a, cs, hwf, hcs⟩ := rels_wf hw
  obtain ⟨x', dd, g1, g2, g3, g4, g5⟩ := rels_reload env hst hwf hcs d.rootRels.rels st.rels_ne
  rw [hsr] at g1
  cases g1
  have hesc : d.rootRels.rels.map escRel = d.rootRels.rels := by
    have : ∀ r ∈ d.rootRels.rels, escRel r = r := by
      intro r hr
      apply (escRel_eq_iff r).mpr
      rcases st.target_eq with ⟨_, _, _, h⟩ | ⟨_, _, h⟩
      · rw [h] at hr; exact hpl r hr
      · rw [h] at hr
        rcases List.mem_append.mp hr with hr | hr
        · exact hpl r hr
        · rw [List.mem_singleton] at hr
          rw [hr]; exact plain_core rels0
    calc d.rootRels.rels.map escRel = d.rootRels.rels.map id := List.map_congr_left this
      _ = _ := List.map_id _
  refine ⟨dd.toXDoc, zipDoc_eq (c := renderDoc env.build env.stamp xr) ?_ g2, ?_, by rw [g3, hesc], ?_, ?_⟩
  · rw [toZip_aget hq relsName_ne, hr]; rfl
  · rw [g4]
    have hns : xr.ns = (loadRels orel.doc).2.ns := saveRels_ns hsr
    refine ⟨?_, ?_⟩
    · simp only [reloadDoc, hns]
      exact cleanUris_release env.build hwf.uris
    · simp only [reloadDoc, g5, Option.map_some]
      exact ⟨_, _, _, rfl⟩
  · rintro ⟨r, hr, ht⟩
    rcases st.target_eq with ⟨_, _, _, h⟩ | ⟨h, _⟩
    · exact h
    · have := List.find?_eq_none.mp h r hr
      exact absurd ht (by simpa using this)
  · intro hno
    rcases st.target_eq with ⟨r, h, _⟩ | ⟨_, _, h⟩
    · have h1 := List.find?_some h
      exact absurd (by simpa using h1) (hno r (List.mem_of_find?_eq_some h))
    · exact ⟨_, nextRelId_fresh rels0, h⟩

/-! ### Core properties -/

theorem stamped_children {now : String} {r r' : Node} (h : Stamped now r r') : r'.children.map Node.tag = r.children.map Node.tag := by
  apply List.ext_getElem?
  intro i
  rw [List.getElem?_map, List.getElem?_map]
  cases hi : r.children[i]? with
  | none =>
    rw [List.getElem?_eq_none_iff] at hi
    rw [List.getElem?_eq_none_iff.mpr (by rw [h.length]; exact hi)]
  | some c =>
    obtain ⟨c', h1, h2, _⟩ := h.child i c hi
    rw [h1]; simp [h2]

theorem coreText_reload {b : Build} {x : XDoc} {t : String} {a : Option Attrs} {cs : List Node} (hr : x.root = some (.mk t a none cs)) (s : String) :
    coreText (reloadDoc b x) s = (coreText x s).bind reloadText := by
  unfold coreText
  rw [reloadDoc_rootChildren ⟨hr⟩, show x.rootChildren = cs by unfold XDoc.rootChildren; rw [hr]; rfl]
  clear hr
  induction cs with
  | nil => rfl
  | cons c cs ih =>
    simp only [List.map_cons, List.find?_cons, reload_tag]
    split
    · simp [reload_value]
    · exact ih

theorem coreText_none {x : XDoc} {t : String} (h : ∀ c ∈ x.rootChildren, c.tag ≠ t) : coreText x t = none := by
  unfold coreText
  rw [List.find?_eq_none.mpr]
  · rfl
  · intro c hc; simpa using h c hc

theorem stamped_other {now : String} {ns : Attrs} {r r' : Node} (h : Stamped now r r') {t : String} (h1 : t ≠ "dcterms:modified")
    (h2 : t ≠ "dcterms:created") : coreText ⟨ns, some r'⟩ t = coreText ⟨ns, some r⟩ t := by
  have htags := stamped_children h
  by_cases hex : ∃ c ∈ r.children, c.tag = t
  · obtain ⟨i, c, hi, hc⟩ := firstWith_of_mem hex
    obtain ⟨c', e1, e2, _, _, _, _, e3⟩ := h.child i c hc
    have ht : c.tag = t := by
      obtain ⟨⟨c0, a1, a2⟩, _⟩ := hi
      rw [hc] at a1; cases a1; exact a2
    have no : ∀ s, t ≠ s → ¬ FirstWith s r.children i := by
      intro s hs hf
      obtain ⟨⟨c0, a1, a2⟩, _⟩ := hf
      rw [hc] at a1; cases a1
      exact hs (ht.symm.trans a2)
    have hf' : FirstWith t r'.children i := by
      refine ⟨⟨c', e1, e2.trans ht⟩, ?_⟩
      intro j d' hj hd'
      have hj2 : r.children[j]?.map Node.tag = some d'.tag := by
        rw [← List.getElem?_map, ← htags, List.getElem?_map, hd']; rfl
      cases hd : r.children[j]? with
      | none => rw [hd] at hj2; cases hj2
      | some e =>
        rw [hd] at hj2
        simp only [Option.map_some, Option.some.injEq] at hj2
        rw [← hj2]; exact hi.2 j e hj hd
    rw [coreText_of_child rfl hf' e1, coreText_of_child rfl hi hc, e3 (no _ h1) (no _ h2)]
  · have hno : ∀ c ∈ r.children, c.tag ≠ t := fun c hc ht => hex ⟨c, hc, ht⟩
    rw [coreText_none (x := ⟨ns, some r⟩) hno, coreText_none (x := ⟨ns, some r'⟩)]
    intro c hc ht
    have : t ∈ r'.children.map Node.tag := List.mem_map.mpr ⟨c, hc, ht⟩
    rw [htags] at this
    obtain ⟨c0, b1, b2⟩ := List.mem_map.mp this
    exact hno c0 b1 b2

theorem wf_coreDoc (u : Unicode) : ∃ t a cs, WfDoc u coreDoc (.mk t a none cs) := by
  refine ⟨_, _, _, rfl, ?_, ⟨show (akeys coreDoc.ns).Nodup by decide, ?_⟩, ?_⟩
  · refine wfNode_attrs (by decide +kernel) rfl (by simp [akeys]) ⟨?_, ?_, ?_, ?_, trivial⟩ <;>
      exact wfNode_attrs (by decide +kernel) (by decide +kernel) (by simp [akeys]) trivial
  · intro k hk
    right
    have h : ∀ k ∈ akeys coreDoc.ns, isValidXmlName ⟨fun _ => false⟩ ("xmlns:" ++ k) = true ∧ ':' ∉ k.toList := by decide +kernel
    exact ⟨validName_ascii u (h k hk).1, (h k hk).2⟩
  · change ∀ kv ∈ coreDoc.ns, '"' ∉ kv.2.toList ∧ (kv.1 ≠ defaultNsKey → ¬Reserved kv.1 kv.2)
    decide +kernel

/-- Core properties as they were before: from the file, or else the template. They are tidy, have the usual prefix, and something in them. -/
def CoreBefore (env : Env) (z : Zip) (n : String) (x : XDoc) : Prop :=
  (aget n z = none ∧ x = coreDoc) ∨
  (zipDoc env z n = some x ∧ Tidy x ∧ (∃ r, x.root = some r ∧ r.tag = "cp:coreProperties") ∧ x.rootChildren ≠ [])

/-- **C60 and C57 in the file, for core properties.** The saved properties can be read; they have the elements they had, with the texts they
had, except that the modification time is now and an empty creation time is now.
Missing from the full claim: properties whose root has another prefix, or text between the elements. -/
theorem C60_core_partial (env : Env) (hst : env.build.release = true → StampOk env.stamp) (z z' : Zip) (now : String) (d : OfficeDoc)
    (exts : List (String × String)) (hz : (akeys z).Nodup) (ho : OfficeDoc.openFile env z = .ok d) (hs : d.toZip env now exts = .ok z')
    (hn : Trimmed now) (x : XDoc) (hx : CoreBefore env z d.core.path x) :
    ∃ x', zipDoc env z' d.core.path = some x' ∧ x'.rootChildren.map Node.tag = x.rootChildren.map Node.tag ∧
      ((∃ c ∈ x.rootChildren, c.tag = "dcterms:modified") → coreText x' "dcterms:modified" = some now) ∧
      ((∃ c ∈ x.rootChildren, c.tag = "dcterms:created") → coreText x "dcterms:created" = none → coreText x' "dcterms:created" = some now) ∧
      (∀ v, coreText x "dcterms:created" = some v → coreText x' "dcterms:created" = reloadText v) ∧
      (∀ t, t ≠ "dcterms:modified" → t ≠ "dcterms:created" → coreText x' t = (coreText x t).bind reloadText) := by
  obtain ⟨p, q, orel, ocore, rels0, xc, xr, hp, st, hq, _, hsc, hsr, hi, hc, hr, hoth⟩ := resaved hz ho hs
  have hne : d.core.path ≠ contentTypesName := by
    intro he
    apply (toZip_ok hq).1
    rw [← he]
    exact mem_akeys_of_aget hc
  have hsrc := source_zip hp hne st.coreSource
  have key : ocore.doc = x ∧ ∃ t a cs, WfDoc env.uni x (.mk t a none cs) ∧ t = "cp:coreProperties" ∧ cs ≠ [] := by
    rcases hx with ⟨h1, rfl⟩ | ⟨h1, h2, ⟨r, h3, h4⟩, h5⟩
    · rcases hsrc with ⟨_, h⟩ | ⟨c, dd, h, _⟩
      · refine ⟨h, ?_⟩
        obtain ⟨t, a, cs, hw⟩ := wf_coreDoc env.uni
        have := hw.isRoot
        cases this
        exact ⟨_, _, _, hw, rfl, by simp⟩
      · rw [h1] at h; cases h
    · obtain ⟨c, dd, e1, e2, e3⟩ := of_zipDoc h1
      rcases hsrc with ⟨h, _⟩ | ⟨c', dd', f1, f2, f3⟩
      · rw [e1] at h; cases h
      · rw [e1] at f1; cases f1
        rw [e2] at f2; cases f2
        refine ⟨f3.trans e3, ?_⟩
        obtain ⟨t, a, cs, hroot⟩ := h2.root
        have hw : WfDoc env.uni x (.mk t a none cs) := by
          have hu := h2.uris
          rw [← e3] at hroot hu ⊢
          exact (Reachable.read e2).wf hroot hu
        refine ⟨t, a, cs, hw, ?_, ?_⟩
        · rw [hroot] at h3; cases h3; exact h4
        · intro he; apply h5; unfold XDoc.rootChildren; rw [hroot, he]; rfl
  obtain ⟨hdoc, t, a, cs, hw, ht, hcs⟩ := key
  obtain ⟨r1, hr1, hst0, hr3, hr4⟩ := C57_partial now x (.mk t a none cs) hw.isRoot ht
  rw [hdoc, hr1] at hsc
  cases hsc
  obtain ⟨cs', rfl⟩ : ∃ cs', r1 = .mk t a none cs' := by
    have h1 := hst0.tag
    have h2 := hst0.attrs
    have h3 := hst0.value
    cases r1 with
    | mk t' a' v' cs' =>
      simp only [Node.tag, Node.attrs, Node.value] at h1 h2 h3
      subst h1 h2 h3
      exact ⟨cs', rfl⟩
  have hlen : cs'.length = cs.length := hst0.length
  have hne' : cs' ≠ [] := by intro he; rw [he] at hlen; exact hcs (List.eq_nil_of_length_eq_zero hlen.symm)
  have hwf' : WfDoc env.uni { x with root := some (.mk t a none cs') } (.mk t a none cs') := by
    refine ⟨rfl, ⟨hw.names.1, hw.names.2.1, ?_⟩, hw.ns, hw.uris⟩
    rw [wfNodes_iff]
    intro c' hc'
    obtain ⟨i, hi', e⟩ := List.getElem_of_mem hc'
    have hi0 : i < cs.length := by omega
    obtain ⟨c1, b1, b2, b3, b4, _⟩ := hst0.child i cs[i] (by simp only [Node.children]; exact List.getElem?_eq_getElem hi0)
    simp only [Node.children] at b1
    rw [List.getElem?_eq_getElem hi', e] at b1
    cases b1
    have hwc := (wfNodes_iff.mp hw.names.2.2) _ (List.getElem_mem hi0)
    revert hwc b2 b3 b4
    cases cs[i] with
    | mk t1 a1 v1 k1 =>
      cases c' with
      | mk t2 a2 v2 k2 =>
        intro b2 b3 b4 hwc
        simp only [Node.tag, Node.attrs, Node.children] at b2 b3 b4
        subst b2 b3 b4
        exact hwc
  obtain ⟨dd, g1, g2⟩ := read_doc env hst hwf' hne'
  have hcore : ∀ s, coreText dd.toXDoc s = (coreText { x with root := some (.mk t a none cs') } s).bind reloadText := by
    intro s; rw [g2]; exact coreText_reload rfl s
  have hxc : x.rootChildren = cs := by unfold XDoc.rootChildren; rw [hw.isRoot]; rfl
  refine ⟨dd.toXDoc, zipDoc_eq (c := renderDoc env.build env.stamp { x with root := some (.mk t a none cs') }) ?_ g1, ?_, ?_, ?_, ?_, ?_⟩
  · rw [toZip_aget hq hne, hc]; rfl
  · rw [g2, reloadDoc_rootChildren ⟨rfl⟩, hxc, List.map_map]
    have : (Node.tag ∘ reload) = Node.tag := by funext n; exact reload_tag n
    rw [this]
    exact stamped_children hst0
  · rw [hxc]
    intro hm
    rw [hcore, hr3 hm]
    exact reloadText_trimmed hn
  · rw [hxc]
    intro hm hnone
    rw [hcore, hr4 hm, hnone]
    exact reloadText_trimmed hn
  · intro v hv
    have hm : ∃ c ∈ cs, c.tag = "dcterms:created" := by
      unfold coreText at hv
      cases hf : x.rootChildren.find? (fun c => c.tag = "dcterms:created") with
      | none => rw [hf] at hv; cases hv
      | some c =>
        rw [hxc] at hf
        exact ⟨c, List.mem_of_find?_eq_some hf, by simpa using List.find?_some hf⟩
    rw [hcore, hr4 hm, hv]
    rfl
  · intro s h1 h2
    rw [hcore, stamped_other (r := .mk t a none cs) hst0 h1 h2]
    have : (⟨x.ns, some (.mk t a none cs)⟩ : XDoc) = x := by rw [← hw.isRoot]
    rw [this]

/-! ### Saving succeeds, and the file can be opened again -/

/-- **C60.** Saving an opened package succeeds whenever its root relationships and core properties have a root element; the core
properties cannot be the content type part. -/
theorem C60_save_succeeds (env : Env) (z : Zip) (now : String) (d : OfficeDoc) (exts : List (String × String)) (hz : (akeys z).Nodup)
    (ho : OfficeDoc.openFile env z = .ok d) (hne : d.core.path ≠ contentTypesName)
    (h1 : ∀ x, zipDoc env z "_rels/.rels" = some x → x.root.isSome) (h2 : ∀ x, zipDoc env z d.core.path = some x → x.root.isSome) :
    ∃ z', d.toZip env now exts = .ok z' := by
  unfold OfficeDoc.openFile at ho
  split at ho
  · cases ho
  · next p hp =>
    obtain ⟨orel, ocore, rels, st⟩ := start_ok (Pkg.Inv.ofZip hz hp) ho
    have hop : p.opened = [] := by obtain ⟨_, _, _, _, _, _, _, hop, _⟩ := ofZip_ok hp; exact hop
    have r1 : orel.doc.root.isSome := by
      rcases source_zip hp relsName_ne st.relSource with ⟨_, h⟩ | ⟨c, dd, a1, a2, a3⟩
      · rw [h]; rfl
      · rw [a3]; exact h1 _ (zipDoc_eq a1 a2)
    have r2 : ocore.doc.root.isSome := by
      rcases source_zip hp hne st.coreSource with ⟨_, h⟩ | ⟨c, dd, a1, a2, a3⟩
      · rw [h]; rfl
      · rw [a3]; exact h2 _ (zipDoc_eq a1 a2)
    obtain ⟨q, hq⟩ := (st.saved now).2 r2 r1
    obtain ⟨xc, xr, _, _, _, _, _, h6⟩ := (st.saved now).1 q hq
    unfold OfficeDoc.toZip Pkg.toZip
    rw [hq]
    simp only
    rw [if_neg]
    · exact ⟨_, rfl⟩
    · rw [ahas_iff, ← aget_isSome_iff, h6 _ (Ne.symm relsName_ne) (Ne.symm hne) (by rw [hop]; rfl), aget_isSome_iff]
      exact ofZip_no_types hp

theorem start_succeeds {env : Env} {p : Pkg} (hp : p.Inv) (ho : p.opened = []) {e1 e2 : Entry} {d1 d2 : XmlDoc} {rels rels' : List Rel} {path : String}
    (h1 : aget "_rels/.rels" p.archive = some e1) (h2 : readXml env.uni e1.content = .ok d1) (h3 : (loadRels d1.toXDoc).1 = .ok rels)
    (h4 : targetByType "_rels/.rels" rels coreContent.type coreContent none none = (.ok path, rels')) (hne : path ≠ "_rels/.rels")
    (h5 : aget path p.archive = some e2) (h6 : readXml env.uni e2.content = .ok d2) :
    ∃ d, OfficeDoc.start env p = .ok d ∧ d.rootRels.rels = rels' ∧ d.core.path = path := by
  have a1 := openPart_read (t := .ok relsTemplate) (m := "_rels/.rels") (by rw [ho]; rfl) h1 h2
  obtain ⟨i1, _, _, ⟨o, b1, b2, _⟩, b3⟩ := openPart_full hp a1
  have hdoc : o.doc = d1.toXDoc := by
    have hb := b1
    simp only [ho, List.nil_append, aget, if_true, Option.some.injEq] at hb
    rw [← hb]
  generalize ({ opened := p.opened ++ [("_rels/.rels", { handle := p.nextHandle, doc := d1.toXDoc, ctype := e1.ctype, ext := e1.ext, extType := e1.extType })], archive := aerase "_rels/.rels" p.archive, nextHandle := p.nextHandle + 1 } : Pkg) = p1 at *
  have c1 : p1.docOf p.nextHandle = some d1.toXDoc := by rw [← b2, ← hdoc]; exact i1.docOf b1
  have c2 : RelPart.new env p "_rels/.rels" = (.ok { rels := rels, handle := p.nextHandle, path := "_rels/.rels" }, p1.update p.nextHandle (fun _ => (loadRels d1.toXDoc).2)) := by
    unfold RelPart.new
    rw [a1]
    simp only [c1]
    cases hl : loadRels d1.toXDoc with
    | mk res x' =>
      rw [hl] at h3
      simp only at h3
      subst h3
      rfl
  have f1 : aget path (p1.update p.nextHandle (fun _ => (loadRels d1.toXDoc).2)).opened = none := by
    apply Pkg.update_opened_none
    rw [(b3 path hne).2, ho]; rfl
  have f2 : aget path (p1.update p.nextHandle (fun _ => (loadRels d1.toXDoc).2)).archive = some e2 := by
    rw [Pkg.update_archive, (b3 path hne).1]; exact h5
  have f3 := openPart_read (t := .ok coreTemplate) f1 f2 h6
  unfold OfficeDoc.start
  rw [c2]
  simp only [openTyped, h4, f3]
  exact ⟨_, rfl, rfl, rfl⟩

/-- **C60.** What was saved can be opened again, and has the same root relationships and core properties part. -/
theorem C60_reopens (env : Env) (hst : env.build.release = true → StampOk env.stamp) (z z' : Zip) (now : String) (d : OfficeDoc)
    (exts : List (String × String)) (hz : (akeys z).Nodup) (ho : OfficeDoc.openFile env z = .ok d) (hs : d.toZip env now exts = .ok z')
    (hexts : ∀ q, d.saved env now = .ok q → HashSetOrder q.extPairs exts) (hn : Trimmed now) (x : XDoc) (hx : CoreBefore env z d.core.path x)
    (rels : List Rel) (hrels : (aget "_rels/.rels" z = none ∧ rels = []) ∨
      ∃ x, zipDoc env z "_rels/.rels" = some x ∧ Tidy x ∧ (loadRels x).1 = .ok rels ∧ ∀ r ∈ rels, PlainRel r) :
    ∃ d', OfficeDoc.openFile env z' = .ok d' ∧ d'.rootRels.rels = d.rootRels.rels ∧ d'.core.path = d.core.path := by
  obtain ⟨x1, a1, _, a2, _, _⟩ := C60_relationships_partial env hst z z' now d exts hz ho hs rels hrels
  obtain ⟨x2, b1, _⟩ := C60_core_partial env hst z z' now d exts hz ho hs hn x hx
  obtain ⟨p, q, orel, ocore, rels0, xc, xr, hp, st, hq, hsv, hsc, hsr, hi, hc, hr, hoth⟩ := resaved hz ho hs
  have hne : d.core.path ≠ contentTypesName := by
    intro he
    apply (toZip_ok hq).1
    rw [← he]
    exact mem_akeys_of_aget hc
  obtain ⟨c1, d1, e1, e2, e3⟩ := of_zipDoc a1
  obtain ⟨c2, d2, f1, f2, f3⟩ := of_zipDoc b1
  have hane : q.archive ≠ [] := by intro he; rw [he] at hr; cases hr
  obtain ⟨q', g1, g2, g3, g4⟩ := ofZip_toZip env hst (hexts q hsv) hq hane
  obtain ⟨en1, k1, k2, _⟩ := g4 _ _ hr
  obtain ⟨en2, l1, l2, _⟩ := g4 _ _ hc
  have m1 : en1.content = c1 := by
    have := toZip_aget hq relsName_ne
    rw [hr, e1] at this
    rw [k2]; exact (Option.some.inj this).symm
  have m2 : en2.content = c2 := by
    have := toZip_aget hq hne
    rw [hc, f1] at this
    rw [l2]; exact (Option.some.inj this).symm
  have htgt : targetByType "_rels/.rels" d.rootRels.rels coreContent.type coreContent none none = (.ok d.core.path, d.rootRels.rels) := by
    rcases st.target_eq with ⟨r, t1, t2, t3⟩ | ⟨t1, t2, t3⟩
    · unfold targetByType
      rw [t3, show coreContent.type = coreType from rfl, t1]
      simp only [t2]
    · unfold targetByType
      rw [t3, show coreContent.type = coreType from rfl, List.find?_append, t1]
      rw [show List.find? (fun r : Rel => decide (r.type = coreType)) [(⟨nextRelId rels0, "/docProps/core.xml", coreType, none⟩ : Rel)] =
          some (⟨nextRelId rels0, "/docProps/core.xml", coreType, none⟩ : Rel) from by simp]
      simp only [Option.none_or, t2]
      rw [show resolveTarget "_rels/.rels" "/docProps/core.xml" = .ok "docProps/core.xml" from by decide +kernel]
  have hqi : q'.Inv := Pkg.Inv.ofZip (toZip_nodup hi hq) g1
  obtain ⟨d', n1, n2, n3⟩ := start_succeeds (env := env) hqi g3 k1 (by rw [m1]; exact e2) (by rw [e3]; exact a2) htgt st.ne l1 (by rw [m2]; exact f2)
  refine ⟨d', ?_, n2, n3⟩
  unfold OfficeDoc.openFile
  rw [g1]
  exact n1

/-- A Word file that meets the hypotheses above. -/
def exWord : Zip :=
  [("_rels/.rels", "<Relationships><Relationship Id=\"r1\" Type=\"m\" Target=\"w.xml\"/></Relationships>".toList),
   ("w.xml", "<w><p>text</p></w>".toList),
   ("docProps/core.xml", "<cp:coreProperties><dcterms:created>2020</dcterms:created><dcterms:modified>2021</dcterms:modified></cp:coreProperties>".toList),
   (contentTypesName, "<Types><Default Extension=\"xml\" ContentType=\"r\"/></Types>".toList)]

example : (akeys exWord).Nodup ∧ (OfficeDoc.openFile exEnv exWord).toOption.map (fun d => (d.core.path, d.rootRels.rels)) =
      some ("docProps/core.xml", [⟨"r1", "w.xml", "m", none⟩, ⟨"rId2", "/docProps/core.xml", coreType, none⟩]) ∧
    (zipDoc exEnv exWord "_rels/.rels").map (fun x => (x.ns, x.root.map Node.value, (loadRels x).1)) = some ([], some none, .ok [⟨"r1", "w.xml", "m", none⟩]) ∧
    (zipDoc exEnv exWord "docProps/core.xml").map (fun x => (x.ns, x.root.map Node.value, x.root.map Node.tag, coreText x "dcterms:created")) =
      some ([], some none, some "cp:coreProperties", some "2020") := by decide +kernel

/-- The saved file. -/
example : ((OfficeDoc.openFile exEnv exWord).toOption.bind (fun d => (d.toZip exEnv "2024" [("xml", "r"), ("", "")]).toOption)).map (fun z =>
    (akeys z, aget "w.xml" z, (zipDoc exEnv z "docProps/core.xml").map (fun x => (coreText x "dcterms:created", coreText x "dcterms:modified")))) =
  some (["w.xml", "docProps/core.xml", "_rels/.rels", contentTypesName], some "<w><p>text</p></w>".toList, some (some "2020", some "2024")) := by
  decide +kernel

/-! ### New documents -/

/-- The relationships of a new document. -/
def newDocRels : List Rel := [⟨"rId1", "/docProps/core.xml", coreType, none⟩]

/-- The parts of a new document. -/
def newDocParts (env : Env) (now : String) : List (String × Entry) :=
  [("docProps/core.xml", closedPart env coreTemplate (coreSaved now)), ("_rels/.rels", closedPart env relsTemplate (relsDoc newDocRels))]

/-- A new document. -/
def newDoc : OfficeDoc :=
  { pkg :=
      { opened :=
          [("_rels/.rels", { handle := 0, doc := relsTemplate.doc, ctype := none, ext := relsTemplate.ext, extType := relsTemplate.extType }),
           ("docProps/core.xml", { handle := 1, doc := coreDoc, ctype := coreTemplate.ctype, ext := coreTemplate.ext, extType := coreTemplate.extType })]
        archive := []
        nextHandle := 2 }
    rootRels := ⟨newDocRels, 0, "_rels/.rels"⟩
    core := ⟨(), 1, "docProps/core.xml"⟩ }

theorem new_saved (env : Env) (now : String) : ∃ d q, OfficeDoc.new env = .ok d ∧ d.saved env now = .ok q ∧ q.archive = newDocParts env now ∧
    q.opened = [] ∧ q.nextHandle = 2 := by
  refine ⟨newDoc, { opened := [], archive := newDocParts env now, nextHandle := 2 }, ?_, ?_, rfl, rfl, rfl⟩
  · kernel_rfl
  · kernel_rfl

/-- **C60 for new documents.** A new Word or PowerPoint document can be saved; the file consists of root relationships, core properties and
content types; it can be opened; its only root relationship leads to the core properties, which show now as creation and modification time. -/
theorem C60_new (env : Env) (hst : env.build.release = true → StampOk env.stamp) (now : String) (hn : Trimmed now) :
    ∃ d q, OfficeDoc.new env = .ok d ∧ d.saved env now = .ok q ∧
      ∀ exts, HashSetOrder q.extPairs exts → ∃ z d' x x', d.toZip env now exts = .ok z ∧
        akeys z = ["docProps/core.xml", "_rels/.rels", "[Content_Types].xml"] ∧ OfficeDoc.openFile env z = .ok d' ∧
        zipDoc env z "_rels/.rels" = some x ∧ (loadRels x).1 = .ok [⟨"rId1", "/docProps/core.xml", coreType, none⟩] ∧
        d'.core.path = "docProps/core.xml" ∧ zipDoc env z "docProps/core.xml" = some x' ∧
        coreText x' "dcterms:created" = some now ∧ coreText x' "dcterms:modified" = some now := by
  obtain ⟨d, q, h1, h2, h3, h4, h5⟩ := new_saved env now
  refine ⟨d, q, h1, h2, ?_⟩
  intro exts hx
  have hi : q.Inv := by
    refine ⟨by rw [h4]; simp [akeys], by rw [h3]; exact (show ["docProps/core.xml", "_rels/.rels"].Nodup by decide), by rw [h4]; simp [akeys], by rw [h4]; simp, by rw [h4]; simp⟩
  have hz : q.toZip env exts = .ok (q.archive.map (fun kv => (kv.1, kv.2.content))
    ++ [(contentTypesName, renderDoc env.build env.stamp (contentTypesDoc exts q.overrides))]) := by
    unfold Pkg.toZip
    rw [if_neg]
    rw [h3]
    simp [newDocParts, ahas, aget, contentTypesName]
  have hr : aget "_rels/.rels" q.archive = some (closedPart env relsTemplate (relsDoc newDocRels)) := by rw [h3]; rfl
  have hc : aget "docProps/core.xml" q.archive = some (closedPart env coreTemplate (coreSaved now)) := by rw [h3]; rfl
  obtain ⟨d1, e1, e2⟩ := rels_same env hst newDocRels (by simp [newDocRels]) (by decide +kernel)
  obtain ⟨d2, f1, f2⟩ := read_doc env hst (wf_coreSaved env.uni now) (by simp)
  obtain ⟨q', g1, g2, g3, g4⟩ := ofZip_toZip env hst hx hz (by rw [h3]; simp [newDocParts])
  obtain ⟨en1, k1, k2, _⟩ := g4 _ _ hr
  obtain ⟨en2, l1, l2, _⟩ := g4 _ _ hc
  have hqi : q'.Inv := Pkg.Inv.ofZip (toZip_nodup hi hz) g1
  obtain ⟨d', n1, n2, n3⟩ := start_succeeds (env := env) hqi g3 k1 (by rw [k2]; exact e1) (by rw [e2])
    (show targetByType "_rels/.rels" newDocRels coreContent.type coreContent none none = (.ok "docProps/core.xml", newDocRels) by decide +kernel)
    (by decide) l1 (by rw [l2]; exact f1)
  have ht : reloadText now = some now := reloadText_trimmed hn
  refine ⟨q.archive.map (fun kv => (kv.1, kv.2.content)) ++
    [(contentTypesName, renderDoc env.build env.stamp (contentTypesDoc exts q.overrides))], d', d1.toXDoc, d2.toXDoc, ?_, ?_, ?_, zipDoc_eq (c := renderDoc env.build env.stamp (relsDoc newDocRels)) ?_ e1, by rw [e2]; rfl, n3,
    zipDoc_eq (c := renderDoc env.build env.stamp (coreSaved now)) ?_ f1, ?_, ?_⟩
  · unfold OfficeDoc.toZip
    rw [h2]
    exact hz
  · rw [h3]; rfl
  · unfold OfficeDoc.openFile
    rw [g1]; exact n1
  · rw [toZip_aget hz relsName_ne, hr]; rfl
  · rw [toZip_aget hz (by decide), hc]; rfl
  · rw [f2]; exact ht
  · rw [f2]; exact ht

/-! ## C66 -/

/-- **C66 as stated.** A new document that is saved has a main part: a root relationship of that kind, leading to a part of the file. -/
def NewDocumentHasMain (env : Env) : Prop :=
  ∀ now d exts z x rels, OfficeDoc.new env = .ok d → d.toZip env now exts = .ok z → zipDoc env z "_rels/.rels" = some x →
    (loadRels x).1 = .ok rels → ∃ r ∈ rels, r.type = mainType ∧ ∃ t, resolveTarget "_rels/.rels" r.target = .ok t ∧ t ∈ akeys z

/-- **C66 is violated** in every build: a new Word or PowerPoint file has no main document, so no program can open it as one. -/
theorem C66_violated (env : Env) (hst : env.build.release = true → StampOk env.stamp) : ¬ NewDocumentHasMain env := by
  intro h
  have hn : Trimmed "now" := by unfold Trimmed; decide +kernel
  obtain ⟨d, q, h1, h2, h3⟩ := C60_new env hst "now" hn
  obtain ⟨z, d', x, x', a1, _, _, a2, a3, _⟩ := h3 (@List.eraseDups _ instBEqOfDecidableEq q.extPairs)
    ⟨nodup_eraseDups _, fun _ => @List.mem_eraseDups _ instBEqOfDecidableEq _ _ _⟩
  obtain ⟨r, b1, b2, _⟩ := h "now" d _ z x _ h1 a1 a2 a3
  rw [List.mem_singleton] at b1
  rw [b1] at b2
  exact absurd b2 (by decide)

end Oxml
