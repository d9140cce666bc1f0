import Verif.Proofs.OwnWellFormed
import Verif.Proofs.ExistingStill
import Verif.Proofs.ExistingSave
import Verif.Proofs.OrderPkg
/-!
# Lemmas for C114: every part of a saved workbook that was opened from a file
-/
namespace Oxml
open Spec

/-! ## Reading what was written -/

mutual
theorem wfNode_any (u : Unicode) : ∀ n : Node, WfNode asciiOnly n → WfNode u n
  | .mk _ _ _ cs, h => ⟨validName_ascii u h.1, fun b hb => ⟨(h.2.1 b hb).1, fun k hk => ⟨validName_ascii u ((h.2.1 b hb).2 k hk).1, ((h.2.1 b hb).2 k hk).2⟩⟩,
      wfNodes_any u cs h.2.2⟩
theorem wfNodes_any (u : Unicode) : ∀ cs : List Node, WfNodes asciiOnly cs → WfNodes u cs
  | [], _ => trivial
  | c :: cs, h => ⟨wfNode_any u c h.1, wfNodes_any u cs h.2⟩
end

theorem wfDoc_anyName (u : Unicode) {x : XDoc} {r : Node} (h : WfDoc asciiOnly x r) : WfDoc u x r :=
  ⟨h.isRoot, wfNode_any u r h.names, ⟨h.ns.1, fun k hk => (h.ns.2 k hk).imp id (fun g => ⟨validName_ascii u g.1, g.2⟩)⟩, h.uris⟩

theorem deepX_reload : ∀ n : Node, NodeX n → DeepX (reload n) := by
  refine Node.ind ?_
  intro tag attrs value cs ih h
  have ha : AttrsX attrs := by
    intro kv hkv
    refine h kv.2 ?_
    rw [allTexts.eq_def]
    exact List.mem_append_left _ (List.mem_map_of_mem hkv)
  cases value with
  | some v =>
    have hv : XmlChars v := h v (by rw [allTexts]; exact List.mem_append_right _ (List.mem_singleton.mpr rfl))
    rw [reload]
    refine ⟨attrsX_reload ha, ?_, trivial⟩
    unfold reloadText
    split
    · exact optX_none
    · refine optX_some fun c hc => ?_
      rw [String.toList_ofList] at hc
      exact hv c (mem_trimXml hc)
  | none =>
    rw [reload]
    refine ⟨attrsX_reload ha, optX_none, deepXs_iff.mpr ?_⟩
    intro c hc
    obtain ⟨d, hd, rfl⟩ := mem_reloads hc
    refine ih d hd ?_
    intro t ht
    refine h t ?_
    simp only [allTexts]
    exact List.mem_append_right _ (mem_allTextss.mpr ⟨d, hd, ht⟩)

/-- What the library wrote, read again. -/
theorem reread_deep {env : Env} (hst : env.build.release = true → StampOk env.stamp) {x : XDoc} (hx : DocX x) {d : XmlDoc}
    (h : readXml env.uni (renderDoc env.build env.stamp x) = .ok d) : DeepDoc d.toXDoc := by
  have hr := hx.reload env.build
  obtain ⟨t, a, cs, h1, h2, h3, h4⟩ := hx
  have hw := wfDoc_anyName env.uni h1
  cases cs with
  | nil =>
    rw [readXml_selfClosing env.build env.uni hst hw rfl] at h
    cases h
  | cons c cs =>
    obtain ⟨d', k1, k2⟩ := read_doc env hst hw (by simp)
    rw [h] at k1
    cases k1
    rw [k2]
    obtain ⟨t', a', cs', g1, g2, g3, g4⟩ := hr
    have e := g1.isRoot
    unfold reloadDoc at e
    rw [h1.isRoot] at e
    simp only [Option.map_some, reload, Option.some.injEq, Node.mk.injEq] at e
    obtain ⟨-, -, -, rfl⟩ := e
    refine ⟨t', a', _, g1, g2, g3, ?_⟩
    intro n hn
    obtain ⟨m, hm, rfl⟩ := mem_reloads hn
    exact deepX_reload m (h4 m hm)

/-! ## Packages -/

/-- A part as it was in the file, or as the library writes documents. -/
def Fine (env : Env) (z : Zip) (n : String) (c : List Char) : Prop := (n ≠ contentTypesName ∧ aget n z = some c) ∨ ∃ d, DocX d ∧ c = renderDoc env.build env.stamp d

/-- Every part that is not one of these: as it was or written by the library; open ones hold XML characters. -/
structure PkgX (env : Env) (z : Zip) (own : List String) (p : Pkg) : Prop where
  arch : ∀ n e, n ∉ own → aget n p.archive = some e → Fine env z n e.content
  opened : ∀ n o, n ∉ own → aget n p.opened = some o → DeepDoc o.doc

/-- The parts of the file the library can read hold XML characters. -/
def ReadsDeep (env : Env) (z : Zip) : Prop := ∀ n c d, n ≠ contentTypesName → aget n z = some c → readXml env.uni c = .ok d → DeepDoc d.toXDoc

variable {env : Env} {z : Zip} {own : List String} {p : Pkg}

theorem PkgX.delete (h : PkgX env z own p) (m : String) : PkgX env z own (p.delete m) := by
  refine ⟨fun n e hn he => ?_, h.opened⟩
  unfold Pkg.delete at he
  rw [aget_aerase] at he
  split at he
  · cases he
  · exact h.arch n e hn he

theorem PkgX.update (h : PkgX env z own p) (k : Nat) {d : XDoc} (hd : DeepDoc d) : PkgX env z own (p.update k (fun _ => d)) := by
  refine ⟨h.arch, fun n o hn ho => ?_⟩
  rw [aget_updated] at ho
  cases he : aget n p.opened with
  | none => rw [he] at ho; cases ho
  | some v =>
    rw [he] at ho
    simp only [Option.map_some, Option.some.injEq] at ho
    subst ho
    split
    · exact hd
    · exact h.opened n v hn he

theorem PkgX.close (h : PkgX env z own p) (m : String) : PkgX env z own (p.close env m) := by
  cases ho : aget m p.opened with
  | none =>
    have : p.close env m = p := by unfold Pkg.close; rw [ho]
    rw [this]; exact h
  | some o =>
    have e : p.close env m = { p with opened := aerase m p.opened, archive := ainsert m { ext := o.ext, extType := o.extType, ctype := o.ctype, content := renderDoc env.build env.stamp o.doc } p.archive } := by
      unfold Pkg.close; rw [ho]
    rw [e]
    refine ⟨fun n e hn he => ?_, fun n o' hn ho' => ?_⟩
    · simp only [aget_ainsert] at he
      split at he
      · next hm =>
        subst hm
        cases he
        exact .inr ⟨o.doc, (h.opened _ o hn ho).docX, rfl⟩
      · exact h.arch n e hn he
    · simp only [aget_aerase] at ho'
      split at ho'
      · cases ho'
      · exact h.opened n o' hn ho'

theorem PkgX.openPart (hst : env.build.release = true → StampOk env.stamp) (hz : ReadsDeep env z) (h : PkgX env z own p) {t : Template} (ht : DeepDoc t.doc)
    (m : String) :
    PkgX env z own (p.openPart env (.ok t) m).2 := by
  have reg : ∀ {q : Pkg} (d : XDoc) (ct : Option String) (ex et : String), PkgX env z own q → (m ∉ own → DeepDoc d) → PkgX env z own (q.register m d ct ex et).1 := by
    intro q d ct ex et hq hd
    refine ⟨hq.arch, fun n o hn ho => ?_⟩
    unfold Pkg.register at ho
    simp only [aget_ainsert] at ho
    split at ho
    · next hm => subst hm; cases ho; exact hd hn
    · exact hq.opened n o hn ho
  unfold Pkg.openPart Pkg.getXmlTree
  split
  · next e p1 he =>
    split at he
    · cases he; exact h
    · split at he
      · cases he
      · split at he
        · cases he; exact h.delete m
        · cases he
  · next t' p1 he =>
    split at he
    · cases he
    · split at he
      · cases he
      · next e ha =>
        split at he
        · cases he
        · next d hd =>
          simp only [Prod.mk.injEq, Except.ok.injEq, Option.some.injEq] at he
          obtain ⟨rfl, rfl⟩ := he
          refine reg _ _ _ _ (h.delete m) fun hm => ?_
          rcases h.arch m e hm ha with ⟨hmc, hf⟩ | ⟨x, hx, hf⟩
          · exact hz m _ d hmc hf hd
          · rw [hf] at hd; exact reread_deep hst hx hd
  · next p1 he =>
    split at he
    · cases he
    · split at he
      · cases he
        exact reg _ _ _ _ h fun _ => ht
      · split at he <;> cases he

theorem PkgX.docOf (h : PkgX env z own p) (hp : p.Inv) {n : String} {k : Nat} (ho : Owns p (n, k)) (hn : n ∉ own) {x : XDoc} (hx : p.docOf k = some x) : DeepDoc x := by
  obtain ⟨o, h1, h2⟩ := ho
  have := hp.docOf h1
  rw [show o.handle = k from h2, hx] at this
  cases this
  exact h.opened n o hn h1

theorem DeepDoc.filter {x : XDoc} (h : DeepDoc x) (f : Node → Bool) : DeepDoc (x.mapRootChildren (fun l => l.filter f)) := by
  obtain ⟨t, a, cs, h1, h2, h3, h4⟩ := h
  exact ⟨t, a, _, wf_filter h1 f, h2, h3, fun c hc => h4 c (List.mem_filter.mp hc).1⟩

theorem PkgX.relNew (hst : env.build.release = true → StampOk env.stamp) (hz : ReadsDeep env z) (h : PkgX env z own p) (hp : p.Inv) {m : String}
    (hm : aget m p.opened = none → m ∉ own) : PkgX env z own (RelPart.new env p m).2 ∧ ∀ r q, RelPart.new env p m = (.ok r, q) → ∀ e ∈ r.rels, RelX e := by
  have h1 := h.openPart hst hz deepDoc_rels m
  unfold RelPart.new
  cases ho : p.openPart env (.ok relsTemplate) m with
  | mk res p1 =>
    rw [ho] at h1
    cases res with
    | error e => exact ⟨h1, fun _ _ e => by cases e⟩
    | ok k =>
      obtain ⟨w1, w2⟩ := openPart_owns hp ho
      have hi := openPart_inv hp ho
      simp only
      cases hd : p1.docOf k with
      | none =>
        refine ⟨h1, ?_⟩
        intro r q e
        cases e
        exact fun _ h => nomatch h
      | some x =>
        have hx := PkgX.docOf h1 hi w1 (hm w2) hd
        have e2 : (loadRels x).2 = x.mapRootChildren (fun l => l.filter (fun n => n.tag ≠ "Relationship")) := rfl
        have hx' : DeepDoc (loadRels x).2 := by rw [e2]; exact hx.filter _
        simp only
        cases hl : loadRels x with
        | mk res x' =>
          rw [hl] at hx'
          cases res with
          | error e => exact ⟨PkgX.update h1 k hx', fun _ _ e => by cases e⟩
          | ok l =>
            refine ⟨PkgX.update h1 k hx', ?_⟩
            intro r q e
            cases e
            exact relsX_load hx.children (by rw [hl])

theorem saveRels_deep {x d : XDoc} {l : List Rel} {k : Bool} (hx : DeepDoc x) (hl : ∀ r ∈ l, RelX r) (h : saveRels x l = .ok (d, k)) : DeepDoc d := by
  obtain ⟨t, a, cs, hw, hu, ha, hc⟩ := hx
  unfold saveRels at h
  rw [hw.isRoot] at h
  simp only [appendAll_doc hw.isRoot, Except.ok.injEq, Prod.mk.injEq] at h
  rw [← h.1]
  refine ⟨t, a, _, wfDoc_append hw (wfNodes_iff.mpr ?_), hu, ha, ?_⟩
  · intro c hm
    obtain ⟨r, _, rfl⟩ := List.mem_map.mp hm
    exact wf_relNode _ r
  · intro c hm
    rcases List.mem_append.mp hm with hm | hm
    · exact hc c hm
    · obtain ⟨r, hr, rfl⟩ := List.mem_map.mp hm
      obtain ⟨h1, h2, h3, h4⟩ := hl r hr
      unfold relNode
      refine ⟨?_, optX_none, trivial⟩
      cases hmo : r.mode with
      | none => exact attrsX_cons h1 (attrsX_cons h2 (attrsX_one h3))
      | some m => exact attrsX_cons h1 (attrsX_cons h2 (attrsX_cons h3 (attrsX_one (h4 m hmo))))

theorem PkgX.relClose (h : PkgX env z own p) (hp : p.Inv) {r : RelPart} (ho : Owns p (r.path, r.handle)) (hn : r.path ∉ own) (hr : ∀ e ∈ r.rels, RelX e) :
    PkgX env z own (r.close env p).2 := by
  unfold RelPart.close
  split
  · exact h
  · next x hx =>
    split
    · exact h
    · next x' keep hs =>
      have := saveRels_deep (h.docOf hp ho hn hx) hr hs
      simp only
      split
      · exact (h.update _ this).close _
      · exact (h.update _ this).delete _

/-! ## Sheets -/

/-- An open sheet holds XML characters; the rest of its document has none of what it manages. -/
structure HandleX (p : Pkg) (g : SheetHandle) : Prop where
  sheet : SheetX g.data
  rels : ∀ e ∈ g.rels.rels, RelX e
  doc : ∃ o, Still g.path o p ∧ ∀ n ∈ o.doc.rootChildren, n.tag ∉ managedTags

theorem load_rest {x x' : XDoc} {r : Res Sheet} (h : Sheet.load env x = (r, x')) (hx : DeepDoc x) : DeepDoc x' := by
  have hp : ∀ {y : XDoc} {t : String}, DeepDoc y → DeepDoc (y.popTag t).2 := fun h => h.filter _
  have e1 : ∀ {y : XDoc}, DeepDoc y → DeepDoc (loadCols env y).2 := fun h => hp h
  have e2 : ∀ {y : XDoc}, DeepDoc y → DeepDoc (loadData env y).2 := fun h => hp h
  have e3 : ∀ {y : XDoc}, DeepDoc y → DeepDoc (loadViews y).2 := fun h => hp h
  have d1 := e1 (hp (t := "dimension") hx)
  unfold Sheet.load at h
  simp only at h
  split at h
  · next e => cases h; rw [e] at d1; exact d1
  · next e =>
    rw [e] at d1
    have d2 := e2 d1
    split at h
    · next e => cases h; rw [e] at d2; exact d2
    · next e =>
      rw [e] at d2
      have d3 := e3 d2
      split at h
      · next e => cases h; rw [e] at d3; exact d3
      · next e => cases h; rw [e] at d3; exact d3

theorem PkgX.closeSheet (h : PkgX env z own p) (hp : p.Inv) {g : SheetHandle} (hg : HandleX p g) (ho : Owns p (g.path, g.handle)) (hn : g.path ∉ own) :
    PkgX env z own (closeSheet env p g).2 ∧ ((closeSheet env p g).2 = p ∨ (closeSheet env p g).2.docOf g.handle = none) := by
  obtain ⟨o, h1, h2⟩ := hg.doc
  obtain ⟨o', h1', h3⟩ := ho
  rw [show aget g.path p.opened = some o from h1] at h1'
  cases h1'
  have h3 : o.handle = g.handle := h3
  have hd : p.docOf g.handle = some o.doc := by rw [← h3]; exact hp.docOf h1
  unfold Oxml.closeSheet
  rw [hd]
  simp only
  split
  · exact ⟨h, .inl rfl⟩
  · next d' hs =>
    have hno : StaysOpen g.path o p := ⟨h1, by
      cases ha : aget g.path p.archive with
      | none => rfl
      | some e => exact absurd (mem_akeys_of_aget ha) (hp.disjoint _ (mem_akeys_of_aget h1))⟩
    have hsh := hno.closeWith hp env d'
    have hx : DocX d' := by
      have hdeep := h.opened _ o hn h1
      obtain ⟨t, a, cs, k1, k2, k3, k4⟩ := hdeep
      have hch : o.doc.rootChildren = cs := by unfold XDoc.rootChildren; rw [k1.isRoot]; rfl
      rw [hch] at h2
      exact hg.sheet.save_doc k1 h2 k2 k3 (fun c hc => DeepX.nodeX c (k4 c hc)) hs
    rw [h3] at hsh
    refine ⟨⟨fun n e hn' he => ?_, fun n o' hn' ho' => ?_⟩, .inr hsh.docOf⟩
    · have := (hp.update_close env h1 d' n).2
      rw [h3] at this
      simp only at he
      rw [he] at this
      split at this
      · cases this; exact .inr ⟨d', hx, rfl⟩
      · exact h.arch n e hn' this.symm
    · have := (hp.update_close env h1 d' n).1
      rw [h3] at this
      simp only at ho'
      rw [ho'] at this
      split at this
      · cases this
      · exact h.opened n o' hn' this.symm

theorem HandleX.mono {p p' : Pkg} {g : SheetHandle} (h : HandleX p g) (hs : ∀ o, Still g.path o p → Still g.path o p') : HandleX p' g := by
  obtain ⟨o, h1, h2⟩ := h.doc
  exact ⟨h.sheet, h.rels, o, hs o h1, h2⟩

theorem PkgX.openAt (hst : env.build.release = true → StampOk env.stamp) (he : PrintsF32 env) (hz : ReadsDeep env z) {x1 : Excel} {own : List (String × Nat)}
    {hs : List SheetHandle} (hl : LivePkg x1.pkg own hs) (h : PkgX env z (own.map Prod.fst) x1.pkg) (path nm : String) :
    PkgX env z (own.map Prod.fst) (openAt env x1 path nm).2.pkg ∧ ∀ g x2, openAt env x1 path nm = (.ok g, x2) → HandleX x2.pkg g := by
  have out : ∀ {p : Pkg}, LivePkg p own hs → ∀ {n : String}, aget n p.opened = none → n ∉ own.map Prod.fst := by
    intro p hp n hn hm
    have := hp.fresh hn
    rw [List.map_append, List.mem_append, not_or] at this
    exact this.1 hm
  unfold Oxml.openAt
  have i1 := hl.inv.openPart env (.ok worksheetTemplate) path
  have l1 : LivePkg (x1.pkg.openPart env (.ok worksheetTemplate) path).2 own hs := hl.mono i1 (fun e _ he => he.openPart env _ _)
  have hdw : DeepDoc worksheetTemplate.doc := deepDoc_of ⟨_, _, _, wf_worksheetDoc _⟩ (by decide +kernel) (by decide +kernel)
  have x1' := h.openPart hst hz hdw path
  cases ho1 : x1.pkg.openPart env (.ok worksheetTemplate) path with
  | mk r p2 =>
    rw [ho1] at l1 x1'
    cases r with
    | error e => exact ⟨x1', fun _ _ e => by cases e⟩
    | ok hd =>
      obtain ⟨w1, w2⟩ := openPart_owns hl.inv ho1
      have f1 := out hl w2
      simp only
      cases hrp : sheetRelsPath path with
      | none => exact ⟨x1', fun _ _ e => by cases e⟩
      | some rp =>
        simp only
        have l2 : LivePkg (RelPart.new env p2 rp).2 own hs := l1.mono (l1.inv.relNew env rp) (fun e _ he => he.relNew env rp)
        obtain ⟨x2', hrx⟩ := PkgX.relNew hst hz x1' l1.inv (m := rp) (fun hn => out l1 hn)
        cases ho2 : RelPart.new env p2 rp with
        | mk r p3 =>
          rw [ho2] at l2 x2'
          cases r with
          | error e => exact ⟨x2', fun _ _ e => by cases e⟩
          | ok rels =>
            obtain ⟨v1, v2, v3⟩ := relNew_owns l1.inv ho2
            have hrx := hrx _ _ ho2
            have f2 := out l1 v2
            have w3 : Owns p3 (path, hd) := by have := w1.relNew env rp; rw [ho2] at this; exact this
            simp only
            cases hdoc : p3.docOf hd with
            | none => exact ⟨PkgX.relClose x2' v3 v1 f2 hrx, fun _ _ e => by cases e⟩
            | some d =>
              have hd0 := PkgX.docOf x2' v3 w3 f1 hdoc
              simp only
              cases hld : Sheet.load env d with
              | mk r d' =>
                have hd' := load_rest hld hd0
                have x3' := PkgX.update x2' hd hd'
                cases r with
                | error e => exact ⟨PkgX.relClose x3' (v3.update _ _) (v1.update _ _) f2 hrx, fun _ _ e => by cases e⟩
                | ok sh =>
                  refine ⟨x3', ?_⟩
                  intro g x2 e
                  cases e
                  refine ⟨load_x he hld hd0.children, hrx, ?_⟩
                  obtain ⟨o, k1, k2⟩ := w3
                  have k2 : o.handle = hd := k2
                  have := v3.aget_update k1 (fun _ => d') path
                  rw [if_pos rfl, k2] at this
                  refine ⟨_, this, ?_⟩
                  obtain ⟨_, _, _, e8⟩ := load_ok hld
                  intro n hn
                  obtain ⟨t, a, cs, g1, _⟩ := hd0
                  have hw1 : WfDoc asciiOnly d' (.mk t a none (unmanaged cs)) := by
                    rw [e8]
                    exact wf_filter g1 _
                  have hch : d'.rootChildren = unmanaged cs := by unfold XDoc.rootChildren; rw [hw1.isRoot]; rfl
                  have hn : n ∈ d'.rootChildren := hn
                  rw [hch] at hn
                  simpa [unmanaged] using (List.mem_filter.mp hn).2

/-! ## Sessions -/

/-- Everything open in a session. -/
structure SessX (env : Env) (z : Zip) (s : Session) : Prop where
  live : LiveSess s
  pkg : PkgX env z ((ownPairs s.x).map Prod.fst) s.x.pkg
  handles : ∀ g ∈ s.handles, HandleX s.x.pkg g
  strings : ∀ t ∈ s.x.strings.data, XmlChars t

theorem SessX.open (hst : env.build.release = true → StampOk env.stamp) (he : PrintsF32 env) (hz : ReadsDeep env z) {s : Session} (h : SessX env z s) (name : Option String)
    (hstr : ∀ t ∈ (s.open env name).2.x.strings.data, XmlChars t) : SessX env z (s.open env name).2 := by
  refine ⟨h.live.open env name, ?_, ?_, hstr⟩ <;>
  · unfold Session.open
    rw [openSheet_eq]
    obtain ⟨f1, f2⟩ := sheetFile_pairs (x := s.x) (name := name)
    cases hf : s.x.sheetFile name with
    | mk r x1 =>
      rw [hf] at f1 f2
      simp only at f1 f2
      have h1 : LivePkg x1.pkg (ownPairs x1) s.handles := by rw [f1, f2]; exact h.live
      have h2 : PkgX env z ((ownPairs x1).map Prod.fst) x1.pkg := by rw [f1, f2]; exact h.pkg
      have h3 : ∀ g ∈ s.handles, HandleX x1.pkg g := by rw [f1]; exact h.handles
      cases r with
      | error e => first | exact h2 | exact h3
      | ok pn =>
        obtain ⟨path, nm⟩ := pn
        obtain ⟨k1, k2⟩ := PkgX.openAt hst he hz h1 h2 path nm
        have k3 := openAt_pairs env x1 path nm
        have k4 : ∀ g ∈ s.handles, HandleX (openAt env x1 path nm).2.pkg g := fun g hg => (h3 g hg).mono fun o ho => ho.openAt h1.inv env path nm
        simp only
        cases ha : openAt env x1 path nm with
        | mk r x2 =>
          rw [ha] at k1 k3 k4
          simp only at k3
          rw [← k3] at k1
          cases r with
          | error e => first | exact k1 | exact k4
          | ok g =>
            first
            | exact k1
            | intro g' hg'
              rcases List.mem_append.mp hg' with hg' | hg'
              · exact k4 g' hg'
              · rw [List.mem_singleton.mp hg']
                exact k2 g x2 ha

/-- The other handles when one is dropped. -/
theorem others_kept {own : List (String × Nat)} {hs : List SheetHandle} (hl : LivePkg p own hs) {i : Nat} {g : SheetHandle} (hg : hs[i]? = some g) {g' : SheetHandle}
    (hg' : g' ∈ hs.eraseIdx i) : (∀ o, Still g'.path o p → Still g'.path o (dropSheet env p g)) ∧
    ∀ o, Still g'.path o p → Still g'.path o (dropSheet env (closeSheet env (p.delete g.path) g).2 g) := by
  obtain ⟨h1, h2, _, h4, _⟩ := hl.others hg
  obtain ⟨_, h6, h7⟩ := h4 (g'.path, g'.handle) (List.mem_append_right _ (List.mem_flatMap.mpr ⟨g', hg', by simp⟩))
  have n1 : g.path ≠ g'.path := fun e => h6 e.symm
  have n2 : g.rels.path ≠ g'.path := fun e => h7 e.symm
  constructor <;> intro o ho
  · exact ho.dropSheet env n1 (ho.handle_ne hl.inv h1 n1) n2 (ho.handle_ne hl.inv h2 n2)
  · exact Still.dropSheet ((ho.delete g.path).closeSheet env n1 (ho.handle_ne hl.inv h1 n1)) env n1 (ho.handle_ne hl.inv h1 n1) n2 (ho.handle_ne hl.inv h2 n2)

theorem not_own {own : List (String × Nat)} {hs : List SheetHandle} (hl : LivePkg p own hs) {i : Nat} {g : SheetHandle} (hg : hs[i]? = some g) :
    g.path ∉ own.map Prod.fst ∧ g.rels.path ∉ own.map Prod.fst := by
  obtain ⟨_, _, _, h4, _⟩ := hl.others hg
  constructor <;> intro hm <;> obtain ⟨e, he, e'⟩ := List.mem_map.mp hm
  · exact (h4 e (List.mem_append_left _ he)).2.1 e'
  · exact (h4 e (List.mem_append_left _ he)).2.2 e'

theorem PkgX.drop {own : List (String × Nat)} {hs : List SheetHandle} (hl : LivePkg p own hs) {i : Nat} {g : SheetHandle} (hg : hs[i]? = some g)
    (h : PkgX env z (own.map Prod.fst) p) (hx : HandleX p g) : PkgX env z (own.map Prod.fst) (dropSheet env p g) := by
  obtain ⟨h1, h2, h3, _⟩ := hl.others hg
  obtain ⟨n1, n2⟩ := not_own hl hg
  exact PkgX.relClose (h.closeSheet hl.inv hx h1 n1).1 (hl.inv.closeSheet env g) (h2.closeSheet env (Ne.symm h3)) n2 hx.rels

theorem PkgX.deleteSheet {own : List (String × Nat)} {hs : List SheetHandle} (hl : LivePkg p own hs) {i : Nat} {g : SheetHandle} (hg : hs[i]? = some g)
    (h : PkgX env z (own.map Prod.fst) p) (hx : HandleX p g) : PkgX env z (own.map Prod.fst) (dropSheet env (Oxml.closeSheet env (p.delete g.path) g).2 g) := by
  obtain ⟨h1, h2, h3, _⟩ := hl.others hg
  obtain ⟨n1, n2⟩ := not_own hl hg
  have hi := hl.inv.delete g.path
  have hx' : HandleX (p.delete g.path) g := hx.mono fun o ho => ho.delete _
  obtain ⟨k1, k2⟩ := PkgX.closeSheet (h.delete g.path) hi hx' (h1.delete _) n1
  have hi2 := hi.closeSheet env g
  have ho2 : Owns (Oxml.closeSheet env (p.delete g.path) g).2 (g.rels.path, g.rels.handle) := (h2.delete g.path).closeSheet env (Ne.symm h3)
  generalize (Oxml.closeSheet env (p.delete g.path) g).2 = q at k1 k2 hi2 ho2 ⊢
  have hq : PkgX env z (own.map Prod.fst) (Oxml.closeSheet env q g).2 := by
    rcases k2 with rfl | k2
    · exact (PkgX.closeSheet k1 hi2 hx' (h1.delete _) n1).1
    · unfold Oxml.closeSheet
      rw [k2]
      exact k1.close _
  exact PkgX.relClose hq (hi2.closeSheet env g) (ho2.closeSheet env (Ne.symm h3)) n2 hx.rels

theorem SessX.step (hst : env.build.release = true → StampOk env.stamp) (he : PrintsF32 env) (hz : ReadsDeep env z) {s : Session} (h : SessX env z s) {op : WbOp}
    (ho : ∀ t ∈ givenTexts op, XmlChars t) : SessX env z (s.step env op).2 := by
  have hstr := step_strings_x (env := env) h.strings ho
  have hlive := h.live.step env op
  cases op with
  | add name => exact h.open hst he hz name hstr
  | get name => exact h.open hst he hz (some name) hstr
  | sheet i op =>
    refine ⟨hlive, ?_, ?_, hstr⟩ <;> unfold Session.step <;> simp only
    · split
      · exact h.pkg
      · split <;> exact h.pkg
    · split
      · exact h.handles
      · next g hg =>
        split
        · exact h.handles
        · next d table hrun =>
          intro g' hg'
          have hgm := h.handles g (List.mem_of_getElem? hg)
          rcases List.mem_or_eq_of_mem_set hg' with hg' | rfl
          · exact h.handles g' hg'
          · exact ⟨(hgm.sheet.run h.strings ho hrun).1, hgm.rels, hgm.doc⟩
  | drop i =>
    refine ⟨hlive, ?_, ?_, hstr⟩ <;> unfold Session.step <;> simp only
    · split
      · exact h.pkg
      · next g hg => exact PkgX.drop h.live hg h.pkg (h.handles g (List.mem_of_getElem? hg))
    · split
      · exact h.handles
      · next g hg =>
        intro g' hg'
        exact (h.handles g' (List.mem_of_mem_eraseIdx hg')).mono (others_kept h.live hg hg').1
  | delete i =>
    refine ⟨hlive, ?_, ?_, hstr⟩ <;> unfold Session.step <;> simp only
    · split
      · exact h.pkg
      · next g hg => exact PkgX.deleteSheet h.live hg h.pkg (h.handles g (List.mem_of_getElem? hg))
    · split
      · exact h.handles
      · next g hg =>
        intro g' hg'
        exact (h.handles g' (List.mem_of_mem_eraseIdx hg')).mono (others_kept h.live hg hg').2
  | rename old new =>
    refine ⟨hlive, ?_, ?_, hstr⟩ <;> unfold Session.step <;> simp only <;> split <;> first | exact h.pkg | exact h.handles
  | active name => exact ⟨hlive, h.pkg, h.handles, hstr⟩
  | hide name => exact ⟨hlive, h.pkg, h.handles, hstr⟩
  | view op => exact ⟨hlive, h.pkg, h.handles, hstr⟩
  | style hs st =>
    refine ⟨hlive, ?_, ?_, hstr⟩ <;> unfold Session.step <;> simp only <;> split <;> first | exact h.pkg | exact h.handles

theorem SessX.run (hst : env.build.release = true → StampOk env.stamp) (he : PrintsF32 env) (hz : ReadsDeep env z) {ops : List WbOp} {s s' : Session}
    (hr : s.run env ops = .ok s') (h : SessX env z s) (ho : ∀ op ∈ ops, ∀ t ∈ givenTexts op, XmlChars t) : SessX env z s' := by
  induction ops generalizing s with
  | nil => cases hr; exact h
  | cons op ops ih =>
    have h1 := h.step hst he hz (ho op (by simp))
    unfold Session.run at hr
    split at hr
    · cases hr
    · next r s1 _ e => rw [e] at h1; exact ih hr h1 (fun op' hop => ho op' (by simp [hop]))

end Oxml
