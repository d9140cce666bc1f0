import Verif.Model.OfficeDoc
import Verif.Proofs.Reopen
/-!
# What opening and saving a Word or PowerPoint package does to each part
-/
namespace Oxml
open Spec

/-- How a part is opened: from the closed part, or else from the template. -/
def Source (env : Env) (p : Pkg) (t : Template) (n : String) (o : OpenDoc) : Prop :=
  (aget n p.archive = none ∧ o.doc = t.doc ∧ o.ctype = t.ctype ∧ o.ext = t.ext ∧ o.extType = t.extType) ∨
  ∃ e d, aget n p.archive = some e ∧ readXml env.uni e.content = .ok d ∧ o.doc = d.toXDoc ∧ o.ctype = e.ctype ∧ o.ext = e.ext ∧ o.extType = e.extType

theorem openPart_full {env : Env} {p p1 : Pkg} {t : Template} {n : String} {h : Nat} (hp : p.Inv) (e : p.openPart env (.ok t) n = (.ok h, p1)) :
    p1.Inv ∧ aget n p.opened = none ∧ aget n p1.archive = none ∧
    (∃ o, aget n p1.opened = some o ∧ o.handle = h ∧ Source env p t n o) ∧
    ∀ m, m ≠ n → aget m p1.archive = aget m p.archive ∧ aget m p1.opened = aget m p.opened := by
  have hi := openPart_inv hp e
  have hne : ∀ m, m ≠ n → aget m p1.archive = aget m p.archive ∧ aget m p1.opened = aget m p.opened := by
    intro m hm
    have := Pkg.openPart_ne (p := p) (env := env) (t := .ok t) (Ne.symm hm)
    rw [e] at this; exact this
  cases ho : aget n p.opened with
  | some o => rw [openPart_busy ho] at e; cases e
  | none =>
    cases ha : aget n p.archive with
    | none =>
      rw [openPart_fresh ho ha] at e
      cases e
      exact ⟨hi, rfl, ha, ⟨_, (aget_append_single _ _ _ _ ho).trans (if_pos rfl), rfl, Or.inl ⟨ha, rfl, rfl, rfl, rfl⟩⟩, hne⟩
    | some en =>
      cases hr : readXml env.uni en.content with
      | error err =>
        unfold Pkg.openPart Pkg.getXmlTree at e
        have hh : ahas n p.opened = false := by unfold ahas; rw [ho]; rfl
        simp [hh, ha, hr] at e
      | ok d =>
        rw [openPart_read ho ha hr] at e
        cases e
        refine ⟨hi, rfl, ?_, ⟨_, (aget_append_single _ _ _ _ ho).trans (if_pos rfl), rfl, Or.inr ⟨en, d, ha, hr, rfl, rfl, rfl, rfl⟩⟩, hne⟩
        simp

theorem relNew_full {env : Env} {p p1 : Pkg} {n : String} {r : RelPart} (hp : p.Inv) (e : RelPart.new env p n = (.ok r, p1)) :
    p1.Inv ∧ aget n p.opened = none ∧ aget n p1.archive = none ∧ r.path = n ∧
    (∃ o, Source env p relsTemplate n o ∧ (loadRels o.doc).1 = .ok r.rels ∧ o.handle = r.handle ∧
      aget n p1.opened = some { o with doc := (loadRels o.doc).2 }) ∧
    ∀ m, m ≠ n → aget m p1.archive = aget m p.archive ∧ aget m p1.opened = aget m p.opened := by
  unfold RelPart.new at e
  cases ho : p.openPart env (.ok relsTemplate) n with
  | mk res p2 =>
    cases res with
    | error err => rw [ho] at e; simp at e
    | ok h =>
      obtain ⟨h1, h2, h3, ⟨o, h4, h5, h6⟩, h7⟩ := openPart_full hp ho
      rw [ho] at e
      subst h5
      simp only [h1.docOf h4] at e
      cases hl : loadRels o.doc with
      | mk res x' =>
        rw [hl] at e
        cases res with
        | error err => simp at e
        | ok rels =>
          simp only [Prod.mk.injEq, Except.ok.injEq] at e
          obtain ⟨rfl, rfl⟩ := e
          refine ⟨h1.update _ _, h2, by rw [Pkg.update_archive]; exact h3, rfl, ⟨o, h6, by rw [hl], rfl, ?_⟩, ?_⟩
          · rw [h1.aget_update h4, if_pos rfl, hl]
          · intro m hm
            rw [Pkg.update_archive, h1.aget_update h4, if_neg hm]
            exact h7 m hm

/-- An opened Word or PowerPoint package. -/
structure Started (env : Env) (p : Pkg) (d : OfficeDoc) (orel ocore : OpenDoc) (rels : List Rel) : Prop where
  inv : d.pkg.Inv
  relPath : d.rootRels.path = "_rels/.rels"
  ne : d.core.path ≠ "_rels/.rels"
  relSource : Source env p relsTemplate "_rels/.rels" orel
  relLoad : (loadRels orel.doc).1 = .ok rels
  relHandle : orel.handle = d.rootRels.handle
  relOpen : aget "_rels/.rels" d.pkg.opened = some { orel with doc := (loadRels orel.doc).2 }
  target : targetByType "_rels/.rels" rels coreContent.type coreContent none none = (.ok d.core.path, d.rootRels.rels)
  coreSource : Source env p coreTemplate d.core.path ocore
  coreHandle : ocore.handle = d.core.handle
  coreOpen : aget d.core.path d.pkg.opened = some ocore
  others : ∀ m, m ≠ "_rels/.rels" → m ≠ d.core.path → aget m d.pkg.archive = aget m p.archive ∧ aget m d.pkg.opened = aget m p.opened
  gone : aget "_rels/.rels" d.pkg.archive = none ∧ aget d.core.path d.pkg.archive = none

theorem start_ok {env : Env} {p : Pkg} {d : OfficeDoc} (hp : p.Inv) (h : OfficeDoc.start env p = .ok d) :
    ∃ orel ocore rels, Started env p d orel ocore rels := by
  unfold OfficeDoc.start at h
  split at h
  · cases h
  · next r p1 hr =>
    split at h
    · cases h
    · next path hd p2 r2 ht =>
      cases h
      obtain ⟨i1, _, g1, rp, ⟨o, s1, s2, s3, s4⟩, ne1⟩ := relNew_full hp hr
      unfold openTyped at ht
      split at ht
      · cases ht
      · next pa rels' htt =>
        split at ht
        · cases ht
        · next h' p' ho =>
          cases ht
          obtain ⟨i2, b1, g2, ⟨oc, c1, c2, c3⟩, ne2⟩ := openPart_full i1 ho
          have hne : path ≠ "_rels/.rels" := by
            rintro rfl
            rw [s4] at b1; cases b1
          refine ⟨o, oc, r.rels, i2, rp, hne, s1, s2, s3, ?_, ?_, ?_, c2, c1, ?_, ?_, g2⟩
          · rw [(ne2 _ (Ne.symm hne)).2]; exact s4
          · rw [rp] at htt; exact htt
          · rcases c3 with ⟨h1, h2⟩ | ⟨e, dd, h1, h2⟩
            · exact Or.inl ⟨by rw [← (ne1 _ hne).1]; exact h1, h2⟩
            · exact Or.inr ⟨e, dd, by rw [← (ne1 _ hne).1]; exact h1, h2⟩
          · intro m h1 h2
            rw [(ne2 m h2).1, (ne2 m h2).2]
            exact ne1 m h1
          · rw [(ne2 _ (Ne.symm hne)).1]; exact g1

/-- After looking for the core properties there is a relationship. -/
theorem Started.rels_ne {env : Env} {p : Pkg} {d : OfficeDoc} {orel ocore : OpenDoc} {rels : List Rel} (h : Started env p d orel ocore rels) :
    d.rootRels.rels ≠ [] := by
  have := congrArg Prod.snd h.target
  unfold targetByType at this
  split at this
  · next r hr =>
    intro he
    simp only at this
    rw [this, he] at hr
    cases hr
  · intro he
    rw [he] at this
    simp [newRel] at this

theorem closed_docOf {env : Env} {p : Pkg} (hp : p.Inv) {n : String} {o : OpenDoc} (ho : aget n p.opened = some o) (x : XDoc) :
    ((p.update o.handle (fun _ => x)).close env n).docOf o.handle = none := by
  apply Pkg.docOf_none
  intro m o' hm hh
  have hi : ((p.update o.handle (fun _ => x)).close env n).Inv := (hp.update _ _).close env n
  have h1 := aget_of_mem (k := m) (v := o') hi.opened hm
  have h2 := (hp.update_close env ho x m).1
  rw [h1] at h2
  split at h2
  · cases h2
  · next hmn =>
    exact hmn (hp.handle_name h2.symm ho hh)

/-- What is saved. -/
theorem Started.saved {env : Env} {p : Pkg} {d : OfficeDoc} {orel ocore : OpenDoc} {rels : List Rel} (h : Started env p d orel ocore rels)
    (now : String) :
    (∀ q, d.saved env now = .ok q → ∃ xc xr, saveCore now now ocore.doc = .ok xc ∧
      saveRels (loadRels orel.doc).2 d.rootRels.rels = .ok (xr, true) ∧ q.Inv ∧
      aget d.core.path q.archive = some { ext := ocore.ext, extType := ocore.extType, ctype := ocore.ctype, content := renderDoc env.build env.stamp xc } ∧
      aget "_rels/.rels" q.archive = some { ext := orel.ext, extType := orel.extType, ctype := orel.ctype, content := renderDoc env.build env.stamp xr } ∧
      ∀ m, m ≠ "_rels/.rels" → m ≠ d.core.path → aget m p.opened = none → aget m q.archive = aget m p.archive) ∧
    (ocore.doc.root.isSome → orel.doc.root.isSome → ∃ q, d.saved env now = .ok q) := by
  have hdoc : d.pkg.docOf d.core.handle = some ocore.doc := by rw [← h.coreHandle]; exact h.inv.docOf h.coreOpen
  cases hc : saveCore now now ocore.doc with
  | error e =>
    refine ⟨?_, ?_⟩
    · intro q hq
      unfold OfficeDoc.saved OfficeDoc.closeCore at hq
      simp only [hdoc, hc] at hq
      cases hq
    · intro hr
      unfold saveCore at hc
      split at hc
      · next hn => rw [hn] at hr; cases hr
      · cases hc
  | ok xc =>
    have e1 : d.closeCore env now = (.ok (), { d with pkg := (d.pkg.update d.core.handle (fun _ => xc)).close env d.core.path }) := by
      unfold OfficeDoc.closeCore; simp only [hdoc, hc]
    have hcl := h.inv.update_close env h.coreOpen xc
    rw [h.coreHandle] at hcl
    have hdn := closed_docOf (env := env) h.inv h.coreOpen xc
    rw [h.coreHandle] at hdn
    have hi : ((d.pkg.update d.core.handle (fun _ => xc)).close env d.core.path).Inv := (h.inv.update _ _).close env _
    generalize hp1 : (d.pkg.update d.core.handle (fun _ => xc)).close env d.core.path = p1 at *
    have e2 : (OfficeDoc.closeCore env now { d with pkg := p1 }).2 = { d with pkg := p1 } := by
      unfold OfficeDoc.closeCore
      simp only [hdn]
      rw [Pkg.close_closed]
      have := (hcl d.core.path).1
      rw [if_pos rfl] at this; exact this
    have hro : aget "_rels/.rels" p1.opened = some { orel with doc := (loadRels orel.doc).2 } := by
      rw [(hcl _).1, if_neg (Ne.symm h.ne)]; exact h.relOpen
    have hrd : p1.docOf d.rootRels.handle = some (loadRels orel.doc).2 := by
      rw [← h.relHandle]; exact hi.docOf hro
    cases hs : saveRels (loadRels orel.doc).2 d.rootRels.rels with
    | error e =>
      refine ⟨?_, ?_⟩
      · intro q hq
        unfold OfficeDoc.saved at hq
        rw [e1] at hq
        simp only [e2, RelPart.close, hrd, hs] at hq
        cases hq
      · intro _ hr
        exfalso
        obtain ⟨r, hr⟩ := Option.isSome_iff_exists.mp hr
        unfold saveRels at hs
        have : (loadRels orel.doc).2.root = some (r.withChildren (r.children.filter (fun n => n.tag ≠ "Relationship"))) := by
          simp [loadRels, XDoc.popTag, XDoc.mapRootChildren, hr]
        rw [this] at hs
        simp only [XDoc.appendAll, this] at hs
        cases hs
    | ok v =>
      obtain ⟨xr, keep⟩ := v
      have hk : keep = true := by
        unfold saveRels at hs
        split at hs
        · cases hs
        · split at hs
          · cases hs
          · simp only [Except.ok.injEq, Prod.mk.injEq] at hs
            rw [← hs.2]
            have := List.length_pos_iff.mpr h.rels_ne
            simp [this]
      subst hk
      have e3 : d.saved env now = .ok (((p1.update d.rootRels.handle (fun _ => xr)).close env "_rels/.rels").closedForSave env) := by
        unfold OfficeDoc.saved
        rw [e1]
        simp only [e2, RelPart.close, hrd, hs, if_true, h.relPath]
      refine ⟨?_, fun _ _ => ⟨_, e3⟩⟩
      intro q hq
      rw [e3] at hq
      cases hq
      have hcl2 := hi.update_close env hro xr
      simp only [h.relHandle] at hcl2
      have hi2 : ((p1.update d.rootRels.handle (fun _ => xr)).close env "_rels/.rels").Inv := (hi.update _ _).close env _
      generalize (p1.update d.rootRels.handle (fun _ => xr)).close env "_rels/.rels" = p2 at *
      refine ⟨xc, xr, rfl, rfl, hi2.closeAll env _, ?_, ?_, ?_⟩
      · rw [Pkg.closedForSave_closed (by rw [(hcl2 _).1, if_neg h.ne, (hcl _).1, if_pos rfl]), (hcl2 _).2, if_neg h.ne, (hcl _).2, if_pos rfl]
      · rw [Pkg.closedForSave_closed (by rw [(hcl2 _).1, if_pos rfl]), (hcl2 _).2, if_pos rfl]
      · intro m h1 h2 h3
        have ho : aget m p2.opened = none := by
          rw [(hcl2 _).1, if_neg h1, (hcl _).1, if_neg h2, (h.others m h1 h2).2]; exact h3
        rw [Pkg.closedForSave_closed ho, (hcl2 _).2, if_neg h1, (hcl _).2, if_neg h2]
        exact (h.others m h1 h2).1

end Oxml
