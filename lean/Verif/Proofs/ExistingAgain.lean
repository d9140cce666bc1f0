import Verif.Proofs.ExistingData
/-!
# Saved existing files open again
-/
namespace Oxml
open Spec

theorem plainRels_orderly {x : Excel} (h : PlainRels x) : Orderly ⟨x, []⟩ := ⟨h.dir, h.rels, fun g hg => by cases hg⟩

theorem step_rootRels (env : Env) (s : Session) (op : WbOp) : (s.step env op).2.x.rootRels = s.x.rootRels := by
  have hopen : ∀ name, (s.open env name).2.x.rootRels = s.x.rootRels := by
    intro name
    unfold Session.open
    rw [openSheet_eq]
    have h1 : (s.x.sheetFile name).2.rootRels = s.x.rootRels := by
      unfold Excel.sheetFile
      split
      · split <;> rfl
      · split <;> rfl
    cases hf : s.x.sheetFile name with
    | mk r x1 =>
      rw [hf] at h1
      cases r with
      | error e => exact h1
      | ok pn =>
        obtain ⟨path, nm⟩ := pn
        have h2 : (openAt env x1 path nm).2.rootRels = x1.rootRels := by
          unfold openAt
          split
          · rfl
          · split
            · rfl
            · split
              · rfl
              · split
                · rfl
                · split <;> rfl
        simp only
        split <;> next e => rw [e] at h2; exact h2.trans h1
  cases op with
  | add name => exact hopen name
  | get name => exact hopen (some name)
  | sheet i op =>
    unfold Session.step
    simp only
    split
    · rfl
    · split <;> rfl
  | drop i =>
    unfold Session.step
    simp only
    split <;> rfl
  | delete i =>
    unfold Session.step
    simp only
    split <;> rfl
  | rename old new =>
    unfold Session.step
    simp only
    split <;> rfl
  | active name => rfl
  | hide name => rfl
  | view op => rfl
  | style hs st =>
    unfold Session.step
    simp only
    split <;> rfl

theorem run_rootRels {env : Env} {ops : List WbOp} {s s' : Session} (hr : s.run env ops = .ok s') : s'.x.rootRels = s.x.rootRels := by
  induction ops generalizing s with
  | nil => cases hr; rfl
  | cons op ops ih =>
    have key : (s.step env op).2.run env ops = .ok s' := by
      rw [Session.run] at hr
      split at hr
      · cases hr
      · next e => rw [e]; exact hr
    exact (ih key).trans (step_rootRels env s op)

theorem targetByType_leads {f : String} {R R' : List Rel} {c : Content} {dir nm : Option String} {n : String} (hf : ∃ d, relativePath f = .ok d)
    (h : targetByType f R c.type c dir nm = (.ok n, R')) : Leads R' f c.type n ∧ ∃ l, R' = R ++ l := by
  unfold targetByType at h
  split at h
  · next r hr =>
    simp only [Prod.mk.injEq] at h
    obtain ⟨h1, rfl⟩ := h
    exact ⟨⟨r, hr, h1⟩, [], by simp⟩
  · next hr =>
    simp only [Prod.mk.injEq, Except.ok.injEq] at h
    obtain ⟨rfl, rfl⟩ := h
    refine ⟨⟨⟨nextRelId R, "/" ++ partPath c dir nm, c.type, none⟩, ?_, ?_⟩, _, rfl⟩
    · unfold newRel
      simp [List.find?_append, hr]
    · obtain ⟨d, hd⟩ := hf
      unfold resolveTarget
      have e : ("/" ++ partPath c dir nm).toList = '/' :: (partPath c dir nm).toList := by simp [String.toList_append]
      rw [hd, e]
      simp

theorem Leads.target {R : List Rel} {f : String} {c : Content} {n : String} (h : Leads R f c.type n) (dir nm : Option String) :
    targetByType f R c.type c dir nm = (.ok n, R) := by
  obtain ⟨r, h1, h2⟩ := h
  unfold targetByType
  rw [h1]
  simp only [h2]

theorem plain_map {R : List Rel} (h : ∀ r ∈ R, PlainRel r) : R.map escRel = R := by
  induction R with
  | nil => rfl
  | cons r R ih =>
    rw [List.map_cons, (escRel_eq_iff r).mpr (h r (by simp)), ih (fun r hr => h r (by simp [hr]))]

theorem Leads.ne_nil {R : List Rel} {f t n : String} (h : Leads R f t n) : R ≠ [] := by
  rintro rfl
  obtain ⟨r, h1, _⟩ := h
  cases h1

theorem ready_of_zipDoc {env : Env} {z : Zip} {p : Pkg} {t : Template} {n : String} {d : XDoc} (hp : Pkg.ofZip env z = .ok p) (hn : n ≠ contentTypesName)
    (h : zipDoc env z n = some d) : Ready env p t n d := by
  obtain ⟨c, dd, h1, h2, rfl⟩ := of_zipDoc h
  have hc := ofZip_content hp hn
  rw [h1] at hc
  cases he : aget n p.archive with
  | none => rw [he] at hc; cases hc
  | some e =>
    rw [he] at hc
    cases hc
    exact Or.inr ⟨e, dd, he, h2, rfl⟩

theorem opens_again {env : Env} {theme : XDoc} {z z' : Zip} {ops : List WbOp} {x : Excel} {s : Session} {now : String} {exts : List (String × String)}
    (hst : env.build.release = true → StampOk env.stamp) (hz : (akeys z).Nodup) (hr : RanOn env theme z ops x s) (ht : TidyParts env z x)
    (hp : PlainRels x) (hf : SizesFit ops) (hth : WfRoot env.uni theme) (hthc : theme.rootChildren ≠ []) (hc1 : HasContent env z x.theme.path)
    (hc2 : HasContent env z x.core.path) (hexts : ∀ q, s.x.saved env now = .ok q → HashSetOrder q.extPairs exts)
    (hs : s.x.toZip env now exts = .ok z') (h6 : s.x.strings.data ≠ []) (h7 : s.x.chain.data ≠ []) :
    ∃ x', Excel.openFile env theme z' = .ok x' ∧ ownParts x' = ownParts x ∧ x'.sheets = s.x.sheets.map reloadSheetEntry ∧
      x'.view = s.x.view.map reloadBookView ∧ x'.strings.data = s.x.strings.data.map (fun s => (reloadText s).getD "") ∧
      x'.chain.data = s.x.chain.data.map reloadEntry ∧ x'.styles.data = reloadStyles s.x.styles.data ∧ x'.rels.rels = s.x.rels.rels ∧
      x'.rootRels.rels = x.rootRels.rels := by
  obtain ⟨p, o1, o2, o3, o4, o5, o6, o7, o8, r1, r2, q, d1, d2, d3, d4, d6, d7, d8, keep, keep0, hpz, hb, hq, W, S, hown, hct⟩ := saved_base hz hr hs
  have hfin : finalRels s.x = s.x.rels.rels := by
    unfold finalRels stringRels chainRels; rw [if_neg h6, if_neg h7]
  have hroot : s.x.rootRels = x.rootRels := run_rootRels (s := ⟨x, []⟩) hr.2
  obtain ⟨ho, hl⟩ := leads_run (s := ⟨x, []⟩) hb.live (plainRels_orderly hp) hr.2
  obtain ⟨pe1, pe2, pe3, pe4, pe5, pe6, pe7, pe8⟩ := own_paths hown
  obtain ⟨rdir, hrd, _⟩ := hp.dir
  obtain ⟨root2, t1, t2⟩ := hb.rootTargets
  have hrp : ∃ d, relativePath "_rels/.rels" = .ok d := by
    cases e : relativePath "_rels/.rels" with
    | ok d => exact ⟨d, rfl⟩
    | error e' =>
      have h : (relativePath "_rels/.rels").toOption.isSome = true := by decide +kernel
      rw [e] at h; cases h
  obtain ⟨l1, m1, em1⟩ := targetByType_leads hrp t1
  obtain ⟨l2, m2, em2⟩ := targetByType_leads hrp t2
  have l1 : Leads x.rootRels.rels "_rels/.rels" coreContent.type x.core.path := em2 ▸ l1.append m2
  obtain ⟨R2, R3, R4, t5, t6, t7, t8⟩ := hb.targets
  obtain ⟨l5, m5, em5⟩ := targetByType_leads ⟨_, hrd⟩ t5
  obtain ⟨l6, m6, em6⟩ := targetByType_leads ⟨_, hrd⟩ t6
  obtain ⟨l7, m7, em7⟩ := targetByType_leads ⟨_, hrd⟩ t7
  obtain ⟨l8, m8, em8⟩ := targetByType_leads ⟨_, hrd⟩ t8
  have l7 : Leads x.rels.rels x.rels.path calcChainContent.type x.chain.path := em8 ▸ l7.append m8
  have l6 : Leads x.rels.rels x.rels.path sharedStringContent.type x.strings.path := em8 ▸ (em7 ▸ l6.append m7 : Leads R4 _ _ _).append m8
  have l5 : Leads x.rels.rels x.rels.path themeContent.type x.theme.path :=
    em8 ▸ (em7 ▸ (em6 ▸ l5.append m6 : Leads R3 _ _ _).append m7 : Leads R4 _ _ _).append m8
  have k5 := hl _ _ (by simp [ownParts]) l5
  have k6 := hl _ _ (by simp [ownParts]) l6
  have k7 := hl _ _ (by simp [ownParts]) l7
  have k8 := hl _ _ (by simp [ownParts]) l8
  rw [pe4] at k5 k6 k7 k8
  obtain ⟨e3, v3, _, w3⟩ := saved_book_doc hst hz hr ht hs
  obtain ⟨e6, v6, w6, _⟩ := saved_strings_doc hst hz hr ht hs h6
  obtain ⟨e7, v7, w7⟩ := saved_chain_doc hst hz hr ht hs h7
  obtain ⟨e8, v8, w8⟩ := saved_styles_doc hst hz hr ht hs hf
  obtain ⟨e4, v4, w4⟩ := saved_rels_doc hst hz hr ht hs (by rw [hfin]; exact k5.ne_nil)
  obtain ⟨e1, v1, w1⟩ := saved_root_doc hst hz hr ht hs (by rw [hroot]; exact l1.ne_nil)
  obtain ⟨e5, v5⟩ := saved_theme_doc hst hz hr ht hs hth hthc hc1
  obtain ⟨e2, v2⟩ := saved_core_doc hst hz hr ht hs hc2
  rw [hfin, plain_map (fun r hr => (ho.rels r hr).1)] at w4
  rw [hroot, plain_map hp.root] at w1
  obtain ⟨q', hq1, hq2⟩ : ∃ q', s.x.saved env now = .ok q' ∧ q'.toZip env exts = .ok z' := by
    unfold Excel.toZip at hs
    split at hs
    · cases hs
    · next q' e => exact ⟨q', e, hs⟩
  have hne : q'.archive ≠ [] := by
    intro he
    have hn : x.book.path ∈ ownParts x := by simp [ownParts]
    obtain ⟨c, dd, g1, _, _⟩ := of_zipDoc v3
    rw [toZip_aget hq2 (hct _ hn), he] at g1
    cases g1
  obtain ⟨p', hp', _, hop, _⟩ := ofZip_toZip env hst (hexts q' hq1) hq2 hne
  have hz' : (akeys z').Nodup := by
    obtain ⟨_, _, _, _, _, _, _, _, A⟩ := (hb.live.run env ops hr.2).allHeld
    obtain ⟨_, _, _, _, _, _, _, _, _, _, S'⟩ := saved_all A hq1
    exact toZip_nodup S'.inv hq2
  have hm : ∀ n, n ∈ ownParts x → n ≠ contentTypesName := hct
  have O : Openable env theme p' x.core.path x.book.path x.rels.path x.theme.path x.strings.path x.chain.path x.styles.path e1 e2 e3 e4 e5 e6 e7 e8 := by
    have nd := hb.nodup
    unfold ownParts at nd
    rw [hb.rootPath] at nd
    refine ⟨nd, hb.relsPath, ready_of_zipDoc hp' (hm _ ?_) v1, ready_of_zipDoc hp' (hm _ ?_) v2, ready_of_zipDoc hp' (hm _ ?_) v3,
      ready_of_zipDoc hp' (hm _ ?_) v4, ready_of_zipDoc hp' (hm _ ?_) v5, ready_of_zipDoc hp' (hm _ ?_) v6, ready_of_zipDoc hp' (hm _ ?_) v7,
      ready_of_zipDoc hp' (hm _ ?_) v8, ⟨_, _, _, w1, l1.target _ _, l2.target _ _⟩,
      ⟨_, _, _, _, _, w4, k5.target _ _, k6.target _ _, k7.target _ _, k8.target _ _⟩, ⟨_, w7⟩, ⟨_, w8⟩, ⟨_, w3⟩⟩
    · simp [ownParts, hb.rootPath]
    all_goals simp [ownParts]
  obtain ⟨x', hx'⟩ := start_opens (Pkg.Inv.ofZip hz' hp') hop O
  have hopen : Excel.openFile env theme z' = .ok x' := by exact openFile_ok.mpr ⟨_, hp', hx'⟩
  refine ⟨x', hopen, ?_⟩
  obtain ⟨b1, b2, b3, b4, b5, b6, b7, b8, u1, u2, B⟩ := start_book (Pkg.Inv.ofZip hz' hp') hop hx'
  obtain ⟨c1, c2, c3, c4, c5, c6, c7, c8, c9, c10, c11, c12, c13⟩ := O
  obtain ⟨y2, tt1, tt2⟩ := B.rootTargets
  have hu1 : u1 = x.rootRels.rels := by
    have := B.rootLoad
    rw [c3.source B.rootSource, w1] at this
    exact (Except.ok.inj this).symm
  subst hu1
  rw [l1.target] at tt1
  simp only [Prod.mk.injEq, Except.ok.injEq] at tt1
  obtain ⟨f2, rfl⟩ := tt1
  rw [l2.target] at tt2
  simp only [Prod.mk.injEq, Except.ok.injEq] at tt2
  obtain ⟨f3, f1⟩ := tt2
  have f4 : x'.rels.path = x.rels.path := by
    obtain ⟨dir, g1, g2⟩ := hb.relsPath
    obtain ⟨dir', g1', g2'⟩ := B.relsPath
    rw [← f3, g1] at g1'
    cases g1'
    rw [g2', g2]
  have hu2 : u2 = s.x.rels.rels := by
    have := B.relLoad
    have hsrc := B.relSource
    rw [f4] at hsrc
    rw [c6.source hsrc, w4] at this
    exact (Except.ok.inj this).symm
  subst hu2
  obtain ⟨y3, y4, y5, tt5, tt6, tt7, tt8⟩ := B.targets
  rw [f4] at tt5 tt6 tt7 tt8
  rw [k5.target] at tt5
  simp only [Prod.mk.injEq, Except.ok.injEq] at tt5
  obtain ⟨f5, rfl⟩ := tt5
  rw [k6.target] at tt6
  simp only [Prod.mk.injEq, Except.ok.injEq] at tt6
  obtain ⟨f6, rfl⟩ := tt6
  rw [k7.target] at tt7
  simp only [Prod.mk.injEq, Except.ok.injEq] at tt7
  obtain ⟨f7, rfl⟩ := tt7
  rw [k8.target] at tt8
  simp only [Prod.mk.injEq, Except.ok.injEq] at tt8
  obtain ⟨f8, f9⟩ := tt8
  have B3 := B.bookLoad
  rw [c5.source (f3 ▸ B.bookSource), w3] at B3
  simp only [Except.ok.injEq, Prod.mk.injEq] at B3
  have B6 := B.strLoad
  rw [c8.source (f6 ▸ B.strSource), w6] at B6
  have B7 := B.calcLoad
  rw [c9.source (f7 ▸ B.calcSource), w7] at B7
  have B8 := B.styleLoad
  rw [c10.source (f8 ▸ B.styleSource), w8] at B8
  refine ⟨?_, B3.1.symm, B3.2.symm, B6.symm, (Except.ok.inj B7).symm, (Except.ok.inj B8).symm, f9.symm, f1.symm⟩
  unfold ownParts
  rw [B.rootPath, hb.rootPath, ← f2, ← f3, f4, ← f5, ← f6, ← f7, ← f8]

end Oxml
