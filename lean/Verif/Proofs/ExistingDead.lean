import Verif.Proofs.ExistingAgain
import Verif.Spec.Crash
/-!
# Files that do not open again
-/
namespace Oxml
open Spec

theorem step_chain (env : Env) (s : Session) (op : WbOp) : (s.step env op).2.x.chain = s.x.chain := by
  have hopen : ∀ name, (s.open env name).2.x.chain = s.x.chain := by
    intro name
    unfold Session.open
    rw [openSheet_eq]
    have h1 : (s.x.sheetFile name).2.chain = s.x.chain := by
      unfold Excel.sheetFile
      split
      · split <;> rfl
      · split <;> rfl
    cases hf : s.x.sheetFile name with
    | mk r x1 =>
      rw [hf] at h1
      cases r with
      | error e => exact h1
      | ok pn =>
        obtain ⟨path, nm⟩ := pn
        have h2 : (openAt env x1 path nm).2.chain = x1.chain := by
          unfold openAt
          split
          · rfl
          · split
            · rfl
            · split
              · rfl
              · split
                · rfl
                · split <;> rfl
        simp only
        split <;> next e => rw [e] at h2; exact h2.trans h1
  cases op with
  | add name => exact hopen name
  | get name => exact hopen (some name)
  | sheet i op =>
    unfold Session.step
    simp only
    split
    · rfl
    · split <;> rfl
  | drop i =>
    unfold Session.step
    simp only
    split <;> rfl
  | delete i =>
    unfold Session.step
    simp only
    split <;> rfl
  | rename old new =>
    unfold Session.step
    simp only
    split <;> rfl
  | active name => rfl
  | hide name => rfl
  | view op => rfl
  | style hs st =>
    unfold Session.step
    simp only
    split <;> rfl

/-- No call changes the calculation chain. -/
theorem run_chain {env : Env} {ops : List WbOp} {s s' : Session} (hr : s.run env ops = .ok s') : s'.x.chain = s.x.chain := by
  induction ops generalizing s with
  | nil => cases hr; rfl
  | cons op ops ih =>
    have key : (s.step env op).2.run env ops = .ok s' := by
      rw [Session.run] at hr
      split at hr
      · cases hr
      · next e => rw [e]; exact hr
    exact (ih key).trans (step_chain env s op)

theorem step_relTypes (env : Env) (s : Session) (op : WbOp) : ∀ r ∈ (s.step env op).2.x.rels.rels, r ∈ s.x.rels.rels ∨ r.type = worksheetContent.type := by
  have hopen : ∀ name, ∀ r ∈ (s.open env name).2.x.rels.rels, r ∈ s.x.rels.rels ∨ r.type = worksheetContent.type := by
    intro name r hr
    rw [open_rels] at hr
    rcases (sheetFile_shape s.x name).1 with e | ⟨_, _, _, e⟩
    · rw [e] at hr; exact Or.inl hr
    · rw [e] at hr
      rcases List.mem_append.mp hr with hr | hr
      · exact Or.inl hr
      · rw [List.mem_singleton] at hr
        rw [hr]; exact Or.inr rfl
  cases op with
  | add name => exact hopen name
  | get name => exact hopen (some name)
  | sheet i op =>
    unfold Session.step
    simp only
    split
    · exact fun r h => Or.inl h
    · split <;> exact fun r h => Or.inl h
  | drop i =>
    unfold Session.step
    simp only
    split <;> exact fun r h => Or.inl h
  | delete i =>
    unfold Session.step
    simp only
    split
    · exact fun r h => Or.inl h
    · exact fun r h => Or.inl (deleteRel_sub r h)
  | rename old new =>
    unfold Session.step
    simp only
    split <;> exact fun r h => Or.inl h
  | active name => exact fun r h => Or.inl h
  | hide name => exact fun r h => Or.inl h
  | view op => exact fun r h => Or.inl h
  | style hs st =>
    unfold Session.step
    simp only
    split <;> exact fun r h => Or.inl h

/-- Calls add relationships to sheets only. -/
theorem run_relTypes {env : Env} {ops : List WbOp} {s s' : Session} (hr : s.run env ops = .ok s') :
    ∀ r ∈ s'.x.rels.rels, r ∈ s.x.rels.rels ∨ r.type = worksheetContent.type := by
  induction ops generalizing s with
  | nil => cases hr; exact fun r h => Or.inl h
  | cons op ops ih =>
    have key : (s.step env op).2.run env ops = .ok s' := by
      rw [Session.run] at hr
      split at hr
      · cases hr
      · next e => rw [e]; exact hr
    intro r h
    rcases ih key r h with h | h
    · exact step_relTypes env s op r h
    · exact Or.inr h

theorem finalRels_sub (x : Excel) : ∀ r ∈ finalRels x, r ∈ x.rels.rels := by
  intro r hr
  unfold finalRels stringRels chainRels at hr
  split at hr
  · have := deleteRel_sub r hr
    split at this
    · exact deleteRel_sub r this
    · exact this
  · split at hr
    · exact deleteRel_sub r hr
    · exact hr

/-- Where a relationship part leads, when the first relationships of other types may have been added. -/
theorem target_or {f : String} {R l R' : List Rel} {c : Content} {dir nm : Option String} {n : String}
    (h : targetByType f (R ++ l) c.type c dir nm = (.ok n, R')) (hl : ∀ r ∈ l, r.type ≠ c.type) :
    (∃ r ∈ R, r.type = c.type ∧ resolveTarget f r.target = .ok n) ∨ n = partPath c dir nm := by
  unfold targetByType at h
  split at h
  · next r hr =>
    left
    simp only [Prod.mk.injEq] at h
    have hm := List.mem_of_find?_eq_some hr
    have ht : r.type = c.type := by simpa using List.find?_some hr
    rcases List.mem_append.mp hm with hm | hm
    · exact ⟨r, hm, ht, h.1⟩
    · exact absurd ht (hl r hm)
  · right
    simp only [Prod.mk.injEq, Except.ok.injEq] at h
    exact h.1.symm

theorem targetByType_adds {f : String} {R R' : List Rel} {c : Content} {dir nm : Option String} {n : Res String}
    (h : targetByType f R c.type c dir nm = (n, R')) : ∃ l, R' = R ++ l ∧ ∀ r ∈ l, r.type = c.type := by
  unfold targetByType at h
  split at h
  · simp only [Prod.mk.injEq] at h
    exact ⟨[], by rw [← h.2, List.append_nil], fun r hr => by cases hr⟩
  · simp only [Prod.mk.injEq] at h
    refine ⟨_, h.2.symm, ?_⟩
    intro r hr
    rw [List.mem_singleton] at hr
    rw [hr]

section
variable {env : Env} {theme : XDoc} {z z' : Zip} {ops : List WbOp} {x : Excel} {s : Session} {now : String} {exts : List (String × String)}

/-- Whoever opens the saved file comes back to the same workbook and reads the relationships that were kept. -/
theorem reopened_rels (hst : env.build.release = true → StampOk env.stamp) (hz : (akeys z).Nodup) (hr : RanOn env theme z ops x s) (ht : TidyParts env z x)
    (hp : PlainRels x) (hs : s.x.toZip env now exts = .ok z') {theme' : XDoc} {x' : Excel} (hx' : Excel.openFile env theme' z' = .ok x') :
    ∃ p' b1 b2 b3 b4 b5 b6 b7 b8 u1, Pkg.ofZip env z' = .ok p' ∧ BookOpen env theme' p' x' b1 b2 b3 b4 b5 b6 b7 b8 u1 (finalRels s.x) ∧
      x'.rels.path = x.rels.path := by
  obtain ⟨p, o1, o2, o3, o4, o5, o6, o7, o8, r1, r2, q, d1, d2, d3, d4, d6, d7, d8, keep, keep0, hpz, hb, hq, W, S, hown, hct⟩ := saved_base hz hr hs
  have hroot : s.x.rootRels = x.rootRels := run_rootRels (s := ⟨x, []⟩) hr.2
  obtain ⟨ho, hl⟩ := leads_run (s := ⟨x, []⟩) hb.live (plainRels_orderly hp) hr.2
  obtain ⟨pe1, pe2, pe3, pe4, pe5, pe6, pe7, pe8⟩ := own_paths hown
  obtain ⟨rdir, hrd, _⟩ := hp.dir
  obtain ⟨root2, t1, t2⟩ := hb.rootTargets
  have hrp : ∃ d, relativePath "_rels/.rels" = .ok d := by
    cases e : relativePath "_rels/.rels" with
    | ok d => exact ⟨d, rfl⟩
    | error e' =>
      have h : (relativePath "_rels/.rels").toOption.isSome = true := by decide +kernel
      rw [e] at h; cases h
  obtain ⟨l1, m1, em1⟩ := targetByType_leads hrp t1
  obtain ⟨l2, m2, em2⟩ := targetByType_leads hrp t2
  have l1 : Leads x.rootRels.rels "_rels/.rels" coreContent.type x.core.path := em2 ▸ l1.append m2
  obtain ⟨R2, R3, R4, t5, t6, t7, t8⟩ := hb.targets
  obtain ⟨l6, m6, em6⟩ := targetByType_leads ⟨_, hrd⟩ t6
  obtain ⟨l7, m7, em7⟩ := targetByType_leads ⟨_, hrd⟩ t7
  obtain ⟨l8, m8, em8⟩ := targetByType_leads ⟨_, hrd⟩ t8
  have l7 : Leads x.rels.rels x.rels.path calcChainContent.type x.chain.path := em8 ▸ l7.append m8
  have l6 : Leads x.rels.rels x.rels.path sharedStringContent.type x.strings.path := em8 ▸ (em7 ▸ l6.append m7 : Leads R4 _ _ _).append m8
  have noslash : ∀ {t n}, Leads x.rels.rels x.rels.path t n → NoSlash n := by
    rintro t n ⟨r, h1, h2⟩
    exact (hp.rels r (List.mem_of_find?_eq_some h1)).2 _ h2
  have k8 := hl _ _ (by simp [ownParts]) l8
  have nd := hb.nodup
  have d78 : x.chain.path ≠ x.styles.path := by
    unfold ownParts at nd
    simp only [List.nodup_cons, List.mem_cons, List.not_mem_nil, or_false, not_or] at nd
    exact nd.2.2.2.2.2.2.1
  have d68 : x.strings.path ≠ x.styles.path := by
    unfold ownParts at nd
    simp only [List.nodup_cons, List.mem_cons, List.not_mem_nil, or_false, not_or] at nd
    exact nd.2.2.2.2.2.1.2
  have hne : finalRels s.x ≠ [] := by
    have h1 : Leads (chainRels s.x s.x.rels.rels) s.x.rels.path styleContent.type x.styles.path := by
      unfold chainRels
      split
      · exact k8.delete (by rw [pe7]; exact d78) (by rw [pe7]; exact noslash l7)
      · exact k8
    have h2 : Leads (finalRels s.x) s.x.rels.path styleContent.type x.styles.path := by
      unfold finalRels stringRels
      split
      · exact h1.delete (by rw [pe6]; exact d68) (by rw [pe6]; exact noslash l6)
      · exact h1
    exact h2.ne_nil
  obtain ⟨e4, v4, w4⟩ := saved_rels_doc hst hz hr ht hs hne
  obtain ⟨e1, v1, w1⟩ := saved_root_doc hst hz hr ht hs (by rw [hroot]; exact l1.ne_nil)
  rw [plain_map (fun r hr => (ho.rels r (finalRels_sub _ r hr)).1)] at w4
  rw [hroot, plain_map hp.root] at w1
  obtain ⟨q', hq1, hq2⟩ : ∃ q', s.x.saved env now = .ok q' ∧ q'.toZip env exts = .ok z' := by
    unfold Excel.toZip at hs
    split at hs
    · cases hs
    · next q' e => exact ⟨q', e, hs⟩
  have hz' : (akeys z').Nodup := by
    obtain ⟨_, _, _, _, _, _, _, _, A⟩ := (hb.live.run env ops hr.2).allHeld
    obtain ⟨_, _, _, _, _, _, _, _, _, _, S'⟩ := saved_all A hq1
    exact toZip_nodup S'.inv hq2
  obtain ⟨p', b1, b2, b3, b4, b5, b6, b7, b8, u1, u2, hp', B⟩ := openFile_book hz' hx'
  obtain ⟨y2, tt1, tt2⟩ := B.rootTargets
  have hn1 : "_rels/.rels" ∈ ownParts x := by simp [ownParts, hb.rootPath]
  have hn4 : x.rels.path ∈ ownParts x := by simp [ownParts]
  have hu1 : u1 = x.rootRels.rels := by
    have := B.rootLoad
    rw [(ready_of_zipDoc hp' (hct _ hn1) v1).source B.rootSource, w1] at this
    exact (Except.ok.inj this).symm
  subst hu1
  rw [l1.target] at tt1
  simp only [Prod.mk.injEq, Except.ok.injEq] at tt1
  obtain ⟨f2, rfl⟩ := tt1
  rw [l2.target] at tt2
  simp only [Prod.mk.injEq, Except.ok.injEq] at tt2
  obtain ⟨f3, f1⟩ := tt2
  have f4 : x'.rels.path = x.rels.path := by
    obtain ⟨dir, g1, g2⟩ := hb.relsPath
    obtain ⟨dir', g1', g2'⟩ := B.relsPath
    rw [← f3, g1] at g1'
    cases g1'
    rw [g2', g2]
  have hu2 : u2 = finalRels s.x := by
    have := B.relLoad
    have hsrc := B.relSource
    rw [f4] at hsrc
    rw [(ready_of_zipDoc hp' (hct _ hn4) v4).source hsrc, w4] at this
    exact (Except.ok.inj this).symm
  subst hu2
  exact ⟨p', b1, b2, b3, b4, b5, b6, b7, b8, _, hp', B, f4⟩

/-- Nothing reads a part whose document is well formed and empty. -/
theorem empty_part_dead (hst : env.build.release = true → StampOk env.stamp) {q p' : Pkg} (hq : q.toZip env exts = .ok z') {n : String} (hn : n ≠ contentTypesName)
    {o : OpenDoc} {d : XDoc} {t : String} {a : Option Attrs} (hs : aget n q.archive = some (o.entry env d)) (hw : WfDoc env.uni d (.mk t a none []))
    (hp' : Pkg.ofZip env z' = .ok p') {T : Template} {b : OpenDoc} (hsrc : Source env p' T n b) : False := by
  have hc : aget n z' = some (renderDoc env.build env.stamp d) := by rw [toZip_aget hq hn, hs]; rfl
  rcases source_zip hp' hn hsrc with ⟨h, _⟩ | ⟨c, dd, h1, h2, _⟩
  · rw [hc] at h; cases h
  · rw [hc] at h1
    cases h1
    rw [readXml_selfClosing env.build env.uni hst hw rfl] at h2
    cases h2

theorem only_popped {x : XDoc} {T t : String} {a : Option Attrs} {cs : List Node} (h : (x.popTag T).2.root = some (.mk t a none cs))
    (ho : ∀ n ∈ x.rootChildren, n.tag = T) : cs = [] := by
  unfold XDoc.popTag XDoc.mapRootChildren at h
  unfold XDoc.rootChildren at ho
  cases hr : x.root with
  | none => rw [hr] at h; cases h
  | some r =>
    obtain ⟨t', a', v', cs'⟩ := r
    rw [hr] at h ho
    simp only [Option.map_some, Node.withChildren, Option.some.injEq, Node.mk.injEq, Node.children] at h ho
    rw [← h.2.2.2]
    apply List.filter_eq_nil_iff.mpr
    intro n hn
    simp [ho n hn]

theorem dead_chain (hst : env.build.release = true → StampOk env.stamp) (hz : (akeys z).Nodup) (hr : RanOn env theme z ops x s) (ht : TidyParts env z x)
    (hp : PlainRels x) (hs : s.x.toZip env now exts = .ok z') (he : s.x.chain.data = [])
    (ho : ∀ d, zipDoc env z x.chain.path = some d → ∀ n ∈ d.rootChildren, n.tag = "c") (hpath : x.chain.path = partPath calcChainContent none none)
    (h1 : ∀ r ∈ x.rels.rels, r.type = calcChainContent.type → resolveTarget x.rels.path r.target = .ok x.chain.path) (theme' : XDoc) (x' : Excel) :
    Excel.openFile env theme' z' ≠ .ok x' := by
  intro hx'
  obtain ⟨p', b1, b2, b3, b4, b5, b6, b7, b8, u1, hp', B, f4⟩ := reopened_rels hst hz hr ht hp hs hx'
  obtain ⟨p, o1, o2, o3, o4, o5, o6, o7, o8, r1, r2, q, d1, d2, d3, d4, d6, d7, d8, keep, keep0, hpz, hb, hq, W, S, hown, hct⟩ := saved_base hz hr hs
  obtain ⟨pe1, pe2, pe3, pe4, pe5, pe6, pe7, pe8⟩ := own_paths hown
  have hn : x.chain.path ∈ ownParts x := by simp [ownParts]
  obtain ⟨y3, y4, y5, t5, t6, t7, t8⟩ := B.targets
  obtain ⟨m5, rfl, h5⟩ := targetByType_adds t5
  obtain ⟨m6, rfl, h6⟩ := targetByType_adds t6
  rw [List.append_assoc] at t7
  have hx : x'.chain.path = x.chain.path := by
    rcases target_or t7 (by
      intro r hr
      rcases List.mem_append.mp hr with hr | hr
      · rw [h5 r hr]; decide +kernel
      · rw [h6 r hr]; decide +kernel) with ⟨r, g1, g2, g3⟩ | h
    · rw [f4] at g3
      rcases run_relTypes (s := ⟨x, []⟩) hr.2 r (finalRels_sub _ r g1) with h | h
      · exact (Except.ok.inj ((h1 r h g2).symm.trans g3)).symm
      · rw [h] at g2; exact absurd g2 (by decide +kernel)
    · rw [h, hpath]
  have hw := (own_wf hpz (hct _ hn) hb.calcSource ⟨_, _, _, wf_calcTemplate env.uni⟩ (ht _ hn)).pop "c"
  obtain ⟨t, a, cs, hw, _⟩ := hw
  have hcs : cs = [] := by
    refine only_popped hw.isRoot ?_
    rcases source_zip hpz (hct _ hn) hb.calcSource with ⟨_, h2⟩ | ⟨c, d, g1, g2, g3⟩
    · rw [h2]; intro n hn; cases hn
    · rw [g3]; exact ho _ (zipDoc_eq g1 g2)
  subst hcs
  have W7 := W.chain
  rw [if_pos he] at W7
  have S7 := S.chain
  rw [W7, pe7] at S7
  exact empty_part_dead hst hq (hct _ hn) S7 hw hp' (hx ▸ B.calcSource)

theorem dead_strings (hst : env.build.release = true → StampOk env.stamp) (hz : (akeys z).Nodup) (hr : RanOn env theme z ops x s) (ht : TidyParts env z x)
    (hp : PlainRels x) (hs : s.x.toZip env now exts = .ok z') (he : s.x.strings.data = [])
    (ho : ∀ d, zipDoc env z x.strings.path = some d → ∀ n ∈ d.rootChildren, n.tag = "si") (hpath : x.strings.path = partPath sharedStringContent none none)
    (h1 : ∀ r ∈ x.rels.rels, r.type = sharedStringContent.type → resolveTarget x.rels.path r.target = .ok x.strings.path) (theme' : XDoc) (x' : Excel) :
    Excel.openFile env theme' z' ≠ .ok x' := by
  intro hx'
  obtain ⟨p', b1, b2, b3, b4, b5, b6, b7, b8, u1, hp', B, f4⟩ := reopened_rels hst hz hr ht hp hs hx'
  obtain ⟨p, o1, o2, o3, o4, o5, o6, o7, o8, r1, r2, q, d1, d2, d3, d4, d6, d7, d8, keep, keep0, hpz, hb, hq, W, S, hown, hct⟩ := saved_base hz hr hs
  obtain ⟨pe1, pe2, pe3, pe4, pe5, pe6, pe7, pe8⟩ := own_paths hown
  have hn : x.strings.path ∈ ownParts x := by simp [ownParts]
  obtain ⟨y3, y4, y5, t5, t6, t7, t8⟩ := B.targets
  obtain ⟨m5, rfl, h5⟩ := targetByType_adds t5
  have hx : x'.strings.path = x.strings.path := by
    rcases target_or t6 (by
      intro r hr
      rw [h5 r hr]; decide +kernel) with ⟨r, g1, g2, g3⟩ | h
    · rw [f4] at g3
      rcases run_relTypes (s := ⟨x, []⟩) hr.2 r (finalRels_sub _ r g1) with h | h
      · exact (Except.ok.inj ((h1 r h g2).symm.trans g3)).symm
      · rw [h] at g2; exact absurd g2 (by decide +kernel)
    · rw [h, hpath]
  have hw := (own_wf hpz (hct _ hn) hb.strSource ⟨_, _, _, wf_stringsTemplate env.uni⟩ (ht _ hn)).pop "si"
  obtain ⟨t, a, cs, hw, _⟩ := hw
  have hcs : cs = [] := by
    refine only_popped hw.isRoot ?_
    rcases source_zip hpz (hct _ hn) hb.strSource with ⟨_, h2⟩ | ⟨c, d, g1, g2, g3⟩
    · rw [h2]; intro n hn; cases hn
    · rw [g3]; exact ho _ (zipDoc_eq g1 g2)
  subst hcs
  have W6 := W.strings
  rw [if_pos he] at W6
  have S6 := S.strings
  rw [W6, pe6] at S6
  exact empty_part_dead hst hq (hct _ hn) S6 hw hp' (hx ▸ B.strSource)

end
end Oxml
