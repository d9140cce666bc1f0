import Verif.Proofs.ExistingKept
/-!
# The documents of the workbook's own parts stay as they were opened until the workbook is saved
-/
namespace Oxml
open Spec

/-- The part is open and holds that document. -/
def Still (n : String) (o : OpenDoc) (p : Pkg) : Prop := aget n p.opened = some o

theorem Still.update {n : String} {o : OpenDoc} {p : Pkg} {hd : Nat} (h : Still n o p) (hne : o.handle ≠ hd) (f : XDoc → XDoc) : Still n o (p.update hd f) :=
  aget_update_other h hne f

theorem Still.handle_ne {n m : String} {o : OpenDoc} {p : Pkg} {hd : Nat} (h : Still n o p) (hp : p.Inv) (ho : Owns p (m, hd)) (hne : m ≠ n) : o.handle ≠ hd := by
  obtain ⟨o', h1, h2⟩ := ho
  intro e
  exact hne (hp.handle_name h1 h (h2.trans e.symm))

theorem Still.close {n m : String} {o : OpenDoc} {p : Pkg} (h : Still n o p) (env : Env) (hne : m ≠ n) : Still n o (p.close env m) :=
  (Pkg.close_ne hne).2.trans h

theorem Still.openPart {n : String} {o : OpenDoc} {p : Pkg} (h : Still n o p) (env : Env) (t : Res Template) (m : String) : Still n o (p.openPart env t m).2 := by
  by_cases hm : m = n
  · subst hm; rw [openPart_busy h]; exact h
  · exact (Pkg.openPart_ne hm).2.trans h

theorem Still.relNew {n : String} {o : OpenDoc} {p : Pkg} (h : Still n o p) (hp : p.Inv) (env : Env) (m : String) : Still n o (RelPart.new env p m).2 := by
  have h1 := h.openPart env (.ok relsTemplate) m
  have hi := hp.openPart env (.ok relsTemplate) m
  unfold RelPart.new
  split
  · next ho => rw [ho] at h1; exact h1
  · next hd p1 ho =>
    rw [ho] at h1 hi
    obtain ⟨w1, w2⟩ := openPart_owns hp ho
    have hne : m ≠ n := by
      rintro rfl
      rw [Still] at h
      rw [h] at w2; cases w2
    have hh : o.handle ≠ hd := h1.handle_ne hi w1 hne
    split
    · exact h1
    · split
      · exact h1.update hh _
      · exact h1.update hh _

theorem Still.delete {n : String} {o : OpenDoc} {p : Pkg} (h : Still n o p) (m : String) : Still n o (p.delete m) := h

theorem Still.relClose {n : String} {o : OpenDoc} {p : Pkg} (h : Still n o p) (env : Env) {r : RelPart} (hh : o.handle ≠ r.handle)
    (hne : r.path ≠ n) : Still n o (r.close env p).2 := by
  unfold RelPart.close
  split
  · exact h
  · split
    · exact h
    · simp only
      split
      · exact (h.update hh _).close env hne
      · exact (h.update hh _).delete _

theorem Still.closeSheet {n : String} {o : OpenDoc} {p : Pkg} (h : Still n o p) (env : Env) {g : SheetHandle} (hne : g.path ≠ n)
    (hh : o.handle ≠ g.handle) : Still n o (closeSheet env p g).2 := by
  unfold Oxml.closeSheet
  split
  · exact h.close env hne
  · split
    · exact h
    · exact (h.update hh _).close env hne

theorem Still.dropSheet {n : String} {o : OpenDoc} {p : Pkg} (h : Still n o p) (env : Env) {g : SheetHandle} (h1 : g.path ≠ n)
    (h2 : o.handle ≠ g.handle) (h3 : g.rels.path ≠ n) (h4 : o.handle ≠ g.rels.handle) : Still n o (dropSheet env p g) :=
  (h.closeSheet env h1 h2).relClose env h4 h3

theorem Still.openAt {n : String} {o : OpenDoc} {x1 : Excel} (h : Still n o x1.pkg) (hi : x1.pkg.Inv) (env : Env) (path nm : String) :
    Still n o (openAt env x1 path nm).2.pkg := by
  unfold Oxml.openAt
  have h1 := h.openPart env (.ok worksheetTemplate) path
  have i1 := hi.openPart env (.ok worksheetTemplate) path
  cases ho1 : x1.pkg.openPart env (.ok worksheetTemplate) path with
  | mk r p2 =>
    rw [ho1] at h1 i1
    cases r with
    | error e => exact h1
    | ok hd =>
      obtain ⟨w1, w2⟩ := openPart_owns hi ho1
      have hne : path ≠ n := by
        rintro rfl
        rw [Still] at h
        rw [h] at w2; cases w2
      have hh : o.handle ≠ hd := h1.handle_ne i1 w1 hne
      simp only
      cases hrp : sheetRelsPath path with
      | none => exact h1
      | some rp =>
        simp only
        have h2 := h1.relNew i1 env rp
        cases ho2 : RelPart.new env p2 rp with
        | mk r p3 =>
          rw [ho2] at h2
          cases r with
          | error e => exact h2
          | ok rels =>
            obtain ⟨v1, v2, v3⟩ := relNew_owns i1 ho2
            have hne2 : rels.path ≠ n := by
              intro e
              rw [e, show aget n p2.opened = some o from h1] at v2; cases v2
            have hh2 : o.handle ≠ rels.handle := Still.handle_ne h2 v3 v1 hne2
            simp only
            cases hdoc : p3.docOf hd with
            | none => exact Still.relClose h2 env hh2 hne2
            | some d =>
              simp only
              cases hl : Sheet.load env d with
              | mk r d' =>
                have h3 : Still n o (p3.update hd (fun _ => d')) := Still.update h2 hh _
                cases r with
                | error e => exact h3.relClose env hh2 hne2
                | ok sh => exact h3

/-- A part of the workbook itself. -/
theorem own_pair {x : Excel} {n : String} (h : n ∈ ownParts x) : ∃ k, (n, k) ∈ ownPairs x := by
  have h' : n ∈ (ownPairs x).map Prod.fst := h
  obtain ⟨⟨a, k⟩, h1, rfl⟩ := List.mem_map.mp h'
  exact ⟨k, h1⟩

theorem Still.step {n : String} {o : OpenDoc} {s : Session} (h : Still n o s.x.pkg) (hl : LiveSess s) (hn : n ∈ ownParts s.x) (env : Env) (op : WbOp) :
    Still n o (s.step env op).2.x.pkg := by
  have hopen : ∀ name, Still n o (s.open env name).2.x.pkg := by
    intro name
    unfold Session.open
    rw [openSheet_eq]
    have f1 := (sheetFile_pairs (x := s.x) (name := name)).1
    cases hf : s.x.sheetFile name with
    | mk r x1 =>
      rw [hf] at f1
      simp only at f1
      have h1 : Still n o x1.pkg := by rw [f1]; exact h
      cases r with
      | error e => exact h1
      | ok pn =>
        obtain ⟨path, nm⟩ := pn
        have h2 := h1.openAt (by rw [f1]; exact hl.inv) env path nm
        simp only
        cases ha : Oxml.openAt env x1 path nm with
        | mk r x2 =>
          rw [ha] at h2
          cases r with
          | error e => exact h2
          | ok g => exact h2
  have hside : ∀ {i : Nat} {g : SheetHandle}, s.handles[i]? = some g → g.path ≠ n ∧ o.handle ≠ g.handle ∧ g.rels.path ≠ n ∧ o.handle ≠ g.rels.handle := by
    intro i g hg
    obtain ⟨k, hk⟩ := own_pair hn
    obtain ⟨h1, h2, _, h4, _⟩ := LivePkg.others hl hg
    obtain ⟨_, h5, h6⟩ := h4 (n, k) (List.mem_append_left _ hk)
    exact ⟨Ne.symm h5, h.handle_ne hl.inv h1 (Ne.symm h5), Ne.symm h6, h.handle_ne hl.inv h2 (Ne.symm h6)⟩
  cases op with
  | add name => exact hopen name
  | get name => exact hopen (some name)
  | sheet i op =>
    unfold Session.step
    simp only
    split
    · exact h
    · split <;> exact h
  | drop i =>
    unfold Session.step
    simp only
    split
    · exact h
    · next g hg =>
      obtain ⟨a, b, c, d⟩ := hside hg
      exact h.dropSheet env a b c d
  | delete i =>
    unfold Session.step
    simp only
    split
    · exact h
    · next g hg =>
      obtain ⟨a, b, c, d⟩ := hside hg
      have h1 : Still n o (s.x.pkg.delete g.path) := h
      exact (h1.closeSheet env a b).dropSheet env a b c d
  | rename old new =>
    unfold Session.step
    simp only
    split <;> exact h
  | active name => exact h
  | hide name => exact h
  | view op => exact h
  | style hs st =>
    unfold Session.step
    simp only
    split <;> exact h

theorem step_ownPairs (env : Env) (s : Session) (op : WbOp) : ownPairs (s.step env op).2.x = ownPairs s.x := by
  have hopen : ∀ name, ownPairs (s.open env name).2.x = ownPairs s.x := by
    intro name
    unfold Session.open
    rw [openSheet_eq]
    have f2 := (sheetFile_pairs (x := s.x) (name := name)).2
    cases hf : s.x.sheetFile name with
    | mk r x1 =>
      rw [hf] at f2
      cases r with
      | error e => exact f2
      | ok pn =>
        obtain ⟨path, nm⟩ := pn
        have h3 := openAt_pairs env x1 path nm
        simp only
        cases ha : Oxml.openAt env x1 path nm with
        | mk r x2 =>
          rw [ha] at h3
          cases r with
          | error e => exact h3.trans f2
          | ok g => exact h3.trans f2
  cases op with
  | add name => exact hopen name
  | get name => exact hopen (some name)
  | sheet i op =>
    unfold Session.step
    simp only
    split
    · rfl
    · split <;> rfl
  | drop i =>
    unfold Session.step
    simp only
    split <;> rfl
  | delete i =>
    unfold Session.step
    simp only
    split <;> rfl
  | rename old new =>
    unfold Session.step
    simp only
    split <;> rfl
  | active name => rfl
  | hide name => rfl
  | view op => rfl
  | style hs st =>
    unfold Session.step
    simp only
    split <;> rfl

theorem ownParts_pairs (x : Excel) : ownParts x = (ownPairs x).map Prod.fst := rfl

/-- Nothing but saving touches the documents of the workbook's own parts. -/
theorem own_run {env : Env} {ops : List WbOp} {s s' : Session} (hl : LiveSess s) (hr : s.run env ops = .ok s') : ownPairs s'.x = ownPairs s.x ∧
    ∀ n ∈ ownParts s.x, ∀ o, Still n o s.x.pkg → Still n o s'.x.pkg := by
  induction ops generalizing s with
  | nil => cases hr; exact ⟨rfl, fun _ _ _ h => h⟩
  | cons op ops ih =>
    have h1 := hl.step env op
    have h2 := step_ownPairs env s op
    have h3 := fun n hn o (h : Still n o s.x.pkg) => h.step hl hn env op
    unfold Session.run at hr
    split at hr
    · cases hr
    · next r s1 _ e =>
      rw [e] at h1 h2 h3
      obtain ⟨a, b⟩ := ih h1 hr
      refine ⟨a.trans h2, ?_⟩
      intro n hn o h
      exact b n (by rw [ownParts_pairs, h2, ← ownParts_pairs]; exact hn) o (h3 n hn o h)

/-- The documents saved are those that were opened. -/
theorem opened_docs {env : Env} {theme : XDoc} {p : Pkg} {x : Excel} {o1 o2 o3 o4 o5 o6 o7 o8 : OpenDoc} {r1 r2 : List Rel}
    (h : BookOpen env theme p x o1 o2 o3 o4 o5 o6 o7 o8 r1 r2) {ops : List WbOp} {s : Session} (hr : Session.run env ⟨x, []⟩ ops = .ok s) :
    ownPairs s.x = ownPairs x ∧
    AllHeld s.x s.x.pkg { o1 with doc := (loadRels o1.doc).2 } o2 { o3 with doc := (loadBook o3.doc).2 } { o4 with doc := (loadRels o4.doc).2 } o5
      { o6 with doc := (loadStrings o6.doc).2 } { o7 with doc := (loadCalc o7.doc).2 } { o8 with doc := (Styles.load o8.doc).2 } := by
  obtain ⟨h1, h2⟩ := own_run h.live hr
  refine ⟨h1, ?_⟩
  obtain ⟨p1, p2, p3, p4, p5, p6, p7, p8, A⟩ := (h.live.run env ops hr).allHeld
  have key : ∀ {n o o'}, n ∈ ownParts x → aget n x.pkg.opened = some o → StaysOpen n o' s.x.pkg → o' = o := by
    intro n o o' hn ho hs
    have := h2 n hn o ho
    rw [Still, hs.opened] at this
    exact Option.some.inj this
  have hp : ownParts s.x = ownParts x := by rw [ownParts_pairs, h1, ← ownParts_pairs]
  simp only [ownParts, List.cons.injEq, and_true] at hp
  obtain ⟨q1, q2, q3, q4, q5, q6, q7, q8⟩ := hp
  have c1 := key (n := s.x.rootRels.path) (by rw [q1]; simp [ownParts]) (by rw [q1, h.rootPath]; exact h.rootOpen) A.root
  have c2 := key (n := s.x.core.path) (by rw [q2]; simp [ownParts]) (by rw [q2]; exact h.coreOpen) A.core
  have c3 := key (n := s.x.book.path) (by rw [q3]; simp [ownParts]) (by rw [q3]; exact h.bookOpen) A.book
  have c4 := key (n := s.x.rels.path) (by rw [q4]; simp [ownParts]) (by rw [q4]; exact h.relOpen) A.rels
  have c5 := key (n := s.x.theme.path) (by rw [q5]; simp [ownParts]) (by rw [q5]; exact h.themeOpen) A.theme
  have c6 := key (n := s.x.strings.path) (by rw [q6]; simp [ownParts]) (by rw [q6]; exact h.strOpen) A.strings
  have c7 := key (n := s.x.chain.path) (by rw [q7]; simp [ownParts]) (by rw [q7]; exact h.calcOpen) A.chain
  have c8 := key (n := s.x.styles.path) (by rw [q8]; simp [ownParts]) (by rw [q8]; exact h.styleOpen) A.styles
  rw [← c1, ← c2, ← c3, ← c4, ← c5, ← c6, ← c7, ← c8]
  exact A

end Oxml
