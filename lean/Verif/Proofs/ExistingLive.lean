import Verif.Proofs.ExistingRun
import Verif.Proofs.Sessions
/-!
# The parts the workbook and its handles hold open
-/
namespace Oxml
open Spec

/-- The part is open under that handle. -/
def Owns (p : Pkg) (e : String × Nat) : Prop := ∃ o, aget e.1 p.opened = some o ∧ o.handle = e.2

theorem Owns.isOpen {p : Pkg} {e : String × Nat} (h : Owns p e) : aget e.1 p.opened ≠ none := by
  obtain ⟨o, h, _⟩ := h; rw [h]; simp

theorem Owns.update {p : Pkg} {e : String × Nat} (h : Owns p e) (hd : Nat) (f : XDoc → XDoc) : Owns (p.update hd f) e := by
  obtain ⟨o, h1, h2⟩ := h
  have e' : aget e.1 (p.update hd f).opened = (aget e.1 p.opened).map (fun v => if v.handle = hd then { v with doc := f v.doc } else v) := by
    rw [← aget_map_val (fun (_ : String) (v : OpenDoc) => if v.handle = hd then { v with doc := f v.doc } else v)]
    unfold Pkg.update
    congr 1
    apply List.map_congr_left
    intro kv _
    simp only
    split <;> rfl
  rw [h1] at e'
  refine ⟨_, e', ?_⟩
  simp only
  split <;> exact h2

theorem Owns.close {p : Pkg} {e : String × Nat} (h : Owns p e) (env : Env) {n : String} (hn : e.1 ≠ n) : Owns (p.close env n) e := by
  obtain ⟨o, h1, h2⟩ := h
  exact ⟨o, (Pkg.close_ne (Ne.symm hn)).2.trans h1, h2⟩

theorem Owns.delete {p : Pkg} {e : String × Nat} (h : Owns p e) (n : String) : Owns (p.delete n) e := h

theorem Owns.openPart {p : Pkg} {e : String × Nat} (h : Owns p e) (env : Env) (t : Res Template) (n : String) : Owns (p.openPart env t n).2 e := by
  obtain ⟨o, h1, h2⟩ := h
  by_cases hn : n = e.1
  · subst hn; rw [openPart_busy h1]; exact ⟨o, h1, h2⟩
  · exact ⟨o, (Pkg.openPart_ne hn).2.trans h1, h2⟩

theorem Owns.relNew {p : Pkg} {e : String × Nat} (h : Owns p e) (env : Env) (n : String) : Owns (RelPart.new env p n).2 e := by
  have h1 := h.openPart env (.ok relsTemplate) n
  unfold RelPart.new
  split
  · next ho => rw [ho] at h1; exact h1
  · next hd p1 ho =>
    have h2 : Owns p1 e := by rw [ho] at h1; exact h1
    split
    · exact h2
    · split
      · next x' _ => exact h2.update hd (fun _ => x')
      · next x' _ => exact h2.update hd (fun _ => x')

theorem Owns.relClose {p : Pkg} {e : String × Nat} (h : Owns p e) (env : Env) {r : RelPart} (hn : e.1 ≠ r.path) : Owns (r.close env p).2 e := by
  unfold RelPart.close
  split
  · exact h
  · split
    · exact h
    · simp only
      split
      · exact (h.update _ _).close env hn
      · exact (h.update _ _).delete _

theorem Owns.closeSheet {p : Pkg} {e : String × Nat} (h : Owns p e) (env : Env) {g : SheetHandle} (hn : e.1 ≠ g.path) : Owns (closeSheet env p g).2 e := by
  unfold Oxml.closeSheet
  split
  · exact h.close env hn
  · split
    · exact h
    · exact (h.update _ _).close env hn

theorem Owns.dropSheet {p : Pkg} {e : String × Nat} (h : Owns p e) (env : Env) {g : SheetHandle} (h1 : e.1 ≠ g.path) (h2 : e.1 ≠ g.rels.path) :
    Owns (dropSheet env p g) e := (h.closeSheet env h1).relClose env h2

theorem openPart_owns {env : Env} {p p1 : Pkg} {t : Template} {n : String} {hd : Nat} (hp : p.Inv) (e : p.openPart env (.ok t) n = (.ok hd, p1)) :
    Owns p1 (n, hd) ∧ aget n p.opened = none := by
  obtain ⟨_, h1, _, ⟨o, h2, h3, _⟩, _⟩ := openPart_full hp e
  exact ⟨⟨o, h2, h3⟩, h1⟩

theorem relNew_owns {env : Env} {p p1 : Pkg} {n : String} {r : RelPart} (hp : p.Inv) (e : RelPart.new env p n = (.ok r, p1)) :
    Owns p1 (r.path, r.handle) ∧ aget r.path p.opened = none ∧ p1.Inv := by
  obtain ⟨i, h1, _, h2, ⟨o, _, _, h3, h4⟩, _⟩ := relNew_full hp e
  subst h2
  exact ⟨⟨_, h4, h3⟩, h1, i⟩

/-! ### The invariant of a package under each step -/

theorem Pkg.Inv.relNew {p : Pkg} (h : p.Inv) (env : Env) (n : String) : (RelPart.new env p n).2.Inv := by
  have h1 := h.openPart env (.ok relsTemplate) n
  unfold RelPart.new
  split
  · next ho => rw [ho] at h1; exact h1
  · next hd p1 ho =>
    have h2 : p1.Inv := by rw [ho] at h1; exact h1
    split
    · exact h2
    · split
      · next x' _ => exact h2.update hd (fun _ => x')
      · next x' _ => exact h2.update hd (fun _ => x')

theorem Pkg.Inv.relClose {p : Pkg} (h : p.Inv) (env : Env) (r : RelPart) : (r.close env p).2.Inv := by
  unfold RelPart.close
  split
  · exact h
  · split
    · exact h
    · simp only
      split
      · exact (h.update _ _).close env _
      · exact (h.update _ _).delete _

theorem Pkg.Inv.closeSheet {p : Pkg} (h : p.Inv) (env : Env) (g : SheetHandle) : (Oxml.closeSheet env p g).2.Inv := by
  unfold Oxml.closeSheet
  split
  · exact h.close env _
  · split
    · exact h
    · exact (h.update _ _).close env _

theorem Pkg.Inv.dropSheet {p : Pkg} (h : p.Inv) (env : Env) (g : SheetHandle) : (Oxml.dropSheet env p g).Inv := (h.closeSheet env g).relClose env _

/-! ## Sessions -/

/-- Parts and handles of the workbook. -/
def ownPairs (x : Excel) : List (String × Nat) :=
  [(x.rootRels.path, x.rootRels.handle), (x.core.path, x.core.handle), (x.book.path, x.book.handle), (x.rels.path, x.rels.handle),
   (x.theme.path, x.theme.handle), (x.strings.path, x.strings.handle), (x.chain.path, x.chain.handle), (x.styles.path, x.styles.handle)]

/-- Parts and handles of the open sheets. -/
def handlePairs (hs : List SheetHandle) : List (String × Nat) :=
  hs.flatMap (fun g => [(g.path, g.handle), (g.rels.path, g.rels.handle)])

theorem handlePairs_append (a b : List SheetHandle) : handlePairs (a ++ b) = handlePairs a ++ handlePairs b := by
  simp [handlePairs]

/-- What the workbook and the open sheets hold is open and held once. -/
structure LivePkg (p : Pkg) (own : List (String × Nat)) (hs : List SheetHandle) : Prop where
  inv : p.Inv
  owns : ∀ e ∈ own ++ handlePairs hs, Owns p e
  nodup : ((own ++ handlePairs hs).map Prod.fst).Nodup

theorem LivePkg.fresh {p : Pkg} {own : List (String × Nat)} {hs : List SheetHandle} (h : LivePkg p own hs) {n : String} (hn : aget n p.opened = none) :
    n ∉ (own ++ handlePairs hs).map Prod.fst := by
  intro hm
  obtain ⟨e, he, rfl⟩ := List.mem_map.mp hm
  exact (h.owns e he).isOpen hn

theorem LivePkg.mono {p p' : Pkg} {own : List (String × Nat)} {hs : List SheetHandle} (h : LivePkg p own hs) (hi : p'.Inv)
    (ho : ∀ e ∈ own ++ handlePairs hs, Owns p e → Owns p' e) : LivePkg p' own hs :=
  ⟨hi, fun e he => ho e he (h.owns e he), h.nodup⟩

/-- The handle is one of those of the list; the others. -/
theorem split_handles {hs : List SheetHandle} {i : Nat} {g : SheetHandle} (h : hs[i]? = some g) : ∃ a b, hs = a ++ g :: b ∧ hs.eraseIdx i = a ++ b := by
  induction hs generalizing i with
  | nil => simp at h
  | cons k ks ih =>
    cases i with
    | zero => simp at h; subst h; exact ⟨[], ks, rfl, rfl⟩
    | succ i =>
      simp at h
      obtain ⟨a, b, h1, h2⟩ := ih h
      exact ⟨k :: a, b, by rw [h1]; rfl, by simp [h2]⟩

theorem LivePkg.others {p : Pkg} {own : List (String × Nat)} {hs : List SheetHandle} (h : LivePkg p own hs) {i : Nat} {g : SheetHandle}
    (hg : hs[i]? = some g) : Owns p (g.path, g.handle) ∧ Owns p (g.rels.path, g.rels.handle) ∧ g.path ≠ g.rels.path ∧
    (∀ e ∈ own ++ handlePairs (hs.eraseIdx i), Owns p e ∧ e.1 ≠ g.path ∧ e.1 ≠ g.rels.path) ∧
    ((own ++ handlePairs (hs.eraseIdx i)).map Prod.fst).Nodup := by
  obtain ⟨a, b, h1, h2⟩ := split_handles hg
  have hd := h.nodup
  have ho := h.owns
  rw [h1] at hd ho
  rw [h2]
  have e0 : own ++ handlePairs (a ++ g :: b) = (own ++ handlePairs a) ++ (g.path, g.handle) :: (g.rels.path, g.rels.handle) :: handlePairs b := by
    simp [handlePairs]
  have e1 : own ++ handlePairs (a ++ b) = (own ++ handlePairs a) ++ handlePairs b := by simp [handlePairs]
  rw [e0] at hd ho
  rw [e1]
  generalize own ++ handlePairs a = l at *
  generalize handlePairs b = r at *
  simp only [List.map_append, List.map_cons, List.nodup_append, List.nodup_cons, List.mem_cons, List.mem_map, not_or] at hd ⊢
  obtain ⟨d1, ⟨⟨d2, d3⟩, d4, d5⟩, d6⟩ := hd
  refine ⟨ho _ (by simp), ho _ (by simp), d2, ?_, d1, d5, fun a ha b hb => d6 a ha b (Or.inr (Or.inr hb))⟩
  intro e he
  rcases List.mem_append.mp he with he | he
  · exact ⟨ho e (by simp [he]), d6 _ ⟨e, he, rfl⟩ _ (Or.inl rfl), d6 _ ⟨e, he, rfl⟩ _ (Or.inr (Or.inl rfl))⟩
  · exact ⟨ho e (by simp [he]), fun hh => d3 ⟨e, he, hh⟩, fun hh => d4 ⟨e, he, hh⟩⟩

theorem LivePkg.drop {p : Pkg} {own : List (String × Nat)} {hs : List SheetHandle} (h : LivePkg p own hs) (env : Env) {i : Nat} {g : SheetHandle}
    (hg : hs[i]? = some g) : LivePkg (dropSheet env p g) own (hs.eraseIdx i) := by
  obtain ⟨_, _, _, h1, h2⟩ := h.others hg
  exact ⟨h.inv.dropSheet env g, fun e he => (h1 e he).1.dropSheet env (h1 e he).2.1 (h1 e he).2.2, h2⟩

theorem LivePkg.deleteSheet {p : Pkg} {own : List (String × Nat)} {hs : List SheetHandle} (h : LivePkg p own hs) (env : Env) {i : Nat} {g : SheetHandle}
    (hg : hs[i]? = some g) : LivePkg (dropSheet env (closeSheet env (p.delete g.path) g).2 g) own (hs.eraseIdx i) := by
  obtain ⟨_, _, _, h1, h2⟩ := h.others hg
  refine ⟨((h.inv.delete _).closeSheet env g).dropSheet env g, fun e he => ?_, h2⟩
  exact (((h1 e he).1.delete _).closeSheet env (h1 e he).2.1).dropSheet env (h1 e he).2.1 (h1 e he).2.2

theorem LivePkg.openAt {x1 : Excel} {own : List (String × Nat)} {hs : List SheetHandle} (h : LivePkg x1.pkg own hs) (env : Env) (path nm : String) :
    match openAt env x1 path nm with
    | (.error _, x2) => LivePkg x2.pkg own hs
    | (.ok g, x2) => LivePkg x2.pkg own (hs ++ [g]) := by
  unfold Oxml.openAt
  have i1 := h.inv.openPart env (.ok worksheetTemplate) path
  have l1 : LivePkg (x1.pkg.openPart env (.ok worksheetTemplate) path).2 own hs := h.mono i1 (fun e _ he => he.openPart env _ _)
  cases ho1 : x1.pkg.openPart env (.ok worksheetTemplate) path with
  | mk r p2 =>
    rw [ho1] at l1
    cases r with
    | error e => exact l1
    | ok hd =>
      obtain ⟨w1, w2⟩ := openPart_owns h.inv ho1
      have f1 := h.fresh w2
      simp only
      cases hrp : sheetRelsPath path with
      | none => exact l1
      | some rp =>
        simp only
        have l2 : LivePkg (RelPart.new env p2 rp).2 own hs := l1.mono (l1.inv.relNew env rp) (fun e _ he => he.relNew env rp)
        cases ho2 : RelPart.new env p2 rp with
        | mk r p3 =>
          rw [ho2] at l2
          cases r with
          | error e => exact l2
          | ok rels =>
            obtain ⟨v1, v2, v3⟩ := relNew_owns l1.inv ho2
            have f2 := l1.fresh v2
            have w3 : Owns p3 (path, hd) := by have := w1.relNew env rp; rw [ho2] at this; exact this
            have hne : path ≠ rels.path := by
              rintro rfl
              exact w1.isOpen v2
            simp only
            cases hdoc : p3.docOf hd with
            | none =>
              exact l2.mono (l2.inv.relClose env rels) (fun e he hh => hh.relClose env (fun hp => f2 (List.mem_map.mpr ⟨e, he, hp⟩)))
            | some d =>
              simp only
              cases hl : Sheet.load env d with
              | mk r d' =>
                have l3 : LivePkg (p3.update hd (fun _ => d')) own hs := l2.mono (l2.inv.update _ _) (fun e _ hh => hh.update _ _)
                cases r with
                | error e =>
                  exact l3.mono (l3.inv.relClose env rels) (fun e he hh => hh.relClose env (fun hp => f2 (List.mem_map.mpr ⟨e, he, hp⟩)))
                | ok sh =>
                  refine ⟨l3.inv, ?_, ?_⟩
                  · intro e he
                    rw [handlePairs_append, ← List.append_assoc] at he
                    rcases List.mem_append.mp he with he | he
                    · exact l3.owns e he
                    · simp only [handlePairs, List.flatMap_cons, List.flatMap_nil, List.append_nil, List.mem_cons, List.not_mem_nil, or_false] at he
                      rcases he with rfl | rfl
                      · exact w3.update _ _
                      · exact v1.update _ _
                  · rw [handlePairs_append, ← List.append_assoc, List.map_append]
                    simp only [handlePairs, List.flatMap_cons, List.flatMap_nil, List.append_nil, List.map_cons, List.map_nil]
                    rw [List.nodup_append]
                    refine ⟨h.nodup, ?_, ?_⟩
                    · simp [hne]
                    · intro a ha b hb
                      simp only [List.mem_cons, List.not_mem_nil, or_false] at hb
                      rcases hb with rfl | rfl
                      · rintro rfl; exact f1 ha
                      · rintro rfl; exact f2 ha

/-- A session in which everything held is open. -/
def LiveSess (s : Session) : Prop := LivePkg s.x.pkg (ownPairs s.x) s.handles

theorem sheetFile_pairs {x : Excel} {name : Option String} : (x.sheetFile name).2.pkg = x.pkg ∧ ownPairs (x.sheetFile name).2 = ownPairs x := by
  unfold Excel.sheetFile
  split
  · split <;> exact ⟨rfl, rfl⟩
  · split
    · exact ⟨rfl, rfl⟩
    · exact ⟨rfl, rfl⟩

theorem openAt_pairs (env : Env) (x1 : Excel) (path nm : String) : ownPairs (openAt env x1 path nm).2 = ownPairs x1 := by
  unfold Oxml.openAt
  split
  · rfl
  · split
    · rfl
    · split
      · rfl
      · split
        · rfl
        · split <;> rfl

theorem LiveSess.open {s : Session} (h : LiveSess s) (env : Env) (name : Option String) : LiveSess (s.open env name).2 := by
  unfold Session.open
  rw [openSheet_eq]
  obtain ⟨f1, f2⟩ := sheetFile_pairs (x := s.x) (name := name)
  cases hf : s.x.sheetFile name with
  | mk r x1 =>
    rw [hf] at f1 f2
    simp only at f1 f2
    have h1 : LivePkg x1.pkg (ownPairs x1) s.handles := by rw [f1, f2]; exact h
    cases r with
    | error e => exact h1
    | ok pn =>
      obtain ⟨path, nm⟩ := pn
      have h2 := h1.openAt env path nm
      have h3 := openAt_pairs env x1 path nm
      simp only
      cases ha : openAt env x1 path nm with
      | mk r x2 =>
        rw [ha] at h2 h3
        simp only at h3
        rw [← h3] at h2
        cases r with
        | error e => exact h2
        | ok g => exact h2

theorem LiveSess.step {s : Session} (h : LiveSess s) (env : Env) (op : WbOp) : LiveSess (s.step env op).2 := by
  cases op with
  | add name => exact h.open env name
  | get name => exact h.open env (some name)
  | sheet i op =>
    unfold Session.step
    simp only
    split
    · exact h
    · next g hg =>
      split
      · exact h
      · next d table _ =>
        have e : handlePairs (s.handles.set i { g with data := d }) = handlePairs s.handles := by
          obtain ⟨a, b, h1, h2⟩ : ∃ a b, s.handles = a ++ g :: b ∧ s.handles.set i { g with data := d } = a ++ { g with data := d } :: b := by
            have : ∀ (hs : List SheetHandle) (i : Nat), hs[i]? = some g → ∃ a b, hs = a ++ g :: b ∧ hs.set i { g with data := d } = a ++ { g with data := d } :: b := by
              intro hs
              induction hs with
              | nil => intro i hi; simp at hi
              | cons k ks ih =>
                intro i hi
                cases i with
                | zero => simp at hi; subst hi; exact ⟨[], ks, rfl, rfl⟩
                | succ i =>
                  simp at hi
                  obtain ⟨a, b, h1, h2⟩ := ih i hi
                  exact ⟨k :: a, b, by rw [h1]; rfl, by simp [h2]⟩
            exact this _ _ hg
          rw [h2, h1]
          simp [handlePairs]
        exact ⟨h.inv, by intro e' he'; rw [e] at he'; exact h.owns e' he', by rw [e]; exact h.nodup⟩
  | drop i =>
    unfold Session.step
    simp only
    split
    · exact h
    · next g hg => exact LivePkg.drop h env hg
  | delete i =>
    unfold Session.step
    simp only
    split
    · exact h
    · next g hg => exact LivePkg.deleteSheet h env hg
  | rename old new =>
    unfold Session.step
    simp only
    split <;> exact h
  | active name => exact h
  | hide name => exact h
  | view op => exact h
  | style hs st =>
    unfold Session.step
    simp only
    split <;> exact h

theorem LiveSess.run (env : Env) (ops : List WbOp) {s s' : Session} (h : LiveSess s) (hr : s.run env ops = .ok s') : LiveSess s' := by
  induction ops generalizing s with
  | nil => cases hr; exact h
  | cons op ops ih =>
    have h1 := h.step env op
    unfold Session.run at hr
    split at hr
    · cases hr
    · next r s1 _ e => rw [e] at h1; exact ih h1 hr

/-- What is held right after opening. -/
theorem BookOpen.live {env : Env} {theme : XDoc} {p : Pkg} {x : Excel} {o1 o2 o3 o4 o5 o6 o7 o8 : OpenDoc} {r1 r2 : List Rel}
    (h : BookOpen env theme p x o1 o2 o3 o4 o5 o6 o7 o8 r1 r2) : LiveSess ⟨x, []⟩ := by
  refine ⟨h.inv, ?_, ?_⟩
  · intro e he
    simp only [ownPairs, handlePairs, List.flatMap_nil, List.append_nil, List.mem_cons, List.not_mem_nil, or_false] at he
    rcases he with rfl | rfl | rfl | rfl | rfl | rfl | rfl | rfl
    · have h1 := h.rootOpen
      rw [← h.rootPath] at h1
      exact ⟨_, h1, h.rootHandle⟩
    · exact ⟨_, h.coreOpen, h.coreHandle⟩
    · exact ⟨_, h.bookOpen, h.bookHandle⟩
    · exact ⟨_, h.relOpen, h.relHandle⟩
    · exact ⟨_, h.themeOpen, h.themeHandle⟩
    · exact ⟨_, h.strOpen, h.strHandle⟩
    · exact ⟨_, h.calcOpen, h.calcHandle⟩
    · exact ⟨_, h.styleOpen, h.styleHandle⟩
  · have := h.nodup
    simpa [ownPairs, ownParts, handlePairs] using this

end Oxml
