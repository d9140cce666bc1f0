import Verif.Proofs.ExistingLive
import Verif.Proofs.OrderRun
/-!
# What dropping a sheet does to each part
-/
namespace Oxml
open Spec

variable {env : Env}

/-- The closed part an open one becomes. -/
def closedEntry (env : Env) (o : OpenDoc) (d : XDoc) : Entry :=
  { ext := o.ext, extType := o.extType, ctype := o.ctype, content := renderDoc env.build env.stamp d }

/-- The sheet's own part after its handle is dropped. -/
def sheetAfter (env : Env) (g : SheetHandle) (o : Option OpenDoc) (e : Option Entry) : Option OpenDoc × Option Entry :=
  match o with
  | none => (none, e)
  | some o =>
    match g.data.save o.doc with
    | .error _ => (some o, e)
    | .ok d => (none, some (closedEntry env o d))

/-- Its relationship part. -/
def relsAfter (env : Env) (r : RelPart) (o : Option OpenDoc) (e : Option Entry) : Option OpenDoc × Option Entry :=
  match o with
  | none => (none, e)
  | some o =>
    match saveRels o.doc r.rels with
    | .error _ => (some o, e)
    | .ok (x, true) => (none, some (closedEntry env o x))
    | .ok (x, false) => (some { o with doc := x }, none)

/-- Any part. -/
def dropAfter (env : Env) (g : SheetHandle) (n : String) (o : Option OpenDoc) (e : Option Entry) : Option OpenDoc × Option Entry :=
  if n = g.path then sheetAfter env g o e else if n = g.rels.path then relsAfter env g.rels o e else (o, e)

theorem pair_fst {A B : Type} {a : A} {b : B} {q : A × B} (h : (a, b) = q) : a = q.1 := congrArg Prod.fst h

theorem pair_snd {A B : Type} {a : A} {b : B} {q : A × B} (h : (a, b) = q) : b = q.2 := congrArg Prod.snd h

theorem dropAfter_other {g : SheetHandle} {n : String} (h1 : n ≠ g.path) (h2 : n ≠ g.rels.path) (o : Option OpenDoc) (e : Option Entry) :
    dropAfter env g n o e = (o, e) := by
  unfold dropAfter; rw [if_neg h1, if_neg h2]

/-- Writing to other parts. -/
theorem update_other {p : Pkg} (hp : p.Inv) {m n : String} {o : OpenDoc} (ho : aget m p.opened = some o) (hn : n ≠ m) (f : XDoc → XDoc) :
    aget n (p.update o.handle f).opened = aget n p.opened := by
  rw [aget_updated]
  cases h : aget n p.opened with
  | none => rfl
  | some q =>
    have hne : q.handle ≠ o.handle := by
      intro e
      exact hn (hp.handle_name h ho e)
    simp [hne]

theorem update_self {p : Pkg} {m : String} {o : OpenDoc} (ho : aget m p.opened = some o) (x : XDoc) :
    aget m (p.update o.handle (fun _ => x)).opened = some { o with doc := x } := by
  rw [aget_updated, ho]; simp

theorem finish_get {p : Pkg} (hp : p.Inv) {m : String} {o : OpenDoc} (ho : aget m p.opened = some o) (x : XDoc) (n : String) :
    aget n ((p.update o.handle (fun _ => x)).close env m).opened = (if n = m then none else aget n p.opened) ∧
    aget n ((p.update o.handle (fun _ => x)).close env m).archive = (if n = m then some (closedEntry env o x) else aget n p.archive) := by
  by_cases hn : n = m
  · subst hn
    unfold Pkg.close
    rw [update_self ho x]
    simp [closedEntry]
  · obtain ⟨h1, h2⟩ := Pkg.close_ne (p := p.update o.handle (fun _ => x)) (env := env) (Ne.symm hn)
    rw [h1, h2, update_other hp ho hn, if_neg hn, if_neg hn]
    exact ⟨rfl, rfl⟩

theorem closeSheet_get {p : Pkg} (hp : p.Inv) {g : SheetHandle} (hg : Owns p (g.path, g.handle)) (n : String) :
    (aget n (closeSheet env p g).2.opened, aget n (closeSheet env p g).2.archive) =
      if n = g.path then sheetAfter env g (aget n p.opened) (aget n p.archive) else (aget n p.opened, aget n p.archive) := by
  obtain ⟨o, ho, hh⟩ := hg
  simp only at ho hh
  have hd := hp.docOf ho
  unfold closeSheet
  rw [← hh, hd]
  simp only
  cases hs : g.data.save o.doc with
  | error e =>
    simp only
    split
    · next hn => subst hn; simp only [sheetAfter, ho, hs]
    · rfl
  | ok d =>
    simp only
    obtain ⟨h1, h2⟩ := finish_get (env := env) hp ho d n
    rw [h1, h2]
    split
    · next hn => subst hn; simp only [sheetAfter, ho, hs]
    · rfl

theorem relClose_get {p : Pkg} (hp : p.Inv) {r : RelPart} (hr : Owns p (r.path, r.handle)) (n : String) :
    (aget n (r.close env p).2.opened, aget n (r.close env p).2.archive) =
      if n = r.path then relsAfter env r (aget n p.opened) (aget n p.archive) else (aget n p.opened, aget n p.archive) := by
  obtain ⟨o, ho, hh⟩ := hr
  simp only at ho hh
  have hd := hp.docOf ho
  unfold RelPart.close
  rw [← hh, hd]
  simp only
  cases hs : saveRels o.doc r.rels with
  | error e =>
    simp only
    split
    · next hn => subst hn; simp only [relsAfter, ho, hs]
    · rfl
  | ok xk =>
    obtain ⟨x, keep⟩ := xk
    cases keep with
    | true =>
      simp only [if_true]
      obtain ⟨h1, h2⟩ := finish_get (env := env) hp ho x n
      rw [h1, h2]
      split
      · next hn => subst hn; simp only [relsAfter, ho, hs]
      · rfl
    | false =>
      simp only [Bool.false_eq_true, if_false]
      by_cases hn : n = r.path
      · subst hn
        rw [if_pos rfl]
        simp only [Pkg.delete, update_self ho, relsAfter, ho, hs]
        rw [show (p.update o.handle fun _ => x).archive = p.archive from rfl, aget_aerase_self]
      · rw [if_neg hn]
        simp only [Pkg.delete]
        rw [update_other hp ho hn, show (p.update o.handle fun _ => x).archive = p.archive from rfl, aget_aerase_ne (Ne.symm hn)]

theorem dropSheet_get {p : Pkg} (hp : p.Inv) {g : SheetHandle} (hg : Owns p (g.path, g.handle)) (hr : Owns p (g.rels.path, g.rels.handle))
    (hne : g.path ≠ g.rels.path) (n : String) : (aget n (dropSheet env p g).opened, aget n (dropSheet env p g).archive) =
      dropAfter env g n (aget n p.opened) (aget n p.archive) := by
  unfold dropSheet dropAfter
  rw [relClose_get (hp.closeSheet env g) (hr.closeSheet env (Ne.symm hne))]
  have h := closeSheet_get (env := env) hp hg n
  by_cases h1 : n = g.path
  · rw [if_pos h1] at h ⊢
    rw [if_neg (by rw [h1]; exact hne)]
    exact h
  · rw [if_neg h1] at h ⊢
    rw [pair_fst h, pair_snd h]

/-- The same parts, open and closed. -/
structure EqPkg (p q : Pkg) : Prop where
  parts : ∀ n, (aget n p.opened, aget n p.archive) = (aget n q.opened, aget n q.archive)
  next : p.nextHandle = q.nextHandle

theorem EqPkg.trans {p q r : Pkg} (h : EqPkg p q) (h' : EqPkg q r) : EqPkg p r := ⟨fun n => (h.parts n).trans (h'.parts n), h.next.trans h'.next⟩

theorem dropSheet_nextHandle (p : Pkg) (g : SheetHandle) : (dropSheet env p g).nextHandle = p.nextHandle := by
  have h1 : ∀ q : Pkg, (closeSheet env q g).2.nextHandle = q.nextHandle := by
    intro q
    unfold closeSheet
    split
    · exact Pkg.close_nextHandle _ _ _
    · split
      · rfl
      · exact Pkg.close_nextHandle _ _ _
  have h2 : ∀ (q : Pkg) (r : RelPart), (r.close env q).2.nextHandle = q.nextHandle := by
    intro q r
    unfold RelPart.close
    split
    · rfl
    · split
      · rfl
      · simp only
        split
        · exact Pkg.close_nextHandle _ _ _
        · rfl
  exact (h2 _ _).trans (h1 _)

/-- Two live packages with the same parts have the same parts after dropping. -/
theorem EqPkg.drop {p q : Pkg} {own : List (String × Nat)} {g : SheetHandle} {l : List SheetHandle} (h : EqPkg p q) (hp : LivePkg p own (g :: l))
    (hq : LivePkg q own (g :: l)) : EqPkg (dropSheet env p g) (dropSheet env q g) := by
  obtain ⟨p1, p2, p3, _⟩ := hp.others (i := 0) (g := g) rfl
  obtain ⟨q1, q2, _, _⟩ := hq.others (i := 0) (g := g) rfl
  refine ⟨fun n => ?_, by rw [dropSheet_nextHandle, dropSheet_nextHandle, h.next]⟩
  rw [dropSheet_get hp.inv p1 p2 p3, dropSheet_get hq.inv q1 q2 p3, pair_fst (h.parts n), pair_snd (h.parts n)]

theorem EqPkg.drops {own : List (String × Nat)} {l : List SheetHandle} : ∀ {p q : Pkg}, EqPkg p q → LivePkg p own l → LivePkg q own l →
    EqPkg (l.foldl (dropSheet env) p) (l.foldl (dropSheet env) q) := by
  induction l with
  | nil => intro p q h _ _; exact h
  | cons g l ih =>
    intro p q h hp hq
    exact ih (h.drop hp hq) (hp.drop env (i := 0) (g := g) rfl) (hq.drop env (i := 0) (g := g) rfl)

theorem handlePairs_perm {l k : List SheetHandle} (h : l.Perm k) : (handlePairs l).Perm (handlePairs k) := h.flatMap_right _

theorem LivePkg.perm {p : Pkg} {own : List (String × Nat)} {l k : List SheetHandle} (h : LivePkg p own l) (hp : l.Perm k) : LivePkg p own k := by
  have hh := (handlePairs_perm hp).append_left own
  exact ⟨h.inv, fun e he => h.owns e (hh.mem_iff.mpr he), ((hh.map Prod.fst).nodup_iff).mp h.nodup⟩

/-- Two sheets in either order. -/
theorem drop_swap {p : Pkg} {own : List (String × Nat)} {a b : SheetHandle} {l : List SheetHandle} (h : LivePkg p own (a :: b :: l)) :
    EqPkg (dropSheet env (dropSheet env p a) b) (dropSheet env (dropSheet env p b) a) := by
  have h' : LivePkg p own (b :: a :: l) := h.perm (List.Perm.swap _ _ _)
  obtain ⟨a1, a2, a3, a4, _⟩ := h.others (i := 0) (g := a) rfl
  obtain ⟨b1, b2, b3, _⟩ := h'.others (i := 0) (g := b) rfl
  have hA := h.drop env (i := 0) (g := a) rfl
  have hB := h'.drop env (i := 0) (g := b) rfl
  obtain ⟨c1, c2, _⟩ := hA.others (i := 0) (g := b) rfl
  obtain ⟨d1, d2, _⟩ := hB.others (i := 0) (g := a) rfl
  have e1 := a4 (b.path, b.handle) (by simp [handlePairs])
  have e2 := a4 (b.rels.path, b.rels.handle) (by simp [handlePairs])
  refine ⟨fun n => ?_, by simp only [dropSheet_nextHandle]⟩
  have f1 := dropSheet_get (env := env) h.inv a1 a2 a3 n
  have f2 := dropSheet_get (env := env) h.inv b1 b2 b3 n
  rw [dropSheet_get hA.inv c1 c2 b3, dropSheet_get hB.inv d1 d2 a3, pair_fst f1, pair_snd f1, pair_fst f2, pair_snd f2]
  have n1 : b.path ≠ a.path := e1.2.1
  have n2 : b.path ≠ a.rels.path := e1.2.2
  have n3 : b.rels.path ≠ a.path := e2.2.1
  have n4 : b.rels.path ≠ a.rels.path := e2.2.2
  by_cases k1 : n = a.path ∨ n = a.rels.path
  · have hb : ∀ o e, dropAfter env b n o e = (o, e) := by
      intro o e
      refine dropAfter_other ?_ ?_ o e
      · rcases k1 with k | k <;> rw [k]
        · exact n1.symm
        · exact n2.symm
      · rcases k1 with k | k <;> rw [k]
        · exact n3.symm
        · exact n4.symm
    rw [hb, hb]
  · have ha : ∀ o e, dropAfter env a n o e = (o, e) := dropAfter_other (fun k => k1 (.inl k)) (fun k => k1 (.inr k))
    rw [ha, ha]

/-- Any order. -/
theorem drops_perm {own : List (String × Nat)} {l k : List SheetHandle} (hlk : l.Perm k) : ∀ {p : Pkg}, LivePkg p own l →
    EqPkg (l.foldl (dropSheet env) p) (k.foldl (dropSheet env) p) := by
  induction hlk with
  | nil => intro p _; exact ⟨fun _ => rfl, rfl⟩
  | cons g _ ih => intro p h; exact ih (h.drop env (i := 0) (g := g) rfl)
  | swap a b l =>
    intro p h
    have h' : LivePkg p own (a :: b :: l) := h.perm (List.Perm.swap _ _ _)
    exact (drop_swap h).drops ((h.drop env (i := 0) (g := b) rfl).drop env (i := 0) (g := a) rfl)
      ((h'.drop env (i := 0) (g := a) rfl).drop env (i := 0) (g := b) rfl)
  | trans h1 _ ih1 ih2 => intro p h; exact (ih1 h).trans (ih2 (h.perm h1))

end Oxml
