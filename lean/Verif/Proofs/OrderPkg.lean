import Verif.Proofs.OrderDocs
/-!
# Package operations on the same package
-/
namespace Oxml
open Spec

theorem Spec.SameKeyed.cases {V : Type} {R : V → V → Prop} {m n : List (String × V)} (h : SameKeyed R m n) (k : String) :
    (aget k m = none ∧ aget k n = none) ∨ ∃ a b, aget k m = some a ∧ aget k n = some b ∧ R a b := by
  have := h.get k
  generalize aget k m = a at this
  generalize aget k n = b at this
  cases this with
  | none => exact Or.inl ⟨rfl, rfl⟩
  | some h => exact Or.inr ⟨_, _, rfl, rfl, h⟩

theorem Spec.SameKeyed.has {V : Type} {R : V → V → Prop} {m n : List (String × V)} (h : SameKeyed R m n) (k : String) : ahas k m = ahas k n := by
  unfold ahas
  rcases h.cases k with ⟨h1, h2⟩ | ⟨a, b, h1, h2, _⟩ <;> rw [h1, h2] <;> rfl

theorem Spec.SameKeyed.insert {V : Type} {R : V → V → Prop} {m n : List (String × V)} (h : SameKeyed R m n) (k : String) {v w : V} (hv : R v w) :
    SameKeyed R (ainsert k v m) (ainsert k w n) := by
  refine ⟨nodup_ainsert k v h.left, nodup_ainsert k w h.right, fun j => ?_⟩
  rw [aget_ainsert, aget_ainsert]
  split
  · exact .some hv
  · exact h.get j

theorem Spec.SameKeyed.erase {V : Type} {R : V → V → Prop} {m n : List (String × V)} (h : SameKeyed R m n) (k : String) :
    SameKeyed R (aerase k m) (aerase k n) := by
  refine ⟨nodup_aerase k h.left, nodup_aerase k h.right, fun j => ?_⟩
  rw [aget_aerase, aget_aerase]
  split
  · exact .none
  · exact h.get j

theorem Spec.SameKeyed.keys {V : Type} {R : V → V → Prop} {m n : List (String × V)} (h : SameKeyed R m n) : (akeys m).Perm (akeys n) := by
  apply (List.perm_ext_iff_of_nodup h.left h.right).mpr
  intro k
  rw [← aget_isSome_iff, ← aget_isSome_iff]
  rcases h.cases k with ⟨h1, h2⟩ | ⟨a, b, h1, h2, _⟩
  · rw [h1, h2]
  · rw [h1, h2]
    exact ⟨fun _ => ⟨_, rfl⟩, fun _ => ⟨_, rfl⟩⟩

theorem Spec.SameKeyed.length {V : Type} {R : V → V → Prop} {m n : List (String × V)} (h : SameKeyed R m n) : m.length = n.length := by
  have := h.keys.length_eq
  simpa [akeys] using this

/-! ### Handles -/

theorem Spec.SamePkg.handles' {env : Env} {p q : Pkg} (h : SamePkg env p q) (k k' : String) (o o' : OpenDoc) (h1 : aget k q.opened = some o)
    (h2 : aget k' q.opened = some o') (h3 : o.handle = o'.handle) : k = k' := by
  rcases h.opened.cases k with ⟨_, e⟩ | ⟨a, b, e1, e2, e3⟩
  · rw [e] at h1; cases h1
  · rcases h.opened.cases k' with ⟨_, e⟩ | ⟨a', b', e1', e2', e3'⟩
    · rw [e] at h2; cases h2
    · rw [e2] at h1; cases h1
      rw [e2'] at h2; cases h2
      exact h.handles _ _ _ _ e1 e1' (e3.handle.trans (h3.trans e3'.handle.symm))

theorem byHandle_of {p : Pkg} (hn : (akeys p.opened).Nodup) (hu : ∀ k k' o o', aget k p.opened = some o → aget k' p.opened = some o' → o.handle = o'.handle → k = k')
    {k : String} {o : OpenDoc} (h : aget k p.opened = some o) : p.byHandle o.handle = some o := by
  unfold Pkg.byHandle
  cases hf : p.opened.find? (fun kv => decide (kv.2.handle = o.handle)) with
  | none =>
    rw [List.find?_eq_none] at hf
    have := hf _ (mem_of_aget h)
    simp at this
  | some kv =>
    have h1 := List.find?_some hf
    have h2 := List.mem_of_find?_eq_some hf
    have h3 := aget_of_mem (k := kv.1) (v := kv.2) hn h2
    have h4 := hu _ _ _ _ h3 h (by simpa using h1)
    rw [h4, h] at h3
    cases h3; rfl

theorem named_of_byHandle {p : Pkg} (hn : (akeys p.opened).Nodup) {j : Nat} {o : OpenDoc} (h : p.byHandle j = some o) :
    ∃ k, aget k p.opened = some o ∧ o.handle = j := by
  unfold Pkg.byHandle at h
  cases hf : p.opened.find? (fun kv => decide (kv.2.handle = j)) with
  | none => rw [hf] at h; cases h
  | some kv =>
    rw [hf] at h
    cases h
    exact ⟨kv.1, aget_of_mem hn (List.mem_of_find?_eq_some hf), by simpa using List.find?_some hf⟩

theorem Spec.SamePkg.byHandle {env : Env} {p q : Pkg} (h : SamePkg env p q) (j : Nat) : SameOpt (SameOpen env) (p.byHandle j) (q.byHandle j) := by
  cases hp : p.byHandle j with
  | some o =>
    obtain ⟨k, h1, h2⟩ := named_of_byHandle h.opened.left hp
    rcases h.opened.cases k with ⟨e, _⟩ | ⟨a, b, e1, e2, e3⟩
    · rw [e] at h1; cases h1
    · rw [e1] at h1; cases h1
      have := byHandle_of h.opened.right h.handles' e2
      rw [← e3.handle, h2] at this
      rw [this]
      exact .some e3
  | none =>
    cases hq : q.byHandle j with
    | none => exact .none
    | some o =>
      obtain ⟨k, h1, h2⟩ := named_of_byHandle h.opened.right hq
      rcases h.opened.cases k with ⟨_, e⟩ | ⟨a, b, e1, e2, e3⟩
      · rw [e] at h1; cases h1
      · rw [e2] at h1; cases h1
        have := byHandle_of h.opened.left h.handles e1
        rw [e3.handle, h2, hp] at this
        cases this

theorem Spec.SamePkg.docOf {env : Env} {p q : Pkg} (h : SamePkg env p q) (j : Nat) : SameOpt (DocLike env.uni) (p.docOf j) (q.docOf j) := by
  unfold Pkg.docOf
  have := h.byHandle j
  generalize p.byHandle j = a at this
  generalize q.byHandle j = b at this
  cases this with
  | none => exact .none
  | some h => exact .some ⟨h.doc, h.sound⟩

theorem aget_updated (p : Pkg) (j : Nat) (f : XDoc → XDoc) (k : String) :
    aget k (p.update j f).opened = (aget k p.opened).map (fun v => if v.handle = j then { v with doc := f v.doc } else v) := by
  rw [← aget_map_val (fun (_ : String) (v : OpenDoc) => if v.handle = j then { v with doc := f v.doc } else v)]
  unfold Pkg.update
  congr 1
  apply List.map_congr_left
  intro kv _
  simp only
  split <;> rfl

theorem Spec.SamePkg.update {env : Env} {p q : Pkg} (h : SamePkg env p q) (j : Nat) {x y : XDoc} (hx : DocLike env.uni x y) :
    SamePkg env (p.update j (fun _ => x)) (q.update j (fun _ => y)) := by
  have hd : ∀ k o, aget k (p.update j (fun _ => x)).opened = some o → ∃ v, aget k p.opened = some v ∧ v.handle = o.handle := by
    intro k o ho
    rw [aget_updated] at ho
    cases hv : aget k p.opened with
    | none => rw [hv] at ho; cases ho
    | some v =>
      rw [hv] at ho
      simp only [Option.map_some, Option.some.injEq] at ho
      exact ⟨v, rfl, by rw [← ho]; split <;> rfl⟩
  refine ⟨⟨by rw [Pkg.akeys_update]; exact h.opened.left, by rw [Pkg.akeys_update]; exact h.opened.right, fun k => ?_⟩, h.archive, h.next, ?_, ?_⟩
  · rw [aget_updated, aget_updated]
    rcases h.opened.cases k with ⟨e1, e2⟩ | ⟨a, b, e1, e2, e3⟩
    · rw [e1, e2]; exact .none
    · rw [e1, e2]
      simp only [Option.map_some, ← e3.handle]
      split
      · exact .some ⟨rfl, e3.ctype, e3.ext, e3.extType, hx.same, hx.sound⟩
      · exact .some e3
  · intro k k' o o' h1 h2 h3
    obtain ⟨v, e1, e2⟩ := hd k o h1
    obtain ⟨v', e1', e2'⟩ := hd k' o' h2
    exact h.handles _ _ _ _ e1 e1' (e2.trans (h3.trans e2'.symm))
  · intro k o h1
    obtain ⟨v, e1, e2⟩ := hd k o h1
    exact e2 ▸ h.below k v e1

theorem Spec.SamePkg.delete {env : Env} {p q : Pkg} (h : SamePkg env p q) (name : String) : SamePkg env (p.delete name) (q.delete name) :=
  ⟨h.opened, h.archive.erase name, h.next, h.handles, h.below⟩

theorem Spec.SamePkg.register {env : Env} {p q : Pkg} (h : SamePkg env p q) (name : String) {x y : XDoc} (hx : DocLike env.uni x y)
    (ct : Option String) (e t : String) :
    SamePkg env (p.register name x ct e t).1 (q.register name y ct e t).1 ∧ (p.register name x ct e t).2 = (q.register name y ct e t).2 := by
  refine ⟨⟨?_, h.archive, by simp only [Pkg.register]; rw [h.next], ?_, ?_⟩, h.next⟩
  · exact h.opened.insert name ⟨h.next, rfl, rfl, rfl, hx.same, hx.sound⟩
  · intro k k' o o' h1 h2 h3
    simp only [Pkg.register] at h1 h2
    rw [aget_ainsert] at h1 h2
    split at h1
    · next e1 =>
      cases h1
      split at h2
      · next e2 => exact e1.symm.trans e2
      · have := h.below _ _ h2
        dsimp only at h3
        omega
    · split at h2
      · cases h2
        have := h.below _ _ h1
        dsimp only at h3
        omega
      · exact h.handles _ _ _ _ h1 h2 h3
  · intro k o h1
    simp only [Pkg.register] at h1 ⊢
    rw [aget_ainsert] at h1
    split at h1
    · cases h1; simp
    · have := h.below _ _ h1; omega

theorem Spec.SamePkg.close {env : Env} {p q : Pkg} (h : SamePkg env p q) (name : String) : SamePkg env (p.close env name) (q.close env name) := by
  unfold Pkg.close
  rcases h.opened.cases name with ⟨e1, e2⟩ | ⟨a, b, e1, e2, e3⟩
  · rw [e1, e2]; exact h
  · rw [e1, e2]
    have sub : ∀ k o, aget k (aerase name p.opened) = some o → aget k p.opened = some o := by
      intro k o ho
      rw [aget_aerase] at ho
      split at ho
      · cases ho
      · exact ho
    refine ⟨h.opened.erase name, h.archive.insert name ⟨e3.ext, e3.extType, e3.ctype, .rendered e3.doc e3.sound⟩, h.next, ?_, ?_⟩
    · intro k k' o o' h1 h2
      exact h.handles _ _ _ _ (sub _ _ h1) (sub _ _ h2)
    · intro k o h1
      exact h.below _ _ (sub _ _ h1)

/-- The same template. -/
structure SameTemplate (u : Unicode) (t s : Template) : Prop where
  doc : DocLike u t.doc s.doc
  ctype : t.ctype = s.ctype
  ext : t.ext = s.ext
  extType : t.extType = s.extType

theorem Spec.SamePkg.getXmlTree {env : Env} (hst : env.build.release = true → StampOk env.stamp) {p q : Pkg} (h : SamePkg env p q) (name : String) :
    SameRes (SameOpt (SameTemplate env.uni)) (p.getXmlTree env name).1 (q.getXmlTree env name).1 ∧
      SamePkg env (p.getXmlTree env name).2 (q.getXmlTree env name).2 := by
  unfold Pkg.getXmlTree
  rw [h.opened.has name]
  split
  · exact ⟨.error _, h⟩
  · rcases h.archive.cases name with ⟨e1, e2⟩ | ⟨a, b, e1, e2, e3⟩
    · rw [e1, e2]; exact ⟨.ok .none, h⟩
    · rw [e1, e2]
      dsimp only
      have hd := h.delete name
      have hr := read_same hst e3.content
      generalize readXml env.uni a.content = r at hr
      generalize readXml env.uni b.content = s at hr
      cases hr with
      | error e => exact ⟨.error e, hd⟩
      | ok hr => exact ⟨.ok (.some ⟨hr, e3.ctype, e3.ext, e3.extType⟩), hd⟩

theorem Spec.SamePkg.openPart {env : Env} (hst : env.build.release = true → StampOk env.stamp) {p q : Pkg} (h : SamePkg env p q) {t : Template}
    (ht : Sound env.uni t.doc) (name : String) :
    (p.openPart env (.ok t) name).1 = (q.openPart env (.ok t) name).1 ∧ SamePkg env (p.openPart env (.ok t) name).2 (q.openPart env (.ok t) name).2 := by
  unfold Pkg.openPart
  have := h.getXmlTree hst name
  generalize p.getXmlTree env name = a at this
  generalize q.getXmlTree env name = b at this
  obtain ⟨a1, a2⟩ := a
  obtain ⟨b1, b2⟩ := b
  obtain ⟨h1, h2⟩ := this
  dsimp only at h1 h2
  cases h1 with
  | error e => exact ⟨rfl, h2⟩
  | ok h1 =>
    cases h1 with
    | none =>
      have hr := h2.register name (docLike_self ht) t.ctype t.ext t.extType
      exact ⟨by dsimp only; rw [hr.2], hr.1⟩
    | @some s s' h1 =>
      have hr := h2.register name h1.doc s.ctype s.ext s.extType
      dsimp only
      rw [← h1.ctype, ← h1.ext, ← h1.extType]
      exact ⟨by rw [hr.2], hr.1⟩

/-! ### Closing everything -/

theorem closedForSave_opened (env : Env) (p : Pkg) (k : String) : aget k (p.closedForSave env).opened = none := by
  unfold Pkg.closedForSave
  cases h : aget k p.opened with
  | none => exact ((Pkg.closeAll_not_mem ((aget_eq_none_iff _ _).mp h)).2).trans h
  | some o => exact (Pkg.closeAll_mem (mem_akeys_of_aget h) h).2

theorem close_keys (env : Env) (name : String) {p : Pkg} (ho : (akeys p.opened).Nodup) (ha : (akeys p.archive).Nodup) :
    (akeys (p.close env name).opened).Nodup ∧ (akeys (p.close env name).archive).Nodup ∧ (p.close env name).nextHandle = p.nextHandle := by
  unfold Pkg.close
  split
  · exact ⟨ho, ha, rfl⟩
  · exact ⟨nodup_aerase _ ho, nodup_ainsert _ _ ha, rfl⟩

theorem closeAll_keys (env : Env) (names : List String) {p : Pkg} (ho : (akeys p.opened).Nodup) (ha : (akeys p.archive).Nodup) :
    (akeys (p.closeAll env names).opened).Nodup ∧ (akeys (p.closeAll env names).archive).Nodup ∧ (p.closeAll env names).nextHandle = p.nextHandle := by
  unfold Pkg.closeAll
  induction names generalizing p with
  | nil => exact ⟨ho, ha, rfl⟩
  | cons n ns ih =>
    obtain ⟨h1, h2, h3⟩ := close_keys env n ho ha
    have := ih h1 h2
    rw [h3] at this
    exact this

/-- Parts still open are closed in whatever order the collection has. -/
theorem Spec.SamePkg.closedForSave {env : Env} {p q : Pkg} (h : SamePkg env p q) : SamePkg env (p.closedForSave env) (q.closedForSave env) := by
  have hp := closeAll_keys env (akeys p.opened) h.opened.left h.archive.left
  have hq := closeAll_keys env (akeys q.opened) h.opened.right h.archive.right
  refine ⟨⟨hp.1, hq.1, fun k => ?_⟩, ⟨hp.2.1, hq.2.1, fun k => ?_⟩, ?_, ?_, ?_⟩
  · rw [closedForSave_opened, closedForSave_opened]; exact .none
  · rcases h.opened.cases k with ⟨e1, e2⟩ | ⟨a, b, e1, e2, e3⟩
    · rw [Pkg.closedForSave_closed e1, Pkg.closedForSave_closed e2]; exact h.archive.get k
    · rw [Pkg.closedForSave_open e1, Pkg.closedForSave_open e2]
      exact .some ⟨e3.ext, e3.extType, e3.ctype, .rendered e3.doc e3.sound⟩
  · exact hp.2.2.trans (h.next.trans hq.2.2.symm)
  · intro k k' o o' h1; rw [closedForSave_opened] at h1; cases h1
  · intro k o h1; rw [closedForSave_opened] at h1; cases h1

/-! ### Relationship parts -/

theorem sound_template {u : Unicode} {tag uri : String} (ht : isValidXmlName ⟨fun _ => false⟩ tag = true) (hu : '"' ∉ uri.toList) :
    Sound u (XDoc.template tag uri) := by
  have := wfDoc_template (u := u) ht hu
  exact ⟨this.ns, this.uris, fun r hr => by cases hr; exact this.names⟩

theorem sound_rels (u : Unicode) : Sound u relsTemplate.doc := sound_template (by decide) (by decide +kernel)

theorem Spec.SamePkg.relNew {env : Env} (hst : env.build.release = true → StampOk env.stamp) {p q : Pkg} (h : SamePkg env p q) (path : String) :
    (RelPart.new env p path).1 = (RelPart.new env q path).1 ∧ SamePkg env (RelPart.new env p path).2 (RelPart.new env q path).2 := by
  unfold RelPart.new
  have := h.openPart hst (sound_rels env.uni) path
  generalize p.openPart env (.ok relsTemplate) path = a at this
  generalize q.openPart env (.ok relsTemplate) path = b at this
  obtain ⟨a1, a2⟩ := a
  obtain ⟨b1, b2⟩ := b
  obtain ⟨h1, h2⟩ := this
  dsimp only at h1 h2
  subst h1
  cases a1 with
  | error e => exact ⟨rfl, h2⟩
  | ok j =>
    dsimp only
    have hd := h2.docOf j
    generalize a2.docOf j = x at hd
    generalize b2.docOf j = y at hd
    cases hd with
    | none => exact ⟨rfl, h2⟩
    | @some x y hd =>
      dsimp only
      have hl := loadRels_same hd
      generalize loadRels x = l at hl
      generalize loadRels y = r at hl
      obtain ⟨l1, l2⟩ := l
      obtain ⟨r1, r2⟩ := r
      obtain ⟨e1, e2⟩ := hl
      dsimp only at e1 e2
      subst e1
      cases l1 with
      | error e => exact ⟨rfl, h2.update j e2⟩
      | ok rels => exact ⟨rfl, h2.update j e2⟩

theorem Spec.SamePkg.relClose {env : Env} {p q : Pkg} (h : SamePkg env p q) (r : RelPart) :
    (r.close env p).1 = (r.close env q).1 ∧ SamePkg env (r.close env p).2 (r.close env q).2 := by
  unfold RelPart.close
  have hd := h.docOf r.handle
  generalize p.docOf r.handle = x at hd
  generalize q.docOf r.handle = y at hd
  cases hd with
  | none => exact ⟨rfl, h⟩
  | @some x y hd =>
    dsimp only
    have hs := saveRels_same hd r.rels
    generalize saveRels x r.rels = a at hs
    generalize saveRels y r.rels = b at hs
    cases hs with
    | error e => exact ⟨rfl, h⟩
    | @ok a b hs =>
      obtain ⟨a1, a2⟩ := a
      obtain ⟨b1, b2⟩ := b
      obtain ⟨e1, e2⟩ := hs
      dsimp only at e1 e2 ⊢
      subst e2
      refine ⟨rfl, ?_⟩
      split
      · exact (h.update r.handle e1).close r.path
      · exact (h.update r.handle e1).delete r.path

end Oxml
