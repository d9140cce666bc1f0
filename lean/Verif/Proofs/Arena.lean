import Verif.Model.XmlEdits
import Verif.Spec.Tree
import Verif.Proofs.Maps
/-!
# The arena invariant and its preservation
-/
namespace Oxml

theorem XmlDoc.get_put (d : XmlDoc) (i j : Nat) (e : Elem) :
    (d.put i e).get j = if i = j then some e else d.get j := by
  simp [XmlDoc.put, XmlDoc.get, aget_ainsert]

@[simp] theorem XmlDoc.get_put_self (d : XmlDoc) (i : Nat) (e : Elem) : (d.put i e).get i = some e := by
  simp [XmlDoc.get_put]

theorem XmlDoc.get_put_ne (d : XmlDoc) {i j : Nat} (h : i ≠ j) (e : Elem) : (d.put i e).get j = d.get j := by
  simp [XmlDoc.get_put, h]

/-- The arena invariant. -/
structure XmlDoc.Inv (d : XmlDoc) : Prop where
  tree : Spec.TreeShaped d.get
  keys : (akeys d.elems).Nodup
  le : ∀ i e, d.get i = some e → i ≤ d.runningId

theorem XmlDoc.Inv.new : XmlDoc.new.Inv :=
  ⟨⟨by simp [XmlDoc.new, XmlDoc.get], by simp [XmlDoc.new, XmlDoc.get], by simp [XmlDoc.new, XmlDoc.get]⟩,
    by simp [XmlDoc.new, akeys], by simp [XmlDoc.new, XmlDoc.get]⟩

/-- The invariant only depends on the content of the map. -/
theorem XmlDoc.Inv.put_same {d : XmlDoc} (h : d.Inv) {i : Nat} {e e' : Elem} (hi : d.get i = some e)
    (h1 : e'.id = e.id) (h2 : e'.parentId = e.parentId) (h3 : e'.tag = e.tag)
    (h4 : ∀ c ∈ e'.children, c ∈ e.children) (h5 : (e'.children.map Child.id).Nodup) : (d.put i e').Inv := by
  refine ⟨⟨?_, ?_, ?_⟩, nodup_ainsert _ _ h.keys, ?_⟩
  · intro j x hx
    rw [XmlDoc.get_put] at hx
    split at hx
    · cases hx; rename_i hij; subst hij; rw [h1]; exact h.tree.ownId _ _ hi
    · exact h.tree.ownId _ _ hx
  · intro j x hx c hc
    have key : ∀ k y, d.get k = some y → ∃ y', (d.put i e').get k = some y' ∧ y'.parentId = y.parentId ∧ y'.tag = y.tag := by
      intro k y hy
      rw [XmlDoc.get_put]
      split
      · rename_i hik; subst hik
        rw [hi] at hy; cases hy
        exact ⟨_, rfl, h2, h3⟩
      · exact ⟨_, hy, rfl, rfl⟩
    have base : ∃ x0, d.get j = some x0 ∧ c ∈ x0.children := by
      rw [XmlDoc.get_put] at hx
      split at hx
      · cases hx; rename_i hij; subst hij; exact ⟨_, hi, h4 _ hc⟩
      · exact ⟨_, hx, hc⟩
    obtain ⟨x0, hx0, hc0⟩ := base
    obtain ⟨hlt, y, hy, hp, ht⟩ := h.tree.child _ _ hx0 _ hc0
    obtain ⟨y', hy', hp', ht'⟩ := key _ _ hy
    exact ⟨hlt, y', hy', hp'.trans hp, ht'.trans ht⟩
  · intro j x hx
    rw [XmlDoc.get_put] at hx
    split at hx
    · cases hx; exact h5
    · exact h.tree.once _ _ hx
  · intro j x hx
    rw [XmlDoc.get_put] at hx
    split at hx
    · rename_i hij; subst hij; exact h.le _ _ hi
    · exact h.le _ _ hx

theorem XmlDoc.Inv.setNs {d : XmlDoc} (h : d.Inv) (ns : Attrs) : ({ d with ns := ns } : XmlDoc).Inv :=
  ⟨⟨h.tree.ownId, h.tree.child, h.tree.once⟩, h.keys, h.le⟩

theorem newElem_ok {u : Unicode} {tag : String} {e : Elem} (h : newElem u tag = .ok e) :
    isValidXmlName u tag = true ∧
      e = { id := 0, parentId := 0, tag := tag, attrs := none, value := none, children := [] } := by
  unfold newElem at h
  split at h
  · cases h; exact ⟨by assumption, rfl⟩
  · cases h

theorem createRoot_ok {u : Unicode} {d d' : XmlDoc} {tag : String} (h : d.createRoot u tag = .ok d') :
    isValidXmlName u tag = true ∧
      d' = d.put 0 { id := 0, parentId := 0, tag := tag, attrs := none, value := none, children := [] } := by
  unfold XmlDoc.createRoot at h
  cases hn : newElem u tag with
  | error _ => rw [hn] at h; cases h
  | ok e =>
    rw [hn] at h
    obtain ⟨hv, rfl⟩ := newElem_ok hn
    cases h
    exact ⟨hv, rfl⟩

theorem XmlDoc.Inv.createRoot {u : Unicode} {d d' : XmlDoc} {tag : String} (h : d.Inv)
    (hc : d.createRoot u tag = .ok d') : d'.Inv := by
  obtain ⟨_, rfl⟩ := createRoot_ok hc
  refine ⟨⟨?_, ?_, ?_⟩, nodup_ainsert _ _ h.keys, ?_⟩
  · intro j x hx
    rw [XmlDoc.get_put] at hx
    split at hx
    · cases hx; assumption
    · exact h.tree.ownId _ _ hx
  · intro j x hx c hcm
    rw [XmlDoc.get_put] at hx
    split at hx
    · cases hx; cases hcm
    · obtain ⟨hlt, y, hy, hp, ht⟩ := h.tree.child _ _ hx _ hcm
      refine ⟨hlt, y, ?_, hp, ht⟩
      rw [XmlDoc.get_put_ne _ (by omega)]; exact hy
  · intro j x hx
    rw [XmlDoc.get_put] at hx
    split at hx
    · cases hx; simp
    · exact h.tree.once _ _ hx
  · intro j x hx
    rw [XmlDoc.get_put] at hx
    split at hx
    · rename_i h0; subst h0; exact Nat.zero_le _
    · exact h.le _ _ hx

/-- What a successful insertion does, whatever the position. -/
theorem insertWith_ok {u : Unicode} {d d' : XmlDoc} {tag : String} {parent id : Nat}
    {place : Child → List Child → Res (List Child)} (h : d.insertWith u tag parent place = .ok (d', id)) :
    ∃ p cs, d.get parent = some p ∧ isValidXmlName u tag = true ∧
      place { id := d.runningId + 1, tag := tag } p.children = .ok cs ∧ id = d.runningId + 1 ∧
      d' = { (d.put parent { p with children := cs }).put (d.runningId + 1)
              { id := d.runningId + 1, parentId := parent, tag := tag, attrs := none, value := none, children := [] }
            with runningId := d.runningId + 1 } := by
  unfold XmlDoc.insertWith at h
  cases hp : d.get parent with
  | none => rw [hp] at h; cases h
  | some p =>
    rw [hp] at h
    simp only at h
    cases hn : newElem u tag with
    | error _ => rw [hn] at h; cases h
    | ok e =>
      rw [hn] at h
      obtain ⟨hv, rfl⟩ := newElem_ok hn
      cases hpl : place { id := d.runningId + 1, tag := tag } p.children with
      | error _ => simp only [bind, Except.bind, hpl] at h; cases h
      | ok cs =>
        simp only [bind, Except.bind, hpl] at h
        cases h
        exact ⟨p, cs, rfl, hv, hpl, rfl, rfl⟩

/-- A placement function inserts exactly the new child and keeps the others. -/
def Places (place : Child → List Child → Res (List Child)) : Prop :=
  ∀ c cs out, place c cs = .ok out → ∃ l r, cs = l ++ r ∧ out = l ++ c :: r

theorem XmlDoc.Inv.insertWith {u : Unicode} {d d' : XmlDoc} {tag : String} {parent id : Nat}
    {place : Child → List Child → Res (List Child)} (hpl : Places place) (h : d.Inv)
    (hi : d.insertWith u tag parent place = .ok (d', id)) : d'.Inv := by
  obtain ⟨p, cs, hp, _, hcs, _, rfl⟩ := insertWith_ok hi
  obtain ⟨l, r, hlr, rfl⟩ := hpl _ _ _ hcs
  have hple := h.le _ _ hp
  have fresh : ∀ j x, d.get j = some x → j ≠ d.runningId + 1 := by
    intro j x hx; have := h.le _ _ hx; omega
  have hpne : parent ≠ d.runningId + 1 := by omega
  -- lookups in the result
  have look : ∀ j x, XmlDoc.get { (d.put parent { p with children := l ++ (⟨d.runningId + 1, tag⟩ : Child) :: r }).put (d.runningId + 1)
              { id := d.runningId + 1, parentId := parent, tag := tag, attrs := none, value := none, children := [] }
            with runningId := d.runningId + 1 } j = some x →
      (j = d.runningId + 1 ∧ x = { id := d.runningId + 1, parentId := parent, tag := tag, attrs := none, value := none, children := [] }) ∨
      (j = parent ∧ x = { p with children := l ++ (⟨d.runningId + 1, tag⟩ : Child) :: r }) ∨
      (j ≠ parent ∧ j ≠ d.runningId + 1 ∧ d.get j = some x) := by
    intro j x hx
    change ((d.put parent _).put (d.runningId + 1) _).get j = some x at hx
    rw [XmlDoc.get_put] at hx
    split at hx
    · left; cases hx; exact ⟨by omega, rfl⟩
    · rw [XmlDoc.get_put] at hx
      split at hx
      · right; left; cases hx; exact ⟨by omega, rfl⟩
      · right; right; exact ⟨by omega, by omega, hx⟩
  have keep : ∀ j x, d.get j = some x → ∃ x', XmlDoc.get { (d.put parent { p with children := l ++ (⟨d.runningId + 1, tag⟩ : Child) :: r }).put (d.runningId + 1)
              { id := d.runningId + 1, parentId := parent, tag := tag, attrs := none, value := none, children := [] }
            with runningId := d.runningId + 1 } j = some x' ∧ x'.parentId = x.parentId ∧ x'.tag = x.tag := by
    intro j x hx
    change ∃ x', ((d.put parent _).put (d.runningId + 1) _).get j = some x' ∧ _
    rw [XmlDoc.get_put_ne _ (Ne.symm (fresh j x hx)), XmlDoc.get_put]
    split
    · rename_i e; subst e; rw [hp] at hx; cases hx; exact ⟨_, rfl, rfl, rfl⟩
    · exact ⟨_, hx, rfl, rfl⟩
  have oldChildren : ∀ c ∈ l ++ r, c.id < d.runningId + 1 := by
    intro c hc
    obtain ⟨_, y, hy, _⟩ := h.tree.child _ _ hp c (hlr ▸ hc)
    have := h.le _ _ hy; omega
  refine ⟨⟨?_, ?_, ?_⟩, nodup_ainsert _ _ (nodup_ainsert _ _ h.keys), ?_⟩
  · intro j x hx
    rcases look j x hx with ⟨rfl, rfl⟩ | ⟨rfl, rfl⟩ | ⟨_, _, hx⟩
    · rfl
    · exact h.tree.ownId j p hp
    · exact h.tree.ownId _ _ hx
  · intro j x hx c hc
    rcases look j x hx with ⟨rfl, rfl⟩ | ⟨rfl, rfl⟩ | ⟨hj, _, hx⟩
    · cases hc
    · have hc' : c = ⟨d.runningId + 1, tag⟩ ∨ c ∈ l ++ r := by
        simp only [List.mem_append, List.mem_cons] at hc ⊢
        rcases hc with h | h | h
        · exact .inr (.inl h)
        · exact .inl h
        · exact .inr (.inr h)
      rcases hc' with rfl | hc'
      · refine ⟨by change j < d.runningId + 1; omega,
          { id := d.runningId + 1, parentId := j, tag := tag, attrs := none, value := none, children := [] }, ?_, rfl, rfl⟩
        exact XmlDoc.get_put_self _ _ _
      · obtain ⟨hlt, y, hy, hp', ht⟩ := h.tree.child _ _ hp c (hlr ▸ hc')
        obtain ⟨y', hy', hp'', ht'⟩ := keep _ _ hy
        exact ⟨hlt, y', hy', hp''.trans hp', ht'.trans ht⟩
    · obtain ⟨hlt, y, hy, hp', ht⟩ := h.tree.child _ _ hx c hc
      obtain ⟨y', hy', hp'', ht'⟩ := keep _ _ hy
      exact ⟨hlt, y', hy', hp''.trans hp', ht'.trans ht⟩
  · intro j x hx
    rcases look j x hx with ⟨rfl, rfl⟩ | ⟨rfl, rfl⟩ | ⟨_, _, hx⟩
    · simp
    · have hn := h.tree.once _ _ hp
      rw [hlr, List.map_append] at hn
      simp only [List.map_append, List.map_cons]
      have hperm : ((l.map Child.id) ++ (d.runningId + 1) :: r.map Child.id).Perm
          ((d.runningId + 1) :: (l.map Child.id ++ r.map Child.id)) := List.perm_middle
      rw [hperm.nodup_iff, List.nodup_cons]
      refine ⟨?_, hn⟩
      intro hmem
      rw [← List.map_append] at hmem
      obtain ⟨c, hc, heq⟩ := List.mem_map.mp hmem
      have := oldChildren c hc
      omega
    · exact h.tree.once _ _ hx
  · intro j x hx
    change j ≤ d.runningId + 1
    rcases look j x hx with ⟨rfl, rfl⟩ | ⟨rfl, rfl⟩ | ⟨_, _, hx⟩
    · omega
    · omega
    · have := h.le _ _ hx; omega

theorem places_append : Places (fun c cs => .ok (cs ++ [c])) := by
  intro c cs out h; cases h; exact ⟨cs, [], by simp, rfl⟩

theorem places_before (f : String) : Places (fun c cs => .ok (insertBeforeTag c f cs)) := by
  intro c cs out h
  cases h
  unfold insertBeforeTag
  split
  · rename_i i _; exact ⟨cs.take i, cs.drop i, by simp, rfl⟩
  · exact ⟨[], cs, rfl, rfl⟩

theorem places_after (f : String) : Places (fun c cs => .ok (insertAfterTag c f cs)) := by
  intro c cs out h
  cases h
  unfold insertAfterTag
  split
  · rename_i i _; exact ⟨cs.take (i + 1), cs.drop (i + 1), by simp, rfl⟩
  · exact ⟨cs, [], by simp, rfl⟩

theorem places_at (pos : Nat) : Places (fun c cs =>
    if pos ≤ cs.length then .ok (cs.take pos ++ c :: cs.drop pos)
    else .error (.panic "insertion index out of range")) := by
  intro c cs out h
  simp only at h
  split at h
  · cases h; exact ⟨cs.take pos, cs.drop pos, by simp, rfl⟩
  · cases h

theorem setAttribute_ok {u : Unicode} {d d' : XmlDoc} {id : Nat} {attrs : Attrs}
    (h : d.setAttribute u id attrs = .ok d') :
    ∃ e, d.get id = some e ∧ (akeys attrs).all (isValidXmlName u) = true ∧
      d' = { (d.put id { e with attrs := some (attrs.filter (fun kv => !isNsKey kv.1)) }) with
              ns := (attrs.filter (fun kv => isNsKey kv.1)).foldl (fun m kv => addNs m kv.1 kv.2) d.ns } := by
  unfold XmlDoc.setAttribute at h
  split at h
  · cases h
  · rename_i e he
    split at h
    · cases h
    · rename_i hv
      cases h
      exact ⟨e, he, by simpa using hv, rfl⟩

theorem XmlDoc.Inv.setAttribute {u : Unicode} {d d' : XmlDoc} {id : Nat} {attrs : Attrs} (h : d.Inv)
    (hs : d.setAttribute u id attrs = .ok d') : d'.Inv := by
  obtain ⟨e, he, _, rfl⟩ := setAttribute_ok hs
  have h1 : (d.put id { e with attrs := some (attrs.filter (fun kv => !isNsKey kv.1)) }).Inv :=
    h.put_same he rfl rfl rfl (fun c hc => hc) (h.tree.once id e he)
  exact h1.setNs _

theorem setValue_ok {d d' : XmlDoc} {id : Nat} {t : String} (h : d.setValue id t = .ok d') :
    ∃ e, d.get id = some e ∧ d' = d.put id { e with value := some t } := by
  unfold XmlDoc.setValue at h
  split at h
  · cases h
  · rename_i e he; cases h; exact ⟨e, he, rfl⟩

theorem XmlDoc.Inv.setValue {d d' : XmlDoc} {id : Nat} {t : String} (h : d.Inv)
    (hs : d.setValue id t = .ok d') : d'.Inv := by
  obtain ⟨e, he, rfl⟩ := setValue_ok hs
  exact h.put_same he rfl rfl rfl (fun c hc => hc) (h.tree.once id e he)

theorem stableInsert_perm {α : Type} (key : α → Nat) (x : α) (l : List α) :
    (stableInsert key x l).Perm (x :: l) := by
  induction l with
  | nil => exact List.Perm.refl _
  | cons y ys ih =>
    unfold stableInsert
    split
    · exact (List.Perm.cons y ih).trans (List.Perm.swap x y ys)
    · exact List.Perm.refl _

theorem stableSort_foldl_perm {α : Type} (key : α → Nat) (l acc : List α) :
    (l.foldl (fun acc x => stableInsert key x acc) acc).Perm (acc ++ l) := by
  induction l generalizing acc with
  | nil => simp
  | cons x xs ih =>
    simp only [List.foldl_cons]
    refine (ih _).trans ?_
    refine (List.Perm.append_right xs (stableInsert_perm key x acc)).trans ?_
    simp only [List.cons_append]
    exact List.perm_middle.symm

theorem stableSort_perm {α : Type} (key : α → Nat) (l : List α) : (stableSort key l).Perm l := by
  have := stableSort_foldl_perm key l []
  simpa [stableSort] using this

theorem orderChildren_perm {α : Type} (tagOf : α → String) (sk : List String) (l : List α) :
    (orderChildren tagOf sk l).Perm l := by
  unfold orderChildren
  split
  · exact stableSort_perm _ _
  · exact List.Perm.refl _

theorem orderChild_ok {d d' : XmlDoc} {id : Nat} {sk : List String} (h : d.orderChild id sk = .ok d') :
    ∃ e, d.get id = some e ∧ d' = d.put id { e with children := orderChildren Child.tag sk e.children } := by
  unfold XmlDoc.orderChild at h
  split at h
  · cases h
  · rename_i e he; cases h; exact ⟨e, he, rfl⟩

theorem XmlDoc.Inv.orderChild {d d' : XmlDoc} {id : Nat} {sk : List String} (h : d.Inv)
    (hs : d.orderChild id sk = .ok d') : d'.Inv := by
  obtain ⟨e, he, rfl⟩ := orderChild_ok hs
  have hp := orderChildren_perm Child.tag sk e.children
  exact h.put_same he rfl rfl rfl (fun c hc => hp.mem_iff.mp hc)
    ((hp.map Child.id).nodup_iff.mpr (h.tree.once id e he))

theorem XmlDoc.Inv.updateAttribute {u : Unicode} {d : XmlDoc} {id : Nat} {k v : String} (h : d.Inv) :
    (d.updateAttribute u id k v).Inv := by
  unfold XmlDoc.updateAttribute
  split
  · exact h
  · rename_i e he
    split
    · exact h
    · split
      · exact h.put_same he rfl rfl rfl (fun c hc => hc) (h.tree.once id e he)
      · exact h

/-! ### Removing elements -/

theorem aget_foldl_aerase {V : Type} (ids : List Nat) (m : List (Nat × V)) (j : Nat) :
    aget j (ids.foldl (fun m i => aerase i m) m) = if j ∈ ids then none else aget j m := by
  induction ids generalizing m with
  | nil => simp
  | cons i is ih =>
    simp only [List.foldl_cons, ih, aget_aerase, List.mem_cons]
    by_cases h1 : j ∈ is
    · simp [h1]
    · by_cases h2 : i = j
      · simp [h2]
      · simp [h1, h2, Ne.symm h2]

theorem nodup_foldl_aerase {V : Type} (ids : List Nat) (m : List (Nat × V)) (h : (akeys m).Nodup) :
    (akeys (ids.foldl (fun m i => aerase i m) m)).Nodup := by
  induction ids generalizing m with
  | nil => exact h
  | cons i is ih => exact ih _ (nodup_aerase _ h)

/-- Removing a set of elements no remaining element lists keeps the invariant. -/
theorem XmlDoc.Inv.erase {d : XmlDoc} (h : d.Inv) (ids : List Nat)
    (hun : ∀ i e, d.get i = some e → i ∉ ids → ∀ c ∈ e.children, c.id ∉ ids) :
    ({ d with elems := ids.foldl (fun m i => aerase i m) d.elems } : XmlDoc).Inv := by
  have look : ∀ j x, XmlDoc.get { d with elems := ids.foldl (fun m i => aerase i m) d.elems } j = some x →
      j ∉ ids ∧ d.get j = some x := by
    intro j x hx
    change aget j (ids.foldl (fun m i => aerase i m) d.elems) = some x at hx
    rw [aget_foldl_aerase] at hx
    split at hx
    · cases hx
    · exact ⟨by assumption, hx⟩
  refine ⟨⟨?_, ?_, ?_⟩, nodup_foldl_aerase _ _ h.keys, ?_⟩
  · intro j x hx; exact h.tree.ownId _ _ (look j x hx).2
  · intro j x hx c hc
    obtain ⟨hj, hx⟩ := look j x hx
    obtain ⟨hlt, y, hy, hp, ht⟩ := h.tree.child _ _ hx c hc
    refine ⟨hlt, y, ?_, hp, ht⟩
    change aget c.id (ids.foldl (fun m i => aerase i m) d.elems) = some y
    rw [aget_foldl_aerase, if_neg (hun _ _ hx hj c hc)]
    exact hy
  · intro j x hx; exact h.tree.once _ _ (look j x hx).2
  · intro j x hx; exact h.le _ _ (look j x hx).2

theorem XmlDoc.Inv.popByTag {d : XmlDoc} (h : d.Inv) (tag : String) (parent : Nat) : (d.popByTag tag parent).1.Inv := by
  unfold XmlDoc.popByTag
  split
  · exact h
  · rename_i p hp
    simp only
    split
    · exact h
    · have h1 : (d.put parent { p with children := p.children.filter (fun c => c.tag ≠ tag) }).Inv := by
        refine h.put_same hp rfl rfl rfl (fun c hc => (List.mem_filter.mp hc).1) ?_
        exact List.Nodup.sublist ((List.filter_sublist).map Child.id) (h.tree.once _ _ hp)
      refine h1.erase _ ?_
      intro i e he hi c hc hmem
      unfold XmlDoc.idsByTag at hmem
      rw [hp] at hmem
      obtain ⟨c', hc', hid⟩ := List.mem_map.mp hmem
      obtain ⟨hc'm, hc't⟩ := List.mem_filter.mp hc'
      simp only [decide_eq_true_eq] at hc't
      -- the popped child `c'` names `parent` as its parent
      obtain ⟨hlt, y, hy, hpar, htag⟩ := h.tree.child _ _ hp c' hc'm
      rw [XmlDoc.get_put] at he
      split at he
      · rename_i heq; subst heq
        cases he
        obtain ⟨hcm, hct⟩ := List.mem_filter.mp hc
        simp only [ne_eq, decide_not, Bool.not_eq_true', decide_eq_false_iff_not] at hct
        obtain ⟨_, y2, hy2, _, htag2⟩ := h.tree.child _ _ hp c hcm
        rw [← hid, hy] at hy2
        cases hy2
        exact hct (htag2.symm.trans (htag.trans hc't))
      · rename_i hne
        obtain ⟨_, y2, hy2, hpar2, _⟩ := h.tree.child _ _ he c hc
        rw [← hid, hy] at hy2
        cases hy2
        exact hne (hpar.symm.trans hpar2)

theorem listed_false {d : XmlDoc} {id : Nat} (h : d.listed id = false) {i : Nat} {e : Elem} (hi : d.get i = some e) :
    ∀ c ∈ e.children, c.id ≠ id := by
  intro c hc heq
  have : d.listed id = true := by
    unfold XmlDoc.listed
    rw [List.any_eq_true]
    refine ⟨(i, e), mem_of_aget hi, ?_⟩
    rw [List.any_eq_true]
    exact ⟨c, hc, by simp [heq]⟩
  rw [h] at this; cases this

theorem XmlDoc.Inv.popDetached {d : XmlDoc} (h : d.Inv) {id : Nat} (hl : d.listed id = false) :
    (d.popElement id).1.Inv := by
  have := h.erase [id] (by
    intro i e hi _ c hc
    simp only [List.mem_singleton]
    exact listed_false hl hi c hc)
  exact this

/-! ### Whole histories -/

theorem toOption_getD_ind {α : Type} {P : α → Prop} {r : Res α} {d : α} (hd : P d) (h : ∀ x, r = .ok x → P x) :
    P (r.toOption.getD d) := by
  cases r with
  | error _ => exact hd
  | ok x => exact h x rfl

theorem toOption_map_getD_ind {α β : Type} {P : α → Prop} {r : Res (α × β)} {d : α} (hd : P d)
    (h : ∀ x y, r = .ok (x, y) → P x) : P ((r.toOption.map Prod.fst).getD d) := by
  cases r with
  | error _ => exact hd
  | ok x => exact h x.1 x.2 rfl

theorem XmlDoc.Inv.edit {u : Unicode} {d : XmlDoc} (h : d.Inv) (e : Edit) : (d.edit u e).Inv := by
  cases e with
  | createRoot tag => exact toOption_getD_ind h (fun _ hx => h.createRoot hx)
  | append tag p => exact toOption_map_getD_ind h (fun _ _ hx => h.insertWith places_append hx)
  | before tag f p => exact toOption_map_getD_ind h (fun _ _ hx => h.insertWith (places_before f) hx)
  | after tag f p => exact toOption_map_getD_ind h (fun _ _ hx => h.insertWith (places_after f) hx)
  | atPos tag pos p => exact toOption_map_getD_ind h (fun _ _ hx => h.insertWith (places_at pos) hx)
  | attributes id a => exact toOption_getD_ind h (fun _ hx => h.setAttribute hx)
  | attr id k v => exact h.updateAttribute
  | value id t => exact toOption_getD_ind h (fun _ hx => h.setValue hx)
  | order id sk => exact toOption_getD_ind h (fun _ hx => h.orderChild hx)
  | popTag tag p => exact h.popByTag tag p
  | popDetached id =>
    change XmlDoc.Inv (if d.listed id then d else (d.popElement id).1)
    split
    · exact h
    · rename_i hl; exact h.popDetached (by simpa using hl)

theorem foldl_inv {α β : Type} {P : β → Prop} {f : β → α → β} (hf : ∀ b a, P b → P (f b a)) :
    ∀ (l : List α) (b : β), P b → P (l.foldl f b)
  | [], _, h => h
  | a :: l, b, h => foldl_inv hf l (f b a) (hf b a h)

theorem XmlDoc.history_inv (u : Unicode) (h : List Edit) : (XmlDoc.history u h).Inv :=
  foldl_inv (fun _ e hd => hd.edit e) h _ XmlDoc.Inv.new

theorem XmlDoc.edit_runningId (u : Unicode) (d : XmlDoc) (e : Edit) : d.runningId ≤ (d.edit u e).runningId := by
  have ins : ∀ {tag : String} {p : Nat} {place : Child → List Child → Res (List Child)} (x : XmlDoc) (y : Nat),
      d.insertWith u tag p place = .ok (x, y) → d.runningId ≤ x.runningId := by
    intro tag p place x y hx
    obtain ⟨_, _, _, _, _, _, rfl⟩ := insertWith_ok hx
    exact Nat.le_succ _
  cases e with
  | createRoot tag =>
    refine toOption_getD_ind (P := fun (x : XmlDoc) => d.runningId ≤ x.runningId) (Nat.le_refl _) (fun x hx => ?_)
    obtain ⟨_, rfl⟩ := createRoot_ok hx; exact Nat.le_refl _
  | append tag p => exact toOption_map_getD_ind (P := fun (x : XmlDoc) => d.runningId ≤ x.runningId) (Nat.le_refl _) (fun x y hx => ins x y hx)
  | before tag f p => exact toOption_map_getD_ind (P := fun (x : XmlDoc) => d.runningId ≤ x.runningId) (Nat.le_refl _) (fun x y hx => ins x y hx)
  | after tag f p => exact toOption_map_getD_ind (P := fun (x : XmlDoc) => d.runningId ≤ x.runningId) (Nat.le_refl _) (fun x y hx => ins x y hx)
  | atPos tag pos p => exact toOption_map_getD_ind (P := fun (x : XmlDoc) => d.runningId ≤ x.runningId) (Nat.le_refl _) (fun x y hx => ins x y hx)
  | attributes id a =>
    refine toOption_getD_ind (P := fun (x : XmlDoc) => d.runningId ≤ x.runningId) (Nat.le_refl _) (fun x hx => ?_)
    obtain ⟨_, _, _, rfl⟩ := setAttribute_ok hx; exact Nat.le_refl _
  | attr id k v =>
    change d.runningId ≤ (d.updateAttribute u id k v).runningId
    unfold XmlDoc.updateAttribute
    split
    · exact Nat.le_refl _
    · split
      · exact Nat.le_refl _
      · split <;> exact Nat.le_refl _
  | value id t =>
    refine toOption_getD_ind (P := fun (x : XmlDoc) => d.runningId ≤ x.runningId) (Nat.le_refl _) (fun x hx => ?_)
    obtain ⟨_, _, rfl⟩ := setValue_ok hx; exact Nat.le_refl _
  | order id sk =>
    refine toOption_getD_ind (P := fun (x : XmlDoc) => d.runningId ≤ x.runningId) (Nat.le_refl _) (fun x hx => ?_)
    obtain ⟨_, _, rfl⟩ := orderChild_ok hx; exact Nat.le_refl _
  | popTag tag p =>
    change d.runningId ≤ (d.popByTag tag p).1.runningId
    unfold XmlDoc.popByTag
    split
    · exact Nat.le_refl _
    · simp only
      split <;> exact Nat.le_refl _
  | popDetached id =>
    change d.runningId ≤ (if d.listed id then d else (d.popElement id).1).runningId
    split <;> exact Nat.le_refl _

theorem XmlDoc.foldl_runningId (u : Unicode) (h : List Edit) (d : XmlDoc) :
    d.runningId ≤ (h.foldl (XmlDoc.edit u) d).runningId := by
  induction h generalizing d with
  | nil => exact Nat.le_refl _
  | cons e es ih => exact Nat.le_trans (XmlDoc.edit_runningId u d e) (ih _)

end Oxml
