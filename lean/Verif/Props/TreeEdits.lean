import Verif.Proofs.TreeEdits
import Verif.Props.Xml
/-!
# C71: an edit changes the element it names, as it says, and nothing else
-/
namespace Oxml
open Spec LTree

theorem tree_root {d : XmlDoc} {r : Node} (h : d.toXDoc.root = some r) : d.tree 0 = r := by
  unfold XmlDoc.tree
  unfold XmlDoc.toXDoc at h
  simp only at h
  rw [h]; rfl

theorem toXDoc_some {d : XmlDoc} (hinv : d.Inv) {e : Elem} (h : d.get 0 = some e) : d.toXDoc.root = some (d.tree 0) :=
  toNode_some hinv h (by omega)

theorem root_get {d : XmlDoc} {r : Node} (h : d.toXDoc.root = some r) : ∃ e, d.get 0 = some e := by
  unfold XmlDoc.toXDoc at h
  simp only at h
  unfold XmlDoc.toNode at h
  split at h
  · cases h
  · rename_i e he; exact ⟨e, he⟩

/-- The element at a path of the tree is the tree below the id at that path. -/
theorem at_tree {d : XmlDoc} (hinv : d.Inv) : ∀ {p : List Nat} {i j : Nat}, idAt d i p = some j → at? (d.tree i) p = some (d.tree j)
  | [], i, j, h => by
    unfold idAt at h
    cases hi : d.get i with
    | none => rw [hi] at h; cases h
    | some e => rw [hi] at h; cases h; rfl
  | k :: p, i, j, h => by
    unfold idAt at h
    split at h
    · cases h
    · rename_i e he
      split at h
      · cases h
      · rename_i c hc
        rw [tree_eq hinv he]
        simp only [at?, Node.children, List.getElem?_map, hc, Option.map_some]
        exact at_tree hinv h

theorem Acts.root {d d' : XmlDoc} (hinv : d.Inv) {i : Nat} {g : Node → Node} (h : Acts d d' i g) {p : List Nat} {r : Node}
    (hp : idAt d 0 p = some i) (hr : d.toXDoc.root = some r) :
    d'.toXDoc.root = some (updateAt g p r) ∧ ∀ q, Outside p q → idAt d' 0 q = idAt d 0 q := by
  have hid : ∀ q, Outside p q → idAt d' 0 q = idAt d 0 q := fun q hq => idAt_outside hinv h.same h.here hp hq
  obtain ⟨e0, he0⟩ : ∃ e, d'.get 0 = some e := by
    obtain ⟨e, he⟩ := root_get hr
    have := hid [] outside_nil
    unfold idAt at this
    rw [he] at this
    cases hx : d'.get 0 with
    | none => rw [hx] at this; cases this
    | some e => exact ⟨e, rfl⟩
  rw [toXDoc_some h.inv he0, tree_update hinv h.inv h.same h.tree hp, tree_root hr]
  exact ⟨rfl, hid⟩

/-- Every accepted edit acts on its element as `effect` says. -/
theorem acts_edit {u : Unicode} {d : XmlDoc} (hinv : d.Inv) (e : Edit) {i : Nat} {x : Elem} (ht : target e = some i) (hi : d.get i = some x)
    (ha : Accepted u e (d.tree i)) : Acts d (d.edit u e) i (effect e) ∧ (declares e = false → (d.edit u e).ns = d.ns) := by
  have hx := tree_eq hinv hi
  cases e with
  | createRoot tag => cases ht
  | popDetached j => cases ht
  | append tag p =>
    cases ht
    have hok : ∃ r, d.appendChild u tag i = .ok r := by
      simp only [XmlDoc.appendChild, XmlDoc.insertWith, hi, newElem, show isValidXmlName u tag = true from ha, if_true]
      exact ⟨_, rfl⟩
    obtain ⟨⟨d', new⟩, hd⟩ := hok
    have he : d.edit u (.append tag i) = d' := by simp [XmlDoc.edit, hd, Except.toOption]
    rw [he]
    have := acts_insert (g := effect (.append tag i)) places_append hinv hd (by
      intro y cs m hy hcs hm hn
      rw [hi] at hy; cases hy
      cases hcs
      rw [hx]
      simp only [effect, List.map_append, List.map_cons, List.map_nil, hn, List.map_congr_left hm])
    exact ⟨this.1, fun _ => this.2.2.2⟩
  | before tag f p =>
    cases ht
    have hok : ∃ r, d.insertBefore u tag f i = .ok r := by
      simp only [XmlDoc.insertBefore, XmlDoc.insertWith, hi, newElem, show isValidXmlName u tag = true from ha, if_true]
      exact ⟨_, rfl⟩
    obtain ⟨⟨d', new⟩, hd⟩ := hok
    have he : d.edit u (.before tag f i) = d' := by simp [XmlDoc.edit, hd, Except.toOption]
    rw [he]
    have := acts_insert (g := effect (.before tag f i)) (places_before f) hinv hd (by
      intro y cs m hy hcs hm hn
      rw [hi] at hy; cases hy
      cases hcs
      rw [hx]
      simp only [effect]
      rw [insertBefore_map _ _ _ (fun c hc => by rw [hm c hc, child_tag hinv hi hc]), hn, List.map_congr_left hm])
    exact ⟨this.1, fun _ => this.2.2.2⟩
  | after tag f p =>
    cases ht
    have hok : ∃ r, d.insertAfter u tag f i = .ok r := by
      simp only [XmlDoc.insertAfter, XmlDoc.insertWith, hi, newElem, show isValidXmlName u tag = true from ha, if_true]
      exact ⟨_, rfl⟩
    obtain ⟨⟨d', new⟩, hd⟩ := hok
    have he : d.edit u (.after tag f i) = d' := by simp [XmlDoc.edit, hd, Except.toOption]
    rw [he]
    have := acts_insert (g := effect (.after tag f i)) (places_after f) hinv hd (by
      intro y cs m hy hcs hm hn
      rw [hi] at hy; cases hy
      cases hcs
      rw [hx]
      simp only [effect]
      rw [insertAfter_map _ _ _ (fun c hc => by rw [hm c hc, child_tag hinv hi hc]), hn, List.map_congr_left hm])
    exact ⟨this.1, fun _ => this.2.2.2⟩
  | atPos tag k p =>
    cases ht
    obtain ⟨hv, hk⟩ := ha
    rw [hx] at hk
    simp only [Node.children, List.length_map] at hk
    have hok : ∃ r, d.insertAt u tag k i = .ok r := by
      simp only [XmlDoc.insertAt, XmlDoc.insertWith, hi, newElem, hv, hk, if_pos]
      exact ⟨_, rfl⟩
    obtain ⟨⟨d', new⟩, hd⟩ := hok
    have he : d.edit u (.atPos tag k i) = d' := by simp [XmlDoc.edit, hd, Except.toOption]
    rw [he]
    have := acts_insert (g := effect (.atPos tag k i)) (places_at k) hinv hd (by
      intro y cs m hy hcs hm hn
      rw [hi] at hy; cases hy
      rw [if_pos hk] at hcs
      cases hcs
      rw [hx]
      simp only [effect, List.map_append, List.map_cons, hn, List.map_take, List.map_drop, List.map_congr_left hm])
    exact ⟨this.1, fun _ => this.2.2.2⟩
  | attributes j new =>
    cases ht
    have hall : (akeys new).all (isValidXmlName u) = true := by
      rw [List.all_eq_true]
      intro k hk
      obtain ⟨kv, hkv, rfl⟩ := List.mem_map.mp hk
      exact ha kv hkv
    have hd : d.setAttribute u i new = .ok { d.put i { x with attrs := some (new.filter (fun kv => !isNsKey kv.1)) } with
        ns := (new.filter (fun kv => isNsKey kv.1)).foldl (fun m kv => addNs m kv.1 kv.2) d.ns } := by
      simp only [XmlDoc.setAttribute, hi, hall]
      rfl
    have he : d.edit u (.attributes i new) = { d.put i { x with attrs := some (new.filter (fun kv => !isNsKey kv.1)) } with
        ns := (new.filter (fun kv => isNsKey kv.1)).foldl (fun m kv => addNs m kv.1 kv.2) d.ns } := by
      simp only [XmlDoc.edit, hd]; rfl
    have hinv' := hinv.setAttribute hd
    rw [he]
    refine ⟨acts_put hinv hi hinv' (fun c hc => hc) (by rw [hx]; rfl), ?_⟩
    intro hdec
    have : new.filter (fun kv => isNsKey kv.1) = [] := by
      rw [List.filter_eq_nil_iff]
      intro kv hkv
      simp only [declares, List.any_eq_false] at hdec
      exact hdec kv hkv
    simp only [this]
    rfl
  | attr j k v =>
    cases ht
    obtain ⟨h1, h2, h3⟩ := ha
    rw [hx] at h1
    simp only [Node.attrs] at h1
    cases hattrs : x.attrs with
    | none => exact absurd hattrs h1
    | some a =>
      have he : d.edit u (.attr i k v) = { d.put i { x with attrs := some (ainsert k v a) } with ns := d.ns } := by
        simp only [XmlDoc.edit, XmlDoc.updateAttribute, hi, hattrs]
        rw [if_pos ⟨h2, h3⟩]
        rfl
      have hinv' := hinv.edit (u := u) (.attr i k v)
      rw [he] at hinv' ⊢
      exact ⟨acts_put hinv hi hinv' (fun c hc => hc) (by rw [hx, hattrs]; rfl), fun _ => rfl⟩
  | value j t =>
    cases ht
    have he : d.edit u (.value i t) = { d.put i { x with value := some t } with ns := d.ns } := by
      simp only [XmlDoc.edit, XmlDoc.setValue, hi]
      rfl
    have hinv' := hinv.edit (u := u) (.value i t)
    rw [he] at hinv' ⊢
    exact ⟨acts_put hinv hi hinv' (fun c hc => hc) (by rw [hx]; rfl), fun _ => rfl⟩
  | order j sk =>
    cases ht
    have he : d.edit u (.order i sk) = { d.put i { x with children := orderChildren Child.tag sk x.children } with ns := d.ns } := by
      simp only [XmlDoc.edit, XmlDoc.orderChild, hi]
      rfl
    have hinv' := hinv.edit (u := u) (.order i sk)
    rw [he] at hinv' ⊢
    refine ⟨acts_put hinv hi hinv' (fun c hc => (orderChildren_perm _ _ _).mem_iff.mp hc) ?_, fun _ => rfl⟩
    rw [hx]
    simp only [effect]
    rw [orderChildren_map _ _ (fun c hc => child_tag hinv hi hc)]
  | popTag tag p =>
    cases ht
    refine ⟨acts_pop hinv hi tag, fun _ => ?_⟩
    change (d.popByTag tag i).1.ns = d.ns
    unfold XmlDoc.popByTag
    rw [hi]
    simp only
    split <;> rfl

theorem edit_local {u : Unicode} {d : XmlDoc} (hinv : d.Inv) (e : Edit) {i : Nat} {p : List Nat} {r n : Node}
    (ht : target e = some i) (hp : idAt d 0 p = some i) (hr : d.toXDoc.root = some r) (hn : at? r p = some n) (ha : Accepted u e n) :
    (d.edit u e).toXDoc.root = some (updateAt (effect e) p r) ∧ (∀ q, Outside p q → idAt (d.edit u e) 0 q = idAt d 0 q) ∧
      (declares e = false → (d.edit u e).toXDoc.ns = d.toXDoc.ns) := by
  obtain ⟨x, hx⟩ := idAt_get hp
  have hat := at_tree hinv hp
  rw [tree_root hr, hn] at hat
  cases hat
  obtain ⟨h1, h2⟩ := acts_edit hinv e ht hx ha
  obtain ⟨h3, h4⟩ := h1.root hinv hp hr
  exact ⟨h3, h4, h2⟩

/-- **C71.** In every document the library can hold: an accepted edit of the element at a path changes exactly that
element, exactly as the edit says; every other element keeps its place, name, attributes, text and children, and
every path that does not lead below the element leads to the same id as before. Only attribute edits declaring namespaces touch the namespace map. -/
theorem C71_edit_local (u : Unicode) (d : XmlDoc) (h : Reachable u d) (e : Edit) (i : Nat) (p : List Nat) (r n : Node)
    (ht : target e = some i) (hp : idAt d 0 p = some i) (hr : d.toXDoc.root = some r) (hn : at? r p = some n) (ha : Accepted u e n) :
    (d.edit u e).toXDoc.root = some (updateAt (effect e) p r) ∧ (∀ q, Outside p q → idAt (d.edit u e) 0 q = idAt d 0 q) ∧
      (declares e = false → (d.edit u e).toXDoc.ns = d.toXDoc.ns) :=
  edit_local h.good.1 e ht hp hr hn ha

theorem append_local {u : Unicode} {d : XmlDoc} (hinv : d.Inv) {tag : String} {i : Nat} {p : List Nat} {r n : Node}
    (hp : idAt d 0 p = some i) (hr : d.toXDoc.root = some r) (hn : at? r p = some n) (hv : isValidXmlName u tag = true) :
    ∃ d' new, d.appendChild u tag i = .ok (d', new) ∧ d'.toXDoc.root = some (updateAt (effect (.append tag i)) p r) ∧
      d.get new = none ∧
      idAt d' 0 (p ++ [n.children.length]) = some new ∧ ∀ q, Outside p q → idAt d' 0 q = idAt d 0 q := by
  obtain ⟨x, hx⟩ := idAt_get hp
  have hat := at_tree hinv hp
  rw [tree_root hr, hn] at hat
  cases hat
  have hok : ∃ r, d.appendChild u tag i = .ok r := by
    simp only [XmlDoc.appendChild, XmlDoc.insertWith, hx, newElem, hv, if_true]
    exact ⟨_, rfl⟩
  obtain ⟨⟨d', new⟩, hd⟩ := hok
  have he : d.edit u (.append tag i) = d' := by simp [XmlDoc.edit, hd, Except.toOption]
  obtain ⟨h1, h2, _⟩ := edit_local (u := u) hinv (.append tag i) rfl hp hr hn hv
  rw [he] at h1 h2
  obtain ⟨y, cs, hy, _, hcs, hnew, hd'⟩ := insertWith_ok hd
  rw [hx] at hy; cases hy
  cases hcs
  refine ⟨d', new, hd, h1, ?_, ?_, h2⟩
  · cases hg : d.get new with
    | none => rfl
    | some z => have := hinv.le _ _ hg; omega
  · have hle := hinv.le _ _ hx
    have hgi : d'.get i = some { x with children := x.children ++ [{ id := d.runningId + 1, tag := tag }] } := by
      rw [hd']
      change ((d.put i _).put (d.runningId + 1) _).get i = _
      rw [XmlDoc.get_put_ne _ (by omega), XmlDoc.get_put_self]
    have hgn : ∃ z, d'.get new = some z := by
      rw [hd', hnew]
      exact ⟨_, XmlDoc.get_put_self _ _ _⟩
    obtain ⟨z, hz⟩ := hgn
    have go : ∀ {q : List Nat} {j : Nat}, idAt d' j q = some i → idAt d' j (q ++ [(d.tree i).children.length]) = some new := by
      intro q
      induction q with
      | nil =>
        intro j hj
        unfold idAt at hj
        cases hdj : d'.get j with
        | none => rw [hdj] at hj; cases hj
        | some w =>
          rw [hdj] at hj
          cases hj
          simp only [List.nil_append]
          unfold idAt
          rw [hgi, tree_eq hinv hx]
          simp only [Node.children, List.length_map, List.getElem?_concat_length]
          rw [← hnew]
          unfold idAt
          rw [hz]
          rfl
      | cons k q ih =>
        intro j hj
        unfold idAt at hj
        simp only [List.cons_append]
        unfold idAt
        split at hj
        · cases hj
        · split at hj
          · cases hj
          · exact ih hj
    exact go (by rw [h2 p (outside_self p)]; exact hp)

/-- **C71, new elements.** Appending returns an id never used before, which leads to the new last child. -/
theorem C71_append (u : Unicode) (d : XmlDoc) (h : Reachable u d) (tag : String) (i : Nat) (p : List Nat) (r n : Node)
    (hp : idAt d 0 p = some i) (hr : d.toXDoc.root = some r) (hn : at? r p = some n) (hv : isValidXmlName u tag = true) :
    ∃ d' new, d.appendChild u tag i = .ok (d', new) ∧ d'.toXDoc.root = some (updateAt (effect (.append tag i)) p r) ∧
      d.get new = none ∧
      idAt d' 0 (p ++ [n.children.length]) = some new ∧ ∀ q, Outside p q → idAt d' 0 q = idAt d 0 q :=
  append_local h.good.1 hp hr hn hv

/-- **C71, refused edits.** An edit that is not accepted for its element leaves the document as it was. -/
theorem C71_refused (u : Unicode) (d : XmlDoc) (h : Reachable u d) (e : Edit) (i : Nat) (p : List Nat) (r n : Node)
    (ht : target e = some i) (hp : idAt d 0 p = some i) (hr : d.toXDoc.root = some r) (hn : at? r p = some n) (ha : ¬Accepted u e n) :
    d.edit u e = d := by
  have hinv := h.good.1
  obtain ⟨x, hx⟩ := idAt_get hp
  have hat := at_tree hinv hp
  rw [tree_root hr, hn] at hat
  cases hat
  have ins : ∀ tag (place : Child → List Child → Res (List Child)),
      (isValidXmlName u tag = false ∨ ∀ c, ∃ er, place c x.children = .error er) →
      ((d.insertWith u tag i place).toOption.map Prod.fst).getD d = d := by
    intro tag place hb
    unfold XmlDoc.insertWith
    rw [hx]
    simp only [newElem]
    cases hv : isValidXmlName u tag with
    | false => rfl
    | true =>
      rcases hb with hb | hb
      · rw [hb] at hv; cases hv
      · obtain ⟨er, her⟩ := hb { id := d.runningId + 1, tag := tag }
        simp only [if_true, bind, Except.bind, her]
        rfl
  cases e with
  | createRoot tag => cases ht
  | popDetached j => cases ht
  | append tag p => cases ht; exact ins _ _ (.inl (by simpa [Accepted] using ha))
  | before tag f p => cases ht; exact ins _ _ (.inl (by simpa [Accepted] using ha))
  | after tag f p => cases ht; exact ins _ _ (.inl (by simpa [Accepted] using ha))
  | atPos tag k p =>
    cases ht
    apply ins
    cases hv : isValidXmlName u tag with
    | false => exact .inl rfl
    | true =>
      right
      intro c
      simp only [Accepted, hv, true_and] at ha
      rw [tree_eq hinv hx] at ha
      simp only [Node.children, List.length_map] at ha
      rw [if_neg ha]
      exact ⟨_, rfl⟩
  | attributes j new =>
    cases ht
    have hall : (akeys new).all (isValidXmlName u) = false := by
      rw [Bool.eq_false_iff]
      intro hc
      apply ha
      rw [List.all_eq_true] at hc
      intro kv hkv
      exact hc kv.1 (List.mem_map.mpr ⟨kv, hkv, rfl⟩)
    simp only [XmlDoc.edit, XmlDoc.setAttribute, hx, hall]
    rfl
  | attr j k v =>
    cases ht
    simp only [XmlDoc.edit, XmlDoc.updateAttribute, hx]
    split
    · rfl
    · rename_i a hattrs
      rw [if_neg]
      intro hc
      apply ha
      rw [tree_eq hinv hx]
      exact ⟨by simp [Node.attrs, hattrs], hc.1, hc.2⟩
  | value j t => exact absurd trivial ha
  | order j sk => exact absurd trivial ha
  | popTag tag p => exact absurd trivial ha

/-! ### Taking elements out -/

/-- **C71, removed elements.** Popping the children with a tag returns exactly those children in order, each with its
whole subtree, and nothing when there is none. -/
theorem C71_pop (u : Unicode) (d : XmlDoc) (h : Reachable u d) (tag : String) (i : Nat) (p : List Nat) (r n : Node)
    (hp : idAt d 0 p = some i) (hr : d.toXDoc.root = some r) (hn : at? r p = some n) :
    match (d.popByTag tag i).2 with
    | none => n.children.filter (fun c => c.tag = tag) = []
    | some es => es ≠ [] ∧ es.map (treeOf (d.popByTag tag i).1) = (n.children.filter (fun c => c.tag = tag)).map some := by
  have hinv := h.good.1
  obtain ⟨e, he⟩ := idAt_get hp
  have hat := at_tree hinv hp
  rw [tree_root hr, hn] at hat
  cases hat
  have hinv' := hinv.popByTag tag i
  have hfil : (d.tree i).children.filter (fun c => decide (c.tag = tag)) =
      (e.children.filter (fun c => decide (c.tag = tag))).map (fun c => d.tree c.id) := by
    rw [tree_eq hinv he]
    simp only [Node.children]
    rw [List.filter_map]
    congr 1
    apply List.filter_congr
    intro c hc
    simp only [Function.comp_apply]
    rw [child_tag hinv he hc]
  rw [hfil]
  have hidl : d.idsByTag tag i = (e.children.filter (fun c => decide (c.tag = tag))).map Child.id := by
    unfold XmlDoc.idsByTag
    rw [he]
  by_cases hids : d.idsByTag tag i = []
  · have e1 : (d.popByTag tag i).2 = none := by
      unfold XmlDoc.popByTag
      rw [he]
      simp [hids]
    rw [e1]
    simp only
    rw [hidl] at hids
    simp only [List.map_eq_nil_iff] at hids ⊢
    exact hids
  · have hget : ∀ k, k ∉ d.idsByTag tag i → i ≠ k → (d.popByTag tag i).1.get k = d.get k := by
      intro k h1 h2
      unfold XmlDoc.popByTag
      rw [he]
      simp only [if_neg hids]
      change aget k (List.foldl (fun m i => aerase i m) (d.put i _).elems (d.idsByTag tag i)) = _
      rw [aget_foldl_aerase, if_neg h1]
      change (d.put i _).get k = _
      rw [XmlDoc.get_put_ne _ h2]
    have hmem : ∀ k, k ∈ d.idsByTag tag i → ∃ c ∈ e.children, c.id = k ∧ c.tag = tag := by
      intro k hk
      rw [hidl] at hk
      obtain ⟨c, hc, hid⟩ := List.mem_map.mp hk
      obtain ⟨h1, h2⟩ := List.mem_filter.mp hc
      exact ⟨c, h1, hid, by simpa using h2⟩
    -- the elements themselves
    have hel : ∀ c ∈ e.children, ∃ ec, d.get c.id = some ec ∧ aget c.id (d.put i { e with children := e.children.filter (fun c => decide (c.tag ≠ tag)) }).elems = some ec ∧
        treeOf (d.popByTag tag i).1 ec = some (d.tree c.id) := by
      intro c hc
      obtain ⟨hlt, ec, hec, _⟩ := hinv.tree.child _ _ he c hc
      refine ⟨ec, hec, ?_, ?_⟩
      · change (d.put i _).get c.id = _
        rw [XmlDoc.get_put_ne _ (by omega)]; exact hec
      · unfold treeOf
        rw [tree_eq hinv hec]
        have : collect (ec.children.map (fun c => (d.popByTag tag i).1.toNode ((d.popByTag tag i).1.runningId + 1) c.id)) =
            some (ec.children.map (fun c => d.tree c.id)) := by
          apply collect_of_some
          intro k hk
          obtain ⟨hlt2, ek, hek, _⟩ := hinv.tree.child _ _ hec k hk
          have hsame : ∀ j, Desc d k.id j → (d.popByTag tag i).1.get j = d.get j := by
            intro j hj
            have hge := hj.le hinv
            apply hget j _ (by omega)
            intro hin
            obtain ⟨c', hc', rfl, _⟩ := hmem j hin
            by_cases heq : c.id = c'.id
            · omega
            · exact siblings_apart hinv he hc hc' heq ((Desc.child hec hk).trans hj) .refl
          have hek' : (d.popByTag tag i).1.get k.id = some ek := by rw [hsame _ .refl]; exact hek
          rw [toNode_some hinv' hek' (by omega)]
          congr 1
          exact tree_frame hinv hinv' _ _ ek (Nat.lt_succ_self _) hek (fun j hj _ => hsame j hj)
        rw [this]; rfl
    have hes : ∀ cs : List Child, (∀ c ∈ cs, c ∈ e.children) →
        ((cs.map Child.id).filterMap (fun j => aget j (d.put i { e with children := e.children.filter (fun c => decide (c.tag ≠ tag)) }).elems)).map
          (treeOf (d.popByTag tag i).1) = (cs.map (fun c => d.tree c.id)).map some ∧
        ((cs.map Child.id).filterMap (fun j => aget j (d.put i { e with children := e.children.filter (fun c => decide (c.tag ≠ tag)) }).elems)).length = cs.length := by
      intro cs
      induction cs with
      | nil => intro _; exact ⟨rfl, rfl⟩
      | cons c cs ih =>
        intro hsub
        obtain ⟨ec, _, h2, h3⟩ := hel c (hsub c (by simp))
        obtain ⟨i1, i2⟩ := ih (fun x hx => hsub x (by simp [hx]))
        simp only [List.map_cons]
        simp only [List.filterMap_cons]
        rw [h2]
        simp only [List.map_cons, List.length_cons, h3, i1, i2, and_self]
    obtain ⟨h1, h2⟩ := hes (e.children.filter (fun c => decide (c.tag = tag))) (fun c hc => (List.mem_filter.mp hc).1)
    have hout : (d.popByTag tag i).2 = some ((d.idsByTag tag i).filterMap (fun j => aget j (d.put i { e with children := e.children.filter (fun c => decide (c.tag ≠ tag)) }).elems)) := by
      unfold XmlDoc.popByTag
      rw [he]
      simp only [if_neg hids]
      rw [if_neg]
      rw [hidl]
      intro hnil
      rw [hnil] at h2
      apply hids
      rw [hidl]
      simp only [List.length_nil] at h2
      rw [List.length_eq_zero_iff.mp h2.symm]
      rfl
    rw [hout]
    simp only
    rw [hidl]
    refine ⟨?_, h1⟩
    intro hnil
    rw [hnil] at h2
    apply hids
    rw [hidl]
    simp only [List.length_nil] at h2
    rw [List.length_eq_zero_iff.mp h2.symm]
    rfl

/-! ### Adding whole trees -/

theorem at_updateAt {f : Node → Node} : ∀ {p : List Nat} {r n : Node}, at? r p = some n → at? (updateAt f p r) p = some (f n)
  | [], r, n, h => by cases h; rfl
  | k :: p, .mk t a v cs, n, h => by
    unfold at? at h
    split at h
    · cases h
    · rename_i c hc
      simp only [Node.children] at hc
      simp only [updateAt, at?, Node.withChildren, Node.children, List.getElem?_modify, hc, if_true]
      exact at_updateAt h

theorem updateAt_comp {f g : Node → Node} : ∀ {p : List Nat} {r : Node}, updateAt g p (updateAt f p r) = updateAt (fun n => g (f n)) p r
  | [], r => rfl
  | k :: p, .mk t a v cs => by
    simp only [updateAt, Node.withChildren, Node.children]
    congr 1
    apply List.ext_getElem?
    intro i
    simp only [List.getElem?_modify]
    cases cs[i]? with
    | none => rfl
    | some c =>
      by_cases h : k = i
      · simp [h, updateAt_comp]
      · simp [h]

theorem updateAt_append {g : Node → Node} : ∀ {p q : List Nat} {r : Node}, updateAt g (p ++ q) r = updateAt (updateAt g q) p r
  | [], q, r => rfl
  | k :: p, q, .mk t a v cs => by
    simp only [List.cons_append, updateAt]
    congr 2
    funext n
    exact updateAt_append

theorem updateAt_congr {f g : Node → Node} : ∀ {p : List Nat} {r n : Node}, at? r p = some n → f n = g n → updateAt f p r = updateAt g p r
  | [], r, n, h, hfg => by cases h; exact hfg
  | k :: p, .mk t a v cs, n, h, hfg => by
    unfold at? at h
    split at h
    · cases h
    · rename_i c hc
      simp only [Node.children] at hc
      simp only [updateAt, Node.withChildren, Node.children]
      congr 1
      apply List.ext_getElem?
      intro i
      simp only [List.getElem?_modify]
      by_cases hik : k = i
      · subst hik
        simp [hc, updateAt_congr h hfg]
      · simp [hik]

theorem at_append : ∀ {p q : List Nat} {r n : Node}, at? r p = some n → at? r (p ++ q) = at? n q
  | [], q, r, n, h => by cases h; rfl
  | k :: p, q, r, n, h => by
    unfold at? at h
    simp only [List.cons_append]
    split at h
    · cases h
    · rename_i c hc
      rw [at?, hc]
      exact at_append h

theorem modify_last {α : Type} (f : α → α) (x : α) : ∀ l : List α, (l ++ [x]).modify l.length f = l ++ [f x]
  | [] => rfl
  | y :: l => by
    simp only [List.cons_append, List.length_cons, List.modify_succ_cons, modify_last f x l]

/-- One step of a build at a fixed path. -/
structure Built (d d' : XmlDoc) (p : List Nat) (r : Node) (g : Node → Node) : Prop where
  inv : d'.Inv
  root : d'.toXDoc.root = some (updateAt g p r)
  id : ∀ q, Outside p q → idAt d' 0 q = idAt d 0 q
  ns : d'.ns = d.ns

def BuildsTree (u : Unicode) (n : Node) : Prop :=
  Writable u n → ∀ (d : XmlDoc) (i : Nat) (p : List Nat) (r m : Node), d.Inv → idAt d 0 p = some i → d.toXDoc.root = some r →
    at? r p = some m → ∃ d', addTree u d i n = .ok d' ∧ Built d d' p r (addKids [n])

def BuildsTrees (u : Unicode) (ns : List Node) : Prop :=
  Writables u ns → ∀ (d : XmlDoc) (i : Nat) (p : List Nat) (r m : Node), d.Inv → idAt d 0 p = some i → d.toXDoc.root = some r →
    at? r p = some m → ∃ d', addTrees u d i ns = .ok d' ∧ Built d d' p r (addKids ns)

theorem buildsTrees_of {u : Unicode} : ∀ {ns : List Node}, (∀ n ∈ ns, BuildsTree u n) → BuildsTrees u ns
  | [], _ => by
    intro _ d i p r m hinv hp hr hm
    refine ⟨d, rfl, hinv, ?_, fun _ _ => rfl, rfl⟩
    rw [hr]
    congr 1
    have : ∀ {p : List Nat} {r : Node}, updateAt (addKids []) p r = r := by
      intro p
      induction p with
      | nil => intro r; cases r; simp [updateAt, addKids]
      | cons k p ih =>
        intro r
        cases r with
        | mk t a v cs =>
          simp only [updateAt, Node.withChildren, Node.children]
          congr 1
          apply List.ext_getElem?
          intro j
          rw [List.getElem?_modify]
          cases cs[j]? with
          | none => rfl
          | some c => by_cases h : k = j <;> simp [h, ih]
    exact this.symm
  | n :: ns, hall => by
    intro hw d i p r m hinv hp hr hm
    obtain ⟨hw1, hw2⟩ := hw
    obtain ⟨d1, e1, b1⟩ := hall n (by simp) hw1 d i p r m hinv hp hr hm
    obtain ⟨d2, e2, b2⟩ := buildsTrees_of (fun x hx => hall x (by simp [hx])) hw2 d1 i p _ _ b1.inv (by rw [b1.id p (outside_self p)]; exact hp) b1.root (at_updateAt hm)
    refine ⟨d2, ?_, b2.inv, ?_, fun q hq => (b2.id q hq).trans (b1.id q hq), b2.ns.trans b1.ns⟩
    · simp only [addTrees, e1, bind, Except.bind]
      exact e2
    · rw [b2.root, updateAt_comp]
      congr 2
      funext x
      cases x
      simp [addKids]

theorem buildsTree (u : Unicode) : ∀ n, BuildsTree u n := by
  refine Node.ind ?_
  intro tag attrs value cs ih hw d i p r m hinv hp hr hm
  obtain ⟨hv, hattr, hcs⟩ := hw
  obtain ⟨d1, new, e1, r1, _, id1, out1⟩ := append_local hinv hp hr hm hv
  have inv1 : d1.Inv := hinv.insertWith places_append e1
  have ns1 : d1.ns = d.ns := by
    obtain ⟨_, _, _, _, _, _, rfl⟩ := insertWith_ok e1
    rfl
  have hm1 : at? (updateAt (effect (.append tag i)) p r) (p ++ [m.children.length]) = some (leaf tag) := by
    rw [at_append (at_updateAt hm)]
    cases m with
    | mk t a v ms => simp [effect, at?, Node.children]
  -- attributes
  have s2 : ∃ d2, (match attrs with | none => Except.ok d1 | some a => d1.setAttribute u new a) = Except.ok d2 ∧
      Built d1 d2 (p ++ [m.children.length]) (updateAt (effect (.append tag i)) p r) (fun _ => .mk tag attrs none []) := by
    cases attrs with
    | none =>
      refine ⟨d1, rfl, inv1, ?_, fun _ _ => rfl, rfl⟩
      rw [r1]
      congr 1
      rw [updateAt_congr (f := fun _ => Node.mk tag none none []) (g := fun x => x) hm1 rfl]
      have : ∀ {p : List Nat} {r : Node}, updateAt (fun x => x) p r = r := by
        intro p
        induction p with
        | nil => intro r; rfl
        | cons k p ih =>
          intro r
          cases r with
          | mk t a v cs =>
            simp only [updateAt, Node.withChildren, Node.children]
            congr 1
            apply List.ext_getElem?
            intro j
            rw [List.getElem?_modify]
            cases cs[j]? with
            | none => rfl
            | some c => by_cases h : k = j <;> simp [h, ih]
      exact this.symm
    | some a =>
      have hacc : Accepted u (.attributes new a) (leaf tag) := fun kv hkv => (hattr a rfl kv hkv).1
      have hdec : declares (.attributes new a) = false := by
        simp only [declares, List.any_eq_false]
        intro kv hkv
        rw [(hattr a rfl kv hkv).2]
        exact Bool.false_ne_true
      obtain ⟨h1, h2, h3⟩ := edit_local inv1 (.attributes new a) rfl id1 r1 hm1 hacc
      obtain ⟨x, hx⟩ := idAt_get id1
      have hall : (akeys a).all (isValidXmlName u) = true := by
        rw [List.all_eq_true]
        intro k hk
        obtain ⟨kv, hkv, rfl⟩ := List.mem_map.mp hk
        exact hacc kv hkv
      have hok : d1.setAttribute u new a = .ok (d1.edit u (.attributes new a)) := by
        simp only [XmlDoc.edit, XmlDoc.setAttribute, hx, hall]
        rfl
      refine ⟨_, hok, inv1.edit _, ?_, h2, h3 hdec⟩
      rw [h1]
      congr 1
      apply updateAt_congr hm1
      simp only [effect, leaf]
      congr 2
      rw [List.filter_eq_self]
      intro kv hkv
      rw [(hattr a rfl kv hkv).2]
      rfl
  obtain ⟨d2, e2, b2⟩ := s2
  have id2 : idAt d2 0 (p ++ [m.children.length]) = some new := by rw [b2.id _ (outside_self _)]; exact id1
  have hm2 := at_updateAt (f := fun _ => Node.mk tag attrs none []) hm1
  have s3 : ∃ d3, (match value with | none => Except.ok d2 | some v => d2.setValue new v) = Except.ok d3 ∧
      Built d1 d3 (p ++ [m.children.length]) (updateAt (effect (.append tag i)) p r) (fun _ => .mk tag attrs value []) := by
    cases value with
    | none => exact ⟨d2, rfl, b2.inv, b2.root, b2.id, b2.ns⟩
    | some v =>
      obtain ⟨h1, h2, h3⟩ := edit_local (u := u) b2.inv (.value new v) rfl id2 b2.root hm2 trivial
      obtain ⟨x, hx⟩ := idAt_get id2
      have hok : d2.setValue new v = .ok (d2.edit u (.value new v)) := by
        simp only [XmlDoc.edit, XmlDoc.setValue, hx]
        rfl
      refine ⟨_, hok, b2.inv.edit _, ?_, fun q hq => (h2 q hq).trans (b2.id q hq), (h3 rfl).trans b2.ns⟩
      rw [h1, updateAt_comp]
      rfl
  obtain ⟨d3, e3, b3⟩ := s3
  have id3 : idAt d3 0 (p ++ [m.children.length]) = some new := by rw [b3.id _ (outside_self _)]; exact id1
  have hm3 := at_updateAt (f := fun _ => Node.mk tag attrs value []) hm1
  obtain ⟨d4, e4, b4⟩ := buildsTrees_of ih hcs d3 new _ _ _ b3.inv id3 b3.root hm3
  refine ⟨d4, ?_, b4.inv, ?_, ?_, ?_⟩
  · simp only [addTree, e1, bind, Except.bind]
    cases attrs with
    | none =>
      cases e2
      cases value with
      | none => cases e3; exact e4
      | some v => simp only at e3 ⊢; rw [e3]; exact e4
    | some a =>
      simp only at e2 ⊢
      rw [e2]
      cases value with
      | none => cases e3; exact e4
      | some v => simp only at e3 ⊢; rw [e3]; exact e4
  · rw [b4.root, updateAt_comp, updateAt_append, updateAt_comp]
    congr 1
    apply updateAt_congr hm
    cases m with
    | mk t a v ms =>
      simp only [effect, updateAt, Node.withChildren, Node.children, addKids, modify_last]
      simp
  · intro q hq
    rw [b4.id q (outside_below _ hq), b3.id q (outside_below _ hq), out1 q hq]
  · rw [b4.ns, b3.ns, ns1]

/-- **C71, added trees.** The calls adding a tree with names the library accepts all succeed, and the document then holds
the old tree with that tree as new last child of the element, and nothing else changed. -/
theorem C71_add_tree (u : Unicode) (d : XmlDoc) (h : Reachable u d) (new : Node) (i : Nat) (p : List Nat) (r n : Node)
    (hp : idAt d 0 p = some i) (hr : d.toXDoc.root = some r) (hn : at? r p = some n) (hw : Writable u new) :
    ∃ d', addTree u d i new = .ok d' ∧ d'.toXDoc = { ns := d.toXDoc.ns, root := some (updateAt (addKids [new]) p r) } ∧
      ∀ q, Outside p q → idAt d' 0 q = idAt d 0 q := by
  obtain ⟨d', h1, h2⟩ := buildsTree u new hw d i p r n h.good.1 hp hr hn
  refine ⟨d', h1, ?_, h2.id⟩
  have e1 := h2.root
  have e2 := h2.ns
  unfold XmlDoc.toXDoc at e1 ⊢
  simp only at e1 ⊢
  rw [e1, e2]

/-! ### The document operations used by the part models -/

theorem idAt_root {d : XmlDoc} {r : Node} (h : d.toXDoc.root = some r) : idAt d 0 [] = some 0 := by
  obtain ⟨e, he⟩ := root_get h
  simp [idAt, he]

/-- `XDoc.popTag` is `pop_elements_by_tag_mut` at the root. -/
theorem C71_model_pop (u : Unicode) (d : XmlDoc) (h : Reachable u d) (r : Node) (hr : d.toXDoc.root = some r) (tag : String) :
    (d.popByTag tag 0).1.toXDoc = (d.toXDoc.popTag tag).2 ∧
    (match (d.popByTag tag 0).2 with
     | none => (d.toXDoc.popTag tag).1 = []
     | some es => es.map (treeOf (d.popByTag tag 0).1) = (d.toXDoc.popTag tag).1.map some) := by
  obtain ⟨h1, _, h3⟩ := C71_edit_local u d h (.popTag tag 0) 0 [] r r rfl (idAt_root hr) hr rfl trivial
  have h4 := C71_pop u d h tag 0 [] r r (idAt_root hr) hr rfl
  have hc : d.toXDoc.rootChildren = r.children := by simp [XDoc.rootChildren, hr]
  constructor
  · have e1 : (d.popByTag tag 0).1.toXDoc.root = ((d.toXDoc.popTag tag).2).root := by
      change (d.edit u (.popTag tag 0)).toXDoc.root = _
      rw [h1]
      simp only [XDoc.popTag, XDoc.mapRootChildren, hr]
      cases r
      rfl
    have e2 : (d.popByTag tag 0).1.toXDoc.ns = ((d.toXDoc.popTag tag).2).ns := h3 rfl
    cases hx : (d.popByTag tag 0).1.toXDoc with
    | mk a b =>
      cases hy : (d.toXDoc.popTag tag).2 with
      | mk a' b' =>
        rw [hx, hy] at e1 e2
        simp only at e1 e2
        rw [e1, e2]
  · simp only [XDoc.popTag, hc]
    split at h4
    · exact h4
    · exact h4.2

/-- `XDoc.appendAll` is what the calls adding the trees below the root do. -/
theorem C71_model_append (u : Unicode) (d : XmlDoc) (h : Reachable u d) (r : Node) (hr : d.toXDoc.root = some r) (ns : List Node)
    (hw : Writables u ns) : ∃ d', addTrees u d 0 ns = .ok d' ∧ d.toXDoc.appendAll ns = .ok d'.toXDoc := by
  obtain ⟨d', h1, h2⟩ := buildsTrees_of (fun n _ => buildsTree u n) hw d 0 [] r r h.good.1 (idAt_root hr) hr rfl
  refine ⟨d', h1, ?_⟩
  have e1 := h2.root
  have e2 : d'.toXDoc.ns = d.toXDoc.ns := h2.ns
  simp only [XDoc.appendAll, hr, XDoc.mapRootChildren]
  cases hx : d'.toXDoc with
  | mk a b =>
    rw [hx] at e1 e2
    simp only at e1 e2
    rw [e1, e2]
    cases r
    rfl

/-- `XDoc.insertRootAttrs` is a series of insertions through `get_attribute_mut` on the root. -/
theorem C71_model_attrs (u : Unicode) (kvs : Attrs) (hk : ∀ kv ∈ kvs, isValidXmlName u kv.1 = true ∧ "xmlns".toList.isPrefixOf kv.1.toList = false) :
    ∀ (d : XmlDoc), Reachable u d → ∀ r, d.toXDoc.root = some r →
    (kvs.foldl (fun d kv => d.edit u (.attr 0 kv.1 kv.2)) d).toXDoc = d.toXDoc.insertRootAttrs kvs := by
  induction kvs with
  | nil =>
    intro d _ r hr
    simp only [List.foldl_nil, XDoc.insertRootAttrs]
    cases hx : d.toXDoc with
    | mk a b =>
      rw [hx] at hr
      simp only at hr
      subst hr
      cases r with
      | mk t a v cs => cases a <;> rfl
  | cons kv kvs ih =>
    intro d h r hr
    simp only [List.foldl_cons]
    have hreach := h.edit (.attr 0 kv.1 kv.2) trivial
    cases r with
    | mk t a v cs =>
      cases a with
      | none =>
        have e := C71_refused u d h (.attr 0 kv.1 kv.2) 0 [] _ _ rfl (idAt_root hr) hr rfl (by rintro ⟨h1, _⟩; exact h1 rfl)
        rw [e, ih (fun x hx => hk x (by simp [hx])) d h _ hr]
        simp [XDoc.insertRootAttrs, hr]
      | some a =>
        obtain ⟨h1, _, h3⟩ := C71_edit_local u d h (.attr 0 kv.1 kv.2) 0 [] _ _ rfl (idAt_root hr) hr rfl
          ⟨by simp [Node.attrs], (hk kv (by simp)).1, (hk kv (by simp)).2⟩
        simp only [updateAt, effect, Option.map_some] at h1
        rw [ih (fun x hx => hk x (by simp [hx])) _ hreach _ h1]
        simp only [XDoc.insertRootAttrs, h1, h3 rfl, hr, Option.map_some, List.foldl_cons]

/-- `XDoc.template` is `create_root_mut` and `set_attribute_mut` with a default namespace on a new document. -/
theorem C71_model_template (u : Unicode) (tag uri : String) (hv : isValidXmlName u tag = true) :
    ((XmlDoc.new.edit u (.createRoot tag)).edit u (.attributes 0 [("xmlns", uri)])).toXDoc = XDoc.template tag uri := by
  have h1 : XmlDoc.new.edit u (.createRoot tag) =
      { runningId := 0, ns := [], elems := [(0, { id := 0, parentId := 0, tag := tag, attrs := none, value := none, children := [] })] } := by
    simp only [XmlDoc.edit, XmlDoc.createRoot, newElem, hv, if_true]
    rfl
  rw [h1]
  have hx : isValidXmlName u "xmlns" = true := by
    simp [isValidXmlName, nameTailOk, isNameStartChar, isNameChar, isAlphabetic]
  have h2 : isNsKey "xmlns" = true := by decide +kernel
  have h3 : nsAlias "xmlns" = none := by decide +kernel
  simp only [XmlDoc.edit, XmlDoc.setAttribute, XmlDoc.get, aget, if_true, akeys, List.map_cons, List.map_nil, List.all_cons, List.all_nil, hx,
    Bool.and_true, Bool.not_true, List.filter_cons, List.filter_nil, h2, List.foldl_cons, List.foldl_nil, addNs, h3]
  rfl

theorem lastNodeIdx_none {f : String} : ∀ {cs : List Node}, insertNodeAfter.lastNodeIdx f cs = none → ∀ c ∈ cs, c.tag ≠ f
  | [], _ => by simp
  | c :: cs, h => by
    unfold insertNodeAfter.lastNodeIdx at h
    split at h
    · cases h
    · rename_i hn
      split at h
      · cases h
      · rename_i hc
        intro x hx
        rcases List.mem_cons.mp hx with rfl | hx
        · exact hc
        · exact lastNodeIdx_none hn x hx

theorem lastNodeIdx_some {f : String} : ∀ {cs : List Node} {i : Nat}, insertNodeAfter.lastNodeIdx f cs = some i →
    ∃ a x b, cs = a ++ x :: b ∧ a.length = i ∧ x.tag = f ∧ ∀ y ∈ b, y.tag ≠ f
  | [], _, h => by cases h
  | c :: cs, i, h => by
    unfold insertNodeAfter.lastNodeIdx at h
    split at h
    · rename_i m hm
      cases h
      obtain ⟨a, x, b, h1, h2, h3, h4⟩ := lastNodeIdx_some hm
      exact ⟨c :: a, x, b, by rw [h1]; rfl, by simp [h2], h3, h4⟩
    · rename_i hn
      split at h
      · rename_i hc
        cases h
        exact ⟨[], c, cs, rfl, rfl, hc, lastNodeIdx_none hn⟩
      · cases h

/-- The insertion used for workbooks, worksheets and styles (`insert_children_after_tag_mut`) is the insertion behind the last child with the tag. -/
theorem C71_model_after (x : Node) (tag : String) (cs : List Node) : insertNodeAfter x tag cs = afterLast x tag cs := by
  unfold insertNodeAfter afterLast
  cases h : insertNodeAfter.lastNodeIdx tag cs with
  | none =>
    rw [if_neg]
    simp only [List.any_eq_true, decide_eq_true_eq]
    rintro ⟨c, hc, ht⟩
    exact lastNodeIdx_none h c hc ht
  | some i =>
    obtain ⟨a, y, b, rfl, rfl, hy, hb⟩ := lastNodeIdx_some h
    rw [if_pos (by
      simp only [List.any_eq_true, decide_eq_true_eq]
      exact ⟨y, by simp, hy⟩)]
    have hs := takeWhile_split (q := fun c : Node => decide (c.tag ≠ tag)) (a := b.reverse) (b := a.reverse) (x := y)
      (by
        intro z hz
        simpa using hb z (List.mem_reverse.mp hz)) (by simp [hy])
    have e : (a ++ y :: b).reverse = b.reverse ++ y :: a.reverse := by simp
    simp only [e, hs.1, hs.2]
    simp [List.take_append, List.drop_append]
    rw [List.take_of_length_le (by simp), List.drop_of_length_le (by simp)]
    rfl

/-- A document to try it on: `<a><b/><c><b/></c></a>`. -/
def threeLevels : XmlDoc :=
  XmlDoc.history ⟨fun _ => false⟩ [.createRoot "a", .append "b" 0, .append "c" 0, .append "b" 2]

/-- The hypotheses of the C71 theorems for the element at path `[1]` (id 2), and the effect of an insertion there. -/
example : Reachable ⟨fun _ => false⟩ threeLevels ∧ idAt threeLevels 0 [1] = some 2 ∧
    threeLevels.toXDoc.root = some (.mk "a" none none [leaf "b", .mk "c" none none [leaf "b"]]) ∧
    Accepted ⟨fun _ => false⟩ (.before "x" "b" 2) (.mk "c" none none [leaf "b"]) ∧
    (threeLevels.edit ⟨fun _ => false⟩ (.before "x" "b" 2)).toXDoc.root =
      some (.mk "a" none none [leaf "b", .mk "c" none none [leaf "x", leaf "b"]]) ∧
    Writable ⟨fun _ => false⟩ (.mk "x" (some [("k", "v")]) (some "t") [leaf "y"]) := by
  refine ⟨?_, by decide +kernel, by decide +kernel, by unfold Accepted; decide +kernel, by decide +kernel, ?_⟩
  · exact (((Reachable.new.edit (.createRoot "a") trivial).edit (.append "b" 0) trivial).edit (.append "c" 0) trivial).edit (.append "b" 2) trivial
  · refine ⟨by decide +kernel, ?_, ⟨by decide +kernel, (by intro a h; cases h), trivial⟩, trivial⟩
    intro a h kv hkv
    cases h
    simp only [List.mem_singleton] at hkv
    subst hkv
    exact ⟨by decide +kernel, by decide +kernel⟩

end Oxml
