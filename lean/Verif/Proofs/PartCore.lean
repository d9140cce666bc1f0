import Verif.Proofs.PartDocWrites
/-!
# Saving the core properties, as a program over the arena
-/
namespace Oxml
open Spec

/-- Acting on the first child with a tag is acting on the parent. -/
theorem acts_lift {d d' : XmlDoc} (hinv : d.Inv) {i : Nat} {e : Elem} (he : d.get i = some e) {tag : String} {c : Child}
    (hc : e.children.find? (fun c => decide (c.tag = tag)) = some c) {g : Node → Node} (ha : Acts d d' c.id g) :
    Acts d d' i (fun n => n.withChildren (mapFirst (fun x => decide (x.tag = tag)) g n.children)) := by
  have hmem := List.mem_of_find?_eq_some hc
  have hlt := (hinv.tree.child _ _ he c hmem).1
  have hi' : d'.get i = some e := by
    rw [ha.same i (fun h => by have := h.le hinv; omega) (by rw [he]; simp)]
    exact he
  have hsib : ∀ x ∈ e.children, x.id ≠ c.id → d'.tree x.id = d.tree x.id := by
    intro x hx hne
    obtain ⟨_, ex, hex, _⟩ := hinv.tree.child _ _ he x hx
    exact tree_frame hinv ha.inv (d.runningId - x.id + 1) x.id ex (by omega) hex
      (fun k hk hkn => ha.same k (fun h => siblings_apart hinv he hx hmem hne hk h) hkn)
  refine ⟨ha.inv, ?_, by rw [hi']; simp, ?_⟩
  · intro k hk hkn
    exact ha.same k (fun h => hk ((Desc.child he hmem).trans h)) hkn
  · rw [tree_eq ha.inv hi', tree_eq hinv he]
    simp only [Node.withChildren, Node.children]
    congr 1
    have honce := hinv.tree.once _ _ he
    have htags : ∀ x ∈ e.children, (d.tree x.id).tag = x.tag := fun x hx => child_tag hinv he hx
    have htree := ha.tree
    clear hi' he ha
    revert hc hmem hsib honce htags
    generalize e.children = cs
    intro hc hmem hsib honce htags
    clear hlt
    induction cs with
    | nil => cases hc
    | cons x xs ih =>
      rw [List.find?_cons] at hc
      simp only [List.map_cons, mapFirst]
      rw [htags x (by simp)]
      rw [List.map_cons, List.nodup_cons] at honce
      by_cases ht : x.tag = tag
      · simp only [ht, decide_true] at hc ⊢
        cases hc
        simp only [if_true]
        rw [htree]
        congr 1
        apply List.map_congr_left
        intro y hy
        refine hsib y (by simp [hy]) ?_
        intro h
        exact honce.1 (h ▸ List.mem_map_of_mem hy)
      · simp only [ht, decide_false] at hc ⊢
        have hcm := List.mem_of_find?_eq_some hc
        rw [hsib x (by simp) (by
          intro h
          exact honce.1 (h ▸ List.mem_map_of_mem hcm))]
        simp only [if_neg (by decide : ¬(false = true))]
        congr 1
        exact ih hc hcm (fun y hy => hsib y (by simp [hy])) honce.2 (fun y hy => htags y (by simp [hy]))

theorem mapFirst_none {α : Type} (p : α → Bool) (f : α → α) : ∀ l : List α, (∀ x ∈ l, p x = false) → mapFirst p f l = l
  | [], _ => rfl
  | x :: xs, h => by
    unfold mapFirst
    rw [h x (by simp), mapFirst_none p f xs (fun y hy => h y (by simp [hy]))]
    rfl

theorem withChildren_self (n : Node) : n.withChildren n.children = n := by cases n; rfl

/-- No child with the tag: nothing changes. -/
theorem mapFirst_missing {d : XmlDoc} (hinv : d.Inv) {i : Nat} {e : Elem} (he : d.get i = some e) {tag : String}
    (hc : e.children.find? (fun c => decide (c.tag = tag)) = none) (g : Node → Node) :
    (d.tree i).withChildren (mapFirst (fun x => decide (x.tag = tag)) g (d.tree i).children) = d.tree i := by
  rw [mapFirst_none]
  · exact withChildren_self _
  · intro x hx
    rw [tree_eq hinv he] at hx
    simp only [Node.children] at hx
    obtain ⟨c, hcm, rfl⟩ := List.mem_map.mp hx
    rw [child_tag hinv he hcm]
    have := List.find?_eq_none.mp hc c hcm
    simpa using this

/-- What one of the two updates does to the element found. -/
def coreSet (onlyEmpty : Bool) (now : String) (n : Node) : Node := if onlyEmpty ∧ n.value.isSome then n else n.withValue now

theorem coreAt_acts {u : Unicode} {d : XmlDoc} (hinv : d.Inv) {id : Nat} (hid : d.get id ≠ none) (b : Bool) (now : String) :
    ∃ d', coreAt d id b now = .ok d' ∧ Acts d d' id (coreSet b now) ∧ d'.ns = d.ns ∧ (Reachable u d → Reachable u d') := by
  unfold coreAt
  cases he : d.get id with
  | none => exact absurd he hid
  | some e =>
    simp only
    have hval : (d.tree id).value = e.value := by rw [tree_eq hinv he]; rfl
    by_cases h : b ∧ e.value.isSome
    · rw [if_pos h]
      have hd := (Does.id (u := u) hinv hid).congr (h := coreSet b now) (by
        unfold coreSet
        rw [hval, if_pos h])
      exact ⟨d, rfl, hd.acts, hd.ns, hd.reach⟩
    · rw [if_neg h]
      obtain ⟨d', h1, h2⟩ := runs_setValue (u := u) (x := now) id d hinv hid
      have hd := h2.congr (h := coreSet b now) (by
        unfold coreSet
        rw [hval, if_neg h]
        cases d.tree id
        rfl)
      exact ⟨d', h1, hd.acts, hd.ns, hd.reach⟩

theorem arenaCoreItem_acts {u : Unicode} {d : XmlDoc} (hinv : d.Inv) {e : Elem} (he : d.get 0 = some e) {tag : String}
    (ht : tag ≠ "cp:coreProperties") (b : Bool) (now : String) :
    ∃ d', arenaCoreItem d tag b now = .ok d' ∧ Acts d d' 0 (Node.mapCoreItem tag (coreSet b now)) ∧ d'.ns = d.ns ∧
      (Reachable u d → Reachable u d') := by
  have hroot : (d.tree 0).tag = e.tag := by rw [tree_eq hinv he]; rfl
  have stay : (Node.mapCoreItem tag (coreSet b now) (d.tree 0) = d.tree 0) → Acts d d 0 (Node.mapCoreItem tag (coreSet b now)) :=
    fun h => ((Does.id (u := u) hinv (by rw [he]; simp)).congr (h := Node.mapCoreItem tag (coreSet b now)) h.symm).acts
  have congr_acts : ∀ {d' : XmlDoc} {f g : Node → Node}, Acts d d' 0 f → f (d.tree 0) = g (d.tree 0) → Acts d d' 0 g :=
    fun a h => ⟨a.inv, a.same, a.here, by rw [a.tree, h]⟩
  unfold arenaCoreItem
  by_cases hr : e.tag = "cp:coreProperties"
  · have hm : ∀ n : Node, n.tag = "cp:coreProperties" → Node.mapCoreItem tag (coreSet b now) n =
        n.withChildren (mapFirst (fun c => decide (c.tag = tag)) (coreSet b now) n.children) := by
      intro n hn
      unfold Node.mapCoreItem
      rw [if_pos hn]
    have hid : d.firstElementId ["cp:coreProperties", tag] 0 = .ok ((e.children.find? (fun c => decide (c.tag = tag))).map Child.id) := by
      unfold XmlDoc.firstElementId
      rw [he]
      simp only [hr, and_self, if_true]
      rw [if_neg (by simp)]
      unfold XmlDoc.firstElementId
      rw [he]
      simp only [hr]
      rw [if_neg (by simp [Ne.symm ht])]
      cases e.children.find? (fun c => decide (c.tag = tag)) <;> rfl
    rw [hid]
    cases hf : e.children.find? (fun c => decide (c.tag = tag)) with
    | none =>
      refine ⟨d, rfl, stay ?_, rfl, fun h => h⟩
      rw [hm _ (by rw [hroot, hr])]
      exact mapFirst_missing hinv he hf _
    | some c =>
      obtain ⟨_, x, hx, _⟩ := hinv.tree.child _ _ he c (List.mem_of_find?_eq_some hf)
      obtain ⟨d', h1, h2, h3, h4⟩ := coreAt_acts (u := u) hinv (id := c.id) (by rw [hx]; simp) b now
      refine ⟨d', h1, congr_acts (acts_lift hinv he hf h2) ?_, h3, h4⟩
      rw [hm _ (by rw [hroot, hr])]
  · have hm : ∀ n : Node, n.tag ≠ "cp:coreProperties" → Node.mapCoreItem tag (coreSet b now) n =
        n.withChildren (mapFirst (fun c => decide (c.tag = "cp:coreProperties"))
          (fun n => n.withChildren (mapFirst (fun c => decide (c.tag = tag)) (coreSet b now) n.children)) n.children) := by
      intro n hn
      unfold Node.mapCoreItem
      rw [if_neg hn]
    cases hf : e.children.find? (fun c => decide (c.tag = "cp:coreProperties")) with
    | none =>
      have hid : d.firstElementId ["cp:coreProperties", tag] 0 = .ok none := by
        unfold XmlDoc.firstElementId
        rw [he]
        simp only [hr, false_and, if_false, hf]
      rw [hid]
      refine ⟨d, rfl, stay ?_, rfl, fun h => h⟩
      rw [hm _ (by rw [hroot]; exact hr)]
      exact mapFirst_missing hinv he hf _
    | some c =>
      obtain ⟨hpos, x, hx, _⟩ := hinv.tree.child _ _ he c (List.mem_of_find?_eq_some hf)
      have hid : d.firstElementId ["cp:coreProperties", tag] 0 = .ok ((x.children.find? (fun c => decide (c.tag = tag))).map Child.id) := by
        unfold XmlDoc.firstElementId
        rw [he]
        simp only [hr, false_and, if_false, hf]
        rw [if_neg (by simp)]
        unfold XmlDoc.firstElementId
        rw [hx]
        simp only
        rw [if_neg (by omega)]
        cases x.children.find? (fun c => decide (c.tag = tag)) <;> rfl
      rw [hid]
      cases hg : x.children.find? (fun c => decide (c.tag = tag)) with
      | none =>
        have hd := (Does.id (u := u) hinv (i := c.id) (by rw [hx]; simp)).congr
          (h := fun n => n.withChildren (mapFirst (fun c => decide (c.tag = tag)) (coreSet b now) n.children)) (mapFirst_missing hinv hx hg _).symm
        refine ⟨d, rfl, congr_acts (acts_lift hinv he hf hd.acts) ?_, rfl, fun h => h⟩
        rw [hm _ (by rw [hroot]; exact hr)]
      | some c2 =>
        obtain ⟨_, y, hy, _⟩ := hinv.tree.child _ _ hx c2 (List.mem_of_find?_eq_some hg)
        obtain ⟨d', h1, h2, h3, h4⟩ := coreAt_acts (u := u) hinv (id := c2.id) (by rw [hy]; simp) b now
        refine ⟨d', h1, congr_acts (acts_lift hinv he hf (acts_lift hinv hx hg h2)) ?_, h3, h4⟩
        rw [hm _ (by rw [hroot]; exact hr)]

theorem arenaSaveCore_eq {u : Unicode} {d : XmlDoc} (hinv : d.Inv) (now1 now2 : String) :
    Writes u d (arenaSaveCore now1 now2 d) (saveCore now1 now2 d.toXDoc) := by
  unfold saveCore
  cases he : d.get 0 with
  | none =>
    have : arenaSaveCore now1 now2 d = .error (.panic "unwrap on None") := by
      unfold arenaSaveCore arenaCoreItem XmlDoc.firstElementId
      rw [he]
      rfl
    rw [this, toXDoc_none he]
    exact writes_error
  | some e =>
    obtain ⟨d1, a1, a2, a3, a4⟩ := arenaCoreItem_acts (u := u) hinv he (tag := "dcterms:modified") (by decide) false now1
    obtain ⟨e1, he1⟩ := Option.ne_none_iff_exists'.mp a2.here
    obtain ⟨d2, b1, b2, b3, b4⟩ := arenaCoreItem_acts (u := u) a2.inv he1 (tag := "dcterms:created") (by decide) true now2
    obtain ⟨e2, he2⟩ := Option.ne_none_iff_exists'.mp b2.here
    have : arenaSaveCore now1 now2 d = .ok d2 := by
      unfold arenaSaveCore
      rw [a1]
      exact b1
    rw [this, toXDoc_some hinv he]
    refine ⟨?_, fun x hx => by cases hx; exact b2.inv, fun x hx hr => by cases hx; exact b4 (a4 hr)⟩
    change Except.ok d2.toXDoc = Except.ok _
    congr 1
    have hroot := toXDoc_some b2.inv he2
    rw [b2.tree, a2.tree] at hroot
    have hns : d2.toXDoc.ns = d.toXDoc.ns := b3.trans a3
    have hf1 : coreSet false now1 = fun n => n.withValue now1 := by
      funext n
      simp [coreSet]
    have hf2 : coreSet true now2 = fun n => match n.value with | some _ => n | none => n.withValue now2 := by
      funext n
      unfold coreSet
      cases n.value <;> simp
    rw [hf1, hf2] at hroot
    generalize d2.toXDoc = y at hroot hns
    generalize d.toXDoc = x at hns
    obtain ⟨ns, root⟩ := y
    obtain ⟨ns', root'⟩ := x
    simp only at hns hroot
    subst hns
    rw [hroot]
    rfl

end Oxml
