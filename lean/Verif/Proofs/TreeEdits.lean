import Verif.Proofs.LTree
import Verif.Spec.TreeEdits
/-!
# Edits of the arena as edits of the tree
-/
namespace Oxml
open Spec LTree

/-- The tree below an id. -/
def XmlDoc.tree (d : XmlDoc) (i : Nat) : Node := (d.toNode (d.runningId + 1) i).getD (leaf "")

theorem toNode_some {d : XmlDoc} (hinv : d.Inv) {i : Nat} {e : Elem} (he : d.get i = some e) {fuel : Nat}
    (hf : d.runningId - i < fuel) : d.toNode fuel i = some (d.tree i) := by
  obtain ⟨t, _, _, _, _, _, hn⟩ := exists_ltree hinv _ i e (Nat.lt_succ_self _) he
  unfold XmlDoc.tree
  rw [hn fuel hf, hn (d.runningId + 1) (by omega)]
  rfl

theorem collect_of_some {α β : Type} {f : α → Option β} {g : α → β} : ∀ {l : List α}, (∀ x ∈ l, f x = some (g x)) →
    collect (l.map f) = some (l.map g)
  | [], _ => rfl
  | x :: xs, h => by
    simp only [List.map_cons]
    rw [h x (by simp)]
    simp only [collect]
    rw [collect_of_some (fun y hy => h y (by simp [hy]))]
    rfl

theorem tree_eq {d : XmlDoc} (hinv : d.Inv) {i : Nat} {e : Elem} (he : d.get i = some e) :
    d.tree i = .mk e.tag e.attrs e.value (e.children.map (fun c => d.tree c.id)) := by
  unfold XmlDoc.tree
  conv => lhs; unfold XmlDoc.toNode
  rw [he]
  simp only
  have : collect (e.children.map (fun c => d.toNode d.runningId c.id)) = some (e.children.map (fun c => d.tree c.id)) := by
    apply collect_of_some
    intro c hc
    obtain ⟨hlt, ec, hec, _⟩ := hinv.tree.child i e he c hc
    exact toNode_some hinv hec (by have := hinv.le _ _ hec; omega)
  rw [this]
  rfl

theorem tree_tag {d : XmlDoc} (hinv : d.Inv) {i : Nat} {e : Elem} (he : d.get i = some e) : (d.tree i).tag = e.tag := by
  rw [tree_eq hinv he]; rfl

theorem child_tag {d : XmlDoc} (hinv : d.Inv) {i : Nat} {e : Elem} (he : d.get i = some e) {c : Child} (hc : c ∈ e.children) :
    (d.tree c.id).tag = c.tag := by
  obtain ⟨_, ec, hec, _, ht⟩ := hinv.tree.child i e he c hc
  rw [tree_tag hinv hec, ht]

/-- `j` lies below `i` or is `i`. -/
inductive Desc (d : XmlDoc) (i : Nat) : Nat → Prop
  | refl : Desc d i i
  | step {j : Nat} {e : Elem} {c : Child} : Desc d i j → d.get j = some e → c ∈ e.children → Desc d i c.id

theorem Desc.le {d : XmlDoc} (hinv : d.Inv) {i j : Nat} (h : Desc d i j) : i ≤ j := by
  induction h with
  | refl => exact Nat.le_refl _
  | step _ he hc ih => have := (hinv.tree.child _ _ he _ hc).1; omega

theorem Desc.trans {d : XmlDoc} {i j k : Nat} (h1 : Desc d i j) (h2 : Desc d j k) : Desc d i k := by
  induction h2 with
  | refl => exact h1
  | step _ he hc ih => exact ih.step he hc

theorem Desc.child {d : XmlDoc} {i : Nat} {e : Elem} (he : d.get i = some e) {c : Child} (hc : c ∈ e.children) : Desc d i c.id :=
  Desc.refl.step he hc

/-- The parent of a listed element is determined. -/
theorem parent_unique {d : XmlDoc} (hinv : d.Inv) {i j : Nat} {e f : Elem} (he : d.get i = some e) (hf : d.get j = some f)
    {c c' : Child} (hc : c ∈ e.children) (hc' : c' ∈ f.children) (h : c.id = c'.id) : i = j := by
  obtain ⟨_, x, hx, hp, _⟩ := hinv.tree.child _ _ he c hc
  obtain ⟨_, y, hy, hq, _⟩ := hinv.tree.child _ _ hf c' hc'
  rw [h, hy] at hx
  cases hx
  rw [← hp, ← hq]

/-- Two elements above the same element are above one another. -/
theorem Desc.linear {d : XmlDoc} (hinv : d.Inv) {a b j : Nat} (h1 : Desc d a j) : Desc d b j → Desc d a b ∨ Desc d b a := by
  induction h1 with
  | refl => intro h2; exact .inr h2
  | @step j e c h1 he hc ih =>
    intro h2
    generalize hk : c.id = k at h2
    cases h2 with
    | refl => left; rw [← hk]; exact h1.step he hc
    | @step j' e' c' h2 he' hc' =>
      have := parent_unique hinv he he' hc hc' hk
      subst this
      exact ih h2

/-- Different children have nothing in common below them. -/
theorem siblings_apart {d : XmlDoc} (hinv : d.Inv) {i : Nat} {e : Elem} (he : d.get i = some e) {c c' : Child}
    (hc : c ∈ e.children) (hc' : c' ∈ e.children) (hne : c.id ≠ c'.id) {j : Nat} (h1 : Desc d c.id j) (h2 : Desc d c'.id j) : False := by
  have key : ∀ {a b : Child}, a ∈ e.children → b ∈ e.children → a.id ≠ b.id → Desc d a.id b.id → False := by
    intro a b ha hb hab h
    generalize hk : b.id = k at h
    cases h with
    | refl => exact hab hk.symm
    | @step j' e' c'' h he' hc'' =>
      have := parent_unique hinv he he' hb hc'' hk
      subst this
      have h1 := h.le hinv
      have h2 := (hinv.tree.child _ _ he a ha).1
      omega
  rcases h1.linear hinv h2 with h | h
  · exact key hc hc' hne h
  · exact key hc' hc (Ne.symm hne) h

/-- A tree only depends on the elements below its root. -/
theorem tree_frame {d d' : XmlDoc} (hinv : d.Inv) (hinv' : d'.Inv) : ∀ n i e, d.runningId - i < n → d.get i = some e →
    (∀ j, Desc d i j → d.get j ≠ none → d'.get j = d.get j) → d'.tree i = d.tree i := by
  intro n
  induction n with
  | zero => intro i e h; omega
  | succ n ih =>
    intro i e hlt he hsame
    have he' : d'.get i = some e := by rw [hsame i .refl (by rw [he]; simp)]; exact he
    rw [tree_eq hinv he, tree_eq hinv' he']
    congr 1
    apply List.map_congr_left
    intro c hc
    obtain ⟨hci, ec, hec, _⟩ := hinv.tree.child _ _ he c hc
    have := hinv.le _ _ hec
    exact ih c.id ec (by omega) hec (fun j hj => hsame j ((Desc.child he hc).trans hj))

theorem idAt_get {d : XmlDoc} : ∀ {p : List Nat} {i j : Nat}, idAt d i p = some j → ∃ e, d.get j = some e
  | [], i, j, h => by
    unfold idAt at h
    cases hi : d.get i with
    | none => rw [hi] at h; cases h
    | some e => rw [hi] at h; cases h; exact ⟨e, hi⟩
  | k :: p, i, j, h => by
    unfold idAt at h
    split at h
    · cases h
    · split at h
      · cases h
      · exact idAt_get h

theorem idAt_desc {d : XmlDoc} : ∀ {p : List Nat} {i j : Nat}, idAt d i p = some j → Desc d i j
  | [], i, j, h => by
    unfold idAt at h
    cases hi : d.get i with
    | none => rw [hi] at h; cases h
    | some e => rw [hi] at h; cases h; exact .refl
  | k :: p, i, j, h => by
    unfold idAt at h
    split at h
    · cases h
    · rename_i e he
      split at h
      · cases h
      · rename_i c hc
        exact (Desc.child he (List.mem_of_getElem? hc)).trans (idAt_desc h)

theorem modify_map {α β : Type} (f : α → β) (g : β → β) : ∀ (l : List α) (k : Nat) (f' : α → β),
    (∀ i (h : i < l.length), f' l[i] = if i = k then g (f l[i]) else f l[i]) → l.map f' = (l.map f).modify k g := by
  intro l k f' h
  apply List.ext_getElem
  · simp
  · intro i h1 h2
    simp only [List.getElem_map, List.getElem_modify]
    rw [h i (by simpa using h1)]
    by_cases hik : i = k
    · simp [hik]
    · simp [hik, Ne.symm hik]

/-- A change confined to the elements below `j` changes the tree at the path of `j` only. -/
theorem tree_update {d d' : XmlDoc} (hinv : d.Inv) (hinv' : d'.Inv) {j : Nat} {g : Node → Node}
    (hsame : ∀ k, ¬Desc d j k → d.get k ≠ none → d'.get k = d.get k) (hj : d'.tree j = g (d.tree j)) :
    ∀ {p : List Nat} {i : Nat}, idAt d i p = some j → d'.tree i = updateAt g p (d.tree i)
  | [], i, h => by
    unfold idAt at h
    cases hi : d.get i with
    | none => rw [hi] at h; cases h
    | some e => rw [hi] at h; cases h; exact hj
  | k :: p, i, h => by
    unfold idAt at h
    split at h
    · cases h
    · rename_i e he
      split at h
      · cases h
      · rename_i c hc
        have hcm := List.mem_of_getElem? hc
        have hcd := idAt_desc h
        have hlt := (hinv.tree.child _ _ he c hcm).1
        have hnd : ¬Desc d j i := by
          intro hji
          have h1 := hji.le hinv
          have h2 := hcd.le hinv
          omega
        have he' : d'.get i = some e := by rw [hsame i hnd (by rw [he]; simp)]; exact he
        rw [tree_eq hinv he, tree_eq hinv' he']
        simp only [updateAt, Node.withChildren, Node.children]
        congr 1
        apply modify_map (fun c : Child => d.tree c.id)
        intro m hm
        obtain ⟨hkl, hck⟩ := List.getElem?_eq_some_iff.mp hc
        split
        · rename_i hmk
          subst hmk
          rw [hck]
          exact tree_update hinv hinv' hsame hj h
        · rename_i hmk
          have hmm : e.children[m] ∈ e.children := List.getElem_mem hm
          obtain ⟨_, em, hem, _⟩ := hinv.tree.child _ _ he _ hmm
          have hids : c.id ≠ e.children[m].id := by
            intro heq
            have hn := hinv.tree.once _ _ he
            rw [← hck] at heq
            have := (List.getElem_inj (i := k) (j := m) (h₀ := by simpa using hkl) (h₁ := by simpa using hm) hn).mp
              (by simpa using heq)
            exact hmk this.symm
          apply tree_frame hinv hinv' _ _ em (Nat.lt_succ_self _) hem
          intro x hx hxn
          apply hsame x _ hxn
          intro hjx
          exact siblings_apart hinv he hcm hmm hids (hcd.trans hjx) hx

/-- Paths within unchanged elements keep their ids. -/
theorem idAt_frame {d d' : XmlDoc} : ∀ {q : List Nat} {i : Nat}, (∀ j, Desc d i j → d.get j ≠ none → d'.get j = d.get j) →
    (d.get i ≠ none) → (∀ k e, Desc d i k → d.get k = some e → ∀ c ∈ e.children, d.get c.id ≠ none) → idAt d' i q = idAt d i q
  | [], i, h, hi, _ => by unfold idAt; rw [h i .refl hi]
  | k :: q, i, h, hi, hch => by
    unfold idAt
    rw [h i .refl hi]
    cases he : d.get i with
    | none => rfl
    | some e =>
      simp only
      cases hc : e.children[k]? with
      | none => rfl
      | some c =>
        have hm := List.mem_of_getElem? hc
        simp only
        exact idAt_frame (fun j hj => h j ((Desc.child he hm).trans hj)) (hch i e .refl he c hm)
          (fun k x hk => hch k x ((Desc.child he hm).trans hk))

/-- The paths outside the changed element keep their ids. -/
theorem idAt_outside {d d' : XmlDoc} (hinv : d.Inv) {j : Nat}
    (hsame : ∀ k, ¬Desc d j k → d.get k ≠ none → d'.get k = d.get k) (hj : d'.get j ≠ none) :
    ∀ {p q : List Nat} {i : Nat}, idAt d i p = some j → Outside p q → idAt d' i q = idAt d i q
  | [], [], i, h, _ => by
    unfold idAt at h ⊢
    cases hi : d.get i with
    | none => rw [hi] at h; cases h
    | some e =>
      rw [hi] at h; cases h
      cases hd : d'.get i with
      | none => exact absurd hd hj
      | some _ => rfl
  | [], m :: q, i, _, ho => absurd rfl (ho m q)
  | k :: p, q, i, h, ho => by
    unfold idAt at h
    split at h
    · cases h
    · rename_i e he
      split at h
      · cases h
      · rename_i c hc
        have hcm := List.mem_of_getElem? hc
        have hcd := idAt_desc h
        have hlt := (hinv.tree.child _ _ he c hcm).1
        have hnd : ¬Desc d j i := by
          intro hji
          have h1 := hji.le hinv
          have h2 := hcd.le hinv
          omega
        have he' : d'.get i = some e := by rw [hsame i hnd (by rw [he]; simp)]; exact he
        cases q with
        | nil => unfold idAt; rw [he, he']
        | cons m q =>
          unfold idAt
          rw [he, he']
          simp only
          cases hcm' : e.children[m]? with
          | none => rfl
          | some c' =>
            simp only
            by_cases hmk : m = k
            · subst hmk
              rw [hc] at hcm'
              cases hcm'
              exact idAt_outside hinv hsame hj h (fun a s hq => ho a s (by rw [hq]; rfl))
            · have hm' := List.mem_of_getElem? hcm'
              obtain ⟨_, em, hem, _⟩ := hinv.tree.child _ _ he _ hm'
              have hids : c.id ≠ c'.id := by
                intro heq
                obtain ⟨h1, e1⟩ := List.getElem?_eq_some_iff.mp hc
                obtain ⟨h2, e2⟩ := List.getElem?_eq_some_iff.mp hcm'
                have hn := hinv.tree.once _ _ he
                rw [← e1, ← e2] at heq
                have := (List.getElem_inj (i := k) (j := m) (h₀ := by simpa using h1) (h₁ := by simpa using h2) hn).mp
                  (by simpa using heq)
                exact hmk this.symm
              apply idAt_frame
              · intro x hx hxn
                apply hsame x _ hxn
                intro hjx
                exact siblings_apart hinv he hcm hm' hids (hcd.trans hjx) hx
              · rw [hem]; simp
              · intro y ey _ hy c2 hc2
                obtain ⟨_, e2, he2, _⟩ := hinv.tree.child _ _ hy c2 hc2
                rw [he2]; simp

theorem outside_self (p : List Nat) : Outside p p := by
  intro k s h
  have := congrArg List.length h
  simp at this

theorem outside_nil {p : List Nat} : Outside p [] := by
  intro k s h
  have := congrArg List.length h
  simp at this

theorem outside_below {p q : List Nat} (k : Nat) (h : Outside p q) : Outside (p ++ [k]) q := by
  intro m s hq
  exact h k (m :: s) (by rw [hq]; simp)

/-! ### Positions -/

theorem findIdx_some {α : Type} {q : α → Bool} : ∀ {l : List α} {i : Nat}, l.findIdx? q = some i →
    ∃ a x b, l = a ++ x :: b ∧ a.length = i ∧ q x = true ∧ ∀ y ∈ a, q y = false
  | [], i, h => by simp at h
  | y :: l, i, h => by
    rw [List.findIdx?_cons] at h
    split at h
    · rename_i hy
      cases h
      exact ⟨[], y, l, rfl, rfl, hy, by simp⟩
    · rename_i hy
      cases hl : l.findIdx? q with
      | none => rw [hl] at h; cases h
      | some m =>
        rw [hl] at h
        cases h
        obtain ⟨a, x, b, h1, h2, h3, h4⟩ := findIdx_some hl
        refine ⟨y :: a, x, b, by rw [h1]; rfl, by simp [h2], h3, ?_⟩
        intro z hz
        rcases List.mem_cons.mp hz with rfl | hz
        · simpa using hy
        · exact h4 z hz

theorem takeWhile_split {α : Type} {q : α → Bool} {a b : List α} {x : α} (ha : ∀ y ∈ a, q y = true) (hx : q x = false) :
    (a ++ x :: b).takeWhile q = a ∧ (a ++ x :: b).dropWhile q = x :: b := by
  induction a with
  | nil => simp [hx]
  | cons y a ih =>
    have := ih (fun z hz => ha z (by simp [hz]))
    simp [ha y (by simp), this.1, this.2]

theorem insertBefore_map {g : Child → Node} (new : Child) (f : String) (cs : List Child) (hg : ∀ c ∈ cs, (g c).tag = c.tag) :
    (insertBeforeTag new f cs).map g = beforeFirst (g new) f (cs.map g) := by
  unfold insertBeforeTag beforeFirst
  cases h : cs.findIdx? (fun c => decide (c.tag = f)) with
  | none =>
    rw [if_neg]
    · rfl
    · rw [List.findIdx?_eq_none_iff] at h
      simp only [List.any_map, List.any_eq_true, Function.comp_apply, decide_eq_true_eq]
      rintro ⟨c, hc, ht⟩
      rw [hg c hc] at ht
      simpa [ht] using h c hc
  | some i =>
    obtain ⟨a, x, b, rfl, rfl, hx, ha⟩ := findIdx_some h
    have hx' : (g x).tag = f := by rw [hg x (by simp)]; simpa using hx
    rw [if_pos (by
      simp only [List.any_map, List.any_eq_true, Function.comp_apply, decide_eq_true_eq]
      exact ⟨x, by simp, hx'⟩)]
    have hs := takeWhile_split (q := fun c : Node => decide (c.tag ≠ f)) (a := a.map g) (b := b.map g) (x := g x)
      (by
        intro y hy
        obtain ⟨c, hc, rfl⟩ := List.mem_map.mp hy
        have := ha c hc
        simp only [decide_eq_false_iff_not] at this
        rw [hg c (by simp [hc])]
        simpa using this) (by simp [hx'])
    simp only [List.map_append, List.map_cons, hs.1, hs.2]
    simp

theorem lastTagIdx_none {f : String} : ∀ {cs : List Child}, lastTagIdx f cs = none → ∀ c ∈ cs, c.tag ≠ f
  | [], _ => by simp
  | c :: cs, h => by
    unfold lastTagIdx at h
    split at h
    · cases h
    · rename_i hn
      split at h
      · cases h
      · rename_i hc
        intro x hx
        rcases List.mem_cons.mp hx with rfl | hx
        · exact hc
        · exact lastTagIdx_none hn x hx

theorem lastTagIdx_some {f : String} : ∀ {cs : List Child} {i : Nat}, lastTagIdx f cs = some i →
    ∃ a x b, cs = a ++ x :: b ∧ a.length = i ∧ x.tag = f ∧ ∀ y ∈ b, y.tag ≠ f
  | [], _, h => by cases h
  | c :: cs, i, h => by
    unfold lastTagIdx at h
    split at h
    · rename_i m hm
      cases h
      obtain ⟨a, x, b, h1, h2, h3, h4⟩ := lastTagIdx_some hm
      exact ⟨c :: a, x, b, by rw [h1]; rfl, by simp [h2], h3, h4⟩
    · rename_i hn
      split at h
      · rename_i hc
        cases h
        exact ⟨[], c, cs, rfl, rfl, hc, lastTagIdx_none hn⟩
      · cases h

theorem insertAfter_map {g : Child → Node} (new : Child) (f : String) (cs : List Child) (hg : ∀ c ∈ cs, (g c).tag = c.tag) :
    (insertAfterTag new f cs).map g = afterLast (g new) f (cs.map g) := by
  unfold insertAfterTag afterLast
  cases h : lastTagIdx f cs with
  | none =>
    rw [if_neg]
    · simp
    · simp only [List.any_map, List.any_eq_true, Function.comp_apply, decide_eq_true_eq]
      rintro ⟨c, hc, ht⟩
      rw [hg c hc] at ht
      exact lastTagIdx_none h c hc ht
  | some i =>
    obtain ⟨a, x, b, rfl, rfl, hx, hb⟩ := lastTagIdx_some h
    have hx' : (g x).tag = f := by rw [hg x (by simp)]; exact hx
    rw [if_pos (by
      simp only [List.any_map, List.any_eq_true, Function.comp_apply, decide_eq_true_eq]
      exact ⟨x, by simp, hx'⟩)]
    have hs := takeWhile_split (q := fun c : Node => decide (c.tag ≠ f)) (a := (b.map g).reverse) (b := (a.map g).reverse) (x := g x)
      (by
        intro y hy
        obtain ⟨c, hc, rfl⟩ := List.mem_map.mp (List.mem_reverse.mp hy)
        rw [hg c (by simp [hc])]
        simpa using hb c hc) (by simp [hx'])
    have e : ((a ++ x :: b).map g).reverse = (b.map g).reverse ++ g x :: (a.map g).reverse := by simp
    simp only [e, hs.1, hs.2]
    simp [List.take_append, List.drop_append]
    rw [List.take_of_length_le (by simp), List.drop_of_length_le (by simp)]
    rfl

theorem stableInsert_map {α β : Type} (g : α → β) (key : β → Nat) (x : α) : ∀ l : List α,
    (stableInsert (fun a => key (g a)) x l).map g = stableInsert key (g x) (l.map g)
  | [] => rfl
  | y :: l => by
    unfold stableInsert
    simp only [List.map_cons]
    split
    · simp [stableInsert_map g key x l]
    · simp

theorem stableInsert_congr {α : Type} {k k' : α → Nat} {x : α} : ∀ {l : List α}, k x = k' x → (∀ y ∈ l, k y = k' y) →
    stableInsert k x l = stableInsert k' x l
  | [], _, _ => rfl
  | y :: l, hx, h => by
    unfold stableInsert
    rw [hx, h y (by simp), stableInsert_congr hx (fun z hz => h z (by simp [hz]))]

theorem stableSort_map {α β : Type} (g : α → β) (key : β → Nat) (l : List α) :
    (stableSort (fun a => key (g a)) l).map g = stableSort key (l.map g) := by
  have go : ∀ (l : List α) (acc : List α), (l.foldl (fun acc x => stableInsert (fun a => key (g a)) x acc) acc).map g =
      (l.map g).foldl (fun acc x => stableInsert key x acc) (acc.map g) := by
    intro l
    induction l with
    | nil => intro acc; rfl
    | cons x xs ih => intro acc; simp only [List.foldl_cons, List.map_cons]; rw [ih, stableInsert_map]
  exact go l []

theorem stableSort_congr {α : Type} {k k' : α → Nat} {l : List α} (h : ∀ y ∈ l, k y = k' y) : stableSort k l = stableSort k' l := by
  have go : ∀ (l acc : List α), (∀ y ∈ l, k y = k' y) → (∀ y ∈ acc, k y = k' y) →
      l.foldl (fun acc x => stableInsert k x acc) acc = l.foldl (fun acc x => stableInsert k' x acc) acc := by
    intro l
    induction l with
    | nil => intros; rfl
    | cons x xs ih =>
      intro acc h1 h2
      simp only [List.foldl_cons]
      rw [stableInsert_congr (h1 x (by simp)) h2]
      apply ih _ (fun y hy => h1 y (by simp [hy]))
      intro y hy
      rcases List.mem_cons.mp ((stableInsert_perm k' x acc).mem_iff.mp hy) with rfl | hy
      · exact h1 y (by simp)
      · exact h2 y hy
  exact go l [] h (by simp)

theorem orderChildren_map {g : Child → Node} (sk : List String) (cs : List Child) (hg : ∀ c ∈ cs, (g c).tag = c.tag) :
    (orderChildren Child.tag sk cs).map g = orderChildren Node.tag sk (cs.map g) := by
  unfold orderChildren
  by_cases h : cs ≠ [] ∧ sk ≠ []
  · rw [if_pos h, if_pos ⟨by simpa using h.1, h.2⟩, ← stableSort_map g (fun c => orderKey sk c.tag)]
    congr 1
    apply stableSort_congr
    intro c hc
    rw [hg c hc]
  · rw [if_neg h, if_neg (by simpa using h)]

/-! ### One edit -/

/-- Overwriting an element keeps the trees of its children. -/
theorem put_children {d d' : XmlDoc} (hinv : d.Inv) (hinv' : d'.Inv) {i : Nat} {e : Elem} (he : d.get i = some e)
    (hsame : ∀ k, k ≠ i → d.get k ≠ none → d'.get k = d.get k) {c : Child} (hc : c ∈ e.children) : d'.tree c.id = d.tree c.id := by
  obtain ⟨hlt, ec, hec, _⟩ := hinv.tree.child _ _ he c hc
  apply tree_frame hinv hinv' _ _ ec (Nat.lt_succ_self _) hec
  intro j hj hn
  apply hsame j _ hn
  have := hj.le hinv
  omega

/-- What an edit of the element `i` must do to act as `g` at every path of `i`. -/
structure Acts (d d' : XmlDoc) (i : Nat) (g : Node → Node) : Prop where
  inv : d'.Inv
  same : ∀ k, ¬Desc d i k → d.get k ≠ none → d'.get k = d.get k
  here : d'.get i ≠ none
  tree : d'.tree i = g (d.tree i)

theorem acts_put {d : XmlDoc} (hinv : d.Inv) {i : Nat} {e e' : Elem} (he : d.get i = some e) {ns : Attrs}
    (hinv' : ({ d.put i e' with ns := ns } : XmlDoc).Inv) (hsub : ∀ c ∈ e'.children, c ∈ e.children) {g : Node → Node}
    (hg : Node.mk e'.tag e'.attrs e'.value (e'.children.map (fun c => d.tree c.id)) = g (d.tree i)) :
    Acts d { d.put i e' with ns := ns } i g := by
  have hget : ∀ k, XmlDoc.get { d.put i e' with ns := ns } k = if i = k then some e' else d.get k := by
    intro k
    change (d.put i e').get k = _
    rw [XmlDoc.get_put]
  refine ⟨hinv', ?_, ?_, ?_⟩
  · intro k hk _
    rw [hget, if_neg (by rintro rfl; exact hk .refl)]
  · rw [hget, if_pos rfl]; simp
  · rw [tree_eq hinv' (by rw [hget, if_pos rfl]), ← hg]
    congr 1
    apply List.map_congr_left
    intro c hc
    apply put_children hinv hinv' he _ (hsub c hc)
    intro k hk _
    rw [hget, if_neg (Ne.symm hk)]

theorem acts_insert {u : Unicode} {d d' : XmlDoc} {tag : String} {i new : Nat} {place : Child → List Child → Res (List Child)}
    (hpl : Places place) (hinv : d.Inv) (h : d.insertWith u tag i place = .ok (d', new)) {g : Node → Node}
    (hg : ∀ e cs (m : Child → Node), d.get i = some e → place { id := d.runningId + 1, tag := tag } e.children = .ok cs →
      (∀ c ∈ e.children, m c = d.tree c.id) → m { id := d.runningId + 1, tag := tag } = leaf tag →
      Node.mk e.tag e.attrs e.value (cs.map m) = g (d.tree i)) : Acts d d' i g ∧ new = d.runningId + 1 ∧ d'.tree new = leaf tag ∧ d'.ns = d.ns := by
  have hinv' := hinv.insertWith hpl h
  obtain ⟨e, cs, he, _, hcs, rfl, hd'⟩ := insertWith_ok h
  obtain ⟨l, r, hlr, hcs'⟩ := hpl _ _ _ hcs
  have hle := hinv.le _ _ he
  have hget : ∀ k, d'.get k = if d.runningId + 1 = k then
      some { id := d.runningId + 1, parentId := i, tag := tag, attrs := none, value := none, children := [] }
      else if i = k then some { e with children := cs } else d.get k := by
    intro k
    rw [hd']
    change ((d.put i _).put (d.runningId + 1) _).get k = _
    rw [XmlDoc.get_put, XmlDoc.get_put]
  have hsame : ∀ k, k ≠ i → d.get k ≠ none → d'.get k = d.get k := by
    intro k hk hn
    cases hx : d.get k with
    | none => exact absurd hx hn
    | some x =>
      have := hinv.le _ _ hx
      rw [hget, if_neg (by omega), if_neg (Ne.symm hk), hx]
  have hi : d'.get i = some { e with children := cs } := by rw [hget, if_neg (by omega), if_pos rfl]
  have hnew : d'.tree (d.runningId + 1) = leaf tag := by
    rw [tree_eq hinv' (by rw [hget, if_pos rfl])]; rfl
  refine ⟨⟨hinv', ?_, ?_, ?_⟩, rfl, hnew, by rw [hd']; rfl⟩
  · intro k hk hn
    exact hsame k (by rintro rfl; exact hk .refl) hn
  · rw [hi]; simp
  · rw [tree_eq hinv' hi]
    exact hg e cs (fun c => d'.tree c.id) he hcs (fun c hc => put_children hinv hinv' he hsame hc) hnew

theorem acts_pop {d : XmlDoc} (hinv : d.Inv) {i : Nat} {e : Elem} (he : d.get i = some e) (tag : String) :
    Acts d (d.popByTag tag i).1 i (effect (.popTag tag i)) := by
  have hinv' := hinv.popByTag tag i
  have hfil : (e.children.filter (fun c => decide (c.tag ≠ tag))).map (fun c => d.tree c.id) =
      (e.children.map (fun c => d.tree c.id)).filter (fun n => decide (n.tag ≠ tag)) := by
    rw [List.filter_map]
    congr 1
    apply List.filter_congr
    intro c hc
    simp only [Function.comp_apply]
    rw [child_tag hinv he hc]
  by_cases hids : d.idsByTag tag i = []
  · have e1 : (d.popByTag tag i).1 = d := by
      unfold XmlDoc.popByTag
      rw [he]
      simp [hids]
    rw [e1]
    refine ⟨hinv, fun _ _ _ => rfl, by rw [he]; simp, ?_⟩
    rw [tree_eq hinv he]
    simp only [effect, ← hfil]
    congr 2
    symm
    rw [List.filter_eq_self]
    intro c hc
    unfold XmlDoc.idsByTag at hids
    rw [he] at hids
    simp only [List.map_eq_nil_iff, List.filter_eq_nil_iff] at hids
    simpa using hids c hc
  · have hget : ∀ k, (d.popByTag tag i).1.get k = if k ∈ d.idsByTag tag i then none else
        if i = k then some { e with children := e.children.filter (fun c => decide (c.tag ≠ tag)) } else d.get k := by
      intro k
      unfold XmlDoc.popByTag
      rw [he]
      simp only [if_neg hids]
      change aget k (List.foldl (fun m i => aerase i m) (d.put i _).elems (d.idsByTag tag i)) = _
      rw [aget_foldl_aerase]
      split
      · rfl
      · change (d.put i _).get k = _
        rw [XmlDoc.get_put]
    have hmem : ∀ k, k ∈ d.idsByTag tag i → ∃ c ∈ e.children, c.id = k ∧ c.tag = tag := by
      intro k hk
      unfold XmlDoc.idsByTag at hk
      rw [he] at hk
      obtain ⟨c, hc, hid⟩ := List.mem_map.mp hk
      obtain ⟨h1, h2⟩ := List.mem_filter.mp hc
      exact ⟨c, h1, hid, by simpa using h2⟩
    have hii : i ∉ d.idsByTag tag i := by
      intro h
      obtain ⟨c, hc, hid, _⟩ := hmem i h
      have := (hinv.tree.child _ _ he c hc).1
      omega
    have hi : (d.popByTag tag i).1.get i = some { e with children := e.children.filter (fun c => decide (c.tag ≠ tag)) } := by
      rw [hget, if_neg hii, if_pos rfl]
    refine ⟨hinv', ?_, by rw [hi]; simp, ?_⟩
    · intro k hk _
      rw [hget, if_neg, if_neg]
      · rintro rfl; exact hk .refl
      · intro h
        obtain ⟨c, hc, rfl, _⟩ := hmem k h
        exact hk (Desc.child he hc)
    · rw [tree_eq hinv' hi, tree_eq hinv he]
      simp only [effect, ← hfil]
      congr 1
      apply List.map_congr_left
      intro c hc
      obtain ⟨hcm, hct⟩ := List.mem_filter.mp hc
      obtain ⟨hlt, ec, hec, _, htag⟩ := hinv.tree.child _ _ he c hcm
      apply tree_frame hinv hinv' _ _ ec (Nat.lt_succ_self _) hec
      intro j hj _
      rw [hget, if_neg, if_neg]
      · have := hj.le hinv
        omega
      · intro h
        obtain ⟨c', hc', rfl, ht'⟩ := hmem j h
        have hne : c.id ≠ c'.id := by
          intro heq
          obtain ⟨_, ec', hec', _, htag'⟩ := hinv.tree.child _ _ he c' hc'
          rw [heq, hec'] at hec
          cases hec
          rw [htag] at htag'
          simp only [ne_eq, decide_not, Bool.not_eq_true', decide_eq_false_iff_not] at hct
          exact hct (htag'.trans ht')
        exact siblings_apart hinv he hcm hc' hne hj .refl

end Oxml
