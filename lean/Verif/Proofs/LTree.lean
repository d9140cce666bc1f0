import Verif.Proofs.Arena
import Verif.Model.Node
/-!
# Trees labelled with arena elements

`LTree` connects an arena with the abstract tree it denotes.
-/
namespace Oxml

/-- A tree whose nodes carry the arena element. -/
inductive LTree where
  | node (e : Elem) (kids : List LTree)

namespace LTree

def elem : LTree → Elem | .node e _ => e
def kids : LTree → List LTree | .node _ ks => ks

theorem ind {P : LTree → Prop} (h : ∀ e ks, (∀ k ∈ ks, P k) → P (.node e ks)) : ∀ t, P t := by
  intro t
  refine LTree.rec (motive_1 := P) (motive_2 := fun ks => ∀ k ∈ ks, P k) ?_ ?_ ?_ t
  · intro e ks ih; exact h e ks ih
  · intro c hc; cases hc
  · intro c cs hc hcs x hx
    rcases List.mem_cons.mp hx with rfl | hx
    · exact hc
    · exact hcs x hx

mutual
/-- All elements, in document order. -/
def entries : LTree → List Elem
  | .node e ks => e :: entriesL ks
def entriesL : List LTree → List Elem
  | [] => []
  | k :: ks => entries k ++ entriesL ks
end

mutual
/-- The abstract tree. -/
def erase : LTree → Node
  | .node e ks => .mk e.tag e.attrs e.value (erases ks)
def erases : List LTree → List Node
  | [] => []
  | k :: ks => erase k :: erases ks
end

theorem erases_eq (ks : List LTree) : erases ks = ks.map erase := by
  induction ks with
  | nil => rfl
  | cons k ks ih => simp [erases, ih]

theorem entriesL_eq (ks : List LTree) : entriesL ks = ks.flatMap entries := by
  induction ks with
  | nil => rfl
  | cons k ks ih => simp [entriesL, ih]

def asChild (t : LTree) : Child := { id := t.elem.id, tag := t.elem.tag }

mutual
/-- Child lists and parent ids agree with the shape. -/
def Consistent : LTree → Prop
  | .node e ks => e.children = ks.map asChild ∧ (∀ k ∈ ks, k.elem.parentId = e.id) ∧ ConsistentL ks
def ConsistentL : List LTree → Prop
  | [] => True
  | k :: ks => Consistent k ∧ ConsistentL ks
end

theorem consistentL_iff (ks : List LTree) : ConsistentL ks ↔ ∀ k ∈ ks, Consistent k := by
  induction ks with
  | nil => simp [ConsistentL]
  | cons k ks ih => simp [ConsistentL, ih]

def ids (t : LTree) : List Nat := t.entries.map Elem.id
def idsL (ks : List LTree) : List Nat := (entriesL ks).map Elem.id

theorem ids_node (e : Elem) (ks : List LTree) : ids (.node e ks) = e.id :: idsL ks := by
  simp [ids, idsL, entries]

theorem idsL_cons (k : LTree) (ks : List LTree) : idsL (k :: ks) = k.ids ++ idsL ks := by
  simp [idsL, ids, entriesL]

@[simp] theorem idsL_nil : idsL [] = [] := rfl

theorem elem_mem_entries (t : LTree) : t.elem ∈ t.entries := by
  cases t; simp [entries, elem]

theorem elem_id_mem (t : LTree) : t.elem.id ∈ t.ids := List.mem_map.mpr ⟨_, t.elem_mem_entries, rfl⟩

/-- The arena stores every element of the tree. -/
def Holds (get : Nat → Option Elem) (t : LTree) : Prop := ∀ e ∈ t.entries, get e.id = some e
def HoldsL (get : Nat → Option Elem) (ks : List LTree) : Prop := ∀ e ∈ entriesL ks, get e.id = some e

theorem holdsL_cons {get : Nat → Option Elem} {k : LTree} {ks : List LTree} :
    HoldsL get (k :: ks) ↔ k.Holds get ∧ HoldsL get ks := by
  simp only [HoldsL, Holds, entriesL, List.mem_append]
  constructor
  · intro h; exact ⟨fun e he => h e (.inl he), fun e he => h e (.inr he)⟩
  · rintro ⟨h1, h2⟩ e (he | he)
    · exact h1 e he
    · exact h2 e he

theorem holds_node {get : Nat → Option Elem} {e : Elem} {ks : List LTree} :
    Holds get (.node e ks) ↔ get e.id = some e ∧ HoldsL get ks := by
  simp [HoldsL, Holds, entries]

theorem holdsL_iff {get : Nat → Option Elem} {ks : List LTree} :
    HoldsL get ks ↔ ∀ k ∈ ks, k.Holds get := by
  induction ks with
  | nil => simp [HoldsL, entriesL]
  | cons k ks ih => rw [holdsL_cons, ih]; simp

/-- Holding only depends on the ids of the tree. -/
theorem Holds.congr {get get' : Nat → Option Elem} {t : LTree} (h : t.Holds get)
    (heq : ∀ i ∈ t.ids, get' i = get i) : t.Holds get' := by
  intro e he
  rw [heq e.id (List.mem_map.mpr ⟨e, he, rfl⟩)]; exact h e he

theorem HoldsL.congr {get get' : Nat → Option Elem} {ks : List LTree} (h : HoldsL get ks)
    (heq : ∀ i ∈ idsL ks, get' i = get i) : HoldsL get' ks := by
  intro e he
  rw [heq e.id (List.mem_map.mpr ⟨e, he, rfl⟩)]; exact h e he

theorem mem_entriesL {ks : List LTree} {e : Elem} : e ∈ entriesL ks ↔ ∃ k ∈ ks, e ∈ k.entries := by
  rw [entriesL_eq, List.mem_flatMap]

/-- Every element but the root has its parent in the tree, and the parent lists it. -/
theorem parent_mem : ∀ (t : LTree), t.Consistent → ∀ x ∈ t.entries, x ≠ t.elem →
    ∃ y ∈ t.entries, y.id = x.parentId ∧ (⟨x.id, x.tag⟩ : Child) ∈ y.children := by
  refine ind ?_
  intro e ks ih hc x hx hne
  simp only [entries, List.mem_cons] at hx
  rcases hx with rfl | hx
  · exact absurd rfl hne
  · obtain ⟨k, hk, hxk⟩ := mem_entriesL.mp hx
    obtain ⟨hch, hpar, hcs⟩ := hc
    by_cases hkx : x = k.elem
    · subst hkx
      refine ⟨e, by simp [entries], (hpar k hk).symm, ?_⟩
      rw [hch]; exact List.mem_map.mpr ⟨k, hk, rfl⟩
    · obtain ⟨y, hy, h1, h2⟩ := ih k hk ((consistentL_iff ks).mp hcs k hk) x hxk hkx
      refine ⟨y, ?_, h1, h2⟩
      simp only [entries, List.mem_cons]
      exact .inr (mem_entriesL.mpr ⟨k, hk, hy⟩)

end LTree

open LTree

theorem collect_map_some {α β : Type} (f : α → β) (l : List α) : collect (l.map (fun x => some (f x))) = some (l.map f) := by
  induction l with
  | nil => rfl
  | cons x xs ih => simp [collect, ih]

theorem collect_congr {α β γ : Type} {f : α → Option β} {l : List α} {l' : List γ} {g : γ → β}
    (hlen : l.length = l'.length) (h : ∀ p ∈ l.zip l', f p.1 = some (g p.2)) : collect (l.map f) = some (l'.map g) := by
  induction l generalizing l' with
  | nil => cases l' with
    | nil => rfl
    | cons _ _ => simp at hlen
  | cons x xs ih =>
    cases l' with
    | nil => simp at hlen
    | cons y ys =>
      simp only [List.map_cons]
      rw [h (x, y) (by simp)]
      simp only [collect]
      rw [ih (by simpa using hlen) (fun p hp => h p (by simp [hp]))]
      rfl

/-- Two trees below the same parent with different ids share no element. -/
theorem siblings_disjoint {get : Nat → Option Elem} (hs : Spec.TreeShaped get) {i : Nat} {a b : LTree}
    (ha : a.Holds get) (hb : b.Holds get) (ca : a.Consistent) (cb : b.Consistent)
    (pa : a.elem.parentId = i) (pb : b.elem.parentId = i)
    (ga : ∀ x ∈ a.entries, i < x.id) (gb : ∀ x ∈ b.entries, i < x.id) (hne : a.elem.id ≠ b.elem.id) :
    ∀ n x, x.id < n → x ∈ a.entries → x ∈ b.entries → False := by
  intro n
  induction n with
  | zero => intro x h; omega
  | succ n ih =>
    intro x hlt hxa hxb
    by_cases h1 : x = a.elem
    · have hxb' : x ≠ b.elem := by rintro rfl; exact hne (by rw [h1])
      obtain ⟨y, hy, hyid, _⟩ := parent_mem b cb x hxb hxb'
      have := gb y hy
      rw [hyid, h1, pa] at this
      omega
    · by_cases h2 : x = b.elem
      · obtain ⟨y, hy, hyid, _⟩ := parent_mem a ca x hxa h1
        have := ga y hy
        rw [hyid, h2, pb] at this
        omega
      · obtain ⟨y, hy, hyid, hyc⟩ := parent_mem a ca x hxa h1
        obtain ⟨z, hz, hzid, _⟩ := parent_mem b cb x hxb h2
        have hyz : y = z := by
          have e1 := ha y hy
          have e2 := hb z hz
          rw [hyid] at e1; rw [hzid] at e2
          rw [e1] at e2; exact Option.some.inj e2
        subst hyz
        have hlt' := (hs.child _ _ (ha y hy) _ hyc).1
        exact ih y (by simp only at hlt'; omega) hy hz

/-- Pairwise disjoint duplicate-free trees have duplicate-free ids together. -/
theorem idsL_nodup {ks : List LTree} (h1 : ∀ k ∈ ks, k.ids.Nodup)
    (h2 : ks.Pairwise (fun a b => ∀ i, i ∈ a.ids → i ∈ b.ids → False)) : (idsL ks).Nodup := by
  induction ks with
  | nil => simp
  | cons k ks ih =>
    rw [idsL_cons, List.nodup_append]
    obtain ⟨hp, hps⟩ := List.pairwise_cons.mp h2
    refine ⟨h1 k (by simp), ih (fun x hx => h1 x (by simp [hx])) hps, ?_⟩
    intro a ha b hb hab
    subst hab
    obtain ⟨e, he, hid⟩ := List.mem_map.mp hb
    obtain ⟨k', hk', hek⟩ := mem_entriesL.mp he
    exact hp k' hk' a ha (List.mem_map.mpr ⟨e, hek, hid⟩)

/-- A tree-shaped arena with bounded ids denotes a tree at every element, and `toNode` finds it. -/
theorem exists_ltree {d : XmlDoc} (hinv : d.Inv) : ∀ n i e, d.runningId - i < n → d.get i = some e →
    ∃ t : LTree, t.elem = e ∧ t.Consistent ∧ t.Holds d.get ∧ (∀ x ∈ t.entries, i ≤ x.id) ∧ t.ids.Nodup ∧
      ∀ fuel, d.runningId - i < fuel → d.toNode fuel i = some t.erase := by
  intro n
  induction n with
  | zero => intro i e h; omega
  | succ n ih =>
    intro i e hlt he
    -- trees of the children
    have hkids : ∀ cs : List Child, (∀ c ∈ cs, c ∈ e.children) → ∃ ks : List LTree, ks.map asChild = cs ∧
        (∀ k ∈ ks, k.elem.parentId = i ∧ k.Consistent ∧ k.Holds d.get ∧ (∀ x ∈ k.entries, i < x.id) ∧ k.ids.Nodup ∧
          i < k.elem.id ∧ ∀ fuel, d.runningId - k.elem.id < fuel → d.toNode fuel k.elem.id = some k.erase) := by
      intro cs
      induction cs with
      | nil => intro _; exact ⟨[], rfl, by simp⟩
      | cons c cs ihc =>
        intro hsub
        obtain ⟨ks, hks, hall⟩ := ihc (fun x hx => hsub x (by simp [hx]))
        obtain ⟨hcl, ec, hec, hpar, htag⟩ := hinv.tree.child i e he c (hsub c (by simp))
        have hcle := hinv.le _ _ hec
        obtain ⟨t, ht, hcon, hhold, hge, hnod, hnode⟩ := ih c.id ec (by omega) hec
        have hid : ec.id = c.id := hinv.tree.ownId _ _ hec
        refine ⟨t :: ks, ?_, ?_⟩
        · simp only [List.map_cons, hks]
          congr 1
          cases c
          simp_all [asChild]
        · intro k hk
          rcases List.mem_cons.mp hk with rfl | hk
          · refine ⟨by rw [ht]; exact hpar, hcon, hhold, fun x hx => by have := hge x hx; omega, hnod, by rw [ht, hid]; exact hcl, ?_⟩
            rw [ht, hid]; exact hnode
          · exact hall k hk
    obtain ⟨ks, hks, hall⟩ := hkids e.children (fun _ h => h)
    have heid : e.id = i := hinv.tree.ownId _ _ he
    refine ⟨.node e ks, rfl, ?_, ?_, ?_, ?_, ?_⟩
    · refine ⟨hks.symm, fun k hk => by rw [heid]; exact (hall k hk).1, ?_⟩
      exact (consistentL_iff ks).mpr (fun k hk => (hall k hk).2.1)
    · rw [holds_node, heid]
      exact ⟨he, holdsL_iff.mpr (fun k hk => (hall k hk).2.2.1)⟩
    · intro x hx
      simp only [entries, List.mem_cons] at hx
      rcases hx with rfl | hx
      · omega
      · obtain ⟨k, hk, hxk⟩ := mem_entriesL.mp hx
        exact Nat.le_of_lt ((hall k hk).2.2.2.1 x hxk)
    · rw [ids_node, List.nodup_cons, heid]
      constructor
      · intro hmem
        obtain ⟨x, hx, hxid⟩ := List.mem_map.mp hmem
        obtain ⟨k, hk, hxk⟩ := mem_entriesL.mp hx
        have := (hall k hk).2.2.2.1 x hxk
        omega
      · apply idsL_nodup (fun k hk => (hall k hk).2.2.2.2.1)
        have hnd : (ks.map (fun k => k.elem.id)).Nodup := by
          have := hinv.tree.once i e he
          rw [← hks, List.map_map] at this
          exact this
        have hpw := List.pairwise_map.mp hnd
        refine (List.Pairwise.and_mem.mp hpw).imp ?_
        intro a b ⟨ha, hb, hab⟩ j hja hjb
        obtain ⟨x, hx, hxid⟩ := List.mem_map.mp hja
        obtain ⟨y, hy, hyid⟩ := List.mem_map.mp hjb
        obtain ⟨pa, ca, hha, ga, _⟩ := hall a ha
        obtain ⟨pb, cb, hhb, gb, _⟩ := hall b hb
        have hxy : x = y := by
          have e1 := hha x hx
          have e2 := hhb y hy
          rw [hxid] at e1; rw [hyid] at e2; rw [e1] at e2; exact Option.some.inj e2
        subst hxy
        exact siblings_disjoint hinv.tree hha hhb ca cb pa pb ga gb hab (x.id + 1) x (by omega) hx hy
    · intro fuel hfuel
      cases fuel with
      | zero => omega
      | succ fuel =>
        unfold XmlDoc.toNode
        rw [he]
        simp only
        have hcol : collect (e.children.map (fun c => d.toNode fuel c.id)) = some (ks.map erase) := by
          rw [← hks, List.map_map]
          have : ∀ k ∈ ks, ((fun c : Child => d.toNode fuel c.id) ∘ asChild) k = some k.erase := by
            intro k hk
            obtain ⟨_, _, _, _, _, hlt', hn⟩ := hall k hk
            have hle := hinv.le _ _ ((hall k hk).2.2.1 k.elem k.elem_mem_entries)
            exact hn fuel (by omega)
          rw [List.map_congr_left this, collect_map_some]
        rw [hcol]
        simp [erase, erases_eq]

end Oxml
