import Verif.Spec.Order
import Verif.Proofs.ReloadTwice
import Verif.Proofs.ExistingReload
/-!
# Documents met in another order
-/
namespace Oxml
open Spec

/-! ### Maps -/

theorem Spec.SameMap.keysPerm {a b : Attrs} (h : SameMap a b) : (akeys a).Perm (akeys b) := h.perm.map _

theorem Spec.SameMap.keys' {a b : Attrs} (h : SameMap a b) : (akeys b).Nodup := h.keysPerm.nodup_iff.mp h.keys

theorem Spec.SameMap.symm {a b : Attrs} (h : SameMap a b) : SameMap b a := ⟨h.perm.symm, h.keys'⟩

theorem Spec.SameMap.refl {a : Attrs} (h : (akeys a).Nodup) : SameMap a a := ⟨List.Perm.refl _, h⟩

theorem Spec.SameMap.get {a b : Attrs} (h : SameMap a b) (k : String) : aget k a = aget k b := by
  cases ha : aget k a with
  | some v => exact (aget_of_mem h.keys' (h.perm.mem_iff.mp (mem_of_aget ha))).symm
  | none =>
    cases hb : aget k b with
    | none => rfl
    | some v =>
      rw [aget_of_mem h.keys (h.perm.mem_iff.mpr (mem_of_aget hb))] at ha
      cases ha

theorem nodup_of_keys {V : Type} {m : List (String × V)} (h : (akeys m).Nodup) : m.Nodup := by
  induction m with
  | nil => exact List.Pairwise.nil
  | cons x m ih =>
    have h' := List.nodup_cons.mp h
    exact List.nodup_cons.mpr ⟨fun hx => h'.1 (List.mem_map_of_mem (f := Prod.fst) hx), ih h'.2⟩

theorem perm_of_get {V : Type} {a b : List (String × V)} (ha : (akeys a).Nodup) (hb : (akeys b).Nodup) (h : ∀ k, aget k a = aget k b) :
    a.Perm b := by
  apply (List.perm_ext_iff_of_nodup (nodup_of_keys ha) (nodup_of_keys hb)).mpr
  intro x
  constructor
  · intro hx
    have := aget_of_mem (k := x.1) (v := x.2) ha hx
    rw [h] at this
    exact mem_of_aget this
  · intro hx
    have := aget_of_mem (k := x.1) (v := x.2) hb hx
    rw [← h] at this
    exact mem_of_aget this

theorem Spec.SameMap.insert {a b : Attrs} (h : SameMap a b) (k v : String) : SameMap (ainsert k v a) (ainsert k v b) := by
  refine ⟨perm_of_get (nodup_ainsert k v h.keys) (nodup_ainsert k v h.keys') ?_, nodup_ainsert k v h.keys⟩
  intro j
  rw [aget_ainsert, aget_ainsert, h.get]

theorem eq_of_perm_sorted : ∀ {a b : Attrs}, a.Perm b → (akeys a).Nodup → a.Pairwise (fun x y => x.1 ≤ y.1) → b.Pairwise (fun x y => x.1 ≤ y.1) → a = b
  | [], b, h, _, _, _ => (List.nil_perm.mp h).symm
  | x :: xs, [], h, _, _, _ => by cases (List.perm_nil.mp h)
  | x :: xs, y :: ys, h, hn, ha, hb => by
    have hxy : x = y := by
      have ha' := List.pairwise_cons.mp ha
      have hb' := List.pairwise_cons.mp hb
      rcases List.mem_cons.mp (h.mem_iff.mp List.mem_cons_self : x ∈ y :: ys) with e | hx
      · exact e
      · rcases List.mem_cons.mp (h.mem_iff.mpr List.mem_cons_self : y ∈ x :: xs) with e | hy
        · exact e.symm
        · have hk : x.1 = y.1 := String.le_antisymm (ha'.1 y hy) (hb'.1 x hx)
          have : x.1 ∈ akeys xs := hk ▸ List.mem_map_of_mem (f := Prod.fst) hy
          exact absurd this (List.nodup_cons.mp hn).1
    subst hxy
    rw [eq_of_perm_sorted (List.perm_cons x |>.mp h) (List.nodup_cons.mp hn).2 (List.pairwise_cons.mp ha).2 (List.pairwise_cons.mp hb).2]

theorem Spec.SameMap.sort {a b : Attrs} (h : SameMap a b) : sortAttrs a = sortAttrs b := by
  refine eq_of_perm_sorted (((sortAttrs_perm a).trans h.perm).trans (sortAttrs_perm b).symm) ?_ (sortAttrs_sorted a) (sortAttrs_sorted b)
  exact ((sortAttrs_perm a).map Prod.fst).nodup_iff.mpr h.keys

/-! ### Lists of related elements -/

inductive Pairs {α β : Type} (R : α → β → Prop) : List α → List β → Prop
  | nil : Pairs R [] []
  | cons {a : α} {b : β} {as : List α} {bs : List β} (h : R a b) (hs : Pairs R as bs) : Pairs R (a :: as) (b :: bs)

theorem Pairs.zipped {α β : Type} {R : α → β → Prop} {as : List α} {bs : List β} (h : Pairs R as bs) :
    ∃ zs : List (α × β), as = zs.map Prod.fst ∧ bs = zs.map Prod.snd ∧ ∀ z ∈ zs, R z.1 z.2 := by
  induction h with
  | nil => exact ⟨[], rfl, rfl, fun z hz => by cases hz⟩
  | @cons a b as bs h hs ih =>
    obtain ⟨zs, h1, h2, h3⟩ := ih
    refine ⟨(a, b) :: zs, by simp [h1], by simp [h2], ?_⟩
    intro z hz
    rcases List.mem_cons.mp hz with rfl | hz
    · exact h
    · exact h3 z hz

theorem Pairs.unzipped {α β : Type} {R : α → β → Prop} (zs : List (α × β)) (h : ∀ z ∈ zs, R z.1 z.2) : Pairs R (zs.map Prod.fst) (zs.map Prod.snd) := by
  induction zs with
  | nil => exact .nil
  | cons z zs ih => exact .cons (h z List.mem_cons_self) (ih (fun y hy => h y (List.mem_cons_of_mem _ hy)))

theorem Pairs.append {α β : Type} {R : α → β → Prop} {as cs : List α} {bs ds : List β} (h : Pairs R as bs) (h' : Pairs R cs ds) :
    Pairs R (as ++ cs) (bs ++ ds) := by
  induction h with
  | nil => exact h'
  | cons h _ ih => exact .cons h ih

theorem Pairs.self {α : Type} {R : α → α → Prop} (as : List α) (h : ∀ a ∈ as, R a a) : Pairs R as as := by
  induction as with
  | nil => exact .nil
  | cons a as ih => exact .cons (h a List.mem_cons_self) (ih (fun b hb => h b (List.mem_cons_of_mem _ hb)))

theorem Pairs.filter {α β : Type} {R : α → β → Prop} {p : α → Bool} {q : β → Bool} (hpq : ∀ a b, R a b → p a = q b) {as : List α} {bs : List β}
    (h : Pairs R as bs) : Pairs R (as.filter p) (bs.filter q) := by
  induction h with
  | nil => exact .nil
  | cons h _ ih =>
    rw [List.filter_cons, List.filter_cons, hpq _ _ h]
    split
    · exact .cons h ih
    · exact ih

theorem Pairs.take {α β : Type} {R : α → β → Prop} {as : List α} {bs : List β} (h : Pairs R as bs) (n : Nat) : Pairs R (as.take n) (bs.take n) := by
  induction h generalizing n with
  | nil => simp only [List.take_nil]; exact .nil
  | cons h _ ih =>
    cases n with
    | zero => exact .nil
    | succ n => exact .cons h (ih n)

theorem Pairs.drop {α β : Type} {R : α → β → Prop} {as : List α} {bs : List β} (h : Pairs R as bs) (n : Nat) : Pairs R (as.drop n) (bs.drop n) := by
  induction h generalizing n with
  | nil => simp only [List.drop_nil]; exact .nil
  | cons h hs ih =>
    cases n with
    | zero => exact .cons h hs
    | succ n => exact ih n

theorem Pairs.head {α : Type} {R : α → α → Prop} {as bs : List α} (h : Pairs R as bs) : SameOpt R as.head? bs.head? := by
  cases h with
  | nil => exact .none
  | cons h _ => exact .some h

theorem Pairs.last {α : Type} {R : α → α → Prop} {as bs : List α} (h : Pairs R as bs) : SameOpt R as.getLast? bs.getLast? := by
  induction h with
  | nil => exact .none
  | @cons a b as bs h hs ih =>
    cases hs with
    | nil => exact .some h
    | cons _ _ =>
      rw [List.getLast?_cons_cons, List.getLast?_cons_cons]
      exact ih

theorem Pairs.length {α β : Type} {R : α → β → Prop} {as : List α} {bs : List β} (h : Pairs R as bs) : as.length = bs.length := by
  induction h with
  | nil => rfl
  | cons _ _ ih => simp [ih]

theorem Pairs.mapRes {α β γ : Type} {R : α → β → Prop} {f : α → Res γ} {g : β → Res γ} (hf : ∀ a b, R a b → f a = g b) {as : List α} {bs : List β}
    (h : Pairs R as bs) : mapRes f as = mapRes g bs := by
  induction h with
  | nil => rfl
  | cons h _ ih => rw [Oxml.mapRes, Oxml.mapRes, hf _ _ h, ih]

theorem Pairs.filterMap {α β γ : Type} {R : α → β → Prop} {f : α → Option γ} {g : β → Option γ} (hf : ∀ a b, R a b → f a = g b) {as : List α}
    {bs : List β} (h : Pairs R as bs) : as.filterMap f = bs.filterMap g := by
  induction h with
  | nil => rfl
  | cons h _ ih => rw [List.filterMap_cons, List.filterMap_cons, hf _ _ h, ih]

theorem Pairs.mapFirst {α : Type} {R : α → α → Prop} {p : α → Bool} {f : α → α} (hp : ∀ a b, R a b → p a = p b) (hf : ∀ a b, R a b → R (f a) (f b))
    {as bs : List α} (h : Pairs R as bs) : Pairs R (mapFirst p f as) (mapFirst p f bs) := by
  induction h with
  | nil => exact .nil
  | cons h hs ih =>
    rw [Oxml.mapFirst, Oxml.mapFirst, hp _ _ h]
    split
    · exact .cons (hf _ _ h) hs
    · exact .cons h ih

/-! ### Elements -/

theorem sameNodes_iff {cs ds : List Node} : SameNodes cs ds ↔ Pairs SameNode cs ds := by
  constructor
  · intro h
    induction cs generalizing ds with
    | nil => cases h; exact .nil
    | cons c cs ih =>
      cases h with
      | cons h hs => exact .cons h (ih hs)
  · intro h
    induction h with
    | nil => exact .nil
    | cons h _ ih => exact .cons h ih

/-- The same element, its names accepted. -/
structure Alike (u : Unicode) (n m : Node) : Prop where
  same : SameNode n m
  wf : WfNode u n

theorem Alike.tag {u : Unicode} {n m : Node} (h : Alike u n m) : n.tag = m.tag := by cases h.same; rfl

theorem Alike.value {u : Unicode} {n m : Node} (h : Alike u n m) : n.value = m.value := by cases h.same; rfl

theorem Alike.attrs {u : Unicode} {n m : Node} (h : Alike u n m) : SameAttrs n.attrs m.attrs := by
  cases h.same with
  | mk ha _ => exact ha

theorem Alike.attr {u : Unicode} {n m : Node} (h : Alike u n m) (k : String) : n.attr? k = m.attr? k := by
  unfold Node.attr?
  cases ha : n.attrs with
  | none =>
    have := h.attrs
    rw [ha] at this
    generalize m.attrs = y at this
    cases this
    rfl
  | some a =>
    have := h.attrs
    rw [ha] at this
    generalize m.attrs = y at this
    cases this with
    | some h => exact h.get k

theorem alike_pairs {u : Unicode} {cs ds : List Node} (h : Pairs SameNode cs ds) (hw : WfNodes u cs) : Pairs (Alike u) cs ds := by
  induction h with
  | nil => exact .nil
  | cons h _ ih => exact .cons ⟨h, hw.1⟩ (ih hw.2)

theorem pairs_alike {u : Unicode} {cs ds : List Node} (h : Pairs (Alike u) cs ds) : Pairs SameNode cs ds ∧ WfNodes u cs := by
  induction h with
  | nil => exact ⟨.nil, trivial⟩
  | cons h _ ih => exact ⟨.cons h.same ih.1, h.wf, ih.2⟩

theorem Alike.children {u : Unicode} {n m : Node} (h : Alike u n m) : Pairs (Alike u) n.children m.children := by
  obtain ⟨hs, hw⟩ := h
  cases hs with
  | mk _ hc => exact alike_pairs (sameNodes_iff.mp hc) hw.2.2

theorem alike_mk {u : Unicode} {t : String} {a b : Option Attrs} {v : Option String} {cs ds : List Node} (ht : isValidXmlName u t = true)
    (ha : SameAttrs a b) (hw : WfAttrs u a) (hc : Pairs (Alike u) cs ds) : Alike u (.mk t a v cs) (.mk t b v ds) :=
  ⟨.mk ha (sameNodes_iff.mpr (pairs_alike hc).1), ht, hw, (pairs_alike hc).2⟩

theorem sameAttrs_self {u : Unicode} {a : Option Attrs} (h : WfAttrs u a) : SameAttrs a a := by
  cases a with
  | none => exact .none
  | some a => exact .some (SameMap.refl (h a rfl).1)

theorem alike_self {u : Unicode} : ∀ n : Node, WfNode u n → Alike u n n := by
  apply Node.ind
  intro t a v cs ih h
  refine alike_mk h.1 (sameAttrs_self h.2.1) h.2.1 (Pairs.self cs (fun c hc => ih c hc ?_))
  exact wfNodes_iff.mp h.2.2 c hc

theorem Alike.withChildren {u : Unicode} {n m : Node} (h : Alike u n m) {cs ds : List Node} (hc : Pairs (Alike u) cs ds) :
    Alike u (n.withChildren cs) (m.withChildren ds) := by
  obtain ⟨hs, hw⟩ := h
  cases hs with
  | mk ha _ => exact alike_mk hw.1 ha hw.2.1 hc

theorem Alike.withValue {u : Unicode} {n m : Node} (h : Alike u n m) (v : String) : Alike u (n.withValue v) (m.withValue v) := by
  have hc := h.children
  obtain ⟨hs, hw⟩ := h
  cases hs with
  | mk ha _ => exact alike_mk hw.1 ha hw.2.1 hc

theorem Alike.mapCoreItem {u : Unicode} {n m : Node} (h : Alike u n m) (tag : String) {f : Node → Node} (hf : ∀ a b, Alike u a b → Alike u (f a) (f b)) :
    Alike u (n.mapCoreItem tag f) (m.mapCoreItem tag f) := by
  have htag : ∀ t : String, ∀ a b, Alike u a b → (decide (a.tag = t)) = decide (b.tag = t) := fun t a b h => by rw [h.tag]
  have item : ∀ a b, Alike u a b → Alike u (a.withChildren (mapFirst (fun c => decide (c.tag = tag)) f a.children))
      (b.withChildren (mapFirst (fun c => decide (c.tag = tag)) f b.children)) :=
    fun a b h => h.withChildren (Pairs.mapFirst (htag tag) hf h.children)
  unfold Node.mapCoreItem
  simp only [h.tag]
  split
  · exact item _ _ h
  · exact h.withChildren (Pairs.mapFirst (htag _) item h.children)

theorem lastIdx_pairs {u : Unicode} (t : String) {cs ds : List Node} (h : Pairs (Alike u) cs ds) :
    insertNodeAfter.lastNodeIdx t cs = insertNodeAfter.lastNodeIdx t ds := by
  induction h with
  | nil => rfl
  | cons h _ ih => rw [insertNodeAfter.lastNodeIdx, insertNodeAfter.lastNodeIdx, ih, h.tag]

theorem Pairs.insertAfter {u : Unicode} {n m : Node} (hn : Alike u n m) (t : String) {cs ds : List Node} (h : Pairs (Alike u) cs ds) :
    Pairs (Alike u) (insertNodeAfter n t cs) (insertNodeAfter m t ds) := by
  unfold insertNodeAfter
  rw [lastIdx_pairs t h]
  split
  · exact (h.take _).append (.cons hn (h.drop _))
  · exact h.append (.cons hn .nil)

theorem Pairs.order {u : Unicode} (sk : List String) {cs ds : List Node} (h : Pairs (Alike u) cs ds) :
    Pairs (Alike u) (orderChildren Node.tag sk cs) (orderChildren Node.tag sk ds) := by
  obtain ⟨zs, h1, h2, h3⟩ := h.zipped
  subst h1 h2
  unfold orderChildren
  by_cases hc : zs = [] ∨ sk = []
  · rw [if_neg (by rcases hc with hc | hc <;> simp [hc]), if_neg (by rcases hc with hc | hc <;> simp [hc])]
    exact h
  · have hz : zs ≠ [] := fun e => hc (Or.inl e)
    have hs : sk ≠ [] := fun e => hc (Or.inr e)
    rw [if_pos ⟨by simpa using hz, hs⟩, if_pos ⟨by simpa using hz, hs⟩, ← stableSort_map Prod.fst (fun c : Node => orderKey sk c.tag),
      ← stableSort_map Prod.snd (fun c : Node => orderKey sk c.tag)]
    rw [stableSort_congr (k := fun z : Node × Node => orderKey sk z.2.tag) (k' := fun z : Node × Node => orderKey sk z.1.tag) (l := zs)
      (fun z hz => by rw [(h3 z hz).tag])]
    apply Pairs.unzipped
    intro z hz
    exact h3 z ((stableSort_perm _ zs).mem_iff.mp hz)

end Oxml
