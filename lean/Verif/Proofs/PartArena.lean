import Verif.Model.PartArena
import Verif.Props.TreeEdits
/-!
# Programs over the arena that take elements out
-/
namespace Oxml
open Spec

/-- No element of the arena lists the id. -/
def Unlisted (d : XmlDoc) (i : Nat) : Prop := ∀ j x, d.get j = some x → ∀ c ∈ x.children, c.id ≠ i

theorem Unlisted.listed {d : XmlDoc} (hinv : d.Inv) {i : Nat} (h : Unlisted d i) : d.listed i = false := by
  rw [Bool.eq_false_iff]
  intro hl
  unfold XmlDoc.listed at hl
  rw [List.any_eq_true] at hl
  obtain ⟨⟨k, x⟩, hk, hx⟩ := hl
  rw [List.any_eq_true] at hx
  obtain ⟨c, hc, hi⟩ := hx
  exact h k x (aget_of_mem hinv.keys hk) c hc (by simpa using hi)

theorem Unlisted.desc {d : XmlDoc} {i j : Nat} (h : Unlisted d i) (hd : Desc d j i) : j = i := by
  generalize hk : i = k at hd
  cases hd with
  | refl => rfl
  | step _ he hc => exact absurd hk.symm (h _ _ he _ hc)

/-- Nothing lies below two unlisted elements. -/
theorem Unlisted.apart {d : XmlDoc} (hinv : d.Inv) {a b j : Nat} (ha : Unlisted d a) (hb : Unlisted d b) (hne : a ≠ b)
    (h1 : Desc d a j) (h2 : Desc d b j) : False := by
  rcases h1.linear hinv h2 with h | h
  · exact hne (hb.desc h)
  · exact hne (ha.desc h).symm

/-- Detached elements that are still stored. -/
structure Kids (d : XmlDoc) (cs : List Child) : Prop where
  pos : ∀ c ∈ cs, c.id ≠ 0
  here : ∀ c ∈ cs, ∃ e, d.get c.id = some e ∧ e.tag = c.tag
  free : ∀ c ∈ cs, Unlisted d c.id
  once : (cs.map Child.id).Nodup

/-- The tree of an element taken out of the arena whose children are still stored. -/
def ownTree (d : XmlDoc) (e : Elem) : Node := .mk e.tag e.attrs e.value (e.children.map (fun c => d.tree c.id))

/-- `d'` is `d` without some of the elements below the ids. -/
structure Cut (u : Unicode) (d d' : XmlDoc) (ids : List Nat) : Prop where
  inv : d'.Inv
  ns : d'.ns = d.ns
  run : d'.runningId = d.runningId
  sub : ∀ j x, d'.get j = some x → d.get j = some x
  kept : ∀ j, (∀ i ∈ ids, ¬Desc d i j) → d'.get j = d.get j
  reach : Reachable u d → Reachable u d'

theorem Cut.refl {u : Unicode} {d : XmlDoc} (h : d.Inv) (ids : List Nat) : Cut u d d ids :=
  ⟨h, rfl, rfl, fun _ _ h => h, fun _ _ => rfl, id⟩

theorem Cut.desc {u : Unicode} {d d' : XmlDoc} {ids : List Nat} (h : Cut u d d' ids) {i j : Nat} (hd : Desc d' i j) : Desc d i j := by
  induction hd with
  | refl => exact .refl
  | step _ he hc ih => exact ih.step (h.sub _ _ he) hc

theorem Cut.trans {u : Unicode} {d d1 d2 : XmlDoc} {a b ids : List Nat} (h1 : Cut u d d1 a) (h2 : Cut u d1 d2 b)
    (ha : ∀ i ∈ a, ∃ k ∈ ids, Desc d k i) (hb : ∀ i ∈ b, ∃ k ∈ ids, Desc d k i) : Cut u d d2 ids := by
  refine ⟨h2.inv, h2.ns.trans h1.ns, h2.run.trans h1.run, fun j x hx => h1.sub _ _ (h2.sub _ _ hx), ?_, fun h => h2.reach (h1.reach h)⟩
  intro j hj
  rw [h2.kept j, h1.kept j]
  · intro i hi hd
    obtain ⟨k, hk, hki⟩ := ha i hi
    exact hj k hk (hki.trans hd)
  · intro i hi hd
    obtain ⟨k, hk, hki⟩ := hb i hi
    exact hj k hk (hki.trans (h1.desc hd))

theorem Cut.mono {u : Unicode} {d d1 : XmlDoc} {a ids : List Nat} (h1 : Cut u d d1 a) (h : ∀ i ∈ a, i ∈ ids) : Cut u d d1 ids :=
  ⟨h1.inv, h1.ns, h1.run, h1.sub, fun j hj => h1.kept j (fun i hi => hj i (h i hi)), h1.reach⟩

theorem Cut.unlisted {u : Unicode} {d d' : XmlDoc} {ids : List Nat} (h : Cut u d d' ids) {i : Nat} (hi : Unlisted d i) : Unlisted d' i :=
  fun j x hx => hi j x (h.sub _ _ hx)

/-- Cutting below some detached elements keeps the others. -/
theorem Cut.kids {u : Unicode} {d d' : XmlDoc} {a b : List Child} (hinv : d.Inv) (hk : Kids d (a ++ b)) (h : Cut u d d' (a.map Child.id)) :
    Kids d' b ∧ ∀ c ∈ b, d'.tree c.id = d.tree c.id := by
  have hne : ∀ x ∈ a, ∀ y ∈ b, x.id ≠ y.id := by
    intro x hx y hy
    have := hk.once
    rw [List.map_append, List.nodup_append] at this
    exact this.2.2 _ (List.mem_map.mpr ⟨x, hx, rfl⟩) _ (List.mem_map.mpr ⟨y, hy, rfl⟩)
  have hkept : ∀ y ∈ b, ∀ j, Desc d y.id j → d'.get j = d.get j := by
    intro y hy j hj
    apply h.kept
    intro i hi hd
    obtain ⟨x, hx, rfl⟩ := List.mem_map.mp hi
    exact Unlisted.apart hinv (hk.free x (by simp [hx])) (hk.free y (by simp [hy])) (hne x hx y hy) hd hj
  refine ⟨⟨fun c hc => hk.pos c (by simp [hc]), ?_, fun c hc => h.unlisted (hk.free c (by simp [hc])), ?_⟩, ?_⟩
  · intro c hc
    obtain ⟨e, he, ht⟩ := hk.here c (by simp [hc])
    exact ⟨e, by rw [hkept c hc _ .refl]; exact he, ht⟩
  · have := hk.once
    rw [List.map_append, List.nodup_append] at this
    exact this.2.1
  · intro c hc
    obtain ⟨e, he, _⟩ := hk.here c (by simp [hc])
    exact tree_frame hinv h.inv _ _ e (Nat.lt_succ_self _) he (fun j hj _ => hkept c hc j hj)

/-- Cutting below detached elements keeps the document. -/
theorem Cut.doc {u : Unicode} {d d' : XmlDoc} {a : List Child} (hinv : d.Inv) (hk : Kids d a) (h : Cut u d d' (a.map Child.id)) :
    d'.toXDoc = d.toXDoc := by
  have h0 : Unlisted d 0 := by
    intro j x hx c hc
    have := (hinv.tree.child _ _ hx c hc).1
    omega
  have hkept : ∀ j, Desc d 0 j → d'.get j = d.get j := by
    intro j hj
    apply h.kept
    intro i hi hd
    obtain ⟨x, hx, rfl⟩ := List.mem_map.mp hi
    exact Unlisted.apart hinv (hk.free x hx) h0 (hk.pos x hx) hd hj
  have hr : d'.toXDoc.root = d.toXDoc.root := by
    cases he : d.get 0 with
    | none =>
      have he' : d'.get 0 = none := by rw [hkept 0 .refl]; exact he
      unfold XmlDoc.toXDoc XmlDoc.toNode
      simp only [he, he']
    | some e =>
      have he' : d'.get 0 = some e := by rw [hkept 0 .refl]; exact he
      rw [toXDoc_some hinv he, toXDoc_some h.inv he']
      congr 1
      exact tree_frame hinv h.inv _ _ e (Nat.lt_succ_self _) he (fun j hj _ => hkept j hj)
  have hn : d'.toXDoc.ns = d.toXDoc.ns := h.ns
  have ext : ∀ x y : XDoc, x.ns = y.ns → x.root = y.root → x = y := by
    intro x y h1 h2
    cases x; cases y; cases h1; cases h2; rfl
  exact ext _ _ hn hr

theorem Kids.left {d : XmlDoc} {a b : List Child} (h : Kids d (a ++ b)) : Kids d a := by
  refine ⟨fun c hc => h.pos c (by simp [hc]), fun c hc => h.here c (by simp [hc]), fun c hc => h.free c (by simp [hc]), ?_⟩
  have := h.once
  rw [List.map_append, List.nodup_append] at this
  exact this.1

theorem Kids.nil (d : XmlDoc) : Kids d [] := ⟨by simp, by simp, by simp, by simp⟩

/-- Taking a detached element out. -/
theorem pop_kid {u : Unicode} {d : XmlDoc} (hinv : d.Inv) {c : Child} {cs : List Child} (hk : Kids d (c :: cs)) :
    ∃ d1 e, d.popElement c.id = (d1, some e) ∧ Cut u d d1 [c.id] ∧ Kids d1 (e.children ++ cs) ∧ e.tag = c.tag ∧
      d.tree c.id = ownTree d1 e ∧ (∀ x ∈ cs, d1.tree x.id = d.tree x.id) ∧ (∀ i ∈ e.children.map Child.id, Desc d c.id i) := by
  obtain ⟨e, he, ht⟩ := hk.here c (by simp)
  have hfree := hk.free c (by simp)
  have hl := hfree.listed hinv
  have hinv1 := hinv.popDetached hl
  have hget : ∀ j, (d.popElement c.id).1.get j = if c.id = j then none else d.get j := by
    intro j
    change aget j (aerase c.id d.elems) = _
    rw [aget_aerase]
    rfl
  have hcut : Cut u d (d.popElement c.id).1 [c.id] := by
    refine ⟨hinv1, rfl, rfl, ?_, ?_, ?_⟩
    · intro j x hx
      rw [hget] at hx
      split at hx
      · cases hx
      · exact hx
    · intro j hj
      rw [hget, if_neg]
      intro heq
      exact hj c.id (by simp) (heq ▸ .refl)
    · intro h
      have := h.edit (.popDetached c.id) trivial
      simpa [XmlDoc.edit, hl] using this
  have hkids := hcut.kids (a := [c]) (b := cs) hinv hk
  have hch : ∀ x ∈ e.children, c.id < x.id ∧ (∃ y, (d.popElement c.id).1.get x.id = some y ∧ y.tag = x.tag) ∧
      (d.popElement c.id).1.tree x.id = d.tree x.id := by
    intro x hx
    obtain ⟨hlt, y, hy, _, hyt⟩ := hinv.tree.child _ _ he x hx
    refine ⟨hlt, ⟨y, by rw [hget, if_neg (by omega)]; exact hy, hyt⟩, ?_⟩
    apply tree_frame hinv hinv1 _ _ y (Nat.lt_succ_self _) hy
    intro j hj _
    rw [hget, if_neg]
    have := hj.le hinv
    omega
  refine ⟨(d.popElement c.id).1, e, by rw [← he]; rfl, hcut, ⟨?_, ?_, ?_, ?_⟩, ht, ?_, hkids.2, ?_⟩
  · intro x hx
    rcases List.mem_append.mp hx with hx | hx
    · have := (hch x hx).1; omega
    · exact hk.pos x (by simp [hx])
  · intro x hx
    rcases List.mem_append.mp hx with hx | hx
    · exact (hch x hx).2.1
    · exact hkids.1.here x hx
  · intro x hx
    rcases List.mem_append.mp hx with hx | hx
    · intro j y hy c' hc' heq
      have hy' := hcut.sub _ _ hy
      have := parent_unique hinv hy' he hc' hx heq
      subst this
      rw [hget, if_pos rfl] at hy
      cases hy
    · exact hkids.1.free x hx
  · rw [List.map_append, List.nodup_append]
    refine ⟨hinv.tree.once _ _ he, hkids.1.once, ?_⟩
    intro a ha b hb heq
    obtain ⟨x, hx, rfl⟩ := List.mem_map.mp ha
    obtain ⟨y, hy, rfl⟩ := List.mem_map.mp hb
    exact hk.free y (by simp [hy]) _ _ he x hx heq
  · rw [tree_eq hinv he]
    unfold ownTree
    congr 1
    exact List.map_congr_left (fun x hx => (hch x hx).2.2.symm)
  · intro i hi
    obtain ⟨x, hx, rfl⟩ := List.mem_map.mp hi
    exact Desc.child he hx

/-- A fold that stops at the first error. -/
def foldRes {σ : Type} (f : σ → Node → Res σ) : σ → List Node → Res σ
  | s, [] => .ok s
  | s, n :: ns =>
    match f s n with
    | .error e => .error e
    | .ok s' => foldRes f s' ns

/-- The program looks at an element taken out and at what is stored below it as `f` looks at the tree. -/
def Reads {σ : Type} (u : Unicode) (body : σ → Elem → XmlDoc → Res σ × XmlDoc) (f : σ → Node → Res σ) : Prop :=
  ∀ s e d, d.Inv → Kids d e.children → (body s e d).1 = f s (ownTree d e) ∧ Cut u d (body s e d).2 (e.children.map Child.id)

theorem reads_looks {σ : Type} {u : Unicode} {f : σ → Node → Res σ} (h : ∀ s t a v cs, f s (.mk t a v cs) = f s (.mk t a v [])) :
    Reads u (looks f) f := by
  intro s e d hinv hk
  exact ⟨(h s e.tag e.attrs e.value _).symm, Cut.refl hinv _⟩

/-- The test before an element is taken, and the element's own result. -/
def checked {σ : Type} (check : String → Option Err) (f : σ → Node → Res σ) (s : σ) (n : Node) : Res σ :=
  match check n.tag with
  | some e => .error e
  | none => f s n

/-- Draining an element reads the trees of its children in order. -/
theorem drain_reads {σ : Type} {u : Unicode} {check : String → Option Err} {missing : Option Err}
    {body : σ → Elem → XmlDoc → Res σ × XmlDoc} {f : σ → Node → Res σ} (hb : Reads u body f) :
    ∀ (cs : List Child) (s : σ) (d : XmlDoc), d.Inv → Kids d cs →
      (drain check missing body cs s d).1 = foldRes (checked check f) s (cs.map (fun c => d.tree c.id)) ∧
        Cut u d (drain check missing body cs s d).2 (cs.map Child.id)
  | [], s, d, hinv, _ => ⟨rfl, Cut.refl hinv _⟩
  | c :: cs, s, d, hinv, hk => by
    obtain ⟨d1, e, hpop, hcut, hk1, ht, htree, hsame, hdesc⟩ := pop_kid (u := u) hinv hk
    have htag : (d.tree c.id).tag = c.tag := by rw [htree]; exact ht
    simp only [List.map_cons, foldRes, checked, htag]
    unfold drain
    cases hc : check c.tag with
    | some er => exact ⟨rfl, Cut.refl hinv _⟩
    | none =>
      simp only [hpop]
      obtain ⟨hr, hc2⟩ := hb s e d1 hcut.inv hk1.left
      have hcut2 : Cut u d (body s e d1).2 [c.id] :=
        hcut.trans hc2 (fun i hi => ⟨i, hi, .refl⟩) (fun i hi => ⟨c.id, by simp, hdesc i hi⟩)
      cases hbd : body s e d1 with
      | mk r d2 =>
        rw [hbd] at hr hc2 hcut2
        simp only at hr hc2 hcut2
        cases r with
        | error er =>
          simp only
          rw [htree, ← hr]
          exact ⟨rfl, hcut2.mono (by simp)⟩
        | ok s' =>
          simp only
          rw [htree, ← hr]
          simp only
          obtain ⟨hk2, hs2⟩ := hcut2.kids (a := [c]) (b := cs) hinv hk
          obtain ⟨h1, h2⟩ := drain_reads (check := check) (missing := missing) hb cs s' d2 hcut2.inv hk2
          constructor
          · rw [h1]
            congr 1
            exact List.map_congr_left hs2
          · exact hcut2.trans h2 (fun i hi => ⟨i, by simpa using .inl (by simpa using hi), .refl⟩)
              (fun i hi => ⟨i, List.mem_cons_of_mem _ hi, .refl⟩)

/-- Taking the first child only. -/
theorem popFirst_reads {u : Unicode} {d : XmlDoc} {e : Elem} (hinv : d.Inv) (hk : Kids d e.children) :
    (popFirst e d).1.map (ownTree (popFirst e d).2) = (ownTree d e).children.head? ∧
      Cut u d (popFirst e d).2 (e.children.map Child.id) ∧
      ∀ x, (popFirst e d).1 = some x → Kids (popFirst e d).2 x.children ∧
        ∀ i ∈ x.children.map Child.id, ∃ k ∈ e.children.map Child.id, Desc d k i := by
  unfold popFirst
  cases hch : e.children with
  | nil => simp only [ownTree, hch]; exact ⟨rfl, Cut.refl hinv _, by simp⟩
  | cons c cs =>
    rw [hch] at hk
    obtain ⟨d1, x, hpop, hcut, hk1, ht, htree, hsame, hdesc⟩ := pop_kid (u := u) hinv hk
    simp only [hpop, ownTree, hch, Node.children, List.map_cons, List.head?_cons, Option.map_some]
    refine ⟨by rw [htree]; rfl, hcut.mono (by simp), ?_⟩
    intro y hy
    cases hy
    exact ⟨hk1.left, fun i hi => ⟨c.id, by simp, hdesc i hi⟩⟩

/-- Going through elements taken out together. -/
theorem each_reads {σ : Type} {u : Unicode} {body : σ → Elem → XmlDoc → Res σ × XmlDoc} {f : σ → Node → Res σ} (hb : Reads u body f) :
    ∀ (es : List Elem) (s : σ) (d : XmlDoc), d.Inv → Kids d (es.flatMap Elem.children) →
      (eachElem body es s d).1 = foldRes f s (es.map (ownTree d)) ∧
        Cut u d (eachElem body es s d).2 ((es.flatMap Elem.children).map Child.id)
  | [], s, d, hinv, _ => ⟨rfl, Cut.refl hinv _⟩
  | e :: es, s, d, hinv, hk => by
    simp only [List.flatMap_cons] at hk ⊢
    obtain ⟨hr, hc⟩ := hb s e d hinv hk.left
    obtain ⟨hk2, hs2⟩ := hc.kids hinv hk
    simp only [List.map_cons, foldRes]
    unfold eachElem
    cases hbd : body s e d with
    | mk r d2 =>
      rw [hbd] at hr hc hk2 hs2
      simp only at hr hc hk2 hs2
      rw [← hr]
      cases r with
      | error er => exact ⟨rfl, hc.mono (fun i hi => by rw [List.map_append]; exact List.mem_append_left _ hi)⟩
      | ok s' =>
        obtain ⟨h1, h2⟩ := each_reads hb es s' d2 hc.inv hk2
        simp only
        constructor
        · rw [h1]
          congr 1
          apply List.map_congr_left
          intro x hx
          unfold ownTree
          congr 1
          apply List.map_congr_left
          intro c hcx
          exact hs2 c (List.mem_flatMap.mpr ⟨x, hx, hcx⟩)
        · exact hc.trans h2 (fun i hi => ⟨i, by rw [List.map_append]; exact List.mem_append_left _ hi, .refl⟩)
            (fun i hi => ⟨i, by rw [List.map_append]; exact List.mem_append_right _ hi, .refl⟩)

theorem filterMap_same {α β : Type} {f g : α → Option β} : ∀ {l : List α}, (∀ x ∈ l, f x = g x) → l.filterMap f = l.filterMap g
  | [], _ => rfl
  | x :: l, h => by
    rw [List.filterMap_cons, List.filterMap_cons, h x (by simp), filterMap_same (fun y hy => h y (by simp [hy]))]

/-- What `pop_elements_by_tag_mut` on the root takes out. -/
theorem pop_root {u : Unicode} {d : XmlDoc} (hinv : d.Inv) (tag : String) :
    (d.popByTag tag 0).1.Inv ∧ (d.popByTag tag 0).1.toXDoc = (d.toXDoc.popTag tag).2 ∧
      (Reachable u d → Reachable u (d.popByTag tag 0).1) ∧
      ((d.popByTag tag 0).2 = none ∧ (d.toXDoc.popTag tag).1 = [] ∨
        ∃ es, (d.popByTag tag 0).2 = some es ∧ es.map (ownTree (d.popByTag tag 0).1) = (d.toXDoc.popTag tag).1 ∧
          Kids (d.popByTag tag 0).1 (es.flatMap Elem.children)) := by
  have hinv1 := hinv.popByTag tag 0
  refine ⟨hinv1, ?_, fun h => h.edit (.popTag tag 0) trivial, ?_⟩
  · cases he : d.get 0 with
    | none =>
      have e1 : (d.popByTag tag 0).1 = d := by unfold XmlDoc.popByTag; rw [he]
      have e2 : d.toXDoc.root = none := by unfold XmlDoc.toXDoc XmlDoc.toNode; simp only [he]
      rw [e1]
      unfold XDoc.popTag XDoc.mapRootChildren
      simp only [e2, Option.map_none]
      rw [← e2]
    | some e =>
      have ha := acts_pop hinv he tag
      obtain ⟨e', he'⟩ : ∃ e', (d.popByTag tag 0).1.get 0 = some e' := by
        cases hx : (d.popByTag tag 0).1.get 0 with
        | none => exact absurd hx ha.here
        | some x => exact ⟨x, rfl⟩
      have hns : (d.popByTag tag 0).1.ns = d.ns := by
        unfold XmlDoc.popByTag
        rw [he]
        simp only
        split <;> rfl
      have hr := toXDoc_some hinv1 he'
      rw [ha.tree] at hr
      have ext : ∀ x y : XDoc, x.ns = y.ns → x.root = y.root → x = y := by
        intro x y h1 h2
        cases x; cases y; cases h1; cases h2; rfl
      apply ext
      · exact hns
      · rw [hr]
        unfold XDoc.popTag XDoc.mapRootChildren
        simp only [toXDoc_some hinv he, Option.map_some]
        rw [tree_eq hinv he]
        rfl
  · cases he : d.get 0 with
    | none =>
      left
      have e2 : d.toXDoc.root = none := by unfold XmlDoc.toXDoc XmlDoc.toNode; simp only [he]
      constructor
      · unfold XmlDoc.popByTag; rw [he]
      · unfold XDoc.popTag XDoc.rootChildren; simp [e2]
    | some e =>
      have hfil : (d.toXDoc.popTag tag).1 = (e.children.filter (fun c => decide (c.tag = tag))).map (fun c => d.tree c.id) := by
        unfold XDoc.popTag XDoc.rootChildren
        simp only [toXDoc_some hinv he]
        rw [tree_eq hinv he]
        simp only [Node.children]
        rw [List.filter_map]
        congr 1
        apply List.filter_congr
        intro c hc
        simp only [Function.comp_apply]
        rw [child_tag hinv he hc]
      have hidl : d.idsByTag tag 0 = (e.children.filter (fun c => decide (c.tag = tag))).map Child.id := by
        unfold XmlDoc.idsByTag
        rw [he]
      by_cases hids : d.idsByTag tag 0 = []
      · left
        constructor
        · unfold XmlDoc.popByTag
          rw [he]
          simp [hids]
        · rw [hfil]
          rw [hidl] at hids
          simp only [List.map_eq_nil_iff] at hids
          rw [hids]
          rfl
      · right
        generalize hcs : e.children.filter (fun c => decide (c.tag = tag)) = cs at hfil hidl
        have hsub : ∀ c ∈ cs, c ∈ e.children := by
          intro c hc
          rw [← hcs] at hc
          exact (List.mem_filter.mp hc).1
        have hget : ∀ k, (d.popByTag tag 0).1.get k = if k ∈ d.idsByTag tag 0 then none else
            if 0 = k then some { e with children := e.children.filter (fun c => decide (c.tag ≠ tag)) } else d.get k := by
          intro k
          unfold XmlDoc.popByTag
          rw [he]
          simp only [if_neg hids]
          change aget k (List.foldl (fun m i => aerase i m) (d.put 0 _).elems (d.idsByTag tag 0)) = _
          rw [aget_foldl_aerase]
          split
          · rfl
          · change (d.put 0 _).get k = _
            rw [XmlDoc.get_put]
        have hel : ∀ c ∈ cs, ∃ ec, d.get c.id = some ec ∧ 0 < c.id := by
          intro c hc
          obtain ⟨hlt, ec, hec, _⟩ := hinv.tree.child _ _ he c (hsub c hc)
          exact ⟨ec, hec, hlt⟩
        have hpop : (d.popByTag tag 0).2 = some (cs.filterMap (fun c => d.get c.id)) := by
          unfold XmlDoc.popByTag
          rw [he]
          simp only [if_neg hids]
          have : (d.idsByTag tag 0).filterMap (fun i => aget i (d.put 0 { e with children := e.children.filter (fun c => decide (c.tag ≠ tag)) }).elems) =
              cs.filterMap (fun c => d.get c.id) := by
            rw [hidl, List.filterMap_map]
            apply filterMap_same
            intro c hc
            obtain ⟨ec, hec, hpos⟩ := hel c hc
            change (d.put 0 _).get c.id = _
            rw [XmlDoc.get_put_ne _ (by omega)]
          rw [this, if_neg]
          intro hnil
          rw [hidl] at hids
          cases hc : cs with
          | nil => rw [hc] at hids; exact hids rfl
          | cons c rest =>
            obtain ⟨ec, hec, _⟩ := hel c (by simp [hc])
            rw [hc, List.filterMap_cons, hec] at hnil
            cases hnil
        refine ⟨_, hpop, ?_, ?_⟩
        · rw [hfil]
          have : ∀ l : List Child, (∀ c ∈ l, c ∈ cs) → (l.filterMap (fun c => d.get c.id)).map (ownTree (d.popByTag tag 0).1) = l.map (fun c => d.tree c.id) := by
            intro l
            induction l with
            | nil => intro _; rfl
            | cons c l ih =>
              intro hl
              obtain ⟨ec, hec, hpos⟩ := hel c (hl c (by simp))
              rw [List.filterMap_cons, hec]
              simp only [List.map_cons]
              rw [ih (fun x hx => hl x (by simp [hx])), tree_eq hinv hec]
              unfold ownTree
              congr 2
              apply List.map_congr_left
              intro k hk
              obtain ⟨hlt2, ek, hek, _⟩ := hinv.tree.child _ _ hec k hk
              apply tree_frame hinv hinv1 _ _ ek (Nat.lt_succ_self _) hek
              intro j hj _
              have hge := hj.le hinv
              rw [hget, if_neg, if_neg (by omega)]
              intro hin
              rw [hidl] at hin
              obtain ⟨c', hc', rfl⟩ := List.mem_map.mp hin
              by_cases heq : c.id = c'.id
              · omega
              · exact siblings_apart hinv he (hsub c (hl c (by simp))) (hsub c' hc') heq ((Desc.child hec hk).trans hj) .refl
          exact this cs (fun _ h => h)
        · have hmem : ∀ x ∈ (cs.filterMap (fun c => d.get c.id)).flatMap Elem.children, ∃ c ∈ cs, ∃ ec, d.get c.id = some ec ∧ x ∈ ec.children := by
            intro x hx
            obtain ⟨ec, hec, hxc⟩ := List.mem_flatMap.mp hx
            obtain ⟨c, hc, hce⟩ := List.mem_filterMap.mp hec
            exact ⟨c, hc, ec, hce, hxc⟩
          refine ⟨?_, ?_, ?_, ?_⟩
          · intro x hx
            obtain ⟨c, hc, ec, hec, hxc⟩ := hmem x hx
            have := (hinv.tree.child _ _ hec x hxc).1
            omega
          · intro x hx
            obtain ⟨c, hc, ec, hec, hxc⟩ := hmem x hx
            obtain ⟨hlt, y, hy, _, hyt⟩ := hinv.tree.child _ _ hec x hxc
            refine ⟨y, ?_, hyt⟩
            rw [hget, if_neg, if_neg (by omega)]
            · exact hy
            · intro hin
              rw [hidl] at hin
              obtain ⟨c', hc', heq⟩ := List.mem_map.mp hin
              have := parent_unique hinv he hec (hsub c' hc') hxc heq
              have := (hel c hc)
              obtain ⟨_, _, hp⟩ := this
              omega
          · intro x hx j y hy c' hc' heq
            obtain ⟨c, hc, ec, hec, hxc⟩ := hmem x hx
            rw [hget] at hy
            split at hy
            · cases hy
            · rename_i hnin
              split at hy
              · rename_i h0
                subst h0
                cases hy
                have hc'' : c' ∈ e.children := (List.mem_filter.mp hc').1
                have := parent_unique hinv he hec hc'' hxc heq
                obtain ⟨_, _, hp⟩ := hel c hc
                omega
              · have := parent_unique hinv hy hec hc' hxc heq
                subst this
                apply hnin
                rw [hidl]
                exact List.mem_map.mpr ⟨c, hc, rfl⟩
          · have hnd : (cs.map Child.id).Nodup := by
              have := hinv.tree.once _ _ he
              rw [← hcs]
              exact List.Nodup.sublist (List.Sublist.map _ List.filter_sublist) this
            have : ∀ l : List Child, (∀ c ∈ l, c ∈ cs) → (l.map Child.id).Nodup →
                (((l.filterMap (fun c => d.get c.id)).flatMap Elem.children).map Child.id).Nodup := by
              intro l
              induction l with
              | nil => intro _ _; simp
              | cons c l ih =>
                intro hl hn
                obtain ⟨ec, hec, hpos⟩ := hel c (hl c (by simp))
                rw [List.filterMap_cons, hec]
                simp only [List.flatMap_cons, List.map_append]
                rw [List.map_cons, List.nodup_cons] at hn
                rw [List.nodup_append]
                refine ⟨hinv.tree.once _ _ hec, ih (fun x hx => hl x (by simp [hx])) hn.2, ?_⟩
                intro a ha b hb heq
                obtain ⟨x, hx, rfl⟩ := List.mem_map.mp ha
                obtain ⟨y, hy, rfl⟩ := List.mem_map.mp hb
                obtain ⟨ey, hey, hyc⟩ := List.mem_flatMap.mp hy
                obtain ⟨c2, hc2, hce2⟩ := List.mem_filterMap.mp hey
                have := parent_unique hinv hec hce2 hx hyc heq
                exact hn.1 (List.mem_map.mpr ⟨c2, hc2, this.symm⟩)
            exact this cs (fun _ h => h) hnd

/-- What a load leaves: the document `x`, still well formed and reachable. -/
structure Leaves (u : Unicode) (d d' : XmlDoc) (x : XDoc) : Prop where
  doc : d'.toXDoc = x
  inv : d'.Inv
  reach : Reachable u d → Reachable u d'

theorem Leaves.trans {u : Unicode} {d d1 d2 : XmlDoc} {x y : XDoc} (h1 : Leaves u d d1 x) (h2 : Leaves u d1 d2 y) : Leaves u d d2 y :=
  ⟨h2.doc, h2.inv, fun h => h2.reach (h1.reach h)⟩

theorem popEach_reads {σ : Type} {u : Unicode} {body : σ → Elem → XmlDoc → Res σ × XmlDoc} {f : σ → Node → Res σ} (hb : Reads u body f)
    {d : XmlDoc} (hinv : d.Inv) (tag : String) (s : σ) :
    (popEach tag body s d).1 = foldRes f s (d.toXDoc.popTag tag).1 ∧ Leaves u d (popEach tag body s d).2 (d.toXDoc.popTag tag).2 := by
  obtain ⟨hinv1, hdoc, hreach, h⟩ := pop_root (u := u) hinv tag
  unfold popEach
  cases hp : d.popByTag tag 0 with
  | mk d1 o =>
    rw [hp] at hinv1 hdoc hreach h
    simp only at hinv1 hdoc hreach h
    rcases h with ⟨rfl, hnil⟩ | ⟨es, rfl, htree, hk⟩
    · rw [hnil]
      exact ⟨rfl, hdoc, hinv1, hreach⟩
    · simp only
      obtain ⟨h1, h2⟩ := each_reads hb es s d1 hinv1 hk
      rw [h1, htree]
      exact ⟨rfl, (h2.doc hinv1 hk).trans hdoc, h2.inv, fun h => h2.reach (hreach h)⟩

theorem popLast_reads {σ : Type} {u : Unicode} {body : Elem → XmlDoc → Res σ × XmlDoc} {f : Node → Res σ}
    (hb : ∀ e d, d.Inv → Kids d e.children → (body e d).1 = f (ownTree d e) ∧ Cut u d (body e d).2 (e.children.map Child.id))
    {d : XmlDoc} (hinv : d.Inv) (tag : String) (s : σ) :
    (popLast tag body s d).1 = (match (d.toXDoc.popTag tag).1.getLast? with | none => .ok s | some n => f n) ∧
      Leaves u d (popLast tag body s d).2 (d.toXDoc.popTag tag).2 := by
  obtain ⟨hinv1, hdoc, hreach, h⟩ := pop_root (u := u) hinv tag
  unfold popLast
  cases hp : d.popByTag tag 0 with
  | mk d1 o =>
    rw [hp] at hinv1 hdoc hreach h
    simp only at hinv1 hdoc hreach h
    rcases h with ⟨rfl, hnil⟩ | ⟨es, rfl, htree, hk⟩
    · rw [hnil]
      exact ⟨rfl, hdoc, hinv1, hreach⟩
    · simp only
      rw [← htree, List.getLast?_map]
      cases hl : es.getLast? with
      | none => exact ⟨rfl, hdoc, hinv1, hreach⟩
      | some e =>
        simp only [Option.map_some]
        have hme := List.mem_of_getLast? hl
        have hke : Kids d1 e.children := by
          obtain ⟨a, b, rfl⟩ := List.append_of_mem hme
          rw [List.flatMap_append, List.flatMap_cons] at hk
          have hsub : ∀ c ∈ e.children, c ∈ a.flatMap Elem.children ++ (e.children ++ b.flatMap Elem.children) := by
            intro c hc; simp [hc]
          refine ⟨fun c hc => hk.pos c (hsub c hc), fun c hc => hk.here c (hsub c hc), fun c hc => hk.free c (hsub c hc), ?_⟩
          have := hk.once
          rw [List.map_append, List.nodup_append] at this
          have := this.2.1
          rw [List.map_append, List.nodup_append] at this
          exact this.1
        obtain ⟨h1, h2⟩ := hb e d1 hinv1 hke
        exact ⟨h1, (h2.doc hinv1 hke).trans hdoc, h2.inv, fun h => h2.reach (hreach h)⟩

end Oxml
