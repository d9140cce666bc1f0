import Verif.Proofs.Tokens
import Verif.Proofs.LTree
import Verif.Model.XmlReader
/-!
# Reading the tokens of a tree builds the tree
-/
namespace Oxml
open Spec LTree

/-- Subtrees `ts` were appended below `p`; everything else is unchanged. -/
structure Grown (d d' : XmlDoc) (p : Nat) (pe : Elem) (ts : List LTree) : Prop where
  parent : d'.get p = some { pe with children := pe.children ++ ts.map asChild }
  frame : ∀ j, j ≤ d.runningId → j ≠ p → d'.get j = d.get j
  mono : d.runningId ≤ d'.runningId
  holds : HoldsL d'.get ts
  consistent : ConsistentL ts
  parentId : ∀ t ∈ ts, t.elem.parentId = p
  ids : ∀ i ∈ idsL ts, d.runningId < i ∧ i ≤ d'.runningId
  inv : d'.Inv

theorem Grown.refl {d : XmlDoc} {p : Nat} {pe : Elem} (h : d.Inv) (hp : d.get p = some pe) : Grown d d p pe [] :=
  ⟨by simpa using hp, fun _ _ _ => rfl, Nat.le_refl _, by simp [HoldsL, entriesL], trivial, by simp, by simp, h⟩

theorem Grown.append {d d1 d2 : XmlDoc} {p : Nat} {pe pe1 : Elem} {t : LTree} {ts : List LTree}
    (hle : p ≤ d.runningId)
    (h1 : Grown d d1 p pe1 [t]) (h2 : Grown d1 d2 p { pe with children := pe.children ++ [t.asChild] } ts) :
    Grown d d2 p pe (t :: ts) := by
  refine ⟨?_, ?_, Nat.le_trans h1.mono h2.mono, ?_, ?_, ?_, ?_, h2.inv⟩
  · rw [h2.parent]; simp
  · intro j hj hne
    rw [h2.frame j (Nat.le_trans hj h1.mono) hne, h1.frame j hj hne]
  · rw [holdsL_cons]
    refine ⟨?_, h2.holds⟩
    have ht := (holdsL_cons.mp h1.holds).1
    apply ht.congr
    intro i hi
    have hi' := h1.ids i (by rw [idsL_cons]; simp [hi])
    apply h2.frame i hi'.2
    omega
  · exact ⟨h1.consistent.1, h2.consistent⟩
  · intro x hx
    rcases List.mem_cons.mp hx with rfl | hx
    · exact h1.parentId x (by simp)
    · exact h2.parentId x hx
  · intro i hi
    rw [idsL_cons, List.mem_append] at hi
    rcases hi with hi | hi
    · have := h1.ids i (by rw [idsL_cons]; simp [hi])
      have := h2.mono; omega
    · have := h2.ids i hi
      have := h1.mono; omega

/-! ### Attributes -/

theorem attributesString_pairs {a : Attrs} (h : (akeys a).Nodup) (f : String → List Char) :
    attributesString (a.map (fun kv => (kv.1.toList, f kv.2))) = a.map (fun kv => (kv.1, String.ofList (f kv.2))) := by
  have go : ∀ (l acc : Attrs), (akeys acc ++ akeys l).Nodup →
      (l.map (fun kv => (kv.1.toList, f kv.2))).foldl (fun m kv => ainsert (String.ofList kv.1) (String.ofList kv.2) m) acc =
        acc ++ l.map (fun kv => (kv.1, String.ofList (f kv.2))) := by
    intro l
    induction l with
    | nil => intro acc _; simp
    | cons x xs ih =>
      intro acc hn
      simp only [List.map_cons, List.foldl_cons, String.ofList_toList]
      have hx : x.1 ∉ akeys acc := by
        intro hm
        rw [List.nodup_append] at hn
        exact hn.2.2 x.1 hm x.1 (by simp [akeys]) rfl
      rw [ainsert_of_not_mem hx, ih]
      · simp
      · simpa [akeys, List.append_assoc] using hn
  have := go a [] (by simpa [akeys] using h)
  simpa [attributesString] using this

theorem attributesString_tagPairs {b : Build} {u : Unicode} {attrs : Option Attrs} (h : WfAttrs u attrs) :
    attributesString (tagPairs b attrs none) = reloadAttrs attrs := by
  cases attrs with
  | none => rfl
  | some a =>
    have hn := (akeys_sortAttrs_perm a).nodup_iff.mpr (h a rfl).1
    exact attributesString_pairs hn (fun v => escape v.toList)

theorem akeys_reloadAttrs (a : Attrs) : akeys (reloadAttrs (some a)) = akeys (sortAttrs a) := by
  simp [akeys, reloadAttrs]

theorem reloadAttrs_keys {u : Unicode} {attrs : Option Attrs} (h : WfAttrs u attrs) :
    (akeys (reloadAttrs attrs)).Nodup ∧
      ∀ k ∈ akeys (reloadAttrs attrs), isValidXmlName u k = true ∧ isNsKey k = false := by
  cases attrs with
  | none => simp [reloadAttrs, akeys]
  | some a =>
    rw [akeys_reloadAttrs]
    have hp := akeys_sortAttrs_perm a
    exact ⟨hp.nodup_iff.mpr (h a rfl).1, fun k hk => (h a rfl).2 k (hp.mem_iff.mp hk)⟩

/-- Setting ordinary attributes. -/
theorem setAttribute_plain {u : Unicode} {d : XmlDoc} {id : Nat} {e : Elem} {a : Attrs} (he : d.get id = some e)
    (h : ∀ k ∈ akeys a, isValidXmlName u k = true ∧ isNsKey k = false) :
    d.setAttribute u id a = .ok (d.put id { e with attrs := some a }) := by
  unfold XmlDoc.setAttribute
  rw [he]
  have hall : (akeys a).all (isValidXmlName u) = true := by
    rw [List.all_eq_true]; exact fun k hk => (h k hk).1
  have hf1 : a.filter (fun kv => isNsKey kv.1) = [] := by
    rw [List.filter_eq_nil_iff]
    intro kv hkv
    simp [(h kv.1 (List.mem_map.mpr ⟨kv, hkv, rfl⟩)).2]
  have hf2 : a.filter (fun kv => !isNsKey kv.1) = a := by
    rw [List.filter_eq_self]
    intro kv hkv
    simp [(h kv.1 (List.mem_map.mpr ⟨kv, hkv, rfl⟩)).2]
  simp only [hall, hf1, hf2, List.foldl_nil, Bool.not_true, Bool.false_eq_true, if_false]
  rfl

/-- The element created by an append. -/
def freshElem (d : XmlDoc) (p : Nat) (tag : String) : Elem :=
  { id := d.runningId + 1, parentId := p, tag := tag, attrs := none, value := none, children := [] }

/-- The document after an append. -/
def appended (d : XmlDoc) (p : Nat) (pe : Elem) (tag : String) : XmlDoc :=
  { (d.put p { pe with children := pe.children ++ [(⟨d.runningId + 1, tag⟩ : Child)] }).put (d.runningId + 1)
      (freshElem d p tag) with runningId := d.runningId + 1 }

theorem appendChild_get {u : Unicode} {d : XmlDoc} {p : Nat} {pe : Elem} {tag : String}
    (hp : d.get p = some pe) (htag : isValidXmlName u tag = true) :
    d.appendChild u tag p = .ok (appended d p pe tag, d.runningId + 1) := by
  unfold XmlDoc.appendChild XmlDoc.insertWith
  rw [hp]
  simp [newElem, htag, bind, Except.bind, appended, freshElem]

theorem get_appended (d : XmlDoc) (p : Nat) (pe : Elem) (tag : String) (j : Nat) :
    (appended d p pe tag).get j = if d.runningId + 1 = j then some (freshElem d p tag)
      else if p = j then some { pe with children := pe.children ++ [(⟨d.runningId + 1, tag⟩ : Child)] } else d.get j := by
  change ((d.put p _).put (d.runningId + 1) _).get j = _
  rw [XmlDoc.get_put, XmlDoc.get_put]

/-- Appending an element with attributes below `p`. -/
theorem append_with_attrs {u : Unicode} {d : XmlDoc} {p : Nat} {pe : Elem} {tag : String} {a : Attrs} (hinv : d.Inv)
    (hp : d.get p = some pe) (htag : isValidXmlName u tag = true)
    (ha : ∀ k ∈ akeys a, isValidXmlName u k = true ∧ isNsKey k = false) :
    ∃ d1 d2, d.appendChild u tag p = .ok (d1, d.runningId + 1) ∧ d1.setAttribute u (d.runningId + 1) a = .ok d2 ∧
      Grown d d2 p pe [.node { id := d.runningId + 1, parentId := p, tag := tag, attrs := some a, value := none, children := [] } []] ∧
      d2.runningId = d.runningId + 1 ∧ d2.ns = d.ns := by
  have hple := hinv.le _ _ hp
  have hpne : d.runningId + 1 ≠ p := by omega
  have happ := appendChild_get hp htag
  have hinv1 := hinv.insertWith places_append happ
  have hget : (appended d p pe tag).get (d.runningId + 1) = some (freshElem d p tag) := by rw [get_appended, if_pos rfl]
  have hset := setAttribute_plain (u := u) hget ha
  have hinv2 := hinv1.setAttribute hset
  refine ⟨_, _, happ, hset, ?_, rfl, rfl⟩
  have look : ∀ j, ((appended d p pe tag).put (d.runningId + 1) { freshElem d p tag with attrs := some a }).get j =
        if d.runningId + 1 = j then some { id := d.runningId + 1, parentId := p, tag := tag, attrs := some a, value := none, children := [] }
        else if p = j then some { pe with children := pe.children ++ [(⟨d.runningId + 1, tag⟩ : Child)] } else d.get j := by
    intro j
    rw [XmlDoc.get_put]
    split
    · rfl
    · rename_i hj; rw [get_appended, if_neg hj]
  refine ⟨?_, ?_, ?_, ?_, ?_, ?_, ?_, hinv2⟩
  · rw [look, if_neg hpne, if_pos rfl]; rfl
  · intro j hj hne
    rw [look, if_neg (by omega), if_neg (Ne.symm hne)]
  · exact Nat.le_succ _
  · rw [holdsL_cons]
    refine ⟨?_, by simp [HoldsL, entriesL]⟩
    intro e he
    simp only [entries, entriesL, List.mem_singleton] at he
    subst he
    rw [look, if_pos rfl]
  · refine ⟨⟨rfl, by simp, trivial⟩, trivial⟩
  · intro t ht
    rw [List.mem_singleton.mp ht]; rfl
  · intro i hi
    simp only [idsL_cons, ids_node, idsL_nil, List.append_nil, List.mem_singleton] at hi
    subst hi
    change d.runningId < d.runningId + 1 ∧ d.runningId + 1 ≤ d.runningId + 1
    omega

/-- Filling the last appended element: children appended below it, text set, and so on. -/
theorem Grown.nest {d d1 d2 : XmlDoc} {p : Nat} {pe e e' : Elem} {ts : List LTree} (hp : p ≤ d.runningId)
    (h1 : Grown d d1 p pe [.node e []]) (hid : e'.id = e.id) (hpar : e'.parentId = e.parentId) (htag : e'.tag = e.tag)
    (hch : e'.children = ts.map asChild)
    (hparent : d2.get e.id = some e') (hframe : ∀ j, j ≤ d1.runningId → j ≠ e.id → d2.get j = d1.get j)
    (hmono : d1.runningId ≤ d2.runningId) (hh : HoldsL d2.get ts) (hc : ConsistentL ts)
    (hpt : ∀ t ∈ ts, t.elem.parentId = e.id) (hids : ∀ i ∈ idsL ts, d1.runningId < i ∧ i ≤ d2.runningId) (hinv : d2.Inv) : Grown d d2 p pe [.node e' ts] := by
  have heid := h1.ids e.id (by simp [idsL_cons, ids_node])
  refine ⟨?_, ?_, Nat.le_trans h1.mono hmono, ?_, ?_, ?_, ?_, hinv⟩
  · rw [hframe p (by have := h1.mono; omega) (by omega), h1.parent]
    simp [asChild, LTree.elem, hid, htag]
  · intro j hj hne
    rw [hframe j (by have := h1.mono; omega) (by omega), h1.frame j hj hne]
  · rw [holdsL_cons, holds_node, hid]
    exact ⟨⟨hparent, hh⟩, by simp [HoldsL, entriesL]⟩
  · exact ⟨⟨hch, fun k hk => by rw [hid]; exact hpt k hk, hc⟩, trivial⟩
  · intro t ht
    rw [List.mem_singleton.mp ht]
    change e'.parentId = p
    rw [hpar]
    exact h1.parentId _ (List.mem_singleton.mpr rfl)
  · intro i hi
    simp only [idsL_cons, ids_node, idsL_nil, List.append_nil, List.mem_cons] at hi
    rcases hi with rfl | hi
    · rw [hid]; omega
    · have := hids i hi
      have := h1.mono; omega

theorem setValue_get {d : XmlDoc} {id : Nat} {e : Elem} (h : d.get id = some e) (t : String) :
    d.setValue id t = .ok (d.put id { e with value := some t }) := by
  unfold XmlDoc.setValue; rw [h]

theorem readStep_close {u : Unicode} {d : XmlDoc} {id : Nat} {e : Elem} (h : d.get id = some e) (b : Bool) :
    readStep u ⟨d, b, id⟩ (.close e.tag.toList) = .ok ⟨d, b, e.parentId⟩ := by
  simp [readStep, h]

theorem readLoop_cons {u : Unicode} {s s' : RState} {t : Token} {ts : List Token} (h : readStep u s t = .ok s') :
    readLoop u s (t :: ts) = readLoop u s' ts := by
  simp only [readLoop, h]; rfl

/-- Processing the text of an element. -/
theorem readLoop_text {u : Unicode} {d : XmlDoc} {id : Nat} {e : Elem} (h : d.get id = some e) (v : String)
    (hv : e.value = none) (rest : List Token) :
    readLoop u ⟨d, true, id⟩ (textToken (escape v.toList).reverse ++ rest) =
      readLoop u ⟨d.put id { e with value := reloadText v }, true, id⟩ rest ∨
    (reloadText v = none ∧ readLoop u ⟨d, true, id⟩ (textToken (escape v.toList).reverse ++ rest) =
      readLoop u ⟨d, true, id⟩ rest) := by
  unfold textToken reloadText
  simp only [List.reverse_reverse, trimXml_escape]
  by_cases ht : trimXml v.toList = []
  · right; simp [ht]
  · left
    have hne : escape (trimXml v.toList) ≠ [] := fun h => ht (escape_eq_nil h)
    rw [if_neg hne, if_neg ht]
    simp only [List.singleton_append]
    apply readLoop_cons
    simp only [readStep, unescape_escape, bind, Except.bind, setValue_get h]

/-- The reader processes the tokens of one element. -/
def ReadsTree (b : Build) (u : Unicode) (n : Node) : Prop :=
  ∀ (d : XmlDoc) (p : Nat) (pe : Elem) (rest : List Token), d.Inv → d.get p = some pe →
    ∃ d' t, readLoop u ⟨d, true, p⟩ (toks b n ++ rest) = readLoop u ⟨d', true, p⟩ rest ∧ Grown d d' p pe [t] ∧ t.erase = reload n ∧ d'.ns = d.ns

def ReadsList (b : Build) (u : Unicode) (ns : List Node) : Prop :=
  ∀ (d : XmlDoc) (p : Nat) (pe : Elem) (rest : List Token), d.Inv → d.get p = some pe →
    ∃ d' ts, readLoop u ⟨d, true, p⟩ (toksL b ns ++ rest) = readLoop u ⟨d', true, p⟩ rest ∧ Grown d d' p pe ts ∧
      erases ts = reloads ns ∧ d'.ns = d.ns

theorem readsList_of {b : Build} {u : Unicode} {ns : List Node} (h : ∀ n ∈ ns, ReadsTree b u n) : ReadsList b u ns := by
  induction ns with
  | nil => intro d p pe rest hinv hp; exact ⟨d, [], rfl, Grown.refl hinv hp, rfl, rfl⟩
  | cons n ns ih =>
    intro d p pe rest hinv hp
    obtain ⟨d1, t, e1, g1, r1, n1⟩ := h n (by simp) d p pe (toksL b ns ++ rest) hinv hp
    obtain ⟨d2, ts, e2, g2, r2, n2⟩ := ih (fun x hx => h x (by simp [hx])) d1 p _ rest g1.inv g1.parent
    refine ⟨d2, t :: ts, ?_, Grown.append (hinv.le _ _ hp) g1 g2, ?_, n2.trans n1⟩
    · simp only [toksL, List.append_assoc]; rw [e1, e2]
    · simp [erases, reloads, r1, r2]

theorem readStep_open {b : Build} {u : Unicode} {d : XmlDoc} {p : Nat} {pe : Elem} {tag : String} {attrs : Option Attrs}
    (hinv : d.Inv) (hp : d.get p = some pe) (htag : isValidXmlName u tag = true) (ha : WfAttrs u attrs) (close : Bool) :
    ∃ d2, readStep u ⟨d, true, p⟩ (openToken b tag attrs none close) =
        .ok ⟨d2, true, if close then p else d.runningId + 1⟩ ∧
      Grown d d2 p pe [.node { id := d.runningId + 1, parentId := p, tag := tag, attrs := some (reloadAttrs attrs), value := none, children := [] } []] ∧
      d2.runningId = d.runningId + 1 ∧ d2.ns = d.ns := by
  obtain ⟨d1, d2, h1, h2, g, hr⟩ := append_with_attrs hinv hp htag (reloadAttrs_keys ha).2
  refine ⟨d2, ?_, g, hr⟩
  cases close <;>
    simp [openToken, readStep, h1, attributesString_tagPairs ha, h2, bind, Except.bind]

theorem readsTree {b : Build} {u : Unicode} : ∀ n : Node, WfNode u n → ReadsTree b u n := by
  refine Node.ind ?_
  intro tag attrs value cs ih hwf d p pe rest hinv hp
  obtain ⟨htag, hattrs, hcs⟩ := hwf
  have hple := hinv.le _ _ hp
  have hgetE : ∀ {d2 : XmlDoc} {e : Elem}, Grown d d2 p pe [.node e []] → d2.get e.id = some e :=
    fun g => (holds_node.mp (holdsL_cons.mp g.holds).1).1
  cases value with
  | some v =>
    obtain ⟨d1, hs, g, hr, hns⟩ := readStep_open (b := b) hinv hp htag hattrs false
    simp only [toks, List.cons_append, List.append_assoc]
    rw [readLoop_cons hs]
    have hE := hgetE g
    simp only [Bool.false_eq_true, if_false, List.nil_append]
    rcases readLoop_text (u := u) hE v rfl (Token.close tag.toList :: rest) with h | ⟨hnone, h⟩
    · refine ⟨d1.put (d.runningId + 1) { id := d.runningId + 1, parentId := p, tag := tag, attrs := some (reloadAttrs attrs), value := reloadText v, children := [] },
        .node { id := d.runningId + 1, parentId := p, tag := tag, attrs := some (reloadAttrs attrs), value := reloadText v, children := [] } [], ?_, ?_, ?_, hns⟩
      · refine h.trans ?_
        exact readLoop_cons (readStep_close (XmlDoc.get_put_self _ _ _) true)
      · refine Grown.nest hple g rfl rfl rfl rfl (XmlDoc.get_put_self _ _ _) ?_ (Nat.le_refl _) (by simp [HoldsL, entriesL])
          trivial (by simp) (by simp) ?_
        · intro j _ hj; exact XmlDoc.get_put_ne _ (Ne.symm hj) _
        · exact g.inv.put_same hE rfl rfl rfl (fun c hc => hc) (by simp)
      · simp [erase, erases, reload]
    · refine ⟨d1, _, ?_, g, ?_, hns⟩
      · refine h.trans ?_
        exact readLoop_cons (readStep_close hE true)
      · simp [erase, erases, reload, hnone]
  | none =>
    cases cs with
    | nil =>
      obtain ⟨d1, hs, g, hr, hns⟩ := readStep_open (b := b) hinv hp htag hattrs true
      refine ⟨d1, _, ?_, g, ?_, hns⟩
      · simp only [toks, List.cons_append, List.nil_append]
        rw [readLoop_cons hs]; rfl
      · simp [erase, erases, reload, reloads]
    | cons c cs' =>
      obtain ⟨d1, hs, g, hr, hns⟩ := readStep_open (b := b) hinv hp htag hattrs false
      have hE := hgetE g
      obtain ⟨d2, ts, e2, g2, r2, n2⟩ := readsList_of (fun n hn => ih n hn (wfNodes_iff.mp hcs n hn)) d1 (d.runningId + 1) _
        (Token.close tag.toList :: rest) g.inv hE
      refine ⟨d2, .node { id := d.runningId + 1, parentId := p, tag := tag, attrs := some (reloadAttrs attrs), value := none, children := ts.map asChild } ts, ?_, ?_, ?_, n2.trans hns⟩
      · simp only [toks, List.cons_append, List.append_assoc]
        rw [readLoop_cons hs]
        simp only [Bool.false_eq_true, if_false, List.nil_append]
        rw [e2]
        have := g2.parent
        simp only [List.nil_append] at this
        exact readLoop_cons (readStep_close this true)
      · exact Grown.nest hple g rfl rfl rfl rfl (by simpa using g2.parent) (fun j hj hne => g2.frame j hj hne) g2.mono g2.holds
          g2.consistent g2.parentId g2.ids g2.inv
      · simp [erase, reload, r2]

end Oxml
