import Verif.Proofs.RoundTrip
/-!
# Names and namespaces over edit histories
-/
namespace Oxml
open Spec

/-- All names in the arena were accepted, and the namespace map is sound. -/
structure XmlDoc.Named (u : Unicode) (d : XmlDoc) : Prop where
  elem : ∀ i e, d.get i = some e → isValidXmlName u e.tag = true ∧ WfAttrs u e.attrs
  ns : WfNs u d.ns

theorem XmlDoc.Named.new (u : Unicode) : XmlDoc.new.Named u :=
  ⟨by simp [XmlDoc.new, XmlDoc.get], by simp [XmlDoc.new, WfNs, akeys]⟩

theorem XmlDoc.Named.put {u : Unicode} {d : XmlDoc} (h : d.Named u) {i : Nat} {e : Elem}
    (h1 : isValidXmlName u e.tag = true) (h2 : WfAttrs u e.attrs) : (d.put i e).Named u := by
  refine ⟨?_, h.ns⟩
  intro j x hx
  rw [XmlDoc.get_put] at hx
  split at hx
  · cases hx; exact ⟨h1, h2⟩
  · exact h.elem _ _ hx

theorem XmlDoc.Named.put_same {u : Unicode} {d : XmlDoc} (h : d.Named u) {i : Nat} {e e' : Elem} (hi : d.get i = some e)
    (h1 : e'.tag = e.tag) (h2 : e'.attrs = e.attrs) : (d.put i e').Named u :=
  h.put (by rw [h1]; exact (h.elem _ _ hi).1) (by rw [h2]; exact (h.elem _ _ hi).2)

theorem XmlDoc.Named.congr {u : Unicode} {d d' : XmlDoc} (h : d.Named u) (hns : d'.ns = d.ns)
    (hg : ∀ i e, d'.get i = some e → d.get i = some e) : d'.Named u :=
  ⟨fun i e hi => h.elem i e (hg i e hi), by rw [hns]; exact h.ns⟩

theorem wfAttrs_none (u : Unicode) : WfAttrs u none := by intro a h; cases h

theorem isNameChar_not_colon_start {u : Unicode} {c : Char} (h : isNameStartChar u c = true) : c ≠ ':' := by
  rintro rfl
  unfold isNameStartChar isAlphabetic at h
  simp at h

theorem nameTailOk_dropWhile {u : Unicode} {cs rest : List Char} {x : Char} (h : nameTailOk u cs 0 = true)
    (hd : cs.dropWhile (fun c => decide (c ≠ ':')) = x :: rest) : nameTailOk u rest 1 = true := by
  induction cs with
  | nil => simp at hd
  | cons c cs ih =>
    rw [nameTailOk] at h
    by_cases hc : c = ':'
    · subst hc
      simp at hd h
      obtain ⟨_, rfl⟩ := hd
      exact h
    · rw [if_neg hc] at h
      split at h
      · cases h
      · simp [hc] at hd
        exact ih h (by simpa using hd)

theorem nameTailOk_one_no_colon {u : Unicode} {cs : List Char} (h : nameTailOk u cs 1 = true) : ':' ∉ cs := by
  induction cs with
  | nil => simp
  | cons c cs ih =>
    rw [nameTailOk] at h
    by_cases hc : c = ':'
    · rw [if_pos hc] at h; simp at h
    · rw [if_neg hc] at h
      split at h
      · cases h
      · simp only [List.mem_cons, not_or]
        exact ⟨Ne.symm hc, ih h⟩

theorem validName_xmlns {u : Unicode} {rest : List Char} (h : nameTailOk u rest 1 = true) :
    isValidXmlName u ("xmlns:" ++ String.ofList rest) = true := by
  have hx : ∀ c ∈ ['x', 'm', 'l', 'n', 's'], isNameStartChar u c = true := by
    intro c hc
    exact isNameStartChar_mono u c ((by decide : ∀ c ∈ ['x', 'm', 'l', 'n', 's'], isNameStartChar ⟨fun _ => false⟩ c = true) c hc)
  have hx' : ∀ c ∈ ['x', 'm', 'l', 'n', 's'], isNameChar u c = true := by
    intro c hc; unfold isNameChar; simp [hx c hc]
  unfold isValidXmlName
  rw [String.toList_append, String.toList_ofList]
  simp [nameTailOk, hx, hx', h]

theorem nsAlias_ok {u : Unicode} {key al : String} (hk : isValidXmlName u key = true) (ha : nsAlias key = some al) :
    isValidXmlName u ("xmlns:" ++ al) = true ∧ ':' ∉ al.toList := by
  unfold nsAlias at ha
  split at ha
  · cases ha
  · rename_i x rest hd
    cases ha
    unfold isValidXmlName at hk
    split at hk
    · cases hk
    · rename_i c cs hl
      split at hk
      · cases hk
      · rename_i hc
        simp at hc
        rw [hl] at hd
        simp only [List.dropWhile_cons, isNameChar_not_colon_start hc, ne_eq, not_false_eq_true, decide_true, if_true] at hd
        have h1 := nameTailOk_dropWhile hk hd
        have h2 := nameTailOk_one_no_colon h1
        rw [takeWhile_no_colon h2, String.toList_ofList]
        exact ⟨validName_xmlns h1, h2⟩

theorem wfNs_addNs {u : Unicode} {ns : Attrs} {key v : String} (h : WfNs u ns) (hk : isValidXmlName u key = true) :
    WfNs u (addNs ns key v) := by
  unfold addNs
  split
  · rename_i al hal
    split
    · exact h
    · refine ⟨nodup_ainsert _ _ h.1, ?_⟩
      intro k hk'
      rcases (mem_akeys_ainsert _ _ _ _).mp hk' with rfl | hk'
      · exact .inr (nsAlias_ok hk hal)
      · exact h.2 k hk'
  · refine ⟨nodup_ainsert _ _ h.1, ?_⟩
    intro k hk'
    rcases (mem_akeys_ainsert _ _ _ _).mp hk' with rfl | hk'
    · exact .inl rfl
    · exact h.2 k hk'

theorem wfNs_foldl {u : Unicode} (l : Attrs) {ns : Attrs} (h : WfNs u ns) (hl : ∀ kv ∈ l, isValidXmlName u kv.1 = true) :
    WfNs u (l.foldl (fun m kv => addNs m kv.1 kv.2) ns) := by
  induction l generalizing ns with
  | nil => exact h
  | cons x xs ih =>
    exact ih (wfNs_addNs h (hl x (by simp))) (fun kv hkv => hl kv (by simp [hkv]))

theorem XmlDoc.Named.setAttribute {u : Unicode} {d d' : XmlDoc} {id : Nat} {a : Attrs} (h : d.Named u) (ha : (akeys a).Nodup)
    (hs : d.setAttribute u id a = .ok d') : d'.Named u := by
  unfold XmlDoc.setAttribute at hs
  split at hs
  · cases hs
  · rename_i e he
    split at hs
    · cases hs
    · rename_i hall
      cases hs
      have hv : ∀ k ∈ akeys a, isValidXmlName u k = true := by
        simpa using hall
      have h1 : (d.put id { e with attrs := some (a.filter (fun kv => !isNsKey kv.1)) }).Named u := by
        refine h.put (h.elem _ _ he).1 ?_
        intro x hx
        cases hx
        constructor
        · refine List.Nodup.sublist ?_ ha
          exact List.Sublist.map _ List.filter_sublist
        · intro k hk
          obtain ⟨kv, hkv, rfl⟩ := List.mem_map.mp hk
          rw [List.mem_filter] at hkv
          exact ⟨hv _ (List.mem_map.mpr ⟨kv, hkv.1, rfl⟩), by simpa using hkv.2⟩
      refine ⟨h1.elem, ?_⟩
      refine wfNs_foldl _ h.ns ?_
      intro kv hkv
      exact hv _ (List.mem_map.mpr ⟨kv, (List.mem_filter.mp hkv).1, rfl⟩)

theorem XmlDoc.Named.insertWith {u : Unicode} {d d' : XmlDoc} {tag : String} {parent id : Nat} {place} (h : d.Named u)
    (hi : d.insertWith u tag parent place = .ok (d', id)) : d'.Named u := by
  obtain ⟨p, cs, hp, hv, hcs, rfl, rfl⟩ := insertWith_ok hi
  have := (h.put_same (e' := { p with children := cs }) hp rfl rfl).put (i := d.runningId + 1)
    (e := { id := d.runningId + 1, parentId := parent, tag := tag, attrs := none, value := none, children := [] }) hv (wfAttrs_none u)
  exact ⟨this.elem, this.ns⟩

theorem XmlDoc.Named.edit {u : Unicode} {d : XmlDoc} (h : d.Named u) (e : Edit) (he : e.ProperMap) : (d.edit u e).Named u := by
  cases e with
  | createRoot tag =>
    refine toOption_getD_ind h ?_
    intro x hx
    obtain ⟨hv, rfl⟩ := createRoot_ok hx
    exact h.put hv (wfAttrs_none u)
  | append tag p => exact toOption_map_getD_ind h (fun x y hx => h.insertWith hx)
  | before tag f p => exact toOption_map_getD_ind h (fun x y hx => h.insertWith hx)
  | after tag f p => exact toOption_map_getD_ind h (fun x y hx => h.insertWith hx)
  | atPos tag pos p => exact toOption_map_getD_ind h (fun x y hx => h.insertWith hx)
  | attributes id a => exact toOption_getD_ind h (fun x hx => h.setAttribute he hx)
  | attr id k v =>
    change (d.updateAttribute u id k v).Named u
    unfold XmlDoc.updateAttribute
    split
    · exact h
    · rename_i e he
      split
      · exact h
      · rename_i a ha
        split
        · rename_i hk
          refine h.put (h.elem _ _ he).1 ?_
          intro x hx
          cases hx
          have hw := (h.elem _ _ he).2 a ha
          refine ⟨nodup_ainsert _ _ hw.1, ?_⟩
          intro k' hk'
          rcases (mem_akeys_ainsert _ _ _ _).mp hk' with rfl | hk'
          · exact hk
          · exact hw.2 _ hk'
        · exact h
  | value id t =>
    refine toOption_getD_ind h ?_
    intro x hx
    obtain ⟨e, he, rfl⟩ := setValue_ok hx
    exact h.put_same he rfl rfl
  | order id sk =>
    refine toOption_getD_ind h ?_
    intro x hx
    obtain ⟨e, he, rfl⟩ := orderChild_ok hx
    exact h.put_same he rfl rfl
  | popTag tag p =>
    change (d.popByTag tag p).1.Named u
    unfold XmlDoc.popByTag
    split
    · exact h
    · rename_i e he
      simp only
      split
      · exact h
      · have h1 : (d.put p { e with children := e.children.filter (fun c => c.tag ≠ tag) }).Named u := h.put_same he rfl rfl
        refine h1.congr rfl ?_
        intro i x hx
        simp only [XmlDoc.get] at hx ⊢
        rw [aget_foldl_aerase] at hx
        split at hx
        · cases hx
        · exact hx
  | popDetached id =>
    change (if d.listed id then d else (d.popElement id).1).Named u
    split
    · exact h
    · refine h.congr rfl ?_
      intro i x hx
      simp only [XmlDoc.popElement, XmlDoc.get, aget_aerase] at hx ⊢
      split at hx
      · cases hx
      · exact hx

theorem XmlDoc.Named.edits {u : Unicode} (h : List Edit) (hp : ∀ e ∈ h, e.ProperMap) {d : XmlDoc} (hd : d.Named u) :
    (h.foldl (XmlDoc.edit u) d).Named u := by
  induction h generalizing d with
  | nil => exact hd
  | cons e es ih => exact ih (fun x hx => hp x (by simp [hx])) (hd.edit e (hp e (by simp)))

theorem XmlDoc.Inv.edits {u : Unicode} (h : List Edit) {d : XmlDoc} (hd : d.Inv) : (h.foldl (XmlDoc.edit u) d).Inv := by
  induction h generalizing d with
  | nil => exact hd
  | cons e es ih => exact ih (hd.edit e)

/-! ### Documents that were read -/

theorem nodup_attributesString (l : List (List Char × List Char)) : (akeys (attributesString l)).Nodup := by
  unfold attributesString
  have : ∀ (m : Attrs), (akeys m).Nodup →
      (akeys (l.foldl (fun m kv => ainsert (String.ofList kv.1) (String.ofList kv.2) m) m)).Nodup := by
    induction l with
    | nil => intro m hm; exact hm
    | cons x xs ih => intro m hm; exact ih _ (nodup_ainsert _ _ hm)
  exact this [] (by simp [akeys])

theorem readStep_good {u : Unicode} {s s' : RState} {t : Token} (h : readStep u s t = .ok s') (hi : s.doc.Inv) (hn : s.doc.Named u) :
    s'.doc.Inv ∧ s'.doc.Named u := by
  cases t with
  | start n a =>
    simp only [readStep] at h
    split at h
    · cases h1 : s.doc.appendChild u (String.ofList n) s.active with
      | error e => rw [h1] at h; cases h
      | ok r =>
        obtain ⟨d1, id⟩ := r
        simp only [h1, bind, Except.bind] at h
        split at h
        · cases h
        · rename_i d2 h2
          cases h
          exact ⟨(hi.insertWith places_append h1).setAttribute h2, (hn.insertWith h1).setAttribute (nodup_attributesString a) h2⟩
    · cases h1 : s.doc.createRoot u (String.ofList n) with
      | error e => rw [h1] at h; cases h
      | ok d1 =>
        simp only [h1, bind, Except.bind] at h
        split at h
        · cases h
        · rename_i d2 h2
          cases h
          refine ⟨(hi.createRoot h1).setAttribute h2, ?_⟩
          obtain ⟨hv, rfl⟩ := createRoot_ok h1
          exact (hn.put hv (wfAttrs_none u)).setAttribute (nodup_attributesString a) h2
  | empty n a =>
    simp only [readStep] at h
    cases h1 : s.doc.appendChild u (String.ofList n) s.active with
    | error e => rw [h1] at h; cases h
    | ok r =>
      obtain ⟨d1, id⟩ := r
      simp only [h1, bind, Except.bind] at h
      split at h
      · cases h
      · rename_i d2 h2
        cases h
        exact ⟨(hi.insertWith places_append h1).setAttribute h2, (hn.insertWith h1).setAttribute (nodup_attributesString a) h2⟩
  | text raw =>
    simp only [readStep] at h
    cases h1 : unescape raw with
    | error e => rw [h1] at h; cases h
    | ok tx =>
      simp only [h1, bind, Except.bind] at h
      split at h
      · cases h
      · rename_i d2 h2
        cases h
        refine ⟨hi.setValue h2, ?_⟩
        obtain ⟨e, he, rfl⟩ := setValue_ok h2
        exact hn.put_same he rfl rfl
  | close n =>
    simp only [readStep] at h
    split at h
    · cases h
    · split at h
      · cases h; exact ⟨hi, hn⟩
      · cases h

theorem readLoop_good {u : Unicode} (ts : List Token) {s s' : RState} (h : readLoop u s ts = .ok s') (hi : s.doc.Inv)
    (hn : s.doc.Named u) : s'.doc.Inv ∧ s'.doc.Named u := by
  induction ts generalizing s with
  | nil => cases h; exact ⟨hi, hn⟩
  | cons t ts ih =>
    simp only [readLoop] at h
    cases h1 : readStep u s t with
    | error e => rw [h1] at h; cases h
    | ok s1 =>
      rw [h1] at h
      obtain ⟨hi1, hn1⟩ := readStep_good h1 hi hn
      exact ih h hi1 hn1

theorem readXml_good {u : Unicode} {s : List Char} {d : XmlDoc} (h : readXml u s = .ok d) : d.Inv ∧ d.Named u := by
  unfold readXml at h
  cases h1 : lex s with
  | error e => rw [h1] at h; cases h
  | ok toks =>
    simp only [h1, bind, Except.bind] at h
    split at h
    · split at h
      · cases h
      · rename_i s' h2
        cases h
        exact readLoop_good toks h2 .new (.new u)
    · cases h

/-! ### From the arena to the tree -/

theorem collect_some {α : Type} {l : List (Option α)} {r : List α} (h : collect l = some r) : l = r.map some := by
  induction l generalizing r with
  | nil => cases h; rfl
  | cons x xs ih =>
    cases x with
    | none => cases h
    | some x =>
      simp only [collect] at h
      cases hc : collect xs with
      | none => rw [hc] at h; cases h
      | some r' => rw [hc] at h; cases h; simp [ih hc]

theorem wfNode_toNode {u : Unicode} {d : XmlDoc} (h : d.Named u) (fuel i : Nat) (n : Node) (hn : d.toNode fuel i = some n) :
    WfNode u n := by
  induction fuel generalizing i n with
  | zero => cases hn
  | succ fuel ih =>
    unfold XmlDoc.toNode at hn
    split at hn
    · cases hn
    · rename_i e he
      split at hn
      · cases hn
      · rename_i cs hcs
        cases hn
        refine ⟨(h.elem _ _ he).1, (h.elem _ _ he).2, ?_⟩
        rw [wfNodes_iff]
        intro c hc
        have := collect_some hcs
        have hm : some c ∈ e.children.map (fun c => d.toNode fuel c.id) := by
          rw [this]; exact List.mem_map.mpr ⟨c, hc, rfl⟩
        obtain ⟨ch, _, hch⟩ := List.mem_map.mp hm
        exact ih _ _ hch

theorem toXDoc_root {d : XmlDoc} (hi : d.Inv) {e : Elem} (h0 : d.get 0 = some e) : ∃ n, d.toXDoc.root = some n := by
  obtain ⟨t, _, _, _, _, _, h⟩ := exists_ltree hi _ 0 e (Nat.lt_succ_self _) h0
  exact ⟨_, h (d.runningId + 1) (by omega)⟩

end Oxml
