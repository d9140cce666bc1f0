import Verif.Proofs.WellFormed
/-!
# Lemmas for C103: white space that changes
-/
namespace Oxml
open Spec

/-! ## Texts that read the same -/

theorem attrRead_same {s : List Char} (h : '\r' ∉ s ∧ '\n' ∉ s ∧ '\t' ∉ s) : Reading.xml.attr s = s := by
  change (lineEnds s).map whiteToSpace = s
  rw [lineEnds_self h.1]
  conv => rhs; rw [← List.map_id s]
  apply List.map_congr_left
  intro c hc
  unfold whiteToSpace
  rw [if_neg]
  · rfl
  · rintro (rfl | rfl | rfl)
    · exact h.2.2 hc
    · exact h.2.1 hc
    · exact h.1 hc

theorem attrsRead_same {a : Attrs} (h : ∀ t ∈ a.map Prod.snd, '\r' ∉ t.toList ∧ '\n' ∉ t.toList ∧ '\t' ∉ t.toList) :
    attrsRead Reading.xml a = attrsRead Reading.same a := by
  apply List.map_congr_left
  intro kv hkv
  rw [attrRead_same (h _ (List.mem_map.mpr ⟨kv, hkv, rfl⟩))]
  rfl

theorem textRead_same {v : Option String} (h : ∀ t, v = some t → '\r' ∉ t.toList) : textRead Reading.xml v = textRead Reading.same v := by
  cases v with
  | none => rfl
  | some t =>
    unfold textRead
    change (if t = "" then [] else [Item.text (lineEnds t.toList)]) = if t = "" then [] else [Item.text t.toList]
    rw [lineEnds_self (h t rfl)]

mutual
theorem shows_same (n : Node) (i : Item) (h0 : TextOrChildren n) (h1 : ∀ t ∈ elemTexts n, '\r' ∉ t.toList)
    (h2 : ∀ t ∈ attrTexts n, '\r' ∉ t.toList ∧ '\n' ∉ t.toList ∧ '\t' ∉ t.toList) : Shows Reading.xml n i → Shows Reading.same n i := by
  match n, i with
  | .mk _ _ _ _, .text _ => simp only [Shows]; exact id
  | .mk tag attrs value cs, .elem t kvs content =>
    simp only [Shows, elemTexts, attrTexts, TextOrChildren] at *
    rintro ⟨g1, g2, rest, g3, g4⟩
    refine ⟨g1, ?_, rest, ?_, ?_⟩
    · rw [← attrsRead_same (fun t ht => h2 t (List.mem_append_left _ ht))]; exact g2
    · rw [← textRead_same (fun t ht => h1 t (by subst ht; simp))]; exact g3
    · match value with
      | some v =>
        have : cs = [] := h0.1 (by simp)
        subst this
        simp only [ShowsAll] at g4 ⊢; exact g4
      | none => exact shows_sames cs rest h0.2 h1 (fun t ht => h2 t (List.mem_append_right _ ht)) g4
theorem shows_sames (cs : List Node) (l : List Item) (h0 : TextOrChildrens cs) (h1 : ∀ t ∈ elemTextss cs, '\r' ∉ t.toList)
    (h2 : ∀ t ∈ attrTextss cs, '\r' ∉ t.toList ∧ '\n' ∉ t.toList ∧ '\t' ∉ t.toList) : ShowsAll Reading.xml cs l → ShowsAll Reading.same cs l := by
  match cs, l with
  | [], _ => simp only [ShowsAll]; exact id
  | _ :: _, [] => simp only [ShowsAll]; exact id
  | c :: cs, i :: l =>
    simp only [ShowsAll, elemTextss, attrTextss, TextOrChildrens] at *
    rintro ⟨g1, g2⟩
    exact ⟨shows_same c i h0.1 (fun t ht => h1 t (List.mem_append_left _ ht)) (fun t ht => h2 t (List.mem_append_left _ ht)) g1,
      shows_sames cs l h0.2 (fun t ht => h1 t (List.mem_append_right _ ht)) (fun t ht => h2 t (List.mem_append_right _ ht)) g2⟩
end

theorem showsRoot_same (ns : Attrs) (n : Node) (i : Item) (h0 : TextOrChildren n) (h : Steady ns n) (hs : ShowsRoot Reading.xml ns n i) :
    ShowsRoot Reading.same ns n i := by
  obtain ⟨h1, h2, h3⟩ := h
  match n, i with
  | .mk _ _ _ _, .text _ => simp only [ShowsRoot] at hs
  | .mk tag attrs value cs, .elem t kvs content =>
    simp only [ShowsRoot, elemTexts, attrTexts, TextOrChildren] at *
    obtain ⟨g1, g2, rest, g3, g4⟩ := hs
    refine ⟨g1, ?_, rest, ?_, ?_⟩
    · rw [← attrsRead_same]
      · exact g2
      · intro t ht
        rw [List.map_append] at ht
        rcases List.mem_append.mp ht with ht | ht
        · obtain ⟨kv, hkv, rfl⟩ := List.mem_map.mp ht
          obtain ⟨kv', hkv', rfl⟩ := List.mem_map.mp hkv
          exact h3 kv' hkv'
        · exact h2 t (List.mem_append_left _ ht)
    · rw [← textRead_same (fun t ht => h1 t (by subst ht; simp))]; exact g3
    · match value with
      | some v =>
        have : cs = [] := h0.1 (by simp)
        subst this
        simp only [ShowsAll] at g4 ⊢; exact g4
      | none => exact shows_sames cs rest h0.2 h1 (fun t ht => h2 t (List.mem_append_right _ ht)) g4

/-! ## No character references are written -/

/-- Every `&` is followed by a letter. -/
inductive NamedOnly : List Char → Prop
  | nil : NamedOnly []
  | cons {c s} : c ≠ '&' → NamedOnly s → NamedOnly (c :: s)
  | amp {c s} : c ≠ '#' → NamedOnly (c :: s) → NamedOnly ('&' :: c :: s)

theorem NamedOnly.append {s t : List Char} (h1 : NamedOnly s) (h2 : NamedOnly t) : NamedOnly (s ++ t) := by
  induction h1 with
  | nil => exact h2
  | cons h _ ih => exact .cons h ih
  | amp h _ ih => exact .amp h ih

theorem NamedOnly.plain {s : List Char} (h : '&' ∉ s) : NamedOnly s := by
  induction s with
  | nil => exact .nil
  | cons c s ih =>
    rw [List.mem_cons, not_or] at h
    exact .cons (fun e => h.1 e.symm) (ih h.2)

theorem NamedOnly.noHash {l r : List Char} (h : NamedOnly (l ++ '&' :: '#' :: r)) : False := by
  generalize hs : l ++ '&' :: '#' :: r = s at h
  induction h generalizing l with
  | nil => simp at hs
  | cons hc _ ih =>
    cases l with
    | nil => injection hs with e _; exact hc e.symm
    | cons x l => injection hs with _ e; exact ih e
  | amp hc _ ih =>
    cases l with
    | nil => injection hs with _ e; injection e with e _; exact hc e.symm
    | cons x l => injection hs with _ e; exact ih e

theorem namedOnly_escape (s : List Char) : NamedOnly (escape s) := by
  induction s with
  | nil => exact .nil
  | cons c s ih =>
    rw [escape_cons]
    refine NamedOnly.append ?_ ih
    have f : ∀ l : List Char, '&' ∉ l → (∀ c, l.head? = some c → c ≠ '#') → l ≠ [] → NamedOnly ('&' :: l) := by
      intro l h1 h2 h3
      cases l with
      | nil => exact absurd rfl h3
      | cons c l => exact .amp (h2 c rfl) (.plain h1)
    unfold escapeChar
    split
    · exact f "lt;".toList (by decide) (by decide) (by decide)
    split
    · exact f "gt;".toList (by decide) (by decide) (by decide)
    split
    · exact f "amp;".toList (by decide) (by decide) (by decide)
    split
    · exact f "apos;".toList (by decide) (by decide) (by decide)
    split
    · exact f "quot;".toList (by decide) (by decide) (by decide)
    · rename_i h _ _
      exact .cons h .nil

/-- A character read is in the text, or a reference by number is, or it is one of the five. -/
theorem standsFor_mem {s t : List Char} (h : StandsFor s t) (hn : ∀ l r, s ≠ l ++ '&' :: '#' :: r) {c : Char} (hc : c ∈ t) :
    c ∈ s ∨ c ∈ ['<', '>', '&', '\'', '"'] := by
  obtain ⟨ws, rfl, rfl, h⟩ := h
  obtain ⟨w, hw, rfl⟩ := List.mem_map.mp hc
  have hm := h w hw
  obtain ⟨a, b, hab⟩ := List.append_of_mem hw
  have hne : ∀ u r, w.1.text ≠ u ++ '&' :: '#' :: r := by
    intro u r e
    refine hn (a.flatMap (fun w => w.1.text) ++ u) (r ++ b.flatMap (fun w => w.1.text)) ?_
    rw [hab, List.flatMap_append, List.flatMap_cons, e]
    simp
  obtain ⟨w1, x⟩ := w
  cases w1 with
  | plain c => exact .inl (List.mem_flatMap.mpr ⟨_, hw, by simp only [Written.Means] at hm; simp [Written.text, hm.1]⟩)
  | lt => exact .inr (by simp only [Written.Means] at hm; simp [hm])
  | gt => exact .inr (by simp only [Written.Means] at hm; simp [hm])
  | amp => exact .inr (by simp only [Written.Means] at hm; simp [hm])
  | apos => exact .inr (by simp only [Written.Means] at hm; simp [hm])
  | quot => exact .inr (by simp only [Written.Means] at hm; simp [hm])
  | dec ds => exact absurd rfl (hne [] _)
  | hex ds => exact absurd rfl (hne [] _)

theorem lineEnds_noCr (s : List Char) : '\r' ∉ lineEnds s := by
  fun_induction lineEnds s with
  | case1 => simp
  | case2 s ih => simp [ih]
  | case3 s _ ih => simp [ih]
  | case4 c s _ h2 ih =>
    rw [List.mem_cons, not_or]
    refine ⟨fun e => ?_, ih⟩
    exact h2 e.symm

/-- References by number are there after reading line ends only if they were before. -/
theorem lineEnds_hash {s l r : List Char} (h : lineEnds s = l ++ '&' :: '#' :: r) : ∃ l' r', s = l' ++ '&' :: '#' :: r' := by
  fun_induction lineEnds s generalizing l with
  | case1 => simp at h
  | case2 s ih =>
    cases l with
    | nil => injection h with e _; cases e
    | cons x l => injection h with _ e; obtain ⟨a, b, rfl⟩ := ih e; exact ⟨'\r' :: '\n' :: a, b, rfl⟩
  | case3 s _ ih =>
    cases l with
    | nil => injection h with e _; cases e
    | cons x l => injection h with _ e; obtain ⟨a, b, rfl⟩ := ih e; exact ⟨'\r' :: a, b, rfl⟩
  | case4 c s _ _ ih =>
    cases l with
    | nil =>
      injection h with e1 e2
      subst e1
      cases s with
      | nil => cases e2
      | cons d s =>
        by_cases hd : d = '\r'
        · subst hd
          cases s with
          | nil => simp [lineEnds] at e2
          | cons x s =>
            by_cases hx : x = '\n'
            · subst hx; rw [lineEnds] at e2; injection e2 with e _; cases e
            · rw [lineEnds] at e2
              · injection e2 with e _; cases e
              · intro s' e; injection e with e _; exact hx e
        · rw [lineEnds] at e2
          · injection e2 with e _; subst e; exact ⟨[], s, rfl⟩
          · rintro s' rfl; exact absurd rfl hd
          · exact fun e => hd e
    | cons x l => injection h with _ e; obtain ⟨a, b, rfl⟩ := ih e; exact ⟨c :: a, b, rfl⟩

theorem white_hash {s l r : List Char} (h : s.map whiteToSpace = l ++ '&' :: '#' :: r) : ∃ l' r', s = l' ++ '&' :: '#' :: r' := by
  induction s generalizing l with
  | nil => simp at h
  | cons c s ih =>
    cases l with
    | nil =>
      injection h with e1 e2
      have hc : c = '&' := by
        unfold whiteToSpace at e1
        split at e1
        · cases e1
        · exact e1
      cases s with
      | nil => cases e2
      | cons d s =>
        injection e2 with e3 _
        have hd : d = '#' := by
          unfold whiteToSpace at e3
          split at e3
          · cases e3
          · exact e3
        exact ⟨[], s, by rw [hc, hd]; rfl⟩
    | cons x l => injection h with _ e; obtain ⟨a, b, rfl⟩ := ih e; exact ⟨c :: a, b, rfl⟩

theorem charData_noCr {s t : List Char} (h : CharData s t) (hn : ∀ l r, s ≠ l ++ '&' :: '#' :: r) : '\r' ∉ t := by
  intro hc
  rcases standsFor_mem h.reads (fun l r e => by obtain ⟨a, b, e⟩ := lineEnds_hash e; exact hn a b e) hc with h | h
  · exact lineEnds_noCr _ h
  · revert h; decide

theorem isAttr_noWhite {s : List Char} {kv} (h : IsAttr s kv) (hn : ∀ l r, s ≠ l ++ '&' :: '#' :: r) : '\r' ∉ kv.2 ∧ '\n' ∉ kv.2 ∧ '\t' ∉ kv.2 := by
  obtain ⟨sep, l, r, q, raw, rfl, _, _, _, _, _, _, _, _, _, h1, _⟩ := h
  have hraw : ∀ l r, raw ≠ l ++ '&' :: '#' :: r := by
    rintro a b rfl
    exact hn (sep ++ kv.1 ++ l ++ '=' :: (r ++ q :: a)) (b ++ [q]) (by simp)
  have hno : ∀ l r, (lineEnds raw).map whiteToSpace ≠ l ++ '&' :: '#' :: r := by
    intro l r e
    obtain ⟨a, b, e⟩ := white_hash e
    obtain ⟨a, b, e⟩ := lineEnds_hash e
    exact hraw a b e
  have key : ∀ c, c = '\r' ∨ c = '\n' ∨ c = '\t' → c ∉ kv.2 := by
    intro c hc hm
    rcases standsFor_mem h1 hno hm with h | h
    · obtain ⟨x, _, e⟩ := List.mem_map.mp h
      unfold whiteToSpace at e
      split at e
      · subst e; revert hc; decide
      · rename_i hx; subst e; exact hx (by rcases hc with h | h | h <;> simp [h])
    · rcases hc with rfl | rfl | rfl <;> revert h <;> decide
  exact ⟨key _ (.inl rfl), key _ (.inr (.inl rfl)), key _ (.inr (.inr rfl))⟩

mutual
/-- No carriage return in a text of the item, no white space but spaces in its attributes. -/
def CalmItem : Item → Prop
  | .text t => '\r' ∉ t
  | .elem _ kvs cs => (∀ kv ∈ kvs, '\r' ∉ kv.2 ∧ '\n' ∉ kv.2 ∧ '\t' ∉ kv.2) ∧ CalmItems cs
def CalmItems : List Item → Prop
  | [] => True
  | i :: l => CalmItem i ∧ CalmItems l
end

theorem noHash_left {s t : List Char} (h : ∀ l r, s ++ t ≠ l ++ '&' :: '#' :: r) : ∀ l r, s ≠ l ++ '&' :: '#' :: r := by
  rintro l r rfl
  exact h l (r ++ t) (by simp)

theorem noHash_right {s t : List Char} (h : ∀ l r, s ++ t ≠ l ++ '&' :: '#' :: r) : ∀ l r, t ≠ l ++ '&' :: '#' :: r := by
  rintro l r rfl
  exact h (s ++ l) r (by simp)

theorem isAttrs_calm {s kvs} (h : IsAttrs s kvs) (hn : ∀ l r, s ≠ l ++ '&' :: '#' :: r) : ∀ kv ∈ kvs, '\r' ∉ kv.2 ∧ '\n' ∉ kv.2 ∧ '\t' ∉ kv.2 := by
  induction h with
  | nil => intro kv h; cases h
  | cons h1 _ ih =>
    intro kv hkv
    rcases List.mem_cons.mp hkv with rfl | hkv
    · exact isAttr_noWhite h1 (noHash_left hn)
    · exact ih (noHash_right hn) kv hkv

theorem isContent_calm {s l} (h : IsContent s l) (hn : ∀ l r, s ≠ l ++ '&' :: '#' :: r) : CalmItems l := by
  induction h with
  | nil => simp [CalmItems]
  | text h1 _ _ ih => exact ⟨charData_noCr h1 (noHash_left hn), ih (noHash_right hn)⟩
  | @void n a kvs sp r l h1 h2 _ h3 _ ih =>
    refine ⟨⟨isAttrs_calm h2 ?_, trivial⟩, ih ?_⟩
    · exact noHash_left (t := sp ++ '/' :: '>' :: r) (noHash_right (s := n) (noHash_right (s := ['<']) hn))
    · exact noHash_right (s := ['/', '>']) (noHash_right (s := sp) (noHash_right (s := a) (noHash_right (s := n) (noHash_right (s := ['<']) hn))))
  | @elem n a kvs sp body cs sp' r l h1 h2 _ h3 _ h4 _ ih1 ih2 =>
    have g1 := noHash_right (s := n) (noHash_right (s := ['<']) hn)
    have g2 := noHash_right (s := ['>']) (noHash_right (s := sp) (noHash_right (s := a) g1))
    have g3 := noHash_right (s := body) g2
    refine ⟨⟨isAttrs_calm h2 (noHash_left g1), ih1 (noHash_left g2)⟩, ih2 ?_⟩
    exact noHash_right (s := ['>']) (noHash_right (s := sp') (noHash_right (s := n) (noHash_right (s := ['<', '/']) g3)))
  | comment _ _ ih => exact ih (noHash_right hn)
  | pi _ _ ih => exact ih (noHash_right hn)
  | cdata h1 _ ih =>
    obtain ⟨raw, rfl, _, _, rfl⟩ := h1
    exact ⟨lineEnds_noCr _, ih (noHash_right hn)⟩

theorem isDocument_calm {s root} (h : IsDocument s root) (hn : ∀ l r, s ≠ l ++ '&' :: '#' :: r) : CalmItem root := by
  obtain ⟨decl, before, body, after, rfl, _, _, h3, _⟩ := h
  exact (isContent_calm h3 (noHash_left (noHash_right (noHash_right hn)))).1

/-! ## The text written has no references by number -/

theorem namedOnly_cons {c : Char} {s : List Char} (hc : c ≠ '&') (h : NamedOnly s) : NamedOnly (c :: s) := .cons hc h

theorem namedOnly_name {s : List Char} (h : XmlName s) : NamedOnly s := by
  apply NamedOnly.plain
  intro hm
  have amp : ¬NameChar '&' := by
    rintro (h | h | h | h | h | h | h)
    · rcases h with h | h | h | ⟨r, hr, h1, h2⟩
      · revert h; decide
      · revert h; decide
      · revert h; decide
      · have e : '&'.toNat = 38 := rfl
        rw [e] at h1
        simp only [List.mem_cons, List.not_mem_nil, or_false] at hr
        rcases hr with rfl | rfl | rfl | rfl | rfl | rfl | rfl | rfl | rfl | rfl | rfl | rfl <;> simp only at h1 <;> omega
    all_goals first | (revert h; decide) | (have e : '&'.toNat = 38 := rfl; omega)
  obtain ⟨c, cs, rfl, h1, h2⟩ := h
  rcases List.mem_cons.mp hm with e | hm
  · subst e; exact amp (.inl h1)
  · exact amp (h2 _ hm)

theorem namedOnly_join {f : String × String → List Char} {l : Attrs} (h : ∀ kv ∈ l, NamedOnly (f kv)) : NamedOnly (joinSpace (l.map f)) := by
  induction l with
  | nil => exact .nil
  | cons kv l ih =>
    have h1 := h kv (List.mem_cons_self ..)
    by_cases hn : l = []
    · subst hn; exact h1
    · rw [List.map_cons, joinSpace_cons _ (by simpa using hn)]
      exact h1.append (.cons (by decide) (ih (fun kv hkv => h kv (List.mem_cons_of_mem _ hkv))))

theorem namedOnly_attrText {kv : String × String} (h : XmlName kv.1.toList) : NamedOnly (attrText kv) :=
  ((namedOnly_name h).append (.plain (by decide))).append (namedOnly_escape _) |>.append (.plain (by decide))

theorem namedOnly_attrsText {attrs : Option Attrs} (h : ∀ n ∈ (attrs.getD []).map Prod.fst, XmlName n.toList) : NamedOnly (attrsText attrs) := by
  cases attrs with
  | none => exact .nil
  | some a =>
    exact .cons (by decide) (namedOnly_join (fun kv hkv => namedOnly_attrText (h _ (List.mem_map.mpr ⟨kv, (sortAttrs_perm a).mem_iff.mp hkv, rfl⟩))))

theorem namedOnly_close (v tag : String) (h : XmlName tag.toList) : NamedOnly (valueClose v tag) :=
  (((namedOnly_escape _).append (.plain (by decide))).append (namedOnly_name h)).append (.plain (by decide))

mutual
theorem namedOnly_render (b : Build) (n : Node) (h : ∀ x ∈ allNames n, XmlName x.toList) : NamedOnly (render b n) := by
  match n with
  | .mk tag attrs value cs =>
    simp only [allNames] at h
    have ht : XmlName tag.toList := h _ (by simp)
    have ha : NamedOnly (attrsText attrs) := namedOnly_attrsText (fun x hx => h x (List.mem_cons_of_mem _ (List.mem_append_left _ hx)))
    have ho : ∀ r, NamedOnly r → NamedOnly (openTag b tag attrs none false ++ r) := by
      intro r hr
      rw [openTag_open]
      exact .cons (by decide) ((namedOnly_name ht).append ((ha.append (.plain (by decide))).append (.cons (by decide) hr)))
    match value, cs with
    | none, [] =>
      rw [render, ← List.append_nil (openTag ..), openTag_close]
      exact .cons (by decide) ((namedOnly_name ht).append ((ha.append (.plain (by decide))).append (.plain (by decide))))
    | some v, cs => rw [render]; exact ho _ (namedOnly_close v tag ht)
    | none, c :: cs' =>
      rw [render, List.append_assoc]
      exact ho _ ((namedOnly_renders b (c :: cs') (fun x hx => h x (List.mem_cons_of_mem _ (List.mem_append_right _ hx)))).append (namedOnly_close "" tag ht))
theorem namedOnly_renders (b : Build) (cs : List Node) (h : ∀ x ∈ allNamess cs, XmlName x.toList) : NamedOnly (renders b cs) := by
  match cs with
  | [] => exact .nil
  | c :: cs' =>
    simp only [allNamess] at h
    exact (namedOnly_render b c (fun x hx => h x (List.mem_append_left _ hx))).append (namedOnly_renders b cs' (fun x hx => h x (List.mem_append_right _ hx)))
end

theorem namedOnly_root (b : Build) (ns : Attrs) (n : Node) (h : ∀ x ∈ allNames n, XmlName x.toList)
    (hd : ∀ kv ∈ releaseNs b ns, XmlName (declName kv.1).toList ∧ '&' ∉ kv.2.toList) : NamedOnly (renderRoot b ns n) := by
  have hns : NamedOnly (nsTexts b ns) := by
    refine .cons (by decide) (namedOnly_join (fun kv hkv => ?_))
    have e : nsText kv = (declName kv.1).toList ++ '=' :: '"' :: (kv.2.toList ++ ['"']) := by
      unfold nsText declName
      split <;> simp
    rw [e]
    exact (namedOnly_name (hd kv hkv).1).append (.cons (by decide) (.cons (by decide) (NamedOnly.append (.plain (hd kv hkv).2) (.plain (by decide)))))
  match n with
  | .mk tag attrs value cs =>
    simp only [allNames] at h
    have ht : XmlName tag.toList := h _ (by simp)
    have ha : NamedOnly (attrsText attrs) := namedOnly_attrsText (fun x hx => h x (List.mem_cons_of_mem _ (List.mem_append_left _ hx)))
    have ho : ∀ r, NamedOnly r → NamedOnly (openTag b tag attrs (some ns) false ++ r) := by
      intro r hr
      rw [openTag_root_open]
      exact .cons (by decide) ((namedOnly_name ht).append ((hns.append (ha.append (.plain (by decide)))).append (.cons (by decide) hr)))
    match value, cs with
    | none, [] =>
      rw [renderRoot, ← List.append_nil (openTag ..), openTag_root_close]
      exact .cons (by decide) ((namedOnly_name ht).append ((hns.append (ha.append (.plain (by decide)))).append (.plain (by decide))))
    | some v, cs => rw [renderRoot]; exact ho _ (namedOnly_close v tag ht)
    | none, c :: cs' =>
      rw [renderRoot, List.append_assoc]
      exact ho _ ((namedOnly_renders b (c :: cs') (fun x hx => h x (List.mem_cons_of_mem _ (List.mem_append_right _ hx)))).append (namedOnly_close "" tag ht))

/-! ## What a calm item can show -/

mutual
theorem shows_calm (n : Node) (i : Item) (h0 : TextOrChildren n) (hs : Shows Reading.same n i) (hc : CalmItem i) :
    (∀ t ∈ elemTexts n, '\r' ∉ t.toList) ∧ ∀ t ∈ attrTexts n, '\r' ∉ t.toList ∧ '\n' ∉ t.toList ∧ '\t' ∉ t.toList := by
  match n, i with
  | .mk _ _ _ _, .text _ => simp only [Shows] at hs
  | .mk tag attrs value cs, .elem t kvs content =>
    simp only [Shows, elemTexts, attrTexts, TextOrChildren, CalmItem] at *
    obtain ⟨g1, g2, rest, g3, g4⟩ := hs
    have ha : ∀ t ∈ (attrs.getD []).map Prod.snd, '\r' ∉ t.toList ∧ '\n' ∉ t.toList ∧ '\t' ∉ t.toList := by
      intro t ht
      obtain ⟨kv, hkv, rfl⟩ := List.mem_map.mp ht
      exact hc.1 (kv.1.toList, kv.2.toList) (g2.mem_iff.mpr (List.mem_map.mpr ⟨kv, hkv, rfl⟩))
    match value with
    | some v =>
      refine ⟨fun t ht => ?_, fun t ht => ha t (by simpa using ht)⟩
      rw [List.mem_singleton] at ht
      subst ht
      by_cases e : t = ""
      · subst e; simp
      · rw [g3] at hc
        simp only [textRead, if_neg e, List.cons_append, CalmItems, CalmItem] at hc
        exact hc.2.1
    | none =>
      have := shows_calms cs rest h0.2 g4 (by rw [g3] at hc; exact hc.2)
      refine ⟨this.1, fun t ht => ?_⟩
      rcases List.mem_append.mp ht with ht | ht
      · exact ha t ht
      · exact this.2 t ht
theorem shows_calms (cs : List Node) (l : List Item) (h0 : TextOrChildrens cs) (hs : ShowsAll Reading.same cs l) (hc : CalmItems l) :
    (∀ t ∈ elemTextss cs, '\r' ∉ t.toList) ∧ ∀ t ∈ attrTextss cs, '\r' ∉ t.toList ∧ '\n' ∉ t.toList ∧ '\t' ∉ t.toList := by
  match cs, l with
  | [], _ => simp [elemTextss, attrTextss]
  | _ :: _, [] => simp only [ShowsAll] at hs
  | c :: cs, i :: l =>
    simp only [ShowsAll, elemTextss, attrTextss, TextOrChildrens, CalmItems] at *
    have h1 := shows_calm c i h0.1 hs.1 hc.1
    have h2 := shows_calms cs l h0.2 hs.2 hc.2
    refine ⟨fun t ht => ?_, fun t ht => ?_⟩
    · rcases List.mem_append.mp ht with ht | ht
      · exact h1.1 t ht
      · exact h2.1 t ht
    · rcases List.mem_append.mp ht with ht | ht
      · exact h1.2 t ht
      · exact h2.2 t ht
end

theorem showsRoot_calm (ns : Attrs) (n : Node) (i : Item) (h0 : TextOrChildren n) (hs : ShowsRoot Reading.same ns n i) (hc : CalmItem i) : Steady ns n := by
  match n, i with
  | .mk _ _ _ _, .text _ => simp only [ShowsRoot] at hs
  | .mk tag attrs value cs, .elem t kvs content =>
    simp only [ShowsRoot] at hs
    obtain ⟨g1, g2, g3⟩ := hs
    rw [show attrsRead Reading.same (declAttrs ns ++ attrs.getD []) = attrsRead Reading.same (declAttrs ns) ++ attrsRead Reading.same (attrs.getD []) by simp [attrsRead]] at g2
    simp only [CalmItem] at hc
    have := shows_calm (.mk tag attrs value cs) (.elem t (attrsRead Reading.same (attrs.getD [])) content) h0 (by simp only [Shows]; exact ⟨g1, List.Perm.refl _, g3⟩)
      (by simp only [CalmItem]; exact ⟨fun kv hkv => hc.1 kv (g2.mem_iff.mpr (List.mem_append_right _ hkv)), hc.2⟩)
    refine ⟨this.1, this.2, fun kv hkv => ?_⟩
    exact hc.1 ((declName kv.1).toList, kv.2.toList) (g2.mem_iff.mpr (List.mem_append_left _ (List.mem_map.mpr ⟨(declName kv.1, kv.2), List.mem_map.mpr ⟨kv, hkv, rfl⟩, rfl⟩)))

end Oxml
