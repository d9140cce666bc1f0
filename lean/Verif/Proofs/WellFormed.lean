import Verif.Spec.WellFormed
import Verif.Spec.Render
import Verif.Props.SourceText
import Verif.Proofs.Escape
import Verif.Proofs.ReloadTwice
/-!
# Lemmas for C102 and C103
-/
namespace Oxml
open Spec

/-! ## Escaped texts -/

theorem standsFor_escape (s : List Char) : StandsFor (escape s) s := (C69_references _ _).mp (unescape_escape s)

theorem standsFor_plain {s : List Char} (h : '&' ∉ s) : StandsFor s s :=
  ⟨s.map (fun c => (.plain c, c)), by induction s with
    | nil => rfl
    | cons c s ih => rw [List.map_cons, List.flatMap_cons, ← ih (fun m => h (List.mem_cons_of_mem _ m))]; rfl, by simp [Function.comp_def], fun w hw => by
    obtain ⟨c, hc, rfl⟩ := List.mem_map.mp hw
    exact ⟨rfl, fun e => h (e ▸ hc)⟩⟩

theorem escapeChar_head (c : Char) : escapeChar c ≠ [] ∧ (∀ x ∈ escapeChar c, x = '\r' ∨ x = '\n' → escapeChar c = [c] ∧ x = c) := by
  unfold escapeChar
  split
  · simp
  split
  · simp
  split
  · simp
  split
  · simp
  split
  · simp
  · simp

/-- No character of the text is a carriage return. -/
theorem lineEnds_self {s : List Char} (h : '\r' ∉ s) : lineEnds s = s := by
  induction s with
  | nil => rfl
  | cons c s ih =>
    rw [List.mem_cons, not_or] at h
    rw [lineEnds]
    · rw [ih h.2]
    · rintro s' rfl; exact absurd rfl h.1
    · rintro rfl; exact absurd rfl h.1

theorem lineEnds_append {l s : List Char} (h : '\r' ∉ l) : lineEnds (l ++ s) = l ++ lineEnds s := by
  induction l with
  | nil => rfl
  | cons c l ih =>
    rw [List.mem_cons, not_or] at h
    rw [List.cons_append, lineEnds]
    · rw [ih h.2, List.cons_append]
    · rintro s' rfl; exact absurd rfl h.1
    · rintro rfl; exact absurd rfl h.1

theorem escapeChar_noCr {c : Char} (h : c ≠ '\r') : '\r' ∉ escapeChar c := by
  intro hm
  exact h ((escapeChar_head c).2 _ hm (.inl rfl)).2.symm

theorem escapeChar_lf : escapeChar '\n' = ['\n'] := by decide
theorem escapeChar_cr : escapeChar '\r' = ['\r'] := by decide

theorem escape_head_lf (s s' : List Char) (h : escape s = '\n' :: s') : ∃ t, s = '\n' :: t ∧ escape t = s' := by
  cases s with
  | nil => cases h
  | cons c s =>
    rw [escape_cons] at h
    have h1 := (escapeChar_head c).1
    cases he : escapeChar c with
    | nil => exact absurd he h1
    | cons x l =>
      rw [he] at h
      injection h with h2 h3
      subst h2
      have := (escapeChar_head c).2 '\n' (by rw [he]; exact List.mem_cons_self ..) (.inr rfl)
      rw [he] at this
      have hl : l = [] := by have := this.1; injection this
      rw [hl] at h3
      exact ⟨s, by rw [← this.2], h3⟩

/-- Line ends are the same before and after escaping. -/
theorem lineEnds_escape (s : List Char) : lineEnds (escape s) = escape (lineEnds s) := by
  fun_induction lineEnds s with
  | case1 => rfl
  | case2 s ih => rw [escape_cons, escape_cons, escapeChar_cr, escapeChar_lf]; change '\n' :: lineEnds (escape s) = _; rw [ih]; rfl
  | case3 s hn ih =>
    rw [escape_cons, escapeChar_cr]
    change lineEnds ('\r' :: escape s) = escapeChar '\n' ++ escape (lineEnds s)
    rw [lineEnds, ih, escapeChar_lf]; rfl
    intro s' hs'
    obtain ⟨t, ht, _⟩ := escape_head_lf s s' hs'
    exact hn t ht
  | case4 c s h1 h2 ih =>
    rw [escape_cons, lineEnds_append, ih]; rfl
    apply escapeChar_noCr
    rintro rfl
    exact h2 rfl

theorem white_of (c : Char) (h : whiteToSpace c ≠ c) : c = '\t' ∨ c = '\n' ∨ c = '\r' := by
  unfold whiteToSpace at h
  split at h
  · assumption
  · exact absurd rfl h

theorem escape_whiteToSpace (s : List Char) : (escape s).map whiteToSpace = escape (s.map whiteToSpace) := by
  induction s with
  | nil => rfl
  | cons c s ih =>
    rw [escape_cons, List.map_append, ih, List.map_cons, escape_cons]
    congr 1
    by_cases h : c = '\t' ∨ c = '\n' ∨ c = '\r'
    · rcases h with rfl | rfl | rfl <;> decide
    · have e : whiteToSpace c = c := by unfold whiteToSpace; rw [if_neg h]
      rw [e]
      unfold escapeChar
      split
      · decide
      split
      · decide
      split
      · decide
      split
      · decide
      split
      · decide
      · rw [List.map_cons, e]; rfl

theorem mem_lineEnds {s : List Char} {c : Char} (h : c ∈ lineEnds s) : c ∈ s ∨ c = '\n' := by
  fun_induction lineEnds s with
  | case1 => cases h
  | case2 s ih => rcases List.mem_cons.mp h with rfl | h
                  · exact .inr rfl
                  · rcases ih h with h | h
                    · exact .inl (by simp [h])
                    · exact .inr h
  | case3 s hn ih => rcases List.mem_cons.mp h with rfl | h
                     · exact .inr rfl
                     · rcases ih h with h | h
                       · exact .inl (by simp [h])
                       · exact .inr h
  | case4 c s h1 h2 ih => rcases List.mem_cons.mp h with rfl | h
                          · exact .inl (by simp)
                          · rcases ih h with h | h
                            · exact .inl (by simp [h])
                            · exact .inr h

theorem xmlChar_ascii {c : Char} (h : 0x20 ≤ c.toNat) (h2 : c.toNat < 128) : XmlChar c := .inr (.inr (.inr (.inl ⟨h, by omega⟩)))

theorem xmlChars_lineEnds {s : List Char} (h : ∀ c ∈ s, XmlChar c) : ∀ c ∈ lineEnds s, XmlChar c := by
  intro c hc
  rcases mem_lineEnds hc with hc | rfl
  · exact h c hc
  · exact .inr (.inl rfl)

theorem xmlChars_white {s : List Char} (h : ∀ c ∈ s, XmlChar c) : ∀ c ∈ s.map whiteToSpace, XmlChar c := by
  intro c hc
  obtain ⟨x, hx, rfl⟩ := List.mem_map.mp hc
  unfold whiteToSpace
  split
  · exact xmlChar_ascii (by decide) (by decide)
  · exact h x hx

theorem escapeChar_xml {c : Char} (h : XmlChar c) : ∀ x ∈ escapeChar c, XmlChar x := by
  intro x hx
  unfold escapeChar at hx
  have a : ∀ l : List Char, l.all (fun x => decide (0x20 ≤ x.toNat ∧ x.toNat < 128)) = true → x ∈ l → XmlChar x := by
    intro l hl hx
    have := List.all_eq_true.mp hl x hx
    simp only [decide_eq_true_eq] at this
    exact xmlChar_ascii this.1 this.2
  split at hx
  · exact a _ (by decide) hx
  split at hx
  · exact a _ (by decide) hx
  split at hx
  · exact a _ (by decide) hx
  split at hx
  · exact a _ (by decide) hx
  split at hx
  · exact a _ (by decide) hx
  · rw [List.mem_singleton] at hx; rw [hx]; exact h

theorem escape_xml {s : List Char} (h : ∀ c ∈ s, XmlChar c) : ∀ x ∈ escape s, XmlChar x := by
  intro x hx
  obtain ⟨c, hc, hx⟩ := List.mem_flatMap.mp hx
  exact escapeChar_xml (h c hc) x hx

theorem escape_ne_nil {s : List Char} (h : s ≠ []) : escape s ≠ [] := by
  cases s with
  | nil => exact absurd rfl h
  | cons c s => rw [escape_cons]; simp [(escapeChar_head c).1]

theorem charData_escape {s : List Char} (h : ∀ c ∈ s, XmlChar c) (hn : s ≠ []) : CharData (escape s) (lineEnds s) where
  nonempty := escape_ne_nil hn
  chars := escape_xml h
  noMarkup := fun hm => (escape_no_markup hm).1 rfl
  noEnd := fun l r e => (escape_no_markup (x := '>') (s := s) (by rw [e]; simp)).2.1 rfl
  reads := by rw [lineEnds_escape]; exact standsFor_escape _
  means := xmlChars_lineEnds h

/-! ## Tags -/

/-- The inside of a tag behind the name. -/
def TagInside (s : List Char) (kvs : List (List Char × List Char)) : Prop := ∃ a sp, s = a ++ sp ∧ IsAttrs a kvs ∧ Whites sp

theorem tagInside_nil : TagInside [] [] := ⟨[], [], rfl, .nil, fun _ h => nomatch h⟩

theorem tagInside_space {s kvs} (h : TagInside s kvs) : TagInside (' ' :: s) kvs := by
  obtain ⟨a, sp, rfl, h1, h2⟩ := h
  cases h1 with
  | nil => exact ⟨[], ' ' :: sp, rfl, .nil, fun c hc => by
      rcases List.mem_cons.mp hc with rfl | hc
      · exact .inl rfl
      · exact h2 c hc⟩
  | @cons s kv ss kvs h3 h4 =>
    obtain ⟨sep, l, r, q, raw, rfl, g1, g2, g3⟩ := h3
    refine ⟨' ' :: _, sp, rfl, ?_, h2⟩
    rw [← List.cons_append]
    refine .cons ⟨' ' :: sep, l, r, q, raw, by simp, fun c hc => ?_, by simp, g3⟩ h4
    rcases List.mem_cons.mp hc with rfl | hc
    · exact .inl rfl
    · exact g1 c hc

theorem tagInside_cons {s x kvs kv} (h : IsAttr (' ' :: x) kv) (hs : TagInside s kvs) : TagInside (' ' :: (x ++ s)) (kv :: kvs) := by
  obtain ⟨a, sp, rfl, h1, h2⟩ := hs
  exact ⟨(' ' :: x) ++ a, sp, by simp, .cons h h1, h2⟩

theorem joinSpace_cons (x : List Char) {l : List (List Char)} (h : l ≠ []) : joinSpace (x :: l) = x ++ ' ' :: joinSpace l := by
  cases l with
  | nil => exact absurd rfl h
  | cons y l => rfl

/-- Attributes separated by single spaces. -/
theorem tagInside_join {f : String × String → List Char} {g : String × String → List Char × List Char} {l : Attrs} {s kvs}
    (hl : ∀ kv ∈ l, IsAttr (' ' :: f kv) (g kv)) (hs : TagInside s kvs) : TagInside (' ' :: (joinSpace (l.map f) ++ s)) (l.map g ++ kvs) := by
  induction l with
  | nil => exact tagInside_space hs
  | cons kv l ih =>
    by_cases hn : l = []
    · subst hn
      exact tagInside_cons (hl kv (List.mem_cons_self ..)) hs
    · rw [List.map_cons, joinSpace_cons _ (by simpa using hn), List.append_assoc, List.cons_append]
      exact tagInside_cons (hl kv (List.mem_cons_self ..)) (ih (fun kv h => hl kv (List.mem_cons_of_mem _ h)))

theorem isAttr_attrText {kv : String × String} (h1 : XmlName kv.1.toList) (h2 : XmlChars kv.2) :
    IsAttr (' ' :: attrText kv) (kv.1.toList, Reading.xml.attr kv.2.toList) := by
  refine ⟨[' '], [], [], '"', escape kv.2.toList, ?_, ?_, by simp, h1, nofun, nofun, .inl rfl, fun hm => (escape_no_markup hm).2.2.1 rfl,
    fun hm => (escape_no_markup hm).1 rfl, escape_xml h2, ?_, xmlChars_white (xmlChars_lineEnds h2)⟩
  · simp [attrText]
  · intro c hc; rw [List.mem_singleton] at hc; exact .inl hc
  · rw [lineEnds_escape, escape_whiteToSpace]; exact standsFor_escape _

theorem isAttr_nsText {kv : String × String} (h1 : XmlName (declName kv.1).toList) (h2 : XmlChars kv.2) (h3 : '"' ∉ kv.2.toList) (h4 : '<' ∉ kv.2.toList)
    (h5 : '&' ∉ kv.2.toList) : IsAttr (' ' :: nsText kv) ((declName kv.1).toList, Reading.xml.attr kv.2.toList) := by
  have e : nsText kv = (declName kv.1).toList ++ '=' :: '"' :: (kv.2.toList ++ ['"']) := by
    unfold nsText declName
    split <;> simp
  refine ⟨[' '], [], [], '"', kv.2.toList, ?_, ?_, by simp, h1, nofun, nofun, .inl rfl, h3, h4, h2, ?_, xmlChars_white (xmlChars_lineEnds h2)⟩
  · rw [e]; simp
  · intro c hc; rw [List.mem_singleton] at hc; exact .inl hc
  · apply standsFor_plain
    intro hm
    obtain ⟨x, hx, hx2⟩ := List.mem_map.mp hm
    rcases mem_lineEnds hx with hx | rfl
    · unfold whiteToSpace at hx2
      split at hx2
      · cases hx2
      · exact h5 (hx2 ▸ hx)
    · revert hx2; decide

theorem tagInside_attrs {attrs : Option Attrs} (h1 : ∀ n ∈ (attrs.getD []).map Prod.fst, XmlName n.toList) (h2 : ∀ t ∈ (attrs.getD []).map Prod.snd, XmlChars t) :
    TagInside ((match attrs with
        | some a => ' ' :: joinSpace ((sortAttrs a).map attrText)
        | none => []) ++ [' ']) (attrsRead Reading.xml (sortAttrs (attrs.getD []))) := by
  have hsp : TagInside [' '] [] := tagInside_space tagInside_nil
  cases attrs with
  | none => exact hsp
  | some a =>
    have := tagInside_join (f := attrText) (g := fun kv => (kv.1.toList, Reading.xml.attr kv.2.toList)) (l := sortAttrs a) (fun kv hkv => by
      have hkv := (sortAttrs_perm a).mem_iff.mp hkv
      exact isAttr_attrText (h1 _ (List.mem_map.mpr ⟨kv, hkv, rfl⟩)) (h2 _ (List.mem_map.mpr ⟨kv, hkv, rfl⟩))) hsp
    simpa [attrsRead] using this

theorem tagInside_ns {ns : Attrs} (h : ∀ kv ∈ ns, XmlName (declName kv.1).toList ∧ XmlChars kv.2 ∧ '"' ∉ kv.2.toList ∧ '<' ∉ kv.2.toList ∧ '&' ∉ kv.2.toList)
    {s kvs} (hs : TagInside s kvs) : TagInside (' ' :: (joinSpace (ns.map nsText) ++ s)) (attrsRead Reading.xml (declAttrs ns) ++ kvs) := by
  have := tagInside_join (f := nsText) (g := fun kv => ((declName kv.1).toList, Reading.xml.attr kv.2.toList)) (l := ns) (fun kv hkv => by
      obtain ⟨a, b, c, d, e⟩ := h kv hkv
      exact isAttr_nsText a b c d e) hs
  simpa [attrsRead, declAttrs, Function.comp_def] using this

theorem content_void {n s kvs r l} (h1 : XmlName n) (h2 : TagInside s kvs) (h3 : (kvs.map Prod.fst).Nodup) (h4 : IsContent r l) :
    IsContent ('<' :: (n ++ (s ++ '/' :: '>' :: r))) (.elem n kvs [] :: l) := by
  obtain ⟨a, sp, rfl, h5, h6⟩ := h2
  rw [List.append_assoc]
  exact .void h1 h5 h3 h6 h4

theorem content_elem {n s kvs body cs r l} (h1 : XmlName n) (h2 : TagInside s kvs) (h3 : (kvs.map Prod.fst).Nodup) (hb : IsContent body cs) (h4 : IsContent r l) :
    IsContent ('<' :: (n ++ (s ++ '>' :: (body ++ '<' :: '/' :: (n ++ '>' :: r))))) (.elem n kvs cs :: l) := by
  obtain ⟨a, sp, rfl, h5, h6⟩ := h2
  have := IsContent.elem h1 h5 h3 h6 hb (sp' := []) (fun _ h => nomatch h) h4
  simpa using this

theorem content_text (v : String) (h : XmlChars v) : IsContent (escape v.toList) (textRead Reading.xml (some v)) := by
  change IsContent _ (if v = "" then [] else _)
  split
  · rename_i e; subst e; exact .nil
  · rename_i e
    have := IsContent.text (charData_escape h (by intro e'; exact e (by rw [← String.ofList_toList (s := v), e']))) .nil (.inl rfl)
    rw [List.append_nil] at this
    exact this

/-! ## Elements -/

mutual
/-- What an element is written as. -/
def itemOf : Node → Item
  | .mk tag attrs value cs => .elem tag.toList (attrsRead Reading.xml (sortAttrs (attrs.getD []))) (match value with
    | some v => textRead Reading.xml (some v)
    | none => itemsOf cs)
def itemsOf : List Node → List Item
  | [] => []
  | c :: cs => itemOf c :: itemsOf cs
end

/-- The attributes in a tag as written. -/
def attrsText : Option Attrs → List Char
  | some a => ' ' :: joinSpace ((sortAttrs a).map attrText)
  | none => []

theorem tagInside_attrs' {attrs : Option Attrs} (h1 : ∀ n ∈ (attrs.getD []).map Prod.fst, XmlName n.toList) (h2 : ∀ t ∈ (attrs.getD []).map Prod.snd, XmlChars t) :
    TagInside (attrsText attrs ++ [' ']) (attrsRead Reading.xml (sortAttrs (attrs.getD []))) := by
  have := tagInside_attrs h1 h2
  cases attrs <;> exact this

theorem openTag_close (b : Build) (tag : String) (attrs : Option Attrs) (r : List Char) :
    openTag b tag attrs none true ++ r = '<' :: (tag.toList ++ ((attrsText attrs ++ [' ']) ++ '/' :: '>' :: r)) := by
  cases attrs <;> simp [openTag, attrsText]

theorem openTag_open (b : Build) (tag : String) (attrs : Option Attrs) (r : List Char) :
    openTag b tag attrs none false ++ r = '<' :: (tag.toList ++ ((attrsText attrs ++ [' ']) ++ '>' :: r)) := by
  cases attrs <;> simp [openTag, attrsText]

/-- The namespace declarations in the root tag as written. -/
def nsTexts (b : Build) (ns : Attrs) : List Char := ' ' :: joinSpace ((releaseNs b ns).map nsText)

theorem openTag_root_close (b : Build) (tag : String) (attrs : Option Attrs) (ns : Attrs) (r : List Char) :
    openTag b tag attrs (some ns) true ++ r = '<' :: (tag.toList ++ ((nsTexts b ns ++ (attrsText attrs ++ [' '])) ++ '/' :: '>' :: r)) := by
  cases attrs <;> simp [openTag, attrsText, nsTexts]

theorem openTag_root_open (b : Build) (tag : String) (attrs : Option Attrs) (ns : Attrs) (r : List Char) :
    openTag b tag attrs (some ns) false ++ r = '<' :: (tag.toList ++ ((nsTexts b ns ++ (attrsText attrs ++ [' '])) ++ '>' :: r)) := by
  cases attrs <;> simp [openTag, attrsText, nsTexts]

theorem valueClose_append (v : String) (tag : String) (r : List Char) :
    valueClose v tag ++ r = escape v.toList ++ '<' :: '/' :: (tag.toList ++ '>' :: r) := by
  simp [valueClose]

theorem attrsRead_keys (a : Attrs) : (attrsRead Reading.xml a).map Prod.fst = (a.map Prod.fst).map String.toList := by
  simp [attrsRead, Function.comp_def]

theorem nodup_toList {l : List String} (h : l.Nodup) : (l.map String.toList).Nodup :=
  List.Pairwise.map _ (fun _ _ hab e => hab (String.toList_inj.mp e)) h

theorem attrsRead_nodup {a : Attrs} (h : (a.map Prod.fst).Nodup) : ((attrsRead Reading.xml (sortAttrs a)).map Prod.fst).Nodup := by
  rw [attrsRead_keys]
  exact nodup_toList (((sortAttrs_perm a).map Prod.fst).nodup_iff.mpr h)

mutual
theorem content_render (b : Build) (n : Node) (h1 : ∀ x ∈ allNames n, XmlName x.toList) (h2 : DistinctAttrs n) (h3 : ∀ t ∈ allTexts n, XmlChars t)
    {r : List Char} {l : List Item} (hr : IsContent r l) : IsContent (render b n ++ r) (itemOf n :: l) := by
  match n with
  | .mk tag attrs value cs =>
    simp only [allNames, allTexts, DistinctAttrs] at h1 h2 h3
    have ht : XmlName tag.toList := h1 _ (by simp)
    have hi : TagInside (attrsText attrs ++ [' ']) (attrsRead Reading.xml (sortAttrs (attrs.getD []))) :=
      tagInside_attrs' (fun x hx => h1 x (List.mem_cons_of_mem _ (List.mem_append_left _ hx))) (fun x hx => h3 x (List.mem_append_left _ hx))
    have hd := attrsRead_nodup h2.1
    match value, cs with
    | none, [] =>
      rw [render, openTag_close]
      exact content_void ht hi hd hr
    | some v, cs =>
      rw [render, List.append_assoc, openTag_open, valueClose_append]
      exact content_elem ht hi hd (content_text v (h3 v (List.mem_append_right _ (List.mem_singleton.mpr rfl)))) hr
    | none, c :: cs' =>
      rw [render, List.append_assoc, List.append_assoc, openTag_open, valueClose_append]
      have hb := content_renders b (c :: cs') (fun x hx => h1 x (List.mem_cons_of_mem _ (List.mem_append_right _ hx))) h2.2
        (fun x hx => h3 x (List.mem_append_right _ hx)) .nil
      rw [List.append_nil, List.append_nil] at hb
      exact content_elem ht hi hd hb hr
theorem content_renders (b : Build) (cs : List Node) (h1 : ∀ x ∈ allNamess cs, XmlName x.toList) (h2 : DistinctAttrss cs) (h3 : ∀ t ∈ allTextss cs, XmlChars t)
    {r : List Char} {l : List Item} (hr : IsContent r l) : IsContent (renders b cs ++ r) (itemsOf cs ++ l) := by
  match cs with
  | [] => exact hr
  | c :: cs' =>
    simp only [allNamess, allTextss, DistinctAttrss] at h1 h2 h3
    rw [renders, List.append_assoc, itemsOf, List.cons_append]
    exact content_render b c (fun x hx => h1 x (List.mem_append_left _ hx)) h2.1 (fun x hx => h3 x (List.mem_append_left _ hx))
      (content_renders b cs' (fun x hx => h1 x (List.mem_append_right _ hx)) h2.2 (fun x hx => h3 x (List.mem_append_right _ hx)) hr)
end

mutual
theorem shows_itemOf (n : Node) (h : TextOrChildren n) : Shows Reading.xml n (itemOf n) := by
  match n with
  | .mk tag attrs value cs =>
    simp only [TextOrChildren] at h
    simp only [Shows, itemOf]
    refine ⟨trivial, (sortAttrs_perm _).map _, ?_⟩
    match value with
    | some v =>
      have : cs = [] := h.1 (by simp)
      subst this
      exact ⟨[], by simp, by simp [ShowsAll]⟩
    | none => exact ⟨itemsOf cs, rfl, shows_itemsOf cs h.2⟩
theorem shows_itemsOf (cs : List Node) (h : TextOrChildrens cs) : ShowsAll Reading.xml cs (itemsOf cs) := by
  match cs with
  | [] => simp [ShowsAll, itemsOf]
  | c :: cs' =>
    simp only [TextOrChildrens] at h
    simp only [ShowsAll, itemsOf]
    exact ⟨shows_itemOf c h.1, shows_itemsOf cs' h.2⟩
end

/-- What the root is written as. -/
def rootItem (b : Build) (ns : Attrs) : Node → Item
  | .mk tag attrs value cs => .elem tag.toList (attrsRead Reading.xml (declAttrs (releaseNs b ns)) ++ attrsRead Reading.xml (sortAttrs (attrs.getD []))) (match value with
    | some v => textRead Reading.xml (some v)
    | none => itemsOf cs)

theorem content_root (b : Build) (ns : Attrs) (n : Node) (h : XmlReady (releaseNs b ns) n) : IsContent (renderRoot b ns n) [rootItem b ns n] := by
  obtain ⟨h1, h2, h3, h4, h5⟩ := h
  match n with
  | .mk tag attrs value cs =>
    simp only [allNames, allTexts, DistinctAttrs] at h1 h2 h3
    have ht : XmlName tag.toList := h1 _ (by simp)
    have hi : TagInside (attrsText attrs ++ [' ']) (attrsRead Reading.xml (sortAttrs (attrs.getD []))) :=
      tagInside_attrs' (fun x hx => h1 x (List.mem_cons_of_mem _ (List.mem_append_left _ hx))) (fun x hx => h3 x (List.mem_append_left _ hx))
    have hj := tagInside_ns h4 hi
    have hd : ((attrsRead Reading.xml (declAttrs (releaseNs b ns)) ++ attrsRead Reading.xml (sortAttrs (attrs.getD []))).map Prod.fst).Nodup := by
      have : attrsRead Reading.xml (declAttrs (releaseNs b ns)) ++ attrsRead Reading.xml (sortAttrs (attrs.getD [])) =
          attrsRead Reading.xml (declAttrs (releaseNs b ns) ++ sortAttrs (attrs.getD [])) := by simp [attrsRead]
      rw [this, attrsRead_keys]
      exact nodup_toList ((((sortAttrs_perm (attrs.getD [])).append_left (declAttrs (releaseNs b ns))).map Prod.fst).nodup_iff.mpr h5)
    match value, cs with
    | none, [] =>
      have := openTag_root_close b tag attrs ns []
      rw [List.append_nil] at this
      rw [renderRoot, this]
      exact content_void ht hj hd .nil
    | some v, cs =>
      have e := valueClose_append v tag []
      rw [List.append_nil] at e
      rw [renderRoot, openTag_root_open, e]
      exact content_elem ht hj hd (content_text v (h3 v (List.mem_append_right _ (List.mem_singleton.mpr rfl)))) .nil
    | none, c :: cs' =>
      have e := valueClose_append "" tag []
      rw [List.append_nil] at e
      rw [renderRoot, List.append_assoc, openTag_root_open, e]
      have hb := content_renders b (c :: cs') (fun x hx => h1 x (List.mem_cons_of_mem _ (List.mem_append_right _ hx))) h2.2
        (fun x hx => h3 x (List.mem_append_right _ hx)) .nil
      rw [List.append_nil, List.append_nil] at hb
      exact content_elem ht hj hd hb .nil

theorem shows_root (b : Build) (ns : Attrs) (n : Node) (h : TextOrChildren n) : ShowsRoot Reading.xml (releaseNs b ns) n (rootItem b ns n) := by
  match n with
  | .mk tag attrs value cs =>
    simp only [TextOrChildren] at h
    simp only [ShowsRoot, rootItem]
    refine ⟨trivial, ?_, ?_⟩
    · rw [show attrsRead Reading.xml (declAttrs (releaseNs b ns) ++ attrs.getD []) = attrsRead Reading.xml (declAttrs (releaseNs b ns)) ++ attrsRead Reading.xml (attrs.getD []) by simp [attrsRead]]
      exact ((sortAttrs_perm _).map _).append_left _
    match value with
    | some v =>
      have : cs = [] := h.1 (by simp)
      subst this
      exact ⟨[], by simp, by simp [ShowsAll]⟩
    | none => exact ⟨itemsOf cs, rfl, shows_itemsOf cs h.2⟩

/-! ## Documents -/

theorem nameStart_alpha {c : Char} (h : c.isAlpha = true) : NameStart c := .inr (.inr (.inl h))

/-- Names of ASCII characters. -/
def asciiName : List Char → Bool
  | [] => false
  | c :: cs => (c.isAlpha || c = '_') && cs.all (fun x => x.isAlpha || x.isDigit || x = '_' || x = '-' || x = '.' || x = ':')

theorem xmlName_ascii {s : List Char} (h : asciiName s = true) : XmlName s := by
  cases s with
  | nil => cases h
  | cons c cs =>
    simp only [asciiName, Bool.and_eq_true, Bool.or_eq_true, decide_eq_true_eq] at h
    refine ⟨c, cs, rfl, h.1.elim nameStart_alpha (fun e => .inr (.inl e)), fun x hx => ?_⟩
    have := List.all_eq_true.mp h.2 x hx
    simp only [Bool.or_eq_true, decide_eq_true_eq] at this
    rcases this with ((((h | h) | h) | h) | h) | h
    · exact .inl (nameStart_alpha h)
    · exact .inr (.inr (.inr (.inl h)))
    · exact .inl (.inr (.inl h))
    · exact .inr (.inl h)
    · exact .inr (.inr (.inl h))
    · exact .inl (.inl h)

theorem isDeclaration_header : IsDeclaration "<?xml version=\"1.0\" encoding=\"utf-8\"?>".toList := by
  have ch : ∀ l : List Char, l.all (fun x => decide (0x20 ≤ x.toNat ∧ x.toNat < 128)) = true → ∀ x ∈ l, XmlChar x := by
    intro l hl x hx
    have := List.all_eq_true.mp hl x hx
    simp only [decide_eq_true_eq] at this
    exact xmlChar_ascii this.1 this.2
  have one : ∀ k v : String, XmlName k.toList → v.toList.all (fun x => decide (0x20 ≤ x.toNat ∧ x.toNat < 128)) = true → '"' ∉ v.toList → '<' ∉ v.toList → '&' ∉ v.toList →
      lineEnds v.toList = v.toList → v.toList.map whiteToSpace = v.toList → IsAttr (' ' :: (k.toList ++ '=' :: '"' :: (v.toList ++ ['"']))) (k.toList, v.toList) := by
    intro k v h1 h2 h3 h4 h5 h6 h7
    refine ⟨[' '], [], [], '"', v.toList, by simp, ?_, by simp, h1, nofun, nofun, .inl rfl, h3, h4, ch _ h2, ?_, ch _ h2⟩
    · intro c hc; rw [List.mem_singleton] at hc; exact .inl hc
    · rw [h6, h7]; exact standsFor_plain h5
  refine ⟨_, _, [], ?_, .cons (one "version" "1.0" (xmlName_ascii (by decide +kernel)) (by decide +kernel) (by decide +kernel) (by decide +kernel) (by decide +kernel) (by decide +kernel) (by decide +kernel))
    (.cons (one "encoding" "utf-8" (xmlName_ascii (by decide +kernel)) (by decide +kernel) (by decide +kernel) (by decide +kernel) (by decide +kernel) (by decide +kernel) (by decide +kernel)) .nil), nofun, ?_⟩
  · decide +kernel
  · exact List.mem_cons_of_mem _ (List.mem_cons_self ..)

theorem document_write (b : Build) (stamp : List Char) (x : XDoc) (root : Node) (hr : x.root = some root) (h : XmlReady (releaseNs b x.ns) root)
    (hs : b.release = true → StampXml stamp) : IsDocument (renderDoc b stamp x) (rootItem b x.ns root) := by
  refine ⟨"<?xml version=\"1.0\" encoding=\"utf-8\"?>".toList, if b.release then "<!--".toList ++ stamp ++ "-->".toList else [], renderRoot b x.ns root, [], ?_, .inr isDeclaration_header, ?_,
    content_root b x.ns root h, ?_, .nil⟩
  · unfold renderDoc xmlHeader
    rw [hr, List.append_assoc, List.append_nil]
  · split
    · rename_i hb
      have := IsMisc.comment (hs hb) .nil
      rw [List.append_nil] at this
      exact this
    · exact .nil
  · cases root; exact ⟨_, _, _, rfl⟩

/-! ## Characters -/

theorem whites_xml {s : List Char} (h : Whites s) : ∀ c ∈ s, XmlChar c := by
  intro c hc
  rcases h c hc with rfl | rfl | rfl | rfl
  · exact xmlChar_ascii (by decide) (by decide)
  · exact .inl rfl
  · exact .inr (.inl rfl)
  · exact .inr (.inr (.inl rfl))

theorem nameStart_xml {c : Char} (h : NameStart c) : XmlChar c := by
  rcases h with rfl | rfl | h | ⟨r, hr, h1, h2⟩
  · exact xmlChar_ascii (by decide) (by decide)
  · exact xmlChar_ascii (by decide) (by decide)
  · have : 65 ≤ c.toNat ∧ c.toNat ≤ 122 := by
      simp only [Char.isAlpha, Char.isUpper, Char.isLower, Bool.or_eq_true, Bool.and_eq_true, decide_eq_true_eq, Char.toNat, UInt32.le_iff_toNat_le] at *
      have e1 : 'A'.val.toNat = 65 := rfl
      have e2 : 'Z'.val.toNat = 90 := rfl
      have e3 : 'a'.val.toNat = 97 := rfl
      have e4 : 'z'.val.toNat = 122 := rfl
      omega
    exact xmlChar_ascii (by omega) (by omega)
  · simp only [List.mem_cons, List.not_mem_nil, or_false] at hr
    unfold XmlChar
    rcases hr with rfl | rfl | rfl | rfl | rfl | rfl | rfl | rfl | rfl | rfl | rfl | rfl <;> simp only at h1 h2 <;> omega

theorem nameChar_xml {c : Char} (h : NameChar c) : XmlChar c := by
  rcases h with h | rfl | rfl | h | h | h | h
  · exact nameStart_xml h
  · exact xmlChar_ascii (by decide) (by decide)
  · exact xmlChar_ascii (by decide) (by decide)
  · have : 48 ≤ c.toNat ∧ c.toNat ≤ 57 := by
      simp only [Char.isDigit, Bool.and_eq_true, decide_eq_true_eq, Char.toNat, UInt32.le_iff_toNat_le] at *
      have e1 : '0'.val.toNat = 48 := rfl
      have e2 : '9'.val.toNat = 57 := rfl
      omega
    exact xmlChar_ascii (by omega) (by omega)
  all_goals (unfold XmlChar; omega)

theorem xmlName_xml {s : List Char} (h : XmlName s) : ∀ c ∈ s, XmlChar c := by
  obtain ⟨c, cs, rfl, h1, h2⟩ := h
  intro x hx
  rcases List.mem_cons.mp hx with rfl | hx
  · exact nameStart_xml h1
  · exact nameChar_xml (h2 x hx)

theorem ascii_xml {s : List Char} (h : s.all (fun x => decide (0x20 ≤ x.toNat ∧ x.toNat < 128)) = true) : ∀ c ∈ s, XmlChar c := by
  intro x hx
  have := List.all_eq_true.mp h x hx
  simp only [decide_eq_true_eq] at this
  exact xmlChar_ascii this.1 this.2

/-- All characters are characters of XML. -/
def AllXml (s : List Char) : Prop := ∀ c ∈ s, XmlChar c

theorem AllXml.append {s t : List Char} (h1 : AllXml s) (h2 : AllXml t) : AllXml (s ++ t) := by
  intro c hc
  rcases List.mem_append.mp hc with hc | hc
  · exact h1 c hc
  · exact h2 c hc

theorem AllXml.cons {c : Char} {t : List Char} (h1 : XmlChar c) (h2 : AllXml t) : AllXml (c :: t) := by
  intro x hx
  rcases List.mem_cons.mp hx with rfl | hx
  · exact h1
  · exact h2 x hx

theorem xc (c : Char) (h : 0x20 ≤ c.toNat ∧ c.toNat < 128) : XmlChar c := xmlChar_ascii h.1 h.2

theorem isAttr_xml {s kv} (h : IsAttr s kv) : AllXml s := by
  obtain ⟨sep, l, r, q, raw, rfl, h1, _, h3, h4, h5, h6, _, _, h9, _⟩ := h
  have hq : XmlChar q := by rcases h6 with rfl | rfl <;> exact xc _ (by decide)
  exact (((AllXml.append (whites_xml h1) (xmlName_xml h3)).append (whites_xml h4))).append (.cons (xc _ (by decide)) ((AllXml.append (whites_xml h5)) (.cons hq (AllXml.append h9 (.cons hq nofun)))))

theorem isAttrs_xml {s kvs} (h : IsAttrs s kvs) : AllXml s := by
  induction h with
  | nil => exact nofun
  | cons h1 _ ih => exact (isAttr_xml h1).append ih

theorem isComment_xml {s} (h : IsComment s) : AllXml s := by
  obtain ⟨t, rfl, h1, _⟩ := h
  exact (AllXml.append (ascii_xml (by decide)) h1).append (ascii_xml (by decide))

theorem isPi_xml {s} (h : IsPi s) : AllXml s := by
  obtain ⟨n, t, rfl, h1, _, _, h4, _⟩ := h
  exact ((AllXml.append (ascii_xml (by decide)) (xmlName_xml h1)).append h4).append (ascii_xml (by decide))

theorem isContent_xml {s l} (h : IsContent s l) : AllXml s := by
  induction h with
  | nil => exact nofun
  | text h1 _ _ ih => exact AllXml.append h1.chars ih
  | void h1 h2 _ h3 _ ih =>
    exact .cons (xc _ (by decide)) ((AllXml.append (xmlName_xml h1)) ((isAttrs_xml h2).append ((AllXml.append (whites_xml h3)) (.cons (xc _ (by decide)) (.cons (xc _ (by decide)) ih)))))
  | elem h1 h2 _ h3 _ h4 _ ih1 ih2 =>
    exact .cons (xc _ (by decide)) ((AllXml.append (xmlName_xml h1)) ((isAttrs_xml h2).append ((AllXml.append (whites_xml h3)) (.cons (xc _ (by decide)) (ih1.append
      (.cons (xc _ (by decide)) (.cons (xc _ (by decide)) ((AllXml.append (xmlName_xml h1)) ((AllXml.append (whites_xml h4)) (.cons (xc _ (by decide)) ih2)))))))))) 
  | comment h1 _ ih => exact (isComment_xml h1).append ih
  | pi h1 _ ih => exact (isPi_xml h1).append ih
  | cdata h1 _ ih =>
    obtain ⟨raw, rfl, h2, _⟩ := h1
    exact ((AllXml.append (ascii_xml (by decide)) h2).append (ascii_xml (by decide))).append ih

theorem isMisc_xml {s} (h : IsMisc s) : AllXml s := by
  induction h with
  | nil => exact nofun
  | white h1 _ ih => exact .cons (whites_xml (s := [_]) (by intro c hc; rw [List.mem_singleton] at hc; exact hc ▸ h1) _ (List.mem_singleton.mpr rfl)) ih
  | comment h1 _ ih => exact (isComment_xml h1).append ih
  | pi h1 _ ih => exact (isPi_xml h1).append ih

/-- A well-formed text has characters of XML only. -/
theorem wellFormed_xml {s} (h : WellFormed s) : AllXml s := by
  obtain ⟨root, decl, before, body, after, rfl, h1, h2, h3, _, h5⟩ := h
  have hd : AllXml decl := by
    rcases h1 with rfl | ⟨a, kvs, sp, rfl, g1, g2, _⟩
    · exact nofun
    · exact ((AllXml.append (ascii_xml (by decide)) (isAttrs_xml g1)).append (whites_xml g2)).append (ascii_xml (by decide))
  exact hd.append ((isMisc_xml h2).append ((isContent_xml h3).append (isMisc_xml h5)))

/-! ## Where written texts end up -/

theorem mem_escape_bad {s : List Char} {c : Char} (h : c ∈ s) (hb : ¬XmlChar c) : c ∈ escape s := by
  refine List.mem_flatMap.mpr ⟨c, h, ?_⟩
  have : ∀ x : Char, XmlChar x → c ≠ x := fun x hx e => hb (e ▸ hx)
  unfold escapeChar
  rw [if_neg (this _ (xc _ (by decide))), if_neg (this _ (xc _ (by decide))), if_neg (this _ (xc _ (by decide))), if_neg (this _ (xc _ (by decide))), if_neg (this _ (xc _ (by decide)))]
  exact List.mem_singleton.mpr rfl

theorem mem_joinSpace {l : List (List Char)} {x : List Char} {c : Char} (h : x ∈ l) (hc : c ∈ x) : c ∈ joinSpace l := by
  induction l with
  | nil => cases h
  | cons y l ih =>
    by_cases hn : l = []
    · subst hn
      rw [List.mem_singleton] at h
      subst h; exact hc
    · rw [joinSpace_cons _ hn]
      rcases List.mem_cons.mp h with rfl | h
      · exact List.mem_append_left _ hc
      · exact List.mem_append_right _ (List.mem_cons_of_mem _ (ih h))

theorem mem_attrsText {attrs : Option Attrs} {v : String} {c : Char} (h : v ∈ (attrs.getD []).map Prod.snd) (hc : c ∈ v.toList) (hb : ¬XmlChar c) :
    c ∈ attrsText attrs := by
  cases attrs with
  | none => cases h
  | some a =>
    obtain ⟨kv, hkv, rfl⟩ := List.mem_map.mp h
    refine List.mem_cons_of_mem _ (mem_joinSpace (List.mem_map.mpr ⟨kv, (sortAttrs_perm a).mem_iff.mpr hkv, rfl⟩) ?_)
    unfold attrText
    exact List.mem_append_left _ (List.mem_append_right _ (mem_escape_bad hc hb))

mutual
theorem mem_render (b : Build) (n : Node) {v : String} {c : Char} (h : v ∈ allTexts n) (hc : c ∈ v.toList) (hb : ¬XmlChar c) : c ∈ render b n := by
  match n with
  | .mk tag attrs value cs =>
    simp only [allTexts] at h
    rcases List.mem_append.mp h with h | h
    · have := mem_attrsText h hc hb
      match value, cs with
      | none, [] => rw [render, ← List.append_nil (openTag ..), openTag_close]; simp [this]
      | some v, cs => rw [render, openTag_open]; simp [this]
      | none, c :: cs' => rw [render, List.append_assoc, openTag_open]; simp [this]
    · match value, cs with
      | none, [] => cases h
      | some v, cs =>
        rw [List.mem_singleton] at h; subst h
        have := mem_escape_bad hc hb
        rw [render, openTag_open]; simp [valueClose, this]
      | none, c :: cs' =>
        have := mem_renders b (c :: cs') h hc hb
        rw [render, List.append_assoc, openTag_open]; simp [this]
theorem mem_renders (b : Build) (cs : List Node) {v : String} {c : Char} (h : v ∈ allTextss cs) (hc : c ∈ v.toList) (hb : ¬XmlChar c) : c ∈ renders b cs := by
  match cs with
  | [] => cases h
  | x :: cs' =>
    simp only [allTextss] at h
    rw [renders]
    rcases List.mem_append.mp h with h | h
    · exact List.mem_append_left _ (mem_render b x h hc hb)
    · exact List.mem_append_right _ (mem_renders b cs' h hc hb)
end

theorem mem_renderRoot (b : Build) (ns : Attrs) (n : Node) {v : String} {c : Char} (h : v ∈ allTexts n) (hc : c ∈ v.toList) (hb : ¬XmlChar c) :
    c ∈ renderRoot b ns n := by
  match n with
  | .mk tag attrs value cs =>
    simp only [allTexts] at h
    rcases List.mem_append.mp h with h | h
    · have := mem_attrsText h hc hb
      match value, cs with
      | none, [] => rw [renderRoot, ← List.append_nil (openTag ..), openTag_root_close]; simp [this]
      | some v, cs => rw [renderRoot, openTag_root_open]; simp [this]
      | none, c :: cs' => rw [renderRoot, List.append_assoc, openTag_root_open]; simp [this]
    · match value, cs with
      | none, [] => cases h
      | some v, cs =>
        rw [List.mem_singleton] at h; subst h
        have := mem_escape_bad hc hb
        rw [renderRoot, openTag_root_open]; simp [valueClose, this]
      | none, c :: cs' =>
        have := mem_renders b (c :: cs') h hc hb
        rw [renderRoot, List.append_assoc, openTag_root_open]; simp [this]

/-- A document with a character XML does not allow is not written as XML. -/
theorem not_wellFormed (b : Build) (stamp : List Char) (x : XDoc) (root : Node) (hr : x.root = some root) {v : String} {c : Char} (h : v ∈ allTexts root)
    (hc : c ∈ v.toList) (hb : ¬XmlChar c) : ¬WellFormed (renderDoc b stamp x) := by
  intro hw
  apply hb
  apply wellFormed_xml hw
  simp only [renderDoc, hr]
  exact List.mem_append_right _ (mem_renderRoot b x.ns root h hc hb)

end Oxml
