import Verif.Spec.ForeignSheet
import Verif.Proofs.Foreign
import Verif.Proofs.SheetXml
/-!
# The cells of a worksheet another program wrote, in the library
-/
namespace Oxml
open Spec

/-! ## Lists that agree -/

theorem agree_filter' {α β : Type} {P : α → β → Prop} {p : α → Bool} {q : β → Bool} (he : ∀ a b, P a b → p a = q b) :
    ∀ {as : List α} {bs : List β}, Agree P as bs → Agree P (as.filter p) (bs.filter q)
  | [], [], _ => trivial
  | a :: as, b :: bs, h => by
    have i := agree_filter' he h.2
    rw [List.filter_cons, List.filter_cons, he a b h.1]
    split
    · exact ⟨h.1, i⟩
    · exact i

theorem agree_left {α β : Type} {P : α → β → Prop} : ∀ {as : List α} {bs : List β}, Agree P as bs → ∀ a ∈ as, ∃ b ∈ bs, P a b
  | [], [], _, _, h => nomatch h
  | x :: as, b :: bs, h, a, ha => by
    rcases List.mem_cons.mp ha with rfl | ha
    · exact ⟨b, by simp, h.1⟩
    · obtain ⟨b', h1, h2⟩ := agree_left h.2 a ha
      exact ⟨b', by simp [h1], h2⟩

theorem agree_right {α β : Type} {P : α → β → Prop} : ∀ {as : List α} {bs : List β}, Agree P as bs → ∀ b ∈ bs, ∃ a ∈ as, P a b
  | [], [], _, _, h => nomatch h
  | a :: as, x :: bs, h, b, hb => by
    rcases List.mem_cons.mp hb with rfl | hb
    · exact ⟨a, by simp, h.1⟩
    · obtain ⟨a', h1, h2⟩ := agree_right h.2 b hb
      exact ⟨a', by simp [h1], h2⟩

theorem agree_map {α β γ : Type} {P : α → β → Prop} {f : α → γ} {g : β → γ} : ∀ {as : List α} {bs : List β}, Agree P as bs →
    (∀ a b, b ∈ bs → P a b → f a = g b) → as.map f = bs.map g
  | [], [], _, _ => rfl
  | a :: as, b :: bs, h, he => by
    rw [List.map_cons, List.map_cons, he a b (by simp) h.1, agree_map h.2 (fun a b hb => he a b (by simp [hb]))]

theorem agree_length {α β : Type} {P : α → β → Prop} {as : List α} {bs : List β} (h : Agree P as bs) : as.length = bs.length := by
  simpa using congrArg List.length (agree_map (f := fun _ => ()) (g := fun _ => ()) h (fun _ _ _ _ => rfl))

/-! ## Elements -/

theorem readAll_agree {f : Bool} {cs : List Node} {l : List Item} (h : ReadAll f cs l) : Agree (ReadAs f) cs (l.filter Item.isElem) := by
  induction l generalizing cs with
  | nil => rw [ReadAll] at h; subst h; trivial
  | cons i l ih =>
    cases i with
    | text _ => rw [ReadAll] at h; exact ih h
    | elem =>
      cases cs with
      | nil => rw [ReadAll] at h; exact h.elim
      | cons c cs => rw [ReadAll] at h; exact ⟨h.1, ih h.2⟩

theorem read_kids {f : Bool} {n : Node} {i : Item} (h : ReadAs f n i) : Agree (ReadAs f) n.children i.elements := by
  cases i with
  | text _ => cases n; rw [ReadAs] at h; exact h.elim
  | elem => cases n; rw [ReadAs] at h; exact readAll_agree h.2.2.2

theorem read_named {f : Bool} {n : Node} {i : Item} (h : ReadAs f n i) (tag : String) : decide (n.tag = tag) = i.named tag := by
  cases i with
  | text _ => cases n; rw [ReadAs] at h; exact h.elim
  | elem => cases n; rw [ReadAs] at h; simp only [Item.named, h.1, Node.tag, String.toList_inj]; exact decide_eq_decide.mpr Iff.rfl

theorem kids_elements (tag : String) (i : Item) : i.kids tag = i.elements.filter (Item.named tag) := by
  cases i with
  | text _ => rfl
  | elem n kvs cs =>
    simp only [Item.kids, Item.elements, List.filter_filter]
    congr 1
    funext x
    cases x <;> simp [Item.named, Item.isElem]

theorem read_filter {f : Bool} {n : Node} {i : Item} (h : ReadAs f n i) (tag : String) :
    Agree (ReadAs f) (n.children.filter (fun c => c.tag = tag)) (i.kids tag) := by
  rw [kids_elements]
  exact agree_filter' (P := ReadAs f) (fun a b hab => read_named hab tag) (read_kids h)

/-! ## Attributes -/

theorem lineEnds_mem {c : Char} {s : List Char} (h : c ∈ lineEnds s) : c ∈ s ∨ c = '\n' := by
  fun_induction lineEnds s with
  | case1 => exact .inl h
  | case2 s ih => rcases List.mem_cons.mp h with rfl | h
                  · exact .inr rfl
                  · rcases ih h with h | h <;> simp [h]
  | case3 s _ ih => rcases List.mem_cons.mp h with rfl | h
                    · exact .inr rfl
                    · rcases ih h with h | h <;> simp [h]
  | case4 x s _ _ ih => rcases List.mem_cons.mp h with rfl | h
                        · simp
                        · rcases ih h with h | h <;> simp [h]

theorem lineEnds_white {s : List Char} (h : ∃ c ∈ s, White c) : ∃ c ∈ lineEnds s, White c := by
  fun_induction lineEnds s with
  | case1 => obtain ⟨_, h, _⟩ := h; cases h
  | case2 s ih => exact ⟨'\n', by simp, by simp [White]⟩
  | case3 s _ ih => exact ⟨'\n', by simp, by simp [White]⟩
  | case4 x s _ _ ih =>
    obtain ⟨c, hc, hw⟩ := h
    rcases List.mem_cons.mp hc with rfl | hc
    · exact ⟨c, by simp, hw⟩
    · obtain ⟨c, h1, h2⟩ := ih ⟨c, hc, hw⟩
      exact ⟨c, by simp [h1], h2⟩

theorem attr_exact {kv : String × String} {x : List Char × List Char} (h : AttrAs true kv x) (hx : ' ' ∉ x.2 ∨ ∀ c ∈ kv.2.toList, ¬White c) : kv.2.toList = x.2 := by
  have h1 := h.2.2 rfl
  have hw : ∀ c ∈ kv.2.toList, ¬White c := by
    rcases hx with hx | hx
    · intro c hc hcw
      have ha : '&' ∉ (lineEnds kv.2.toList).map whiteToSpace := by
        intro ha
        obtain ⟨c, h2, h3⟩ := List.mem_map.mp ha
        unfold whiteToSpace at h3
        split at h3
        · exact absurd h3 (by decide)
        · subst h3
          rcases lineEnds_mem h2 with h2 | h2
          · exact h1 h2
          · exact absurd h2 (by decide)
      rw [C69_references_unique _ _ _ h.2.1 (standsFor_plain ha)] at hx
      obtain ⟨w, h2, h3⟩ := lineEnds_white ⟨c, hc, hcw⟩
      refine hx (List.mem_map.mpr ⟨w, h2, ?_⟩)
      unfold whiteToSpace
      split
      · rfl
      · next hn =>
        rcases h3 with h3 | h3 | h3 | h3
        · exact h3
        · exact absurd (.inl h3) hn
        · exact absurd (.inr (.inl h3)) hn
        · exact absurd (.inr (.inr h3)) hn
    · exact hx
  exact (standsFor_self h.2.1 h1 (fun m => hw _ m (by simp [White])) (fun m => hw _ m (by simp [White])) (fun m => hw _ m (by simp [White]))).symm

theorem attrs_lookup {k : String} (hk : "xmlns".toList.isPrefixOf k.toList = false) : ∀ {as : List (String × String)} {kvs : List (List Char × List Char)},
    Agree (AttrAs true) as (otherAttrs kvs) →
    (aget k as = none ∧ kvs.find? (fun kv => decide (kv.1 = k.toList)) = none) ∨
    ∃ kv x, aget k as = some kv.2 ∧ kvs.find? (fun kv => decide (kv.1 = k.toList)) = some x ∧ AttrAs true kv x := by
  intro as kvs
  induction kvs generalizing as with
  | nil =>
    intro h
    cases as with
    | nil => exact .inl ⟨rfl, rfl⟩
    | cons => exact h.elim
  | cons x kvs ih =>
    intro h
    unfold otherAttrs at h
    rw [List.filter_cons] at h
    split at h
    · cases as with
      | nil => exact h.elim
      | cons kv as =>
        by_cases e : x.1 = k.toList
        · have : kv.1 = k := String.toList_inj.mp (h.1.1.trans e)
          exact .inr ⟨kv, x, by obtain ⟨a, b⟩ := kv; simp only at this; simp [aget, this], by simp [e], h.1⟩
        · have : kv.1 ≠ k := fun e' => e (by rw [← h.1.1, e'])
          have ih' := ih h.2
          have : aget k (kv :: as) = aget k as := by obtain ⟨a, b⟩ := kv; simp only at this; simp [aget, this]
          rw [this, List.find?_cons_of_neg (by simpa using e)]
          exact ih'
    · next hn =>
      have e : x.1 ≠ k.toList := by
        intro e
        rw [e, hk] at hn
        exact hn rfl
      rw [List.find?_cons_of_neg (by simpa using e)]
      exact ih h

theorem attr_got {n : Node} {i : Item} (h : ReadAs true n i) {k : String} (hk : "xmlns".toList.isPrefixOf k.toList = false) :
    (n.attr? k = none ∧ i.attrOf k = none) ∨ ∃ kv x, n.attr? k = some kv.2 ∧ i.attrOf k = some x.2 ∧ AttrAs true kv x := by
  cases i with
  | text _ => cases n; rw [ReadAs] at h; exact h.elim
  | elem m kvs cs =>
    obtain ⟨tag, attrs, value, ch⟩ := n
    rw [ReadAs] at h
    have e : (Node.mk tag attrs value ch).attr? k = aget k (attrs.getD []) := by cases attrs <;> rfl
    rcases attrs_lookup hk h.2.1 with ⟨h1, h2⟩ | ⟨kv, x, h1, h2, h3⟩
    · exact .inl ⟨by rw [e, h1], by simp only [Item.attrOf, h2, Option.map_none]⟩
    · exact .inr ⟨kv, x, by rw [e, h1], by simp only [Item.attrOf, h2, Option.map_some], h3⟩

/-- An attribute whose value has no space. -/
theorem attr_same {n : Node} {i : Item} (h : ReadAs true n i) {k : String} (hk : "xmlns".toList.isPrefixOf k.toList = false)
    (hs : ∀ v, i.attrOf k = some v → ' ' ∉ v) : n.attr? k = (i.attrOf k).map String.ofList := by
  rcases attr_got h hk with ⟨h1, h2⟩ | ⟨kv, x, h1, h2, h3⟩
  · rw [h1, h2]; rfl
  · rw [h1, h2, Option.map_some, ← attr_exact h3 (.inl (hs _ h2)), String.ofList_toList]

/-! ## Texts -/

theorem sameLines_eq {s t : List Char} (h : SameLines s t) (hn : '\n' ∉ t) : s = t := by
  induction h with
  | nil => rfl
  | same _ ih => rw [ih (fun m => hn (by simp [m]))]
  | crlf => exact absurd (by simp) hn
  | cr => exact absurd (by simp) hn

theorem kept_clean {v : String} {t : List Char} (h : KeptOf v t) (ht : CleanText t) : v.toList = t := by
  obtain ⟨_, l, r, h1, h2, h3⟩ := h
  have e := sameLines_eq h3 ht.lines.1
  have hl : l = [] := by
    cases l with
    | nil => rfl
    | cons c l => exact absurd (h1 c (by simp)) (ht.first c _ (by rw [← e]; rfl))
  have hr : r = [] := by
    rcases List.eq_nil_or_concat r with hr | ⟨r', c, rfl⟩
    · exact hr
    · exact absurd (h2 c (by simp)) (ht.last (l ++ (v.toList ++ r')) c (by rw [← e]; simp))
  subst hl hr
  simpa using e

theorem clean_not_white {t : List Char} (ht : CleanText t) : ¬Whites t := by
  intro h
  cases t with
  | nil => exact ht.some rfl
  | cons c r => exact ht.first c r rfl (h c (by simp))

theorem clean_trimmed {v : String} (h : CleanText v.toList) : Trimmed v := by
  refine ⟨h.some, trimXml_of ⟨[], [], by simp, by simp, by simp, ?_, ?_⟩⟩
  · intro c hc
    cases e : v.toList with
    | nil => rw [e] at hc; cases hc
    | cons a r =>
      rw [e] at hc
      cases hc
      exact h.first _ _ e
  · intro c hc
    obtain ⟨l, hl⟩ := List.getLast?_eq_some_iff.mp hc
    exact h.last l c hl

/-- The value of an element with one clean text. -/
theorem text_read {f : Bool} {n : Node} {i : Item} (h : ReadAs f n i) (ht : HoldsText i) : (n.value.getD "").toList = i.words ∧ ∀ t, n.value = some t → Trimmed t := by
  obtain ⟨tag, attrs, value, ch⟩ := n
  obtain ⟨m, kvs, rfl | ⟨t, hc, rfl⟩⟩ := ht
  · rw [ReadAs] at h
    have hv := h.2.2.1
    simp only [textsOf] at hv
    cases value with
    | none => exact ⟨rfl, (fun _ h => nomatch h)⟩
    | some v => obtain ⟨a, t, b, e, _⟩ := hv; cases a <;> cases e
  · rw [ReadAs] at h
    have hv := h.2.2.1
    simp only [textsOf] at hv
    cases value with
    | none => exact absurd (hv t (by simp)) (clean_not_white hc)
    | some v =>
      obtain ⟨a, t', b, e, hk, _⟩ := hv
      have : t' = t := by
        cases a with
        | nil => cases e; rfl
        | cons => simp at e
      subst this
      have := kept_clean hk hc
      refine ⟨by simp [Node.value, Item.words, Item.chars, this], fun w hw => ?_⟩
      cases hw
      exact clean_trimmed (by rw [this]; exact hc)

/-! ## Cells -/

theorem text_of {f : Bool} {n : Node} {i : Item} (h : ReadAs f n i) {tag : String} (h1 : (i.kids tag).length ≤ 1) (h2 : ∀ c ∈ i.kids tag, HoldsText c) :
    (textOf tag n).toList = ((i.kids tag).map Item.words).flatten := by
  have hf := read_filter h tag
  unfold textOf childOf
  rw [← List.head?_filter]
  generalize n.children.filter (fun c => c.tag = tag) = as at hf
  generalize i.kids tag = bs at hf h1 h2
  match as, bs, hf with
  | [], [], _ => rfl
  | a :: as, b :: bs, hf =>
    have : bs = [] := by
      cases bs with
      | nil => rfl
      | cons => simp at h1
    subst this
    simpa using (text_read hf.1 (h2 b (by simp))).1

theorem stringWords_elements (i : Item) :
    stringWords i = i.elements.flatMap (fun i => if i.named "t" then i.words else if i.named "r" then (i.kids "t").flatMap Item.words else []) := by
  cases i with
  | text _ => rfl
  | elem n kvs cs =>
    simp only [stringWords, Item.elements]
    induction cs with
    | nil => rfl
    | cons x cs ih =>
      cases x with
      | text _ => simpa [Item.isElem, Item.named] using ih
      | elem => rw [List.filter_cons_of_pos (by rfl), List.flatMap_cons, List.flatMap_cons, ih]

theorem digits_space (k : Nat) : ' ' ∉ Nat.toDigits 10 k := by
  intro h
  exact absurd (isDigit_of_mem_decimal h) (by decide)

theorem named_other {i : Item} {a b : String} (h : i.named a = true) (hab : a ≠ b) : i.named b = false := by
  cases i with
  | text _ => rfl
  | elem n kvs cs =>
    simp only [Item.named, decide_eq_true_eq] at h
    simp only [Item.named, h, decide_eq_false_iff_not]
    exact fun e => hab (String.toList_inj.mp e)

theorem ref_space {t : List Char} {row col : Nat} (h : RefText t row col) : ' ' ∉ t := by
  obtain ⟨l, rfl, _, h3, _⟩ := h
  intro hm
  rcases List.mem_append.mp hm with hm | hm
  · exact absurd (h3 _ hm) (by unfold isUpperLetter; decide)
  · exact digits_space _ hm

theorem tags_once {l : List Node} (h : ∀ c ∈ l, c.tag = "v" ∨ c.tag = "f") (h1 : (l.filter (fun c => c.tag = "v")).length ≤ 1)
    (h2 : (l.filter (fun c => c.tag = "f")).length ≤ 1) : (l.map Node.tag).Nodup := by
  induction l with
  | nil => exact List.nodup_nil
  | cons c l ih =>
    have key : ∀ t, c.tag = t → ((c :: l).filter (fun c => c.tag = t)).length ≤ 1 → t ∉ l.map Node.tag := by
      intro t e hle hm
      obtain ⟨m, hm, e'⟩ := List.mem_map.mp hm
      rw [List.filter_cons_of_pos (by simpa using e), List.length_cons] at hle
      have : m ∈ l.filter (fun c => c.tag = t) := List.mem_filter.mpr ⟨hm, by simpa using e'⟩
      have := List.length_pos_of_mem this
      omega
    have hle : ∀ t, ((c :: l).filter (fun c => c.tag = t)).length ≤ 1 → (l.filter (fun c => c.tag = t)).length ≤ 1 := by
      intro t ht
      rw [List.filter_cons] at ht
      split at ht
      · simp only [List.length_cons] at ht; omega
      · exact ht
    rw [List.map_cons, List.nodup_cons]
    refine ⟨?_, ih (fun c hc => h c (by simp [hc])) (hle _ h1) (hle _ h2)⟩
    rcases h c (by simp) with e | e
    · rw [e]; exact key _ e h1
    · rw [e]; exact key _ e h2

theorem cell_read {row : Nat} {n : Node} {i : Item} (h : ReadAs true n i) (hc : CommonCell row i) (rowItem : Item) :
    PlainCell row n ∧ n.attr? "r" = (i.attrOf "r").map String.ofList ∧ ShownAs (shown n) (seenCell rowItem i) := by
  obtain ⟨t, col, hr, htx, hle⟩ := hc.ref
  have er : n.attr? "r" = (i.attrOf "r").map String.ofList :=
    attr_same h (by decide +kernel) (fun v hv => by rw [hr] at hv; cases hv; exact ref_space htx)
  have es : n.attr? "s" = (i.attrOf "s").map String.ofList :=
    attr_same h (by decide +kernel) (fun v hv => by obtain ⟨k, rfl⟩ := hc.style v hv; exact digits_space k)
  have htype : ∀ v ∈ ["b", "e", "n", "s", "str", "inlineStr"].map String.toList, ' ' ∉ v := by decide +kernel
  have et : n.attr? "t" = (i.attrOf "t").map String.ofList := attr_same h (by decide +kernel) (fun v hv => htype v (hc.type v hv))
  have ei : ∀ k ∈ ["cm", "vm"], n.attr? k = (i.attrOf k).map String.ofList := fun k hk => by
    refine attr_same h ?_ (fun v hv => by obtain ⟨k, rfl⟩ := hc.indices k hk v hv; exact digits_space k)
    simp only [List.mem_cons, List.not_mem_nil, or_false] at hk
    rcases hk with rfl | rfl <;> decide +kernel
  have hof : ∀ k : Nat, String.ofList (Nat.toDigits 10 k) = toString k := fun k => by rw [← toList_toString_nat, String.ofList_toList]
  have einl : n.attr? "t" = some "inlineStr" ↔ i.attrOf "t" = some "inlineStr".toList := by
    rw [et]
    cases i.attrOf "t" with
    | none => simp
    | some v =>
      simp only [Option.map_some, Option.some.injEq]
      constructor
      · intro e; rw [← e, String.toList_ofList]
      · intro e; rw [e, String.ofList_toList]
  have hph : n.attr? "ph" ≠ some "true" := by
    intro e
    rcases attr_got (k := "ph") h (by decide +kernel) with ⟨h1, _⟩ | ⟨kv, x, h1, h2, h3⟩
    · rw [e] at h1; cases h1
    · rw [e] at h1
      have e' := Option.some.inj h1
      have := attr_exact h3 (.inr (by rw [← e']; unfold White; decide +kernel))
      rw [← e'] at this
      exact hc.phonetic (by rw [h2, ← this])
  have hcont := hc.content
  have hmain : (if n.attr? "t" = some "inlineStr" then PlainInline n else PlainContent n) ∧ (textOf "f" n).toList = ((i.kids "f").map Item.words).flatten ∧
      ((childOf "f" n).bind Node.attrs).getD [] = [] ∧
      (if n.attr? "t" = some "inlineStr" then ((childOf "is" n).map inlineText).getD "" else textOf "v" n).toList =
        (if i.attrOf "t" = some "inlineStr".toList then (i.kids "is").flatMap stringWords else (i.kids "v").flatMap Item.words) := by
    by_cases hi : i.attrOf "t" = some "inlineStr".toList
    · rw [if_pos hi] at hcont
      rw [if_pos (einl.mpr hi), if_pos (einl.mpr hi), if_pos hi]
      obtain ⟨s, t, k1, k2, k3, k4, k5⟩ := hcont
      have a1 := read_kids h
      rw [k1] at a1
      have hkids : ∀ tag, i.kids tag = if s.named tag then [s] else [] := by
        intro tag
        rw [kids_elements, k1]
        simp [List.filter_cons]
      match hch : n.children, a1 with
      | [m], a1 =>
        have a2 := read_kids a1.1
        rw [k3] at a2
        match hch2 : m.children, a2 with
        | [w], a2 =>
          have m1 : m.tag = "is" := by simpa [k2] using read_named a1.1 "is"
          have w1 : w.tag = "t" := by simpa [k4] using read_named a2.1 "t"
          obtain ⟨g1, g2⟩ := text_read a2.1 k5
          have hf : s.named "f" = false := named_other k2 (by decide)
          refine ⟨?_, ?_, ?_, ?_⟩
          · obtain ⟨mt, ma, mv, mc⟩ := m
            obtain ⟨wt, wa, wv, wc⟩ := w
            simp only [Node.tag, Node.children, Node.value] at m1 w1 hch2 g2
            exact ⟨ma, mv, wa, wv, wc, by rw [hch, m1, hch2, w1], g2⟩
          · simp [textOf, childOf, hch, m1, hkids, hf]
          · simp [childOf, hch, m1]
          · rw [hkids, k2]
            have : inlineText m = w.value.getD "" := by
              unfold inlineText
              rw [hch2]
              simp [w1, String.join]
            simp [childOf, hch, m1, this, stringWords_elements, k3, k4, g1]
    · rw [if_neg hi] at hcont
      have hi' : ¬ n.attr? "t" = some "inlineStr" := fun e => hi (einl.mp e)
      rw [if_neg hi', if_neg hi', if_neg hi]
      obtain ⟨k1, k2, k3⟩ := hcont
      have hmem : ∀ tag, ∀ c ∈ i.kids tag, HoldsText c := fun tag c hc => by
        rw [kids_elements] at hc
        exact (k1 c (List.mem_filter.mp hc).1).1
      have a1 := read_kids h
      have hkind : ∀ c ∈ n.children, c.tag = "f" → c.attrs.getD [] = [] := by
        intro c hc e
        obtain ⟨b, hb, hcb⟩ := agree_left a1 c hc
        have hnb := read_named hcb "f"
        rw [e] at hnb
        rcases (k1 b hb).2 with hv | ⟨cs, rfl⟩
        · rw [named_other hv (by decide)] at hnb; simp at hnb
        · obtain ⟨_, attrs, _, _⟩ := c
          rw [ReadAs] at hcb
          have := hcb.2.1
          simp only [otherAttrs, List.filter_nil, Node.attrs] at this ⊢
          cases e : attrs.getD [] with
          | nil => rfl
          | cons => rw [e] at this; exact this.elim
      refine ⟨⟨?_, ?_, hkind, ?_⟩, text_of h k3 (hmem "f"), ?_, ?_⟩
      · intro c hc
        obtain ⟨b, hb, hcb⟩ := agree_left a1 c hc
        rcases (k1 b hb).2 with hv | ⟨cs, rfl⟩
        · exact .inl (by simpa [hv] using read_named hcb "v")
        · exact .inr (by simpa [Item.named] using read_named hcb "f")
      · refine tags_once ?_ ?_ ?_
        · intro c hc
          obtain ⟨b, hb, hcb⟩ := agree_left a1 c hc
          rcases (k1 b hb).2 with hv | ⟨cs, rfl⟩
          · exact .inl (by simpa [hv] using read_named hcb "v")
          · exact .inr (by simpa [Item.named] using read_named hcb "f")
        · rw [agree_length (read_filter h "v")]; exact k2
        · rw [agree_length (read_filter h "f")]; exact k3
      · intro c hc t ht
        obtain ⟨b, hb, hcb⟩ := agree_left a1 c hc
        exact (text_read hcb (k1 b hb).1).2 t ht
      · unfold childOf
        cases hf : n.children.find? (fun c => c.tag = "f") with
        | none => rfl
        | some m => exact hkind m (List.mem_of_find?_eq_some hf) (by simpa using List.find?_some hf)
      · rw [text_of h k2 (hmem "v"), List.flatMap_def]
  refine ⟨⟨?_, ?_, ?_, ?_, hph, hmain.1⟩, er, ?_⟩
  · exact ⟨_, col, by rw [er, hr]; rfl, by rw [String.toList_ofList]; exact htx, hle⟩
  · intro v hv
    rw [es] at hv
    obtain ⟨w, h1, rfl⟩ := Option.map_eq_some_iff.mp hv
    obtain ⟨k, rfl⟩ := hc.style w h1
    exact ⟨k, hof k⟩
  · intro v hv
    rw [et] at hv
    obtain ⟨w, h1, rfl⟩ := Option.map_eq_some_iff.mp hv
    obtain ⟨x, hx, rfl⟩ := List.mem_map.mp (hc.type w h1)
    rw [String.ofList_toList]
    exact hx
  · intro k hk v hv
    rw [ei k hk] at hv
    obtain ⟨w, h1, rfl⟩ := Option.map_eq_some_iff.mp hv
    obtain ⟨j, rfl⟩ := hc.indices k hk w h1
    exact ⟨j, hof j⟩
  · refine ⟨?_, ?_, ?_, hmain.2.1, hmain.2.2.1, hmain.2.2.2⟩
    · simp only [shown, seenCell, er, hr]
      simp
    · simp only [shown, seenCell, es]
      cases i.attrOf "s" <;> simp
    · simp only [shown, seenCell, et]
      cases i.attrOf "t" <;> simp

/-! ## The sheet -/

theorem sheet_read {x : XDoc} {root : Node} {sheet : Item} (hx : x.root = some root) (h : ReadAs true root sheet) (hc : CommonSheet sheet) :
    PlainSheet x ∧ (∀ n ∈ cellElements x, ∃ c ∈ seenCells sheet, ShownAs (shown n) c) ∧ ∀ c ∈ seenCells sheet, ∃ n ∈ cellElements x, ShownAs (shown n) c := by
  have hch : x.rootChildren = root.children := by unfold XDoc.rootChildren; rw [hx]
  have hd := read_filter h "sheetData"
  rw [← hch] at hd
  have hrow : ∀ n i row, ReadAs true n i → i.attrOf "r" = some (Nat.toDigits 10 row) → n.attr? "r" = some (toString row) := by
    intro n i row hni hr
    rw [attr_same hni (by decide +kernel) (fun v hv => by rw [hr] at hv; cases hv; exact digits_space row), hr, Option.map_some, ← toList_toString_nat, String.ofList_toList]
  have hkids : ∀ (d : Item) (tag : String), (∀ r ∈ d.elements, r.named tag = true) → d.kids tag = d.elements := by
    intro d tag hr
    rw [kids_elements, List.filter_eq_self.mpr hr]
  have hinj : ∀ (l : List Item) (f : Item → Option String), (∀ i ∈ l, f i = (i.attrOf "r").map String.ofList) → (l.map (Item.attrOf "r")).Nodup → (l.map f).Nodup := by
    intro l f hf hn
    rw [List.map_congr_left hf]
    rw [List.Nodup, List.pairwise_map] at hn ⊢
    refine hn.imp (fun hne e => hne ?_)
    rename_i a b
    cases ha : a.attrOf "r" <;> cases hb : b.attrOf "r" <;> rw [ha, hb] at e <;> simp at e
    · have := congrArg String.toList e
      rw [String.toList_ofList, String.toList_ofList] at this
      rw [this]
  refine ⟨⟨?_, ?_, ?_⟩, ?_, ?_⟩
  · rw [agree_length hd]; exact hc.one
  · intro n hn
    obtain ⟨dn, h1, h2⟩ := List.mem_flatMap.mp hn
    obtain ⟨d, h3, h4⟩ := agree_left hd dn h1
    obtain ⟨r, h5, h6⟩ := agree_left (read_kids h4) n h2
    obtain ⟨_, row, h7, h8, h9⟩ := hc.rows d h3 r h5
    refine ⟨row, hrow n r row h6 h7, ?_, ?_⟩
    · intro c hcn
      obtain ⟨i, h10, h11⟩ := agree_left (read_kids h6) c hcn
      exact (cell_read h11 (h8 i h10).2 r).1
    · rw [agree_map (f := fun c => c.attr? "r") (g := fun i => (i.attrOf "r").map String.ofList) (read_kids h6) (fun a b hb hab => (cell_read hab (h8 b hb).2 r).2.1)]
      exact hinj _ _ (fun _ _ => rfl) h9
  · unfold rowElements
    generalize x.rootChildren.filter (fun n => n.tag = "sheetData") = as at hd
    have hone := hc.one
    have hrows := hc.rows
    have hdis := hc.distinct
    generalize sheet.kids "sheetData" = bs at hd hone hrows hdis
    match as, bs, hd with
    | [], [], _ => exact List.nodup_nil
    | a :: as, b :: bs, hd =>
      have hbs : bs = [] := by
        cases bs with
        | nil => rfl
        | cons => simp at hone
      subst hbs
      have has : as = [] := by
        have := agree_length hd.2
        simpa using this
      subst has
      simp only [List.flatMap_cons, List.flatMap_nil, List.append_nil]
      rw [agree_map (f := fun c => c.attr? "r") (g := fun i => (i.attrOf "r").map String.ofList) (read_kids hd.1) (fun n r hr hnr => by
        obtain ⟨_, row, h7, _⟩ := hrows b (by simp) r hr
        rw [hrow n r row hnr h7, h7, Option.map_some, ← toList_toString_nat, String.ofList_toList])]
      exact hinj _ _ (fun _ _ => rfl) (hdis b (by simp))
  · intro n hn
    obtain ⟨rn, h1, h2⟩ := List.mem_flatMap.mp hn
    obtain ⟨dn, h3, h4⟩ := List.mem_flatMap.mp h1
    obtain ⟨d, h5, h6⟩ := agree_left hd dn h3
    obtain ⟨r, h7, h8⟩ := agree_left (read_kids h6) rn h4
    obtain ⟨i, h9, h10⟩ := agree_left (read_kids h8) n h2
    obtain ⟨g1, row, g2, g3, g4⟩ := hc.rows d h5 r h7
    refine ⟨seenCell r i, ?_, (cell_read h10 (g3 i h9).2 r).2.2⟩
    refine List.mem_flatMap.mpr ⟨r, List.mem_flatMap.mpr ⟨d, h5, ?_⟩, List.mem_map.mpr ⟨i, ?_, rfl⟩⟩
    · rw [hkids d "row" (fun r hr => (hc.rows d h5 r hr).1)]; exact h7
    · rw [hkids r "c" (fun c hc => (g3 c hc).1)]; exact h9
  · intro c hcs
    obtain ⟨r, h1, h2⟩ := List.mem_flatMap.mp hcs
    obtain ⟨i, h3, rfl⟩ := List.mem_map.mp h2
    obtain ⟨d, h4, h5⟩ := List.mem_flatMap.mp h1
    rw [hkids d "row" (fun r hr => (hc.rows d h4 r hr).1)] at h5
    obtain ⟨g1, row, g2, g3, g4⟩ := hc.rows d h4 r h5
    rw [hkids r "c" (fun c hc => (g3 c hc).1)] at h3
    obtain ⟨dn, k1, k2⟩ := agree_right hd d h4
    obtain ⟨rn, k3, k4⟩ := agree_right (read_kids k2) r h5
    obtain ⟨n, k5, k6⟩ := agree_right (read_kids k4) i h3
    exact ⟨n, List.mem_flatMap.mpr ⟨rn, List.mem_flatMap.mpr ⟨dn, k1, k3⟩, k5⟩, (cell_read k6 (g3 i h3).2 r).2.2⟩

/-! ## Loaded cells -/

/-- What the loader makes of a plain cell: texts as they stand in the file, a type the format knows. -/
theorem loadCell_exact {env : Env} {row col : Nat} {n : Node} {x : CellProps} (hp : PlainCell row n) (h : loadCell env n = .ok (col, x)) :
    (∀ t, x.value = some t → Trimmed t) ∧ (∀ t, x.formula = some t → Trimmed t) ∧ (x.type = .inlineString → x.formula = none) ∧ x.type ≠ .auto := by
  unfold loadCell at h
  cases ha : n.attrs with
  | none => rw [ha] at h; cases h
  | some a =>
  rw [ha] at h
  simp only at h
  split at h
  · cases h
  split at h
  · cases h
  split at h
  case h_2 => cases h
  next st cm _ _ =>
  split at h
  · cases h
  next x' hc =>
  cases h
  have hat := attr?_eq ha
  have hty : ∀ v, aget "t" a = some v → v ∈ ["b", "e", "n", "s", "str", "inlineStr"] := fun v hv => hp.type v (by rw [hat, hv])
  have einl : (aget "t" a = some "inlineStr" ↔ ((aget "t" a).map CellType.parse).getD .number = .inlineString) ∧
      ((aget "t" a).map CellType.parse).getD .number ≠ .auto := by
    cases ht : aget "t" a with
    | none => simp
    | some v =>
      have := hty v ht
      simp only [List.mem_cons, List.not_mem_nil, or_false] at this
      rcases this with rfl | rfl | rfl | rfl | rfl | rfl <;> decide +kernel
  have hcont := hp.content
  rw [hat] at hcont
  by_cases hi : aget "t" a = some "inlineStr"
  · rw [if_pos hi] at hcont
    obtain ⟨a', w, b, tx, cs, hch, htr⟩ := hcont
    rw [hch] at hc
    simp only [loadCellChildren, loadCellChild, Node.tag, Node.children, List.head?_cons, Node.value] at hc
    have : x = { cellOfAttrs a st cm with value := tx } := by
      simpa using (Except.ok.inj hc).symm
    subst this
    exact ⟨htr, (fun _ h => nomatch h), fun _ => rfl, einl.2⟩
  · rw [if_neg hi] at hcont
    have hi' : ((aget "t" a).map CellType.parse).getD .number ≠ .inlineString := fun e => hi (einl.1.mpr e)
    have := loadCellChildren_plain hc hcont.tags hcont.once
    subst this
    refine ⟨?_, ?_, fun e => absurd e hi', einl.2⟩
    · intro t ht
      simp only at ht
      split at ht
      · cases ht
      · next m hm => exact hcont.texts m (List.mem_of_find?_eq_some hm) t ht
    · intro t ht
      simp only at ht
      split at ht
      · cases ht
      · next m hm => exact hcont.texts m (List.mem_of_find?_eq_some hm) t ht

/-- A cell of a loaded sheet comes from a cell element. -/
theorem loaded_from {env : Env} {x x' : XDoc} {sh : Sheet} (h : Sheet.load env x = (.ok sh, x')) (hp : PlainSheet x) {r c : Nat} {y : CellProps}
    (hy : cellAt sh r c = some y) : ∃ row n, PlainCell row n ∧ loadCell env n = .ok (c, y) := by
  obtain ⟨_, hd, _, _⟩ := load_ok h
  have hrows := rowElements_last hp.one
  unfold dataOf at hd
  cases hl : (x.rootChildren.filter (fun n => n.tag = "sheetData")).getLast? with
  | none =>
    rw [hl] at hd
    have e1 := (Prod.mk.inj (Except.ok.inj hd)).1
    simp [cellAt, ← e1] at hy
  | some nd =>
    rw [hl] at hd hrows
    simp only at hd hrows
    split at hd
    · cases hd
    next rows hm =>
    have e1 := (Prod.mk.inj (Except.ok.inj hd)).1
    rw [← hrows] at hm
    unfold cellAt at hy
    rw [← e1] at hy
    simp only at hy
    split at hy
    · cases hy
    next rd hrd =>
    obtain ⟨⟨r', p, cs⟩, hm', e⟩ := List.mem_map.mp (mem_of_aget_extendMap hrd)
    cases e
    simp only [rowDataOf] at hy
    split at hy
    · cases hy
    next cs' hcs' =>
    split at hcs'
    · cases hcs'
      have hin := mem_of_aget_extendMap hy
      obtain ⟨n, hn, hl⟩ := mapRes_mem hm _ hm'
      obtain ⟨row, _, h2, _⟩ := hp.rows n hn
      unfold loadRow at hl
      split at hl
      · cases hl
      split at hl
      · cases hl
      split at hl
      · cases hl
      split at hl
      · cases hl
      split at hl
      · cases hl
      next cs'' hcs =>
      cases hl
      obtain ⟨cn, hcn, hlc⟩ := mapRes_mem hcs _ hin
      exact ⟨row, cn, h2 cn hcn, hlc⟩
    · cases hcs'

/-- The element of a cell says what another program sees; so does the loaded cell. -/
theorem held_of {ref : String} {y : CellProps} {c : SeenCell} (h : ShownAs (shownOf ref y) c) (h1 : ∀ t, y.value = some t → Trimmed t)
    (h2 : ∀ t, y.formula = some t → Trimmed t) (h3 : y.type = .inlineString → y.formula = none) (h4 : y.type ≠ .auto) : HeldAs y c := by
  refine ⟨?_, ?_, ?_, ?_⟩
  · rw [← h.style]
    simp only [shownOf]
    cases y.style with
    | none => decide +kernel
    | some k => simp
  · rw [← h.type]
    simp only [shownOf]
    cases e : y.type <;> first | rfl | exact absurd e h4
  · rw [← h.formula]
    simp only [shownOf]
    split
    · next e => rw [h3 e]; rfl
    · rw [bind_reload_of_trimmed h2]
  · rw [← h.value]
    simp only [shownOf]
    rw [bind_reload_of_trimmed h1]

/-- **C109**, one document. -/
theorem sheet_held {env : Env} {x x' : XDoc} {sh : Sheet} {root : Node} {sheet : Item} (hx : x.root = some root) (h : ReadAs true root sheet) (hc : CommonSheet sheet)
    (hl : Sheet.load env x = (.ok sh, x')) (r c : Nat) (ref : List Char) (hr : RefText ref r c) :
    (∀ sc ∈ seenCells sheet, sc.ref = some ref → ∃ y, cellAt sh r c = some y ∧ HeldAs y sc) ∧
    (∀ y, cellAt sh r c = some y → ∃ sc ∈ seenCells sheet, sc.ref = some ref ∧ HeldAs y sc) := by
  obtain ⟨hp, h1, h2⟩ := sheet_read hx h hc
  have hs := load_shown hl hp
  have hex : ∀ y, cellAt sh r c = some y → (∀ t, y.value = some t → Trimmed t) ∧ (∀ t, y.formula = some t → Trimmed t) ∧
      (y.type = .inlineString → y.formula = none) ∧ y.type ≠ .auto := fun y hy => by
    obtain ⟨row, n, k1, k2⟩ := loaded_from hl hp hy
    exact loadCell_exact k1 k2
  have href := refText_eq (t := String.ofList ref) (by rw [String.toList_ofList]; exact hr)
  have href' : (cellRef r c).toList = ref := by rw [← href.1, String.toList_ofList]
  constructor
  · intro sc hsc he
    obtain ⟨n, hn, hv⟩ := h2 sc hsc
    obtain ⟨r', c', y, hc', hy, e⟩ := (hs (shown n)).mp (List.mem_map_of_mem hn)
    rw [e] at hv
    have := hv.ref
    rw [he] at this
    simp only [shownOf, Option.map_some, Option.some.injEq] at this
    obtain ⟨rfl, rfl⟩ := refText_inj (cellRef_text (row := r') hc') (by rw [this]; exact hr)
    obtain ⟨e1, e2, e3, e4⟩ := hex y hy
    exact ⟨y, hy, held_of hv e1 e2 e3 e4⟩
  · intro y hy
    obtain ⟨n, hn, e⟩ := List.mem_map.mp ((hs _).mpr ⟨r, c, y, href.2, hy, rfl⟩)
    obtain ⟨sc, hsc, hv⟩ := h1 n hn
    rw [e] at hv
    obtain ⟨e1, e2, e3, e4⟩ := hex y hy
    exact ⟨sc, hsc, by rw [← hv.ref]; simp [shownOf, href'], held_of hv e1 e2 e3 e4⟩

end Oxml
