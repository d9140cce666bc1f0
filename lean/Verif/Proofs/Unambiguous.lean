import Verif.Proofs.WellFormed
/-!
# The grammar of XML is unambiguous (C102)

A text is well-formed in one way only, so every program that follows the recommendation finds the same root element in it.
-/
namespace Oxml
open Spec

/-! ## Pieces -/

theorem span_unique {P : Char → Prop} {s s' r r' : List Char} (h1 : ∀ c ∈ s, P c) (h2 : ∀ c ∈ s', P c) (hr : ∀ c, r.head? = some c → ¬P c)
    (hr' : ∀ c, r'.head? = some c → ¬P c) (e : s ++ r = s' ++ r') : s = s' ∧ r = r' := by
  induction s generalizing s' with
  | nil =>
    cases s' with
    | nil => exact ⟨rfl, e⟩
    | cons a l =>
      rw [List.nil_append] at e
      exact absurd (h2 a (List.mem_cons_self ..)) (hr a (by rw [e]; rfl))
  | cons a l ih =>
    cases s' with
    | nil =>
      rw [List.nil_append] at e
      exact absurd (h1 a (List.mem_cons_self ..)) (hr' a (by rw [← e]; rfl))
    | cons b l' =>
      obtain ⟨rfl, e1⟩ := List.cons.inj e
      obtain ⟨rfl, e2⟩ := ih (fun c hc => h1 c (List.mem_cons_of_mem _ hc)) (fun c hc => h2 c (List.mem_cons_of_mem _ hc)) e1
      exact ⟨rfl, e2⟩

/-- Splitting before the first character outside a class. -/
theorem span_at {P : Char → Prop} {s s' t t' : List Char} {x x' : Char} (h1 : ∀ c ∈ s, P c) (h2 : ∀ c ∈ s', P c) (hx : ¬P x) (hx' : ¬P x')
    (e : s ++ x :: t = s' ++ x' :: t') : s = s' ∧ x = x' ∧ t = t' := by
  obtain ⟨rfl, e1⟩ := span_unique h1 h2 (by rintro c ⟨⟩; exact hx) (by rintro c ⟨⟩; exact hx') e
  obtain ⟨rfl, rfl⟩ := List.cons.inj e1
  exact ⟨rfl, rfl, rfl⟩

theorem nameStart_not {c : Char} (h : NameStart c) : ¬White c ∧ c ≠ '=' ∧ c ≠ '>' ∧ c ≠ '/' ∧ c ≠ '?' ∧ c ≠ '!' ∧ c ≠ '<' ∧ c ≠ '"' ∧ c ≠ '\'' := by
  have big : ∀ (d : Char), d.toNat < 0x80 → d ≠ ':' → d ≠ '_' → d.isAlpha = false → c ≠ d := by
    rintro d hd h1 h2 h3 rfl
    rcases h with h | h | h | ⟨r, hr, h4, _⟩
    · exact h1 h
    · exact h2 h
    · rw [h3] at h; cases h
    · simp only [List.mem_cons, List.not_mem_nil, or_false] at hr
      rcases hr with rfl | rfl | rfl | rfl | rfl | rfl | rfl | rfl | rfl | rfl | rfl | rfl <;> (simp only at h4; omega)
  refine ⟨?_, ?_, ?_, ?_, ?_, ?_, ?_, ?_, ?_⟩
  · rintro (h | h | h | h)
    · exact big ' ' (by decide) (by decide) (by decide) (by decide) h
    · exact big '\t' (by decide) (by decide) (by decide) (by decide) h
    · exact big '\n' (by decide) (by decide) (by decide) (by decide) h
    · exact big '\r' (by decide) (by decide) (by decide) (by decide) h
  all_goals exact big _ (by decide) (by decide) (by decide) (by decide)

theorem nameChar_not {c : Char} (h : NameChar c) : ¬White c ∧ c ≠ '=' ∧ c ≠ '>' ∧ c ≠ '/' ∧ c ≠ '?' ∧ c ≠ '!' ∧ c ≠ '<' := by
  have big : ∀ (d : Char), d.toNat < 0x80 → d ≠ '-' → d ≠ '.' → d.isDigit = false → ¬NameStart d → c ≠ d := by
    rintro d hd h1 h2 h3 h4 rfl
    rcases h with h | h | h | h | h | h | h
    · exact h4 h
    · exact h1 h
    · exact h2 h
    · rw [h3] at h; cases h
    · omega
    · omega
    · omega
  have ns := fun (d : Char) (h : NameStart d) => nameStart_not h
  refine ⟨?_, ?_, ?_, ?_, ?_, ?_, ?_⟩
  · intro hw
    rcases id hw with h | h | h | h
    · exact big ' ' (by decide) (by decide) (by decide) (by decide) (fun h => (ns _ h).1 (.inl rfl)) h
    · exact big '\t' (by decide) (by decide) (by decide) (by decide) (fun h => (ns _ h).1 (.inr (.inl rfl))) h
    · exact big '\n' (by decide) (by decide) (by decide) (by decide) (fun h => (ns _ h).1 (.inr (.inr (.inl rfl)))) h
    · exact big '\r' (by decide) (by decide) (by decide) (by decide) (fun h => (ns _ h).1 (.inr (.inr (.inr rfl)))) h
  · exact big _ (by decide) (by decide) (by decide) (by decide) (fun h => (ns _ h).2.1 rfl)
  · exact big _ (by decide) (by decide) (by decide) (by decide) (fun h => (ns _ h).2.2.1 rfl)
  · exact big _ (by decide) (by decide) (by decide) (by decide) (fun h => (ns _ h).2.2.2.1 rfl)
  · exact big _ (by decide) (by decide) (by decide) (by decide) (fun h => (ns _ h).2.2.2.2.1 rfl)
  · exact big _ (by decide) (by decide) (by decide) (by decide) (fun h => (ns _ h).2.2.2.2.2.1 rfl)
  · exact big _ (by decide) (by decide) (by decide) (by decide) (fun h => (ns _ h).2.2.2.2.2.2.1 rfl)

theorem name_chars {n : List Char} (h : XmlName n) : ∀ c ∈ n, NameChar c := by
  obtain ⟨a, l, rfl, h1, h2⟩ := h
  intro c hc
  rcases List.mem_cons.mp hc with rfl | hc
  · exact .inl h1
  · exact h2 c hc

/-- White space, then a character that is no white space and is in no name. -/
def Closes (s : List Char) : Prop := ∃ sp c t, s = sp ++ c :: t ∧ Whites sp ∧ ¬White c ∧ ¬NameChar c

theorem attr_unique {s s' r r' : List Char} {kv kv' : List Char × List Char} (h : IsAttr s kv) (h' : IsAttr s' kv') (e : s ++ r = s' ++ r') :
    s = s' ∧ kv = kv' ∧ r = r' := by
  obtain ⟨k, v⟩ := kv
  obtain ⟨k', v'⟩ := kv'
  obtain ⟨sep, l, w, q, raw, rfl, a1, a2, a3, a4, a5, a6, a7, a8, a9, a10, a11⟩ := h
  obtain ⟨sep', l', w', q', raw', rfl, b1, b2, b3, b4, b5, b6, b7, b8, b9, b10, b11⟩ := h'
  simp only [List.append_assoc, List.cons_append, List.nil_append] at e a3 b3 a10 b10 ⊢
  obtain ⟨x, y, rfl, hx, hy⟩ := id a3
  obtain ⟨x', y', rfl, hx', hy'⟩ := id b3
  obtain ⟨rfl, rfl, e1⟩ := span_at a1 b1 (nameStart_not hx).1 (nameStart_not hx').1 e
  have hl : ∀ (u : List Char) (z : List Char), Whites u → ∀ c, (u ++ '=' :: z).head? = some c → ¬NameChar c := by
    intro u z hu c hc hn
    cases u with
    | nil => cases hc; exact (nameChar_not hn).2.1 rfl
    | cons d u => cases hc; exact (nameChar_not hn).1 (hu _ (List.mem_cons_self ..))
  obtain ⟨rfl, e2⟩ := span_unique (P := NameChar) hy hy' (hl _ _ a4) (hl _ _ b4) e1
  have heq : ¬White '=' := by unfold White; decide
  obtain ⟨rfl, _, e3⟩ := span_at a4 b4 heq heq e2
  have hq : ∀ c, c = '"' ∨ c = '\'' → ¬White c := by rintro c (rfl | rfl) <;> (unfold White; decide)
  obtain ⟨rfl, rfl, e4⟩ := span_at a5 b5 (hq _ a6) (hq _ b6) e3
  obtain ⟨rfl, _, e5⟩ := span_at (P := fun c => c ≠ q) (fun c hc e => a7 (e ▸ hc)) (fun c hc e => b7 (e ▸ hc)) (fun h => h rfl) (fun h => h rfl) e4
  obtain rfl := C69_references_unique _ _ _ a10 b10
  exact ⟨rfl, rfl, e5⟩

theorem attr_head {s : List Char} {kv : List Char × List Char} (h : IsAttr s kv) : ∃ sep c t, s = sep ++ c :: t ∧ Whites sep ∧ sep ≠ [] ∧ NameStart c := by
  obtain ⟨sep, l, w, q, raw, rfl, a1, a2, a3, _⟩ := h
  obtain ⟨x, y, hk, hx, hy⟩ := a3
  exact ⟨sep, x, y ++ l ++ '=' :: (w ++ q :: (raw ++ [q])), by rw [hk]; simp, a1, a2, hx⟩

theorem attrs_unique {a a' r r' : List Char} {kvs kvs' : List (List Char × List Char)} (h : IsAttrs a kvs) (h' : IsAttrs a' kvs') (hr : Closes r) (hr' : Closes r')
    (e : a ++ r = a' ++ r') : a = a' ∧ kvs = kvs' ∧ r = r' := by
  have clash : ∀ {s kv ss r r'}, IsAttr s kv → Closes r' → s ++ ss ++ r = [] ++ r' → False := by
    intro s kv ss r r' hs hr e
    obtain ⟨sep, c, t, rfl, h1, _, h3⟩ := attr_head hs
    obtain ⟨sp, d, u, rfl, g1, g2, g3⟩ := hr
    simp only [List.append_assoc, List.cons_append, List.nil_append] at e
    obtain ⟨_, rfl, _⟩ := span_at h1 g1 (nameStart_not h3).1 g2 e
    exact g3 (.inl h3)
  induction h generalizing a' kvs' with
  | nil =>
    cases h' with
    | nil => exact ⟨rfl, rfl, e⟩
    | cons h1 h2 => exact (clash h1 hr e.symm).elim
  | cons h1 h2 ih =>
    cases h' with
    | nil => exact (clash h1 hr' e).elim
    | cons g1 g2 =>
      rw [List.append_assoc, List.append_assoc] at e
      obtain ⟨rfl, rfl, e1⟩ := attr_unique h1 g1 e
      obtain ⟨rfl, rfl, e2⟩ := ih g2 e1
      exact ⟨rfl, rfl, e2⟩

theorem comment_unique {s s' r r' : List Char} (h : IsComment s) (h' : IsComment s') (e : s ++ r = s' ++ r') : s = s' ∧ r = r' := by
  obtain ⟨t, rfl, h1, h2, h3⟩ := h
  obtain ⟨t', rfl, g1, g2, g3⟩ := h'
  have e' : t ++ '-' :: '-' :: '>' :: r = t' ++ '-' :: '-' :: '>' :: r' := by
    have : "<!--".toList ++ (t ++ '-' :: '-' :: '>' :: r) = "<!--".toList ++ (t' ++ '-' :: '-' :: '>' :: r') := by
      have e1 : "-->".toList = ['-', '-', '>'] := by decide
      rw [e1] at e
      simpa only [List.append_assoc, List.cons_append, List.nil_append] using e
    exact List.append_cancel_left this
  have : t = t' := by
    clear e
    induction t generalizing t' with
    | nil =>
      match t', g2, g3, e' with
      | [], _, _, _ => rfl
      | [a], _, g3, e' => 
        simp only [List.nil_append, List.cons_append, List.cons.injEq] at e'
        exact (g3 [] (by rw [← e'.1]; rfl)).elim
      | a :: b :: l, g2, _, e' =>
        simp only [List.nil_append, List.cons_append, List.cons.injEq] at e'
        exact (g2 [] l (by rw [← e'.1, ← e'.2.1]; rfl)).elim
    | cons x t ih =>
      cases t' with
      | nil =>
        cases t with
        | nil =>
          simp only [List.nil_append, List.cons_append, List.cons.injEq] at e'
          exact (h3 [] (by rw [e'.1]; rfl)).elim
        | cons y l =>
          simp only [List.nil_append, List.cons_append, List.cons.injEq] at e'
          exact (h2 [] l (by rw [e'.1, e'.2.1]; rfl)).elim
      | cons x' t' =>
        obtain ⟨rfl, e1⟩ := List.cons.inj e'
        congr 1
        exact ih (fun c hc => h1 c (List.mem_cons_of_mem _ hc)) (fun l r e => h2 (x :: l) r (by rw [e]; rfl)) (fun l e => h3 (x :: l) (by rw [e]; rfl)) t'
          (fun c hc => g1 c (List.mem_cons_of_mem _ hc)) (fun l r e => g2 (x :: l) r (by rw [e]; rfl)) (fun l e => g3 (x :: l) (by rw [e]; rfl)) e1
  subst this
  exact ⟨rfl, List.append_cancel_left e⟩

theorem until_pi {t t' r r' : List Char} (h : ∀ l u, t ≠ l ++ '?' :: '>' :: u) (h' : ∀ l u, t' ≠ l ++ '?' :: '>' :: u)
    (e : t ++ '?' :: '>' :: r = t' ++ '?' :: '>' :: r') : t = t' ∧ r = r' := by
  induction t generalizing t' with
  | nil =>
    match t', h', e with
    | [], _, e => exact ⟨rfl, by simpa using e⟩
    | [a], _, e => simp at e
    | a :: b :: l, h', e =>
      simp only [List.nil_append, List.cons_append, List.cons.injEq] at e
      exact (h' [] l (by rw [← e.1, ← e.2.1]; rfl)).elim
  | cons x t ih =>
    cases t' with
    | nil =>
      cases t with
      | nil => simp at e
      | cons y l =>
        simp only [List.nil_append, List.cons_append, List.cons.injEq] at e
        exact (h [] l (by rw [e.1, e.2.1]; rfl)).elim
    | cons x' t' =>
      obtain ⟨rfl, e1⟩ := List.cons.inj e
      obtain ⟨rfl, e2⟩ := ih (t' := t') (fun l r e => h (x :: l) r (by rw [e]; rfl)) (fun l r e => h' (x :: l) r (by rw [e]; rfl)) e1
      exact ⟨rfl, e2⟩

theorem until_cdata {t t' r r' : List Char} (h : ∀ l u, t ≠ l ++ ']' :: ']' :: '>' :: u) (h' : ∀ l u, t' ≠ l ++ ']' :: ']' :: '>' :: u)
    (e : t ++ ']' :: ']' :: '>' :: r = t' ++ ']' :: ']' :: '>' :: r') : t = t' ∧ r = r' := by
  induction t generalizing t' with
  | nil =>
    match t', h', e with
    | [], _, e => exact ⟨rfl, by simpa using e⟩
    | [a], _, e => simp at e
    | [a, b], _, e => simp at e
    | a :: b :: c :: l, h', e =>
      simp only [List.nil_append, List.cons_append, List.cons.injEq] at e
      exact (h' [] l (by rw [← e.1, ← e.2.1, ← e.2.2.1]; rfl)).elim
  | cons x t ih =>
    cases t' with
    | nil =>
      match t, h, e with
      | [], _, e => simp at e
      | [a], _, e => simp at e
      | a :: b :: l, h, e =>
        simp only [List.nil_append, List.cons_append, List.cons.injEq] at e
        exact (h [] l (by rw [e.1, e.2.1, e.2.2.1]; rfl)).elim
    | cons x' t' =>
      obtain ⟨rfl, e1⟩ := List.cons.inj e
      obtain ⟨rfl, e2⟩ := ih (t' := t') (fun l r e => h (x :: l) r (by rw [e]; rfl)) (fun l r e => h' (x :: l) r (by rw [e]; rfl)) e1
      exact ⟨rfl, e2⟩

theorem pi_unique {s s' r r' : List Char} (h : IsPi s) (h' : IsPi s') (e : s ++ r = s' ++ r') : s = s' ∧ r = r' := by
  obtain ⟨n, t, rfl, h1, h2, h3, h4, h5⟩ := h
  obtain ⟨n', t', rfl, g1, g2, g3, g4, g5⟩ := h'
  have e1 : "?>".toList = ['?', '>'] := by decide
  have e' : n ++ (t ++ '?' :: '>' :: r) = n' ++ (t' ++ '?' :: '>' :: r') := by
    rw [e1] at e
    simp only [List.append_assoc, List.cons_append, List.nil_append] at e
    exact List.append_cancel_left e
  have hd : ∀ (u z : List Char), (u = [] ∨ ∃ c r, u = c :: r ∧ White c) → ∀ c, (u ++ '?' :: z).head? = some c → ¬NameChar c := by
    rintro u z (rfl | ⟨d, v, rfl, hw⟩) c hc hn
    · cases hc; exact (nameChar_not hn).2.2.2.2.1 rfl
    · cases hc; exact (nameChar_not hn).1 hw
  obtain ⟨rfl, e2⟩ := span_unique (P := NameChar) (name_chars h1) (name_chars g1) (hd _ _ h3) (hd _ _ g3) e'
  obtain ⟨rfl, rfl⟩ := until_pi h5 g5 e2
  exact ⟨rfl, rfl⟩

theorem cdata_unique {s s' t t' r r' : List Char} (h : IsCdata s t) (h' : IsCdata s' t') (e : s ++ r = s' ++ r') : s = s' ∧ t = t' ∧ r = r' := by
  obtain ⟨raw, rfl, h1, h2, rfl⟩ := h
  obtain ⟨raw', rfl, g1, g2, rfl⟩ := h'
  have e1 : "]]>".toList = [']', ']', '>'] := by decide
  have e' : raw ++ ']' :: ']' :: '>' :: r = raw' ++ ']' :: ']' :: '>' :: r' := by
    rw [e1] at e
    simp only [List.append_assoc, List.cons_append, List.nil_append] at e
    exact List.append_cancel_left e
  obtain ⟨rfl, rfl⟩ := until_cdata h2 g2 e'
  exact ⟨rfl, rfl, rfl⟩

/-! ## Content -/

/-- What kind of piece a text begins with. -/
def pieceKind : List Char → Nat
  | [] => 0
  | '<' :: '/' :: _ => 0
  | '<' :: '!' :: '-' :: _ => 3
  | '<' :: '?' :: _ => 4
  | '<' :: '!' :: '[' :: _ => 5
  | '<' :: _ => 2
  | _ => 1

theorem kind_text {s t r : List Char} (h : CharData s t) : pieceKind (s ++ r) = 1 := by
  cases s with
  | nil => exact absurd rfl h.nonempty
  | cons a l =>
    have : a ≠ '<' := fun e => h.noMarkup (e ▸ List.mem_cons_self ..)
    rw [List.cons_append]
    unfold pieceKind
    split <;> simp_all

theorem kind_elem {n r : List Char} (h : XmlName n) : pieceKind ('<' :: (n ++ r)) = 2 := by
  obtain ⟨c, cs, rfl, h1, _⟩ := h
  have := nameStart_not h1
  rw [List.cons_append]
  unfold pieceKind
  split <;> simp_all

theorem kind_comment {s r : List Char} (h : IsComment s) : pieceKind (s ++ r) = 3 := by
  obtain ⟨t, rfl, _⟩ := h
  rw [show "<!--".toList = ['<', '!', '-', '-'] from by decide]
  simp [pieceKind]

theorem kind_pi {s r : List Char} (h : IsPi s) : pieceKind (s ++ r) = 4 := by
  obtain ⟨n, t, rfl, _⟩ := h
  rw [show "<?".toList = ['<', '?'] from by decide]
  simp [pieceKind]

theorem kind_cdata {s t r : List Char} (h : IsCdata s t) : pieceKind (s ++ r) = 5 := by
  obtain ⟨n, rfl, _⟩ := h
  rw [show "<![CDATA[".toList = ['<', '!', '[', 'C', 'D', 'A', 'T', 'A', '['] from by decide]
  simp [pieceKind]

/-- The end of content: nothing more, or an end tag. -/
def Stop (r : List Char) : Prop := r = [] ∨ ∃ t, r = '<' :: '/' :: t

theorem kind_stop {r : List Char} (h : Stop r) : pieceKind r = 0 := by
  rcases h with rfl | ⟨t, rfl⟩ <;> rfl

theorem closes_of {sp t : List Char} {c : Char} (h : Whites sp) (hc : c = '>' ∨ c = '/' ∨ c = '?') : Closes (sp ++ c :: t) := by
  refine ⟨sp, c, t, rfl, h, ?_, ?_⟩
  · rcases hc with rfl | rfl | rfl <;> (unfold White; decide)
  · intro hn
    have := nameChar_not hn
    rcases hc with rfl | rfl | rfl <;> simp at this

/-- Name and attributes of a tag. -/
theorem tag_unique {n n' a a' r r' : List Char} {kvs kvs' : List (List Char × List Char)} (h1 : XmlName n) (h1' : XmlName n') (h2 : IsAttrs a kvs)
    (h2' : IsAttrs a' kvs') (hr : Closes r) (hr' : Closes r') (e : n ++ (a ++ r) = n' ++ (a' ++ r')) : n = n' ∧ a = a' ∧ kvs = kvs' ∧ r = r' := by
  have hd : ∀ {a r : List Char} {kvs}, IsAttrs a kvs → Closes r → ∀ c, (a ++ r).head? = some c → ¬NameChar c := by
    rintro a r kvs ha ⟨sp, d, t, rfl, h1, _, h2⟩ c hc
    cases ha with
    | nil =>
      cases sp with
      | nil => cases hc; exact h2
      | cons x sp => cases hc; exact fun hn => (nameChar_not hn).1 (h1 _ (List.mem_cons_self ..))
    | cons g1 g2 =>
      obtain ⟨sep, y, z, rfl, k1, k2, _⟩ := attr_head g1
      cases sep with
      | nil => exact absurd rfl k2
      | cons x sep => cases hc; exact fun hn => (nameChar_not hn).1 (k1 _ (List.mem_cons_self ..))
  obtain ⟨rfl, e1⟩ := span_unique (P := NameChar) (name_chars h1) (name_chars h1') (hd h2 hr) (hd h2' hr') e
  obtain ⟨rfl, rfl, e2⟩ := attrs_unique h2 h2' hr hr' e1
  exact ⟨rfl, rfl, rfl, e2⟩

theorem void_unique {n n' a a' sp sp' r r' : List Char} {kvs kvs' : List (List Char × List Char)} (h1 : XmlName n) (h1' : XmlName n') (h2 : IsAttrs a kvs)
    (h2' : IsAttrs a' kvs') (h3 : Whites sp) (h3' : Whites sp')
    (e : '<' :: (n ++ (a ++ (sp ++ '/' :: '>' :: r))) = '<' :: (n' ++ (a' ++ (sp' ++ '/' :: '>' :: r')))) :
    n = n' ∧ a = a' ∧ sp = sp' ∧ kvs = kvs' ∧ r = r' := by
  obtain ⟨rfl, rfl, rfl, e1⟩ := tag_unique h1 h1' h2 h2' (closes_of h3 (by simp)) (closes_of h3' (by simp)) (List.cons.inj e).2
  have hw : ¬White '/' := by unfold White; decide
  obtain ⟨rfl, _, e2⟩ := span_at h3 h3' hw hw e1
  exact ⟨rfl, rfl, rfl, rfl, (List.cons.inj e2).2⟩

theorem void_elem {n n' a a' sp sp' r r' : List Char} {kvs kvs' : List (List Char × List Char)} (h1 : XmlName n) (h1' : XmlName n') (h2 : IsAttrs a kvs)
    (h2' : IsAttrs a' kvs') (h3 : Whites sp) (h3' : Whites sp')
    (e : '<' :: (n ++ (a ++ (sp ++ '/' :: '>' :: r))) = '<' :: (n' ++ (a' ++ (sp' ++ '>' :: r')))) : False := by
  obtain ⟨rfl, rfl, rfl, e1⟩ := tag_unique h1 h1' h2 h2' (closes_of h3 (by simp)) (closes_of h3' (by simp)) (List.cons.inj e).2
  obtain ⟨rfl, e2, _⟩ := span_at h3 h3' (by unfold White; decide) (by unfold White; decide) e1
  exact absurd e2 (by decide)

/-- Contents of which every text with an end in sight is split in one way. -/
def OneWay (s : List Char) (l : List Item) : Prop := ∀ s' l' r r', IsContent s' l' → Stop r → Stop r' → s ++ r = s' ++ r' → s = s' ∧ l = l' ∧ r = r'

theorem elem_unique {n n' a a' sp sp' body body' ep ep' r r' : List Char} {kvs kvs' : List (List Char × List Char)} {cs cs' : List Item} (h1 : XmlName n)
    (h1' : XmlName n') (h2 : IsAttrs a kvs) (h2' : IsAttrs a' kvs') (h3 : Whites sp) (h3' : Whites sp') (hb : OneWay body cs) (hb' : IsContent body' cs')
    (h4 : Whites ep) (h4' : Whites ep')
    (e : '<' :: (n ++ (a ++ (sp ++ '>' :: (body ++ '<' :: '/' :: (n ++ (ep ++ '>' :: r)))))) =
      '<' :: (n' ++ (a' ++ (sp' ++ '>' :: (body' ++ '<' :: '/' :: (n' ++ (ep' ++ '>' :: r')))))) ) :
    n = n' ∧ a = a' ∧ sp = sp' ∧ body = body' ∧ ep = ep' ∧ kvs = kvs' ∧ cs = cs' ∧ r = r' := by
  obtain ⟨rfl, rfl, rfl, e1⟩ := tag_unique h1 h1' h2 h2' (closes_of h3 (by simp)) (closes_of h3' (by simp)) (List.cons.inj e).2
  have hw : ¬White '>' := by unfold White; decide
  obtain ⟨rfl, _, e2⟩ := span_at h3 h3' hw hw e1
  obtain ⟨rfl, rfl, e3⟩ := hb _ _ _ _ hb' (.inr ⟨_, rfl⟩) (.inr ⟨_, rfl⟩) e2
  have e4 := List.append_cancel_left (List.cons.inj (List.cons.inj e3).2).2
  obtain ⟨rfl, _, e5⟩ := span_at h4 h4' hw hw e4
  exact ⟨rfl, rfl, rfl, rfl, rfl, rfl, rfl, e5⟩

theorem content_unique {s : List Char} {l : List Item} (h : IsContent s l) : OneWay s l := by
  induction h with
  | nil =>
    intro s' l' r r' h' hr hr' e
    have hk := congrArg pieceKind e
    rw [List.nil_append, kind_stop hr] at hk
    cases h' with
    | nil => exact ⟨rfl, rfl, e⟩
    | text g1 _ _ => rw [List.append_assoc, kind_text g1] at hk; cases hk
    | void g1 => rw [List.cons_append, List.append_assoc, kind_elem g1] at hk; cases hk
    | elem g1 => rw [List.cons_append, List.append_assoc, kind_elem g1] at hk; cases hk
    | comment g1 _ => rw [List.append_assoc, kind_comment g1] at hk; cases hk
    | pi g1 _ => rw [List.append_assoc, kind_pi g1] at hk; cases hk
    | cdata g1 _ => rw [List.append_assoc, kind_cdata g1] at hk; cases hk
  | @text s t r l h1 h2 h3 ih =>
    intro s' l' q q' h' hr hr' e
    have hk := congrArg pieceKind e
    rw [List.append_assoc, kind_text h1] at hk
    cases h' with
    | nil => rw [List.nil_append, kind_stop hr'] at hk; cases hk
    | @text s2 t2 r2 l2 g1 g2 g3 =>
      rw [List.append_assoc, List.append_assoc] at e
      have hd : ∀ {r q : List Char}, (r = [] ∨ r.head? = some '<') → Stop q → ∀ c, (r ++ q).head? = some c → ¬c ≠ '<' := by
        rintro r q (rfl | h) hq c hc hn
        · rcases hq with rfl | ⟨t, rfl⟩
          · cases hc
          · cases hc; exact hn rfl
        · cases r with
          | nil => cases h
          | cons x r => cases h; cases hc; exact hn rfl
      obtain ⟨rfl, e1⟩ := span_unique (P := fun c => c ≠ '<') (fun c hc e => h1.noMarkup (e ▸ hc)) (fun c hc e => g1.noMarkup (e ▸ hc)) (hd h3 hr) (hd g3 hr') e
      obtain ⟨rfl, rfl, e2⟩ := ih _ _ _ _ g2 hr hr' e1
      obtain rfl := C69_references_unique _ _ _ h1.reads g1.reads
      exact ⟨rfl, rfl, e2⟩
    | void g1 => rw [List.cons_append, List.append_assoc, kind_elem g1] at hk; cases hk
    | elem g1 => rw [List.cons_append, List.append_assoc, kind_elem g1] at hk; cases hk
    | comment g1 _ => rw [List.append_assoc, kind_comment g1] at hk; cases hk
    | pi g1 _ => rw [List.append_assoc, kind_pi g1] at hk; cases hk
    | cdata g1 _ => rw [List.append_assoc, kind_cdata g1] at hk; cases hk
  | @void n a kvs sp r l h1 h2 h3 h4 h5 ih =>
    intro s' l' q q' h' hr hr' e
    have hk := congrArg pieceKind e
    rw [List.cons_append, List.append_assoc, kind_elem h1] at hk
    cases h' with
    | nil => rw [List.nil_append, kind_stop hr'] at hk; cases hk
    | text g1 _ _ => rw [List.append_assoc, kind_text g1] at hk; cases hk
    | void g1 g2 g3 g4 g5 =>
      simp only [List.append_assoc, List.cons_append] at e
      obtain ⟨rfl, rfl, rfl, rfl, e1⟩ := void_unique h1 g1 h2 g2 h4 g4 e
      obtain ⟨rfl, rfl, e2⟩ := ih _ _ _ _ g5 hr hr' e1
      exact ⟨rfl, rfl, e2⟩
    | elem g1 g2 g3 g4 g5 g6 g7 =>
      simp only [List.append_assoc, List.cons_append] at e
      exact (void_elem h1 g1 h2 g2 h4 g4 e).elim
    | comment g1 _ => rw [List.append_assoc, kind_comment g1] at hk; cases hk
    | pi g1 _ => rw [List.append_assoc, kind_pi g1] at hk; cases hk
    | cdata g1 _ => rw [List.append_assoc, kind_cdata g1] at hk; cases hk
  | @elem n a kvs sp body cs ep r l h1 h2 h3 h4 h5 h6 h7 ih5 ih7 =>
    intro s' l' q q' h' hr hr' e
    have hk := congrArg pieceKind e
    rw [List.cons_append, List.append_assoc, kind_elem h1] at hk
    cases h' with
    | nil => rw [List.nil_append, kind_stop hr'] at hk; cases hk
    | text g1 _ _ => rw [List.append_assoc, kind_text g1] at hk; cases hk
    | void g1 g2 g3 g4 g5 =>
      simp only [List.append_assoc, List.cons_append] at e
      exact (void_elem g1 h1 g2 h2 g4 h4 e.symm).elim
    | elem g1 g2 g3 g4 g5 g6 g7 =>
      simp only [List.append_assoc, List.cons_append] at e
      obtain ⟨rfl, rfl, rfl, rfl, rfl, rfl, rfl, e1⟩ := elem_unique h1 g1 h2 g2 h4 g4 ih5 g5 h6 g6 e
      obtain ⟨rfl, rfl, e2⟩ := ih7 _ _ _ _ g7 hr hr' e1
      exact ⟨rfl, rfl, e2⟩
    | comment g1 _ => rw [List.append_assoc, kind_comment g1] at hk; cases hk
    | pi g1 _ => rw [List.append_assoc, kind_pi g1] at hk; cases hk
    | cdata g1 _ => rw [List.append_assoc, kind_cdata g1] at hk; cases hk
  | @comment s r l h1 h2 ih =>
    intro s' l' q q' h' hr hr' e
    have hk := congrArg pieceKind e
    rw [List.append_assoc, kind_comment h1] at hk
    cases h' with
    | nil => rw [List.nil_append, kind_stop hr'] at hk; cases hk
    | text g1 _ _ => rw [List.append_assoc, kind_text g1] at hk; cases hk
    | void g1 => rw [List.cons_append, List.append_assoc, kind_elem g1] at hk; cases hk
    | elem g1 => rw [List.cons_append, List.append_assoc, kind_elem g1] at hk; cases hk
    | comment g1 g2 =>
      rw [List.append_assoc, List.append_assoc] at e
      obtain ⟨rfl, e1⟩ := comment_unique h1 g1 e
      obtain ⟨rfl, rfl, e2⟩ := ih _ _ _ _ g2 hr hr' e1
      exact ⟨rfl, rfl, e2⟩
    | pi g1 _ => rw [List.append_assoc, kind_pi g1] at hk; cases hk
    | cdata g1 _ => rw [List.append_assoc, kind_cdata g1] at hk; cases hk
  | @pi s r l h1 h2 ih =>
    intro s' l' q q' h' hr hr' e
    have hk := congrArg pieceKind e
    rw [List.append_assoc, kind_pi h1] at hk
    cases h' with
    | nil => rw [List.nil_append, kind_stop hr'] at hk; cases hk
    | text g1 _ _ => rw [List.append_assoc, kind_text g1] at hk; cases hk
    | void g1 => rw [List.cons_append, List.append_assoc, kind_elem g1] at hk; cases hk
    | elem g1 => rw [List.cons_append, List.append_assoc, kind_elem g1] at hk; cases hk
    | comment g1 _ => rw [List.append_assoc, kind_comment g1] at hk; cases hk
    | pi g1 g2 =>
      rw [List.append_assoc, List.append_assoc] at e
      obtain ⟨rfl, e1⟩ := pi_unique h1 g1 e
      obtain ⟨rfl, rfl, e2⟩ := ih _ _ _ _ g2 hr hr' e1
      exact ⟨rfl, rfl, e2⟩
    | cdata g1 _ => rw [List.append_assoc, kind_cdata g1] at hk; cases hk
  | @cdata s t r l h1 h2 ih =>
    intro s' l' q q' h' hr hr' e
    have hk := congrArg pieceKind e
    rw [List.append_assoc, kind_cdata h1] at hk
    cases h' with
    | nil => rw [List.nil_append, kind_stop hr'] at hk; cases hk
    | text g1 _ _ => rw [List.append_assoc, kind_text g1] at hk; cases hk
    | void g1 => rw [List.cons_append, List.append_assoc, kind_elem g1] at hk; cases hk
    | elem g1 => rw [List.cons_append, List.append_assoc, kind_elem g1] at hk; cases hk
    | comment g1 _ => rw [List.append_assoc, kind_comment g1] at hk; cases hk
    | pi g1 _ => rw [List.append_assoc, kind_pi g1] at hk; cases hk
    | cdata g1 g2 =>
      rw [List.append_assoc, List.append_assoc] at e
      obtain ⟨rfl, rfl, e1⟩ := cdata_unique h1 g1 e
      obtain ⟨rfl, rfl, e2⟩ := ih _ _ _ _ g2 hr hr' e1
      exact ⟨rfl, rfl, e2⟩

/-! ## Documents -/

theorem misc_append {s t : List Char} (h : IsMisc s) (h' : IsMisc t) : IsMisc (s ++ t) := by
  induction h with
  | nil => exact h'
  | white h1 _ ih => exact .white h1 ih
  | comment h1 _ ih => rw [List.append_assoc]; exact .comment h1 ih
  | pi h1 _ ih => rw [List.append_assoc]; exact .pi h1 ih

/-- The text of one element. -/
inductive OneElem : List Char → Item → Prop
  | void {n a kvs sp} : XmlName n → IsAttrs a kvs → Whites sp → OneElem ('<' :: (n ++ (a ++ (sp ++ ['/', '>'])))) (.elem n kvs [])
  | elem {n a kvs sp body cs sp'} : XmlName n → IsAttrs a kvs → Whites sp → IsContent body cs → Whites sp' →
      OneElem ('<' :: (n ++ (a ++ (sp ++ '>' :: (body ++ '<' :: '/' :: (n ++ (sp' ++ ['>']))))))) (.elem n kvs cs)

theorem misc_of_content {s : List Char} {l : List Item} (h : IsContent s l) (e : l = []) : IsMisc s := by
  induction h with
  | nil => exact .nil
  | comment h1 _ ih => exact .comment h1 (ih e)
  | pi h1 _ ih => exact .pi h1 (ih e)
  | text => cases e
  | void => cases e
  | elem => cases e
  | cdata => cases e

theorem elem_of_content {s : List Char} {l : List Item} (h : IsContent s l) {n : List Char} {kvs : List (List Char × List Char)} {cs : List Item}
    (e : l = [.elem n kvs cs]) : ∃ m1 x m2, s = m1 ++ (x ++ m2) ∧ IsMisc m1 ∧ IsMisc m2 ∧ OneElem x (.elem n kvs cs) := by
  induction h with
  | nil => cases e
  | comment h1 _ ih =>
    obtain ⟨m1, x, m2, rfl, g1, g2, g3⟩ := ih e
    exact ⟨_ ++ m1, x, m2, by rw [List.append_assoc], .comment h1 g1, g2, g3⟩
  | pi h1 _ ih =>
    obtain ⟨m1, x, m2, rfl, g1, g2, g3⟩ := ih e
    exact ⟨_ ++ m1, x, m2, by rw [List.append_assoc], .pi h1 g1, g2, g3⟩
  | text => cases e
  | cdata => cases e
  | void h1 h2 h3 h4 h5 ih =>
    obtain ⟨e1, e2⟩ := List.cons.inj e
    cases e1
    exact ⟨[], _, _, by simp only [List.nil_append, List.cons_append, List.append_assoc], .nil, misc_of_content h5 e2, .void h1 h2 h4⟩
  | elem h1 h2 h3 h4 h5 h6 h7 _ _ =>
    obtain ⟨e1, e2⟩ := List.cons.inj e
    cases e1
    exact ⟨[], _, _, by simp only [List.nil_append, List.cons_append, List.append_assoc], .nil, misc_of_content h7 e2, .elem h1 h2 h4 h5 h6⟩

theorem oneElem_kind {x r : List Char} {i : Item} (h : OneElem x i) : pieceKind (x ++ r) = 2 := by
  cases h with
  | void h1 => rw [List.cons_append, List.append_assoc]; exact kind_elem h1
  | elem h1 => rw [List.cons_append, List.append_assoc]; exact kind_elem h1

theorem oneElem_unique {x x' r r' : List Char} {i i' : Item} (h : OneElem x i) (h' : OneElem x' i') (e : x ++ r = x' ++ r') : i = i' := by
  cases h with
  | void h1 h2 h3 =>
    cases h' with
    | void g1 g2 g3 =>
      simp only [List.append_assoc, List.cons_append, List.nil_append] at e
      obtain ⟨rfl, rfl, rfl, rfl, _⟩ := void_unique h1 g1 h2 g2 h3 g3 e
      rfl
    | elem g1 g2 g3 g4 g5 =>
      simp only [List.append_assoc, List.cons_append, List.nil_append] at e
      exact (void_elem h1 g1 h2 g2 h3 g3 e).elim
  | elem h1 h2 h3 h4 h5 =>
    cases h' with
    | void g1 g2 g3 =>
      simp only [List.append_assoc, List.cons_append, List.nil_append] at e
      exact (void_elem g1 h1 g2 h2 g3 h3 e.symm).elim
    | elem g1 g2 g3 g4 g5 =>
      simp only [List.append_assoc, List.cons_append, List.nil_append] at e
      obtain ⟨rfl, rfl, rfl, rfl, rfl, rfl, rfl, _⟩ := elem_unique h1 g1 h2 g2 h3 g3 (content_unique h4) g4 h5 g5 e
      rfl

theorem kind_white {c : Char} {r : List Char} (h : White c) : pieceKind (c :: r) = 1 := by
  rcases h with rfl | rfl | rfl | rfl <;> simp [pieceKind]

theorem misc_unique {m m' r r' : List Char} (h : IsMisc m) (h' : IsMisc m') (hr : pieceKind r = 2) (hr' : pieceKind r' = 2) (e : m ++ r = m' ++ r') :
    r = r' := by
  induction h generalizing m' with
  | nil =>
    have hk := congrArg pieceKind e
    rw [List.nil_append, hr] at hk
    cases h' with
    | nil => exact e
    | white g1 _ => rw [List.cons_append, kind_white g1] at hk; cases hk
    | comment g1 _ => rw [List.append_assoc, kind_comment g1] at hk; cases hk
    | pi g1 _ => rw [List.append_assoc, kind_pi g1] at hk; cases hk
  | white h1 h2 ih =>
    have hk := congrArg pieceKind e
    rw [List.cons_append, kind_white h1] at hk
    cases h' with
    | nil => rw [List.nil_append, hr'] at hk; cases hk
    | white g1 g2 => exact ih g2 (List.cons.inj e).2
    | comment g1 _ => rw [List.append_assoc, kind_comment g1] at hk; cases hk
    | pi g1 _ => rw [List.append_assoc, kind_pi g1] at hk; cases hk
  | comment h1 h2 ih =>
    have hk := congrArg pieceKind e
    rw [List.append_assoc, kind_comment h1] at hk
    cases h' with
    | nil => rw [List.nil_append, hr'] at hk; cases hk
    | white g1 g2 => rw [List.cons_append, kind_white g1] at hk; cases hk
    | comment g1 g2 =>
      rw [List.append_assoc, List.append_assoc] at e
      obtain ⟨_, e1⟩ := comment_unique h1 g1 e
      exact ih g2 e1
    | pi g1 _ => rw [List.append_assoc, kind_pi g1] at hk; cases hk
  | pi h1 h2 ih =>
    have hk := congrArg pieceKind e
    rw [List.append_assoc, kind_pi h1] at hk
    cases h' with
    | nil => rw [List.nil_append, hr'] at hk; cases hk
    | white g1 g2 => rw [List.cons_append, kind_white g1] at hk; cases hk
    | comment g1 _ => rw [List.append_assoc, kind_comment g1] at hk; cases hk
    | pi g1 g2 =>
      rw [List.append_assoc, List.append_assoc] at e
      obtain ⟨_, e1⟩ := pi_unique h1 g1 e
      exact ih g2 e1

/-- A declaration is no white space, comment, processing instruction or element. -/
theorem declaration_alone {d m r r' : List Char} (h : IsDeclaration d) (hm : IsMisc m) (hr : pieceKind r = 2) : d ++ r' ≠ m ++ r := by
  intro e
  obtain ⟨a, kvs, sp, rfl, h1, h2, h3⟩ := h
  have e0 : "<?xml".toList = ['<', '?', 'x', 'm', 'l'] := by decide
  have e1 : "?>".toList = ['?', '>'] := by decide
  have hk := congrArg pieceKind e
  rw [show pieceKind ("<?xml".toList ++ a ++ sp ++ "?>".toList ++ r') = 4 from by rw [e0]; simp [pieceKind]] at hk
  cases hm with
  | nil => rw [List.nil_append, hr] at hk; cases hk
  | white g1 g2 => rw [List.cons_append, kind_white g1] at hk; cases hk
  | comment g1 _ => rw [List.append_assoc, kind_comment g1] at hk; cases hk
  | pi g1 g2 =>
    obtain ⟨n, t, rfl, k1, k2, k3, k4, k5⟩ := g1
    rw [e0, e1] at e
    rw [show "<?".toList = ['<', '?'] from by decide] at e
    simp only [List.append_assoc, List.cons_append, List.nil_append, List.cons.injEq, true_and] at e
    have hd : ∀ (u z : List Char), (u = [] ∨ ∃ c r, u = c :: r ∧ White c) → ∀ c, (u ++ '?' :: z).head? = some c → ¬NameChar c := by
      rintro u z (rfl | ⟨d, v, rfl, hw⟩) c hc hn
      · cases hc; exact (nameChar_not hn).2.2.2.2.1 rfl
      · cases hc; exact (nameChar_not hn).1 hw
    have ha : a = [] ∨ ∃ c r, a = c :: r ∧ White c := by
      cases h1 with
      | nil => exact .inl rfl
      | cons g1 g2 =>
        obtain ⟨sep, y, z, rfl, k1, k2, _⟩ := attr_head g1
        cases sep with
        | nil => exact absurd rfl k2
        | cons x sep => exact .inr ⟨x, _, rfl, k1 _ (List.mem_cons_self ..)⟩
    have hd' : ∀ c, (a ++ (sp ++ '?' :: '>' :: r')).head? = some c → ¬NameChar c := by
      rcases ha with rfl | ⟨x, y, rfl, hw⟩
      · cases sp with
        | nil => exact hd [] _ (.inl rfl)
        | cons x sp => exact hd _ _ (.inr ⟨x, sp, rfl, h2 _ (List.mem_cons_self ..)⟩)
      · intro c hc hn
        cases hc
        exact (nameChar_not hn).1 hw
    have hxml : ∀ c ∈ ['x', 'm', 'l'], NameChar c := by
      intro c hc
      simp only [List.mem_cons, List.not_mem_nil, or_false] at hc
      rcases hc with rfl | rfl | rfl <;> exact .inl (.inr (.inr (.inl (by decide))))
    obtain ⟨e2, _⟩ := span_unique (P := NameChar) (s := ['x', 'm', 'l']) hxml (name_chars k1) hd' (hd _ _ k3) e
    exact k2 (by rw [← e2]; decide)

/-- A text is well-formed in one way only. -/
theorem document_unique {s : List Char} {root root' : Item} (h : IsDocument s root) (h' : IsDocument s root') : root = root' := by
  obtain ⟨d, b, body, a, rfl, h1, h2, h3, ⟨n, kvs, cs, rfl⟩, h5⟩ := h
  obtain ⟨d', b', body', a', e, g1, g2, g3, ⟨n', kvs', cs', rfl⟩, g5⟩ := h'
  obtain ⟨m1, x, m2, rfl, p1, p2, p3⟩ := elem_of_content h3 rfl
  obtain ⟨m1', x', m2', rfl, q1, q2, q3⟩ := elem_of_content g3 rfl
  have hb : ∀ (b m1 x m2 a : List Char), b ++ (m1 ++ (x ++ m2) ++ a) = b ++ m1 ++ (x ++ (m2 ++ a)) := by intros; simp only [List.append_assoc]
  rw [hb, hb] at e
  have hr := oneElem_kind p3 (r := m2 ++ a)
  have hr' := oneElem_kind q3 (r := m2' ++ a')
  have main : b ++ m1 ++ (x ++ (m2 ++ a)) = b' ++ m1' ++ (x' ++ (m2' ++ a')) := by
    rcases h1 with rfl | h1
    · rcases g1 with rfl | g1
      · exact e
      · exact (declaration_alone g1 (misc_append h2 p1) hr e.symm).elim
    · rcases g1 with rfl | g1
      · exact (declaration_alone h1 (misc_append g2 q1) hr' e).elim
      · obtain ⟨u, k, sp, rfl, i1, i2, _⟩ := h1
        obtain ⟨u', k', sp', rfl, j1, j2, _⟩ := g1
        have e1 : "?>".toList = ['?', '>'] := by decide
        rw [e1] at e
        rw [List.append_assoc, List.append_assoc, List.append_assoc, List.append_assoc, List.append_assoc, List.append_assoc] at e
        have e2 := List.append_cancel_left e
        simp only [List.cons_append, List.nil_append] at e2
        obtain ⟨_, _, e3⟩ := attrs_unique i1 j1 (closes_of i2 (by simp)) (closes_of j2 (by simp)) e2
        have hw : ¬White '?' := by unfold White; decide
        obtain ⟨_, _, e4⟩ := span_at i2 j2 hw hw e3
        have e5 := (List.cons.inj e4).2
        simp only [List.append_assoc] at e5 ⊢
        exact e5
  exact oneElem_unique p3 q3 (misc_unique (misc_append h2 p1) (misc_append g2 q1) hr hr' main)

end Oxml
