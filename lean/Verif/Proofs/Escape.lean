import Verif.Model.QuickXml
/-!
# Escaping lemmas
-/
namespace Oxml

@[simp] theorem escape_nil : escape [] = [] := rfl
theorem escape_cons (c : Char) (s : List Char) : escape (c :: s) = escapeChar c ++ escape s := by simp [escape]
theorem escape_append (s t : List Char) : escape (s ++ t) = escape s ++ escape t := by simp [escape]

/-- The five cases of `escapeChar`. -/
theorem escapeChar_cases (c : Char) :
    (c = '<' ∧ escapeChar c = ['&', 'l', 't', ';']) ∨ (c = '>' ∧ escapeChar c = ['&', 'g', 't', ';']) ∨
    (c = '&' ∧ escapeChar c = ['&', 'a', 'm', 'p', ';']) ∨ (c = '\'' ∧ escapeChar c = ['&', 'a', 'p', 'o', 's', ';']) ∨
    (c = '"' ∧ escapeChar c = ['&', 'q', 'u', 'o', 't', ';']) ∨
    (c ≠ '<' ∧ c ≠ '>' ∧ c ≠ '&' ∧ c ≠ '\'' ∧ c ≠ '"' ∧ escapeChar c = [c]) := by
  by_cases h1 : c = '<'
  · subst h1; exact .inl ⟨rfl, by decide⟩
  by_cases h2 : c = '>'
  · subst h2; exact .inr (.inl ⟨rfl, by decide⟩)
  by_cases h3 : c = '&'
  · subst h3; exact .inr (.inr (.inl ⟨rfl, by decide⟩))
  by_cases h4 : c = '\''
  · subst h4; exact .inr (.inr (.inr (.inl ⟨rfl, by decide⟩)))
  by_cases h5 : c = '"'
  · subst h5; exact .inr (.inr (.inr (.inr (.inl ⟨rfl, by decide⟩))))
  · exact .inr (.inr (.inr (.inr (.inr ⟨h1, h2, h3, h4, h5, by simp [escapeChar, h1, h2, h3, h4, h5]⟩))))

theorem unescapeFrom_entity (name r : List Char) (c : Char) (hsemi : ';' ∉ name)
    (he : entity name = some [c]) :
    unescapeFrom none ('&' :: name ++ ';' :: r) = (unescapeFrom none r).map (c :: ·) := by
  have hgo : ∀ (n acc : List Char), ';' ∉ n →
      unescapeFrom (some acc) (n ++ ';' :: r) = unescapeFrom (some (n.reverse ++ acc)) (';' :: r) := by
    intro n
    induction n with
    | nil => intro acc _; rfl
    | cons x xs ih =>
      intro acc hx
      simp only [List.mem_cons, not_or] at hx
      simp only [List.cons_append]
      rw [unescapeFrom, if_neg (Ne.symm hx.1), ih _ hx.2]
      simp
  rw [List.cons_append, unescapeFrom, if_pos rfl, hgo _ _ hsemi]
  simp only [List.append_nil]
  rw [unescapeFrom, if_pos rfl, List.reverse_reverse, he]
  cases unescapeFrom none r <;> rfl

theorem unescapeFrom_escapeChar (c : Char) (r : List Char) :
    unescapeFrom none (escapeChar c ++ r) = (unescapeFrom none r).map (c :: ·) := by
  rcases escapeChar_cases c with ⟨rfl, h⟩ | ⟨rfl, h⟩ | ⟨rfl, h⟩ | ⟨rfl, h⟩ | ⟨rfl, h⟩ | ⟨_, _, h3, _, _, h⟩
  · rw [h]; exact unescapeFrom_entity ['l', 't'] r _ (by decide) (by decide)
  · rw [h]; exact unescapeFrom_entity ['g', 't'] r _ (by decide) (by decide)
  · rw [h]; exact unescapeFrom_entity ['a', 'm', 'p'] r _ (by decide) (by decide)
  · rw [h]; exact unescapeFrom_entity ['a', 'p', 'o', 's'] r _ (by decide) (by decide)
  · rw [h]; exact unescapeFrom_entity ['q', 'u', 'o', 't'] r _ (by decide) (by decide)
  · rw [h, List.singleton_append, unescapeFrom, if_neg h3]
    cases unescapeFrom none r <;> rfl

theorem unescape_escape (s : List Char) : unescape (escape s) = .ok s := by
  unfold unescape
  induction s with
  | nil => rfl
  | cons c s ih => rw [escape_cons, unescapeFrom_escapeChar, ih]; rfl

theorem escape_inj {s t : List Char} (h : escape s = escape t) : s = t := by
  have h1 := unescape_escape s
  rw [h, unescape_escape] at h1
  cases h1; rfl

theorem mem_escape {x : Char} {s : List Char} (h : x ∈ escape s) : ∃ c ∈ s, x ∈ escapeChar c := by
  simpa [escape] using h

theorem escape_no_markup {x : Char} {s : List Char} (h : x ∈ escape s) :
    x ≠ '<' ∧ x ≠ '>' ∧ x ≠ '"' ∧ x ≠ '\'' := by
  obtain ⟨c, _, hx⟩ := mem_escape h
  rcases escapeChar_cases c with ⟨rfl, h⟩ | ⟨rfl, h⟩ | ⟨rfl, h⟩ | ⟨rfl, h⟩ | ⟨rfl, h⟩ | ⟨h1, h2, h3, h4, h5, h⟩
  · rw [h] at hx; exact (by decide : ∀ x ∈ ['&', 'l', 't', ';'], x ≠ '<' ∧ x ≠ '>' ∧ x ≠ '"' ∧ x ≠ '\'') x hx
  · rw [h] at hx; exact (by decide : ∀ x ∈ ['&', 'g', 't', ';'], x ≠ '<' ∧ x ≠ '>' ∧ x ≠ '"' ∧ x ≠ '\'') x hx
  · rw [h] at hx; exact (by decide : ∀ x ∈ ['&', 'a', 'm', 'p', ';'], x ≠ '<' ∧ x ≠ '>' ∧ x ≠ '"' ∧ x ≠ '\'') x hx
  · rw [h] at hx; exact (by decide : ∀ x ∈ ['&', 'a', 'p', 'o', 's', ';'], x ≠ '<' ∧ x ≠ '>' ∧ x ≠ '"' ∧ x ≠ '\'') x hx
  · rw [h] at hx; exact (by decide : ∀ x ∈ ['&', 'q', 'u', 'o', 't', ';'], x ≠ '<' ∧ x ≠ '>' ∧ x ≠ '"' ∧ x ≠ '\'') x hx
  · rw [h] at hx
    rw [List.mem_singleton.mp hx]; exact ⟨h1, h2, h5, h4⟩

/-- Text free of the five special characters is not changed. -/
theorem escape_eq_self {s : List Char} (h : ∀ c ∈ s, c ≠ '<' ∧ c ≠ '>' ∧ c ≠ '&' ∧ c ≠ '\'' ∧ c ≠ '"') : escape s = s := by
  induction s with
  | nil => rfl
  | cons c s ih =>
    obtain ⟨h1, h2, h3, h4, h5⟩ := h c (by simp)
    rw [escape_cons, ih (fun x hx => h x (by simp [hx]))]
    simp [escapeChar, h1, h2, h3, h4, h5]

theorem escape_length_le (s : List Char) : s.length ≤ (escape s).length := by
  induction s with
  | nil => simp
  | cons c s ih =>
    rw [escape_cons, List.length_append, List.length_cons]
    rcases escapeChar_cases c with ⟨_, h⟩ | ⟨_, h⟩ | ⟨_, h⟩ | ⟨_, h⟩ | ⟨_, h⟩ | ⟨_, _, _, _, _, h⟩ <;> rw [h] <;> simp <;> omega

/-- Escaping changes exactly the texts with a special character. -/
theorem escape_eq_self_iff (s : List Char) :
    escape s = s ↔ ∀ c ∈ s, c ≠ '<' ∧ c ≠ '>' ∧ c ≠ '&' ∧ c ≠ '\'' ∧ c ≠ '"' := by
  refine ⟨?_, escape_eq_self⟩
  induction s with
  | nil => simp
  | cons c s ih =>
    intro h
    rw [escape_cons] at h
    have hl := escape_length_le s
    have hlen := congrArg List.length h
    rw [List.length_append, List.length_cons] at hlen
    rcases escapeChar_cases c with ⟨_, h'⟩ | ⟨_, h'⟩ | ⟨_, h'⟩ | ⟨_, h'⟩ | ⟨_, h'⟩ | ⟨h1, h2, h3, h4, h5, h'⟩
    · rw [h'] at hlen; simp only [List.length_cons, List.length_nil] at hlen; omega
    · rw [h'] at hlen; simp only [List.length_cons, List.length_nil] at hlen; omega
    · rw [h'] at hlen; simp only [List.length_cons, List.length_nil] at hlen; omega
    · rw [h'] at hlen; simp only [List.length_cons, List.length_nil] at hlen; omega
    · rw [h'] at hlen; simp only [List.length_cons, List.length_nil] at hlen; omega
    · rw [h'] at h
      simp only [List.singleton_append, List.cons.injEq, true_and] at h
      intro x hx
      rcases List.mem_cons.mp hx with rfl | hx
      · exact ⟨h1, h2, h3, h4, h5⟩
      · exact ih h x hx

theorem dropWhile_flatMap {P : Char → Bool} {f : Char → List Char} (h1 : ∀ c, P c = true → f c = [c])
    (h2 : ∀ c, P c = false → ∃ x xs, f c = x :: xs ∧ P x = false) (l : List Char) :
    (l.flatMap f).dropWhile P = (l.dropWhile P).flatMap f := by
  induction l with
  | nil => rfl
  | cons c l ih =>
    simp only [List.flatMap_cons]
    cases hp : P c with
    | true => rw [h1 c hp]; simp [hp, ih]
    | false =>
      obtain ⟨x, xs, hf, hx⟩ := h2 c hp
      rw [hf]; simp [hp, hx, hf]

theorem space_not_special {c : Char} (h : isXmlSpace c = true) : escapeChar c = [c] := by
  unfold isXmlSpace at h
  simp only [Bool.or_eq_true, decide_eq_true_eq] at h
  rcases h with ((rfl | rfl) | rfl) | rfl <;> decide

theorem trimXml_escape (s : List Char) : trimXml (escape s) = escape (trimXml s) := by
  unfold trimXml
  have hfront : (escape s).dropWhile isXmlSpace = escape (s.dropWhile isXmlSpace) := by
    unfold escape
    apply dropWhile_flatMap (fun c h => space_not_special h)
    intro c hc
    rcases escapeChar_cases c with ⟨_, h⟩ | ⟨_, h⟩ | ⟨_, h⟩ | ⟨_, h⟩ | ⟨_, h⟩ | ⟨_, _, _, _, _, h⟩
    · exact ⟨_, _, h, by decide⟩
    · exact ⟨_, _, h, by decide⟩
    · exact ⟨_, _, h, by decide⟩
    · exact ⟨_, _, h, by decide⟩
    · exact ⟨_, _, h, by decide⟩
    · exact ⟨_, _, h, hc⟩
  rw [hfront]
  have hrev : ∀ t : List Char, (escape t).reverse = t.reverse.flatMap (fun c => (escapeChar c).reverse) := by
    intro t
    induction t with
    | nil => rfl
    | cons c t ih => rw [escape_cons, List.reverse_append, ih]; simp
  have hrev2 : ∀ t : List Char, (t.flatMap (fun c => (escapeChar c).reverse)).reverse = escape t.reverse := by
    intro t
    have := hrev t.reverse
    rw [List.reverse_reverse] at this
    rw [← this, List.reverse_reverse]
  rw [hrev, dropWhile_flatMap, hrev2]
  · intro c h; rw [space_not_special h]; rfl
  · intro c hc
    rcases escapeChar_cases c with ⟨_, h⟩ | ⟨_, h⟩ | ⟨_, h⟩ | ⟨_, h⟩ | ⟨_, h⟩ | ⟨_, _, _, _, _, h⟩
    · exact ⟨_, _, by rw [h]; rfl, by decide⟩
    · exact ⟨_, _, by rw [h]; rfl, by decide⟩
    · exact ⟨_, _, by rw [h]; rfl, by decide⟩
    · exact ⟨_, _, by rw [h]; rfl, by decide⟩
    · exact ⟨_, _, by rw [h]; rfl, by decide⟩
    · exact ⟨_, _, by rw [h]; rfl, hc⟩

theorem escape_eq_nil {s : List Char} (h : escape s = []) : s = [] := by
  have := escape_length_le s
  rw [h] at this
  exact List.eq_nil_of_length_eq_zero (by simpa using this)

end Oxml
