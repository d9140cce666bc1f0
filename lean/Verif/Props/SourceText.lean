import Verif.Spec.SourceText
import Verif.Props.Source
/-!
# C69: white space, trimming and references, against the XML recommendation
-/
namespace Oxml
open Spec

/-- **C69 (white space).** -/
theorem C69_white (c : Char) : isXmlSpace c = true ↔ White c := by
  unfold isXmlSpace White
  simp only [Bool.or_eq_true, decide_eq_true_eq]
  constructor
  · rintro (((h | h) | h) | h) <;> simp [h]
  · rintro (h | h | h | h) <;> simp [h]

theorem dropWhile_split {α : Type} (p : α → Bool) (s : List α) :
    ∃ l, s = l ++ s.dropWhile p ∧ (∀ c ∈ l, p c = true) ∧ ∀ c, (s.dropWhile p).head? = some c → p c = false := by
  induction s with
  | nil => exact ⟨[], rfl, by simp, by simp⟩
  | cons x xs ih =>
    rw [List.dropWhile_cons]
    by_cases h : p x = true
    · rw [if_pos h]
      obtain ⟨l, h1, h2, h3⟩ := ih
      exact ⟨x :: l, by rw [List.cons_append, ← h1], by simpa [h] using h2, h3⟩
    · rw [if_neg h]
      refine ⟨[], rfl, by simp, ?_⟩
      intro c hc
      simp only [List.head?_cons, Option.some.injEq] at hc
      subst hc
      simpa using h

theorem trimXml_trimmed (s : List Char) : TrimmedTo s (trimXml s) := by
  obtain ⟨l, h1, h2, h3⟩ := dropWhile_split isXmlSpace s
  obtain ⟨r, k1, k2, k3⟩ := dropWhile_split isXmlSpace (s.dropWhile isXmlSpace).reverse
  have hs : s.dropWhile isXmlSpace = trimXml s ++ r.reverse := by
    have := congrArg List.reverse k1
    rw [List.reverse_reverse, List.reverse_append] at this
    exact this
  refine ⟨l, r.reverse, by rw [← hs]; exact h1, fun c hc => (C69_white c).mp (h2 c hc),
    fun c hc => (C69_white c).mp (k2 c (List.mem_reverse.mp hc)), ?_, ?_⟩
  · intro c hc hw
    have : (s.dropWhile isXmlSpace).head? = some c := by
      rw [hs]
      cases ht : trimXml s with
      | nil => rw [ht] at hc; cases hc
      | cons x xs => rw [ht] at hc; exact hc
    have := h3 c this
    rw [(C69_white c).mpr hw] at this
    cases this
  · intro c hc hw
    unfold trimXml at hc
    rw [List.getLast?_reverse] at hc
    have := k3 c hc
    rw [(C69_white c).mpr hw] at this
    cases this

theorem dropWhile_all {α : Type} {p : α → Bool} {l : List α} (h : ∀ c ∈ l, p c = true) (x : List α) :
    (l ++ x).dropWhile p = x.dropWhile p := by
  induction l with
  | nil => rfl
  | cons a l ih =>
    rw [List.cons_append, List.dropWhile_cons, if_pos (h a (by simp))]
    exact ih (fun c hc => h c (by simp [hc]))

theorem dropWhile_keep {α : Type} {p : α → Bool} {x : List α} (h : ∀ c, x.head? = some c → p c = false) : x.dropWhile p = x := by
  cases x with
  | nil => rfl
  | cons a x => rw [List.dropWhile_cons, h a rfl]; rfl

theorem trimXml_of {s t : List Char} (h : TrimmedTo s t) : trimXml s = t := by
  obtain ⟨l, r, rfl, h2, h3, h4, h5⟩ := h
  have no : ∀ c, ¬White c → isXmlSpace c = false := fun c hc => by
    cases h : isXmlSpace c
    · rfl
    · exact absurd ((C69_white c).mp h) hc
  have hl : ∀ c ∈ l, isXmlSpace c = true := fun c hc => (C69_white c).mpr (h2 c hc)
  have hr : ∀ c ∈ r.reverse, isXmlSpace c = true := fun c hc => (C69_white c).mpr (h3 c (List.mem_reverse.mp hc))
  unfold trimXml
  rw [dropWhile_all hl]
  cases t with
  | nil =>
    have := dropWhile_all (fun c hc => (C69_white c).mpr (h3 c hc)) []
    rw [List.append_nil] at this
    rw [List.nil_append, this]
    rfl
  | cons a t =>
    rw [dropWhile_keep (x := a :: t ++ r) (fun c hc => by
      simp only [List.cons_append, List.head?_cons, Option.some.injEq] at hc
      subst hc
      exact no _ (h4 _ rfl)), List.reverse_append, dropWhile_all hr, dropWhile_keep, List.reverse_reverse]
    intro c hc
    rw [List.head?_reverse] at hc
    exact no _ (h5 _ hc)

/-- **C69 (trimming).** Of a text its surrounding white space is removed, nothing else. -/
theorem C69_trim (s t : List Char) : trimXml s = t ↔ TrimmedTo s t :=
  ⟨fun h => h ▸ trimXml_trimmed s, trimXml_of⟩

example : TrimmedTo " \r\n a b\t".toList "a b".toList := (C69_trim _ _).mp (by decide +kernel)

/-! ## References -/

theorem foldl_none {base : Nat} {val : Char → Option Nat} (ds : List Char) :
    ds.foldl (fun acc c => match acc, val c with | some a, some v => some (a * base + v) | _, _ => none) none = none := by
  induction ds with
  | nil => rfl
  | cons d ds ih => exact ih

/-- The value of digits, each with a value, is the number they write. -/
theorem foldl_digits {α : Type} {base : Nat} {val : Char → Option Nat} (dig : α → Char) (num : α → Nat)
    (h : ∀ a, val (dig a) = some (num a)) : ∀ (ds : List α) (x : Nat),
    (ds.map dig).foldl (fun acc c => match acc, val c with | some a, some v => some (a * base + v) | _, _ => none) (some x) =
      some (x * base ^ ds.length + positional base (ds.map num))
  | [], x => by simp [positional]
  | d :: ds, x => by
    simp only [List.map_cons, List.foldl_cons, h]
    rw [foldl_digits dig num h ds]
    simp only [positional, List.length_map, List.length_cons, Nat.pow_succ]
    congr 1
    rw [Nat.add_mul, Nat.add_assoc, Nat.mul_assoc, Nat.mul_comm base]

theorem digitsValue_digits {α : Type} {base : Nat} {val : Char → Option Nat} (dig : α → Char) (num : α → Nat)
    (h : ∀ a, val (dig a) = some (num a)) {ds : List α} (hne : ds ≠ []) :
    digitsValue base val (ds.map dig) = some (positional base (ds.map num)) := by
  unfold digitsValue
  rw [if_neg (by simpa using hne)]
  have := foldl_digits (base := base) dig num h ds 0
  rw [Nat.zero_mul, Nat.zero_add] at this
  exact this

/-- Digits with a value are digits of the alphabet. -/
theorem foldl_some {α : Type} {base : Nat} {val : Char → Option Nat} (dig : α → Char)
    (h : ∀ c v, val c = some v → ∃ a, dig a = c) : ∀ (cs : List Char) (x : Option Nat) (v : Nat),
    cs.foldl (fun acc c => match acc, val c with | some a, some v => some (a * base + v) | _, _ => none) x = some v →
      ∃ ds : List α, ds.map dig = cs
  | [], _, _, _ => ⟨[], rfl⟩
  | c :: cs, x, v, hv => by
    rw [List.foldl_cons] at hv
    cases x with
    | none => rw [foldl_none] at hv; cases hv
    | some a =>
      cases hc : val c with
      | none => simp only [hc] at hv; rw [foldl_none] at hv; cases hv
      | some w =>
        obtain ⟨d, hd⟩ := h c w hc
        obtain ⟨ds, hds⟩ := foldl_some dig h cs _ v hv
        exact ⟨d :: ds, by rw [List.map_cons, hd, hds]⟩

theorem dec_digit : ∀ d : Fin 10, decValue (decDigit d) = some d.val := by decide +kernel
theorem hex_digit : ∀ d : Fin 16 × Bool, hexValue (hexDigit d) = some d.1.val := by
  rintro ⟨d, b⟩
  revert d b
  decide +kernel

theorem char_of_nat {c : Char} {n : Nat} (h : c.toNat = n) : c = Char.ofNat n := by
  subst h; exact (Char.ofNat_toNat c).symm

theorem dec_chars (c : Char) (v : Nat) (h : decValue c = some v) : ∃ d, decDigit d = c := by
  unfold decValue at h
  split at h
  · rename_i hd
    simp only [Char.isDigit, Bool.and_eq_true, decide_eq_true_eq] at hd
    have h1 : 48 ≤ c.toNat := hd.1
    have h2 : c.toNat ≤ 57 := hd.2
    have hc := (Char.ofNat_toNat c).symm
    generalize c.toNat = n at h1 h2 hc
    subst hc
    have : ∀ k : Fin 10, decDigit k = Char.ofNat (48 + k.val) := by decide +kernel
    exact ⟨⟨n - 48, by omega⟩, by rw [this]; congr 1; simp only; omega⟩
  · cases h

theorem lower_digit : ∀ k : Fin 6, hexDigit (⟨10 + k.val, by omega⟩, false) = Char.ofNat (97 + k.val) := by decide +kernel
theorem upper_digit : ∀ k : Fin 6, hexDigit (⟨10 + k.val, by omega⟩, true) = Char.ofNat (65 + k.val) := by decide +kernel

theorem hex_chars (c : Char) (v : Nat) (h : hexValue c = some v) : ∃ d, hexDigit d = c := by
  unfold hexValue at h
  have hc := (Char.ofNat_toNat c).symm
  split at h
  · rename_i hd
    obtain ⟨d, hd'⟩ := dec_chars c (c.toNat - 48) (by unfold decValue; rw [if_pos hd])
    refine ⟨(⟨d.val, by omega⟩, false), ?_⟩
    rw [← hd']
    revert d
    have : ∀ d : Fin 10, hexDigit (⟨d.val, by omega⟩, false) = decDigit d := by decide +kernel
    exact fun d _ => this d
  · split at h
    · rename_i hd
      have h1 : 97 ≤ c.toNat := hd.1
      have h2 : c.toNat ≤ 102 := hd.2
      generalize c.toNat = n at h1 h2 hc
      subst hc
      have := lower_digit ⟨n - 97, by omega⟩
      exact ⟨_, this.trans (by congr 1; simp only; omega)⟩
    · split at h
      · rename_i hd
        have h1 : 65 ≤ c.toNat := hd.1
        have h2 : c.toNat ≤ 70 := hd.2
        generalize c.toNat = n at h1 h2 hc
        subst hc
        have := upper_digit ⟨n - 65, by omega⟩
        exact ⟨_, this.trans (by congr 1; simp only; omega)⟩
      · cases h

theorem toNat_ofNat_valid {v : Nat} (h : v.isValidChar) : (Char.ofNat v).toNat = v := by
  unfold Char.ofNat
  rw [dif_pos h]
  rfl

theorem charOfCode_some {n : Option Nat} {t : List Char} (h : charOfCode n = some t) :
    ∃ c : Char, t = [c] ∧ n = some c.toNat ∧ c.toNat ≠ 0 := by
  unfold charOfCode at h
  cases n with
  | none => cases h
  | some v =>
    simp only at h
    split at h
    · rename_i hv
      cases h
      refine ⟨Char.ofNat v, rfl, ?_, ?_⟩ <;> rw [toNat_ofNat_valid hv.2]
      exact hv.1
    · cases h

theorem charOfCode_char {c : Char} (h : c.toNat ≠ 0) : charOfCode (some c.toNat) = some [c] := by
  unfold charOfCode
  simp only
  rw [if_pos ⟨h, c.valid⟩, Char.ofNat_toNat]

/-- A reference: not a character written as itself. -/
def Spec.Written.IsRef : Written → Prop
  | .plain _ => False
  | _ => True

/-- What is between `&` and `;`. -/
def Spec.Written.name : Written → List Char
  | .plain _ => []
  | .lt => "lt".toList
  | .gt => "gt".toList
  | .amp => "amp".toList
  | .apos => "apos".toList
  | .quot => "quot".toList
  | .dec ds => '#' :: ds.map decDigit
  | .hex ds => '#' :: 'x' :: ds.map hexDigit

theorem Spec.Written.text_ref {w : Written} (h : w.IsRef) : w.text = '&' :: (w.name ++ [';']) := by
  cases w
  case plain => exact absurd h (by simp [Spec.Written.IsRef])
  all_goals rfl

theorem dec_no : ∀ d : Fin 10, decDigit d ≠ ';' ∧ decDigit d ≠ 'x' := by decide +kernel
theorem hex_no : ∀ d : Fin 16 × Bool, hexDigit d ≠ ';' := by
  rintro ⟨d, b⟩
  revert d b
  decide +kernel

theorem Spec.Written.name_semi {w : Written} : ';' ∉ w.name := by
  cases w
  case dec ds =>
    simp only [Spec.Written.name, List.mem_cons, List.mem_map, not_or, not_exists, not_and]
    exact ⟨by decide, fun d _ => (dec_no d).1⟩
  case hex ds =>
    simp only [Spec.Written.name, List.mem_cons, List.mem_map, not_or, not_exists, not_and]
    exact ⟨by decide, by decide, fun d _ => hex_no d⟩
  case plain c => simp [Spec.Written.name]
  all_goals decide

theorem entity_numeric (ds : List Char) : entity ('#' :: ds) =
    match ds with
    | 'x' :: hs => charOfCode (digitsValue 16 hexValue hs)
    | _ => charOfCode (digitsValue 10 decValue ds) := by
  unfold entity
  rw [if_neg (by simp), if_neg (by simp), if_neg (by simp), if_neg (by simp), if_neg (by simp)]
  cases ds with
  | nil => rfl
  | cons d ds =>
    by_cases h : d = 'x'
    · subst h; rfl
    · split
      · rename_i h'
        cases h'
        exact absurd rfl h
      · rename_i h'
        cases h'
        split
        · rename_i h''
          cases h''
          exact absurd rfl h
        · rfl
      · rename_i _ h'
        exact absurd rfl (h' (d :: ds))

theorem entity_of {w : Written} {c : Char} (hr : w.IsRef) (hm : w.Means c) : entity w.name = some [c] := by
  cases w
  case plain => exact absurd hr (by simp [Spec.Written.IsRef])
  case dec ds =>
    obtain ⟨h1, h2, h3⟩ := hm
    simp only [Spec.Written.name]
    rw [entity_numeric]
    have : digitsValue 10 decValue (ds.map decDigit) = some c.toNat := by
      rw [digitsValue_digits decDigit Fin.val dec_digit h1, h3]
    cases ds with
    | nil => exact absurd rfl h1
    | cons d ds =>
      rw [List.map_cons] at this ⊢
      split
      · rename_i h
        exact absurd (List.cons.inj h).1 (dec_no d).2
      · rw [this, charOfCode_char h2]
  case hex ds =>
    obtain ⟨h1, h2, h3⟩ := hm
    simp only [Spec.Written.name]
    rw [entity_numeric]
    simp only
    rw [digitsValue_digits hexDigit (fun d => d.1.val) hex_digit h1, h3, charOfCode_char h2]
  all_goals
    cases hm
    decide +kernel

theorem digitsValue_some {α : Type} {base : Nat} {val : Char → Option Nat} (dig : α → Char) (num : α → Nat)
    (h : ∀ a, val (dig a) = some (num a)) (hc : ∀ c v, val c = some v → ∃ a, dig a = c) {cs : List Char} {v : Nat}
    (hv : digitsValue base val cs = some v) : ∃ ds : List α, ds ≠ [] ∧ ds.map dig = cs ∧ positional base (ds.map num) = v := by
  have hne : cs ≠ [] := by
    intro h
    subst h
    cases hv
  have hv' := hv
  unfold digitsValue at hv
  rw [if_neg hne] at hv
  obtain ⟨ds, hds⟩ := foldl_some dig hc cs (some 0) v hv
  have hdn : ds ≠ [] := by
    intro h
    subst h
    exact hne hds.symm
  refine ⟨ds, hdn, hds, ?_⟩
  rw [← hds, digitsValue_digits dig num h hdn] at hv'
  exact Option.some.inj hv'

theorem entity_some {name t : List Char} (h : entity name = some t) :
    ∃ (w : Written) (c : Char), w.IsRef ∧ w.name = name ∧ t = [c] ∧ w.Means c := by
  unfold entity at h
  split at h
  · rename_i hn; cases h; exact ⟨.lt, _, trivial, hn.symm, rfl, rfl⟩
  split at h
  · rename_i hn; cases h; exact ⟨.gt, _, trivial, hn.symm, rfl, rfl⟩
  split at h
  · rename_i hn; cases h; exact ⟨.amp, _, trivial, hn.symm, rfl, rfl⟩
  split at h
  · rename_i hn; cases h; exact ⟨.apos, _, trivial, hn.symm, rfl, rfl⟩
  split at h
  · rename_i hn; cases h; exact ⟨.quot, _, trivial, hn.symm, rfl, rfl⟩
  split at h
  · rename_i cs _ _ _ _ _
    obtain ⟨c, h1, h2, h3⟩ := charOfCode_some h
    obtain ⟨ds, k1, k2, k3⟩ := digitsValue_some hexDigit (fun d => d.1.val) hex_digit hex_chars h2
    exact ⟨.hex ds, c, trivial, by rw [← k2]; rfl, h1, k1, h3, k3⟩
  · rename_i cs _ _ _ _ _ _
    obtain ⟨c, h1, h2, h3⟩ := charOfCode_some h
    obtain ⟨ds, k1, k2, k3⟩ := digitsValue_some decDigit Fin.val dec_digit dec_chars h2
    exact ⟨.dec ds, c, trivial, by rw [← k2]; rfl, h1, k1, h3, k3⟩
  · cases h

/-- Reading a reference up to its `;`. -/
theorem unescapeFrom_name {name : List Char} (h : ';' ∉ name) : ∀ (acc rest : List Char),
    unescapeFrom (some acc) (name ++ ';' :: rest) =
      match entity (acc.reverse ++ name) with
      | none => .error (.fail "unrecognized entity")
      | some t => (do
        let r ← unescapeFrom none rest
        .ok (t ++ r)) := by
  induction name with
  | nil =>
    intro acc rest
    rw [List.nil_append, unescapeFrom, if_pos rfl, List.append_nil]
    rfl
  | cons c cs ih =>
    intro acc rest
    simp only [List.mem_cons, not_or] at h
    rw [List.cons_append, unescapeFrom, if_neg (Ne.symm h.1), ih h.2]
    simp

/-- A reference that could be read ended with `;`. -/
theorem unescapeFrom_some : ∀ (s acc t : List Char), unescapeFrom (some acc) s = .ok t →
    ∃ name rest, s = name ++ ';' :: rest ∧ ';' ∉ name
  | [], _, _, h => by cases h
  | c :: cs, acc, t, h => by
    by_cases hc : c = ';'
    · exact ⟨[], cs, by rw [hc]; rfl, by simp⟩
    · rw [unescapeFrom, if_neg hc] at h
      obtain ⟨n, r, h1, h2⟩ := unescapeFrom_some cs (c :: acc) t h
      exact ⟨c :: n, r, by rw [h1]; rfl, by simp [h2, Ne.symm hc]⟩

theorem unescape_of : ∀ ws : List (Written × Char), (∀ w ∈ ws, w.1.Means w.2) →
    unescapeFrom none (ws.flatMap (fun w => w.1.text)) = .ok (ws.map Prod.snd)
  | [], _ => rfl
  | (w, c) :: ws, h => by
    have ih := unescape_of ws (fun w hw => h w (by simp [hw]))
    have hm := h (w, c) (by simp)
    rw [List.flatMap_cons, List.map_cons]
    by_cases hr : w.IsRef
    · simp only
      rw [Written.text_ref hr, List.cons_append, List.append_assoc, unescapeFrom, if_pos rfl]
      simp only [List.singleton_append]
      rw [unescapeFrom_name Written.name_semi]
      simp only [List.reverse_nil, List.nil_append]
      rw [entity_of hr hm, ih]
      rfl
    · cases w
      case plain x =>
        obtain ⟨rfl, hx⟩ := hm
        change unescapeFrom none (x :: ws.flatMap (fun w => w.1.text)) = _
        rw [unescapeFrom, if_neg hx, ih]
        rfl
      all_goals exact absurd trivial hr

theorem standsFor_of : ∀ (n : Nat) (s t : List Char), s.length ≤ n → unescapeFrom none s = .ok t → StandsFor s t
  | _, [], t, _, h => by
    cases h
    exact ⟨[], rfl, rfl, by simp⟩
  | 0, c :: cs, _, hl, _ => by simp at hl
  | n + 1, c :: cs, t, hl, h => by
    simp only [List.length_cons] at hl
    by_cases hc : c = '&'
    · subst hc
      rw [unescapeFrom, if_pos rfl] at h
      obtain ⟨name, rest, rfl, hn⟩ := unescapeFrom_some _ _ _ h
      rw [unescapeFrom_name hn] at h
      simp only [List.reverse_nil, List.nil_append] at h
      cases he : entity name with
      | none => rw [he] at h; cases h
      | some e =>
        rw [he] at h
        simp only at h
        cases hr : unescapeFrom none rest with
        | error e => rw [hr] at h; cases h
        | ok t' =>
          rw [hr] at h
          have ht : t = e ++ t' := by cases h; rfl
          obtain ⟨w, c, h1, h2, h3, h4⟩ := entity_some he
          obtain ⟨ws, k1, k2, k3⟩ := standsFor_of n rest t' (by simp at hl; omega) hr
          refine ⟨(w, c) :: ws, ?_, ?_, ?_⟩
          · rw [List.flatMap_cons, Written.text_ref h1, h2, ← k1]
            simp
          · rw [ht, h3, k2]
            rfl
          · intro x hx
            rcases List.mem_cons.mp hx with rfl | hx
            · exact h4
            · exact k3 x hx
    · rw [unescapeFrom, if_neg hc] at h
      cases hr : unescapeFrom none cs with
      | error e => rw [hr] at h; cases h
      | ok t' =>
        rw [hr] at h
        have ht : t = c :: t' := by cases h; rfl
        obtain ⟨ws, k1, k2, k3⟩ := standsFor_of n cs t' (by omega) hr
        refine ⟨(.plain c, c) :: ws, ?_, ?_, ?_⟩
        · rw [List.flatMap_cons, ← k1]
          rfl
        · rw [ht, k2]
          rfl
        · intro x hx
          rcases List.mem_cons.mp hx with rfl | hx
          · exact ⟨rfl, hc⟩
          · exact k3 x hx

/-- **C69 (references).** A text is read as the characters it stands for: the five named references, decimal and
hexadecimal codes in either case and with any number of zeros in front; and it is refused exactly when it stands for no
characters (a reference without `;`, with an unknown name, with a foreign digit, or to no character). -/
theorem C69_references (s t : List Char) : unescape s = .ok t ↔ StandsFor s t := by
  constructor
  · intro h
    exact standsFor_of s.length s t (Nat.le_refl _) h
  · rintro ⟨ws, rfl, rfl, h⟩
    exact unescape_of ws h

/-- A text stands for one sequence of characters only. -/
theorem C69_references_unique (s t t' : List Char) (h : StandsFor s t) (h' : StandsFor s t') : t = t' := by
  have h1 := (C69_references s t).mpr h
  have h2 := (C69_references s t').mpr h'
  rw [h1] at h2
  cases h2
  rfl

example : StandsFor "&#065;&#x4a;&#x4A;&quot;b".toList "AJJ\"b".toList := (C69_references _ _).mp (by decide +kernel)

example : ∀ s ∈ ["&#0;", "&#xD800;", "&#;", "&#12", "&nbsp;", "&#+65;", "& ;"], ¬∃ t, StandsFor s.toList t := by
  intro s hs
  have key : ∀ s ∈ ["&#0;", "&#xD800;", "&#;", "&#12", "&nbsp;", "&#+65;", "& ;"], (unescape s.toList).isOk = false := by decide +kernel
  rintro ⟨t, ht⟩
  have := key s hs
  rw [(C69_references _ _).mpr ht] at this
  cases this

end Oxml
