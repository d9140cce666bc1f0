import Verif.Spec.Worksheet
import Verif.Proofs.Basic
/-!
# The float grammar
-/
namespace Oxml
open Spec

theorem isDigit_range (c : Char) : c.isDigit = true ↔ '0' ≤ c ∧ c ≤ '9' := by
  unfold Char.isDigit
  simp only [Bool.and_eq_true, decide_eq_true_eq]
  exact Iff.rfl

theorem digitText_iff (s : List Char) : DigitText s ↔ s.all Char.isDigit = true := by
  rw [List.all_eq_true]
  exact ⟨fun h c hc => (isDigit_range c).mpr (h c hc), fun h c hc => (isDigit_range c).mp (h c hc)⟩

theorem digits1_iff (s : List Char) : digits1 s = true ↔ s ≠ [] ∧ DigitText s := by
  unfold digits1
  rw [digitText_iff]
  cases s <;> simp

theorem dropSign_cases (s : List Char) : ∃ sign, SignText sign ∧ s = sign ++ dropSign s := by
  cases s with
  | nil => exact ⟨[], Or.inl rfl, rfl⟩
  | cons c cs =>
    by_cases h : c = '+' ∨ c = '-'
    · rcases h with rfl | rfl
      · exact ⟨['+'], Or.inr (Or.inl rfl), rfl⟩
      · exact ⟨['-'], Or.inr (Or.inr rfl), rfl⟩
    · exact ⟨[], Or.inl rfl, by rw [dropSign, if_neg h]; rfl⟩

theorem dropSign_append {sign s : List Char} (hs : SignText sign) (h : ∀ c cs, s = c :: cs → c ≠ '+' ∧ c ≠ '-') :
    dropSign (sign ++ s) = s := by
  rcases hs with rfl | rfl | rfl
  · cases s with
    | nil => rfl
    | cons c cs =>
      have := h c cs rfl
      simp [dropSign, this]
  · rfl
  · rfl

theorem digit_not_sign {c : Char} (h : '0' ≤ c ∧ c ≤ '9') : c ≠ '+' ∧ c ≠ '-' ∧ c ≠ '.' := by
  refine ⟨?_, ?_, ?_⟩ <;> rintro rfl <;> revert h <;> decide

theorem exponent_iff (s : List Char) : isExponent s = true ↔ ExponentText s := by
  cases s with
  | nil => simp [isExponent, ExponentText]
  | cons c cs =>
    simp only [isExponent, Bool.and_eq_true, Bool.or_eq_true, decide_eq_true_eq]
    constructor
    · rintro ⟨he, hd⟩
      obtain ⟨sign, hs, hcs⟩ := dropSign_cases cs
      obtain ⟨h1, h2⟩ := (digits1_iff _).mp hd
      exact Or.inr ⟨c, sign, dropSign cs, by rw [← hcs], he, hs, h2, h1⟩
    · rintro (h | ⟨e, sign, ds, h, he, hs, hd, hne⟩)
      · cases h
      · cases h
        refine ⟨he, ?_⟩
        rw [dropSign_append hs]
        · exact (digits1_iff _).mpr ⟨hne, hd⟩
        · rintro x xs rfl
          exact ⟨(digit_not_sign (hd x (by simp))).1, (digit_not_sign (hd x (by simp))).2.1⟩

theorem takeWhile_digits {ip rest : List Char} (h : DigitText ip) (hr : ∀ c cs, rest = c :: cs → c.isDigit = false) :
    (ip ++ rest).takeWhile Char.isDigit = ip ∧ (ip ++ rest).dropWhile Char.isDigit = rest := by
  induction ip with
  | nil =>
    cases rest with
    | nil => exact ⟨rfl, rfl⟩
    | cons c cs => simp [hr c cs rfl]
  | cons c cs ih =>
    have hc : c.isDigit = true := (isDigit_range c).mpr (h c (by simp))
    have := ih (fun x hx => h x (by simp [hx]))
    simp [hc, this]

theorem exponent_not_digit {s : List Char} (h : ExponentText s) : ∀ c cs, s = c :: cs → c.isDigit = false ∧ c ≠ '.' := by
  rintro c cs rfl
  rcases h with h | ⟨e, _, _, h, he, _⟩
  · cases h
  · cases h
    rcases he with rfl | rfl <;> decide

theorem decimal_iff (s : List Char) : isDecimal s = true ↔
    ∃ ip exp, DigitText ip ∧ ExponentText exp ∧
      ((s = ip ++ exp ∧ ip ≠ []) ∨ ∃ fp, DigitText fp ∧ s = ip ++ '.' :: (fp ++ exp) ∧ (ip ≠ [] ∨ fp ≠ [])) := by
  have htd : ∀ l : List Char, DigitText (l.takeWhile Char.isDigit) := by
    intro l
    rw [digitText_iff]
    exact List.all_takeWhile
  constructor
  · intro h
    have hs := (List.takeWhile_append_dropWhile (p := Char.isDigit) (l := s)).symm
    unfold isDecimal at h
    split at h
    · rename_i hd
      refine ⟨s.takeWhile Char.isDigit, [], htd s, Or.inl rfl, Or.inl ⟨by rw [hd] at hs; exact hs, ?_⟩⟩
      rw [hd, List.append_nil] at hs
      rw [← hs]
      rintro rfl
      cases h
    · rename_i c r hd
      rw [hd] at hs
      split at h
      · rename_i hc
        subst hc
        simp only [Bool.and_eq_true, Bool.or_eq_true, Bool.not_eq_true', List.isEmpty_eq_false_iff] at h
        refine ⟨s.takeWhile Char.isDigit, r.dropWhile Char.isDigit, htd s, (exponent_iff _).mp h.2,
          Or.inr ⟨r.takeWhile Char.isDigit, htd r, ?_, h.1⟩⟩
        rw [List.takeWhile_append_dropWhile]
        exact hs
      · simp only [Bool.and_eq_true, Bool.not_eq_true', List.isEmpty_eq_false_iff] at h
        exact ⟨s.takeWhile Char.isDigit, c :: r, htd s, (exponent_iff _).mp h.2, Or.inl ⟨hs, h.1⟩⟩
  · rintro ⟨ip, exp, hip, hexp, (⟨rfl, hne⟩ | ⟨fp, hfp, rfl, hne⟩)⟩
    · obtain ⟨h1, h2⟩ := takeWhile_digits hip (fun c cs hc => (exponent_not_digit hexp c cs hc).1)
      unfold isDecimal
      rw [h2, h1]
      cases exp with
      | nil => simp [hne]
      | cons c cs =>
        simp only
        rw [if_neg (exponent_not_digit hexp c cs rfl).2]
        simp [hne, (exponent_iff _).mpr hexp]
    · obtain ⟨h1, h2⟩ := takeWhile_digits (ip := ip) (rest := '.' :: (fp ++ exp)) hip (by
        rintro c cs h; cases h; decide)
      obtain ⟨h3, h4⟩ := takeWhile_digits hfp (fun c cs hc => (exponent_not_digit hexp c cs hc).1)
      unfold isDecimal
      rw [h2, h1]
      simp only [if_true, h3, h4, (exponent_iff _).mpr hexp, Bool.and_true, Bool.or_eq_true, Bool.not_eq_true', List.isEmpty_eq_false_iff]
      exact hne

theorem isFloatText_iff (s : String) : isFloatText s = true ↔ FloatText s.toList := by
  unfold isFloatText
  simp only [Bool.or_eq_true, decide_eq_true_eq, decimal_iff]
  constructor
  · intro h
    obtain ⟨sign, hs, hcs⟩ := dropSign_cases s.toList
    refine ⟨sign, dropSign s.toList, hcs, hs, ?_⟩
    rcases h with ((h | h) | h) | h
    · exact Or.inl (Or.inl h)
    · exact Or.inl (Or.inr (Or.inl h))
    · exact Or.inl (Or.inr (Or.inr h))
    · exact Or.inr h
  · rintro ⟨sign, body, hcs, hs, h⟩
    have hd : dropSign s.toList = body := by
      rw [hcs]
      apply dropSign_append hs
      rintro c cs rfl
      rcases h with h | ⟨ip, exp, hip, hexp, h⟩
      · constructor <;> rintro rfl <;> revert h <;> simp [asciiLower]
      · rcases h with ⟨h, hne⟩ | ⟨fp, hfp, h, _⟩
        · cases ip with
          | nil => exact absurd rfl hne
          | cons x xs =>
            cases h
            exact ⟨(digit_not_sign (hip c (by simp))).1, (digit_not_sign (hip c (by simp))).2.1⟩
        · cases ip with
          | nil => cases h; decide
          | cons x xs =>
            cases h
            exact ⟨(digit_not_sign (hip c (by simp))).1, (digit_not_sign (hip c (by simp))).2.1⟩
    rw [hd]
    rcases h with (h | h | h) | h
    · exact Or.inl (Or.inl (Or.inl h))
    · exact Or.inl (Or.inl (Or.inr h))
    · exact Or.inl (Or.inr h)
    · exact Or.inr h

end Oxml
