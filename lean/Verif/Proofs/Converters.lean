import Verif.Model.Converters
import Verif.Spec.Columns
import Verif.Proofs.Basic
/-!
# Helper lemmas about column conversion
-/
namespace Oxml
open Spec

theorem Char.le_iff_toNat (a b : Char) : a ≤ b ↔ a.toNat ≤ b.toNat := by
  rw [Char.le_def, UInt32.le_iff_toNat_le]; rfl

theorem letter_range {c : Char} (h : isLetter c) :
    (65 ≤ c.toNat ∧ c.toNat ≤ 90) ∨ (97 ≤ c.toNat ∧ c.toNat ≤ 122) := by
  unfold isLetter at h
  simp only [Char.le_iff_toNat] at h
  have : 'A'.toNat = 65 ∧ 'Z'.toNat = 90 ∧ 'a'.toNat = 97 ∧ 'z'.toNat = 122 := by decide
  omega

theorem toNat_ofNat_lt {n : Nat} (h : n < 128) : (Char.ofNat n).toNat = n := by
  have hv : n.isValidChar := Or.inl (by omega)
  simp [Char.ofNat, hv, Char.toNat, Char.ofNatAux, UInt32.toNat]

theorem letterValue_pos {c : Char} (h : isLetter c) : 1 ≤ letterValue c ∧ letterValue c ≤ 26 := by
  have hr := letter_range h
  unfold letterValue
  have : 'A'.toNat = 65 ∧ 'Z'.toNat = 90 ∧ 'a'.toNat = 97 ∧ 'z'.toNat = 122 := by decide
  simp only [Char.le_iff_toNat]
  split <;> omega

theorem asciiUpper_toNat {c : Char} (h : isLetter c) : (asciiUpper c).toNat = letterValue c + 64 := by
  have hr := letter_range h
  unfold letterValue asciiUpper
  have : 'A'.toNat = 65 ∧ 'Z'.toNat = 90 ∧ 'a'.toNat = 97 ∧ 'z'.toNat = 122 := by decide
  simp only [Char.le_iff_toNat]
  split
  · rw [toNat_ofNat_lt] <;> omega
  · omega

theorem charValue_letter (b : Build) {c : Char} (h : isLetter c) : charValue b c = .ok (letterValue c) := by
  have hp := letterValue_pos h
  unfold charValue subU16 addU16
  rw [asciiUpper_toNat h]
  have h1 : (letterValue c + 64) % 65536 = letterValue c + 64 := Nat.mod_eq_of_lt (by omega)
  rw [h1]
  have h2 : 65 ≤ letterValue c + 64 := by omega
  simp only [h2, if_true, bind, Except.bind]
  have h3 : letterValue c + 64 - 65 + 1 < 65536 := by omega
  simp only [h3, if_true]
  congr 1; omega

/-- Value of a reversed column name. -/
def revValue : List Char → Nat
  | [] => 0
  | c :: cs => letterValue c + 26 * revValue cs

theorem foldl_columnValue (l : List Char) (a : Nat) :
    l.foldl (fun acc c => acc * 26 + letterValue c) a = a * 26 ^ l.length + columnValue l := by
  induction l generalizing a with
  | nil => simp [columnValue]
  | cons c cs ih =>
    simp only [List.foldl_cons, List.length_cons, columnValue]
    rw [ih, ih (0 * 26 + letterValue c)]
    simp only [Nat.zero_mul, Nat.zero_add, Nat.pow_succ]
    rw [Nat.add_mul, Nat.mul_assoc, Nat.mul_comm 26, ← Nat.add_assoc]

theorem columnValue_append_single (l : List Char) (c : Char) :
    columnValue (l ++ [c]) = columnValue l * 26 + letterValue c := by
  simp [columnValue, List.foldl_append]

theorem revValue_append (l m : List Char) : revValue (l ++ m) = revValue l + 26 ^ l.length * revValue m := by
  induction l with
  | nil => simp [revValue]
  | cons c cs ih =>
    simp only [List.cons_append, revValue, ih, List.length_cons, Nat.pow_succ]
    rw [Nat.mul_add, Nat.mul_comm (26 ^ cs.length) 26, Nat.mul_assoc]; omega

theorem columnValue_eq_revValue (l : List Char) : columnValue l = revValue l.reverse := by
  induction l with
  | nil => rfl
  | cons c cs ih =>
    rw [List.reverse_cons, revValue_append, ← ih]
    unfold columnValue
    rw [List.foldl_cons, foldl_columnValue]
    simp [revValue, Nat.mul_comm, columnValue, Nat.add_comm]

theorem revValue_pos {l : List Char} (hl : ∀ c ∈ l, isLetter c) (hne : l ≠ []) : 1 ≤ revValue l := by
  cases l with
  | nil => contradiction
  | cons c cs =>
    have := (letterValue_pos (hl c (by simp))).1
    simp only [revValue]; omega

/-- One iteration of the loop in a checked build. -/
theorem step_debug {c : Char} (hc : isLetter c) (cs : List Char) (i index : Nat) (hi : i ≤ 4)
    (hlow : 26 ^ i ≤ index * 25 + 1) :
    columnIndexLoop ⟨false⟩ (c :: cs) i index =
      if index + 26 ^ i * letterValue c < 65536 then
        columnIndexLoop ⟨false⟩ cs (i + 1) (index + 26 ^ i * letterValue c)
      else .error overflow := by
  have hv := letterValue_pos hc
  rw [columnIndexLoop, charValue_letter _ hc]
  generalize letterValue c = v at *
  have hpow : 26 ^ i ≤ usizeMax := Nat.le_trans (Nat.pow_le_pow_right (by decide) hi) (by decide)
  simp only [bind, Except.bind, pow26, mulU16, addU16, hpow, true_or, if_true]
  have h4 : i = 0 ∨ i = 1 ∨ i = 2 ∨ i = 3 ∨ i = 4 := by omega
  rcases h4 with rfl | rfl | rfl | rfl | rfl
  all_goals simp only [Nat.reducePow, Nat.reduceMod, Nat.reduceAdd, Bool.false_eq_true, if_false] at *
  all_goals
    split
    · rename_i heq
      split at heq
      · cases heq
      · rw [if_neg (by omega)]; cases heq; rfl
    · rename_i heq
      split at heq
      · cases heq
        split
        · rename_i heq
          split at heq
          · cases heq
          · rw [if_neg (by omega)]; cases heq; rfl
        · rename_i heq
          split at heq
          · cases heq
            first
            | (rw [if_pos (by omega)]; congr 1; omega)
            | (exfalso; omega)
          · cases heq
      · cases heq

/-- The loop in a checked build: succeeds exactly when no overflow happens. The lower bound on `index`
holds because each of the `i` letters before contributed at least `26^j`. -/
theorem loop_debug (l : List Char) (hl : ∀ c ∈ l, isLetter c) (i index : Nat)
    (hi : i ≤ 4) (hlow : 26 ^ i ≤ index * 25 + 1) (hidx : index < 65536) :
    columnIndexLoop ⟨false⟩ l i index =
      if index + 26 ^ i * revValue l < 65536 then .ok (index + 26 ^ i * revValue l) else .error overflow := by
  induction l generalizing i index with
  | nil => simp [columnIndexLoop, revValue, hidx]
  | cons c cs ih =>
    have hv := letterValue_pos (hl c (by simp))
    have hcs : ∀ c ∈ cs, isLetter c := fun x hx => hl x (by simp [hx])
    rw [step_debug (hl c (by simp)) cs i index hi hlow]
    have e : 26 ^ i * revValue (c :: cs) = 26 ^ i * letterValue c + 26 ^ (i + 1) * revValue cs := by
      simp only [revValue, Nat.pow_succ, Nat.mul_add, Nat.mul_assoc]
    rw [e, ← Nat.add_assoc]
    have hge : 26 ^ i ≤ 26 ^ i * letterValue c := Nat.le_mul_of_pos_right _ hv.1
    by_cases h : index + 26 ^ i * letterValue c < 65536
    · rw [if_pos h]
      have hp : 26 ^ (i + 1) ≤ (index + 26 ^ i * letterValue c) * 25 + 1 := by
        rw [Nat.pow_succ, Nat.add_mul]; omega
      by_cases hi4 : i = 4
      · exfalso
        subst hi4
        simp only [Nat.reducePow] at *
        omega
      · exact ih hcs (i + 1) _ (by omega) hp h
    · rw [if_neg h, if_neg (by omega)]

theorem loop_release (l : List Char) (hl : ∀ c ∈ l, isLetter c) (i index : Nat) (hidx : index < 65536) :
    columnIndexLoop ⟨true⟩ l i index = .ok ((index + 26 ^ i * revValue l) % 65536) := by
  induction l generalizing i index with
  | nil => simp [columnIndexLoop, revValue, Nat.mod_eq_of_lt hidx]
  | cons c cs ih =>
    have hv := letterValue_pos (hl c (by simp))
    have hcs : ∀ c ∈ cs, isLetter c := fun x hx => hl x (by simp [hx])
    rw [columnIndexLoop, charValue_letter _ (hl c (by simp))]
    have hm : mulU16 ⟨true⟩ (letterValue c) (26 ^ i % 65536) = .ok ((letterValue c * 26 ^ i) % 65536) := by
      unfold mulU16
      split
      · rename_i h
        congr 1
        rw [Nat.mul_mod, Nat.mod_eq_of_lt (a := letterValue c) (by omega), Nat.mod_eq_of_lt h]
      · simp [Nat.mul_mod]
    have ha : ∀ m, addU16 ⟨true⟩ index (m % 65536) = .ok ((index + m) % 65536) := by
      intro m
      unfold addU16
      split
      · congr 1
        rename_i h
        omega
      · simp
    simp only [bind, Except.bind, pow26, or_true, if_true, hm, ha]
    rw [ih hcs _ _ (Nat.mod_lt _ (by decide))]
    congr 1
    simp only [revValue, Nat.pow_succ, Nat.mul_add, ← Nat.mul_assoc, Nat.mod_add_mod]
    congr 1
    rw [Nat.mul_comm (letterValue c)]; omega

theorem isAlpha_of_isLetter (u : Unicode) {c : Char} (h : isLetter c) : isAlphabetic u c = true := by
  have hr := letter_range h
  unfold isAlphabetic
  rw [if_pos (by omega)]
  unfold isLetter at h
  unfold Char.isAlpha Char.isUpper Char.isLower
  simp only [Char.le_def] at h
  simp only [Bool.or_eq_true, Bool.and_eq_true, decide_eq_true_eq]
  exact h.elim (fun h => Or.inl ⟨h.1, h.2⟩) (fun h => Or.inr ⟨h.1, h.2⟩)

theorem takeWhile_letters (u : Unicode) (l rest : List Char) (hl : ∀ c ∈ l, isLetter c)
    (hr : ∀ c ∈ rest.head?, isAlphabetic u c = false) :
    (l ++ rest).takeWhile (isAlphabetic u) = l := by
  induction l with
  | nil =>
    cases rest with
    | nil => rfl
    | cons c cs => simp at hr; simp [hr]
  | cons c cs ih =>
    simp only [List.cons_append, List.takeWhile_cons, isAlpha_of_isLetter u (hl c (by simp)), if_true]
    rw [ih (fun x hx => hl x (by simp [hx]))]

/-- `get_column_index` on letters followed by something that is not a letter. -/
theorem getColumnIndex_letters (b : Build) (u : Unicode) (l rest : List Char) (hne : l ≠ [])
    (hl : ∀ c ∈ l, isLetter c) (hr : ∀ c ∈ rest.head?, isAlphabetic u c = false) :
    getColumnIndex b u (String.ofList (l ++ rest)) =
      if columnValue l < 65536 then .ok (columnValue l)
      else if b.release then .ok (columnValue l % 65536) else .error overflow := by
  unfold getColumnIndex
  rw [String.toList_ofList, takeWhile_letters u l rest hl hr]
  simp only [hne, if_false]
  have hl' : ∀ c ∈ l.reverse, isLetter c := fun c hc => hl c (by simpa using hc)
  rcases b with ⟨_ | _⟩
  · rw [loop_debug _ hl' 0 0 (by decide) (by decide) (by decide)]
    simp [columnValue_eq_revValue]
  · rw [loop_release _ hl' 0 0 (by decide)]
    simp only [columnValue_eq_revValue, Nat.pow_zero, Nat.one_mul, Nat.zero_add, if_true]
    split
    · rw [Nat.mod_eq_of_lt (by assumption)]
    · rfl

/-! ### From numbers to letters -/

theorem isUpperLetter_ofNat {n : Nat} (h : n < 26) : isUpperLetter (Char.ofNat (n + 65)) := by
  unfold isUpperLetter
  simp only [Char.le_iff_toNat, toNat_ofNat_lt (show n + 65 < 128 by omega)]
  have : 'A'.toNat = 65 ∧ 'Z'.toNat = 90 := by decide
  omega

theorem letter_of_upper {c : Char} (h : isUpperLetter c) : Spec.isLetter c := Or.inl h

theorem letterValue_ofNat {n : Nat} (h : n < 26) : letterValue (Char.ofNat (n + 65)) = n + 1 := by
  unfold letterValue
  simp only [Char.le_iff_toNat, toNat_ofNat_lt (show n + 65 < 128 by omega)]
  have : 'a'.toNat = 97 ∧ 'z'.toNat = 122 := by decide
  rw [if_neg (by omega)]; omega

theorem columnRefLoop_upper (fuel n : Nat) (acc : List Char) (h : ∀ c ∈ acc, isUpperLetter c) :
    ∀ c ∈ columnRefLoop fuel n acc, isUpperLetter c := by
  induction fuel generalizing n acc with
  | zero => simpa [columnRefLoop] using h
  | succ f ih =>
    unfold columnRefLoop
    split
    · exact h
    · apply ih
      intro c hc
      rcases List.mem_cons.mp hc with rfl | hc
      · exact isUpperLetter_ofNat (Nat.mod_lt _ (by decide))
      · exact h c hc

theorem columnRefLoop_acc (fuel n : Nat) (acc : List Char) :
    columnRefLoop fuel n acc = columnRefLoop fuel n [] ++ acc := by
  induction fuel generalizing n acc with
  | zero => simp [columnRefLoop]
  | succ f ih =>
    unfold columnRefLoop
    split
    · simp
    · rw [ih, ih _ [_]]; simp

theorem columnValue_columnRefLoop (fuel n : Nat) (h : n ≤ fuel) :
    columnValue (columnRefLoop fuel n []) = n := by
  induction fuel generalizing n with
  | zero => simp [columnRefLoop, columnValue]; omega
  | succ f ih =>
    unfold columnRefLoop
    split
    · simp [columnValue]; omega
    · rw [columnRefLoop_acc, columnValue_append_single, ih _ (by omega),
        letterValue_ofNat (Nat.mod_lt _ (by decide))]
      omega

theorem columnRefLoop_ne_nil (fuel n : Nat) (h : n ≤ fuel) (h0 : n ≠ 0) : columnRefLoop fuel n [] ≠ [] := by
  intro he
  have := columnValue_columnRefLoop fuel n h
  rw [he] at this
  simp [columnValue] at this
  omega

theorem upper_eq_ofNat {c : Char} (h : isLetter c) : Spec.upper c = Char.ofNat (letterValue c - 1 + 65) := by
  have hr := letter_range h
  have hv := letterValue_pos h
  have : 'A'.toNat = 65 ∧ 'Z'.toNat = 90 ∧ 'a'.toNat = 97 ∧ 'z'.toNat = 122 := by decide
  unfold Spec.upper letterValue
  simp only [Char.le_iff_toNat]
  split
  · congr 1; omega
  · have h2 : c.toNat - 64 - 1 + 65 = c.toNat := by omega
    rw [h2, Char.ofNat_toNat]

theorem upper_isUpper {c : Char} (h : isLetter c) : isUpperLetter (Spec.upper c) := by
  rw [upper_eq_ofNat h]
  exact isUpperLetter_ofNat (by have := letterValue_pos h; omega)

theorem columnRefLoop_revValue (l : List Char) (hl : ∀ c ∈ l, isLetter c) (fuel : Nat)
    (hf : revValue l ≤ fuel) : columnRefLoop fuel (revValue l) [] = (l.map Spec.upper).reverse := by
  induction l generalizing fuel with
  | nil => cases fuel <;> simp [columnRefLoop, revValue]
  | cons c cs ih =>
    have hv := letterValue_pos (hl c (by simp))
    simp only [revValue] at *
    cases fuel with
    | zero => omega
    | succ f =>
      unfold columnRefLoop
      rw [if_neg (by omega), columnRefLoop_acc]
      have h1 : (letterValue c + 26 * revValue cs - 1) / 26 = revValue cs := by omega
      have h2 : (letterValue c + 26 * revValue cs - 1) % 26 = letterValue c - 1 := by omega
      rw [h1, h2, ih (fun x hx => hl x (by simp [hx])) f (by omega), ← upper_eq_ofNat (hl c (by simp))]
      simp

theorem columnRefLoop_columnValue (l : List Char) (hl : ∀ c ∈ l, isLetter c) (fuel : Nat)
    (hf : columnValue l ≤ fuel) : columnRefLoop fuel (columnValue l) [] = l.map Spec.upper := by
  rw [columnValue_eq_revValue] at *
  rw [columnRefLoop_revValue _ (fun c hc => hl c (by simpa using hc)) _ hf]
  simp

theorem upper_of_isUpper {c : Char} (h : isUpperLetter c) : Spec.upper c = c := by
  unfold Spec.upper
  rw [if_neg]
  unfold isUpperLetter at h
  simp only [Char.le_iff_toNat] at *
  have : 'A'.toNat = 65 ∧ 'Z'.toNat = 90 ∧ 'a'.toNat = 97 ∧ 'z'.toNat = 122 := by decide
  omega

theorem columnValue_inj {x y : List Char} (hx : ∀ c ∈ x, isUpperLetter c) (hy : ∀ c ∈ y, isUpperLetter c)
    (h : columnValue x = columnValue y) : x = y := by
  have e1 := columnRefLoop_columnValue x (fun c hc => letter_of_upper (hx c hc)) _ (Nat.le_refl _)
  have e2 := columnRefLoop_columnValue y (fun c hc => letter_of_upper (hy c hc)) _ (Nat.le_refl _)
  have m : ∀ z : List Char, (∀ c ∈ z, isUpperLetter c) → z.map Spec.upper = z := by
    intro z hz
    induction z with
    | nil => rfl
    | cons c cs ih => simp [upper_of_isUpper (hz c (by simp)), ih (fun d hd => hz d (by simp [hd]))]
  rw [m x hx, h] at e1
  rw [m y hy] at e2
  exact e1.symm.trans e2

theorem columnValue_cons (c : Char) (cs : List Char) :
    columnValue (c :: cs) = letterValue c * 26 ^ cs.length + columnValue cs := by
  conv => lhs; unfold columnValue
  rw [List.foldl_cons, foldl_columnValue]; simp

theorem columnValue_bounds (l : List Char) (hl : ∀ c ∈ l, isLetter c) :
    26 ^ l.length ≤ 25 * columnValue l + 1 ∧ 25 * columnValue l + 26 ≤ 26 ^ l.length * 26 := by
  induction l with
  | nil => simp [columnValue]
  | cons c cs ih =>
    have hv := letterValue_pos (hl c (by simp))
    have := ih (fun x hx => hl x (by simp [hx]))
    rw [columnValue_cons]
    simp only [List.length_cons, Nat.pow_succ]
    have h1 : 1 * 26 ^ cs.length ≤ letterValue c * 26 ^ cs.length := Nat.mul_le_mul_right _ hv.1
    have h2 : letterValue c * 26 ^ cs.length ≤ 26 * 26 ^ cs.length := Nat.mul_le_mul_right _ hv.2
    omega

theorem letterValue_lt_of_lt {c d : Char} (hc : isUpperLetter c) (hd : isUpperLetter d) (h : c < d) :
    letterValue c < letterValue d := by
  have h' : c.toNat < d.toNat := by
    rw [Char.lt_def, UInt32.lt_iff_toNat_lt] at h; exact h
  unfold isUpperLetter at hc hd
  unfold letterValue
  simp only [Char.le_iff_toNat] at *
  have : 'A'.toNat = 65 ∧ 'Z'.toNat = 90 ∧ 'a'.toNat = 97 ∧ 'z'.toNat = 122 := by decide
  rw [if_neg (by omega), if_neg (by omega)]; omega

theorem columnValue_lt_of_lex {x y : List Char} (hx : ∀ c ∈ x, isUpperLetter c)
    (hy : ∀ c ∈ y, isUpperLetter c) (hlen : x.length = y.length) (h : x < y) :
    columnValue x < columnValue y := by
  induction x generalizing y with
  | nil =>
    cases y with
    | nil => exact absurd h (List.lt_irrefl _)
    | cons d ds => simp at hlen
  | cons c cs ih =>
    cases y with
    | nil => simp at hlen
    | cons d ds =>
      simp only [List.length_cons, Nat.add_right_cancel_iff] at hlen
      have hcs : ∀ a ∈ cs, isUpperLetter a := fun a ha => hx a (by simp [ha])
      have hds : ∀ a ∈ ds, isUpperLetter a := fun a ha => hy a (by simp [ha])
      rw [columnValue_cons, columnValue_cons, hlen]
      rcases List.cons_lt_cons_iff.mp h with hcd | ⟨rfl, hlt⟩
      · have h1 := letterValue_lt_of_lt (hx c (by simp)) (hy d (by simp)) hcd
        have b1 := (columnValue_bounds cs (fun a ha => letter_of_upper (hcs a ha))).2
        have b2 := (columnValue_bounds ds (fun a ha => letter_of_upper (hds a ha))).1
        rw [hlen] at b1
        have h2 : (letterValue c + 1) * 26 ^ ds.length ≤ letterValue d * 26 ^ ds.length :=
          Nat.mul_le_mul_right _ h1
        rw [Nat.add_mul] at h2
        omega
      · have := ih hcs hds hlen hlt
        omega

theorem columnValue_lt_of_length {x y : List Char} (hx : ∀ c ∈ x, isLetter c)
    (hy : ∀ c ∈ y, isLetter c) (h : x.length < y.length) : columnValue x < columnValue y := by
  have b1 := (columnValue_bounds x hx).2
  have b2 := (columnValue_bounds y hy).1
  have h3 : 26 ^ (x.length + 1) ≤ 26 ^ y.length := Nat.pow_le_pow_right (by decide) h
  rw [Nat.pow_succ] at h3
  omega

theorem columnValue_lt_iff {x y : List Char} (hx : ∀ c ∈ x, isUpperLetter c)
    (hy : ∀ c ∈ y, isUpperLetter c) : columnValue x < columnValue y ↔ columnNameLt x y := by
  have mono : ∀ {x y : List Char}, (∀ c ∈ x, isUpperLetter c) → (∀ c ∈ y, isUpperLetter c) →
      columnNameLt x y → columnValue x < columnValue y := by
    intro x y hx hy h
    rcases h with h | ⟨h1, h2⟩
    · exact columnValue_lt_of_length (fun c hc => letter_of_upper (hx c hc)) (fun c hc => letter_of_upper (hy c hc)) h
    · exact columnValue_lt_of_lex hx hy h1 h2
  constructor
  · intro h
    rcases Nat.lt_trichotomy x.length y.length with hl | hl | hl
    · exact Or.inl hl
    · by_cases h2 : x < y
      · exact Or.inr ⟨hl, h2⟩
      · exfalso
        by_cases h3 : y < x
        · have := mono hy hx (Or.inr ⟨hl.symm, h3⟩)
          omega
        · have : x = y := List.le_antisymm (List.not_lt.mp h3) (List.not_lt.mp h2)
          subst this; omega
    · have := mono hy hx (Or.inl hl); omega
  · exact mono hx hy

theorem getColumnRef_pos (n : Nat) (h : n ≠ 0) :
    getColumnRef n = .ok (String.ofList (columnRefLoop n n [])) := by
  simp [getColumnRef, h]

end Oxml
