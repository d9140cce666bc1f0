import Verif.Proofs.Converters
/-!
# C01-C05: column and cell reference conversions
-/
namespace Oxml
open Spec

/-- **C01.** For every column number 1..65535, in both build profiles, the letter name exists and reading it
back gives the number. -/
theorem C01_column_roundtrip (b : Build) (u : Unicode) (n : Nat) (h1 : 1 ≤ n) (h2 : n ≤ 65535) :
    ∃ name, getColumnRef n = .ok name ∧ getColumnIndex b u name = .ok n := by
  refine ⟨_, getColumnRef_pos n (by omega), ?_⟩
  have hup := columnRefLoop_upper n n [] (by simp)
  have := getColumnIndex_letters b u (columnRefLoop n n []) [] (columnRefLoop_ne_nil n n (Nat.le_refl _) (by omega))
    (fun c hc => letter_of_upper (hup c hc)) (by simp)
  rw [List.append_nil, columnValue_columnRefLoop n n (Nat.le_refl _)] at this
  rw [this, if_pos (by omega)]

example : getColumnRef 16384 = .ok "XFD" ∧ getColumnIndex ⟨false⟩ ⟨fun _ => false⟩ "XFD" = .ok 16384 := by
  decide +kernel

/-- The letter name of a column denotes that column in the independent base-26 reading. -/
theorem C01_column_name_value (n : Nat) (h : 1 ≤ n) :
    ∃ name, getColumnRef n = .ok name ∧ columnValue name.toList = n := by
  refine ⟨_, getColumnRef_pos n (by omega), ?_⟩
  rw [String.toList_ofList]
  exact columnValue_columnRefLoop n n (Nat.le_refl _)

/-- **C02.** In an overflow-checked build a non-empty ASCII-letter string converts exactly when its base-26
value fits 16 bits (otherwise the call panics), and converting back gives the upper-cased string. -/
theorem C02_letters_checked (u : Unicode) (l : List Char) (hne : l ≠ []) (hl : ∀ c ∈ l, isLetter c) :
    (columnValue l ≤ 65535 →
      getColumnIndex ⟨false⟩ u (String.ofList l) = .ok (columnValue l) ∧
      getColumnRef (columnValue l) = .ok (String.ofList (l.map upper))) ∧
    (65535 < columnValue l → getColumnIndex ⟨false⟩ u (String.ofList l) = .error overflow) := by
  have h := getColumnIndex_letters ⟨false⟩ u l [] hne hl (by simp)
  rw [List.append_nil] at h
  constructor
  · intro hv
    refine ⟨by rw [h, if_pos (by omega)], ?_⟩
    have hpos : columnValue l ≠ 0 := by
      rw [columnValue_eq_revValue]
      have := revValue_pos (l := l.reverse) (fun c hc => hl c (by simpa using hc)) (by simpa using hne)
      omega
    rw [getColumnRef, if_neg hpos, columnRefLoop_columnValue l hl _ (Nat.le_refl _)]
  · intro hv
    rw [h, if_neg (by omega)]; simp

/-- **C02.** In a release build the result is the value modulo 65536: no failure, but wrap-around. -/
theorem C02_letters_release (u : Unicode) (l : List Char) (hne : l ≠ []) (hl : ∀ c ∈ l, isLetter c) :
    getColumnIndex ⟨true⟩ u (String.ofList l) = .ok (columnValue l % 65536) := by
  have h := getColumnIndex_letters ⟨true⟩ u l [] hne hl (by simp)
  rw [List.append_nil] at h
  rw [h]
  split
  · rw [Nat.mod_eq_of_lt (by assumption)]
  · simp

/-- **C02.** Case does not matter. -/
theorem C02_case_insensitive (b : Build) (u : Unicode) (l : List Char) (hne : l ≠ []) (hl : ∀ c ∈ l, isLetter c) :
    getColumnIndex b u (String.ofList (l.map upper)) = getColumnIndex b u (String.ofList l) := by
  have hu : ∀ c ∈ l.map upper, isLetter c := by
    intro c hc
    obtain ⟨d, hd, rfl⟩ := List.mem_map.mp hc
    exact letter_of_upper (upper_isUpper (hl d hd))
  have h1 := getColumnIndex_letters b u l [] hne hl (by simp)
  have h2 := getColumnIndex_letters b u (l.map upper) [] (by simpa using hne) hu (by simp)
  rw [List.append_nil] at h1 h2
  have e : columnValue (l.map upper) = columnValue l := by
    rw [← columnValue_columnRefLoop (columnValue l) (columnValue l) (Nat.le_refl _),
      columnRefLoop_columnValue l hl _ (Nat.le_refl _)]
  rw [h1, h2, e]

example : getColumnIndex ⟨false⟩ ⟨fun _ => false⟩ "crxo" = .ok 65535 ∧
    getColumnIndex ⟨false⟩ ⟨fun _ => false⟩ "CRXP" = .error overflow ∧
    getColumnIndex ⟨true⟩ ⟨fun _ => false⟩ "CRXQ" = .ok 1 := by decide +kernel

/-- **C03.** Names compare (shorter first, then alphabetically) exactly as the numbers do; names are
non-empty and use only A-Z; only 0 is rejected. -/
theorem C03_column_order (m n : Nat) (hm : 1 ≤ m) (hn : 1 ≤ n) :
    ∃ a b, getColumnRef m = .ok a ∧ getColumnRef n = .ok b ∧
      (m < n ↔ columnNameLt a.toList b.toList) ∧ (m = n ↔ a = b) ∧
      a.toList ≠ [] ∧ (∀ c ∈ a.toList, isUpperLetter c) := by
  have ha := columnRefLoop_upper m m [] (by simp)
  have hb := columnRefLoop_upper n n [] (by simp)
  refine ⟨_, _, getColumnRef_pos m (by omega),
    getColumnRef_pos n (by omega), ?_, ?_, ?_, ?_⟩
  · rw [String.toList_ofList, String.toList_ofList, ← columnValue_lt_iff ha hb,
      columnValue_columnRefLoop m m (Nat.le_refl _), columnValue_columnRefLoop n n (Nat.le_refl _)]
  · constructor
    · rintro rfl; rfl
    · intro h
      have h := congrArg (fun s => columnValue s.toList) h
      simpa [String.toList_ofList, columnValue_columnRefLoop] using h
  · rw [String.toList_ofList]
    exact columnRefLoop_ne_nil m m (Nat.le_refl _) (by omega)
  · rw [String.toList_ofList]; exact ha

theorem C03_zero_rejected (n : Nat) : (∃ e, getColumnRef n = .error e) ↔ n = 0 := by
  unfold getColumnRef
  split <;> simp_all

example : columnNameLt "Z".toList "AA".toList ∧ columnNameLt "AZ".toList "BA".toList := by
  constructor
  · left; decide
  · right; decide

/-- **C04.** For every row of 32 bits and column of 16 bits the textual reference reads back exactly. -/
theorem C04_cell_ref_roundtrip (b : Build) (u : Unicode) (row col : Nat) (hr : row ≤ u32Max)
    (hc1 : 1 ≤ col) (hc2 : col ≤ 65535) :
    ∃ name, getColumnRef col = .ok name ∧ getCellIndex b u (name ++ toString row) = .ok (row, col) := by
  refine ⟨_, getColumnRef_pos col (by omega), ?_⟩
  have hup := columnRefLoop_upper col col [] (by simp)
  have hdig : ∀ c ∈ Nat.toDigits 10 row, c.isDigit := fun c hc => Nat.isDigit_of_mem_toDigits (by decide) (by decide) hc
  have htl : (toString row).toList = Nat.toDigits 10 row := by
    rw [Nat.toString_eq_ofList_toDigits, String.toList_ofList]
  have hstr : String.ofList (columnRefLoop col col []) ++ toString row =
      String.ofList (columnRefLoop col col [] ++ Nat.toDigits 10 row) := by
    apply String.toList_inj.mp
    rw [String.toList_append, String.toList_ofList, String.toList_ofList, htl]
  rw [hstr]
  have hidx := getColumnIndex_letters b u (columnRefLoop col col []) (Nat.toDigits 10 row)
    (columnRefLoop_ne_nil col col (Nat.le_refl _) (by omega)) (fun c hc => letter_of_upper (hup c hc))
    (by
      intro c hc
      have hmem : c ∈ Nat.toDigits 10 row := List.mem_of_head? hc
      exact isAlphabetic_of_isDigit u (hdig c hmem))
  rw [columnValue_columnRefLoop col col (Nat.le_refl _), if_pos (by omega)] at hidx
  have hfil : (columnRefLoop col col [] ++ Nat.toDigits 10 row).filter Char.isDigit = Nat.toDigits 10 row := by
    rw [List.filter_append]
    have h1 : (columnRefLoop col col []).filter Char.isDigit = [] := by
      rw [List.filter_eq_nil_iff]
      intro c hc hd
      have hu2 := hup c hc
      unfold isUpperLetter at hu2
      simp only [Char.le_iff_toNat] at hu2
      have : 'A'.toNat = 65 ∧ 'Z'.toNat = 90 := by decide
      have := (isDigit_iff c).mp hd
      omega
    rw [h1, List.nil_append, List.filter_eq_self]
    exact hdig
  unfold getCellIndex extractDigits
  rw [String.toList_ofList, hfil]
  have hp := parseUInt_toString u32Max row hr
  rw [Nat.toString_eq_ofList_toDigits] at hp
  rw [hp, hidx]; rfl

example : getCellIndex ⟨false⟩ ⟨fun _ => false⟩ "AB12" = .ok (12, 28) := by decide +kernel

/-- A well-formed A1 reference: letters, then digits. -/
def Spec.wellFormedRef (s : List Char) : Prop :=
  ∃ l d, s = l ++ d ∧ l ≠ [] ∧ d ≠ [] ∧ (∀ c ∈ l, isLetter c) ∧ (∀ c ∈ d, c.isDigit)

/-- **C05 is false**: text that is not letters followed by digits is accepted; here `A1B2` is read as A12. -/
theorem C05_violated (b : Build) (u : Unicode) :
    getCellIndex b u "A1B2" = .ok (12, 1) ∧ ¬ wellFormedRef "A1B2".toList := by
  constructor
  · have h := getColumnIndex_letters b u "A".toList "1B2".toList (by decide)
      (by intro c hc; simp at hc; subst hc; left; decide)
      (by intro c hc; simp at hc; subst hc; rfl)
    have e : String.ofList ("A".toList ++ "1B2".toList) = "A1B2" := by decide +kernel
    rw [e] at h
    have hv : columnValue "A".toList = 1 := by decide
    rw [hv, if_pos (by decide)] at h
    unfold getCellIndex
    rw [h]
    decide +kernel
  · rintro ⟨l, d, h, hl, hd, hL, hD⟩
    have h2 : "A1B2".toList = ['A', '1', 'B', '2'] := by decide
    rw [h2] at h
    match l, hl with
    | [x], _ =>
      simp at h
      obtain ⟨rfl, rfl⟩ := h
      exact absurd (hD 'B' (by simp)) (by decide)
    | x :: y :: l, _ =>
      simp at h
      obtain ⟨rfl, rfl, h⟩ := h
      have := letter_range (hL '1' (by simp))
      revert this; decide

/-- **C05, the part that holds**: an accepted reference starts with a letter-like character, contains a
digit, and the row is the number formed by all its digits. Missing: nothing forces letters-then-digits. -/
theorem C05_partial (b : Build) (u : Unicode) (s : String) (row col : Nat)
    (h : getCellIndex b u s = .ok (row, col)) :
    (∃ c rest, s.toList = c :: rest ∧ isAlphabetic u c = true) ∧ (∃ c ∈ s.toList, c.isDigit) ∧ row ≤ 4294967295 ∧
      row = Nat.ofDigitChars 10 (s.toList.filter Char.isDigit) 0 := by
  unfold getCellIndex at h
  cases he : extractDigits s with
  | error e => rw [he] at h; simp [bind, Except.bind] at h
  | ok r =>
    rw [he] at h
    cases hc : getColumnIndex b u s with
    | error e => rw [hc] at h; simp [bind, Except.bind] at h
    | ok c =>
      rw [hc] at h
      simp only [bind, Except.bind, Except.ok.injEq, Prod.mk.injEq] at h
      obtain ⟨rfl, rfl⟩ := h
      refine ⟨?_, ?_⟩
      · unfold getColumnIndex at hc
        cases hs : s.toList with
        | nil => rw [hs] at hc; simp at hc
        | cons x xs =>
          refine ⟨x, xs, rfl, ?_⟩
          rw [hs] at hc
          cases hx : isAlphabetic u x with
          | true => rfl
          | false => simp [hx] at hc
      · unfold extractDigits parseUInt at he
        rw [String.toList_ofList] at he
        cases hu : unsignedDigits (s.toList.filter Char.isDigit) with
        | none => rw [hu] at he; simp at he
        | some ds =>
          rw [hu] at he
          have hds : ds = s.toList.filter Char.isDigit ∧ ds ≠ [] := by
            unfold unsignedDigits at hu
            split at hu
            · cases hu
              rename_i hcond
              refine ⟨dropPlus_of_digits _ (fun c hc => (List.mem_filter.mp hc).2), hcond.1⟩
            · cases hu
          simp only at he
          split at he
          · rename_i v hv
            split at hv
            · cases hv
              cases he
              refine ⟨?_, by unfold u32Max at *; assumption, by rw [hds.1]⟩
              obtain ⟨x, hx⟩ := List.exists_mem_of_ne_nil _ hds.2
              rw [hds.1] at hx
              exact ⟨x, (List.mem_filter.mp hx).1, (List.mem_filter.mp hx).2⟩
            · cases hv
          · cases he

example : getCellIndex ⟨false⟩ ⟨fun _ => false⟩ "B7" = .ok (7, 2) := by decide +kernel

end Oxml
