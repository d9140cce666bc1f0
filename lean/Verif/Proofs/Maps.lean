import Verif.Model.Maps
/-!
# Lemmas about association lists
-/
namespace Oxml

section
variable {K V : Type} [DecidableEq K]

@[simp] theorem aget_nil (k : K) : aget k ([] : List (K × V)) = none := rfl

theorem aget_ainsert (k j : K) (v : V) (m : List (K × V)) :
    aget j (ainsert k v m) = if k = j then some v else aget j m := by
  induction m with
  | nil => simp [ainsert, aget]
  | cons x xs ih =>
    obtain ⟨k', v'⟩ := x
    unfold ainsert
    by_cases hk : k' = k
    · rw [if_pos hk]; subst hk
      simp only [aget]; split <;> rfl
    · rw [if_neg hk]
      simp only [aget, ih]
      by_cases hj : k' = j
      · subst hj; simp [Ne.symm hk]
      · simp [hj]

@[simp] theorem aget_ainsert_self (k : K) (v : V) (m : List (K × V)) : aget k (ainsert k v m) = some v := by
  simp [aget_ainsert]

theorem aget_ainsert_ne {k j : K} (h : k ≠ j) (v : V) (m : List (K × V)) :
    aget j (ainsert k v m) = aget j m := by simp [aget_ainsert, h]

theorem aget_aerase (k j : K) (m : List (K × V)) :
    aget j (aerase k m) = if k = j then none else aget j m := by
  induction m with
  | nil => simp [aerase]
  | cons x xs ih =>
    obtain ⟨k', v'⟩ := x
    unfold aerase
    by_cases hk : k' = k
    · rw [if_pos hk, ih]; subst hk
      by_cases hj : k' = j
      · simp [hj]
      · simp [hj, aget]
    · rw [if_neg hk]
      simp only [aget, ih]
      by_cases hj : k' = j
      · subst hj; simp [Ne.symm hk]
      · simp [hj]

@[simp] theorem aget_aerase_self (k : K) (m : List (K × V)) : aget k (aerase k m) = none := by
  simp [aget_aerase]

theorem aget_aerase_ne {k j : K} (h : k ≠ j) (m : List (K × V)) : aget j (aerase k m) = aget j m := by
  simp [aget_aerase, h]

theorem mem_of_aget {k : K} {v : V} {m : List (K × V)} (h : aget k m = some v) : (k, v) ∈ m := by
  induction m with
  | nil => simp at h
  | cons x xs ih =>
    obtain ⟨k', v'⟩ := x
    simp only [aget] at h
    split at h
    · cases h; rename_i e; subst e; simp
    · simp [ih h]

theorem mem_akeys_of_aget {k : K} {v : V} {m : List (K × V)} (h : aget k m = some v) : k ∈ akeys m :=
  List.mem_map.mpr ⟨_, mem_of_aget h, rfl⟩

theorem aget_isSome_iff (k : K) (m : List (K × V)) : (∃ v, aget k m = some v) ↔ k ∈ akeys m := by
  constructor
  · rintro ⟨v, h⟩; exact mem_akeys_of_aget h
  · intro h
    induction m with
    | nil => simp [akeys] at h
    | cons x xs ih =>
      obtain ⟨k', v'⟩ := x
      simp only [aget]
      split
      · exact ⟨_, rfl⟩
      · rename_i hne
        simp only [akeys, List.map_cons, List.mem_cons] at h
        rcases h with h | h
        · exact absurd h.symm hne
        · exact ih h

theorem aget_eq_none_iff (k : K) (m : List (K × V)) : aget k m = none ↔ k ∉ akeys m := by
  rw [← aget_isSome_iff]
  cases aget k m <;> simp

theorem aget_of_mem {k : K} {v : V} {m : List (K × V)} (hn : (akeys m).Nodup) (h : (k, v) ∈ m) :
    aget k m = some v := by
  induction m with
  | nil => cases h
  | cons x xs ih =>
    obtain ⟨k', v'⟩ := x
    simp only [akeys, List.map_cons, List.nodup_cons] at hn
    simp only [aget]
    rcases List.mem_cons.mp h with h | h
    · cases h; simp
    · rw [if_neg]
      · exact ih hn.2 h
      · rintro rfl
        exact hn.1 (List.mem_map.mpr ⟨_, h, rfl⟩)

theorem akeys_ainsert (k : K) (v : V) (m : List (K × V)) :
    akeys (ainsert k v m) = if k ∈ akeys m then akeys m else akeys m ++ [k] := by
  induction m with
  | nil => simp [ainsert, akeys]
  | cons x xs ih =>
    obtain ⟨k', v'⟩ := x
    unfold ainsert
    by_cases hk : k' = k
    · subst hk; simp [akeys]
    · rw [if_neg hk]
      simp only [akeys, List.map_cons, List.mem_cons] at *
      rw [ih]
      by_cases hm : k ∈ xs.map Prod.fst
      · simp [hm]
      · simp [hm, Ne.symm hk]

theorem mem_akeys_ainsert (k j : K) (v : V) (m : List (K × V)) :
    j ∈ akeys (ainsert k v m) ↔ j = k ∨ j ∈ akeys m := by
  rw [akeys_ainsert]
  split
  · constructor
    · exact Or.inr
    · rintro (rfl | h) <;> assumption
  · simp [or_comm]

theorem nodup_ainsert (k : K) (v : V) {m : List (K × V)} (h : (akeys m).Nodup) :
    (akeys (ainsert k v m)).Nodup := by
  rw [akeys_ainsert]
  split
  · exact h
  · rename_i hk
    rw [List.nodup_append]
    refine ⟨h, by simp, ?_⟩
    intro a ha b hb
    simp at hb; subst hb
    rintro rfl; exact hk ha

theorem akeys_aerase (k : K) (m : List (K × V)) : akeys (aerase k m) = (akeys m).filter (fun x => x ≠ k) := by
  induction m with
  | nil => rfl
  | cons x xs ih =>
    obtain ⟨k', v'⟩ := x
    unfold aerase
    by_cases hk : k' = k
    · rw [if_pos hk, ih]; simp [akeys, hk]
    · rw [if_neg hk]; simp only [akeys, List.map_cons] at *; rw [ih]; simp [hk]

theorem nodup_aerase (k : K) {m : List (K × V)} (h : (akeys m).Nodup) : (akeys (aerase k m)).Nodup := by
  rw [akeys_aerase]; exact h.filter _

theorem ainsert_of_not_mem {k : K} {v : V} {m : List (K × V)} (h : k ∉ akeys m) : ainsert k v m = m ++ [(k, v)] := by
  induction m with
  | nil => rfl
  | cons x xs ih =>
    obtain ⟨k', v'⟩ := x
    simp only [akeys, List.map_cons, List.mem_cons, not_or] at h
    unfold ainsert
    rw [if_neg (Ne.symm h.1), ih h.2]; rfl

theorem aerase_of_not_mem {k : K} {m : List (K × V)} (h : k ∉ akeys m) : aerase k m = m := by
  induction m with
  | nil => rfl
  | cons x xs ih =>
    obtain ⟨j, v⟩ := x
    simp only [akeys, List.map_cons, List.mem_cons, not_or] at h
    unfold aerase
    rw [if_neg (Ne.symm h.1), ih h.2]

theorem ahas_iff (k : K) (m : List (K × V)) : ahas k m = true ↔ k ∈ akeys m := by
  unfold ahas
  rw [Option.isSome_iff_exists, aget_isSome_iff]

end

/-- Distinct elements all found in a list are at most as many as its length. -/
theorem length_le_of_nodup_subset {α : Type} [DecidableEq α] {l m : List α} (hn : l.Nodup)
    (hs : ∀ x ∈ l, x ∈ m) : l.length ≤ m.length := by
  induction l generalizing m with
  | nil => simp
  | cons x xs ih =>
    have hx : x ∈ m := hs x (by simp)
    rw [List.nodup_cons] at hn
    have h1 : xs.length ≤ (m.erase x).length := by
      apply ih hn.2
      intro y hy
      have hne : y ≠ x := by rintro rfl; exact hn.1 hy
      exact (List.mem_erase_of_ne hne).mpr (hs y (by simp [hy]))
    rw [List.length_erase_of_mem hx] at h1
    have : 0 < m.length := List.length_pos_of_mem hx
    simp only [List.length_cons]; omega

/-! ### Sorted maps -/
section
variable {V : Type}

theorem aget_sinsert (k j : Nat) (v : V) (m : List (Nat × V)) (hs : SortedKeys m) :
    aget j (sinsert k v m) = if k = j then some v else aget j m := by
  induction m with
  | nil => simp [sinsert, aget]
  | cons x xs ih =>
    obtain ⟨k', v'⟩ := x
    have hs' : SortedKeys xs := (List.pairwise_cons.mp hs).2
    unfold sinsert
    split
    · simp [aget]
    · split
      · rename_i h; subst h
        simp only [aget]; split <;> rfl
      · rename_i h1 h2
        simp only [aget, ih hs']
        by_cases hj : k' = j
        · subst hj; simp [h2]
        · simp [hj]

theorem mem_akeys_sinsert (k j : Nat) (v : V) (m : List (Nat × V)) :
    j ∈ akeys (sinsert k v m) ↔ j = k ∨ j ∈ akeys m := by
  induction m with
  | nil => simp [sinsert, akeys]
  | cons x xs ih =>
    obtain ⟨k', v'⟩ := x
    unfold sinsert
    split
    · simp [akeys]
    · split
      · rename_i h; subst h; simp [akeys]
      · simp only [akeys, List.map_cons, List.mem_cons] at *
        rw [ih]; constructor <;> (intro h; rcases h with h | h | h <;> simp [h])

theorem sorted_sinsert (k : Nat) (v : V) (m : List (Nat × V)) (hs : SortedKeys m) :
    SortedKeys (sinsert k v m) := by
  induction m with
  | nil => simp [sinsert, SortedKeys, akeys]
  | cons x xs ih =>
    obtain ⟨k', v'⟩ := x
    have hp := List.pairwise_cons.mp hs
    unfold sinsert
    split
    · rename_i h
      apply List.pairwise_cons.mpr
      refine ⟨?_, hs⟩
      intro a ha
      rcases List.mem_cons.mp ha with rfl | ha
      · exact h
      · exact Nat.lt_trans h (hp.1 a ha)
    · split
      · rename_i h; subst h; exact hs
      · rename_i h1 h2
        apply List.pairwise_cons.mpr
        refine ⟨?_, ih hp.2⟩
        intro a ha
        have := (mem_akeys_sinsert k a v xs).mp ha
        rcases this with rfl | h
        · omega
        · exact hp.1 a h

theorem SortedKeys.nodup {m : List (Nat × V)} (h : SortedKeys m) : (akeys m).Nodup :=
  List.Pairwise.imp (fun h => Nat.ne_of_lt h) h

end

end Oxml
