import Verif.Proofs.Names
import Verif.Spec.Xml
/-!
# Lemmas connecting the reload function with the user-level vocabulary
-/
namespace Oxml
open Spec

theorem escape_amp_entity {s l r : List Char} (h : escape s = l ++ '&' :: r) :
    ∃ name ∈ entityNames, ∃ r', r = name ++ ';' :: r' := by
  induction s generalizing l with
  | nil => simp [escape] at h
  | cons c s ih =>
    rw [escape_cons] at h
    have key : ∀ name : List Char, name ∈ entityNames → ('&' ∉ name) → '&' :: (name ++ [';']) ++ escape s = l ++ '&' :: r →
        ∃ name ∈ entityNames, ∃ r', r = name ++ ';' :: r' := by
      intro name hn hamp he
      cases l with
      | nil =>
        simp only [List.cons_append, List.nil_append, List.cons.injEq, true_and] at he
        exact ⟨name, hn, escape s, by rw [← he]; simp⟩
      | cons x xs =>
        simp only [List.cons_append, List.cons.injEq] at he
        obtain ⟨-, he⟩ := he
        rcases List.append_eq_append_iff.mp he with ⟨a', h1, h2⟩ | ⟨c', h1, h2⟩
        · exact ih h2
        · cases c' with
          | nil => simp at h2; exact ih (l := []) (by simpa using h2.symm)
          | cons y ys =>
            simp only [List.cons_append, List.cons.injEq] at h2
            obtain ⟨rfl, h2⟩ := h2
            have : '&' ∈ name ++ [';'] := by rw [h1]; simp
            simp [hamp] at this
    rcases escapeChar_cases c with ⟨rfl, hc⟩ | ⟨rfl, hc⟩ | ⟨rfl, hc⟩ | ⟨rfl, hc⟩ | ⟨rfl, hc⟩ | ⟨h1, h2, h3, h4, h5, hc⟩
    · exact key "lt".toList (by decide) (by decide) (by rw [hc] at h; simpa using h)
    · exact key "gt".toList (by decide) (by decide) (by rw [hc] at h; simpa using h)
    · exact key "amp".toList (by decide) (by decide) (by rw [hc] at h; simpa using h)
    · exact key "apos".toList (by decide) (by decide) (by rw [hc] at h; simpa using h)
    · exact key "quot".toList (by decide) (by decide) (by rw [hc] at h; simpa using h)
    · rw [hc] at h
      cases l with
      | nil =>
        simp only [List.cons_append, List.nil_append, List.cons.injEq] at h
        exact absurd h.1 h3
      | cons x xs =>
        simp only [List.cons_append, List.nil_append, List.cons.injEq] at h
        exact ih h.2

theorem aget_reloadAttrs {u : Unicode} {attrs : Option Attrs} (h : WfAttrs u attrs) (k : String) :
    aget k (reloadAttrs attrs) = (aget k (attrs.getD [])).map (fun v => String.ofList (escape v.toList)) := by
  cases attrs with
  | none => rfl
  | some a =>
    simp only [reloadAttrs, Option.getD_some]
    have hmap : ∀ m : Attrs, aget k (m.map (fun kv => (kv.1, String.ofList (escape kv.2.toList)))) =
        (aget k m).map (fun v => String.ofList (escape v.toList)) := by
      intro m
      induction m with
      | nil => rfl
      | cons x xs ih =>
        obtain ⟨k', v'⟩ := x
        simp only [List.map_cons, aget]
        split
        · rfl
        · exact ih
    rw [hmap, aget_perm (sortAttrs_perm a) ((akeys_sortAttrs_perm a).nodup_iff.mpr (h a rfl).1)]

theorem plains_iff {cs : List Node} : Plains cs ↔ ∀ c ∈ cs, Plain c := by
  induction cs with
  | nil => simp [Plains]
  | cons c cs ih => simp [Plains, ih]

theorem sames_map {cs : List Node} {f : Node → Node} (h : ∀ c ∈ cs, Same c (f c)) : Sames cs (cs.map f) := by
  induction cs with
  | nil => simp [Sames]
  | cons c cs ih =>
    exact ⟨h c (by simp), ih (fun x hx => h x (by simp [hx]))⟩

theorem reloadText_trimmed {v : String} (h : Trimmed v) : reloadText v = some v := by
  unfold reloadText
  rw [h.2, if_neg h.1, String.ofList_toList]

theorem same_reload {u : Unicode} : ∀ n : Node, WfNode u n → Plain n → Same n (reload n) := by
  refine Node.ind ?_
  intro tag attrs value cs ih hw hp
  obtain ⟨_, hwa, hwc⟩ := hw
  obtain ⟨hpa, hpv, hpc⟩ := hp
  have hattr : ∀ k, aget k (attrs.getD []) = aget k ((some (reloadAttrs attrs)).getD []) := by
    intro k
    rw [Option.getD_some, aget_reloadAttrs hwa]
    cases ha : aget k (attrs.getD []) with
    | none => rfl
    | some v =>
      cases attrs with
      | none => cases ha
      | some a =>
        have hm := mem_of_aget ha
        have := hpa a rfl _ hm
        simp only [Option.map_some]
        rw [escape_eq_self this, String.ofList_toList]
  cases value with
  | some v =>
    obtain ⟨ht, rfl⟩ := hpv v rfl
    simp only [reload, Same]
    exact ⟨trivial, hattr, (reloadText_trimmed ht).symm, by simp [Sames]⟩
  | none =>
    simp only [reload, Same]
    refine ⟨trivial, hattr, trivial, ?_⟩
    rw [reloads_eq]
    exact sames_map (fun c hc => ih c hc (wfNodes_iff.mp hwc c hc) (plains_iff.mp hpc c hc))

theorem nodeAt_reload (n : Node) (p : List Nat) : nodeAt (reload n) p = (nodeAt n p).map reload ∨
    (∃ q x v, q ≠ p ∧ nodeAt n q = some x ∧ x.value = some v) := by
  induction p generalizing n with
  | nil => left; simp [nodeAt]
  | cons i p ih =>
    cases n with
    | mk t a v cs =>
      cases v with
      | some v => right; exact ⟨[], _, v, by simp, rfl, rfl⟩
      | none =>
        simp only [reload, nodeAt]
        rw [reloads_eq]
        simp only [List.getElem?_map]
        cases hc : cs[i]? with
        | none => left; simp
        | some c =>
          simp only [Option.map_some]
          rcases ih c with h | ⟨q, x, v, hq, hx, hv⟩
          · left; exact h
          · right
            refine ⟨i :: q, x, v, by simpa using hq, ?_, hv⟩
            simp only [nodeAt, hc, hx]

/-- An element reachable without passing a text is found, reloaded, at the same path. -/
theorem nodeAt_reload_some {n x : Node} {p : List Nat} (h : nodeAt n p = some x) : nodeAt (reload n) p = some (reload x) := by
  induction p generalizing n with
  | nil => simp [nodeAt] at h ⊢; rw [h]
  | cons i p ih =>
    cases n with
    | mk t a v cs =>
      cases v with
      | some v => simp [nodeAt] at h
      | none =>
        simp only [reload, nodeAt] at h ⊢
        rw [reloads_eq]
        simp only [List.getElem?_map]
        cases hc : cs[i]? with
        | none => rw [hc] at h; cases h
        | some c =>
          rw [hc] at h
          exact ih h

theorem wfNode_nodeAt {u : Unicode} {n x : Node} {p : List Nat} (hw : WfNode u n) (h : nodeAt n p = some x) : WfNode u x := by
  induction p generalizing n with
  | nil => simp [nodeAt] at h; rw [← h]; exact hw
  | cons i p ih =>
    cases n with
    | mk t a v cs =>
      cases v with
      | some v => simp [nodeAt] at h
      | none =>
        simp only [nodeAt] at h
        cases hc : cs[i]? with
        | none => rw [hc] at h; cases h
        | some c =>
          rw [hc] at h
          exact ih (wfNodes_iff.mp hw.2.2 c (List.mem_of_getElem? hc)) h

theorem nameTailOk_iff (u : Unicode) (cs : List Char) (n : Nat) :
    nameTailOk u cs n = true ↔ (∀ x ∈ cs, isNameChar u x = true) ∧ (':' ∈ cs → n + cs.count ':' ≤ 1) := by
  induction cs generalizing n with
  | nil => simp [nameTailOk]
  | cons c cs ih =>
    rw [nameTailOk]
    by_cases hc : c = ':'
    · subst hc
      rw [if_pos rfl]
      have hcolon : isNameChar u ':' = true := by simp [isNameChar]
      by_cases hn : n + 1 > 1
      · rw [if_pos hn]
        simp only [Bool.false_eq_true, List.mem_cons, true_or, forall_const, List.count_cons_self, false_iff, not_and]
        intro _
        omega
      · rw [if_neg hn, ih]
        have hn0 : n = 0 := by omega
        subst hn0
        simp only [List.mem_cons, forall_eq_or_imp, hcolon, true_and, true_or, forall_const, List.count_cons_self]
        constructor
        · rintro ⟨h1, h2⟩
          refine ⟨h1, ?_⟩
          by_cases hm : ':' ∈ cs
          · have := h2 hm; have := List.count_pos_iff.mpr hm; omega
          · rw [List.count_eq_zero.mpr hm]; omega
        · rintro ⟨h1, h2⟩
          exact ⟨h1, fun _ => by omega⟩
    · rw [if_neg hc]
      by_cases hn : isNameChar u c = true
      · simp only [hn, Bool.not_true, Bool.false_eq_true, if_false, ih, List.mem_cons, forall_eq_or_imp, true_and]
        rw [List.count_cons_of_ne hc]
        simp [Ne.symm hc]
      · simp [hn]

theorem isValidXmlName_iff (u : Unicode) (s : String) : isValidXmlName u s = true ↔ LegalName u s := by
  unfold isValidXmlName LegalName
  cases hs : s.toList with
  | nil => simp
  | cons c cs =>
    simp only
    have hstart : isNameStartChar u c = true ↔ (c = '_' ∨ isAlphabetic u c = true) := by simp [isNameStartChar]
    have htail : ∀ x, isNameChar u x = true ↔ (x = '_' ∨ isAlphabetic u x = true ∨ x.isDigit = true ∨ x = '-' ∨ x = '.' ∨ x = ':') := by
      intro x; simp [isNameChar, isNameStartChar, or_assoc]
    constructor
    · intro h
      split at h
      · cases h
      · rename_i hc
        simp at hc
        rw [nameTailOk_iff] at h
        refine ⟨c, cs, rfl, hstart.mp hc, fun x hx => (htail x).mp (h.1 x hx), ?_⟩
        rw [List.count_cons_of_ne (isNameChar_not_colon_start hc)]
        by_cases hm : ':' ∈ cs
        · have := h.2 hm; omega
        · rw [List.count_eq_zero.mpr hm]; omega
    · rintro ⟨c', cs', he, h1, h2, h3⟩
      cases he
      have hc := hstart.mpr h1
      rw [List.count_cons_of_ne (isNameChar_not_colon_start hc)] at h3
      simp only [hc, Bool.not_true, Bool.false_eq_true, if_false]
      rw [nameTailOk_iff]
      exact ⟨fun x hx => (htail x).mpr (h2 x hx), fun _ => by omega⟩

/-! ### The stable sort -/

theorem stableInsert_pairwise {α : Type} (key : α → Nat) (x : α) (l : List α) (h : l.Pairwise (fun a b => key a ≤ key b)) :
    (stableInsert key x l).Pairwise (fun a b => key a ≤ key b) := by
  induction l with
  | nil => simp [stableInsert]
  | cons y ys ih =>
    rw [List.pairwise_cons] at h
    unfold stableInsert
    split
    · rename_i hle
      rw [List.pairwise_cons]
      refine ⟨?_, ih h.2⟩
      intro z hz
      rcases List.mem_cons.mp ((stableInsert_perm key x ys).mem_iff.mp hz) with rfl | hz
      · exact hle
      · exact h.1 z hz
    · rename_i hgt
      rw [List.pairwise_cons]
      refine ⟨?_, by rw [List.pairwise_cons]; exact h⟩
      intro z hz
      rcases List.mem_cons.mp hz with rfl | hz
      · omega
      · have := h.1 z hz; omega

theorem stableSort_pairwise {α : Type} (key : α → Nat) (l : List α) : (stableSort key l).Pairwise (fun a b => key a ≤ key b) := by
  unfold stableSort
  have : ∀ (l acc : List α), acc.Pairwise (fun a b => key a ≤ key b) →
      (l.foldl (fun acc x => stableInsert key x acc) acc).Pairwise (fun a b => key a ≤ key b) := by
    intro l
    induction l with
    | nil => intro acc h; exact h
    | cons x xs ih => intro acc h; exact ih _ (stableInsert_pairwise key x acc h)
  exact this l [] List.Pairwise.nil

theorem stableInsert_filter {α : Type} (key : α → Nat) (P : α → Bool) (x : α) (l : List α)
    (hP : ∀ a b, P a = true → P b = true → key a = key b) :
    l.Pairwise (fun a b => key a ≤ key b) →
    (stableInsert key x l).filter P = l.filter P ++ (if P x then [x] else []) := by
  induction l with
  | nil => intro _; simp [stableInsert, List.filter_cons]
  | cons y ys ih =>
    intro h
    rw [List.pairwise_cons] at h
    unfold stableInsert
    split
    · rw [List.filter_cons, List.filter_cons, ih h.2]
      split <;> simp
    · rename_i hgt
      cases hPx : P x with
      | false => simp [List.filter_cons, hPx]
      | true =>
        have hnil : (y :: ys).filter P = [] := by
          rw [List.filter_eq_nil_iff]
          intro z hz hPz
          have := hP x z hPx hPz
          rcases List.mem_cons.mp hz with rfl | hz
          · omega
          · have := h.1 z hz; omega
        rw [List.filter_cons, hPx, if_pos rfl, hnil]
        simp

theorem stableSort_filter {α : Type} (key : α → Nat) (P : α → Bool) (l : List α)
    (hP : ∀ a b, P a = true → P b = true → key a = key b) : (stableSort key l).filter P = l.filter P := by
  unfold stableSort
  have : ∀ (l acc : List α), acc.Pairwise (fun a b => key a ≤ key b) →
      (l.foldl (fun acc x => stableInsert key x acc) acc).filter P = acc.filter P ++ l.filter P := by
    intro l
    induction l with
    | nil => intro acc _; simp
    | cons x xs ih =>
      intro acc h
      rw [List.foldl_cons, ih _ (stableInsert_pairwise key x acc h), stableInsert_filter key P x acc hP h, List.filter_cons]
      split <;> simp
  simpa using this l [] List.Pairwise.nil

theorem lastIdx_nodup (tag : String) (sk : List String) (h : sk.Nodup) :
    orderKey.lastIdx tag sk = if tag ∈ sk then some (sk.idxOf tag) else none := by
  induction sk with
  | nil => rfl
  | cons t ts ih =>
    rw [List.nodup_cons] at h
    unfold orderKey.lastIdx
    rw [ih h.2]
    by_cases ht : t = tag
    · subst ht
      simp [h.1]
    · by_cases hm : tag ∈ ts
      · simp [hm, List.idxOf_cons, (beq_eq_false_iff_ne).mpr ht]
      · simp [hm, ht, Ne.symm ht]

theorem orderKey_nodup {sk : List String} (h : sk.Nodup) (tag : String) :
    orderKey sk tag = if tag ∈ sk then sk.idxOf tag else usizeMax := by
  unfold orderKey
  rw [lastIdx_nodup tag sk h]
  by_cases hm : tag ∈ sk <;> simp [hm]

end Oxml
