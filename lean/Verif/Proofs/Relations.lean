import Verif.Model.Relations
import Verif.Proofs.DocOps
import Verif.Proofs.Basic
/-!
# Relationship lists
-/
namespace Oxml
open Spec

theorem rId_inj {m n : Nat} (h : rId m = rId n) : m = n := by
  unfold rId at h
  apply toString_nat_inj
  rw [← String.toList_inj] at h ⊢
  rw [String.toList_append, String.toList_append] at h
  exact List.append_cancel_left h

theorem nextRelIdLoop_spec (rels : List Rel) (fuel n : Nat) :
    (rels.any (fun r => r.id = rId (nextRelIdLoop rels fuel n)) = false) ∨ ∀ i, i < fuel → rId (n + i) ∈ rels.map Rel.id := by
  induction fuel generalizing n with
  | zero => right; intro i hi; omega
  | succ f ih =>
    rw [nextRelIdLoop]
    split
    · rename_i h
      rcases ih (n + 1) with h' | h'
      · exact Or.inl h'
      · right
        intro i hi
        cases i with
        | zero =>
          obtain ⟨r, hr, he⟩ := List.any_eq_true.mp h
          exact List.mem_map.mpr ⟨r, hr, by simpa using he⟩
        | succ j => have := h' j (by omega); rw [Nat.add_right_comm] at this; exact this
    · rename_i h; left; simpa using h

theorem nextRelId_fresh (rels : List Rel) : nextRelId rels ∉ rels.map Rel.id := by
  unfold nextRelId
  rcases nextRelIdLoop_spec rels (rels.length + 1) (rels.length + 1) with h | h
  · intro hm
    obtain ⟨r, hr, he⟩ := List.mem_map.mp hm
    have := List.any_eq_false.mp h r hr
    simp [he] at this
  · exfalso
    have h1 : ((List.range (rels.length + 1)).map (fun i => rId (rels.length + 1 + i))).Nodup := by
      rw [List.nodup_iff_pairwise_ne, List.pairwise_map]
      refine (List.nodup_iff_pairwise_ne.mp List.nodup_range).imp ?_
      intro a b hab he
      have := rId_inj he
      omega
    have h2 := length_le_of_nodup_subset h1 (m := rels.map Rel.id) (by
      intro x hx
      obtain ⟨i, hi, rfl⟩ := List.mem_map.mp hx
      exact h i (List.mem_range.mp hi))
    simp at h2
    omega

theorem find?_filter_keep {α : Type} {p q : α → Bool} {l : List α} {a : α} (h : l.find? p = some a) (hq : q a = true) :
    (l.filter q).find? p = some a := by
  induction l with
  | nil => cases h
  | cons x xs ih =>
    rw [List.find?_cons] at h
    split at h
    · rename_i hp
      cases h
      rw [List.filter_cons, if_pos hq, List.find?_cons, hp]
    · rename_i hp
      rw [List.filter_cons]
      split
      · rw [List.find?_cons, hp]; exact ih h
      · exact ih h

theorem find?_append_some {α : Type} {p : α → Bool} {l m : List α} {a : α} (h : l.find? p = some a) : (l ++ m).find? p = some a := by
  rw [List.find?_append, h]; rfl

theorem resolve_abs {fp dir path : String} (h : relativePath fp = .ok dir) : resolveTarget fp ("/" ++ path) = .ok path := by
  unfold resolveTarget
  rw [h]
  simp only
  have : ("/" ++ path).toList = '/' :: path.toList := by rw [String.toList_append]; rfl
  rw [this]
  simp [String.ofList_toList]

theorem wf_relNode (u : Unicode) (r : Rel) : WfNode u (relNode r) := by
  unfold relNode
  refine wfNode_attrs (by decide +kernel) ?_ ?_ trivial
  · cases r.mode <;> simp only [akeys, List.map_append, List.map_cons, List.map_nil] <;> decide +kernel
  · cases r.mode <;> simp [akeys]

/-- The relationship as read back. -/
def escRel (r : Rel) : Rel := { id := escStr r.id, target := escStr r.target, type := escStr r.type, mode := r.mode.map escStr }

theorem loadRel_reload (u : Unicode) (r : Rel) : loadRel (reload (relNode r)) = .ok (escRel r) := by
  have h := fun k => reload_attr (wf_relNode u r) k
  unfold loadRel
  rw [reload_attrs_some]
  simp only
  have hk : ∀ k, aget k (reloadAttrs (relNode r).attrs) = ((relNode r).attr? k).map escStr := by
    intro k
    have := h k
    unfold Node.attr? at this
    rw [reload_attrs_some] at this
    exact this
  rw [hk, hk, hk, hk]
  cases hm : r.mode <;> simp [relNode, Node.attr?, Node.attrs, aget, escRel, hm]

theorem loadRel_relNode (r : Rel) : loadRel (relNode r) = .ok r := by
  cases r with
  | mk i t y m => cases m <;> rfl

theorem escRel_eq_iff (r : Rel) :
    escRel r = r ↔ NoSpecials r.id ∧ NoSpecials r.target ∧ NoSpecials r.type ∧ ∀ m, r.mode = some m → NoSpecials m := by
  cases r with
  | mk i t y m =>
    simp only [escRel, Rel.mk.injEq, escStr_eq_iff]
    cases m with
    | none => simp
    | some m => simp [escStr_eq_iff]

theorem mapRes_map {α β γ : Type} {f : β → Res γ} {g : α → β} {h : α → γ} (l : List α) (hf : ∀ x, f (g x) = .ok (h x)) :
    mapRes f (l.map g) = .ok (l.map h) := by
  induction l with
  | nil => rfl
  | cons x xs ih => simp only [List.map_cons, mapRes, hf x, ih]

end Oxml
