import Verif.Proofs.CycleDocs
import Verif.Proofs.StylesFit
/-!
# The flags of cell formats are 0 or 1, after any history
-/
namespace Oxml
open Spec

/-- The flags of every format are 0 or 1. -/
def FlagBits (st : Styles) : Prop := (∀ x ∈ st.xfs, FlagsBit x) ∧ ∀ x ∈ st.styleXfs, FlagsBit x

theorem normalizeBoolU8_bit (s : String) : normalizeBoolU8 s ≤ 1 := by
  unfold normalizeBoolU8; split <;> omega

theorem flagAttr_bit (a : Attrs) (k : String) : flagAttr a k ≤ 1 := by
  unfold flagAttr
  cases aget k a with
  | none => exact Nat.zero_le _
  | some v => exact normalizeBoolU8_bit v

theorem loadXf_bits {n : Node} {x : Xf} (h : loadXf n = .ok x) : FlagsBit x := by
  unfold loadXf at h
  split at h
  · cases h; (unfold FlagsBit; decide)
  · split at h
    · cases h
      unfold loadAlign
      split
      · exact ⟨flagAttr_bit _ _, flagAttr_bit _ _, flagAttr_bit _ _, flagAttr_bit _ _, flagAttr_bit _ _, flagAttr_bit _ _, Nat.zero_le _⟩
      · next c _ =>
        refine ⟨flagAttr_bit _ _, flagAttr_bit _ _, flagAttr_bit _ _, flagAttr_bit _ _, flagAttr_bit _ _, flagAttr_bit _ _, ?_⟩
        show ((c.attr? "wrapText").map normalizeBoolU8).getD 0 ≤ 1
        cases c.attr? "wrapText" with
        | none => exact Nat.zero_le _
        | some v => exact normalizeBoolU8_bit v
    all_goals cases h

theorem load_bits {x : XDoc} {st : Styles} (h : (Styles.load x).1 = .ok st) : FlagBits st := by
  unfold Styles.load at h
  split at h
  · next h1 h2 h3 h4 h5 h6 =>
    cases h
    constructor
    · intro y hy
      obtain ⟨n, _, hn⟩ := mapRes_mem h6 y hy
      exact loadXf_bits hn
    · intro y hy
      obtain ⟨n, _, hn⟩ := mapRes_mem h5 y hy
      exact loadXf_bits hn
  all_goals cases h

theorem applyFlag_bit {α : Type} (h : α → Nat) (l : List α) (x : α) : applyFlag h l x ≤ 1 := by
  unfold applyFlag; split <;> omega

theorem bit_bit (b : Bool) : bit b ≤ 1 := by cases b <;> decide

theorem numFmtPart_bit {b : Build} {hs : Hashes} {l l' : List NumFmt} {s : StyleSetting} {n k : Nat} (h : numFmtPart b hs l s = .ok (l', n, k)) : k ≤ 1 := by
  unfold numFmtPart at h
  split at h
  · split at h
    · cases h
    · split at h
      · split at h
        · cases h
        · cases h; exact Nat.le_refl _
      · cases h; exact Nat.le_refl _
  · cases h; exact Nat.zero_le _

theorem getStyleId_bits {b : Build} {hs : Hashes} {st st' : Styles} {s : StyleSetting} {i : Nat} (hf : FlagBits st)
    (h : getStyleId b hs st s = .ok (st', i)) : FlagBits st' := by
  unfold getStyleId at h
  split at h
  · cases h
  · next l n k e =>
    have hk := numFmtPart_bit e
    cases h
    have hx : FlagsBit (requestedXf hs st s n k) :=
      ⟨applyFlag_bit _ _ _, bit_bit _, applyFlag_bit _ _ _, applyFlag_bit _ _ _, hk, Nat.zero_le _, bit_bit _⟩
    constructor
    · intro x hx'
      rcases mem_findOrPush hx' with hx' | rfl
      · exact hf.1 x hx'
      · exact hx
    · intro x hx'
      rcases mem_findOrPush hx' with hx' | rfl
      · exact hf.2 x hx'
      · exact hx

theorem step_bits {env : Env} {s : Session} {op : WbOp} (h : FlagBits s.x.styles.data) : FlagBits (s.step env op).2.x.styles.data := by
  cases op with
  | add name => rw [Session.step, (open_keeps env s name).2]; exact h
  | get name => rw [Session.step, (open_keeps env s (some name)).2]; exact h
  | sheet i op =>
    unfold Session.step
    simp only
    split
    · exact h
    · split <;> exact h
  | drop i =>
    unfold Session.step
    simp only
    split <;> exact h
  | delete i =>
    unfold Session.step
    simp only
    split <;> exact h
  | rename old new =>
    unfold Session.step
    simp only
    split <;> exact h
  | active name => exact h
  | hide name => exact h
  | view op => exact h
  | style hs st =>
    unfold Session.step
    simp only
    split
    · exact h
    · next e => exact getStyleId_bits h e

theorem session_bits {env : Env} {ops : List WbOp} {s s' : Session} (h : FlagBits s.x.styles.data) (hr : s.run env ops = .ok s') :
    FlagBits s'.x.styles.data := by
  induction ops generalizing s with
  | nil => cases hr; exact h
  | cons op ops ih =>
    have key : (s.step env op).2.run env ops = .ok s' := by
      rw [Session.run] at hr
      split at hr
      · cases hr
      · next e => rw [e]; exact hr
    exact ih (step_bits h) key

end Oxml
