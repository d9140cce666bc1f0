import Verif.Model.Borrows

/-!
# A sound check of guards
-/

namespace Oxml

open Spec

/-- What is held, by kind. -/
structure Held where
  shared : Kind → Bool
  excl : Kind → Bool

/-- May a guard be asked for? -/
def Held.ok (h : Held) : Mode → Kind → Bool
  | .shared, k => !h.excl k
  | .excl, k => !h.excl k && !h.shared k

/-- One more guard. -/
def Held.take (h : Held) : Mode → Kind → Held
  | .shared, k => { h with shared := fun x => x == k || h.shared x }
  | .excl, k => { h with excl := fun x => x == k || h.excl x }

/-- No request is refused when this much is held. -/
def Prog.safe : Prog → Held → Bool
  | .skip, _ => true
  | .seq p q, h => p.safe h && q.safe h
  | .choice p q, h => p.safe h && q.safe h
  | .loop p, h => p.safe h
  | .guard m k p, h => h.ok m k && p.safe (h.take m k)

/-- The guards out after a run are among those held. -/
def HoldsFor (h : Held) (t : List Ev) : Prop :=
  ∀ c, (heldAfter .excl c t ≠ 0 → h.excl c.kind = true) ∧ (heldAfter .shared c t ≠ 0 → h.shared c.kind = true)

theorem heldAfter_append (m : Mode) (c : Cell) (s t : List Ev) :
    heldAfter m c (s ++ t) = heldAfter m c s + heldAfter m c t := by
  simp only [heldAfter, List.count_append]
  omega

theorem heldAfter_nil (m : Mode) (c : Cell) : heldAfter m c [] = 0 := by
  simp [heldAfter]

theorem heldAfter_acquire (m m' : Mode) (c c' : Cell) :
    heldAfter m c [.acquire m' c'] = if m' = m ∧ c' = c then 1 else 0 := by
  by_cases h : m' = m ∧ c' = c
  · obtain ⟨rfl, rfl⟩ := h
    simp [heldAfter]
  · simp only [h, if_false, heldAfter]
    have : ¬ (Ev.acquire m' c' = Ev.acquire m c) := by
      intro e; injection e with e1 e2; exact h ⟨e1, e2⟩
    simp [this]

theorem heldAfter_release (m m' : Mode) (c c' : Cell) :
    heldAfter m c [.release m' c'] = if m' = m ∧ c' = c then -1 else 0 := by
  by_cases h : m' = m ∧ c' = c
  · obtain ⟨rfl, rfl⟩ := h
    simp [heldAfter]
  · simp only [h, if_false, heldAfter]
    have : ¬ (Ev.release m' c' = Ev.release m c) := by
      intro e; injection e with e1 e2; exact h ⟨e1, e2⟩
    simp [this]

/-- Every run gives back what it took. -/
theorem trace_released {p : Prog} {t : List Ev} (h : Trace p t) : AllReleased t := by
  induction h with
  | stop p => intro m c; exact heldAfter_nil m c
  | seq _ _ i j => intro m c; rw [heldAfter_append, i m c, j m c]; rfl
  | left _ i => exact i
  | right _ i => exact i
  | loop _ _ i j => intro m c; rw [heldAfter_append, i m c, j m c]; rfl
  | @guard m' k p t n _ i =>
    intro m c
    have : (Ev.acquire m' ⟨k, n⟩ :: (t ++ [Ev.release m' ⟨k, n⟩])) = [Ev.acquire m' ⟨k, n⟩] ++ (t ++ [Ev.release m' ⟨k, n⟩]) := rfl
    rw [this, heldAfter_append, heldAfter_append, i m c, heldAfter_acquire, heldAfter_release]
    by_cases h : m' = m ∧ (⟨k, n⟩ : Cell) = c <;> simp [h]

/-- No request of the second run is refused after the first. -/
def FreeAfter (s t : List Ev) : Prop :=
  ∀ before m c after, t = before ++ .acquire m c :: after → ¬ Refused (s ++ before) m c

theorem freeAfter_append {s t u : List Ev} (h : FreeAfter s t) (g : FreeAfter (s ++ t) u) : FreeAfter s (t ++ u) := by
  intro before m c after e
  rcases List.append_eq_append_iff.mp e with ⟨a, e1, e2⟩ | ⟨a, e1, e2⟩
  · subst e1
    rw [← List.append_assoc]
    exact g a m c after e2
  · cases a with
    | nil =>
      simp only [List.nil_append] at e2
      simp only [List.append_nil] at e1
      subst e1
      have := g [] m c after e2.symm
      simpa using this
    | cons x xs =>
      simp only [List.cons_append, List.cons.injEq] at e2
      obtain ⟨rfl, e3⟩ := e2
      exact h before m c xs e1

theorem covers_append {h : Held} {s t : List Ev} (a : HoldsFor h s) (b : AllReleased t) : HoldsFor h (s ++ t) := by
  intro c
  rw [heldAfter_append, heldAfter_append, b .excl c, b .shared c]
  simpa using a c

theorem covers_take {h : Held} {s : List Ev} (a : HoldsFor h s) (m : Mode) (k : Kind) (n : Nat) :
    HoldsFor (h.take m k) (s ++ [.acquire m ⟨k, n⟩]) := by
  intro c
  rw [heldAfter_append, heldAfter_append, heldAfter_acquire, heldAfter_acquire]
  have a1 := (a c).1
  have a2 := (a c).2
  cases m with
  | shared =>
    refine ⟨fun e => ?_, fun e => ?_⟩
    · simp only [reduceCtorEq, false_and, if_false, Int.add_zero] at e
      exact a1 e
    · show (c.kind == k || h.shared c.kind) = true
      by_cases hc : (⟨k, n⟩ : Cell) = c
      · subst hc; simp
      · simp only [hc, and_false, if_false, Int.add_zero] at e
        simp [a2 e]
  | excl =>
    refine ⟨fun e => ?_, fun e => ?_⟩
    · show (c.kind == k || h.excl c.kind) = true
      by_cases hc : (⟨k, n⟩ : Cell) = c
      · subst hc; simp
      · simp only [hc, and_false, if_false, Int.add_zero] at e
        simp [a1 e]
    · simp only [reduceCtorEq, false_and, if_false, Int.add_zero] at e
      exact a2 e

theorem not_refused {h : Held} {s : List Ev} (a : HoldsFor h s) {m : Mode} {k : Kind} (n : Nat) (o : h.ok m k = true) :
    ¬ Refused s m ⟨k, n⟩ := by
  rintro (e | ⟨rfl, e⟩)
  · have := (a ⟨k, n⟩).1 e
    cases m <;> simp_all [Held.ok]
  · have := (a ⟨k, n⟩).2 e
    simp_all [Held.ok]

/-- The check is sound. -/
theorem safe_free {p : Prog} {t : List Ev} (r : Trace p t) :
    ∀ {h : Held} {s : List Ev}, HoldsFor h s → p.safe h = true → FreeAfter s t := by
  induction r with
  | stop p => intro h s _ _ before m c after e; simp at e
  | seq rp rq i j =>
    intro h s a o
    simp only [Prog.safe, Bool.and_eq_true] at o
    exact freeAfter_append (i a o.1) (j (covers_append a (trace_released rp)) o.2)
  | left rp i =>
    intro h s a o
    simp only [Prog.safe, Bool.and_eq_true] at o
    exact i a o.1
  | right rp i =>
    intro h s a o
    simp only [Prog.safe, Bool.and_eq_true] at o
    exact i a o.2
  | loop rp rq i j =>
    intro h s a o
    exact freeAfter_append (i a o) (j (covers_append a (trace_released rp)) o)
  | @guard m k p t n rp i =>
    intro h s a o
    simp only [Prog.safe, Bool.and_eq_true] at o
    have first : FreeAfter s [Ev.acquire m ⟨k, n⟩] := by
      intro before m' c after e
      cases before with
      | nil =>
        simp only [List.nil_append, List.cons.injEq] at e
        obtain ⟨e, -⟩ := e
        injection e with e1 e2
        subst e1; subst e2
        simpa using not_refused a n o.1
      | cons x xs => simp at e
    have last : ∀ u, FreeAfter u [Ev.release m ⟨k, n⟩] := by
      intro u before m' c after e
      cases before with
      | nil => simp at e
      | cons x xs => simp at e
    have body := i (covers_take a m k n) o.2
    exact freeAfter_append first (freeAfter_append body (last _))

/-- Nothing held. -/
def Held.none : Held := ⟨fun _ => false, fun _ => false⟩

theorem covers_none : HoldsFor Held.none [] := by
  intro c
  simp [heldAfter_nil]

end Oxml
