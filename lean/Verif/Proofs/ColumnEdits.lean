import Verif.Spec.ColumnEdits
/-!
# Splitting ranges of columns
-/
namespace Oxml
open Spec

/-- The columns are not set by the edits. -/
def Unset (es : List (Nat × Option ColProps)) (c : Nat) : Prop := ∀ e ∈ es, e.1 ≠ c

/-- What one edit leaves of ranges. -/
def cutAll (c : Nat) (l : List ColProps) : List ColProps := l.flatMap (fun r => (splitCol c r).1) ++ l.flatMap (fun r => (splitCol c r).2)

/-- The range made by an edit. -/
def single (e : Nat × Option ColProps) : List ColProps := match e.2 with | none => [] | some p => [{ p with min := e.1, max := e.1 }]

/-- One edit on all ranges. -/
def setOne (l : List ColProps) (e : Nat × Option ColProps) : List ColProps :=
  l.flatMap (fun r => (splitCol e.1 r).1) ++ single e ++ l.flatMap (fun r => (splitCol e.1 r).2)

/-- What edits leave of one range. -/
def pieces (r : ColProps) (es : List (Nat × Option ColProps)) : List ColProps := es.foldl (fun l e => cutAll e.1 l) [r]

/-- The ranges made by edits. -/
def singles (es : List (Nat × Option ColProps)) : List ColProps := es.foldl (fun l e => cutAll e.1 l ++ single e) []

theorem flatMap_append_perm {α β : Type} (f g : α → List β) (l : List α) : (l.flatMap (fun a => f a ++ g a)).Perm (l.flatMap f ++ l.flatMap g) := by
  induction l with
  | nil => exact .refl _
  | cons a l ih =>
    simp only [List.flatMap_cons]
    refine ((ih.append_left (f a ++ g a))).trans ?_
    rw [List.append_assoc, List.append_assoc]
    refine List.Perm.append_left _ ?_
    rw [← List.append_assoc, ← List.append_assoc]
    exact List.perm_append_comm.append_right _

theorem cutAll_perm (c : Nat) (l : List ColProps) : (cutAll c l).Perm (l.flatMap (fun r => (splitCol c r).1 ++ (splitCol c r).2)) :=
  (flatMap_append_perm _ _ l).symm

theorem setOne_perm (l : List ColProps) (e : Nat × Option ColProps) : (setOne l e).Perm (cutAll e.1 l ++ single e) := by
  unfold setOne cutAll
  rw [List.append_assoc, List.append_assoc]
  exact List.Perm.append_left _ List.perm_append_comm

theorem cutAll_congr {c : Nat} {l l' : List ColProps} (h : l.Perm l') : (cutAll c l).Perm (cutAll c l') :=
  (cutAll_perm c l).trans ((h.flatMap_right _).trans (cutAll_perm c l').symm)

theorem cutAll_append (c : Nat) (a b : List ColProps) : (cutAll c (a ++ b)).Perm (cutAll c a ++ cutAll c b) := by
  refine (cutAll_perm c _).trans ?_
  rw [List.flatMap_append]
  exact (cutAll_perm c a).symm.append (cutAll_perm c b).symm

theorem cutAll_flatMap (c : Nat) (f : ColProps → List ColProps) (l : List ColProps) : (cutAll c (l.flatMap f)).Perm (l.flatMap (fun r => cutAll c (f r))) := by
  induction l with
  | nil => exact .refl _
  | cons a l ih =>
    simp only [List.flatMap_cons]
    exact (cutAll_append c _ _).trans (ih.append_left _)

/-- After any edits: what is left of each range, and the ranges made. -/
theorem setAll_perm (cs : List ColProps) (es : List (Nat × Option ColProps)) :
    (es.foldl setOne cs).Perm (cs.flatMap (fun r => pieces r es) ++ singles es) := by
  have gen : ∀ n, ∀ es : List (Nat × Option ColProps), es.length = n → (es.foldl setOne cs).Perm (cs.flatMap (fun r => pieces r es) ++ singles es) := by
    intro n
    induction n with
    | zero =>
      intro es h
      cases List.length_eq_zero_iff.mp h
      simp [pieces, singles]
    | succ n ih =>
      intro es h
      rcases List.eq_nil_or_concat es with rfl | ⟨es, e, rfl⟩
      · simp at h
      · have hi := ih es (by simpa using h)
        simp only [pieces, singles, List.concat_eq_append, List.foldl_append, List.foldl_cons, List.foldl_nil] at hi ⊢
        refine (setOne_perm _ e).trans ?_
        rw [← List.append_assoc]
        refine List.Perm.append_right _ ?_
        refine (cutAll_congr hi).trans ((cutAll_append _ _ _).trans (List.Perm.append_right _ (cutAll_flatMap _ _ _)))
  exact gen _ es rfl

/-! ## One range -/

theorem filter_flatMap_one {P : ColProps → Bool} {f : ColProps → List ColProps} {q : ColProps} : ∀ {l : List ColProps}, l.filter P = [q] →
    (∀ q', P q' = false → (f q').filter P = []) → (l.flatMap f).filter P = (f q).filter P := by
  intro l
  induction l with
  | nil => intro h; cases h
  | cons a l ih =>
    intro h hf
    rw [List.flatMap_cons, List.filter_append]
    by_cases ha : P a = true
    · rw [List.filter_cons, if_pos ha] at h
      obtain ⟨rfl, h2⟩ := List.cons.inj h
      have : (l.flatMap f).filter P = [] := by
        rw [List.filter_eq_nil_iff]
        intro x hx
        obtain ⟨b, hb, hxb⟩ := List.mem_flatMap.mp hx
        have hpb : P b = false := by
          have := List.filter_eq_nil_iff.mp h2 b hb
          simpa using this
        exact List.filter_eq_nil_iff.mp (hf b hpb) x hxb
      rw [this, List.append_nil]
    · have ha' : P a = false := by simpa using ha
      rw [List.filter_cons, if_neg ha] at h
      rw [hf a ha', ih h hf, List.nil_append]

theorem split_sub {c x : Nat} {q p : ColProps} (h : p ∈ (splitCol c q).1 ∨ p ∈ (splitCol c q).2) (hx : Spans p x) : Spans q x ∧ x ≠ c := by
  unfold splitCol at h
  unfold Spans at hx ⊢
  split at h
  · simp at h
  · split at h
    · split at h
      · simp at h; subst h; simp at hx; omega
      · split at h
        · simp at h; subst h; simp at hx; omega
        · simp at h
          rcases h with rfl | rfl <;> simp at hx <;> omega
    · next h1 h2 =>
      simp at h; subst h
      refine ⟨hx, ?_⟩
      intro e; subst e; exact h2 hx

/-- An edit between two columns never set cuts the range. -/
theorem first_between {r : ColProps} {a b : Nat} (h1 : r.min ≤ a) (h2 : b ≤ r.max) : ∀ (es pre : List (Nat × Option ColProps)), Unset (pre ++ es) a → Unset (pre ++ es) b →
    (∀ e ∈ pre, ¬ (a < e.1 ∧ e.1 < b)) → (∃ e ∈ es, a < e.1 ∧ e.1 < b) → ∃ k, k < b ∧ Cut r (pre ++ es) k := by
  intro es
  induction es with
  | nil => intro _ _ _ _ h; obtain ⟨e, he, _⟩ := h; cases he
  | cons e es ih =>
    intro pre ha hb hn hex
    by_cases he : a < e.1 ∧ e.1 < b
    · refine ⟨e.1, he.2, pre, e.2, es, rfl, by omega, by omega, ?_⟩
      intro e' he'
      have k1 := hn e' he'
      have k2 := ha e' (by simp [he'])
      have k3 := hb e' (by simp [he'])
      omega
    · have : pre ++ e :: es = (pre ++ [e]) ++ es := by simp
      rw [this] at ha hb ⊢
      refine ih (pre ++ [e]) ha hb ?_ ?_
      · intro e' he'
        rcases List.mem_append.mp he' with h | h
        · exact hn e' h
        · rw [List.mem_singleton.mp h]; exact he
      · obtain ⟨e', he', hx⟩ := hex
        rcases List.mem_cons.mp he' with rfl | h
        · exact absurd hx he
        · exact ⟨e', h, hx⟩

theorem cut_snoc {r : ColProps} {es : List (Nat × Option ColProps)} {e : Nat × Option ColProps} {k : Nat} : Cut r (es ++ [e]) k ↔
    Cut r es k ∨ (k = e.1 ∧ r.min < k ∧ k < r.max ∧ ∀ e' ∈ es, e'.1 + 1 < k ∨ k + 1 < e'.1) := by
  constructor
  · rintro ⟨pre, p, post, h, h1, h2, h3⟩
    rcases List.eq_nil_or_concat post with rfl | ⟨post, e', rfl⟩
    · obtain ⟨rfl, h4⟩ := List.append_inj' h rfl
      cases h4
      exact .inr ⟨rfl, h1, h2, h3⟩
    · refine .inl ⟨pre, p, post, ?_, h1, h2, h3⟩
      have : pre ++ (k, p) :: post.concat e' = (pre ++ (k, p) :: post) ++ [e'] := by simp
      rw [this] at h
      exact (List.append_inj' h rfl).1
  · rintro (⟨pre, p, post, rfl, h1, h2, h3⟩ | ⟨rfl, h1, h2, h3⟩)
    · exact ⟨pre, p, post ++ [e], by simp, h1, h2, h3⟩
    · exact ⟨es, e.2, [], rfl, h1, h2, h3⟩

/-- What a range says about a column, as a relation. -/
def Remains (r : ColProps) (es : List (Nat × Option ColProps)) (c : Nat) (p : ColProps) : Prop :=
  ((∃ k, k < c ∧ Cut r es k) ∧ p = settings {}) ∨ ((¬ ∃ k, k < c ∧ Cut r es k) ∧ p = settings r)

theorem Remains.eq {r : ColProps} {es : List (Nat × Option ColProps)} {c : Nat} {p : ColProps} (h : Remains r es c p) : p = kept r es c := by
  unfold kept
  rcases h with ⟨h1, rfl⟩ | ⟨h1, rfl⟩
  · rw [if_pos h1]
  · rw [if_neg h1]

/-- What is left of a range: maximal runs of columns not set. -/
structure Pieces (r : ColProps) (es : List (Nat × Option ColProps)) (l : List ColProps) : Prop where
  inside : ∀ q ∈ l, ∀ x, Spans q x → Spans r x ∧ Unset es x
  run : ∀ x, Spans r x → Unset es x → ∃ q, l.filter (fun q => decide (Spans q x)) = [q] ∧ (q.min = r.min ∨ ∃ e ∈ es, e.1 + 1 = q.min) ∧
    (q.max = r.max ∨ ∃ e ∈ es, e.1 = q.max + 1) ∧ Remains r es x (settings q)

theorem pieces_inv (r : ColProps) : ∀ n, ∀ es : List (Nat × Option ColProps), es.length = n → Pieces r es (pieces r es) := by
  intro n
  induction n with
  | zero =>
    intro es h
    cases List.length_eq_zero_iff.mp h
    refine ⟨?_, ?_⟩
    · intro q hq x hx
      rw [List.mem_singleton.mp hq] at hx
      exact ⟨hx, fun e he => by cases he⟩
    · intro x hx _
      refine ⟨r, by simp [pieces, hx], .inl rfl, .inl rfl, .inr ⟨?_, rfl⟩⟩
      rintro ⟨k, _, pre, p, post, h, _⟩
      simp at h
  | succ n ih =>
    intro es h
    rcases List.eq_nil_or_concat es with rfl | ⟨es, e, rfl⟩
    · simp at h
    · have hi := ih es (by simpa using h)
      have hp : pieces r (es.concat e) = cutAll e.1 (pieces r es) := by
        simp only [pieces, List.concat_eq_append, List.foldl_append, List.foldl_cons, List.foldl_nil]
      rw [hp, List.concat_eq_append]
      refine ⟨?_, ?_⟩
      · intro q hq x hx
        have : ∃ q0 ∈ pieces r es, q ∈ (splitCol e.1 q0).1 ∨ q ∈ (splitCol e.1 q0).2 := by
          rcases List.mem_append.mp hq with h | h
          · obtain ⟨q0, h1, h2⟩ := List.mem_flatMap.mp h; exact ⟨q0, h1, .inl h2⟩
          · obtain ⟨q0, h1, h2⟩ := List.mem_flatMap.mp h; exact ⟨q0, h1, .inr h2⟩
        obtain ⟨q0, h1, h2⟩ := this
        obtain ⟨h3, h4⟩ := split_sub h2 hx
        obtain ⟨h5, h6⟩ := hi.inside q0 h1 x h3
        refine ⟨h5, ?_⟩
        intro e' he'
        rcases List.mem_append.mp he' with h | h
        · exact h6 e' h
        · rw [List.mem_singleton.mp h]; exact fun h => h4 h.symm
      · intro x hx hu
        have hu0 : Unset es x := fun e' he' => hu e' (by simp [he'])
        have hxe : e.1 ≠ x := hu e (by simp)
        obtain ⟨q, hf, hmin, hmax, hrem⟩ := hi.run x hx hu0
        have hmem : q ∈ (pieces r es).filter (fun q => decide (Spans q x)) := by rw [hf]; simp
        obtain ⟨hq, hqx⟩ := List.mem_filter.mp hmem
        have hqx : Spans q x := by simpa using hqx
        have hnone : ∀ q', decide (Spans q' x) = false → ((splitCol e.1 q').1.filter (fun q => decide (Spans q x))) = [] ∧
            ((splitCol e.1 q').2.filter (fun q => decide (Spans q x))) = [] := by
          intro q' hq'
          constructor <;>
          · rw [List.filter_eq_nil_iff]
            intro p hp hc
            have hc : Spans p x := by simpa using hc
            first
            | exact absurd (split_sub (.inl hp) hc).1 (by simpa using hq')
            | exact absurd (split_sub (.inr hp) hc).1 (by simpa using hq')
        have hfilt : (cutAll e.1 (pieces r es)).filter (fun q => decide (Spans q x)) =
            (splitCol e.1 q).1.filter (fun q => decide (Spans q x)) ++ (splitCol e.1 q).2.filter (fun q => decide (Spans q x)) := by
          unfold cutAll
          rw [List.filter_append, filter_flatMap_one hf (fun q' h => (hnone q' h).1), filter_flatMap_one hf (fun q' h => (hnone q' h).2)]
        have hin := hi.inside q hq
        have hqr : r.min ≤ q.min ∧ q.max ≤ r.max := by
          unfold Spans at hqx
          exact ⟨(hin q.min ⟨Nat.le_refl _, by omega⟩).1.1, (hin q.max ⟨by omega, Nat.le_refl _⟩).1.2⟩
        have hmin' : q.min = r.min ∨ ∃ e' ∈ es ++ [e], e'.1 + 1 = q.min := hmin.imp id (fun ⟨e', h1, h2⟩ => ⟨e', by simp [h1], h2⟩)
        have hmax' : q.max = r.max ∨ ∃ e' ∈ es ++ [e], e'.1 = q.max + 1 := hmax.imp id (fun ⟨e', h1, h2⟩ => ⟨e', by simp [h1], h2⟩)
        -- the new edit cuts no range left of the column, or did not change what is known
        have same : (¬ (e.1 < x ∧ r.min < e.1 ∧ e.1 < r.max ∧ ∀ e' ∈ es, e'.1 + 1 < e.1 ∨ e.1 + 1 < e'.1) ∨ ∃ k, k < x ∧ Cut r es k) →
            ∀ p, Remains r es x p → Remains r (es ++ [e]) x p := by
          intro hs p hp
          have hiff : (∃ k, k < x ∧ Cut r (es ++ [e]) k) ↔ ∃ k, k < x ∧ Cut r es k := by
            constructor
            · rintro ⟨k, hk, hc⟩
              rcases cut_snoc.mp hc with h | ⟨rfl, h1, h2, h3⟩
              · exact ⟨k, hk, h⟩
              · rcases hs with hs | hs
                · exact absurd ⟨hk, h1, h2, h3⟩ hs
                · exact hs
            · rintro ⟨k, hk, hc⟩
              exact ⟨k, hk, cut_snoc.mpr (.inl hc)⟩
          unfold Remains
          rw [hiff]
          exact hp
        rw [hfilt]
        unfold Spans at hqx
        by_cases hce : q.min ≤ e.1 ∧ e.1 ≤ q.max
        · have hns : ¬ (q.min = e.1 ∧ q.max = e.1) := by clear hmin hmax hmin' hmax'; omega
          unfold splitCol
          rw [if_neg hns, if_pos hce]
          by_cases hl : q.min = e.1
          · rw [if_pos hl]
            refine ⟨{ q with min := e.1 + 1 }, ?_, .inr ⟨e, by simp, rfl⟩, hmax', same (.inl ?_) _ hrem⟩
            · have : Spans { q with min := e.1 + 1 } x := by unfold Spans; clear hmin hmax hmin' hmax'; simp only; omega
              simp [this]
            · rintro ⟨_, h1, h2, h3⟩
              rcases hmin with h | ⟨e', he', h⟩
              · omega
              · have := h3 e' he'; omega
          · rw [if_neg hl]
            by_cases hr : q.max = e.1
            · rw [if_pos hr]
              refine ⟨{ q with max := e.1 - 1 }, ?_, hmin', .inr ⟨e, by simp, by simp only; omega⟩, same (.inl ?_) _ hrem⟩
              · have : Spans { q with max := e.1 - 1 } x := by unfold Spans; clear hmin hmax hmin' hmax'; simp only; omega
                simp [this]
              · rintro ⟨_, h1, h2, h3⟩
                omega
            · rw [if_neg hr]
              by_cases hlt : x < e.1
              · refine ⟨{ q with max := e.1 - 1 }, ?_, hmin', .inr ⟨e, by simp, by simp only; omega⟩, same (.inl (by omega)) _ hrem⟩
                have k1 : Spans { q with max := e.1 - 1 } x := by unfold Spans; clear hmin hmax hmin' hmax'; simp only; omega
                have k2 : ¬ Spans { min := e.1 + 1, max := q.max } x := by unfold Spans; clear hmin hmax hmin' hmax'; simp only; omega
                simp [k1, k2]
              · refine ⟨{ min := e.1 + 1, max := q.max }, ?_, .inr ⟨e, by simp, rfl⟩, hmax', .inl ⟨⟨e.1, by clear hmin hmax hmin' hmax'; omega, cut_snoc.mpr (.inr ⟨rfl, by clear hmin hmax hmin' hmax'; omega, by clear hmin hmax hmin' hmax'; omega, ?_⟩)⟩, rfl⟩⟩
                · have k1 : ¬ Spans { q with max := e.1 - 1 } x := by unfold Spans; clear hmin hmax hmin' hmax'; simp only; omega
                  have k2 : Spans { min := e.1 + 1, max := q.max } x := by unfold Spans; clear hmin hmax hmin' hmax'; simp only; omega
                  simp [k1, k2]
                · intro e' he'
                  have u1 := (hin (e.1 - 1) (by unfold Spans; omega)).2 e' he'
                  have u2 := (hin e.1 (by unfold Spans; omega)).2 e' he'
                  have u3 := (hin (e.1 + 1) (by unfold Spans; omega)).2 e' he'
                  omega
        · have hns : ¬ (q.min = e.1 ∧ q.max = e.1) := by clear hmin hmax hmin' hmax'; omega
          unfold splitCol
          rw [if_neg hns, if_neg hce]
          refine ⟨q, ?_, hmin', hmax', same ?_ _ hrem⟩
          · have : Spans q x := hqx
            simp [this]
          · by_cases hc : e.1 < x ∧ r.min < e.1 ∧ e.1 < r.max ∧ ∀ e' ∈ es, e'.1 + 1 < e.1 ∨ e.1 + 1 < e'.1
            · obtain ⟨c1, c2, c3, c4⟩ := hc
              refine .inr ?_
              rcases hmin with h | ⟨e', he', h⟩
              · omega
              · have := first_between (r := r) (a := e.1) (b := x) (by omega) hx.2 es [] (by intro e'' h''; have := c4 e'' h''; omega) hu0
                  (by intro _ h; cases h) ⟨e', he', by have := c4 e' he'; omega, by omega⟩
                exact this
            · exact .inl hc

/-- A column set holds what was asked for last. -/
theorem singles_at : ∀ n, ∀ es : List (Nat × Option ColProps), es.length = n → (∀ q ∈ singles es, q.min = q.max) ∧
    ∀ x, (singles es).filter (fun q => decide (Spans q x)) = (((lastColumn x es).getD none).map (fun p => { p with min := x, max := x })).toList := by
  intro n
  induction n with
  | zero =>
    intro es h
    cases List.length_eq_zero_iff.mp h
    exact ⟨(fun q hq => by cases hq), fun x => rfl⟩
  | succ n ih =>
    intro es h
    rcases List.eq_nil_or_concat es with rfl | ⟨es, e, rfl⟩
    · simp at h
    · obtain ⟨i1, i2⟩ := ih es (by simpa using h)
      have hp : singles (es.concat e) = cutAll e.1 (singles es) ++ single e := by
        simp only [singles, List.concat_eq_append, List.foldl_append, List.foldl_cons, List.foldl_nil]
      have hcut : ∀ l : List ColProps, (∀ q ∈ l, q.min = q.max) → cutAll e.1 l = l.filter (fun q => decide (q.min ≠ e.1)) := by
        intro l hl
        have : ∀ l : List ColProps, (∀ q ∈ l, q.min = q.max) → l.flatMap (fun r => (splitCol e.1 r).1) = l.filter (fun q => decide (q.min ≠ e.1)) ∧
            l.flatMap (fun r => (splitCol e.1 r).2) = [] := by
          intro l
          induction l with
          | nil => intro _; exact ⟨rfl, rfl⟩
          | cons q l ih =>
            intro hl
            obtain ⟨j1, j2⟩ := ih (fun q hq => hl q (by simp [hq]))
            have hq := hl q (by simp)
            rw [List.flatMap_cons, List.flatMap_cons, j1, j2]
            unfold splitCol
            by_cases he : q.min = e.1
            · rw [if_pos ⟨he, by omega⟩]; simp [he]
            · rw [if_neg (by omega), if_neg (by omega)]; simp [he]
        obtain ⟨a, b⟩ := this l hl
        unfold cutAll
        rw [a, b, List.append_nil]
      have hls : ∀ x, lastColumn x (es ++ [e]) = if e.1 = x then some e.2 else lastColumn x es := by
        intro x
        clear ih h i1 i2 hp hcut
        induction es with
        | nil => simp only [List.nil_append, lastColumn]
        | cons a es ih =>
          simp only [List.cons_append, lastColumn, ih]
          by_cases he : e.1 = x <;> simp [he]
      rw [hp, hcut _ i1, List.concat_eq_append]
      refine ⟨?_, ?_⟩
      · intro q hq
        rcases List.mem_append.mp hq with h | h
        · exact i1 q (List.mem_filter.mp h).1
        · unfold single at h
          split at h
          · cases h
          · rw [List.mem_singleton.mp h]
      · intro x
        rw [hls, List.filter_append, List.filter_filter]
        have h2 := i2 x
        by_cases hx : e.1 = x
        · rw [if_pos hx]
          have : (singles es).filter (fun q => decide (Spans q x) && decide (q.min ≠ e.1)) = [] := by
            rw [List.filter_eq_nil_iff]
            intro q hq hc
            simp only [Bool.and_eq_true, decide_eq_true_eq] at hc
            have := i1 q hq
            unfold Spans at hc
            omega
          rw [this, List.nil_append]
          unfold single
          cases hp : e.2 with
          | none => rfl
          | some p =>
            subst hx
            have : Spans { p with min := e.1, max := e.1 } e.1 := by unfold Spans; simp only; omega
            simp only [List.filter_cons, List.filter_nil, this, decide_true, if_true, Option.getD_some, Option.map_some, Option.toList_some]
        · rw [if_neg hx]
          have h1 : (singles es).filter (fun q => decide (Spans q x) && decide (q.min ≠ e.1)) = (singles es).filter (fun q => decide (Spans q x)) := by
            apply List.filter_congr
            intro q hq
            have := i1 q hq
            by_cases hc : Spans q x
            · have hm : q.min ≠ e.1 := by unfold Spans at hc; omega
              simp [hc, hm]
            · simp [hc]
          have h3 : (single e).filter (fun q => decide (Spans q x)) = [] := by
            unfold single
            cases hp : e.2 with
            | none => rfl
            | some p =>
              have : ¬ Spans { p with min := e.1, max := e.1 } x := by unfold Spans; simp only; omega
              simp [this]
          rw [h1, h3, h2, List.append_nil]

theorem lastColumn_none {es : List (Nat × Option ColProps)} {c : Nat} : lastColumn c es = none ↔ Unset es c := by
  induction es with
  | nil => exact ⟨(fun _ e he => by cases he), fun _ => rfl⟩
  | cons a es ih =>
    unfold lastColumn
    constructor
    · intro h
      split at h
      · cases h
      · next hn =>
        split at h
        · cases h
        · next hne =>
          intro e he
          rcases List.mem_cons.mp he with rfl | he
          · exact hne
          · exact ih.mp hn e he
    · intro h
      rw [ih.mpr (fun e he => h e (by simp [he]))]
      simp only
      rw [if_neg (h a (by simp))]

/-- The settings of a column after any edits. -/
theorem setAll_at (cs : List ColProps) (es : List (Nat × Option ColProps)) (c : Nat) :
    (∀ p, lastColumn c es = some p → ((es.foldl setOne cs).filter (fun r => decide (Spans r c))).map settings = (p.map settings).toList) ∧
    (lastColumn c es = none → (((es.foldl setOne cs).filter (fun r => decide (Spans r c))).map settings).Perm
      ((cs.filter (fun r => decide (Spans r c))).map (fun r => kept r es c))) := by
  have hp := ((setAll_perm cs es).filter (fun r => decide (Spans r c))).map settings
  rw [List.filter_append, List.map_append] at hp
  have hsing := (singles_at _ es rfl).2 c
  constructor
  · intro p h
    have h0 : (cs.flatMap (fun r => pieces r es)).filter (fun r => decide (Spans r c)) = [] := by
      rw [List.filter_eq_nil_iff]
      intro q hq hc
      obtain ⟨r, _, hr⟩ := List.mem_flatMap.mp hq
      have := ((pieces_inv r _ es rfl).inside q hr c (by simpa using hc)).2
      rw [lastColumn_none.mpr this] at h
      cases h
    rw [h0, hsing, h, List.map_nil, List.nil_append] at hp
    cases p with
    | none => exact hp.eq_nil
    | some p => exact hp.eq_singleton
  · intro h
    rw [hsing, h] at hp
    simp only [Option.getD_none, Option.map_none, Option.toList_none, List.map_nil, List.append_nil] at hp
    have : ((cs.flatMap (fun r => pieces r es)).filter (fun r => decide (Spans r c))).map settings =
        (cs.filter (fun r => decide (Spans r c))).map (fun r => kept r es c) := by
      clear hp
      induction cs with
      | nil => rfl
      | cons r cs ih =>
        rw [List.flatMap_cons, List.filter_append, List.map_append, ih, List.filter_cons]
        by_cases hr : Spans r c
        · obtain ⟨q, h1, _, _, h4⟩ := (pieces_inv r _ es rfl).run c hr (lastColumn_none.mp h)
          rw [h1, if_pos (by simpa using hr)]
          simp only [List.map_cons, List.map_nil, List.cons_append, List.nil_append, h4.eq]
        · have : (pieces r es).filter (fun r => decide (Spans r c)) = [] := by
            rw [List.filter_eq_nil_iff]
            intro q hq hc
            exact hr ((pieces_inv r _ es rfl).inside q hq c (by simpa using hc)).1
          rw [this, if_neg (by simpa using hr)]
          rfl
    rw [this] at hp
    exact hp

/-- Edits of columns as they act on the ranges. -/
theorem setColumn_cols (s : Sheet) (e : Nat × Option ColProps) : (s.setColumn e.1 e.2).cols = s.cols.map (fun cs => setOne cs e) := by
  unfold Sheet.setColumn
  cases h : s.cols with
  | none => rw [h]; rfl
  | some cs => rfl

end Oxml
