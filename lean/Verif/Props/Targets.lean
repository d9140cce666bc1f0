import Verif.Spec.Targets
/-!
# C70: relationship targets
-/
namespace Oxml
open Spec

theorem joinPath_cons (s : List Char) {ss : List (List Char)} (h : ss ≠ []) : joinPath (s :: ss) = s ++ '/' :: joinPath ss := by
  cases ss with
  | nil => exact absurd rfl h
  | cons _ _ => rfl

theorem joinPath_append (dir : List (List Char)) {ss : List (List Char)} (h : ss ≠ []) :
    joinPath (dir ++ ss) = dirText dir ++ joinPath ss := by
  induction dir with
  | nil => rfl
  | cons s dir ih =>
    rw [List.cons_append, joinPath_cons s (by simp [h]), ih]
    simp [dirText]

theorem dirText_last (dir : List (List Char)) : dirText dir = [] ∨ ∃ l, dirText dir = l ++ ['/'] := by
  induction dir with
  | nil => exact .inl rfl
  | cons s dir ih =>
    right
    have e : dirText (s :: dir) = s ++ '/' :: dirText dir := by simp [dirText]
    rw [e]
    rcases ih with h | ⟨l, h⟩
    · exact ⟨s, by rw [h]⟩
    · exact ⟨s ++ '/' :: l, by rw [h]; simp⟩

theorem beforeSub_dir (r : List Char) : ∀ a : List Char, (∀ l t, a ≠ l ++ ("_rels".toList ++ t)) → (a = [] ∨ ∃ l, a = l ++ ['/']) →
    beforeSub "_rels".toList (a ++ ("_rels".toList ++ r)) = some a := by
  intro a
  induction a with
  | nil => intro _ _; simp [beforeSub, List.isPrefixOf]
  | cons c cs ih =>
    intro hn hl
    simp only [List.cons_append]
    rw [beforeSub, if_neg, ih]
    · rfl
    · intro l t h; exact hn (c :: l) t (by rw [h]; rfl)
    · rcases hl with h | ⟨l, h⟩
      · cases h
      · cases l with
        | nil => simp at h; exact .inl h.2
        | cons x xs => simp at h; exact .inr ⟨xs, h.2⟩
    · intro hp
      rw [List.isPrefixOf_iff_prefix] at hp
      obtain ⟨t, ht⟩ := hp
      rcases hl with h | ⟨l, h⟩
      · cases h
      · -- the pattern has no slash, so it lies inside the directory
        have hmem : '/' ∉ "_rels".toList := by decide
        rw [← List.cons_append, h, List.append_assoc] at ht
        rcases List.append_eq_append_iff.mp ht with ⟨k, h1, h2⟩ | ⟨k, h1, h2⟩
        · apply hn [] (k ++ ['/'])
          rw [h, h1]; simp
        · cases k with
          | nil =>
            apply hn [] ['/']
            rw [h]
            simp only [List.append_nil] at h1
            rw [h1]; rfl
          | cons y ys =>
            simp only [List.cons_append, List.nil_append, List.cons.injEq] at h2
            apply hmem
            rw [h1, ← h2.1]; simp

theorem relativePath_dir {dir : List (List Char)} {name : List Char}
    (hn : ∀ l t, dirText dir ≠ l ++ ("_rels".toList ++ t)) : relativePath (relsPath dir name) = .ok (String.ofList (dirText dir)) := by
  have e : (relsPath dir name).toList = dirText dir ++ ("_rels".toList ++ ('/' :: (name ++ ".rels".toList))) := by
    unfold relsPath
    rw [String.toList_ofList, joinPath_append dir (by simp)]
    rfl
  unfold relativePath
  rw [e, beforeSub_dir _ _ hn (dirText_last dir)]
  rcases dirText_last dir with h | ⟨l, h⟩
  · rw [h]
  · rw [h]
    cases l with
    | nil => decide
    | cons c cs =>
      have e1 : (c :: (cs ++ ['/'])).getLast (by simp) = '/' := by
        exact List.getLast_concat (l := c :: cs)
      have e2 : (c :: (cs ++ ['/'])).dropLast = c :: cs := by
        rw [← List.cons_append, List.dropLast_concat]
      simp only [List.cons_append]
      rw [e1, e2, if_pos (by decide)]
      rfl

theorem foldl_normal {segs : List (List Char)} (h : ∀ s ∈ segs, Seg s) (acc : List (List Char)) :
    segs.foldl (fun acc s => if s = ['.'] then acc else if s = ['.', '.'] then acc.dropLast else acc ++ [s]) acc = acc ++ segs := by
  induction segs generalizing acc with
  | nil => simp
  | cons s ss ih =>
    obtain ⟨_, _, h1, h2⟩ := h s (by simp)
    rw [List.foldl_cons, if_neg h1, if_neg h2, ih (fun x hx => h x (by simp [hx]))]
    simp

/-- **C70, as stated.** Every relative target resolves to the part the packaging conventions say. -/
def TargetsResolve : Prop :=
  ∀ (dir target : List (List Char)) (name : List Char), (∀ s ∈ dir, Seg s) → target ≠ [] → (∀ s ∈ target, s ≠ [] ∧ '/' ∉ s) →
    resolveTarget (relsPath dir name) (String.ofList (joinPath target)) = .ok (String.ofList (joinPath (normal (dir ++ target))))

/-- **C70 is violated** by targets that go up a directory, as all drawings and comments of a worksheet do. -/
theorem C70_violated : ¬TargetsResolve := by
  intro h
  have := h ["xl".toList, "worksheets".toList] ["..".toList, "drawings".toList, "drawing1.xml".toList] "sheet1.xml".toList
    (by intro s hs; simp only [List.mem_cons, List.not_mem_nil, or_false] at hs; rcases hs with rfl | rfl <;> exact ⟨by decide, by decide, by decide, by decide⟩)
    (by simp)
    (by intro s hs; simp only [List.mem_cons, List.not_mem_nil, or_false] at hs; rcases hs with rfl | rfl | rfl <;> exact ⟨by decide, by decide⟩)
  revert this
  decide +kernel

example : resolveTarget "xl/worksheets/_rels/sheet1.xml.rels" "../drawings/drawing1.xml" = .ok "xl/worksheets/../drawings/drawing1.xml" := by
  decide +kernel

/-- **C70, what holds.** For directories without `_rels` in their path: targets without dot segments resolve as the
conventions say, and targets starting with a slash are taken from the package root.
Missing from the full claim: `.` and `..` segments. -/
theorem C70_partial (dir target : List (List Char)) (name : List Char) (hd : ∀ s ∈ dir, Seg s) (ht : target ≠ [])
    (hs : ∀ s ∈ target, Seg s) (hn : ∀ l t, dirText dir ≠ l ++ ("_rels".toList ++ t)) :
    resolveTarget (relsPath dir name) (String.ofList (joinPath target)) = .ok (String.ofList (joinPath (normal (dir ++ target)))) ∧
    resolveTarget (relsPath dir name) (String.ofList ('/' :: joinPath target)) = .ok (String.ofList (joinPath (normal target))) := by
  have hnorm : ∀ segs : List (List Char), (∀ s ∈ segs, Seg s) → normal segs = segs := by
    intro segs h
    unfold normal
    rw [foldl_normal h]; rfl
  have hfirst : ∀ c r, joinPath target = c :: r → c ≠ '/' := by
    intro c r e
    cases target with
    | nil => exact absurd rfl ht
    | cons s ss =>
      obtain ⟨h1, h2, _⟩ := hs s (by simp)
      cases s with
      | nil => exact absurd rfl h1
      | cons x xs =>
        have : ∃ r', joinPath ((x :: xs) :: ss) = x :: r' := by
          cases ss with
          | nil => exact ⟨xs, rfl⟩
          | cons _ _ => exact ⟨_, rfl⟩
        obtain ⟨r', e'⟩ := this
        rw [e'] at e
        cases e
        intro hx; subst hx
        exact h2 (by simp)
  unfold resolveTarget
  rw [relativePath_dir hn]
  simp only [String.toList_ofList]
  constructor
  · rw [hnorm _ (by intro s h; rcases List.mem_append.mp h with h | h; exact hd s h; exact hs s h), joinPath_append dir ht]
    cases hj : joinPath target with
    | nil => simp
    | cons c r =>
      have := hfirst c r hj
      simp [this]
  · rw [hnorm _ hs]

/-- The hypotheses of `C70_partial` for a workbook relationship. -/
example : (∀ s ∈ ["xl".toList], Seg s) ∧ (∀ s ∈ ["worksheets".toList, "sheet1.xml".toList], Seg s) ∧
    (∀ l t, dirText ["xl".toList] ≠ l ++ ("_rels".toList ++ t)) ∧ relsPath ["xl".toList] "workbook.xml".toList = "xl/_rels/workbook.xml.rels" := by
  refine ⟨?_, ?_, ?_, by decide +kernel⟩
  · intro s hs; simp only [List.mem_cons, List.not_mem_nil, or_false] at hs; subst hs; exact ⟨by decide, by decide, by decide, by decide⟩
  · intro s hs; simp only [List.mem_cons, List.not_mem_nil, or_false] at hs; rcases hs with rfl | rfl <;> exact ⟨by decide, by decide, by decide, by decide⟩
  · intro l t h
    have := congrArg List.length h
    simp [dirText] at this
    omega

/-- **C70, external targets.** The target of an external relationship (a web address) is turned into a part path like
any other: the mode is ignored. -/
theorem C70_violated_external :
    targetById "xl/worksheets/_rels/sheet1.xml.rels" [⟨"rId1", "https://example.org/", "hyperlink", some "External"⟩] "rId1" =
      .ok (some "xl/worksheets/https://example.org/") := by decide +kernel

/-- **C70.** A directory whose name contains `_rels` misleads the resolution. -/
theorem C70_violated_rels : resolveTarget (relsPath ["my_rels".toList] "a.xml".toList) "b.xml" = .ok "m/b.xml" := by decide +kernel

end Oxml
