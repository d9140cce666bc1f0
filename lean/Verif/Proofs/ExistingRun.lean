import Verif.Proofs.Existing
import Verif.Proofs.Workbook
import Verif.Proofs.SheetPaths
/-!
# Histories in workbooks opened from existing files
-/
namespace Oxml
open Spec

/-! ## Sheet names -/

theorem sheetPath_inj {dir : String} {a b : Nat} (h : sheetPath dir a = sheetPath dir b) : a = b := by
  have := congrArg String.toList h
  unfold sheetPath at this
  simp only [String.toList_append] at this
  have h2 := List.append_cancel_right (List.append_cancel_right this)
  have h3 := List.append_cancel_left h2
  exact toString_nat_inj (String.toList_inj.mp h3)

theorem freeSheet_free_at (p : Pkg) (dir : String) (n : Nat) : aget (sheetPath dir (freeSheet p dir n)) p.archive = none := by
  have key : ahas (sheetPath dir (freeSheet p dir n)) p.archive = false := by
    apply freeSheetLoop_free
    apply Classical.byContradiction
    intro hno
    have hall : ∀ i, i < p.archive.length + 1 → sheetPath dir (n + i) ∈ akeys p.archive := by
      intro i hi
      apply Classical.byContradiction
      intro hni
      apply hno
      refine ⟨i, hi, ?_⟩
      cases hh : ahas (sheetPath dir (n + i)) p.archive with
      | false => rfl
      | true => exact absurd ((ahas_iff _ _).mp hh) hni
    have hsub : ((List.range (p.archive.length + 1)).map (fun i => sheetPath dir (n + i))).Nodup := by
      rw [List.nodup_iff_pairwise_ne, List.pairwise_map]
      refine List.Pairwise.imp ?_ (List.nodup_iff_pairwise_ne.mp List.nodup_range)
      intro a b hab he
      have := sheetPath_inj he
      omega
    have := length_le_of_nodup_subset hsub (m := akeys p.archive) (by
      intro x hx
      obtain ⟨i, hi, rfl⟩ := List.mem_map.mp hx
      exact hall i (List.mem_range.mp hi))
    simp [akeys] at this
    omega
  cases hg : aget (sheetPath dir (freeSheet p dir n)) p.archive with
  | none => rfl
  | some e => unfold ahas at key; rw [hg] at key; cases key

theorem holds_takeWhile {α : Type} {p : α → Bool} {l : List α} {c : α} (h : c ∈ l.takeWhile p) : p c = true := by
  induction l with
  | nil => cases h
  | cons a l ih =>
    rw [List.takeWhile_cons] at h
    split at h
    · next hp =>
      rcases List.mem_cons.mp h with rfl | h
      · exact hp
      · exact ih h
    · cases h

theorem split_last_slash (l : List Char) (h : '/' ∈ l) :
    l = (l.reverse.dropWhile (· ≠ '/')).tail.reverse ++ '/' :: (l.reverse.takeWhile (· ≠ '/')).reverse := by
  have h1 := List.takeWhile_append_dropWhile (p := fun c => decide (c ≠ '/')) (l := l.reverse)
  cases hd : l.reverse.dropWhile (fun c => decide (c ≠ '/')) with
  | nil =>
    exfalso
    rw [hd, List.append_nil] at h1
    have := holds_takeWhile (h1.symm ▸ List.mem_reverse.mpr h : '/' ∈ l.reverse.takeWhile (fun c => decide (c ≠ '/')))
    simp at this
  | cons c cs =>
    have hc : c = '/' := by
      have := List.head?_dropWhile_not (p := fun c => decide (c ≠ '/')) (l := l.reverse)
      rw [hd] at this
      simpa using this
    subst hc
    rw [hd] at h1
    have h2 := congrArg List.reverse h1
    rw [List.reverse_reverse, List.reverse_append, List.reverse_cons] at h2
    rw [List.tail_cons, List.append_assoc] at *
    exact h2.symm

theorem isRelsOf_of_path {path rp : String} (h : sheetRelsPath path = some rp) : IsRelsOf rp path := by
  unfold sheetRelsPath dirOf at h
  split at h
  · next hs =>
    simp only [Option.map_some, Option.some.injEq] at h
    subst h
    refine ⟨(path.toList.reverse.dropWhile (· ≠ '/')).tail.reverse, (path.toList.reverse.takeWhile (· ≠ '/')).reverse, split_last_slash _ hs, ?_, ?_⟩
    · intro hm
      have := holds_takeWhile (List.mem_reverse.mp hm)
      simp at this
    · unfold baseOf
      simp only [String.toList_append, String.toList_ofList, List.append_assoc]
  · cases h

/-- What `get_sheet_file_name` answers. -/
theorem sheetFile_about {x : Excel} {name : Option String} : (x.sheetFile name).2.pkg = x.pkg ∧ ownParts (x.sheetFile name).2 = ownParts x ∧
    ∀ path nm, (x.sheetFile name).1 = .ok (path, nm) → AboutPart x name path := by
  by_cases hl : ∃ n, name = some n ∧ n ∈ names x.sheets
  · obtain ⟨n, rfl, hn⟩ := hl
    obtain ⟨r, h1, h2⟩ := sheetFile_listed hn
    rw [h1]
    refine ⟨rfl, rfl, ?_⟩
    intro path nm hr
    obtain ⟨_, e, _, _, h3, h4⟩ := h2 path nm hr
    unfold AboutPart
    simp only [if_pos hn]
    unfold targetById at h4
    split at h4
    · cases h4
    · next r' hr' =>
      split at h4
      · cases h4
      · next t ht =>
        cases h4
        exact ⟨e, r', h3, hr', ht⟩
  · have hno : ∀ n, name = some n → n ∉ names x.sheets := fun n e hn => hl ⟨n, e, hn⟩
    rcases sheetFile_new hno with ⟨e, h1, h2⟩ | ⟨dir, h1, h2⟩
    · rw [h2]; exact ⟨rfl, rfl, by intro path nm h; cases h⟩
    · rw [h2]
      refine ⟨rfl, rfl, ?_⟩
      intro path nm h
      cases h
      have hnew : NewSheetPart x (sheetPath dir (freeSheet x.pkg dir (x.sheets.length + 1))) := by
        refine ⟨dir, freeSheet x.pkg dir (x.sheets.length + 1), h1, ?_, freeSheet_free_at _ _ _⟩
        unfold sheetPath
        simp only [worksheetContent, String.append_assoc]
        rfl
      unfold AboutPart
      cases name with
      | none => exact hnew
      | some n => simp only [if_neg (hno n rfl)]; exact hnew

/-! ## Parts nothing is done to -/

/-- The session does nothing to the part. -/
structure QuietSess (n : String) (c : Option Entry) (s : Session) : Prop where
  book : QuietBook n c s.x
  handles : ∀ h ∈ s.handles, h.path ≠ n ∧ h.rels.path ≠ n

theorem relNew_path {env : Env} {p p1 : Pkg} {n : String} {r : RelPart} (e : RelPart.new env p n = (.ok r, p1)) : r.path = n := by
  unfold RelPart.new at e
  split at e
  · cases e
  · split at e
    · cases e; rfl
    · split at e
      · cases e
      · cases e; rfl

theorem QuietBook.openSheet {n : String} {c : Option Entry} {x : Excel} (h : QuietBook n c x) (env : Env) {name : Option String}
    (hl : ∀ path, AboutPart x name path → n ≠ path ∧ ¬ IsRelsOf n path) :
    QuietBook n c (x.openSheet env name).2 ∧ ∀ g, (x.openSheet env name).1 = .ok g → g.path ≠ n ∧ g.rels.path ≠ n := by
  obtain ⟨f1, f2, f3⟩ := sheetFile_about (x := x) (name := name)
  unfold Excel.openSheet
  cases hf : x.sheetFile name with
  | mk r x1 =>
    rw [hf] at f1 f2 f3
    have hq : Quiet n c x1.pkg := by rw [f1]; exact h.pkg
    have ho : n ∉ ownParts x1 := by rw [f2]; exact h.own
    have mk : ∀ p', Quiet n c p' → QuietBook n c { x1 with pkg := p' } := fun p' hp' => ⟨hp', ho⟩
    cases r with
    | error e => exact ⟨⟨hq, ho⟩, by intro g hg; cases hg⟩
    | ok pn =>
      obtain ⟨path, nm⟩ := pn
      obtain ⟨a1, a2⟩ := hl path (f3 path nm rfl)
      have q1 := hq.openPart env (.ok worksheetTemplate) (Ne.symm a1)
      simp only
      split
      · next ho1 => rw [ho1] at q1; exact ⟨mk _ q1, by intro g hg; cases hg⟩
      · next hd p2 ho1 =>
        have q2 : Quiet n c p2 := by rw [ho1] at q1; exact q1
        split
        · exact ⟨mk _ q2, by intro g hg; cases hg⟩
        · next rp hrp =>
          have hne : rp ≠ n := by rintro rfl; exact a2 (isRelsOf_of_path hrp)
          have q3 := q2.relNew env hne
          split
          · next ho2 => rw [ho2] at q3; exact ⟨mk _ q3, by intro g hg; cases hg⟩
          · next rels p3 ho2 =>
            have q4 : Quiet n c p3 := by rw [ho2] at q3; exact q3
            have hrp2 := relNew_path ho2
            split
            · exact ⟨mk _ (q4.relClose env (by rw [hrp2]; exact hne)), by intro g hg; cases hg⟩
            · split
              · exact ⟨mk _ ((q4.update _ _).relClose env (by rw [hrp2]; exact hne)), by intro g hg; cases hg⟩
              · refine ⟨mk _ (q4.update _ _), ?_⟩
                intro g hg
                cases hg
                exact ⟨Ne.symm a1, by rw [hrp2]; exact hne⟩

theorem QuietSess.open {n : String} {c : Option Entry} {s : Session} (h : QuietSess n c s) (env : Env) {name : Option String}
    (hl : ∀ path, AboutPart s.x name path → n ≠ path ∧ ¬ IsRelsOf n path) : QuietSess n c (s.open env name).2 := by
  obtain ⟨h1, h2⟩ := h.book.openSheet env hl
  unfold Session.open
  split
  · next e => rw [e] at h1; exact ⟨h1, h.handles⟩
  · next g x1 e =>
    rw [e] at h1 h2
    refine ⟨h1, ?_⟩
    intro k hk
    rcases List.mem_append.mp hk with hk | hk
    · exact h.handles k hk
    · rw [List.mem_singleton.mp hk]; exact h2 g rfl

theorem QuietSess.step {n : String} {c : Option Entry} {s : Session} (h : QuietSess n c s) (env : Env) {op : WbOp} (hl : LeavesAlone n s op) :
    QuietSess n c (s.step env op).2 := by
  have erase : ∀ i, ∀ g ∈ s.handles.eraseIdx i, g.path ≠ n ∧ g.rels.path ≠ n := fun i g hg => h.handles g (List.mem_of_mem_eraseIdx hg)
  cases op with
  | add name => exact h.open env hl
  | get name => exact h.open env hl
  | sheet i op =>
    unfold Session.step
    simp only
    split
    · exact h
    · next g hg =>
      split
      · exact h
      · refine ⟨⟨h.book.pkg, h.book.own⟩, ?_⟩
        intro k hk
        rcases List.mem_or_eq_of_mem_set hk with hk | rfl
        · exact h.handles k hk
        · exact h.handles g (List.mem_of_getElem? hg)
  | drop i =>
    unfold Session.step
    simp only
    split
    · exact h
    · next g hg =>
      exact ⟨⟨h.book.pkg.dropSheet env (h.handles g (List.mem_of_getElem? hg)).2, h.book.own⟩, erase i⟩
  | delete i =>
    unfold Session.step
    simp only
    split
    · exact h
    · next g hg =>
      have hg' := h.handles g (List.mem_of_getElem? hg)
      exact ⟨⟨((h.book.pkg.delete hg'.1).closeSheet env g).dropSheet env hg'.2, h.book.own⟩, erase i⟩
  | rename old new =>
    unfold Session.step
    simp only
    split
    · exact h
    · exact ⟨⟨h.book.pkg, h.book.own⟩, h.handles⟩
  | active name => exact ⟨⟨h.book.pkg, h.book.own⟩, h.handles⟩
  | hide name => exact ⟨⟨h.book.pkg, h.book.own⟩, h.handles⟩
  | view op => exact ⟨⟨h.book.pkg, h.book.own⟩, h.handles⟩
  | style hs st =>
    unfold Session.step
    simp only
    split
    · exact h
    · exact ⟨⟨h.book.pkg, h.book.own⟩, h.handles⟩

theorem QuietSess.run {n : String} {c : Option Entry} (env : Env) (ops : List WbOp) {s s' : Session} (h : QuietSess n c s)
    (hn : NeverAsks env n s ops) (hr : s.run env ops = .ok s') : QuietSess n c s' := by
  induction ops generalizing s with
  | nil => cases hr; exact h
  | cons op ops ih =>
    have h1 := h.step env hn.1
    unfold Session.run at hr
    split at hr
    · cases hr
    · next r s1 _ e => rw [e] at h1; have h2 := hn.2; rw [e] at h2; exact ih h1 h2 hr

end Oxml
