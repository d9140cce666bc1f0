import Verif.Spec.Workbook
import Verif.Proofs.Relations
import Verif.Proofs.WorkbookDoc
/-!
# Sheet lists
-/
namespace Oxml
open Spec

theorem freeSheetLoop_ge (p : Pkg) (dir : String) (fuel n : Nat) : n ≤ freeSheetLoop p dir fuel n := by
  induction fuel generalizing n with
  | zero => exact Nat.le_refl _
  | succ f ih =>
    rw [freeSheetLoop]
    split
    · exact Nat.le_trans (Nat.le_succ n) (ih (n + 1))
    · exact Nat.le_refl _

theorem freeSheet_ge (p : Pkg) (dir : String) (n : Nat) : n ≤ freeSheet p dir n := freeSheetLoop_ge p dir _ n

/-- The name a new sheet gets. -/
def newNameOf (x : Excel) (dir : String) (name : Option String) : String :=
  name.getD ("sheet" ++ toString (freeSheet x.pkg dir (x.sheets.length + 1)))

/-- The workbook with a new sheet listed. -/
def withSheet (x : Excel) (dir : String) (name : Option String) : Excel :=
  let n := freeSheet x.pkg dir (x.sheets.length + 1)
  let r := newRel x.rels.rels worksheetContent (some (dir ++ worksheetContent.path)) (some (worksheetContent.name ++ toString n))
  { x with rels := { x.rels with rels := r.1 }
           sheets := x.sheets ++ [{ name := newNameOf x dir name, relId := r.2, active := false, hide := false }] }

theorem mem_names {l : List SheetEntry} {n : String} : n ∈ names l ↔ ∃ e ∈ l, e.name = n := by
  unfold names; simp

theorem find_name {l : List SheetEntry} {n : String} :
    (n ∈ names l → ∃ e, l.find? (fun e => e.name = n) = some e ∧ e ∈ l ∧ e.name = n) ∧
    (n ∉ names l → l.find? (fun e => e.name = n) = none) := by
  constructor
  · intro h
    cases hf : l.find? (fun e => e.name = n) with
    | none =>
      rw [List.find?_eq_none] at hf
      obtain ⟨e, h1, h2⟩ := mem_names.mp h
      exact absurd (by simpa using h2) (hf e h1)
    | some e => exact ⟨e, rfl, List.mem_of_find?_eq_some hf, by simpa using List.find?_some hf⟩
  · intro h
    rw [List.find?_eq_none]
    intro e he hn
    exact h (mem_names.mpr ⟨e, he, by simpa using hn⟩)

/-- Asking for a listed name. -/
theorem sheetFile_listed {x : Excel} {n : String} (h : n ∈ names x.sheets) :
    ∃ r, x.sheetFile (some n) = (r, x) ∧ ∀ p nm, r = .ok (p, nm) → nm = n ∧ ∃ e ∈ x.sheets, e.name = n ∧
      x.sheets.find? (fun e => e.name = n) = some e ∧ targetById x.rels.path x.rels.rels e.relId = .ok (some p) := by
  obtain ⟨e, h1, h2, h3⟩ := find_name.1 h
  unfold Excel.sheetFile
  simp only [Option.bind_some, h1]
  split
  · exact ⟨_, rfl, by intro p nm h; cases h⟩
  · exact ⟨_, rfl, by intro p nm h; cases h⟩
  · next ht =>
    refine ⟨_, rfl, ?_⟩
    intro p nm h
    cases h
    exact ⟨h3, e, h2, h3, rfl, ht⟩

/-- Asking for a name that is not listed. -/
theorem sheetFile_new {x : Excel} {name : Option String} (h : ∀ n, name = some n → n ∉ names x.sheets) :
    (∃ e, relativePath x.rels.path = .error e ∧ x.sheetFile name = (.error e, x)) ∨
    (∃ dir, relativePath x.rels.path = .ok dir ∧ x.sheetFile name =
      (.ok (sheetPath dir (freeSheet x.pkg dir (x.sheets.length + 1)), newNameOf x dir name), withSheet x dir name)) := by
  have hb : name.bind (fun n => x.sheets.find? (fun e => e.name = n)) = none := by
    cases name with
    | none => rfl
    | some n => exact find_name.2 (h n rfl)
  unfold Excel.sheetFile
  rw [hb]
  simp only
  cases hr : relativePath x.rels.path with
  | error e => exact Or.inl ⟨e, rfl, rfl⟩
  | ok dir => exact Or.inr ⟨dir, rfl, rfl⟩

/-- Opening changes the list only through `get_sheet_file_name`. -/
theorem openSheet_sheets (env : Env) (x : Excel) (name : Option String) :
    (x.openSheet env name).2.sheets = (x.sheetFile name).2.sheets ∧
    (∀ h, (x.openSheet env name).1 = .ok h → ∃ p nm, (x.sheetFile name).1 = .ok (p, nm) ∧ h.name = nm ∧ h.path = p) := by
  unfold Excel.openSheet
  cases hf : x.sheetFile name with
  | mk r x1 =>
    cases r with
    | error e => exact ⟨rfl, by intro h hh; cases hh⟩
    | ok pn =>
      obtain ⟨p, nm⟩ := pn
      simp only
      split
      · exact ⟨rfl, by intro h hh; cases hh⟩
      · split
        · exact ⟨rfl, by intro h hh; cases hh⟩
        · split
          · exact ⟨rfl, by intro h hh; cases hh⟩
          · split
            · exact ⟨rfl, by intro h hh; cases hh⟩
            · split
              · exact ⟨rfl, by intro h hh; cases hh⟩
              · refine ⟨rfl, ?_⟩
                intro h hh
                cases hh
                exact ⟨p, nm, rfl, rfl, rfl⟩

theorem names_append (l : List SheetEntry) (e : SheetEntry) : names (l ++ [e]) = names l ++ [e.name] := by simp [names]

theorem map_eraseIdx {α β : Type} (f : α → β) (l : List α) (i : Nat) : (l.eraseIdx i).map f = (l.map f).eraseIdx i := by
  induction l generalizing i with
  | nil => rfl
  | cons a as ih => cases i <;> simp [ih]

/-- Renaming, by position. -/
theorem mapFirst_split {α : Type} (p : α → Bool) (f : α → α) (a : List α) (x : α) (b : List α) (ha : ∀ y ∈ a, p y = false) (hx : p x = true) :
    mapFirst p f (a ++ x :: b) = a ++ f x :: b := by
  induction a with
  | nil => simp [mapFirst, hx]
  | cons y ys ih =>
    rw [List.cons_append, mapFirst, ha y (by simp)]
    simp [ih (fun z hz => ha z (by simp [hz]))]

theorem first_split {α : Type} (p : α → Bool) (l : List α) (h : ∃ x ∈ l, p x = true) :
    ∃ a x b, l = a ++ x :: b ∧ (∀ y ∈ a, p y = false) ∧ p x = true := by
  induction l with
  | nil => obtain ⟨x, hx, _⟩ := h; cases hx
  | cons y ys ih =>
    by_cases hy : p y = true
    · exact ⟨[], y, ys, rfl, by simp, hy⟩
    · obtain ⟨x, hx, hp⟩ := h
      have : ∃ x ∈ ys, p x = true := by
        rw [List.mem_cons] at hx
        cases hx with
        | inl h => subst h; exact absurd hp hy
        | inr h => exact ⟨x, h, hp⟩
      obtain ⟨a, z, b, h1, h2, h3⟩ := ih this
      refine ⟨y :: a, z, b, by rw [h1]; rfl, ?_, h3⟩
      intro w hw
      rw [List.mem_cons] at hw
      cases hw with
      | inl h => subst h; simpa using hy
      | inr h => exact h2 w h

/-- What renaming does. -/
theorem renameSheet_cases (l : List SheetEntry) (old new : String) :
    ((new ∈ names l ∨ old ∉ names l) ∧ ∃ m, renameSheet l old new = .error (.fail m)) ∨
    (new ∉ names l ∧ ∃ a e b, l = a ++ e :: b ∧ old ∉ names a ∧ e.name = old ∧
      renameSheet l old new = .ok (a ++ { e with name := new } :: b)) := by
  unfold renameSheet
  by_cases h1 : new ∈ names l
  · have : l.any (fun e => e.name = new) = true := by
      rw [List.any_eq_true]; obtain ⟨e, he, hn⟩ := mem_names.mp h1; exact ⟨e, he, by simpa using hn⟩
    rw [if_pos this]
    exact Or.inl ⟨Or.inl h1, _, rfl⟩
  · have : ¬ l.any (fun e => e.name = new) = true := by
      rw [List.any_eq_true]; intro ⟨e, he, hn⟩; exact h1 (mem_names.mpr ⟨e, he, by simpa using hn⟩)
    rw [if_neg this]
    by_cases h2 : old ∈ names l
    · have h3 : l.any (fun e => e.name = old) = true := by
        rw [List.any_eq_true]; obtain ⟨e, he, hn⟩ := mem_names.mp h2; exact ⟨e, he, by simpa using hn⟩
      rw [if_pos h3]
      obtain ⟨e0, he0, hn0⟩ := mem_names.mp h2
      obtain ⟨a, e, b, h4, h5, h6⟩ := first_split (fun e : SheetEntry => decide (e.name = old)) l ⟨e0, he0, by simpa using hn0⟩
      refine Or.inr ⟨h1, a, e, b, h4, ?_, by simpa using h6, ?_⟩
      · intro h
        obtain ⟨y, hy, hn⟩ := mem_names.mp h
        have := h5 y hy
        simp [hn] at this
      · rw [h4, mapFirst_split _ _ _ _ _ h5 h6]
    · have h3 : ¬ l.any (fun e => e.name = old) = true := by
        rw [List.any_eq_true]; intro ⟨e, he, hn⟩; exact h2 (mem_names.mpr ⟨e, he, by simpa using hn⟩)
      rw [if_neg h3]
      exact Or.inl ⟨Or.inr h2, _, rfl⟩

theorem names_setActive (l : List SheetEntry) (n : String) : names (setActive l n) = names l := by
  simp [names, setActive]
theorem names_hideSheet (l : List SheetEntry) (n : String) : names (hideSheet l n) = names l := by
  simp [names, hideSheet]

/-- The effect of opening on the listed names, whatever the outcome. -/
theorem open_names (env : Env) (s : Session) (name : Option String) :
    (∃ n, name = some n ∧ n ∈ names s.x.sheets ∧ names (s.open env name).2.x.sheets = names s.x.sheets ∧
      ((s.open env name).1 = .ok () → (s.open env name).2.handles.map SheetHandle.name = s.handles.map SheetHandle.name ++ [n])) ∨
    ((∀ n, name = some n → n ∉ names s.x.sheets) ∧ ∃ e, relativePath s.x.rels.path = .error e ∧ s.open env name = (.error e, s)) ∨
    ((∀ n, name = some n → n ∉ names s.x.sheets) ∧ ∃ dir, relativePath s.x.rels.path = .ok dir ∧
      names (s.open env name).2.x.sheets = names s.x.sheets ++ [newNameOf s.x dir name] ∧
      ((s.open env name).1 = .ok () →
        (s.open env name).2.handles.map SheetHandle.name = s.handles.map SheetHandle.name ++ [newNameOf s.x dir name])) := by
  have hh := openSheet_sheets env s.x name
  have key : ∀ nm : String, (∀ h, (s.x.openSheet env name).1 = .ok h → h.name = nm) →
      ((s.open env name).1 = .ok () → (s.open env name).2.handles.map SheetHandle.name = s.handles.map SheetHandle.name ++ [nm]) := by
    intro nm hnm hok
    unfold Session.open at hok ⊢
    split
    · next he => rw [he] at hok; cases hok
    · next h x1 he => simp [hnm h (by rw [he])]
  have hsh : (s.open env name).2.x.sheets = (s.x.openSheet env name).2.sheets := by
    unfold Session.open
    split
    · next he => rw [he]
    · next he => rw [he]
  by_cases hl : ∃ n, name = some n ∧ n ∈ names s.x.sheets
  · obtain ⟨n, rfl, hn⟩ := hl
    obtain ⟨r, hr, hr2⟩ := sheetFile_listed hn
    refine Or.inl ⟨n, rfl, hn, by rw [hsh, hh.1, hr], key n ?_⟩
    intro h hok
    obtain ⟨p, nm, h1, h2, _⟩ := hh.2 h hok
    rw [hr] at h1
    rw [h2]; exact (hr2 p nm h1).1
  · have hn : ∀ n, name = some n → n ∉ names s.x.sheets := fun n h1 h2 => hl ⟨n, h1, h2⟩
    rcases sheetFile_new hn with ⟨e, h1, h2⟩ | ⟨dir, h1, h2⟩
    · refine Or.inr (Or.inl ⟨hn, e, h1, ?_⟩)
      unfold Session.open Excel.openSheet
      rw [h2]
    · refine Or.inr (Or.inr ⟨hn, dir, h1, ?_, key _ ?_⟩)
      · rw [hsh, hh.1, h2]
        exact names_append _ _
      · intro h hok
        obtain ⟨p, nm, h3, h4, _⟩ := hh.2 h hok
        rw [h2] at h3
        cases h3
        exact h4

end Oxml
