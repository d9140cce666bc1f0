import Verif.Props.ColumnEdits -- only to build one after the other: both need much memory
import Verif.Proofs.SheetRefused
import Verif.Props.DropOrder
/-!
# C98: open sheets never get in each other's way

A sheet handed out keeps its part and its relationship part open until it is dropped. The handle finds its document through a weak reference
(`worksheet.rs:164-209`, `Weak::upgrade`), so edits would silently vanish if the document was gone.
-/
namespace Oxml
open Spec

variable {env : Env} {theme : XDoc} {z : Zip} {ops : List WbOp} {x : Excel} {s : Session}

/-- The history ran in a new or in an opened workbook. -/
def Happened (env : Env) (theme : XDoc) (ops : List WbOp) (s : Session) : Prop :=
  Ran env theme ops s ∨ ∃ z x, (akeys z).Nodup ∧ RanOn env theme z ops x s

theorem Happened.live (h : Happened env theme ops s) : LiveSess s := by
  rcases h with h | ⟨z, x, hz, hopen, hrun⟩
  · exact new_live h
  · obtain ⟨p, _, _, _, _, _, _, _, _, _, _, _, hb⟩ := openFile_book hz hopen
    exact hb.live.run env ops hrun

/-- **C98.** After every history the parts in use are all different: those of the workbook, those of open sheets and their relationship parts. -/
theorem C98_distinct (h : Happened env theme ops s) : (ownParts s.x ++ s.handles.flatMap (fun g => [g.path, g.rels.path])).Nodup := by
  have := h.live.nodup
  rw [List.map_append] at this
  have e : (handlePairs s.handles).map Prod.fst = s.handles.flatMap (fun g => [g.path, g.rels.path]) := by
    unfold handlePairs
    rw [List.map_flatMap]
    rfl
  rw [e] at this
  exact this

/-- **C98.** Every open sheet finds its own document, and its relationships theirs: no call takes them away. -/
theorem C98_found (h : Happened env theme ops s) {g : SheetHandle} (hg : g ∈ s.handles) :
    (∃ o, aget g.path s.x.pkg.opened = some o ∧ o.handle = g.handle ∧ s.x.pkg.docOf g.handle = some o.doc) ∧
    (∃ o, aget g.rels.path s.x.pkg.opened = some o ∧ o.handle = g.rels.handle ∧ s.x.pkg.docOf g.rels.handle = some o.doc) := by
  have hl := h.live
  have hm : ∀ e ∈ [(g.path, g.handle), (g.rels.path, g.rels.handle)], Owns s.x.pkg e := by
    intro e he
    exact hl.owns e (List.mem_append_right _ (List.mem_flatMap.mpr ⟨g, hg, he⟩))
  obtain ⟨o, h1, h2⟩ := hm (g.path, g.handle) (by simp)
  obtain ⟨o', h3, h4⟩ := hm (g.rels.path, g.rels.handle) (by simp)
  simp only at h1 h2 h3 h4
  exact ⟨⟨o, h1, h2, by rw [← h2]; exact hl.inv.docOf h1⟩, ⟨o', h3, h4, by rw [← h4]; exact hl.inv.docOf h3⟩⟩

/-- **C98.** A sheet that is open is not handed out again, and asking for it changes nothing. -/
theorem C98_refused (h : Happened env theme ops s) {g : SheetHandle} (hg : g ∈ s.handles) {name : String} (hn : StoredIn s.x name g.path) :
    ∃ m, s.step env (.get name) = (.error (.fail m), s) ∧ s.step env (.add (some name)) = (.error (.fail m), s) := by
  obtain ⟨⟨o, h1, _⟩, _⟩ := C98_found h hg
  have hopen : s.x.pkg.openPart env (.ok worksheetTemplate) g.path = (.error (.fail "Please close the Existing object before creating new handle"), s.x.pkg) := by
    unfold Pkg.openPart Pkg.getXmlTree
    have : ahas g.path s.x.pkg.opened = true := by unfold ahas; rw [h1]; rfl
    rw [this]
    rfl
  have hs : s.open env (some name) = (.error (.fail "Please close the Existing object before creating new handle"), s) := by
    unfold Session.open Excel.openSheet
    rw [sheetFile_stored hn]
    simp only [hopen]
  exact ⟨_, hs, hs⟩

/-- **C98.** A call changes no open sheet but the one it is made through; a sheet handed out is none of those open. -/
theorem C98_data (h : Happened env theme ops s) (op : WbOp) {g : SheetHandle} (hg : g ∈ (s.step env op).2.handles) :
    g ∈ s.handles ∨ (∃ i o k d, op = .sheet i o ∧ s.handles[i]? = some k ∧ g = { k with data := d }) ∨
      ((∃ n, op = .add n ∨ ∃ m, op = .get m) ∧ ∀ k ∈ s.handles, k.path ≠ g.path) := by
  have hlive := h.live.step env op
  have opened : ∀ name, g ∈ (s.open env name).2.handles → LiveSess (s.open env name).2 → g ∈ s.handles ∨ ∀ k ∈ s.handles, k.path ≠ g.path := by
    intro name hm hl
    cases e : s.open env name with
    | mk r s1 =>
      rw [e] at hm hl
      have hh : s1.handles = s.handles ∨ ∃ g', s1.handles = s.handles ++ [g'] := by
        unfold Session.open at e
        split at e
        · cases e; exact .inl rfl
        · cases e; exact .inr ⟨_, rfl⟩
      rcases hh with hh | ⟨g', hh⟩
      · left; simp only at hm; rw [hh] at hm; exact hm
      · simp only at hm hl
        rw [hh] at hm
        rcases List.mem_append.mp hm with hm | hm
        · exact .inl hm
        · right
          rw [List.mem_singleton] at hm
          subst hm
          have hp := hl.paths
          rw [hh, List.map_append, List.map_cons, List.map_nil, List.nodup_append] at hp
          intro k hk
          exact hp.2.2 _ (List.mem_map_of_mem (f := fun g : SheetHandle => g.path) hk) _ (by simp)
  cases op with
  | add name => exact (opened name hg hlive).imp id (fun h => .inr ⟨⟨name, .inl rfl⟩, h⟩)
  | get name => exact (opened (some name) hg hlive).imp id (fun h => .inr ⟨⟨none, .inr ⟨name, rfl⟩⟩, h⟩)
  | sheet i o =>
    simp only [Session.step] at hg
    split at hg
    · exact .inl hg
    · next k hk =>
      split at hg
      · exact .inl hg
      · next d t _ =>
        rcases List.mem_or_eq_of_mem_set hg with h | h
        · exact .inl h
        · exact .inr (.inl ⟨i, o, k, d, rfl, hk, h⟩)
  | drop i =>
    simp only [Session.step] at hg
    split at hg
    · exact .inl hg
    · exact .inl (List.mem_of_mem_eraseIdx hg)
  | delete i =>
    simp only [Session.step] at hg
    split at hg
    · exact .inl hg
    · exact .inl (List.mem_of_mem_eraseIdx hg)
  | rename old new =>
    simp only [Session.step] at hg
    split at hg <;> exact .inl hg
  | active name => exact .inl hg
  | hide name => exact .inl hg
  | _ =>
    simp only [Session.step] at hg
    first
    | exact .inl hg
    | (split at hg <;> exact .inl hg)

/-- Asking for an open sheet, computed. -/
def askedTwiceB (env : Env) (theme : XDoc) (z : Zip) (ops : List WbOp) (name : String) : Bool :=
  match Excel.openFile env theme z with
  | .error _ => false
  | .ok x => match Session.run env ⟨x, []⟩ ops with
    | .error _ => false
    | .ok s => match s.handles, s.x.sheets.find? (fun e => e.name = name) with
      | [g, _], some e => match s.x.rels.rels.find? (fun r => r.id = e.relId) with
        | some r => match resolveTarget s.x.rels.path r.target with
          | .ok p => decide (p = g.path)
          | .error _ => false
        | none => false
      | _, _ => false

/-- The hypotheses of `C98_refused` hold for a workbook in which a sheet is held and another one added. -/
example : ∃ s g k, Happened exEnv exTheme [.get "A", .add (some "New"), .sheet 0 (.write 1 2 [{ value := some "hello" }])] s ∧ s.handles = [g, k] ∧
    StoredIn s.x "A" g.path := by
  have h : askedTwiceB exEnv exTheme exFull [.get "A", .add (some "New"), .sheet 0 (.write 1 2 [{ value := some "hello" }])] "A" = true := by decide +kernel
  unfold askedTwiceB at h
  split at h
  · cases h
  · next x hx =>
    split at h
    · cases h
    · next s hs =>
      split at h
      · next g k e hh he =>
        split at h
        · next r hr =>
          split at h
          · next p hp => exact ⟨s, g, k, .inr ⟨exFull, x, by decide +kernel, hx, hs⟩, hh, e, r, he, hr, by rw [hp, of_decide_eq_true h]⟩
          · cases h
        · cases h
      · cases h

end Oxml
