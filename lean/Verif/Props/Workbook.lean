import Verif.Proofs.Workbook
import Verif.Proofs.NewBook
/-!
# Properties of the sheet list and the workbook document (C38 – C43, C49)

`Session` is a workbook with the handles a user keeps; `WbOp` is one call.
-/
namespace Oxml
open Spec

/-! ## C38 Sheet list operations -/

/-- **C38, one call.** A successful call changes the listed names as the list operations say, in every state. -/
theorem C38_call (env : Env) (s s' : Session) (op : WbOp) (h : s.step env op = (.ok (), s')) : NameStep op (namesOf s) (namesOf s') := by
  have hopen : ∀ name : Option String, s.open env name = (.ok (), s') →
      (∃ n, name = some n ∧ n ∈ names s.x.sheets ∧ namesOf s' = (names s.x.sheets, s.handles.map SheetHandle.name ++ [n])) ∨
      ((∀ n, name = some n → n ∉ names s.x.sheets) ∧ ∃ dir,
        namesOf s' = (names s.x.sheets ++ [newNameOf s.x dir name], s.handles.map SheetHandle.name ++ [newNameOf s.x dir name])) := by
    intro name ho
    rcases open_names env s name with ⟨n, h1, h2, h3, h4⟩ | ⟨_, e, _, h3⟩ | ⟨h1, dir, h2, h3, h4⟩
    · rw [ho] at h3 h4
      exact Or.inl ⟨n, h1, h2, Prod.ext h3 (h4 rfl)⟩
    · rw [ho] at h3; cases h3
    · rw [ho] at h3 h4
      exact Or.inr ⟨h1, dir, Prod.ext h3 (h4 rfl)⟩
  cases op with
  | add name =>
    rcases hopen name h with ⟨n, rfl, h2, h3⟩ | ⟨h1, dir, h3⟩
    · rw [h3]; exact .addOld n _ _ h2
    · rw [h3]
      cases name with
      | some n => exact .addNew n _ _ (h1 n rfl)
      | none =>
        refine .addDefault _ _ _ ?_
        have := freeSheet_ge s.x.pkg dir (s.x.sheets.length + 1)
        simp only [names, List.length_map]
        omega
  | get n =>
    rcases hopen (some n) h with ⟨_, h1, h2, h3⟩ | ⟨h1, dir, h3⟩
    · cases h1
      rw [h3]; exact .getOld n _ _ h2
    · rw [h3]; exact .getNew n _ _ (h1 n rfl)
  | sheet i op =>
    have : namesOf s' = namesOf s := by
      simp only [Session.step] at h
      split at h
      · cases h; rfl
      · next h' hh =>
        split at h
        · cases h
        · cases h
          unfold namesOf
          refine Prod.ext rfl ?_
          simp only [List.map_set]
          apply List.ext_getElem?
          intro j
          rw [List.getElem?_set]
          split
          · next hj =>
            subst hj
            obtain ⟨hlt, hg⟩ := List.getElem?_eq_some_iff.mp hh
            rw [if_pos (by simpa using hlt), List.getElem?_map, hh]; rfl
          · rfl
    rw [this]; exact .sheet i op _ _
  | drop i =>
    simp only [Session.step] at h
    split at h
    · next hh =>
      cases h
      have e := NameStep.drop i (names s.x.sheets) (s.handles.map SheetHandle.name)
      rw [List.eraseIdx_of_length_le (by simpa using hh)] at e
      exact e
    · cases h
      have e := NameStep.drop i (names s.x.sheets) (s.handles.map SheetHandle.name)
      rw [← map_eraseIdx] at e
      exact e
  | delete i =>
    simp only [Session.step] at h
    split at h
    · next hh => cases h; exact .deleteNone i _ _ (by rw [List.getElem?_map, hh]; rfl)
    · next h' hh =>
      have h := congrArg Prod.snd h
      simp only at h
      subst h
      have e := NameStep.delete i h'.name (names s.x.sheets) (s.handles.map SheetHandle.name) (by rw [List.getElem?_map, hh]; rfl)
      rw [← map_eraseIdx] at e
      have e2 : names (s.x.deleteSheet env h').2.sheets = (names s.x.sheets).filter (· ≠ h'.name) := by
        unfold Excel.deleteSheet names
        rw [List.filter_map]; rfl
      unfold namesOf
      simp only [e2]
      exact e
  | rename old new =>
    simp only [Session.step] at h
    rcases renameSheet_cases s.x.sheets old new with ⟨_, m, hm⟩ | ⟨h1, a, e, b, h2, h3, h4, h5⟩
    · rw [hm] at h; cases h
    · rw [h5] at h
      cases h
      have e1 : namesOf s = (names a ++ old :: names b, s.handles.map SheetHandle.name) := by
        unfold namesOf; rw [h2]; simp [names, h4]
      rw [e1]
      have := NameStep.rename old new (names a) (names b) (s.handles.map SheetHandle.name) h3 (by
        intro hh; apply h1; rw [h2]; simpa [names, h4] using hh)
      have e2 : namesOf { s with x := { s.x with sheets := a ++ { e with name := new } :: b } } =
          (names a ++ new :: names b, s.handles.map SheetHandle.name) := by
        unfold namesOf; simp [names]
      exact e2 ▸ this
  | active n => cases h; unfold namesOf; simp only [names_setActive]; exact .active n _ _
  | hide n => cases h; unfold namesOf; simp only [names_hideSheet]; exact .hide n _ _
  | view op => cases h; exact .view op _ _
  | style g st =>
    simp only [Session.step] at h
    split at h
    · cases h
    · cases h; exact .style g st _ _

/-- **C38, partial.** After any history of successful calls, from any state, the names are those the list operations give.
Missing: calls that fail (`C49_violated`). -/
theorem C38_partial (env : Env) (s s' : Session) (ops : List WbOp) (h : AllOk env s ops s') : NameSteps ops (namesOf s) (namesOf s') := by
  induction h with
  | done => exact .done _
  | more h1 _ ih => exact .more (C38_call _ _ _ _ h1) ih

/-- A new workbook as a session. -/
def newSession (env : Env) (theme : XDoc) : Session := ⟨newExcel env theme, []⟩

/-- Example: adding, renaming and deleting in a new workbook. -/
example (env : Env) (theme : XDoc) :
    (Session.run env (newSession env theme) [.add (some "a"), .add none, .rename "a" "b", .delete 1]).toOption.map namesOf =
      some (["sheet1", "b"], ["a"]) := by kernel_rfl

/-! ## C39 Sheet names -/

/-- **C39 fails.** A default name may repeat a listed name: two calls on a new workbook are enough. -/
theorem C39_violated (env : Env) (theme : XDoc) :
    ∃ x s, Excel.new env theme = .ok x ∧ Session.run env ⟨x, []⟩ [.add (some "sheet3"), .add none] = .ok s ∧
      names s.x.sheets = ["sheet1", "sheet3", "sheet3"] := by
  refine ⟨_, (Session.run env ⟨newExcel env theme, []⟩ [.add (some "sheet3"), .add none]).toOption.getD ⟨newExcel env theme, []⟩,
    new_eq env theme, ?_, ?_⟩
  · kernel_rfl
  · kernel_rfl

/-- **C39, one call.** Only a default name can repeat a listed one. -/
theorem C39_call (env : Env) (s : Session) (op : WbOp) (hop : op ≠ .add none) (h : (names s.x.sheets).Nodup) :
    (names (s.step env op).2.x.sheets).Nodup := by
  have hopen : ∀ n : String, (names (s.open env (some n)).2.x.sheets).Nodup := by
    intro n
    rcases open_names env s (some n) with ⟨_, h1, h2, h3, _⟩ | ⟨_, e, _, h3⟩ | ⟨h1, dir, h2, h3, _⟩
    · rw [h3]; exact h
    · rw [h3]; exact h
    · rw [h3, List.nodup_append]
      refine ⟨h, by simp, ?_⟩
      intro a ha b hb hab
      rw [List.mem_singleton] at hb
      rw [hab, hb] at ha
      exact h1 n rfl ha
  cases op with
  | add name =>
    cases name with
    | none => exact absurd rfl hop
    | some n => exact hopen n
  | get n => exact hopen n
  | sheet i op => simp only [Session.step]; split; · exact h
                  · split <;> exact h
  | drop i => simp only [Session.step]; split <;> exact h
  | delete i =>
    simp only [Session.step]
    split
    · exact h
    · simp only [Excel.deleteSheet]
      exact h.sublist (List.Sublist.map _ List.filter_sublist)
  | rename old new =>
    simp only [Session.step]
    rcases renameSheet_cases s.x.sheets old new with ⟨_, m, hm⟩ | ⟨h1, a, e, b, h2, h3, h4, h5⟩
    · rw [hm]; exact h
    · rw [h5]
      rw [h2] at h h1
      simp only [names, List.map_append, List.map_cons, List.nodup_append, List.nodup_cons, List.mem_append, List.mem_cons, not_or] at h h1 ⊢
      refine ⟨h.1, ⟨h1.2.2, h.2.1.2⟩, ?_⟩
      intro x hx y hy
      rcases hy with hy | hy
      · subst hy; intro hxy; subst hxy; exact h1.1 hx
      · exact h.2.2 x hx y (Or.inr hy)
  | active n => simp only [Session.step, names_setActive]; exact h
  | hide n => simp only [Session.step, names_hideSheet]; exact h
  | view op => exact h
  | style g st => simp only [Session.step]; split <;> exact h

/-- **C39, partial.** Names stay distinct through any history, failed calls included, that never asks for a default name.
Missing: default names (`C39_violated`). -/
theorem C39_partial (env : Env) (s s' : Session) (ops : List WbOp) (hops : .add none ∉ ops) (h : (names s.x.sheets).Nodup)
    (hr : s.run env ops = .ok s') : (names s'.x.sheets).Nodup := by
  induction ops generalizing s with
  | nil => cases hr; exact h
  | cons op ops ih =>
    rw [Session.run] at hr
    simp only [List.mem_cons, not_or] at hops
    have hc := C39_call env s op (Ne.symm hops.1) h
    cases hs : s.step env op with
    | mk r s1 =>
      rw [hs] at hr hc
      cases r with
      | ok u => exact ih s1 hops.2 hc hr
      | error e =>
        cases e with
        | panic m => cases hr
        | fail m => exact ih s1 hops.2 hc hr

/-- Example: a history with a clashing add, a clashing rename and a deletion. -/
example (env : Env) (theme : XDoc) :
    (Session.run env (newSession env theme) [.add (some "a"), .add (some "b"), .add (some "a"), .rename "b" "a", .rename "b" "c",
      .delete 0]).toOption.map namesOf = some (["sheet1", "c"], ["b"]) := by kernel_rfl

/-! ## C40 Renaming -/

/-- **C40.** Renaming fails, changing nothing, exactly when the new name is listed or the old is not; otherwise exactly one
entry changes, and only its name. -/
theorem C40_rename (env : Env) (s : Session) (old new : String) :
    ((new ∈ names s.x.sheets ∨ old ∉ names s.x.sheets) → ∃ m, s.step env (.rename old new) = (.error (.fail m), s)) ∧
    (new ∉ names s.x.sheets → old ∈ names s.x.sheets →
      ∃ (l : List SheetEntry) (i : Nat) (e : SheetEntry), s.step env (.rename old new) = (.ok (), { s with x := { s.x with sheets := l } }) ∧
        s.x.sheets[i]? = some e ∧ e.name = old ∧ (∀ j < i, ∀ f : SheetEntry, s.x.sheets[j]? = some f → f.name ≠ old) ∧
        l.length = s.x.sheets.length ∧
        l[i]? = some { name := new, relId := e.relId, active := e.active, hide := e.hide } ∧
        ∀ j, j ≠ i → l[j]? = s.x.sheets[j]?) := by
  rcases renameSheet_cases s.x.sheets old new with ⟨h1, m, hm⟩ | ⟨h1, a, e, b, h2, h3, h4, h5⟩
  · constructor
    · intro _; exact ⟨m, by simp only [Session.step]; rw [hm]⟩
    · intro hn ho
      rcases h1 with h1 | h1
      · exact absurd h1 hn
      · exact absurd ho h1
  · constructor
    · intro h
      exfalso
      rcases h with h | h
      · exact h1 h
      · exact h (mem_names.mpr ⟨e, by rw [h2]; simp, h4⟩)
    · intro _ _
      refine ⟨a ++ { e with name := new } :: b, a.length, e, by simp only [Session.step]; rw [h5], ?_, h4, ?_, ?_, ?_, ?_⟩
      · rw [h2]; simp
      · intro j hj f hf hfn
        rw [h2, List.getElem?_append_left hj] at hf
        exact h3 (mem_names.mpr ⟨f, mem_of_getElem? hf, hfn⟩)
      · rw [h2]; simp
      · simp
      · intro j hj
        rw [h2]
        by_cases hlt : j < a.length
        · rw [List.getElem?_append_left hlt, List.getElem?_append_left hlt]
        · rw [List.getElem?_append_right (by omega), List.getElem?_append_right (by omega)]
          have : j - a.length ≠ 0 := by omega
          cases hk : j - a.length with
          | zero => exact absurd hk this
          | succ k => simp

/-- Example: both outcomes. -/
example : names [{ name := "a", relId := "rId5", active := true, hide := false }, ⟨"b", "rId6", false, true⟩] = ["a", "b"] ∧
    renameSheet [{ name := "a", relId := "rId5", active := true, hide := false }, ⟨"b", "rId6", false, true⟩] "b" "c" =
      .ok [⟨"a", "rId5", true, false⟩, ⟨"c", "rId6", false, true⟩] := by decide +kernel

/-! ## C41 Hiding -/

/-- The names hidden in a saved workbook document are those of the entries flagged. -/
theorem hiddenNames_saved {sheets : List SheetEntry} {view : Option BookView} {x x' : XDoc} (hc : ∀ n ∈ x.rootChildren, n.tag ∉ bookTags)
    (h : saveBook sheets view x = .ok x') : hiddenNames x' = (sheets.filter SheetEntry.hide).map (fun e => some e.name) := by
  cases hr : x.root with
  | none => unfold saveBook at h; rw [hr] at h; cases h
  | some root =>
    rw [saveBook_ok hr] at h
    cases h
    unfold hiddenNames sheetElements
    rw [rootChildren_mapRoot hr, placeBook_filter _ _ _ hc, if_neg (by decide), if_pos rfl]
    simp only [List.flatMap_cons, List.flatMap_nil, List.append_nil, Node.children]
    generalize 1 = k
    induction sheets generalizing k with
    | nil => rfl
    | cons e es ih =>
      have ha := sheetNode_attrs k e
      rw [sheetNodes, List.filter_cons, List.filter_cons, ha.2.2.2]
      cases he : e.hide
      · simp [ih]
      · simp [ih, ha.1]

/-- **C41 fails.** Hiding a second sheet makes the first visible again in the saved workbook. -/
theorem C41_violated (env : Env) (theme : XDoc) :
    ∃ x s d, Excel.new env theme = .ok x ∧ Session.run env ⟨x, []⟩ [.add (some "a"), .add (some "b"), .hide "sheet1", .hide "a"] = .ok s ∧
      saveBook s.x.sheets s.x.view workbookDoc = .ok d ∧ hiddenNames d = [some "a"] := by
  refine ⟨_, (Session.run env ⟨newExcel env theme, []⟩ [.add (some "a"), .add (some "b"), .hide "sheet1", .hide "a"]).toOption.getD
    ⟨newExcel env theme, []⟩, ?_, new_eq env theme, ?_, ?_, ?_⟩
  · exact workbookDoc.mapRootChildren (placeBook [⟨"sheet1", "rId5", false, false⟩, ⟨"a", "rId6", false, true⟩, ⟨"b", "rId7", false, false⟩] none)
  · kernel_rfl
  · kernel_rfl
  · kernel_rfl

/-- **C41, what hiding does.** After `hide_sheet_mut` the saved workbook hides the sheets of that name and no other. -/
theorem C41_hide_exact (env : Env) (s : Session) (name : String) {x x' : XDoc} (hc : ∀ n ∈ x.rootChildren, n.tag ∉ bookTags)
    (h : saveBook (s.step env (.hide name)).2.x.sheets s.x.view x = .ok x') :
    hiddenNames x' = ((names s.x.sheets).filter (· = name)).map some := by
  rw [hiddenNames_saved hc h]
  simp only [Session.step, hideSheet, names]
  generalize s.x.sheets = l
  induction l with
  | nil => rfl
  | cons e es ih =>
    by_cases he : e.name = name
    · simp [he] at ih ⊢; exact ih
    · simp [he] at ih ⊢; exact ih

/-- **C41, partial.** With no other sheet hidden before, hiding a listed sheet hides it in the saved workbook and leaves the
flag of every other sheet. Missing: other hidden sheets (`C41_violated`). -/
theorem C41_partial (env : Env) (s : Session) (name : String) (hn : name ∈ names s.x.sheets)
    (ho : ∀ e ∈ s.x.sheets, e.name ≠ name → e.hide = false) {x x' : XDoc} (hc : ∀ n ∈ x.rootChildren, n.tag ∉ bookTags)
    (h : saveBook (s.step env (.hide name)).2.x.sheets s.x.view x = .ok x') :
    some name ∈ hiddenNames x' ∧
    ∀ (i : Nat) (e : SheetEntry), s.x.sheets[i]? = some e → e.name ≠ name → (s.step env (.hide name)).2.x.sheets[i]? = some e := by
  constructor
  · rw [C41_hide_exact env s name hc h]
    simp [hn]
  · intro i e he hne
    simp only [Session.step, hideSheet, List.getElem?_map, he, Option.map_some]
    have := ho e (mem_of_getElem? he) hne
    cases e
    simp_all

/-- Example: hiding in a new workbook with two more sheets. -/
example (env : Env) (theme : XDoc) :
    (Session.run env (newSession env theme) [.add (some "a"), .add (some "b"), .hide "a"]).toOption.map (fun s => s.x.sheets.map SheetEntry.hide) =
      some [false, true, false] := by kernel_rfl

/-! ## C42 View settings -/

/-- Values of the five settings in a call. -/
def setVisibility : ViewOp → Option Bool | .visibility b => some b | _ => none
def setMinimize : ViewOp → Option Bool | .minimize b => some b | _ => none
def setHideTabs : ViewOp → Option Bool | .hideTabs b => some b | _ => none
def setHideVertical : ViewOp → Option Bool | .hideVertical b => some b | _ => none
def setHideHorizontal : ViewOp → Option Bool | .hideHorizontal b => some b | _ => none

theorem lastSet_snoc {α : Type} (f : ViewOp → Option α) (d : α) (ops : List ViewOp) (op : ViewOp) :
    lastSet f d (ops ++ [op]) = (f op).getD (lastSet f d ops) := by
  unfold lastSet
  rw [List.filterMap_append]
  cases h : f op with
  | none => simp [h]
  | some v => simp [h]

/-- **C42, in memory.** After any history of view settings each setting holds the last value set, whatever the others. -/
theorem C42_last_value (v : Option BookView) (ops : List ViewOp) :
    ((ops.foldl ViewOp.run v).getD {}).minimize = lastSet setMinimize (v.getD {}).minimize ops ∧
    ((ops.foldl ViewOp.run v).getD {}).hideTabs = lastSet setHideTabs (v.getD {}).hideTabs ops ∧
    ((ops.foldl ViewOp.run v).getD {}).hideVertical = lastSet setHideVertical (v.getD {}).hideVertical ops ∧
    ((ops.foldl ViewOp.run v).getD {}).hideHorizontal = lastSet setHideHorizontal (v.getD {}).hideHorizontal ops ∧
    ((ops.foldl ViewOp.run v).getD {}).visibility =
      lastSet (fun op => (setVisibility op).map (fun b => some (if b then "visible" else "hidden"))) (v.getD {}).visibility ops := by
  have key : ∀ n (ops : List ViewOp), ops.length = n →
    ((ops.foldl ViewOp.run v).getD {}).minimize = lastSet setMinimize (v.getD {}).minimize ops ∧
    ((ops.foldl ViewOp.run v).getD {}).hideTabs = lastSet setHideTabs (v.getD {}).hideTabs ops ∧
    ((ops.foldl ViewOp.run v).getD {}).hideVertical = lastSet setHideVertical (v.getD {}).hideVertical ops ∧
    ((ops.foldl ViewOp.run v).getD {}).hideHorizontal = lastSet setHideHorizontal (v.getD {}).hideHorizontal ops ∧
    ((ops.foldl ViewOp.run v).getD {}).visibility =
      lastSet (fun op => (setVisibility op).map (fun b => some (if b then "visible" else "hidden"))) (v.getD {}).visibility ops := by
    intro n
    induction n with
    | zero =>
      intro ops h
      rw [List.length_eq_zero_iff] at h
      subst h
      exact ⟨rfl, rfl, rfl, rfl, rfl⟩
    | succ n ih =>
      intro ops h
      have hne : ops ≠ [] := by intro h0; subst h0; cases h
      obtain ⟨init, op, rfl⟩ : ∃ init op, ops = init ++ [op] := ⟨_, _, (List.dropLast_concat_getLast hne).symm⟩
      have := ih init (by simpa using h)
      simp only [lastSet_snoc, List.foldl_append, List.foldl_cons, List.foldl_nil]
      obtain ⟨h1, h2, h3, h4, h5⟩ := this
      cases op <;> simp [ViewOp.run, setMinimize, setHideTabs, setHideVertical, setHideHorizontal, setVisibility, h1, h2, h3, h4, h5]
  exact key ops.length ops rfl

/-- **C42, saving and loading.** What the workbook document gives back: every listed sheet in order, and the view with its
tab flag inverted. -/
theorem C42_reload (env : Env) (hst : env.build.release = true → StampOk env.stamp) (sheets : List SheetEntry) (view : Option BookView)
    {x : XDoc} {t : String} {a : Option Attrs} {cs : List Node} (hf : FitsBook view) (hx : WfDoc env.uni x (.mk t a none cs))
    (hc : ∀ n ∈ cs, n.tag ∉ bookTags) :
    ∃ x' d, saveBook sheets view x = .ok x' ∧ readXml env.uni (renderDoc env.build env.stamp x') = .ok d ∧
      (loadBook d.toXDoc).1 = .ok (sheets.map reloadSheetEntry, view.map reloadBookView) := by
  obtain ⟨x', d, h1, h2, _, h4⟩ := reload_book env hst (sheets := sheets) (view := view) hf hx hc
  exact ⟨x', d, h1, h2, h4⟩

theorem fits_ops (v : Option BookView) (h : FitsBook v) (ops : List ViewOp) : FitsBook (ops.foldl ViewOp.run v) := by
  induction ops generalizing v with
  | nil => exact h
  | cons op ops ih =>
    apply ih
    intro b r hb hr
    have : b.tabRatio = (v.getD {}).tabRatio := by cases op <;> (simp only [ViewOp.run, Option.some.injEq] at hb; subst hb; rfl)
    rw [this] at hr
    cases v with
    | none => cases hr
    | some v => exact h v r rfl hr

/-- **C42, partial.** After any history of view settings, saving and loading, the settings read back are the last values
set, for visibility, minimizing and both scroll bars. Missing: the tab bar (`C42_violated`). -/
theorem C42_partial (env : Env) (hst : env.build.release = true → StampOk env.stamp) (sheets : List SheetEntry) (view : Option BookView)
    (ops : List ViewOp) {x : XDoc} {t : String} {a : Option Attrs} {cs : List Node} (hf : FitsBook view) (hx : WfDoc env.uni x (.mk t a none cs))
    (hc : ∀ n ∈ cs, n.tag ∉ bookTags) (hne : ops ≠ []) (hv : (view.getD {}).visibility = none) :
    ∃ x' d l w, saveBook sheets (ops.foldl ViewOp.run view) x = .ok x' ∧ readXml env.uni (renderDoc env.build env.stamp x') = .ok d ∧
      (loadBook d.toXDoc).1 = .ok (l, some w) ∧
      w.minimize = lastSet setMinimize (view.getD {}).minimize ops ∧
      w.hideVertical = lastSet setHideVertical (view.getD {}).hideVertical ops ∧
      w.hideHorizontal = lastSet setHideHorizontal (view.getD {}).hideHorizontal ops ∧
      w.visibility = lastSet (fun op => (setVisibility op).map (fun b => some (if b then "visible" else "hidden"))) none ops := by
  obtain ⟨x', d, h1, h2, _, h4⟩ := reload_book env hst (sheets := sheets) (fits_ops view hf ops) hx hc
  have hs : ∃ v, ops.foldl ViewOp.run view = some v := by
    obtain ⟨init, op, rfl⟩ : ∃ init op, ops = init ++ [op] := ⟨_, _, (List.dropLast_concat_getLast hne).symm⟩
    rw [List.foldl_append]
    cases op <;> exact ⟨_, rfl⟩
  obtain ⟨v, hv'⟩ := hs
  have hl := C42_last_value view ops
  rw [hv'] at hl h4 h1
  rw [hv] at hl
  refine ⟨x', d, _, reloadBookView v, by rw [hv']; exact h1, h2, h4, hl.1, hl.2.2.1, hl.2.2.2.1, ?_⟩
  have h5 : v.visibility = _ := hl.2.2.2.2
  have h6 : ∀ w, v.visibility = some w → attrReload w = w := by
    intro w hw
    rw [h5] at hw
    unfold lastSet at hw
    have hm : some w ∈ ops.filterMap (fun op => (setVisibility op).map (fun b => some (if b then "visible" else "hidden"))) := by
      cases hg : (ops.filterMap (fun op => (setVisibility op).map (fun b => some (if b then "visible" else "hidden")))).getLast? with
      | none => rw [hg] at hw; cases hw
      | some z =>
        rw [hg] at hw
        simp only [Option.getD_some] at hw
        subst hw
        exact List.mem_of_getLast? hg
    rw [List.mem_filterMap] at hm
    obtain ⟨op, _, hop⟩ := hm
    cases hsv : setVisibility op with
    | none => rw [hsv] at hop; cases hop
    | some b =>
      rw [hsv] at hop
      cases b
      · simp only [Option.map_some, Option.some.injEq] at hop; subst hop; decide +kernel
      · simp only [Option.map_some, Option.some.injEq] at hop; subst hop; decide +kernel
  have h7 : (reloadBookView v).visibility = v.visibility := by
    unfold reloadBookView
    cases hvv : v.visibility with
    | none => rfl
    | some w => simp [h6 w hvv]
  rw [h7, h5]

/-- **C42 fails.** The tab bar setting comes back inverted, always. -/
theorem C42_violated (env : Env) (hst : env.build.release = true → StampOk env.stamp) (sheets : List SheetEntry) (view : Option BookView) (b : Bool)
    {x : XDoc} {t : String} {a : Option Attrs} {cs : List Node} (hf : FitsBook view) (hx : WfDoc env.uni x (.mk t a none cs))
    (hc : ∀ n ∈ cs, n.tag ∉ bookTags) :
    ∃ x' d l w, saveBook sheets (ViewOp.run view (.hideTabs b)) x = .ok x' ∧ readXml env.uni (renderDoc env.build env.stamp x') = .ok d ∧
      (loadBook d.toXDoc).1 = .ok (l, some w) ∧ w.hideTabs = !b := by
  obtain ⟨x', d, h1, h2, _, h4⟩ := reload_book env hst (sheets := sheets) (fits_ops view hf [.hideTabs b]) hx hc
  exact ⟨x', d, _, _, h1, h2, h4, rfl⟩

theorem wf_workbookDoc (u : Unicode) : WfDoc u workbookDoc (.mk "workbook" (some []) none
    [.mk "fileVersion" (some [("appName", "openxml-office"), ("lastEdited", "7"), ("lowestEdited", "7")]) none []]) := by
  refine ⟨rfl, ?_, ?_, ?_⟩
  · exact wfNode_attrs (by decide +kernel) (by decide +kernel) (by decide +kernel)
      ⟨wfNode_attrs (by decide +kernel) (by simp only [akeys, List.map_cons, List.map_nil]; decide +kernel) (by decide +kernel) trivial, trivial⟩
  · refine ⟨by decide +kernel, ?_⟩
    intro k hk
    have : k = defaultNsKey ∨ k = "r" := by simpa [workbookDoc, akeys] using hk
    rcases this with rfl | rfl
    · exact Or.inl rfl
    · exact Or.inr ⟨validName_ascii u (by decide +kernel), by decide⟩
  · intro kv hkv
    have : kv = (defaultNsKey, mainNs) ∨ kv = ("r", "http://schemas.openxmlformats.org/officeDocument/2006/relationships") := by
      simpa [workbookDoc] using hkv
    rcases this with rfl | rfl <;> decide +kernel

/-- Example: the hypotheses hold for the document of a new workbook. -/
example (env : Env) (hst : env.build.release = true → StampOk env.stamp) (sheets : List SheetEntry) :
    ∃ x' d l w, saveBook sheets ([.minimize true, .visibility false, .minimize false, .hideVertical true].foldl ViewOp.run none) workbookDoc = .ok x' ∧
      readXml env.uni (renderDoc env.build env.stamp x') = .ok d ∧ (loadBook d.toXDoc).1 = .ok (l, some w) ∧
      w.minimize = false ∧ w.hideVertical = true ∧ w.hideHorizontal = false ∧ w.visibility = some "hidden" :=
  C42_partial env hst sheets none [.minimize true, .visibility false, .minimize false, .hideVertical true]
    (by intro b r h; cases h) (wf_workbookDoc env.uni) (by simp [bookTags, Node.tag]) (by simp) rfl

/-! ## C43 The active sheet -/

/-- The workbook with another sheet list. -/
def Excel.withList (x : Excel) (l : List SheetEntry) : Excel := { x with sheets := l }

/-- An action that does not look at more of the sheet list than saving the document does. -/
def Blind (f : Excel → Res Unit × Excel) : Prop :=
  ∀ (x : Excel) (l : List SheetEntry), (∀ v d, saveBook l v d = saveBook x.sheets v d) →
    f (x.withList l) = ((f x).1, (f x).2.withList l) ∧ (f x).2.sheets = x.sheets

theorem Blind.seq {fs : List (Excel → Res Unit × Excel)} (h : ∀ f ∈ fs, Blind f) : Blind (fun x => x.seq fs) := by
  induction fs with
  | nil => intro x l _; exact ⟨rfl, rfl⟩
  | cons f fs ih =>
    intro x l hl
    obtain ⟨h1, h2⟩ := h f (by simp) x l hl
    simp only [Excel.seq]
    rw [h1]
    cases hf : f x with
    | mk r x1 =>
      rw [hf] at h2
      simp only at h2
      cases r with
      | error e => exact ⟨rfl, h2⟩
      | ok u =>
        have := ih (fun g hg => h g (by simp [hg])) x1 l (by rw [h2]; exact hl)
        exact ⟨this.1, by rw [this.2, h2]⟩

theorem Blind.seqDrop {fs : List (Excel → Res Unit × Excel)} (h : ∀ f ∈ fs, Blind f) :
    ∀ (x : Excel) (l : List SheetEntry), (∀ v d, saveBook l v d = saveBook x.sheets v d) →
      (x.withList l).seqDrop fs = (x.seqDrop fs).withList l ∧ (x.seqDrop fs).sheets = x.sheets := by
  induction fs with
  | nil => intro x l _; exact ⟨rfl, rfl⟩
  | cons f fs ih =>
    intro x l hl
    obtain ⟨h1, h2⟩ := h f (by simp) x l hl
    unfold Excel.seqDrop
    simp only [List.foldl_cons]
    rw [h1]
    have := ih (fun g hg => h g (by simp [hg])) (f x).2 l (by rw [h2]; exact hl)
    exact ⟨this.1, this.2.trans h2⟩

theorem blind_theme (env : Env) : Blind (Excel.closeTheme env) := fun _ _ _ => ⟨rfl, rfl⟩
theorem blind_rels (env : Env) : Blind (Excel.closeRels env) := fun _ _ _ => ⟨rfl, rfl⟩
theorem blind_root (env : Env) : Blind (Excel.closeRoot env) := fun _ _ _ => ⟨rfl, rfl⟩
theorem blind_calc (env : Env) : Blind (Excel.closeCalc env) := by
  intro x l _
  unfold Excel.closeCalc Excel.withList
  simp only
  split
  · exact ⟨rfl, rfl⟩
  · split
    · exact ⟨rfl, rfl⟩
    · split <;> exact ⟨rfl, rfl⟩
theorem blind_strings (env : Env) : Blind (Excel.closeStrings env) := by
  intro x l _
  unfold Excel.closeStrings Excel.withList
  simp only
  split
  · exact ⟨rfl, rfl⟩
  · split
    · exact ⟨rfl, rfl⟩
    · split <;> exact ⟨rfl, rfl⟩
theorem blind_styles (env : Env) : Blind (Excel.closeStyles env) := by
  intro x l _
  unfold Excel.closeStyles Excel.withList
  simp only
  split
  · exact ⟨rfl, rfl⟩
  · split <;> exact ⟨rfl, rfl⟩
theorem blind_core (env : Env) (now : String) : Blind (Excel.closeCore env now) := by
  intro x l _
  unfold Excel.closeCore Excel.withList
  simp only
  split
  · exact ⟨rfl, rfl⟩
  · split <;> exact ⟨rfl, rfl⟩
theorem blind_doc (env : Env) : Blind (Excel.closeDoc env) := by
  intro x l hl
  unfold Excel.closeDoc Excel.withList
  simp only [hl]
  split
  · exact ⟨rfl, rfl⟩
  · split <;> exact ⟨rfl, rfl⟩

theorem blind_book (env : Env) : Blind (Excel.closeBook env) := by
  refine Blind.seq ?_
  intro f hf
  simp only [List.mem_cons, List.not_mem_nil, or_false] at hf
  rcases hf with rfl | rfl | rfl | rfl | rfl | rfl
  · exact blind_theme env
  · exact blind_calc env
  · exact blind_strings env
  · exact blind_styles env
  · exact blind_rels env
  · exact blind_doc env

theorem blind_flush (env : Env) : Blind (Excel.flushBook env) := by
  intro x l hl
  obtain ⟨h1, h2⟩ := blind_book env x l hl
  have hl2 : ∀ v d, saveBook l v d = saveBook (x.closeBook env).2.sheets v d := by rw [h2]; exact hl
  obtain ⟨h3, h4⟩ := blind_book env (x.closeBook env).2 l hl2
  unfold Excel.flushBook Excel.dropBook
  rw [h1]
  simp only
  rw [h3]
  simp only
  have h5 := Blind.seqDrop (fs := [Excel.closeCalc env, Excel.closeStrings env, Excel.closeStyles env, Excel.closeRels env, Excel.closeTheme env]) (by
    intro f hf
    simp only [List.mem_cons, List.not_mem_nil, or_false] at hf
    rcases hf with rfl | rfl | rfl | rfl | rfl
    · exact blind_calc env
    · exact blind_strings env
    · exact blind_styles env
    · exact blind_rels env
    · exact blind_theme env) ((x.closeBook env).2.closeBook env).2 l (by rw [h4]; exact hl2)
  exact ⟨by rw [h5.1], by rw [h5.2, h4, h2]⟩

theorem blind_flushCore (env : Env) (now : String) : Blind (Excel.flushCore env now) := by
  intro x l hl
  obtain ⟨h1, h2⟩ := blind_core env now x l hl
  have hl2 : ∀ v d, saveBook l v d = saveBook (x.closeCore env now).2.sheets v d := by rw [h2]; exact hl
  obtain ⟨h3, h4⟩ := blind_core env now (x.closeCore env now).2 l hl2
  unfold Excel.flushCore
  rw [h1]
  simp only
  rw [h3]
  exact ⟨rfl, by rw [h4, h2]⟩

/-- The saved package depends on the sheet list only through the workbook document. -/
theorem saved_withList (env : Env) (now : String) (x : Excel) (l : List SheetEntry) (hl : ∀ v d, saveBook l v d = saveBook x.sheets v d) :
    (x.withList l).saved env now = x.saved env now := by
  have := (Blind.seq (fs := [Excel.flushBook env, Excel.flushCore env now, Excel.closeRoot env]) (by
    intro f hf
    simp only [List.mem_cons, List.not_mem_nil, or_false] at hf
    rcases hf with rfl | rfl | rfl
    · exact blind_flush env
    · exact blind_flushCore env now
    · exact blind_root env) x l hl).1
  unfold Excel.saved
  simp only at this
  rw [this]
  cases hs : x.seq [Excel.flushBook env, Excel.flushCore env now, Excel.closeRoot env] with
  | mk r x1 => cases r <;> rfl

theorem sheetNodes_setActive (k : Nat) (l : List SheetEntry) (n : String) : sheetNodes k (setActive l n) = sheetNodes k l := by
  induction l generalizing k with
  | nil => rfl
  | cons e es ih =>
    change sheetNode k e :: sheetNodes (k + 1) (setActive es n) = sheetNode k e :: sheetNodes (k + 1) es
    rw [ih]

/-- **C43 fails, always.** What is saved is the same whether or not a sheet was set active. -/
theorem C43_not_saved (env : Env) (now : String) (s : Session) (n : String) :
    (s.step env (.active n)).2.x.saved env now = s.x.saved env now := by
  refine saved_withList env now s.x (setActive s.x.sheets n) ?_
  intro v d
  unfold saveBook placeBook
  rw [sheetNodes_setActive]

/-- **C43 fails.** No way of reading saved packages tells which sheet was set active. -/
theorem C43_violated (env : Env) (now : String) (theme : XDoc) :
    ¬ ∃ reader : Res Pkg → Option String, ∀ (n : String) (s : Session),
      Session.run env (newSession env theme) [.add (some "a"), .add (some "b"), .active n] = .ok s → n ∈ names s.x.sheets →
        reader (s.x.saved env now) = some n := by
  intro ⟨reader, h⟩
  have run : ∀ n, Session.run env (newSession env theme) [.add (some "a"), .add (some "b"), .active n] =
      .ok ((((newSession env theme).step env (.add (some "a"))).2.step env (.add (some "b"))).2.step env (.active n)).2 := by
    intro n; kernel_rfl
  have hn : ∀ n, names ((((newSession env theme).step env (.add (some "a"))).2.step env (.add (some "b"))).2.step env (.active n)).2.x.sheets =
      ["sheet1", "a", "b"] := by
    intro n; kernel_rfl
  have ha := h "a" _ (run "a") (by rw [hn]; decide)
  have hb := h "b" _ (run "b") (by rw [hn]; decide)
  rw [C43_not_saved] at ha hb
  rw [ha] at hb
  simp at hb

/-! ## C49 Failed adds -/

/-- **C49, partial.** When opening a sheet fails the list is the one before, or the one before with the asked name appended;
the second never happens for a listed name. Missing: unlisted names (`C49_violated`). -/
theorem C49_partial (env : Env) (s s' : Session) (name : Option String) (e : Err) (h : s.step env (.add name) = (.error e, s')) :
    (names s'.x.sheets = names s.x.sheets ∨ ∃ n, names s'.x.sheets = names s.x.sheets ++ [n] ∧ (∀ m, name = some m → n = m ∧ m ∉ names s.x.sheets)) ∧
    (∀ m, name = some m → m ∈ names s.x.sheets → names s'.x.sheets = names s.x.sheets) ∧ s'.handles = s.handles := by
  have h0 : s.open env name = (.error e, s') := h
  have hh : s'.handles = s.handles := by
    unfold Session.open at h0
    split at h0
    · cases h0; rfl
    · cases h0
  rcases open_names env s name with ⟨n, rfl, h2, h3, _⟩ | ⟨h1, e', _, h3⟩ | ⟨h1, dir, h2, h3, _⟩
  · rw [h0] at h3
    exact ⟨Or.inl h3, fun _ _ _ => h3, hh⟩
  · rw [h0] at h3
    cases h3
    exact ⟨Or.inl rfl, fun _ _ _ => rfl, rfl⟩
  · rw [h0] at h3
    refine ⟨Or.inr ⟨_, h3, ?_⟩, ?_, hh⟩
    · intro m hm; subst hm; exact ⟨rfl, h1 m rfl⟩
    · intro m hm hmem; exact absurd hmem (h1 m hm)

/-- **C49 fails.** After deleting one of two added sheets, adding another fails and yet lists it. -/
theorem C49_violated (env : Env) (theme : XDoc) :
    ∃ x s s' m, Excel.new env theme = .ok x ∧ Session.run env ⟨x, []⟩ [.add (some "a"), .add (some "b"), .delete 0] = .ok s ∧
      s.step env (.add (some "c")) = (.error (.fail m), s') ∧ names s.x.sheets = ["sheet1", "b"] ∧ names s'.x.sheets = ["sheet1", "b", "c"] := by
  refine ⟨_, (Session.run env ⟨newExcel env theme, []⟩ [.add (some "a"), .add (some "b"), .delete 0]).toOption.getD ⟨newExcel env theme, []⟩, ?_,
    "Please close the Existing object before creating new handle", new_eq env theme, ?_, ?_, ?_, ?_⟩
  · exact (((Session.run env ⟨newExcel env theme, []⟩ [.add (some "a"), .add (some "b"), .delete 0]).toOption.getD ⟨newExcel env theme, []⟩).step env
      (.add (some "c"))).2
  · kernel_rfl
  · kernel_rfl
  · kernel_rfl
  · kernel_rfl

/-- **C38 fails** on histories with failing calls, by the same history. -/
theorem C38_violated (env : Env) (theme : XDoc) :
    ∃ s s' m, Session.run env (newSession env theme) [.add (some "a"), .add (some "b"), .delete 0] = .ok s ∧
      s.step env (.add (some "c")) = (.error (.fail m), s') ∧ namesOf s ≠ namesOf s' := by
  obtain ⟨x, s, s', m, h1, h2, h3, h4, h5⟩ := C49_violated env theme
  rw [new_eq] at h1
  cases h1
  refine ⟨s, s', m, h2, h3, ?_⟩
  intro h
  have : names s.x.sheets = names s'.x.sheets := congrArg Prod.fst h
  rw [h4, h5] at this
  cases this

end Oxml
