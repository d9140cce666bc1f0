import Verif.Spec.Limits
import Verif.Props.NewSheets
import Verif.Props.SessionCells
/-!
# C100, C101: limits of the file format
-/
namespace Oxml
open Spec

variable {env : Env} {theme : XDoc}

theorem lists_of_mem (hst : env.build.release = true → StampOk env.stamp) {ops : List WbOp} {s : Session} (h : Ran env theme ops s) (now : String) {n : String}
    (hn : n ∈ names s.x.sheets) : ∃ p, s.x.saved env now = .ok p ∧ Lists env p n := by
  obtain ⟨p, d, h1, h2, h3⟩ := C44_order hst h now
  refine ⟨p, h1, d, h2, ?_⟩
  rw [h3]
  obtain ⟨e, he, rfl⟩ := List.mem_map.mp hn
  obtain ⟨i, hi, hg⟩ := List.getElem_of_mem he
  refine ⟨some (toString (1 + i)), some e.relId, List.mem_map.mpr ⟨(e, 1 + i), ?_, rfl⟩⟩
  rw [← hg, Nat.add_comm]
  exact List.mem_iff_getElem.mpr ⟨i, by simpa using hi, by simp [Nat.add_comm]⟩

theorem ran_ok {ops : List WbOp} {op : WbOp} {s s' : Session} (h : Ran env theme ops s) (hs : s.step env op = (.ok (), s')) : Ran env theme (ops ++ [op]) s' := by
  have := ran_snoc (op := op) h (fun m => by rw [hs]; intro e; cases e)
  rw [hs] at this
  exact this

theorem new_named (env : Env) (theme : XDoc) : ∃ s, Ran env theme [] s ∧ names s.x.sheets = ["sheet1"] :=
  ⟨⟨newExcel env theme, []⟩, ⟨_, new_eq env theme, rfl⟩, by kernel_rfl⟩

/-- **C100 fails for every name.** After every history without deletions, any text at all that is not listed is accepted as the name of a new sheet, and gets into the file. -/
theorem C100_violated_always (hst : env.build.release = true → StampOk env.stamp) {ops : List WbOp} {s : Session} (h : Ran env theme ops s)
    (hd : DeletesNothing ops) {n : String} (hn : n ∉ names s.x.sheets) (now : String) :
    ∃ s' p, s.step env (.add (some n)) = (.ok (), s') ∧ n ∈ names s'.x.sheets ∧ s'.x.saved env now = .ok p ∧ Lists env p n := by
  have hn' : ∀ m, some n = some m → m ∉ names s.x.sheets := fun m e => by cases e; exact hn
  have hok := C99_partial hst h hd hn'
  obtain ⟨k, e, g, h1, _, _, _, _, _, _, _, _, h2, _⟩ := C99_own hst h hn' hok
  have hm : n ∈ names (s.step env (.add (some n))).2.x.sheets := by
    rw [h1]
    exact List.mem_map.mpr ⟨e, List.mem_append_right _ (List.mem_singleton.mpr rfl), h2⟩
  have hs : s.step env (.add (some n)) = (.ok (), (s.step env (.add (some n))).2) := Prod.ext hok rfl
  obtain ⟨p, h3, h4⟩ := lists_of_mem hst (ran_ok h hs) now hm
  exact ⟨_, p, hs, hm, h3, h4⟩

/-- **C100 fails for every name**, renaming. -/
theorem C100_violated_rename (hst : env.build.release = true → StampOk env.stamp) {ops : List WbOp} {s : Session} (h : Ran env theme ops s)
    {old n : String} (ho : old ∈ names s.x.sheets) (hn : n ∉ names s.x.sheets) (now : String) :
    ∃ s' p, s.step env (.rename old n) = (.ok (), s') ∧ n ∈ names s'.x.sheets ∧ s'.x.saved env now = .ok p ∧ Lists env p n := by
  obtain ⟨l, i, e, h1, h2, h3, _, h5, h6, _⟩ := (C40_rename env s old n).2 hn ho
  have hm : n ∈ names l := List.mem_map.mpr ⟨_, List.mem_of_getElem? h6, rfl⟩
  obtain ⟨p, h7, h8⟩ := lists_of_mem hst (ran_ok h h1) now hm
  exact ⟨_, p, h1, hm, h7, h8⟩

/-- **C100 is false.** The empty name gets into a file. -/
theorem C100_violated (hst : env.build.release = true → StampOk env.stamp) : ¬ OnlyAllowedNames env theme := by
  intro h
  obtain ⟨s, hr, hs⟩ := new_named env theme
  have hn : "" ∉ names s.x.sheets := by rw [hs]; decide
  obtain ⟨s', p, h1, h2, h3, h4⟩ := C100_violated_always hst hr (fun i hi => by cases hi) hn "now"
  exact (h _ _ _ _ _ (ran_ok hr h1) h3 h2 h4).1 rfl

/-- **C100 is false** for pairs too: names that differ in case only. -/
theorem C100_violated_case (hst : env.build.release = true → StampOk env.stamp) : ∃ s p, Ran env theme [.add (some "SHEET1")] s ∧ s.x.saved env "now" = .ok p ∧
    Lists env p "sheet1" ∧ Lists env p "SHEET1" := by
  obtain ⟨s, hr, hs⟩ := new_named env theme
  have hn : "SHEET1" ∉ names s.x.sheets := by rw [hs]; decide
  obtain ⟨s', p, h1, h2, h3, h4⟩ := C100_violated_always hst hr (fun i hi => by cases hi) hn "now"
  have hr' := ran_ok hr h1
  have hm : "sheet1" ∈ names s'.x.sheets := by
    rcases open_names env s (some "SHEET1") with ⟨m, _, _, g, _⟩ | ⟨_, e, _, g⟩ | ⟨_, dir, _, g, _⟩ <;>
      rw [show s.open env (some "SHEET1") = (.ok (), s') from h1] at g
    · simp only at g; rw [g, hs]; decide
    · cases g
    · simp only at g; rw [g, hs]; simp
  obtain ⟨p', h5, h6⟩ := lists_of_mem hst hr' "now" hm
  rw [h3] at h5; cases h5
  exact ⟨s', p, hr', h3, h6, h4⟩

theorem askedNames_cons (op : WbOp) (ops : List WbOp) : askedNames (op :: ops) = askedNames [op] ++ askedNames ops := by
  cases op with
  | add name => cases name <;> rfl
  | _ => rfl

/-- A name in the list of the workbook after one more call. -/
theorem step_named (env : Env) (s : Session) (op : WbOp) {n : String} (hn : n ∈ names (s.step env op).2.x.sheets) :
    n ∈ names s.x.sheets ∨ n ∈ askedNames [op] ∨ ∃ k : Nat, n = "sheet" ++ toString k := by
  have opened : ∀ name, n ∈ names (s.open env name).2.x.sheets → n ∈ names s.x.sheets ∨ (∃ m, name = some m ∧ n = m) ∨ ∃ k : Nat, n = "sheet" ++ toString k := by
    intro name hm
    rcases open_names env s name with ⟨m, _, _, h3, _⟩ | ⟨_, e, _, h3⟩ | ⟨_, dir, _, h3, _⟩
    · rw [h3] at hm; exact .inl hm
    · rw [h3] at hm; exact .inl hm
    · rw [h3] at hm
      rcases List.mem_append.mp hm with hm | hm
      · exact .inl hm
      · rw [List.mem_singleton] at hm
        cases name with
        | none => exact .inr (.inr ⟨_, hm⟩)
        | some m => exact .inr (.inl ⟨m, rfl, hm⟩)
  cases op with
  | add name =>
    rcases opened name hn with h | ⟨m, rfl, rfl⟩ | h
    · exact .inl h
    · exact .inr (.inl (List.mem_singleton.mpr rfl))
    · exact .inr (.inr h)
  | get name =>
    rcases opened (some name) hn with h | ⟨m, h, rfl⟩ | h
    · exact .inl h
    · cases h; exact .inr (.inl (List.mem_singleton.mpr rfl))
    · exact .inr (.inr h)
  | drop i =>
    simp only [Session.step] at hn
    split at hn <;> exact .inl hn
  | delete i =>
    simp only [Session.step] at hn
    split at hn
    · exact .inl hn
    · left
      obtain ⟨e, he, rfl⟩ := List.mem_map.mp hn
      exact List.mem_map.mpr ⟨e, (List.mem_filter.mp he).1, rfl⟩
  | rename old new =>
    simp only [Session.step] at hn
    rcases renameSheet_cases s.x.sheets old new with ⟨_, m, e⟩ | ⟨_, a, en, b, h1, _, _, e⟩
    · rw [e] at hn; exact .inl hn
    · rw [e] at hn
      rw [h1]
      obtain ⟨e', he', rfl⟩ := List.mem_map.mp hn
      simp only [List.mem_append, List.mem_cons] at he'
      rcases he' with h | rfl | h
      · exact .inl (List.mem_map.mpr ⟨e', by simp [h], rfl⟩)
      · exact .inr (.inl (List.mem_singleton.mpr rfl))
      · exact .inl (List.mem_map.mpr ⟨e', by simp [h], rfl⟩)
  | active name =>
    left
    simpa [Session.step, setActive, names] using hn
  | hide name =>
    left
    simpa [Session.step, hideSheet, names] using hn
  | sheet i op =>
    simp only [Session.step] at hn
    split at hn
    · exact .inl hn
    · split at hn <;> exact .inl hn
  | view op => exact .inl hn
  | style g st =>
    simp only [Session.step] at hn
    split at hn <;> exact .inl hn

theorem run_named (env : Env) : ∀ (ops : List WbOp) {s s' : Session} {n : String}, s.run env ops = .ok s' → n ∈ names s'.x.sheets →
    n ∈ names s.x.sheets ∨ n ∈ askedNames ops ∨ ∃ k : Nat, n = "sheet" ++ toString k
  | [], _, _, _, h, hn => by cases h; exact .inl hn
  | op :: ops, s, s', n, h, hn => by
    rw [Session.run] at h
    split at h
    · cases h
    · next s1 hs =>
      rw [askedNames_cons]
      rcases run_named env ops h hn with h1 | h1 | h1
      · have : n ∈ names (s.step env op).2.x.sheets := by rw [hs]; exact h1
        rcases step_named env s op this with h2 | h2 | h2
        · exact .inl h2
        · exact .inr (.inl (List.mem_append_left _ h2))
        · exact .inr (.inr h2)
      · exact .inr (.inl (List.mem_append_right _ h1))
      · exact .inr (.inr h1)

theorem named_asked {ops : List WbOp} {s : Session} (h : Ran env theme ops s) {n : String} (hn : n ∈ names s.x.sheets) :
    n ∈ askedNames ops ∨ ∃ k : Nat, n = "sheet" ++ toString k := by
  obtain ⟨x, hx, hr⟩ := h
  rw [new_eq env theme] at hx
  cases hx
  rcases run_named env ops hr hn with h1 | h1
  · right
    have : names (newExcel env theme).sheets = ["sheet1"] := by kernel_rfl
    rw [this, List.mem_singleton] at h1
    exact ⟨1, h1.trans (by decide +kernel)⟩
  · exact h1

/-- **C100, what holds.** In every history, the saved file lists no sheet under a name that was not asked for, but for default names `sheet1`, `sheet2`, …: who asks for allowed names only gets no others. -/
theorem C100_partial (hst : env.build.release = true → StampOk env.stamp) {ops : List WbOp} {s : Session} (h : Ran env theme ops s) (now : String) :
    ∃ p d, s.x.saved env now = .ok p ∧ partDoc env p "xl/workbook.xml" = some d ∧
      ∀ row ∈ sheetRows d, ∃ n, row.2.1 = some (attrReload n) ∧ (n ∈ askedNames ops ∨ ∃ k : Nat, n = "sheet" ++ toString k) := by
  obtain ⟨p, d, h1, h2, h3⟩ := C44_order hst h now
  refine ⟨p, d, h1, h2, fun row hr => ?_⟩
  rw [h3] at hr
  obtain ⟨⟨e, i⟩, he, rfl⟩ := List.mem_map.mp hr
  exact ⟨e.name, rfl, named_asked h (List.mem_map.mpr ⟨e, List.fst_mem_of_mem_zipIdx he, rfl⟩)⟩

/-- Example: a name with a slash and 40 letters. -/
example (hst : env.build.release = true → StampOk env.stamp) : ∃ s p, Ran env theme [.add (some "a/bbbbbbbbbbbbbbbbbbbbbbbbbbbbbbbbbbbbbbbb")] s ∧ s.x.saved env "now" = .ok p ∧
    Lists env p "a/bbbbbbbbbbbbbbbbbbbbbbbbbbbbbbbbbbbbbbbb" ∧ ¬ AllowedName "a/bbbbbbbbbbbbbbbbbbbbbbbbbbbbbbbbbbbbbbbb" := by
  obtain ⟨s, hr, hs⟩ := new_named env theme
  have hn : "a/bbbbbbbbbbbbbbbbbbbbbbbbbbbbbbbbbbbbbbbb" ∉ names s.x.sheets := by rw [hs]; decide
  obtain ⟨s', p, h1, h2, h3, h4⟩ := C100_violated_always hst hr (fun i hi => by cases hi) hn "now"
  refine ⟨s', p, ran_ok hr h1, h3, h4, fun h => ?_⟩
  exact absurd h.2.1 (by decide +kernel)

/-! ## C101 -/

theorem onPart_mem {s : Session} {path : String} {op : WbOp} {o : SheetOp} (h : o ∈ onPart s path op) : ∃ i, op = .sheet i o := by
  unfold onPart at h
  split at h
  · next i o' =>
    split at h
    · split at h
      · rw [List.mem_singleton] at h; exact ⟨i, by rw [h]⟩
      · cases h
    · cases h
  · cases h

theorem writesTo_mem (env : Env) (path : String) : ∀ {ops : List WbOp} {s : Session} {o : SheetOp}, o ∈ writesTo env path s ops → ∃ i, WbOp.sheet i o ∈ ops
  | [], _, _, h => by cases h
  | op :: ops, s, o, h => by
    rw [writesTo] at h
    rcases List.mem_append.mp h with h | h
    · obtain ⟨i, rfl⟩ := onPart_mem h
      exact ⟨i, List.mem_cons_self ..⟩
    · obtain ⟨i, hi⟩ := writesTo_mem env path h
      exact ⟨i, List.mem_cons_of_mem _ hi⟩

theorem lastWritten_inside {r c : Nat} : ∀ {l : List SheetOp}, (∀ o ∈ l, o.Inside) → lastWritten r c l ≠ none → InGrid r c
  | [], _, h => absurd rfl h
  | op :: l, hl, h => by
    rw [lastWritten] at h
    split at h
    · next x hx => exact lastWritten_inside (fun o ho => hl o (List.mem_cons_of_mem _ ho)) (by rw [hx]; simp)
    · have hop := hl op (List.mem_cons_self ..)
      cases op with
      | write row col cells =>
        simp only [SheetOp.written] at h
        split at h
        · next hc =>
          obtain ⟨rfl, h2⟩ := hc
          have : c - col < cells.length := by
            apply Classical.byContradiction
            intro hh
            exact h (List.getElem?_eq_none (by omega))
          exact hop c h2 (by omega)
        · exact absurd rfl h
      | rowProps r p => exact absurd rfl h
      | column c p => exact absurd rfl h

/-- **C101, what holds.** If all calls write in the grid, a sheet written and dropped is saved with cells in the grid only. -/
theorem C101_partial (hst : env.build.release = true → StampOk env.stamp) {ops ops' : List WbOp} {x : Excel} {s s' : Session} (hx : Excel.new env theme = .ok x)
    (hr : Session.run env ⟨x, []⟩ ops = .ok s) (hf : FittingOps env ops) (hin : ∀ i o, WbOp.sheet i o ∈ ops → o.Inside) {i : Nat} {h : SheetHandle}
    (hi : s.handles[i]? = some h) (hr' : (s.step env (.drop i)).2.run env ops' = .ok s') (now : String) :
    ∃ p d sh, s'.x.saved env now = .ok p ∧ partDoc env p h.path = some d ∧ (Sheet.load env d).1 = .ok sh ∧ ∀ r c, cellAt sh r c ≠ none → InGrid r c := by
  obtain ⟨p, d, sh, h1, h2, h3, h4, _⟩ := C45_partial hst hx hr hf hi hr' now
  refine ⟨p, d, sh, h1, h2, h3, fun r c hc => ?_⟩
  apply lastWritten_inside (l := writesTo env h.path ⟨x, []⟩ ops)
  · intro o ho
    obtain ⟨j, hj⟩ := writesTo_mem env _ ho
    exact hin j o hj
  · intro hnone
    exact hc ((h4 r c).1 hnone)

/-- The handle of the sheet in the next theorem. -/
def gridHandle (env : Env) (theme : XDoc) : SheetHandle := (endOf env theme [.add (some "a")]).handles[0]?.getD ⟨0, ⟨[], 0, ""⟩, emptySheet, "", ""⟩

/-- **C101 fails for every cell.** Every row up to 4294967295, row 0 included, and every column up to 65535 can be written to, and the cell is in the saved sheet. -/
theorem C101_violated_always (hst : env.build.release = true → StampOk env.stamp) (r c : Nat) (h1 : r ≤ u32Max) (h2 : 1 ≤ c) (h3 : c ≤ 65535) (now : String) :
    ∃ s p d sh, Ran env theme [.add (some "a"), .sheet 0 (.write r c [{}]), .drop 0] s ∧ s.x.saved env now = .ok p ∧
      partDoc env p "xl/worksheets/sheet2.xml" = some d ∧ (Sheet.load env d).1 = .ok sh ∧ cellAt sh r c ≠ none := by
  have e1 : Session.run env ⟨newExcel env theme, []⟩ [.add (some "a")] = .ok (endOf env theme [.add (some "a")]) := by kernel_rfl
  have e2 : (endOf env theme [.add (some "a")]).handles = [gridHandle env theme] := by kernel_rfl
  have e3 : (gridHandle env theme).path = "xl/worksheets/sheet2.xml" := by kernel_rfl
  have e4 := setRow_inRange env.build (gridHandle env theme).data (endOf env theme [.add (some "a")]).x.strings.data r c [{}] h2 (by simp; omega)
  generalize hs0 : endOf env theme [.add (some "a")] = s0 at e1 e2 e4
  generalize hg : gridHandle env theme = g at e2 e3 e4
  obtain ⟨s1, g1, f1, f2, f3⟩ : ∃ s1 g1, s0.step env (.sheet 0 (.write r c [{}])) = (.ok (), s1) ∧ s1.handles = [g1] ∧ g1.path = g.path := by
    simp only [Session.step, e2, List.getElem?_cons_zero, SheetOp.run, e4]
    exact ⟨_, _, rfl, rfl, rfl⟩
  have hrun : Session.run env ⟨newExcel env theme, []⟩ [.add (some "a"), .sheet 0 (.write r c [{}])] = .ok s1 := by
    have := run_snoc (op := .sheet 0 (.write r c [{}])) e1 (fun m => by rw [f1]; intro e; cases e)
    rw [f1] at this
    exact this
  have hadd : (Session.step env ⟨newExcel env theme, []⟩ (.add (some "a"))).2.handles = [g] := by
    rw [← hg]; kernel_rfl
  have hw : writesTo env g1.path ⟨newExcel env theme, []⟩ [.add (some "a"), .sheet 0 (.write r c [{}])] = [.write r c [{}]] := by
    simp only [writesTo, onPart, hadd, List.getElem?_cons_zero, f3, if_true, List.nil_append, List.append_nil]
  have hfit : FittingOps env [.add (some "a"), .sheet 0 (.write r c [{}])] := by
    intro i o ho
    simp only [List.mem_cons, List.not_mem_nil, or_false, WbOp.sheet.injEq, reduceCtorEq, false_or] at ho
    obtain ⟨_, rfl⟩ := ho
    refine ⟨⟨h2, by simp; omega⟩, h1, ?_⟩
    intro cl hc
    rw [List.mem_singleton] at hc
    subst hc
    exact ⟨fun g e => (by cases e), fun g e => (by cases e)⟩
  obtain ⟨p, d, sh, k1, k2, k3, k4, _⟩ := C45_partial hst (new_eq env theme) hrun hfit (i := 0) (h := g1) (by rw [f2]; rfl)
    (ops' := []) (s' := (s1.step env (.drop 0)).2) rfl now
  have hdrop : s1.step env (.drop 0) = (.ok (), (s1.step env (.drop 0)).2) := by
    simp only [Session.step, f2, List.getElem?_cons_zero]
  refine ⟨_, p, d, sh, ran_ok (ops := [.add (some "a"), .sheet 0 (.write r c [{}])]) ⟨_, new_eq env theme, hrun⟩ hdrop, k1, ?_, k3, ?_⟩
  · rw [← e3, ← f3]; exact k2
  · obtain ⟨st, shw, m1, _⟩ := (k4 r c).2 {} (by rw [hw]; simp [lastWritten, SheetOp.written])
    rw [m1]; simp

/-- Example: row 0, and the last column the library takes. -/
example (hst : env.build.release = true → StampOk env.stamp) : ∃ s, Ran env theme [.add (some "a"), .sheet 0 (.write 0 65535 [{}]), .drop 0] s ∧ ¬ InGrid 0 65535 := by
  obtain ⟨s, _, _, _, h, _⟩ := C101_violated_always (theme := theme) hst 0 65535 (by decide) (by decide) (by decide) "now"
  exact ⟨s, h, by unfold InGrid; omega⟩

end Oxml
