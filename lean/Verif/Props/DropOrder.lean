import Verif.Spec.DropOrder
import Verif.Proofs.DropOrder
import Verif.Props.Order
import Verif.Props.Crash
/-!
# C96: when and in which order sheets are dropped does not matter

A sheet is written into the package when its handle is dropped (`worksheet.rs:137-141`). Rust drops variables in the reverse order of their
declaration, other languages whenever they like, so the order is rarely what the user thinks about.
-/
namespace Oxml
open Spec

variable {env : Env} {theme : XDoc} {now : String}

theorem new_live {ops : List WbOp} {s : Session} (h : Ran env theme ops s) : LiveSess s := by
  obtain ⟨x, hx, hr⟩ := h
  obtain ⟨x0, h1, _, _, h4⟩ := new_session env theme
  obtain ⟨_, _, _, _, _, _, _, _, _, _, hb0⟩ := start_book Pkg.Inv.empty rfl h1
  exact (hb0.live.run env _ (h4 x hx)).run env ops hr

theorem erased_eq_filter {g : SheetHandle} : ∀ {l : List SheetHandle} {i : Nat}, (l.map (fun g => g.path)).Nodup → l[i]? = some g →
    l.eraseIdx i = l.filter (fun k => decide (k.path ≠ g.path))
  | [], i, _, h => by simp at h
  | a :: l, 0, hn, h => by
    simp only [List.getElem?_cons_zero, Option.some.injEq] at h
    subst h
    rw [List.map_cons, List.nodup_cons] at hn
    rw [List.eraseIdx_cons_zero, List.filter_cons_of_neg (by simp), List.filter_eq_self.mpr]
    intro k hk
    have : k.path ≠ a.path := fun e => hn.1 (e ▸ List.mem_map_of_mem (f := fun g : SheetHandle => g.path) hk)
    simpa using this
  | a :: l, i + 1, hn, h => by
    rw [List.map_cons, List.nodup_cons] at hn
    rw [List.getElem?_cons_succ] at h
    have hne : a.path ≠ g.path := fun e => hn.1 (e ▸ List.mem_map_of_mem (f := fun g : SheetHandle => g.path) (List.mem_of_getElem? h))
    rw [List.eraseIdx_cons_succ, List.filter_cons_of_pos (by simpa using hne), erased_eq_filter hn.2 h]

theorem LiveSess.paths {s : Session} (h : LiveSess s) : (s.handles.map (fun g => g.path)).Nodup := by
  have h1 := h.nodup
  rw [List.map_append, List.nodup_append] at h1
  refine h1.2.1.sublist ?_
  have : ∀ l : List SheetHandle, (l.map (fun g => g.path)).Sublist ((handlePairs l).map Prod.fst) := by
    intro l
    induction l with
    | nil => exact .slnil
    | cons a l ih =>
      simp only [handlePairs, List.flatMap_cons, List.map_cons, List.cons_append, List.nil_append] at ih ⊢
      exact .cons_cons _ (.cons _ ih)
  exact this _

/-- Where a sequence of drops leads. -/
theorem drops_state {l : List SheetHandle} : ∀ {s t : Session}, LiveSess s → Drops env s l t →
    t = ⟨{ s.x with pkg := l.foldl (dropSheet env) s.x.pkg }, s.handles.filter (fun k => decide (k.path ∉ l.map (fun g => g.path)))⟩ := by
  induction l with
  | nil =>
    intro s t _ h
    cases h
    rw [List.filter_eq_self.mpr (by simp)]
    rfl
  | cons g l ih =>
    intro s t hs h
    cases h with
    | @cons _ _ i _ _ hg rest =>
      have h1 := ih (hs.step env (.drop i)) rest
      rw [h1]
      simp only [Session.step, hg, List.foldl_cons, erased_eq_filter hs.paths hg, List.filter_filter]
      congr 2
      funext k
      rw [Bool.eq_iff_iff]
      simp [and_comm]

theorem drops_held {l : List SheetHandle} : ∀ {s t : Session}, LiveSess s → Drops env s l t → (∀ g ∈ l, g ∈ s.handles) ∧ (l.map (fun g => g.path)).Nodup := by
  induction l with
  | nil => intro s t _ _; simp
  | cons g l ih =>
    intro s t hs h
    cases h with
    | @cons _ _ i _ _ hg rest =>
      obtain ⟨h1, h2⟩ := ih (hs.step env (.drop i)) rest
      simp only [Session.step, hg, erased_eq_filter hs.paths hg, List.mem_filter, decide_eq_true_eq] at h1
      refine ⟨?_, ?_⟩
      · intro k hk
        rcases List.mem_cons.mp hk with rfl | hk
        · exact List.mem_of_getElem? hg
        · exact (h1 k hk).1
      · rw [List.map_cons, List.nodup_cons]
        refine ⟨fun hm => ?_, h2⟩
        obtain ⟨k, hk, e⟩ := List.mem_map.mp hm
        exact (h1 k hk).2 e

theorem drops_exist {l : List SheetHandle} : ∀ {s : Session}, LiveSess s → (∀ g ∈ l, g ∈ s.handles) → (l.map (fun g => g.path)).Nodup → ∃ t, Drops env s l t := by
  induction l with
  | nil => intro s _ _ _; exact ⟨s, .nil⟩
  | cons g l ih =>
    intro s hs h hn
    obtain ⟨i, hg⟩ := List.mem_iff_getElem?.mp (h g List.mem_cons_self)
    rw [List.map_cons, List.nodup_cons] at hn
    obtain ⟨t, ht⟩ := ih (hs.step env (.drop i)) (by
      intro k hk
      simp only [Session.step, hg, erased_eq_filter hs.paths hg, List.mem_filter, decide_eq_true_eq]
      exact ⟨h k (List.mem_cons_of_mem _ hk), fun e => hn.1 (e ▸ List.mem_map_of_mem (f := fun g : SheetHandle => g.path) hk)⟩) hn.2
    exact ⟨t, .cons hg ht⟩

theorem nodup_of_mapped {A B : Type} {f : A → B} : ∀ {l : List A}, (l.map f).Nodup → l.Nodup
  | [], _ => List.nodup_nil
  | a :: l, h => by
    rw [List.map_cons, List.nodup_cons] at h
    exact List.nodup_cons.mpr ⟨fun ha => h.1 (List.mem_map_of_mem ha), nodup_of_mapped h.2⟩

theorem LiveSess.sub {s : Session} (h : LiveSess s) {l : List SheetHandle} (hl : ∀ g ∈ l, g ∈ s.handles) (hn : (l.map (fun g => g.path)).Nodup) :
    LivePkg s.x.pkg (ownPairs s.x) l := by
  have hd : l.Nodup := nodup_of_mapped hn
  obtain ⟨k, hk⟩ : ∃ k, (l ++ k).Perm s.handles := by
    clear hn
    revert hl
    generalize s.handles = m
    intro hl
    induction l generalizing m with
    | nil => exact ⟨m, .refl _⟩
    | cons a l ih =>
      rw [List.nodup_cons] at hd
      have ha := hl a List.mem_cons_self
      obtain ⟨m1, m2, rfl⟩ := List.append_of_mem ha
      obtain ⟨k, hk⟩ := ih hd.2 (m1 ++ m2) (by
        intro g hg
        have := hl g (List.mem_cons_of_mem _ hg)
        rcases List.mem_append.mp this with h1 | h1
        · exact List.mem_append_left _ h1
        · rcases List.mem_cons.mp h1 with rfl | h1
          · exact absurd hg hd.1
          · exact List.mem_append_right _ h1)
      exact ⟨k, ((hk.cons a).trans List.perm_middle.symm)⟩
  have h1 : LivePkg s.x.pkg (ownPairs s.x) (l ++ k) := LivePkg.perm h hk.symm
  have hsub : (ownPairs s.x ++ handlePairs l).Sublist (ownPairs s.x ++ handlePairs (l ++ k)) := by
    rw [show handlePairs (l ++ k) = handlePairs l ++ handlePairs k from List.flatMap_append]
    exact (List.sublist_append_left _ _).append_left _
  exact ⟨h1.inv, fun e he => h1.owns e (hsub.subset he), h1.nodup.sublist (hsub.map _)⟩

/-- In a session where everything held is open. -/
theorem live_drops {s t : Session} {l k : List SheetHandle} (hs : LiveSess s) (hd : Drops env s l t) (hp : l.Perm k) : ∃ t', Drops env s k t' ∧ SameState t t' := by
  obtain ⟨h1, h2⟩ := drops_held hs hd
  have k1 : ∀ g ∈ k, g ∈ s.handles := fun g hg => h1 g (hp.mem_iff.mpr hg)
  have k2 : (k.map (fun g => g.path)).Nodup := ((hp.map _).nodup_iff).mp h2
  obtain ⟨t', ht'⟩ := drops_exist (env := env) hs k1 k2
  refine ⟨t', ht', ?_⟩
  have e := drops_perm (env := env) hp (hs.sub h1 h2)
  rw [drops_state hs hd, drops_state hs ht']
  refine ⟨fun n => congrArg Prod.fst (e.parts n), fun n => congrArg Prod.snd (e.parts n), e.next, rfl, ?_⟩
  refine List.filter_congr (fun g _ => ?_)
  rw [Bool.eq_iff_iff, decide_eq_true_eq, decide_eq_true_eq, (hp.map _).mem_iff]

/-- **C96, opened workbooks.** After any history on a workbook opened from a file, sheets dropped in one order can be dropped in any other, and everything is
the same afterwards: open parts, closed parts to the letter, the handles left and the tables of the workbook. -/
theorem C96_opened {z : Zip} {ops : List WbOp} {x : Excel} (hz : (akeys z).Nodup) (s t : Session) (hr : RanOn env theme z ops x s) (l k : List SheetHandle)
    (hd : Drops env s l t) (hp : l.Perm k) : ∃ t', Drops env s k t' ∧ SameState t t' := live_drops (ran_live hz hr) hd hp

/-- **C96, new workbooks.** -/
theorem C96_new {ops : List WbOp} (s t : Session) (hr : Ran env theme ops s) (l k : List SheetHandle) (hd : Drops env s l t) (hp : l.Perm k) :
    ∃ t', Drops env s k t' ∧ SameState t t' := live_drops (new_live hr) hd hp

/-! ### What comes after -/

theorem Spec.SameOpt.of_eq {α : Type} {R : α → α → Prop} {a b c : Option α} (h : SameOpt R a b) (e : b = c) : SameOpt R a c := e ▸ h

theorem Spec.SameState.session {s t t' : Session} (h : SameState t t') (ht : SameSession env s t) (ho : (akeys t'.x.pkg.opened).Nodup) (ha : (akeys t'.x.pkg.archive).Nodup) :
    SameSession env s t' := by
  refine ⟨⟨⟨⟨ht.x.pkg.opened.left, ho, fun n => Spec.SameOpt.of_eq (ht.x.pkg.opened.get n) (h.opened n)⟩,
    ⟨ht.x.pkg.archive.left, ha, fun n => Spec.SameOpt.of_eq (ht.x.pkg.archive.get n) (h.archive n)⟩, ht.x.pkg.next.trans h.next, ht.x.pkg.handles, ht.x.pkg.below⟩, ?_⟩,
    ht.handles.trans h.handles⟩
  have h1 := ht.x.rest
  have h2 := h.rest
  calc ({ s.x with pkg := t'.x.pkg } : Excel) = { ({ s.x with pkg := t.x.pkg } : Excel) with pkg := t'.x.pkg } := rfl
    _ = { t.x with pkg := t'.x.pkg } := by rw [h1]
    _ = t'.x := h2

theorem Spec.Drops.run {l : List SheetHandle} : ∀ {s t : Session}, Drops env s l t → ∃ ops, s.run env ops = .ok t := by
  induction l with
  | nil => intro s t h; cases h; exact ⟨[], rfl⟩
  | cons g l ih =>
    intro s t h
    cases h with
    | @cons _ _ i _ _ hg rest =>
      obtain ⟨ops, ho⟩ := ih rest
      refine ⟨.drop i :: ops, ?_⟩
      rw [Session.run]
      simp only [Session.step, hg] at ho ⊢
      exact ho

theorem run_same_self (hst : env.build.release = true → StampOk env.stamp) {s t : Session} {ops : List WbOp} (h : SameSession env s s) (hr : s.run env ops = .ok t) :
    SameSession env t t := by
  obtain ⟨rs, hrs⟩ := C94_model_run hst s t ops h hr
  exact (C94_runs hst s s t t ops rs rs h hrs hrs).2

/-- In a session whose documents are sound. -/
theorem live_after (hst : env.build.release = true → StampOk env.stamp) {s t t' : Session} {l k : List SheetHandle} (hs : LiveSess s) (hss : SameSession env s s)
    (hd : Drops env s l t) (hd' : Drops env s k t') (hp : l.Perm k) : SameSession env t t' := by
  obtain ⟨u, hu, hsame⟩ := live_drops hs hd hp
  have e : u = t' := (drops_state hs hu).trans (drops_state hs hd').symm
  subst e
  obtain ⟨o1, r1⟩ := hd.run
  obtain ⟨o2, r2⟩ := hu.run
  have h1 := run_same_self hst hss r1
  have h2 := run_same_self hst hss r2
  exact hsame.session h1 h2.x.pkg.opened.left h2.x.pkg.archive.left

/-- **C96, the rest of the program and the file.** A workbook is opened from a file and used; then the same sheets are dropped in two orders. Whatever program
follows gets the same answers after both, and the file saved at the end is the same, or saving fails alike. -/
theorem C96_file (hst : env.build.release = true → StampOk env.stamp) (hth : Sound env.uni theme) {z : Zip} {ops : List WbOp} {x : Excel} (hz : (akeys z).Nodup)
    (hc : CleanZip env z) (s t t' : Session) (hr : RanOn env theme z ops x s) (l k : List SheetHandle) (hd : Drops env s l t) (hd' : Drops env s k t') (hp : l.Perm k)
    (more : List WbOp) (rs rs' : List (Res Unit)) (u u' : Session) (hm : ProgramRuns env t more rs u) (hm' : ProgramRuns env t' more rs' u')
    (e f : List (String × String)) (he : ∀ p, u.x.saved env now = .ok p → HashSetOrder p.extPairs e) (hf : ∀ p, u'.x.saved env now = .ok p → HashSetOrder p.extPairs f) :
    rs = rs' ∧ u.handles = u'.handles ∧ SameRes (SameZip env) (u.x.toZip env now e) (u'.x.toZip env now f) := by
  have h0 := C94_open hst hth z z hz hc (.refl _)
  rw [hr.1] at h0
  cases h0 with
  | ok h0 =>
    have h1 := run_same_self hst ⟨h0, rfl⟩ hr.2
    have h2 := live_after hst (ran_live hz hr) h1 hd hd' hp
    obtain ⟨h3, h4⟩ := C94_runs hst t t' u u' more rs rs' h2 hm hm'
    exact ⟨h3, h4.handles, C94_save u.x u'.x h4.x e f he hf⟩

/-- **C96, the same for a new workbook.** -/
theorem C96_new_file (hst : env.build.release = true → StampOk env.stamp) (hth : Sound env.uni theme) {ops : List WbOp} (s t t' : Session) (hr : Ran env theme ops s)
    (l k : List SheetHandle) (hd : Drops env s l t) (hd' : Drops env s k t') (hp : l.Perm k)
    (more : List WbOp) (rs rs' : List (Res Unit)) (u u' : Session) (hm : ProgramRuns env t more rs u) (hm' : ProgramRuns env t' more rs' u')
    (e f : List (String × String)) (he : ∀ p, u.x.saved env now = .ok p → HashSetOrder p.extPairs e) (hf : ∀ p, u'.x.saved env now = .ok p → HashSetOrder p.extPairs f) :
    rs = rs' ∧ u.handles = u'.handles ∧ SameRes (SameZip env) (u.x.toZip env now e) (u'.x.toZip env now f) := by
  obtain ⟨x, hx, hrun⟩ := hr
  have h1 := run_same_self hst ⟨C94_new hst hth x hx, rfl⟩ hrun
  have h2 := live_after hst (new_live ⟨x, hx, hrun⟩) h1 hd hd' hp
  obtain ⟨h3, h4⟩ := C94_runs hst t t' u u' more rs rs' h2 hm hm'
  exact ⟨h3, h4.handles, C94_save u.x u'.x h4.x e f he hf⟩

/-! ### When -/

/-- **C96, earlier or later.** A sheet dropped before a call instead of after it: the call gets the same answer and everything is the same afterwards. The
call may write to other sheets, register styles, rename, hide or activate sheets, or change the view, this sheet's entry included. -/
theorem C96_calls (s : Session) (i : Nat) (op op' : WbOp) (h : withoutHandle i op = some op') :
    (s.step env op).1 = ((s.step env (.drop i)).2.step env op').1 ∧ ((s.step env op).2.step env (.drop i)).2 = ((s.step env (.drop i)).2.step env op').2 := by
  cases op with
  | add n => cases h
  | get n => cases h
  | drop j => cases h
  | delete j => cases h
  | rename old new =>
    cases h
    cases hg : s.handles[i]? <;> cases hr : renameSheet s.x.sheets old new <;> simp [Session.step, hg, hr]
  | active n => cases h; cases hg : s.handles[i]? <;> simp [Session.step, hg]
  | hide n => cases h; cases hg : s.handles[i]? <;> simp [Session.step, hg]
  | view v => cases h; cases hg : s.handles[i]? <;> simp [Session.step, hg]
  | style hs st =>
    cases h
    cases hg : s.handles[i]? <;> cases hr : getStyleId env.build hs s.x.styles.data st <;> simp [Session.step, hg, hr]
  | sheet j o =>
    cases hg : s.handles[i]? with
    | none =>
      have hi : s.handles.length ≤ i := List.getElem?_eq_none_iff.mp hg
      simp only [withoutHandle] at h
      split at h
      · next hj =>
        cases h
        cases hgj : s.handles[j]? with
        | none => simp [Session.step, hg, hgj]
        | some k => cases hr : o.run env.build (k.data, s.x.strings.data) <;> simp [Session.step, hg, hgj, hr, Nat.ne_of_lt hj]
      · split at h
        · next hj =>
          cases h
          have h1 : s.handles[j]? = none := List.getElem?_eq_none_iff.mpr (by omega)
          have h2 : s.handles[j - 1]? = none := List.getElem?_eq_none_iff.mpr (by omega)
          simp [Session.step, hg, h1, h2]
        · cases h
    | some g =>
      simp only [withoutHandle] at h
      split at h
      · next hj =>
        cases h
        have hgj' : (s.handles.eraseIdx i)[j]? = s.handles[j]? := by rw [List.getElem?_eraseIdx, if_pos hj]
        cases hgj : s.handles[j]? with
        | none => rw [hgj] at hgj'; simp [Session.step, hg, hgj, hgj']
        | some k =>
          rw [hgj] at hgj'
          cases hr : o.run env.build (k.data, s.x.strings.data) with
          | error e => simp [Session.step, hg, hgj, hgj', hr]
          | ok v =>
            have h1 : (s.handles.set j { k with data := v.1 })[i]? = some g := by rw [List.getElem?_set_ne (Nat.ne_of_lt hj), hg]
            simp [Session.step, hg, hgj, hgj', hr, h1, List.eraseIdx_set_gt hj]
      · split at h
        · next hj =>
          cases h
          have hgj' : (s.handles.eraseIdx i)[j - 1]? = s.handles[j]? := by
            rw [List.getElem?_eraseIdx, if_neg (by omega), show j - 1 + 1 = j by omega]
          cases hgj : s.handles[j]? with
          | none => rw [hgj] at hgj'; simp [Session.step, hg, hgj, hgj']
          | some k =>
            rw [hgj] at hgj'
            cases hr : o.run env.build (k.data, s.x.strings.data) with
            | error e => simp [Session.step, hg, hgj, hgj', hr]
            | ok v =>
              have h1 : (s.handles.set j { k with data := v.1 })[i]? = some g := by rw [List.getElem?_set_ne (Nat.ne_of_gt hj), hg]
              simp [Session.step, hg, hgj, hgj', hr, h1, List.eraseIdx_set_lt hj]
        · cases h

/-! ### An example -/

/-- Two sheets of the example workbook are held; dropped first to last and last to first they end in different states of the model. -/
def twoDropsB (env : Env) (theme : XDoc) (z : Zip) (ops : List WbOp) : Bool :=
  match Excel.openFile env theme z with
  | .error _ => false
  | .ok x => match Session.run env ⟨x, []⟩ ops with
    | .error _ => false
    | .ok s => match s.handles with
      | [_, _] => decide (((s.step env (.drop 0)).2.step env (.drop 0)).2 ≠ ((s.step env (.drop 1)).2.step env (.drop 0)).2)
      | _ => false

theorem twoDropsB_sound {z : Zip} {ops : List WbOp} (h : twoDropsB env theme z ops = true) :
    ∃ x s g k t t', RanOn env theme z ops x s ∧ g ≠ k ∧ Drops env s [g, k] t ∧ Drops env s [k, g] t' ∧ t ≠ t' := by
  unfold twoDropsB at h
  split at h
  · cases h
  · next x hx =>
    split at h
    · cases h
    · next s hs =>
      split at h
      · next g k hh =>
        have d : ((s.step env (.drop 0)).2.step env (.drop 0)).2 ≠ ((s.step env (.drop 1)).2.step env (.drop 0)).2 := of_decide_eq_true h
        refine ⟨x, s, g, k, _, _, ⟨hx, hs⟩, ?_, .cons (i := 0) (by rw [hh]; rfl) (.cons (i := 0) ?_ .nil), .cons (i := 1) (by rw [hh]; rfl) (.cons (i := 0) ?_ .nil), d⟩
        · rintro rfl
          apply d
          simp only [Session.step, hh]
          rfl
        · simp [Session.step, hh]
        · simp [Session.step, hh]
      · cases h

example : ∃ x s g k t t', RanOn exEnv exTheme exFull [.get "A", .add (some "New"), .sheet 0 (.write 1 2 [{ value := some "hello" }])] x s ∧ g ≠ k ∧
    Drops exEnv s [g, k] t ∧ Drops exEnv s [k, g] t' ∧ t ≠ t' ∧ SameState t t' := by
  obtain ⟨x, s, g, k, t, t', hr, hgk, h1, h2, hne⟩ := twoDropsB_sound (env := exEnv) (theme := exTheme) (z := exFull)
    (ops := [.get "A", .add (some "New"), .sheet 0 (.write 1 2 [{ value := some "hello" }])]) (by decide +kernel)
  have hz : (akeys exFull).Nodup := by decide +kernel
  obtain ⟨u, hu, hs⟩ := C96_opened hz s t hr [g, k] [k, g] h1 (List.Perm.swap _ _ _)
  have e : u = t' := (drops_state (ran_live hz hr) hu).trans (drops_state (ran_live hz hr) h2).symm
  exact ⟨x, s, g, k, t, t', hr, hgk, h1, h2, hne, e ▸ hs⟩

/-- Writing to the second sheet is a call whose position may be exchanged with dropping the first. -/
example : withoutHandle 0 (.sheet 1 (.write 1 2 [])) = some (.sheet 0 (.write 1 2 [])) := rfl

end Oxml
