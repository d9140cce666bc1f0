import Verif.Proofs.CrashCalls
import Verif.Props.ExistingSaves
/-!
# Which saves can crash
-/
namespace Oxml
open Spec

theorem calm_appendAll (x : XDoc) (l : List Node) : ¬ Crashes (x.appendAll l) := by
  unfold XDoc.appendAll
  split
  · split
    · exact crash_ok
    · exact crash_fail
  · exact crash_ok

theorem calm_saveRels (x : XDoc) (R : List Rel) : ¬ Crashes (saveRels x R) := by
  unfold saveRels
  split
  · exact crash_fail
  · split
    · next e he => exact calm_of_eq he (calm_appendAll _ _)
    · exact crash_ok

theorem calm_saveBook (x : XDoc) (l : List SheetEntry) (v : Option BookView) : ¬ Crashes (saveBook l v x) := by
  unfold saveBook
  split
  · exact crash_fail
  · exact crash_ok

theorem calm_saveStyles (x : XDoc) (s : Styles) : ¬ Crashes (s.save x) := by
  unfold Styles.save
  split
  · exact crash_fail
  · exact crash_ok

theorem calm_relClose (env : Env) (p : Pkg) (r : RelPart) : ¬ Crashes (r.close env p).1 := by
  unfold RelPart.close
  split
  · exact crash_fail
  · split
    · next e he => exact calm_of_eq he (calm_saveRels _ _)
    · exact crash_ok

theorem inv_relClose {p : Pkg} (h : p.Inv) (env : Env) (r : RelPart) : (r.close env p).2.Inv := by
  unfold RelPart.close
  split
  · exact h
  · split
    · exact h
    · simp only
      split
      · exact (h.update _ _).close env _
      · exact (h.update _ _).delete _

/-- The other parts a workbook closes before its core properties. -/
def bookPairs (x : Excel) : List (String × Nat) :=
  [(x.book.path, x.book.handle), (x.rels.path, x.rels.handle), (x.theme.path, x.theme.handle), (x.strings.path, x.strings.handle),
   (x.chain.path, x.chain.handle), (x.styles.path, x.styles.handle)]

/-- The core properties are open with a document nothing else changes. -/
structure CoreKept (c : String × Nat) (o : OpenDoc) (x : Excel) : Prop where
  inv : x.pkg.Inv
  still : Still c.1 o x.pkg
  handle : o.handle = c.2
  core : (x.core.path, x.core.handle) = c
  apart : ∀ e ∈ bookPairs x, e.1 ≠ c.1 ∧ e.2 ≠ c.2

/-- An action that neither crashes nor touches the core properties. -/
def Gentle (f : Excel → Res Unit × Excel) : Prop := ∀ c o x, CoreKept c o x → ¬ Crashes (f x).1 ∧ CoreKept c o (f x).2

variable {c : String × Nat} {o : OpenDoc} {x : Excel} {env : Env}

theorem CoreKept.other (h : CoreKept c o x) {e : String × Nat} (he : e ∈ bookPairs x) : e.1 ≠ c.1 ∧ o.handle ≠ e.2 :=
  ⟨(h.apart e he).1, fun hh => (h.apart e he).2 (hh.symm.trans h.handle)⟩

theorem CoreKept.to {P : Pkg} {R : List Rel} (h : CoreKept c o x) (hp : P.Inv) (hs : Still c.1 o P) :
    CoreKept c o { x with rels := { x.rels with rels := R }, pkg := P } := ⟨hp, hs, h.handle, h.core, h.apart⟩

theorem CoreKept.to' {P : Pkg} (h : CoreKept c o x) (hp : P.Inv) (hs : Still c.1 o P) :
    CoreKept c o { x with pkg := P } := ⟨hp, hs, h.handle, h.core, h.apart⟩

theorem gentle_theme : Gentle (Excel.closeTheme env) := by
  intro c o x h
  have hm := h.other (e := (x.theme.path, x.theme.handle)) (by simp [bookPairs])
  exact ⟨crash_ok, h.to' (h.inv.close env _) (h.still.close env hm.1)⟩

theorem gentle_calc : Gentle (Excel.closeCalc env) := by
  intro c o x h
  have hm := h.other (e := (x.chain.path, x.chain.handle)) (by simp [bookPairs])
  unfold Excel.closeCalc
  split
  · exact ⟨crash_ok, h.to (h.inv.delete _) (h.still.delete _)⟩
  · split
    · exact ⟨crash_ok, h.to' (h.inv.close env _) (h.still.close env hm.1)⟩
    · split
      · next e he => exact ⟨calm_of_eq he (calm_appendAll _ _), h⟩
      · exact ⟨crash_ok, h.to' ((h.inv.update _ _).close env _) ((h.still.update hm.2 _).close env hm.1)⟩

theorem gentle_strings : Gentle (Excel.closeStrings env) := by
  intro c o x h
  have hm := h.other (e := (x.strings.path, x.strings.handle)) (by simp [bookPairs])
  unfold Excel.closeStrings
  split
  · exact ⟨crash_ok, h.to (h.inv.delete _) (h.still.delete _)⟩
  · split
    · exact ⟨crash_ok, h.to' (h.inv.close env _) (h.still.close env hm.1)⟩
    · split
      · next e he => exact ⟨calm_of_eq he (calm_appendAll _ _), h⟩
      · exact ⟨crash_ok, h.to' ((h.inv.update _ _).close env _) ((h.still.update hm.2 _).close env hm.1)⟩

theorem gentle_styles : Gentle (Excel.closeStyles env) := by
  intro c o x h
  have hm := h.other (e := (x.styles.path, x.styles.handle)) (by simp [bookPairs])
  unfold Excel.closeStyles
  split
  · exact ⟨crash_ok, h.to' (h.inv.close env _) (h.still.close env hm.1)⟩
  · split
    · next e he => exact ⟨calm_of_eq he (calm_saveStyles _ _), h⟩
    · exact ⟨crash_ok, h.to' ((h.inv.update _ _).close env _) ((h.still.update hm.2 _).close env hm.1)⟩

theorem gentle_rels : Gentle (Excel.closeRels env) := by
  intro c o x h
  have hm := h.other (e := (x.rels.path, x.rels.handle)) (by simp [bookPairs])
  exact ⟨calm_relClose _ _ _, h.to' (inv_relClose h.inv env _) (h.still.relClose env hm.2 hm.1)⟩

theorem gentle_doc : Gentle (Excel.closeDoc env) := by
  intro c o x h
  have hm := h.other (e := (x.book.path, x.book.handle)) (by simp [bookPairs])
  unfold Excel.closeDoc
  split
  · exact ⟨crash_ok, h.to' (h.inv.close env _) (h.still.close env hm.1)⟩
  · split
    · next e he => exact ⟨calm_of_eq he (calm_saveBook _ _ _), h⟩
    · exact ⟨crash_ok, h.to' ((h.inv.update _ _).close env _) ((h.still.update hm.2 _).close env hm.1)⟩

theorem gentle_seq : ∀ {fs : List (Excel → Res Unit × Excel)}, (∀ f ∈ fs, Gentle f) → Gentle (fun x => x.seq fs)
  | [], _ => fun c o x h => ⟨crash_ok, h⟩
  | f :: fs, hf => fun c o x h => by
    obtain ⟨h1, h2⟩ := hf f List.mem_cons_self c o x h
    simp only [Excel.seq]
    split
    · next e x1 he => rw [he] at h1 h2; exact ⟨h1, h2⟩
    · next x1 he =>
      rw [he] at h2
      exact gentle_seq (fun g hg => hf g (List.mem_cons_of_mem _ hg)) c o x1 h2

theorem CoreKept.seqDrop : ∀ {fs : List (Excel → Res Unit × Excel)}, (∀ f ∈ fs, Gentle f) → ∀ {x : Excel}, CoreKept c o x → CoreKept c o (x.seqDrop fs)
  | [], _, _, h => h
  | f :: fs, hf, x, h => by
    unfold Excel.seqDrop
    rw [List.foldl_cons]
    exact CoreKept.seqDrop (fun g hg => hf g (List.mem_cons_of_mem _ hg)) (hf f List.mem_cons_self c o x h).2

theorem gentle_book : Gentle (Excel.closeBook env) := by
  refine gentle_seq ?_
  simp only [List.mem_cons, List.not_mem_nil, or_false, forall_eq_or_imp, forall_eq]
  exact ⟨gentle_theme, gentle_calc, gentle_strings, gentle_styles, gentle_rels, gentle_doc⟩

theorem gentle_flush : Gentle (Excel.flushBook env) := by
  intro c o x h
  obtain ⟨h1, h2⟩ := gentle_book c o x h
  refine ⟨h1, ?_⟩
  unfold Excel.flushBook Excel.dropBook
  refine (gentle_book c o _ h2).2.seqDrop ?_
  simp only [List.mem_cons, List.not_mem_nil, or_false, forall_eq_or_imp, forall_eq]
  exact ⟨gentle_calc, gentle_strings, gentle_styles, gentle_rels, gentle_theme⟩

theorem closeCore_crash {now : String} (h : CoreKept c o x) : Crashes (x.closeCore env now).1 ↔ o.doc.root = none := by
  have hd : x.pkg.docOf x.core.handle = some o.doc := by
    have := h.inv.docOf h.still
    rw [h.handle, ← h.core] at this
    exact this
  unfold Excel.closeCore
  rw [hd]
  simp only
  rw [← saveCore_crash (a := now) (b := now)]
  split
  · next e he => rw [he]; exact crash_cast
  · next d' he => rw [he]; exact ⟨fun h => absurd h crash_ok, fun h => absurd h crash_ok⟩

/-- Saving crashes exactly when the core properties have no root element. -/
theorem toZip_crash {now : String} {exts : List (String × String)} (h : CoreKept c o x) : Crashes (x.toZip env now exts) ↔ o.doc.root = none := by
  obtain ⟨h1, h2⟩ := gentle_flush (env := env) c o x h
  have hc := closeCore_crash (env := env) (now := now) h2
  rw [← hc]
  unfold Excel.toZip
  cases hs : x.saved env now with
  | error e =>
    simp only
    constructor
    · intro hcr
      unfold Excel.failedSave at hcr
      split at hcr
      · next m hm => exact ⟨_, hm⟩
      · next hno =>
        -- the error itself is the panic
        exfalso
        obtain ⟨m, hm⟩ := crash_error.mp hcr
        subst hm
        unfold Excel.saved at hs
        split at hs
        · next e' x' hseq =>
          cases hs
          unfold Excel.seq at hseq
          split at hseq
          · next e'' x'' he => cases hseq; exact h1 ⟨_, congrArg Prod.fst he⟩
          · next x1 he =>
            have hx1 : x1 = (x.flushBook env).2 := (congrArg Prod.snd he).symm
            unfold Excel.seq at hseq
            split at hseq
            · next e'' x'' he' =>
              cases hseq
              have := congrArg Prod.fst he'
              simp only [Excel.flushCore] at this
              rw [hx1] at this
              exact hno _ this
            · next x2 he' =>
              unfold Excel.seq at hseq
              split at hseq
              · next e'' x'' he'' =>
                cases hseq
                exact calm_relClose _ _ _ ⟨_, congrArg Prod.fst he''⟩
              · unfold Excel.seq at hseq; cases hseq
        · cases hs
    · rintro ⟨m, hm⟩
      refine ⟨m, ?_⟩
      unfold Excel.failedSave
      rw [hm]
  | ok p =>
    simp only
    constructor
    · intro hcr
      unfold Pkg.toZip at hcr
      split at hcr
      · exact absurd hcr crash_fail
      · exact absurd hcr crash_ok
    · rintro ⟨m, hm⟩
      exfalso
      unfold Excel.saved at hs
      split at hs
      · cases hs
      · next x' hseq =>
        unfold Excel.seq at hseq
        split at hseq
        · cases hseq
        · next x1 he =>
          have hx1 : x1 = (x.flushBook env).2 := (congrArg Prod.snd he).symm
          unfold Excel.seq at hseq
          split at hseq
          · cases hseq
          · next x2 he' =>
            have := congrArg Prod.fst he'
            simp only [Excel.flushCore] at this
            rw [hx1, hm] at this
            cases this

theorem AllHeld.coreKept {x : Excel} {o1 o2 o3 o4 o5 o6 o7 o8 : OpenDoc} (h : AllHeld x x.pkg o1 o2 o3 o4 o5 o6 o7 o8) :
    CoreKept (x.core.path, x.core.handle) o2 x := by
  have n1 := h.nodup
  have n2 := h.hnodup
  simp only [ownParts, ownPairs, List.map_cons, List.map_nil, List.nodup_cons, List.mem_cons, List.not_mem_nil, or_false, not_or] at n1 n2
  refine ⟨h.inv, h.core.opened, h.coreH, rfl, ?_⟩
  simp only [bookPairs, List.mem_cons, List.not_mem_nil, or_false, forall_eq_or_imp, forall_eq]
  obtain ⟨_, ⟨a1, a2, a3, a4, a5, a6⟩, _⟩ := n1
  obtain ⟨_, ⟨b1, b2, b3, b4, b5, b6⟩, _⟩ := n2
  exact ⟨⟨Ne.symm a1, Ne.symm b1⟩, ⟨Ne.symm a2, Ne.symm b2⟩, ⟨Ne.symm a3, Ne.symm b3⟩, ⟨Ne.symm a4, Ne.symm b4⟩, ⟨Ne.symm a5, Ne.symm b5⟩,
    ⟨Ne.symm a6, Ne.symm b6⟩⟩

end Oxml
