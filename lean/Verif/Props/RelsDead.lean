import Verif.Proofs.ExistingDead
import Verif.Proofs.SheetRefused
import Verif.Props.ExistingReget
/-!
# C86: sheets without relationships, in every saved file
-/
namespace Oxml
open Spec

variable {env : Env} {theme theme' : XDoc} {z z' : Zip} {x x' : Excel} {path rp : String} {edits : List SheetOp} {s s' : Session} {now : String}
  {exts : List (String × String)}

/-- The sheet asked for is the one stored under the name. -/
theorem get_path {s s1 : Session} {name path : String} {g : SheetHandle} (hl : LiveSess s) (hn : StoredIn s.x name path)
    (e : s.step env (.get name) = (.ok (), s1)) (e1 : s1.handles = s.handles ++ [g]) : g.path = path := by
  obtain ⟨e', r, n1, n2, n3⟩ := hn
  simp only [Session.step, Session.open] at e
  rw [openSheet_eq] at e
  have hm : name ∈ names s.x.sheets := by
    unfold names
    refine List.mem_map.mpr ⟨e', List.mem_of_find?_eq_some n1, ?_⟩
    have := List.find?_some n1; simpa using this
  obtain ⟨r', f1, f2⟩ := sheetFile_listed hm
  rw [f1] at e
  cases r' with
  | error er => cases e
  | ok pn =>
    obtain ⟨p', nm⟩ := pn
    obtain ⟨_, e2, _, _, f3, f4⟩ := f2 p' nm rfl
    rw [n1] at f3; cases f3
    unfold targetById at f4
    rw [n2] at f4
    simp only [n3] at f4
    cases f4
    simp only at e
    cases ha : openAt env s.x path nm with
    | mk ra x2 =>
      rw [ha] at e
      cases ra with
      | error er => cases e
      | ok g' =>
        cases e
        obtain ⟨_, _, _, _, _, h4, _⟩ := openAt_ok hl.inv ha
        have : g' = g := by
          have := List.append_cancel_left e1
          exact List.singleton_inj.mp this
        rw [← this]; exact h4

/-- **C86 fails for every sheet without relationships.** Open any workbook file, ask for a sheet that has no relationship part, drop its handle, do anything else,
save. Whoever opens the saved file and asks for that sheet for the first time is refused, whatever they did before. -/
theorem C86_violated_always (hst : env.build.release = true → StampOk env.stamp) (hz : (akeys z).Nodup) {ops0 ops1 ops2 ops3 : List WbOp} {name name' : String}
    {i : Nat} {s3 : Session} (h : EditRun env theme z path edits x ops0 name ops1 i s3) (hrp : IsRelsOf rp path) (hn0 : NeverAsks env rp ⟨x, []⟩ ops0)
    (h0 : aget rp z = none) (hrun : s3.run env ops2 = .ok s) (hs : s.x.toZip env now exts = .ok z') (ho : Excel.openFile env theme' z' = .ok x')
    (hrun' : Session.run env ⟨x', []⟩ ops3 = .ok s') (hn3 : NeverAsks env rp ⟨x', []⟩ ops3) (hn : StoredIn s'.x name' path) :
    ∃ e, (s'.step env (.get name')).1 = .error e := by
  obtain ⟨hrp', hnp, p, s2, g, ro, hp, hsrc, hl, hg, hpath, hload, hroh, hstill, rfl⟩ := rels_held hz h hrp hn0
  have hslash := relsOf_slash hrp
  obtain ⟨q, hq1, hq2⟩ : ∃ q', s.x.saved env now = .ok q' ∧ q'.toZip env exts = .ok z' := by
    unfold Excel.toZip at hs
    split at hs
    · cases hs
    · next q' e => exact ⟨q', e, hs⟩
  rcases source_zip hp hslash hsrc with ⟨_, hdoc⟩ | ⟨c, d, h1, _⟩
  · have hrels : g.rels.rels = [] := by
      rw [hdoc] at hload
      have : (loadRels relsTemplate.doc).1 = .ok [] := rfl
      rw [this] at hload
      exact (Except.ok.inj hload).symm
    have hsv : saveRels (loadRels ro.doc).2 g.rels.rels = .ok ((loadRels relsTemplate.doc).2, false) := by
      rw [hdoc, hrels]; rfl
    have ho1 := drop_orphan (env := env) (o := { ro with doc := (loadRels ro.doc).2 }) hl hg hstill hroh hsv
    have ho2 := ho1.run hrun
    rw [hpath] at ho2
    have hl3 := hl.step env (.drop i)
    have hown : rp ∉ ownParts s.x := by
      intro hm
      rw [ownParts_pairs, (own_run hl3 hrun).1, step_ownPairs] at hm
      obtain ⟨k, hk⟩ := own_pair hm
      obtain ⟨_, _, _, hne, _⟩ := LivePkg.others hl hg
      exact (hne (rp, k) (List.mem_append_left _ hk)).2.2 hpath.symm
    have hsaved := ho2.saved hown hq1
    have hz' : (akeys z').Nodup := by
      obtain ⟨_, _, _, _, _, _, _, _, A⟩ := ho2.live.allHeld
      obtain ⟨_, _, _, _, _, _, _, _, _, _, S'⟩ := saved_all A hq1
      exact toZip_nodup S'.inv hq2
    obtain ⟨p', _, _, _, _, _, _, _, _, _, _, hp', hb'⟩ := openFile_book hz' ho
    have hl' : LiveSess s' := hb'.live.run env ops3 hrun'
    cases e : s'.step env (.get name') with
    | mk r s4 =>
      cases r with
      | error er => exact ⟨er, rfl⟩
      | ok u =>
        exfalso
        obtain ⟨g', o', d', e1, _, _, _, _, _, rp2, ro', c4, _, _, hclosed, hsrc', _⟩ := get_ok hl' e
        have hp2 : g'.path = path := get_path hl' hn e e1
        have : rp2 = rp := by rw [hp2, hrp'] at c4; exact (Option.some.inj c4).symm
        subst this
        have hown' : rp2 ∉ ownParts x' := by
          intro hm
          have hm' : rp2 ∈ ownParts s'.x := by rw [ownParts_pairs, (own_run hb'.live hrun').1]; exact hm
          obtain ⟨k, hk⟩ := own_pair hm'
          exact (hl'.owns (rp2, k) (List.mem_append_left _ hk)).isOpen hclosed
        have hq0 : QuietSess rp2 (aget rp2 p'.archive) ⟨x', []⟩ :=
          ⟨⟨⟨hb'.openOnly _ hown', hb'.others _ hown'⟩, hown'⟩, fun g hg => by cases hg⟩
        have hk := (hq0.run env ops3 hn3 hrun').book.pkg.kept
        unfold Source at hsrc'
        rw [hk] at hsrc'
        exact empty_part_dead hst hq2 hslash hsaved (wf_relsTemplate env.uni) hp' hsrc'
  · rw [h0] at h1; cases h1

/-- The hypotheses hold for a small workbook whose only edited sheet has no relationships; the saved file opens. -/
example : ∃ x s z' x', EditRun exEnv exTheme exNoRelBook "xl/worksheets/sheet1.xml" [.write 1 2 [{ value := some "hello" }]] x [] "A" exWrite 0 s ∧
    IsRelsOf "xl/worksheets/_rels/sheet1.xml.rels" "xl/worksheets/sheet1.xml" ∧ aget "xl/worksheets/_rels/sheet1.xml.rels" exNoRelBook = none ∧
    s.x.toZip exEnv "now" exExts = .ok z' ∧ Excel.openFile exEnv exTheme z' = .ok x' := by
  obtain ⟨x, s, h1, h2⟩ := exAgain_sound (z := exNoRelBook) exNoRel_run
  simp only [exNoRelChk, Bool.and_eq_true] at h2
  obtain ⟨⟨k1, k2⟩, k3⟩ := h2
  split at k3
  · next z' hz' =>
    split at k3
    · next x' hx' => exact ⟨x, s, z', x', h1, exRelsOf, by decide +kernel, hz', hx'⟩
    · cases k3
  · cases k3

end Oxml
