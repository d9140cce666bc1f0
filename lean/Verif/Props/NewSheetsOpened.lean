import Verif.Props.NewSheets
import Verif.Props.Handles
/-!
# C99 in opened workbooks
-/
namespace Oxml
open Spec

variable {env : Env} {theme : XDoc} {ops : List WbOp} {s : Session}

theorem sheetIn_eq (dir : String) (k : Nat) : sheetPath dir k = sheetIn dir k := newSheet_path

theorem toList_sheetIn (dir : String) (k : Nat) : (sheetIn dir k).toList = dir.toList ++ "worksheets/sheet".toList ++ (toString k).toList ++ ".xml".toList := by
  unfold sheetIn; simp only [String.toList_append]

theorem sheetRelsIn_eq (dir : String) (k : Nat) : sheetRelsPath (sheetIn dir k) = some (sheetRelsIn dir k) := by
  have hd : ∀ c ∈ (toString k).toList, c ≠ '/' := by
    intro c hc hcs
    subst hcs
    rw [toList_toString_nat] at hc
    have := isDigit_of_mem_decimal hc
    revert this; decide
  have hrev : (sheetIn dir k).toList.reverse = (".xml".toList.reverse ++ (toString k).toList.reverse ++ "sheet".toList.reverse) ++
      '/' :: ("worksheets".toList.reverse ++ dir.toList.reverse) := by
    rw [toList_sheetIn]
    simp only [List.reverse_append]
    rw [show ("worksheets/sheet".toList.reverse : List Char) = "sheet".toList.reverse ++ '/' :: "worksheets".toList.reverse from by decide +kernel]
    simp only [List.append_assoc, List.cons_append]
  have hall : ∀ c ∈ ".xml".toList.reverse ++ (toString k).toList.reverse ++ "sheet".toList.reverse, (decide (c ≠ '/')) = true := by
    intro c hc
    rw [List.mem_append, List.mem_append] at hc
    rcases hc with (hc | hc) | hc
    · revert c; decide +kernel
    · exact decide_eq_true (hd c (List.mem_reverse.mp hc))
    · revert c; decide +kernel
  have h1 : ((sheetIn dir k).toList.reverse.dropWhile (· ≠ '/')).tail.reverse = dir.toList ++ "worksheets".toList := by
    rw [hrev, List.dropWhile_append_of_pos hall]
    simp
  have h2 : ((sheetIn dir k).toList.reverse.takeWhile (· ≠ '/')).reverse = "sheet".toList ++ (toString k).toList ++ ".xml".toList := by
    rw [hrev, List.takeWhile_append_of_pos hall]
    simp
  have h3 : '/' ∈ (sheetIn dir k).toList := by
    rw [toList_sheetIn]; simp
  unfold sheetRelsPath dirOf baseOf
  rw [if_pos h3, h1, h2]
  simp only [Option.map_some, Option.some.injEq]
  apply String.toList_inj.mp
  unfold sheetRelsIn
  simp only [String.toList_append, String.toList_ofList]
  rw [show ("worksheets/_rels/sheet".toList : List Char) = "worksheets".toList ++ "/_rels/".toList ++ "sheet".toList from by decide +kernel,
    show (".xml.rels".toList : List Char) = ".xml".toList ++ ".rels".toList from by decide +kernel]
  simp only [List.append_assoc]

theorem sheetIn_ne_rels (dir : String) (j k : Nat) : sheetRelsIn dir k ≠ sheetIn dir j := by
  intro h
  have := congrArg String.toList h
  unfold sheetRelsIn sheetIn at this
  simp only [String.toList_append, List.append_assoc, List.append_cancel_left_eq] at this
  have := congrArg (List.take 12) this
  rw [List.take_append_of_le_length (by decide +kernel), List.take_append_of_le_length (by decide +kernel)] at this
  revert this; decide +kernel

theorem freeSheet_firstFree (x : Excel) (dir : String) : FirstFreeIn x dir (freeSheet x.pkg dir (x.sheets.length + 1)) := by
  refine ⟨freeSheet_ge x.pkg dir _, ?_, ?_⟩
  · rw [← sheetIn_eq]; exact (aget_eq_none_iff _ _).mp (freeSheet_free_at x.pkg dir _)
  · intro j h1 h2
    rw [← sheetIn_eq]
    exact freeSheetLoop_taken x.pkg dir _ _ j h1 h2

theorem firstFreeIn_unique {x : Excel} {dir : String} {j k : Nat} (hj : FirstFreeIn x dir j) (hk : FirstFreeIn x dir k) : j = k := by
  rcases Nat.lt_trichotomy j k with h | h | h
  · exact absurd (hk.2.2 j hj.1 h) hj.2.1
  · exact h
  · exact absurd (hj.2.2 k hk.1 h) hk.2.1

theorem loadRel_ok (n : Node) : (∃ r, loadRel n = .ok r) ↔ (n.attr? "Id").isSome ∧ (n.attr? "Target").isSome ∧ (n.attr? "Type").isSome := by
  unfold loadRel Node.attr?
  cases n.attrs with
  | none => simp
  | some a =>
    simp only
    cases aget "Id" a <;> cases aget "Target" a <;> cases aget "Type" a <;> simp

theorem loadRels_ok (x : XDoc) : (∃ r, (loadRels x).1 = .ok r) ↔ ∀ n ∈ x.rootChildren, n.tag = "Relationship" →
    (n.attr? "Id").isSome ∧ (n.attr? "Target").isSome ∧ (n.attr? "Type").isSome := by
  unfold loadRels XDoc.popTag
  rw [mapRes_ok_iff]
  constructor
  · intro h n hn ht
    exact (loadRel_ok n).mp (h n (List.mem_filter.mpr ⟨hn, by simpa using ht⟩))
  · intro h n hn
    obtain ⟨h1, h2⟩ := List.mem_filter.mp hn
    exact (loadRel_ok n).mpr (h n h1 (by simpa using h2))

/-- When a relationship part can be opened. -/
theorem relNew_iff {p : Pkg} (hi : p.Inv) (rp : String) :
    (∃ r p1, RelPart.new env p rp = (.ok r, p1)) ↔ rp ∉ akeys p.opened ∧ ∀ e, aget rp p.archive = some e → RelsReadable env e.content := by
  constructor
  · rintro ⟨r, p1, h⟩
    have hclosed : aget rp p.opened = none := by
      cases ho : aget rp p.opened with
      | none => rfl
      | some o => unfold RelPart.new at h; rw [openPart_busy ho] at h; cases h
    refine ⟨(aget_eq_none_iff _ _).mp hclosed, ?_⟩
    intro e he
    cases hr : readXml env.uni e.content with
    | error er =>
      unfold RelPart.new Pkg.openPart Pkg.getXmlTree at h
      have hh : ahas rp p.opened = false := by unfold ahas; rw [hclosed]; rfl
      simp [hh, he, hr] at h
    | ok d =>
      refine ⟨d, hr, (loadRels_ok _).mp ?_⟩
      obtain ⟨hd, p2, ho1⟩ : ∃ hd p2, p.openPart env (.ok relsTemplate) rp = (.ok hd, p2) := ⟨_, _, openPart_read hclosed he hr⟩
      obtain ⟨i2, _, _, ⟨o2, v2, v3, v4⟩, _⟩ := openPart_full hi ho1
      have hdoc : o2.doc = d.toXDoc := by
        rcases v4 with ⟨hn, _⟩ | ⟨e', d', h3, h4, h5, _⟩
        · rw [he] at hn; cases hn
        · rw [he] at h3; cases h3
          rw [hr] at h4; cases h4
          exact h5
      have hof : p2.docOf hd = some d.toXDoc := by rw [← v3, ← hdoc]; exact i2.docOf v2
      unfold RelPart.new at h
      rw [ho1] at h
      simp only [hof] at h
      split at h
      · cases h
      · next he' => exact ⟨_, congrArg Prod.fst he'⟩
  · rintro ⟨h1, h2⟩
    have hclosed := (aget_eq_none_iff _ _).mpr h1
    cases ha : aget rp p.archive with
    | none =>
      exact relNew_ready (dr := relsTemplate.doc) hi hclosed (.inl ⟨ha, rfl⟩) (rels := []) (by decide +kernel)
    | some e =>
      obtain ⟨d, hd, hc⟩ := h2 e ha
      obtain ⟨r, hr⟩ := (loadRels_ok _).mpr hc
      exact relNew_ready (dr := d.toXDoc) hi hclosed (.inr ⟨e, d, ha, hd, rfl⟩) hr

/-- **C99, exactly when, in every workbook.** After every history of a new or of an opened workbook a sheet with a new name is added exactly if its part and the
relationship part belonging to it are not open and the latter, if there is one, can be read. -/
theorem C99_exact_opened (h : Happened env theme ops s) {name : Option String} (hn : ∀ n, name = some n → n ∉ names s.x.sheets) {dir : String}
    (hdir : relativePath s.x.rels.path = .ok dir) :
    ∃ k, FirstFreeIn s.x dir k ∧ (∀ j, FirstFreeIn s.x dir j → j = k) ∧
      ((s.step env (.add name)).1 = .ok () ↔ sheetIn dir k ∉ akeys s.x.pkg.opened ∧ sheetRelsIn dir k ∉ akeys s.x.pkg.opened ∧
        ∀ e, aget (sheetRelsIn dir k) s.x.pkg.archive = some e → RelsReadable env e.content) ∧
      ((s.step env (.add name)).1 = .ok () → ∃ g e, (s.step env (.add name)).2.handles = s.handles ++ [g] ∧
        (s.step env (.add name)).2.x.sheets = s.x.sheets ++ [e] ∧ g.path = sheetIn dir k ∧ g.name = e.name ∧ g.data = emptySheet ∧
        e.name = name.getD ("sheet" ++ toString k) ∧ e.active = false ∧ e.hide = false ∧
        (aget (sheetRelsIn dir k) s.x.pkg.archive = none → g.rels.rels = []) ∧
        ∀ en d, aget (sheetRelsIn dir k) s.x.pkg.archive = some en → readXml env.uni en.content = .ok d → (loadRels d.toXDoc).1 = .ok g.rels.rels) := by
  have hi := h.live.inv
  have hF := freeSheet_firstFree s.x dir
  have hfree : aget (sheetIn dir (freeSheet s.x.pkg dir (s.x.sheets.length + 1))) s.x.pkg.archive = none := (aget_eq_none_iff _ _).mpr hF.2.1
  have hstep : s.step env (.add name) = s.open env name := rfl
  refine ⟨_, hF, fun j hj => firstFreeIn_unique hj hF, ?_⟩
  rw [hstep]
  unfold Session.open
  rw [openSheet_eq]
  rcases sheetFile_new hn with ⟨e, he, _⟩ | ⟨dir', hd', hf⟩
  · rw [hdir] at he; cases he
  rw [hdir] at hd'
  cases hd'
  rw [hf, sheetIn_eq]
  simp only
  generalize hk : freeSheet s.x.pkg dir (s.x.sheets.length + 1) = k at *
  have hpk : (withSheet s.x dir name).pkg = s.x.pkg := rfl
  cases ho : aget (sheetIn dir k) s.x.pkg.opened with
  | some o =>
    have hb := openPart_busy (env := env) (t := .ok worksheetTemplate) ho
    have hA : openAt env (withSheet s.x dir name) (sheetIn dir k) (newNameOf s.x dir name) =
        (.error (.fail "Please close the Existing object before creating new handle"), withSheet s.x dir name) := by
      unfold openAt
      rw [hpk, hb]
      simp only
      rw [← hpk]
    rw [hA]
    simp only
    refine ⟨⟨fun e => (by cases e), fun e => absurd (mem_akeys_of_aget ho) e.1⟩, fun e => (by cases e)⟩
  | none =>
    have ho1 := openPart_fresh (env := env) (t := worksheetTemplate) ho hfree
    cases hp : s.x.pkg.openPart env (.ok worksheetTemplate) (sheetIn dir k) with
    | mk a p2 =>
      rw [hp] at ho1
      cases a with
      | error er => cases ho1
      | ok hd =>
        obtain ⟨i1, w0, w1, ⟨o, w2, w3, w4⟩, w5⟩ := openPart_full hi hp
        have hdoc : o.doc = worksheetDoc := by
          rcases w4 with ⟨_, h5, _⟩ | ⟨e, d, h3, _⟩
          · exact h5
          · rw [hfree] at h3; cases h3
        have s1 : Still (sheetIn dir k) o p2 := w2
        have hne := sheetIn_ne_rels dir k k
        have hiff := relNew_iff (env := env) i1 (sheetRelsIn dir k)
        rw [(w5 _ hne).1, ← aget_eq_none_iff, (w5 _ hne).2, aget_eq_none_iff] at hiff
        have s2 := s1.relNew i1 env (sheetRelsIn dir k)
        have i2 := i1.relNew env (sheetRelsIn dir k)
        unfold openAt
        rw [hpk, hp]
        simp only [sheetRelsIn_eq]
        cases hr : RelPart.new env p2 (sheetRelsIn dir k) with
        | mk a p3 =>
          rw [hr] at s2 i2 hiff
          cases a with
          | error er =>
            simp only
            refine ⟨⟨fun e => (by cases e), fun e => ?_⟩, fun e => (by cases e)⟩
            obtain ⟨_, _, hx⟩ := hiff.mpr e.2
            cases hx
          | ok rels =>
            simp only at s2 i2 ⊢
            subst w3
            rw [i2.docOf s2]
            simp only [hdoc, load_template]
            refine ⟨⟨fun _ => ⟨(aget_eq_none_iff _ _).mp ho, hiff.mp ⟨_, _, rfl⟩⟩, fun _ => trivial⟩, fun _ => ?_⟩
            obtain ⟨_, _, _, _, ⟨ro, v1, v2, _⟩, _⟩ := relNew_full i1 hr
            refine ⟨_, ⟨newNameOf s.x dir name, _, false, false⟩, rfl, rfl, rfl, rfl, rfl, ?_, rfl, rfl, ?_, ?_⟩
            · unfold newNameOf
              rw [hk]
            · intro hno
              rcases v1 with ⟨_, hd, _⟩ | ⟨e, d, h3, _⟩
              · rw [hd] at v2
                have : (loadRels relsTemplate.doc).1 = .ok [] := by decide +kernel
                rw [this] at v2
                exact (Except.ok.inj v2).symm
              · rw [(w5 _ hne).1, hno] at h3; cases h3
            · intro en d hen hread
              rcases v1 with ⟨h3, _⟩ | ⟨e, d', h3, h4, h5, _⟩
              · rw [(w5 _ hne).1, hen] at h3; cases h3
              · rw [(w5 _ hne).1, hen] at h3; cases h3
                rw [hread] at h4; cases h4
                rw [h5] at v2; exact v2

/-! ## Relationships left behind -/

/-- A file that holds nothing but relationships of a first sheet that is not there. -/
def exLeft (content : String) : Zip := [(contentTypesName, "<Types></Types>".toList), ("xl/worksheets/_rels/sheet1.xml.rels", content.toList)]

/-- Relationships of another sheet. -/
def exLeftRels : String := "<Relationships><Relationship Id=\"rId1\" Target=\"../drawings/drawing1.xml\" Type=\"d\"/></Relationships>"

/-- **C99 is false in opened workbooks**: relationships without target, left behind by another program, make adding fail; and the name is listed. -/
theorem C99_violated_opened (env : Env) (theme : XDoc) :
    (akeys (exLeft "<R><Relationship/></R>")).Nodup ∧ ∃ x m, RanOn env theme (exLeft "<R><Relationship/></R>") [] x ⟨x, []⟩ ∧ names x.sheets = [] ∧
      (Session.step env ⟨x, []⟩ (.add (some "a"))).1 = .error (.fail m) ∧ names (Session.step env ⟨x, []⟩ (.add (some "a"))).2.x.sheets = ["a"] := by
  have h : (Excel.openFile env theme (exLeft "<R><Relationship/></R>")).toOption.map (fun x => (names x.sheets, (Session.step env ⟨x, []⟩ (.add (some "a"))).1,
      names (Session.step env ⟨x, []⟩ (.add (some "a"))).2.x.sheets)) =
      some ([], .error (.fail "Failed. Id in relationship Not Fount!"), ["a"]) := by kernel_rfl
  refine ⟨by decide +kernel, ?_⟩
  cases he : Excel.openFile env theme (exLeft "<R><Relationship/></R>") with
  | error e => rw [he] at h; cases h
  | ok x =>
    rw [he] at h
    have h' := Option.some.inj h
    simp only [Prod.mk.injEq] at h'
    exact ⟨x, _, ⟨he, rfl⟩, h'.1, h'.2.1, h'.2.2⟩

/-- **C99 is false in opened workbooks** also when adding succeeds: the new sheet takes over the relationships left behind. -/
theorem C99_violated_adopts (env : Env) (theme : XDoc) :
    (akeys (exLeft exLeftRels)).Nodup ∧ ∃ x g, RanOn env theme (exLeft exLeftRels) [] x ⟨x, []⟩ ∧ names x.sheets = [] ∧
      (Session.step env ⟨x, []⟩ (.add (some "a"))).1 = .ok () ∧ (Session.step env ⟨x, []⟩ (.add (some "a"))).2.handles = [g] ∧
      g.rels.rels = [{ id := "rId1", target := "../drawings/drawing1.xml", type := "d", mode := none }] := by
  have h : (Excel.openFile env theme (exLeft exLeftRels)).toOption.map (fun x => (names x.sheets, (Session.step env ⟨x, []⟩ (.add (some "a"))).1,
      (Session.step env ⟨x, []⟩ (.add (some "a"))).2.handles.map (fun g => g.rels.rels))) =
      some ([], .ok (), [[{ id := "rId1", target := "../drawings/drawing1.xml", type := "d", mode := none }]]) := by kernel_rfl
  refine ⟨by decide +kernel, ?_⟩
  cases he : Excel.openFile env theme (exLeft exLeftRels) with
  | error e => rw [he] at h; cases h
  | ok x =>
    rw [he] at h
    have h' := Option.some.inj h
    simp only [Prod.mk.injEq] at h'
    obtain ⟨g, h1, h2⟩ := List.map_eq_singleton_iff.mp h'.2.2
    exact ⟨x, g, ⟨he, rfl⟩, h'.1, h'.2.1, h1, h2⟩

/-- `C99_exact_opened` applies to both files. -/
example : ∃ x, Happened env theme [] ⟨x, []⟩ ∧ relativePath x.rels.path = .ok "xl/" ∧ "a" ∉ names x.sheets := by
  obtain ⟨h1, x, g, h2, h3, _⟩ := C99_violated_adopts env theme
  refine ⟨x, .inr ⟨_, x, h1, h2⟩, ?_, by rw [h3]; decide⟩
  have h : (Excel.openFile env theme (exLeft exLeftRels)).toOption.map (fun x => relativePath x.rels.path) = some (.ok "xl/") := by kernel_rfl
  rw [h2.1] at h
  exact Option.some.inj h

end Oxml
