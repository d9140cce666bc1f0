import Verif.Spec.Package
import Verif.Proofs.ContentTypes
import Verif.Props.Xml
/-!
# C15–C20: packages
-/
namespace Oxml
open Spec

theorem Spec.PkgReachable.inv {env : Env} {p : Pkg} (h : PkgReachable env p) : p.Inv := by
  induction h with
  | new => exact Pkg.Inv.empty
  | load hz h => exact Pkg.Inv.ofZip hz h
  | step op _ ih => exact ih.step env op

/-- A debug build without further letters, for examples. -/
def exEnv : Env := { build := ⟨false⟩, uni := ⟨fun _ => false⟩, stamp := [] }

/-- A small package file, for examples. -/
def exZip : Zip :=
  [("a.xml", "<a><b/></a>".toList), ("img.png", "PNG".toList), ("bad.xml", "<a/>".toList),
   (contentTypesName, ("<Types><Default Extension=\"xml\" ContentType=\"text/xml\"/><Default Extension=\"png\" ContentType=\"image/png\"/>" ++
      "<Override PartName=\"/a.xml\" ContentType=\"t/a\"/></Types>").toList)]

/-- The template of a new part, for examples. -/
def exTemplate : Template :=
  { doc := { ns := [], root := some (.mk "r" none none [.mk "c" none none []]) }, ctype := some "t/r", ext := "xml", extType := "application/xml" }

theorem exZip_nodup : (akeys exZip).Nodup := by decide +kernel

/-- The example package as loaded. -/
def exPkg : Pkg :=
  { opened := [], nextHandle := 0,
    archive := [("a.xml", { ext := "xml", extType := "text/xml", ctype := some "t/a", content := "<a><b/></a>".toList }),
      ("img.png", { ext := "png", extType := "image/png", ctype := none, content := "PNG".toList }),
      ("bad.xml", { ext := "xml", extType := "text/xml", ctype := none, content := "<a/>".toList })] }

theorem exPkg_load : Pkg.ofZip exEnv exZip = .ok exPkg := by decide +kernel

/-! ## C15 -/

/-- **C15.** Load a package file, do anything that does not open, close or delete part `n`, save: the saved file has
part `n` with exactly the bytes it had, and no part occurs twice. -/
theorem C15_untouched_preserved (env : Env) (z z' : Zip) (p : Pkg) (ops : List PkgOp) (exts : List (String × String))
    (n : String) (content : List Char) (hz : (akeys z).Nodup) (hl : Pkg.ofZip env z = .ok p)
    (hn : n ≠ contentTypesName) (hc : aget n z = some content) (ht : ∀ op ∈ ops, ¬ touches n op)
    (hs : ((p.run env ops).closedForSave env).toZip env exts = .ok z') :
    aget n z' = some content ∧ (akeys z').Nodup := by
  have hi : p.Inv := Pkg.Inv.ofZip hz hl
  have ho : aget n p.opened = none := by
    obtain ⟨_, _, _, _, _, _, _, h, _⟩ := ofZip_ok hl
    rw [h]; rfl
  have ht' : ∀ op ∈ ops, ¬ op.mentions n := by
    intro op hop hm
    apply ht op hop
    cases op <;> exact hm
  have h1 := Pkg.run_untouched (env := env) ht' ho
  refine ⟨?_, toZip_nodup ((hi.run env ops).closeAll env _) hs⟩
  rw [toZip_aget hs hn, Pkg.closedForSave_closed h1.2, h1.1, ofZip_content hl hn, hc]

/-- **C15, saving succeeds** exactly when no part is called like the content type part. -/
theorem C15_save_succeeds_iff (env : Env) (p : Pkg) (exts : List (String × String)) :
    (∃ z, (p.closedForSave env).toZip env exts = .ok z) ↔ ¬ holds p contentTypesName := by
  have hkey : contentTypesName ∈ akeys (p.closedForSave env).archive ↔ holds p contentTypesName := by
    unfold holds
    cases ho : aget contentTypesName p.opened with
    | none =>
      have h1 := Pkg.closedForSave_closed (env := env) ho
      have h2 := (aget_eq_none_iff _ _).mp ho
      rw [← aget_isSome_iff, h1, aget_isSome_iff]
      exact ⟨Or.inr, fun h => h.resolve_left h2⟩
    | some o =>
      have h1 := Pkg.closedForSave_open (env := env) ho
      exact ⟨fun _ => Or.inl (mem_akeys_of_aget ho), fun _ => mem_akeys_of_aget h1⟩
  rw [← hkey]
  constructor
  · rintro ⟨z, hz⟩; exact (toZip_ok hz).1
  · intro h
    unfold Pkg.toZip
    rw [if_neg (by rw [ahas_iff]; exact h)]
    exact ⟨_, rfl⟩

/-- Reachable case: the picture survives opening one part, creating another and deleting a third. -/
example : ∃ z', ((exPkg.run exEnv [.openPart (.ok exTemplate) "a.xml", .openPart (.ok exTemplate) "new.xml", .delete "bad.xml",
      .close "a.xml"]).closedForSave exEnv).toZip exEnv [("xml", "text/xml"), ("xml", "application/xml"), ("png", "image/png")] = .ok z' ∧
    akeys z' = ["img.png", "a.xml", "new.xml", contentTypesName] ∧ aget "img.png" z' = some "PNG".toList := by
  refine ⟨_, rfl, ?_, ?_⟩ <;> decide +kernel

/-! ## C16 -/

theorem holds_close {env : Env} {p : Pkg} {m n : String} (h : holds p n) : holds (p.close env m) n := by
  unfold holds at *
  by_cases hm : m = n
  · subst hm
    cases ho : aget m p.opened with
    | none => rw [Pkg.close_closed ho]; exact h
    | some o => exact Or.inr (mem_akeys_of_aget (Pkg.close_open ho))
  · have := Pkg.close_ne (p := p) (env := env) hm
    rw [← aget_isSome_iff, ← aget_isSome_iff, this.1, this.2, aget_isSome_iff, aget_isSome_iff]; exact h

theorem openPart_ok_cases {env : Env} {p : Pkg} {t : Res Template} {n : String} {h : Nat} (ho : (p.openPart env t n).1 = .ok h) :
    n ∉ akeys p.opened ∧ h = p.nextHandle ∧ ∃ tt, (p.openPart env t n).2 =
      ((p.delete n).register n tt.doc tt.ctype tt.ext tt.extType).1 ∧
      ((∃ e d, aget n p.archive = some e ∧ readXml env.uni e.content = .ok d ∧
          tt = { doc := d.toXDoc, ctype := e.ctype, ext := e.ext, extType := e.extType }) ∨
        (aget n p.archive = none ∧ t = .ok tt)) := by
  unfold Pkg.openPart Pkg.getXmlTree at ho ⊢
  by_cases hop : ahas n p.opened = true
  · rw [if_pos hop] at ho; cases ho
  · rw [if_neg hop] at ho ⊢
    have hno : n ∉ akeys p.opened := by rw [ahas_iff] at hop; exact hop
    refine ⟨hno, ?_⟩
    cases he : aget n p.archive with
    | none =>
      rw [he] at ho
      have hd : p.delete n = p := by
        have : aerase n p.archive = p.archive := aerase_of_not_mem ((aget_eq_none_iff _ _).mp he)
        simp [Pkg.delete, this]
      cases t with
      | error e => cases ho
      | ok t => cases ho; exact ⟨rfl, t, by rw [hd], Or.inr ⟨rfl, rfl⟩⟩
    | some e =>
      rw [he] at ho
      simp only at ho ⊢
      cases hr : readXml env.uni e.content with
      | error err => rw [hr] at ho; cases ho
      | ok d =>
        rw [hr] at ho
        cases ho
        exact ⟨rfl, _, rfl, Or.inl ⟨e, d, rfl, hr, rfl⟩⟩

theorem holds_open {env : Env} {p : Pkg} {t : Res Template} {m n : String} {h : Nat} (ho : (p.openPart env t m).1 = .ok h)
    (hn : holds p n ∨ m = n) : holds (p.openPart env t m).2 n := by
  obtain ⟨_, _, tt, h2, _⟩ := openPart_ok_cases ho
  rw [h2]
  unfold holds Pkg.register Pkg.delete
  simp only
  rw [mem_akeys_ainsert, akeys_aerase, List.mem_filter]
  by_cases hm : m = n
  · exact Or.inl (Or.inl hm.symm)
  · rcases hn with hn | hn
    · rcases hn with hn | hn
      · exact Or.inl (Or.inr hn)
      · exact Or.inr ⟨hn, by simpa using Ne.symm hm⟩
    · exact absurd hn hm

/-- **C16.** Over any history of successful opens, closes and edits, no part name disappears. -/
theorem C16_names_grow (env : Env) (p : Pkg) (ops : List PkgOp) (n : String) (ho : OpensAndCloses env p ops) (h : holds p n) :
    holds (p.run env ops) n := by
  induction ops generalizing p with
  | nil => exact h
  | cons op ops ih =>
    change holds ((p.step env op).run env ops) n
    refine ih _ ho.2 ?_
    cases op with
    | openPart t m =>
      obtain ⟨hd, hok⟩ := ho.1
      exact holds_open hok (Or.inl h)
    | close m => exact holds_close h
    | delete m => exact absurd ho.1 id
    | mutate hd f =>
      unfold holds at *
      simp only [Pkg.step, Pkg.akeys_update]
      exact h

/-- **C16.** A part that is open cannot be opened again, and the attempt changes nothing; a successful open really
opens the part; in reachable states no part is both open and closed, and none is open twice. -/
theorem C16_open_once (env : Env) (p : Pkg) (hp : PkgReachable env p) (t : Res Template) (n : String) :
    (n ∈ akeys p.opened → (∃ e, (p.openPart env t n).1 = .error e) ∧ (p.openPart env t n).2 = p) ∧
    (∀ h, (p.openPart env t n).1 = .ok h → n ∈ akeys (p.openPart env t n).2.opened ∧ n ∉ akeys (p.openPart env t n).2.archive) ∧
    (akeys p.opened).Nodup ∧ (∀ m, m ∈ akeys p.opened → m ∉ akeys p.archive) := by
  refine ⟨?_, ?_, hp.inv.opened, hp.inv.disjoint⟩
  · intro hn
    unfold Pkg.openPart Pkg.getXmlTree
    rw [if_pos ((ahas_iff _ _).mpr hn)]
    exact ⟨⟨_, rfl⟩, rfl⟩
  · intro h ho
    obtain ⟨_, _, tt, h2, _⟩ := openPart_ok_cases ho
    have hi := hp.inv.openPart env t n
    have : n ∈ akeys (p.openPart env t n).2.opened := by
      rw [h2]; unfold Pkg.register; simp only; rw [mem_akeys_ainsert]; exact Or.inl rfl
    exact ⟨this, hi.disjoint n this⟩

/-- **C16.** Closing is idempotent and closing a part that is not open does nothing. -/
theorem C16_close_idempotent (env : Env) (p : Pkg) (n : String) :
    (p.close env n).close env n = p.close env n ∧ (n ∉ akeys p.opened → p.close env n = p) :=
  ⟨Pkg.close_closed Pkg.close_self, fun h => Pkg.close_closed ((aget_eq_none_iff _ _).mpr h)⟩

/-- **C16.** Opening an existing part and closing it again leaves the part with the same type and extension, and its
content is what the XML writer makes of the tree the XML reader read. No other part changes. -/
theorem C16_open_close_content (env : Env) (p : Pkg) (t : Res Template) (n : String) (h : Nat) (e : Entry)
    (he : aget n p.archive = some e) (ho : (p.openPart env t n).1 = .ok h) :
    ∃ d text, readXml env.uni e.content = .ok d ∧ writeXml env.build env.stamp d = .ok text ∧
      aget n ((p.openPart env t n).2.close env n).archive = some { e with content := text } ∧
      ∀ m, m ≠ n → aget m ((p.openPart env t n).2.close env n).archive = aget m p.archive ∧
        aget m ((p.openPart env t n).2.close env n).opened = aget m p.opened := by
  obtain ⟨_, _, tt, h2, h3⟩ := openPart_ok_cases ho
  rcases h3 with ⟨e', d, he', hd, rfl⟩ | ⟨hnone, _⟩
  · rw [he] at he'; cases he'
    refine ⟨d, _, hd, (C07_write_total env.build env.uni env.stamp d (.read hd)).1, ?_, ?_⟩
    · have : aget n (p.openPart env t n).2.opened =
          some { handle := p.nextHandle, doc := d.toXDoc, ctype := e.ctype, ext := e.ext, extType := e.extType } := by
        rw [h2]; simp [Pkg.register, Pkg.delete]
      rw [Pkg.close_open this]
    · intro m hm
      have h4 := Pkg.close_ne (p := (p.openPart env t n).2) (env := env) (Ne.symm hm)
      have h5 := Pkg.openPart_ne (p := p) (env := env) (t := t) (Ne.symm hm)
      exact ⟨h4.1.trans h5.1, h4.2.trans h5.2⟩
  · rw [he] at hnone; cases hnone

example : (exPkg.openPart exEnv (.ok exTemplate) "a.xml").1 = .ok 0 ∧
    aget "a.xml" ((exPkg.openPart exEnv (.ok exTemplate) "a.xml").2.close exEnv "a.xml").archive =
      some { ext := "xml", extType := "text/xml", ctype := some "t/a",
             content := "<?xml version=\"1.0\" encoding=\"utf-8\"?><a   ><b  /></a>".toList } := by decide +kernel

example : OpensAndCloses exEnv exPkg [.openPart (.ok exTemplate) "a.xml", .openPart (.ok exTemplate) "new.xml", .close "a.xml"] :=
  ⟨⟨0, by decide +kernel⟩, ⟨1, by decide +kernel⟩, trivial, trivial⟩

/-! ## C17 -/

/-- **C17.** The saved file has a content type part in which every part with a content type has exactly one `Override`,
giving that type; parts without one have none; every part's extension has a `Default`, and there are no others. -/
theorem C17_types_cover (env : Env) (p : Pkg) (hp : PkgReachable env p) (exts : List (String × String)) (z : Zip)
    (hs : (p.closedForSave env).toZip env exts = .ok z) (ho : HashSetOrder (p.closedForSave env).extPairs exts) :
    ∃ x, aget contentTypesName z = some (renderDoc env.build env.stamp x) ∧
      (∀ n e, aget n (p.closedForSave env).archive = some e →
        (∀ c, e.ctype = some c → (x.rootChildren.filter (fun c => c.tag = "Override" ∧ c.attr? "PartName" = some ("/" ++ n))).map
          (fun c => c.attr? "ContentType") = [some c]) ∧
        (e.ctype = none → x.rootChildren.filter (fun c => c.tag = "Override" ∧ c.attr? "PartName" = some ("/" ++ n)) = []) ∧
        ∃ c ∈ x.rootChildren, c.tag = "Default" ∧ c.attr? "Extension" = some e.ext ∧ c.attr? "ContentType" = some e.extType) ∧
      (∀ c ∈ x.rootChildren, c.tag = "Default" → ∃ n e, (n, e) ∈ (p.closedForSave env).archive ∧
        c.attr? "Extension" = some e.ext ∧ c.attr? "ContentType" = some e.extType) := by
  have hi : (p.closedForSave env).Inv := hp.inv.closeAll env _
  generalize p.closedForSave env = q at *
  obtain ⟨hnt, rfl⟩ := toZip_ok hs
  refine ⟨contentTypesDoc exts q.overrides, ?_, ?_, ?_⟩
  · rw [aget_append, aget_map_content, (aget_eq_none_iff _ _).mpr hnt]
    simp [aget]
  · intro n e he
    have hch : (contentTypesDoc exts q.overrides).rootChildren =
      exts.map (ctNode "Default" "Extension") ++ q.overrides.map (ctNode "Override" "PartName") := rfl
    have hfil : (contentTypesDoc exts q.overrides).rootChildren.filter (fun c => c.tag = "Override" ∧ c.attr? "PartName" = some ("/" ++ n)) =
        (q.overrides.filter (fun o => o.1 = "/" ++ n)).map (ctNode "Override" "PartName") := by
      rw [hch, List.filter_append, List.filter_eq_nil_iff.mpr, List.nil_append, List.filter_map]
      · congr 1
        apply List.filter_congr
        intro o _
        simp [ctNode, Node.tag, Node.attr?, Node.attrs, aget]
      · intro c hc
        obtain ⟨o, _, rfl⟩ := List.mem_map.mp hc
        simp [ctNode, Node.tag]
    rw [hfil, overrides_filter hi, he]
    refine ⟨?_, ?_, ?_⟩
    · intro c hc
      simp [hc, ctNode, Node.attr?, Node.attrs, aget]
    · intro hc
      simp [hc]
    · have : (e.ext, e.extType) ∈ exts := (ho.mem _).mpr (List.mem_map.mpr ⟨_, mem_of_aget he, rfl⟩)
      refine ⟨ctNode "Default" "Extension" (e.ext, e.extType), ?_, rfl, rfl, rfl⟩
      rw [hch]
      exact List.mem_append_left _ (List.mem_map.mpr ⟨_, this, rfl⟩)
  · intro c hc ht
    rcases List.mem_append.mp hc with hc | hc
    · obtain ⟨o, ho', rfl⟩ := List.mem_map.mp hc
      have := (ho.mem _).mp ho'
      obtain ⟨⟨n, e⟩, hm, he⟩ := List.mem_map.mp this
      refine ⟨n, e, hm, ?_⟩
      cases he
      exact ⟨rfl, rfl⟩
    · obtain ⟨o, ho', rfl⟩ := List.mem_map.mp hc
      exact absurd ht (by simp [Node.tag])

/-- **C17 as stated, second half.** Loading a saved package gives every part the content type it had. -/
def TypesSurvive (env : Env) : Prop :=
  ∀ p exts z q n e, PkgReachable env p → HashSetOrder (p.closedForSave env).extPairs exts →
    (p.closedForSave env).toZip env exts = .ok z → Pkg.ofZip env z = .ok q → aget n (p.closedForSave env).archive = some e →
    ∃ e', aget n q.archive = some e' ∧ e'.ctype = e.ctype

/-- **C17 is violated** in every build: the name of a part called `a&b.xml` is written as `/a&amp;b.xml`, read back raw,
and no longer found. -/
theorem C17_violated (env : Env) (hst : env.build.release = true → StampOk env.stamp) : ¬ TypesSurvive env := by
  intro h
  have hp : PkgReachable env (Pkg.empty.step env (.openPart (.ok exTemplate) "a&b.xml")) := .step _ .new
  have harch : ((Pkg.empty.step env (.openPart (.ok exTemplate) "a&b.xml")).closedForSave env).archive =
      [("a&b.xml", ⟨"xml", "application/xml", some "t/r", renderDoc env.build env.stamp exTemplate.doc⟩)] := rfl
  have ho : HashSetOrder ((Pkg.empty.step env (.openPart (.ok exTemplate) "a&b.xml")).closedForSave env).extPairs [("xml", "application/xml")] := by
    constructor
    · simp
    · intro x; simp [Pkg.extPairs, harch]
  have hnt : ahas contentTypesName ((Pkg.empty.step env (.openPart (.ok exTemplate) "a&b.xml")).closedForSave env).archive = false := by
    rw [harch]; rfl
  obtain ⟨z, hz⟩ : ∃ z, ((Pkg.empty.step env (.openPart (.ok exTemplate) "a&b.xml")).closedForSave env).toZip env [("xml", "application/xml")] = .ok z := by
    unfold Pkg.toZip
    rw [if_neg (by rw [hnt]; simp)]
    exact ⟨_, rfl⟩
  obtain ⟨q, hq, _, _, hall⟩ := ofZip_toZip env hst ho hz (by rw [harch]; simp)
  have hget : aget "a&b.xml" ((Pkg.empty.step env (.openPart (.ok exTemplate) "a&b.xml")).closedForSave env).archive =
    some { ext := "xml", extType := "application/xml", ctype := some "t/r", content := renderDoc env.build env.stamp exTemplate.doc } := by
    rw [harch]; rfl
  obtain ⟨e', he', hct⟩ := h _ _ _ _ _ _ hp ho hz hq hget
  obtain ⟨e2, he2, _, hct2, _⟩ := hall _ _ hget
  rw [he'] at he2; cases he2
  have hov : ((Pkg.empty.step env (.openPart (.ok exTemplate) "a&b.xml")).closedForSave env).overrides = [("/a&b.xml", "t/r")] := by
    unfold Pkg.overrides; rw [harch]; rfl
  rw [hct, hov] at hct2
  have hnone : (List.filter (fun o => decide (escStr o.fst = "/" ++ "a&b.xml")) [("/a&b.xml", "t/r")]).getLast? = none := by
    decide +kernel
  rw [hnone] at hct2
  cases hct2

/-- **C17, what holds.** A saved non-empty package always loads; it has the same part names and the same contents; every
part whose name has no special character has the content type it had, provided that type has no special character
either (otherwise the type comes back escaped).
Missing from the full claim: names and types with one of the five special characters. -/
theorem C17_reload_partial (env : Env) (hst : env.build.release = true → StampOk env.stamp) (p : Pkg) (hp : PkgReachable env p)
    (exts : List (String × String)) (z : Zip) (ho : HashSetOrder (p.closedForSave env).extPairs exts)
    (hs : (p.closedForSave env).toZip env exts = .ok z) (hne : ∃ n, holds p n) :
    ∃ q, Pkg.ofZip env z = .ok q ∧ (∀ n, n ∈ akeys q.archive ↔ holds p n) ∧
      ∀ n e, aget n (p.closedForSave env).archive = some e → ∃ e', aget n q.archive = some e' ∧ e'.content = e.content ∧
        (NoSpecials n → (e.ctype = none → e'.ctype = none) ∧ (∀ c, e.ctype = some c → (e'.ctype = some c ↔ NoSpecials c))) := by
  have hi : (p.closedForSave env).Inv := hp.inv.closeAll env _
  have hkeys : ∀ n, n ∈ akeys (p.closedForSave env).archive ↔ holds p n := by
    intro n
    unfold holds
    cases hn : aget n p.opened with
    | none =>
      have h1 := Pkg.closedForSave_closed (env := env) hn
      have h2 := (aget_eq_none_iff _ _).mp hn
      rw [← aget_isSome_iff, h1, aget_isSome_iff]
      exact ⟨Or.inr, fun h => h.resolve_left h2⟩
    | some o =>
      exact ⟨fun _ => Or.inl (mem_akeys_of_aget hn), fun _ => mem_akeys_of_aget (Pkg.closedForSave_open (env := env) hn)⟩
  have hne' : (p.closedForSave env).archive ≠ [] := by
    obtain ⟨n, hn⟩ := hne
    intro he
    have := (hkeys n).mpr hn
    rw [he] at this; cases this
  obtain ⟨q, hq, hk, _, hall⟩ := ofZip_toZip env hst ho hs hne'
  refine ⟨q, hq, fun n => by rw [hk]; exact hkeys n, ?_⟩
  intro n e he
  obtain ⟨e', he', hc, hct, _⟩ := hall n e he
  refine ⟨e', he', hc, ?_⟩
  intro hn
  rw [filter_escStr hn, overrides_filter hi, he] at hct
  constructor
  · intro h; rw [hct]; simp [h]
  · intro c h
    rw [hct]
    simp only [Option.bind_some, h, List.getLast?_singleton, Option.map_some, Option.some.injEq]
    exact escStr_eq_iff c

/-- **C17, the excluded case.** A package without parts is saved with a self-closing content type root and cannot be
loaded. -/
theorem C17_empty_unreadable (env : Env) (hst : env.build.release = true → StampOk env.stamp) :
    ∃ z, (Pkg.empty.closedForSave env).toZip env [] = .ok z ∧ Pkg.ofZip env z = .error (.fail "Parent Element Not Found") := by
  refine ⟨_, rfl, ?_⟩
  have := readXml_selfClosing env.build env.uni hst (wf_contentTypesDoc env.uni [] []) rfl
  unfold Pkg.ofZip
  simp only [Pkg.closedForSave, Pkg.closeAll, Pkg.empty, akeys, List.map_nil, List.foldl_nil, Pkg.overrides, List.filterMap_nil,
    List.nil_append, aget, if_true, this]

example : PkgReachable exEnv (exPkg.step exEnv (.openPart (.ok exTemplate) "new.xml")) := .step _ (.load exZip_nodup exPkg_load)

example : HashSetOrder ((exPkg.step exEnv (.openPart (.ok exTemplate) "new.xml")).closedForSave exEnv).extPairs
    [("png", "image/png"), ("xml", "application/xml"), ("xml", "text/xml")] := by
  have : ((exPkg.step exEnv (.openPart (.ok exTemplate) "new.xml")).closedForSave exEnv).extPairs =
    [("xml", "text/xml"), ("png", "image/png"), ("xml", "text/xml"), ("xml", "application/xml")] := by decide +kernel
  rw [this]
  refine ⟨by decide +kernel, ?_⟩
  intro x
  simp only [List.mem_cons, List.not_mem_nil, or_false]
  constructor
  · rintro (h | h | h) <;> simp [h]
  · rintro (h | h | h | h) <;> simp [h]

/-! ## C18 -/

/-- **C18 as stated.** No saved content type part declares two defaults for one extension. -/
def OneDefault (env : Env) : Prop :=
  ∀ p exts, PkgReachable env p → HashSetOrder (p.closedForSave env).extPairs exts → (exts.map Prod.fst).Nodup

/-- **C18 is violated**: a loaded package whose default for `xml` is not `application/xml`, plus any new part. -/
theorem C18_violated : ¬ OneDefault exEnv := by
  intro h
  have hp : PkgReachable exEnv (exPkg.step exEnv (.openPart (.ok exTemplate) "new.xml")) := .step _ (.load exZip_nodup exPkg_load)
  have := h _ [("png", "image/png"), ("xml", "application/xml"), ("xml", "text/xml")] hp (by
    have : ((exPkg.step exEnv (.openPart (.ok exTemplate) "new.xml")).closedForSave exEnv).extPairs =
      [("xml", "text/xml"), ("png", "image/png"), ("xml", "text/xml"), ("xml", "application/xml")] := by decide +kernel
    rw [this]
    refine ⟨by decide +kernel, ?_⟩
    intro x
    simp only [List.mem_cons, List.not_mem_nil, or_false]
    constructor
    · rintro (h | h | h) <;> simp [h]
    · rintro (h | h | h | h) <;> simp [h])
  revert this
  decide +kernel

/-- **C18, what holds.** Defaults are unique exactly when no two parts disagree on the type of an extension. In particular
for packages all of whose parts were created by the library, or loaded with the library's own types.
Missing from the full claim: packages with a foreign default type. -/
theorem C18_partial (p : Pkg) (exts : List (String × String)) (ho : HashSetOrder p.extPairs exts) :
    (exts.map Prod.fst).Nodup ↔
      ∀ n m e f, (n, e) ∈ p.archive → (m, f) ∈ p.archive → e.ext = f.ext → e.extType = f.extType := by
  constructor
  · intro hn n m e f he hf heq
    have h1 : (e.ext, e.extType) ∈ exts := (ho.mem _).mpr (List.mem_map.mpr ⟨_, he, rfl⟩)
    have h2 : (f.ext, f.extType) ∈ exts := (ho.mem _).mpr (List.mem_map.mpr ⟨_, hf, rfl⟩)
    have h3 := aget_of_mem hn h1
    have h4 := aget_of_mem hn h2
    rw [heq, h4] at h3
    simpa using h3.symm
  · intro h
    have hfun : ∀ x ∈ exts, ∀ y ∈ exts, x.1 = y.1 → x = y := by
      intro x hx y hy hxy
      obtain ⟨⟨n, e⟩, he, rfl⟩ := List.mem_map.mp ((ho.mem x).mp hx)
      obtain ⟨⟨m, f⟩, hf, rfl⟩ := List.mem_map.mp ((ho.mem y).mp hy)
      simp only at hxy
      simp only [Prod.mk.injEq]
      exact ⟨hxy, h n m e f he hf hxy⟩
    have hn := ho.nodup
    clear ho h
    induction exts with
    | nil => simp
    | cons x xs ih =>
      rw [List.nodup_cons] at hn
      simp only [List.map_cons, List.nodup_cons]
      refine ⟨?_, ih (fun a ha b hb => hfun a (by simp [ha]) b (by simp [hb])) hn.2⟩
      intro hm
      obtain ⟨y, hy, he⟩ := List.mem_map.mp hm
      have := hfun y (by simp [hy]) x (by simp) he
      subst this
      exact hn.1 hy

example : HashSetOrder exPkg.extPairs [("png", "image/png"), ("xml", "text/xml")] := by
  refine ⟨by decide +kernel, ?_⟩
  intro x
  simp only [Pkg.extPairs, exPkg, List.map_cons, List.map_nil, List.mem_cons, List.not_mem_nil, or_false]
  constructor
  · rintro (h | h) <;> simp [h]
  · rintro (h | h | h) <;> simp [h]

/-! ## C19 -/

/-- **C19 as stated.** Whenever saving stops, the target holds its old content or the new package. -/
def SaveAtomic (env : Env) (bytes : Zip → List Char) (split : List Char → List (List Char)) : Prop :=
  ∀ p exts d path crash,
    aget path (saveAs env bytes split p exts d path crash).2 = aget path d ∨
    ∃ z, (p.closedForSave env).toZip env exts = .ok z ∧ aget path (saveAs env bytes split p exts d path crash).2 = some (bytes z)

/-- **C19 is violated** whatever the encoding and the pieces: after the old file is removed and before the new one is
created there is no file at all. -/
theorem C19_violated (env : Env) (bytes : Zip → List Char) (split : List Char → List (List Char)) : ¬ SaveAtomic env bytes split := by
  intro h
  have hs : aget "f.xlsx" (saveAs env bytes split Pkg.empty [] [("f.xlsx", ['o'])] "f.xlsx" 1).2 = none := rfl
  rcases h Pkg.empty [] [("f.xlsx", ['o'])] "f.xlsx" 1 with h | ⟨z, _, h⟩
  · rw [hs] at h; cases h
  · rw [hs] at h; cases h

theorem aget_diskStep_ne {path other : String} (h : other ≠ path) (steps : List DiskStep)
    (hs : ∀ s ∈ steps, s = .remove path ∨ s = .create path ∨ ∃ piece, s = .append path piece) (d : Disk) :
    aget other (steps.foldl DiskStep.apply d) = aget other d := by
  induction steps generalizing d with
  | nil => rfl
  | cons s ss ih =>
    rw [List.foldl_cons, ih (fun x hx => hs x (by simp [hx]))]
    rcases hs s (by simp) with rfl | rfl | ⟨piece, rfl⟩
    · exact aget_aerase_ne (Ne.symm h) _
    · exact aget_ainsert_ne (Ne.symm h) _ _
    · exact aget_ainsert_ne (Ne.symm h) _ _

theorem aget_append_steps (path : String) (pieces : List (List Char)) (d : Disk) (c : List Char) (h : aget path d = some c) :
    aget path ((pieces.map (DiskStep.append path)).foldl DiskStep.apply d) = some (c ++ pieces.flatten) := by
  induction pieces generalizing d c with
  | nil => simpa using h
  | cons x xs ih =>
    rw [List.map_cons, List.foldl_cons, ih _ (c ++ x)]
    · simp
    · simp [DiskStep.apply, h]

theorem saveSteps_paths (d : Disk) (path : String) (pieces : List (List Char)) :
    ∀ s ∈ saveSteps d path pieces, s = .remove path ∨ s = .create path ∨ ∃ piece, s = .append path piece := by
  intro s hs
  unfold saveSteps at hs
  rcases List.mem_append.mp hs with hs | hs
  · split at hs
    · exact Or.inl (by simpa using hs)
    · cases hs
  · rcases List.mem_cons.mp hs with hs | hs
    · exact Or.inr (Or.inl hs)
    · obtain ⟨p, _, rfl⟩ := List.mem_map.mp hs
      exact Or.inr (Or.inr ⟨p, rfl⟩)

/-- **C19, what holds.** If the package cannot be produced the disk is untouched. Other files are never touched. At every
point the target is the old file, absent, or a beginning of the new content; a complete run leaves exactly the new
content. Missing from the full claim: crashes between removing the old file and finishing the new one. -/
theorem C19_partial (env : Env) (bytes : Zip → List Char) (split : List Char → List (List Char)) (hsplit : ∀ c, (split c).flatten = c)
    (p : Pkg) (exts : List (String × String)) (d : Disk) (path : String) (crash : Nat) :
    (∀ e, (p.closedForSave env).toZip env exts = .error e →
      saveAs env bytes split p exts d path crash = (.error e, d)) ∧
    (∀ other, other ≠ path → aget other (saveAs env bytes split p exts d path crash).2 = aget other d) ∧
    (∀ z, (p.closedForSave env).toZip env exts = .ok z →
      (aget path (saveAs env bytes split p exts d path crash).2 = aget path d ∨
       aget path (saveAs env bytes split p exts d path crash).2 = none ∨
       ∃ part, aget path (saveAs env bytes split p exts d path crash).2 = some part ∧ part <+: bytes z) ∧
      ((split (bytes z)).length + 2 ≤ crash → (saveAs env bytes split p exts d path crash).1 = .ok () ∧
        aget path (saveAs env bytes split p exts d path crash).2 = some (bytes z))) := by
  refine ⟨?_, ?_, ?_⟩
  · intro e he; unfold saveAs; rw [he]
  · intro other ho
    unfold saveAs
    split
    · rfl
    · exact aget_diskStep_ne ho _ (fun s hs => saveSteps_paths _ _ _ s (List.mem_of_mem_take hs)) _
  · intro z hz
    unfold saveAs
    rw [hz]
    simp only [true_and]
    -- after the creation step
    have key : ∀ (d' : Disk) (k : Nat), aget path (((DiskStep.create path :: (split (bytes z)).map (.append path)).take (k + 1)).foldl DiskStep.apply d') =
        some ((split (bytes z)).take k).flatten := by
      intro d' k
      rw [List.take_succ_cons, List.foldl_cons, ← List.map_take]
      rw [aget_append_steps path _ _ [] (by simp [DiskStep.apply])]
      simp
    have hpre : ∀ k, ((split (bytes z)).take k).flatten <+: bytes z := by
      intro k
      refine ⟨((split (bytes z)).drop k).flatten, ?_⟩
      rw [← List.flatten_append, List.take_append_drop, hsplit]
    unfold saveSteps
    by_cases hx : ahas path d = true
    · rw [if_pos hx]
      constructor
      · match crash with
        | 0 => left; rfl
        | 1 => right; left; simp [DiskStep.apply]
        | k + 2 =>
          right; right
          refine ⟨_, ?_, hpre k⟩
          rw [List.cons_append, List.nil_append, List.take_succ_cons, List.foldl_cons]
          exact key _ k
      · intro hc
        obtain ⟨k, rfl⟩ : ∃ k, crash = k + 2 := ⟨crash - 2, by omega⟩
        rw [List.cons_append, List.nil_append, List.take_succ_cons, List.foldl_cons, key _ k, List.take_of_length_le (by omega), hsplit]
    · rw [if_neg hx, List.nil_append]
      constructor
      · match crash with
        | 0 => left; rfl
        | k + 1 => right; right; exact ⟨_, key _ k, hpre k⟩
      · intro hc
        obtain ⟨k, rfl⟩ : ∃ k, crash = k + 1 := ⟨crash - 1, by omega⟩
        rw [key _ k, List.take_of_length_le (by omega), hsplit]

example : saveAs exEnv (fun _ => "new".toList) (fun c => c.map (fun x => [x])) exPkg [("xml", "text/xml"), ("png", "image/png")]
    [("f", "old".toList), ("g", "x".toList)] "f" 100 = (.ok (), [("g", "x".toList), ("f", "new".toList)]) := by decide +kernel

/-! ## C20 -/

/-- **C20 as stated.** If opening a part fails, the package still holds that part unchanged. -/
def FailedOpenHarmless (env : Env) : Prop :=
  ∀ p t n e err, PkgReachable env p → aget n p.archive = some e → (p.openPart env t n).1 = .error err →
    aget n (p.openPart env t n).2.archive = some e

/-- **C20 is violated**: a part whose XML the reader refuses is dropped from the package by the attempt to open it. -/
theorem C20_violated : ¬ FailedOpenHarmless exEnv := by
  intro h
  have h1 : (exPkg.openPart exEnv (.ok exTemplate) "bad.xml").1 = .error (.fail "Parent Element Not Found") := by decide +kernel
  have := h exPkg (.ok exTemplate) "bad.xml" { ext := "xml", extType := "text/xml", ctype := none, content := "<a/>".toList }
    _ (.load exZip_nodup exPkg_load) (by decide +kernel) h1
  revert this
  decide +kernel

/-- **C20, what holds.** A failing open never touches any other part or any open part. It leaves the whole package
unchanged unless the part is closed and unreadable, in which case exactly that part is lost.
Missing from the full claim: the unreadable part itself. -/
theorem C20_partial (env : Env) (p : Pkg) (t : Res Template) (n : String) (err : Err) (h : (p.openPart env t n).1 = .error err) :
    (p.openPart env t n).2.opened = p.opened ∧
    (∀ m, m ≠ n → aget m (p.openPart env t n).2.archive = aget m p.archive) ∧
    ((∀ e, aget n p.archive = some e → n ∉ akeys p.opened → ∃ d, readXml env.uni e.content = .ok d) → (p.openPart env t n).2 = p) := by
  refine ⟨?_, fun m hm => (Pkg.openPart_ne (Ne.symm hm)).1, ?_⟩
  · unfold Pkg.openPart Pkg.getXmlTree at h ⊢
    by_cases ho : ahas n p.opened = true
    · rw [if_pos ho]
    · rw [if_neg ho] at h ⊢
      cases he : aget n p.archive with
      | none =>
        rw [he] at h
        cases t with
        | error e => rfl
        | ok t => cases h
      | some e =>
        rw [he] at h
        simp only at h ⊢
        cases hr : readXml env.uni e.content with
        | error err => rfl
        | ok d => rw [hr] at h; cases h
  · intro hread
    unfold Pkg.openPart Pkg.getXmlTree at h ⊢
    by_cases ho : ahas n p.opened = true
    · rw [if_pos ho]
    · rw [if_neg ho] at h ⊢
      have hno : n ∉ akeys p.opened := by rw [ahas_iff] at ho; exact ho
      cases he : aget n p.archive with
      | none =>
        rw [he] at h
        cases t with
        | error e => rfl
        | ok t => cases h
      | some e =>
        obtain ⟨d, hr⟩ := hread e he hno
        rw [he] at h
        simp only at h
        rw [hr] at h; cases h

example : ((exPkg.openPart exEnv (.ok exTemplate) "a.xml").2.openPart exEnv (.ok exTemplate) "a.xml").1 =
    .error (.fail "Please close the Existing object before creating new handle") := by decide +kernel

end Oxml
