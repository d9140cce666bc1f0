import Verif.Proofs.OrderRun
import Verif.Props.ExistingData
/-!
# C94: the order of hash maps

The library keeps attributes, namespaces, open parts and extensions in hash maps, which Rust goes through in another order in every run of the
program. Nothing a program is told depends on that order, and the files it saves are the same up to the order of parts, of namespace
declarations and of the entries of the content type part.
-/
namespace Oxml
open Spec

variable {env : Env} {theme : XDoc} {now : String}

/-! ### Opening -/

/-- **C94, opening.** A file opens the same whatever the order of its entries: both fail alike, or both give the same workbook. -/
theorem C94_open (hst : env.build.release = true → StampOk env.stamp) (hth : Sound env.uni theme) (z w : Zip) (hz : (akeys z).Nodup) (hc : CleanZip env z)
    (h : z.Perm w) : SameRes (SameExcel env) (Excel.openFile env theme z) (Excel.openFile env theme w) :=
  openLoaded_same hst hth (ofZip_perm hz hc h) rfl rfl

/-- A new workbook is the same as itself: its documents have names the library accepts and handles name one part each. -/
theorem C94_new (hst : env.build.release = true → StampOk env.stamp) (hth : Sound env.uni theme) (x : Excel) (hx : Excel.new env theme = .ok x) :
    SameExcel env x x := by
  have h0 : SamePkg env Pkg.empty Pkg.empty :=
    ⟨⟨List.nodup_nil, List.nodup_nil, fun _ => .none⟩, ⟨List.nodup_nil, List.nodup_nil, fun _ => .none⟩, rfl, (fun _ _ _ _ h => by cases h), (fun _ _ h => by cases h)⟩
  have h1 := h0.start hst hth
  unfold Excel.new at hx
  generalize Excel.start env theme Pkg.empty = a at hx h1
  cases h1 with
  | error e => cases hx
  | ok h1 =>
    dsimp only at hx
    have h2 := openSheet_same hst h1 none
    generalize Excel.openSheet env _ none = b at hx h2
    obtain ⟨b1, b2⟩ := b
    cases b1 with
    | error e => cases hx
    | ok g =>
      cases hx
      exact ⟨dropSheet_same h2.2.pkg g, rfl⟩

/-! ### Programs -/

/-- **C94, programs.** Two runs of the same program on the same workbook, with hash maps met in any order at any call, get the same answers, crash
alike, and end with the same workbook. -/
theorem C94_runs (hst : env.build.release = true → StampOk env.stamp) (s s' t t' : Session) (ops : List WbOp) (rs rs' : List (Res Unit))
    (h : SameSession env s s') (hr : ProgramRuns env s ops rs t) (hr' : ProgramRuns env s' ops rs' t') : rs = rs' ∧ SameSession env t t' :=
  runs_same hst hr h hr'

/-- The run of the model is one of these runs. -/
theorem C94_model_run (hst : env.build.release = true → StampOk env.stamp) (s t : Session) (ops : List WbOp) (h : SameSession env s s)
    (hr : s.run env ops = .ok t) : ∃ rs, ProgramRuns env s ops rs t := run_runs hst (shuffled_self h) h hr

/-! ### Saving -/

/-- **C94, saving.** Saving the same workbook fails alike or gives the same file; `e` and `f` are any orders of the two sets of extensions. -/
theorem C94_save (x y : Excel) (h : SameExcel env x y) (e f : List (String × String))
    (he : ∀ p, x.saved env now = .ok p → HashSetOrder p.extPairs e) (hf : ∀ p, y.saved env now = .ok p → HashSetOrder p.extPairs f) :
    SameRes (SameZip env) (x.toZip env now e) (y.toZip env now f) := toZip_same h he hf

/-- **C94, texts.** The texts of a part in two such files differ in the order of the namespace declarations of the root element and in nothing else. -/
theorem C94_text (z w : Zip) (h : SameZip env z w) (n : String) (c d : List Char) (hn : n ≠ contentTypesName) (hc : aget n z = some c) (hd : aget n w = some d) :
    ∃ (pre post : List Char) (l k : Attrs), l.Perm k ∧ c = pre ++ joinSpace (l.map nsText) ++ post ∧ d = pre ++ joinSpace (k.map nsText) ++ post := by
  have := h.parts n hn
  rw [hc, hd] at this
  cases this with
  | some h => exact text_shape h

/-- **C94, reopening.** Two such files open alike when the content type part names one type per extension. -/
theorem C94_reopen (hst : env.build.release = true → StampOk env.stamp) (hth : Sound env.uni theme) (z w : Zip) (h : SameZip env z w) (ho : OneType env z) :
    SameRes (SameExcel env) (Excel.openFile env theme z) (Excel.openFile env theme w) :=
  openLoaded_same hst hth (ofZip_same hst h ho) rfl rfl

/-- **C94, from file to file.** A file is opened twice, with its entries in any two orders; the same program runs on both workbooks, with hash maps met
in any order at any call; both are saved. The answers are the same, and both saves fail alike or give the same file. -/
theorem C94_file_to_file (hst : env.build.release = true → StampOk env.stamp) (hth : Sound env.uni theme) (z w : Zip) (hz : (akeys z).Nodup)
    (hc : CleanZip env z) (h : z.Perm w) (x y : Excel) (hx : Excel.openFile env theme z = .ok x) (hy : Excel.openFile env theme w = .ok y)
    (ops : List WbOp) (rs rs' : List (Res Unit)) (s t : Session) (hr : ProgramRuns env ⟨x, []⟩ ops rs s) (hr' : ProgramRuns env ⟨y, []⟩ ops rs' t)
    (e f : List (String × String)) (he : ∀ p, s.x.saved env now = .ok p → HashSetOrder p.extPairs e)
    (hf : ∀ p, t.x.saved env now = .ok p → HashSetOrder p.extPairs f) :
    rs = rs' ∧ s.handles = t.handles ∧ s.x.sheets = t.x.sheets ∧ s.x.view = t.x.view ∧ s.x.styles = t.x.styles ∧
      SameRes (SameZip env) (s.x.toZip env now e) (t.x.toZip env now f) := by
  have h1 := C94_open hst hth z w hz hc h
  rw [hx, hy] at h1
  cases h1 with
  | ok h1 =>
    obtain ⟨h2, h3⟩ := C94_runs hst ⟨x, []⟩ ⟨y, []⟩ _ _ ops rs rs' ⟨h1, rfl⟩ hr hr'
    obtain ⟨q, hq, _⟩ := h3.x.shape
    exact ⟨h2, h3.handles, by rw [hq], by rw [hq], by rw [hq], C94_save _ _ h3.x e f he hf⟩

/-! ### Cases -/

/-- A file whose namespaces can be written, computed. -/
def cleanZipB (env : Env) (z : Zip) : Bool :=
  z.all (fun kv => match readXml env.uni kv.2 with
    | .error _ => true
    | .ok d => d.ns.all (fun u => decide ('"' ∉ u.2.toList ∧ (u.1 ≠ defaultNsKey → ¬Reserved u.1 u.2))))

theorem cleanZipB_sound {z : Zip} (h : cleanZipB env z = true) : CleanZip env z := by
  intro k c d hk hd kv hkv
  have h1 := List.all_eq_true.mp h (k, c) (mem_of_aget hk)
  dsimp only at h1
  rw [hd] at h1
  exact of_decide_eq_true (List.all_eq_true.mp h1 kv hkv)

theorem exTheme_sound : Sound exEnv.uni exTheme := by
  obtain ⟨c, d, h1, h2⟩ := exTheme_good.1
  have := sound_read (u := exEnv.uni) h1
  rw [h2] at this
  refine this (fun kv hkv => ?_)
  rw [show d.ns = [] from congrArg XDoc.ns h2] at hkv
  cases hkv

/-- A session whose closed parts are met backwards. -/
def Session.backwards (s : Session) : Session := { s with x := { s.x with pkg := { s.x.pkg with archive := s.x.pkg.archive.reverse } } }

theorem shuffled_backwards {s : Session} (h : SameSession env s s) : Shuffled s s.backwards :=
  ⟨(shuffled_self h).opened, (List.reverse_perm _).symm, rfl, rfl⟩

/-- Opens a file and runs a program forwards and backwards, computed. -/
def twoRunsB (env : Env) (theme : XDoc) (z : Zip) (ops : List WbOp) : Bool :=
  match Excel.openFile env theme z with
  | .error _ => false
  | .ok x => match Session.run env ⟨x, []⟩ ops, Session.run env (Session.backwards ⟨x, []⟩) ops with
    | .ok s, .ok t => decide (s.x.pkg.archive ≠ t.x.pkg.archive)
    | _, _ => false

theorem twoRunsB_sound {z : Zip} {ops : List WbOp} (h : twoRunsB env theme z ops = true) :
    ∃ x s t, Excel.openFile env theme z = .ok x ∧ Session.run env ⟨x, []⟩ ops = .ok s ∧ Session.run env (Session.backwards ⟨x, []⟩) ops = .ok t ∧ s ≠ t := by
  unfold twoRunsB at h
  split at h
  · cases h
  · next x hx =>
    split at h
    · next s t hs ht => exact ⟨x, s, t, hx, hs, ht, fun e => of_decide_eq_true h (by rw [e])⟩
    · cases h

/-- The example workbook, opened from the file and from the file backwards; two runs of a program, one meeting the closed parts backwards, end in
different states of the model with the same answers. -/
example : ∃ x y s t rs, exFull ≠ exFull.reverse ∧ CleanZip exEnv exFull ∧ Excel.openFile exEnv exTheme exFull = .ok x ∧ Excel.openFile exEnv exTheme exFull.reverse = .ok y ∧
    ProgramRuns exEnv ⟨x, []⟩ [.get "A", .add (some "New"), .drop 0] rs s ∧ ProgramRuns exEnv ⟨x, []⟩ [.get "A", .add (some "New"), .drop 0] rs t ∧ s ≠ t := by
  have hc : CleanZip exEnv exFull := cleanZipB_sound (by decide +kernel)
  have hst : exEnv.build.release = true → StampOk exEnv.stamp := fun h => by cases h
  obtain ⟨x, s, t, hx, hs, ht, hne⟩ := twoRunsB_sound (env := exEnv) (theme := exTheme) (z := exFull) (ops := [.get "A", .add (some "New"), .drop 0]) (by decide +kernel)
  have h1 := C94_open hst exTheme_sound exFull exFull.reverse (by decide +kernel) hc (List.reverse_perm _).symm
  have h0 := C94_open hst exTheme_sound exFull exFull (by decide +kernel) hc (.refl _)
  rw [hx] at h1 h0
  cases h0 with
  | ok h0 =>
    have hss : SameSession exEnv ⟨x, []⟩ ⟨x, []⟩ := ⟨h0, rfl⟩
    generalize hy : Excel.openFile exEnv exTheme exFull.reverse = b at h1
    cases h1 with
    | @ok _ y h1 =>
      obtain ⟨rs, hr⟩ := C94_model_run hst ⟨x, []⟩ s _ hss hs
      have hb := shuffled_backwards hss
      obtain ⟨rs', hr'⟩ := run_runs hst hb ((hss.shuffled hb).symm.shuffled hb) ht
      obtain ⟨rfl, _⟩ := C94_runs hst _ _ _ _ _ _ _ hss hr hr'
      exact ⟨x, y, s, t, rs, by decide +kernel, hc, hx, rfl, hr, hr', hne⟩

/-! ### Setting attributes -/

theorem aget_addNs (ns : Attrs) (key value k : String) :
    aget k (addNs ns key value) = if k = nsTarget key ∧ ((nsAlias key).isSome → aget k ns = none) then some value else aget k ns := by
  unfold addNs nsTarget
  cases hk : nsAlias key with
  | none =>
    dsimp only
    rw [aget_ainsert]
    by_cases h : k = defaultNsKey
    · subst h; simp
    · simp [h, Ne.symm h]
  | some al =>
    dsimp only
    unfold ahas
    by_cases h : k = al
    · subst h
      cases ha : aget k ns with
      | none => simp
      | some v => simp [ha]
    · cases ha : aget al ns with
      | none => simp [aget_ainsert, h, Ne.symm h]
      | some v => simp [h]

theorem nodup_addNs {ns : Attrs} (h : (akeys ns).Nodup) (key value : String) : (akeys (addNs ns key value)).Nodup := by
  unfold addNs
  split
  · split
    · exact h
    · exact nodup_ainsert _ _ h
  · exact nodup_ainsert _ _ h

theorem addNs_fold_get {l k : Attrs} (h : l.Perm k) : ∀ {m n : Attrs}, (l.map (fun kv => nsTarget kv.1)).Nodup → (∀ j, aget j m = aget j n) →
    ∀ j, aget j (l.foldl (fun m kv => addNs m kv.1 kv.2) m) = aget j (k.foldl (fun m kv => addNs m kv.1 kv.2) n) := by
  induction h with
  | nil => intro m n _ hmn; exact hmn
  | cons x _ ih =>
    intro m n hn hmn
    simp only [List.map_cons, List.nodup_cons] at hn
    simp only [List.foldl_cons]
    refine ih hn.2 (fun j => ?_)
    rw [aget_addNs, aget_addNs, hmn]
  | swap x y l =>
    intro m n hn hmn
    simp only [List.map_cons, List.nodup_cons, List.mem_cons, not_or] at hn
    simp only [List.foldl_cons]
    have hxy : nsTarget x.1 ≠ nsTarget y.1 := fun h => hn.1.1 h.symm
    have key : ∀ j, aget j (addNs (addNs m y.1 y.2) x.1 x.2) = aget j (addNs (addNs n x.1 x.2) y.1 y.2) := by
      intro j
      simp only [aget_addNs, hmn]
      by_cases h1 : j = nsTarget x.1
      · have h2 : j ≠ nsTarget y.1 := fun h => hxy (h1.symm.trans h)
        simp [h1, hxy]
      · simp [h1]
    generalize addNs (addNs m y.1 y.2) x.1 x.2 = a at key
    generalize addNs (addNs n x.1 x.2) y.1 y.2 = b at key
    clear hn hxy
    induction l generalizing a b with
    | nil => exact key
    | cons z l ih => simp only [List.foldl_cons]; exact ih _ _ (fun j => by rw [aget_addNs, aget_addNs, key])
  | trans h1 _ ih1 ih2 =>
    intro m n hn hmn j
    rw [ih1 hn hmn j, ih2 ((h1.map _).nodup_iff.mp hn) (fun _ => rfl) j]

theorem nodup_addNs_fold (l : Attrs) : ∀ {m : Attrs}, (akeys m).Nodup → (akeys (l.foldl (fun m kv => addNs m kv.1 kv.2) m)).Nodup := by
  induction l with
  | nil => exact fun h => h
  | cons x l ih => intro m h; exact ih (nodup_addNs h _ _)

/-- **C94, attributes.** `set_attribute_mut` with the same attributes in another order fails alike, or gives the element the same attributes and the
document the same namespaces, when no two of the attributes declare the same namespace. -/
theorem C94_set_attribute (u : Unicode) (d : XmlDoc) (id : Nat) (a b : Attrs) (hd : (akeys d.ns).Nodup) (h : a.Perm b) (hc : NsClashFree a) :
    SameRes (fun x y => ∃ e r s, d.get id = some e ∧ r.Perm s ∧ x.ns.Perm y.ns ∧
      x = { d.put id { e with attrs := some r } with ns := x.ns } ∧ y = { d.put id { e with attrs := some s } with ns := y.ns })
      (d.setAttribute u id a) (d.setAttribute u id b) := by
  have hp := h.filter (fun kv => isNsKey kv.1)
  unfold XmlDoc.setAttribute
  cases he : d.get id with
  | none => exact .error _
  | some e =>
    dsimp only
    have hall : (akeys a).all (isValidXmlName u) = (akeys b).all (isValidXmlName u) := by
      rw [Bool.eq_iff_iff, List.all_eq_true, List.all_eq_true]
      exact ⟨fun h' x hx => h' x ((h.map Prod.fst).mem_iff.mpr hx), fun h' x hx => h' x ((h.map Prod.fst).mem_iff.mp hx)⟩
    rw [hall]
    split
    · exact .error _
    · exact .ok ⟨e, _, _, rfl, h.filter _, perm_of_get (nodup_addNs_fold _ hd) (nodup_addNs_fold _ hd) (addNs_fold_get hp hc (fun _ => rfl)), rfl, rfl⟩

example : ∃ a b : Attrs, a ≠ b ∧ a.Perm b ∧ NsClashFree a ∧ (a.filter (fun kv => isNsKey kv.1)).length = 2 :=
  ⟨[("xmlns", "u"), ("xmlns:r", "v"), ("count", "1")], [("count", "1"), ("xmlns:r", "v"), ("xmlns", "u")], by decide +kernel, by decide +kernel, by unfold NsClashFree; decide +kernel, by decide +kernel⟩

/-! ### Where the order matters -/

/-- **C94 as stated, attributes.** The namespaces after `set_attribute_mut` do not depend on the order of the map given. -/
def SetAttributeSame (u : Unicode) : Prop :=
  ∀ (d : XmlDoc) id (a b : Attrs) (x y : XmlDoc) k, (akeys a).Nodup → a.Perm b → d.setAttribute u id a = .ok x → d.setAttribute u id b = .ok y → aget k x.ns = aget k y.ns

/-- **C94 is violated** by `set_attribute_mut`, in every build: every attribute whose name starts with `xmlns` is taken for a namespace declaration, so
`xmlns` and `xmlnsx` both set the default namespace, and the one met last stays. -/
theorem C94_violated_attributes (u : Unicode) : ¬ SetAttributeSame u := by
  intro h
  have hv1 : isValidXmlName u "xmlns" = true := validName_ascii u (by decide +kernel)
  have hv2 : isValidXmlName u "xmlnsx" = true := validName_ascii u (by decide +kernel)
  have := h { runningId := 1, ns := [], elems := [(0, ⟨0, 0, "r", none, none, []⟩)] } 0 [("xmlns", "a"), ("xmlnsx", "b")] [("xmlnsx", "b"), ("xmlns", "a")]
    { runningId := 1, ns := [(defaultNsKey, "b")], elems := [(0, ⟨0, 0, "r", some [], none, []⟩)] }
    { runningId := 1, ns := [(defaultNsKey, "a")], elems := [(0, ⟨0, 0, "r", some [], none, []⟩)] } defaultNsKey
    (by decide +kernel) (by decide +kernel) (by simp [XmlDoc.setAttribute, hv1, hv2, akeys]; decide +kernel) (by simp [XmlDoc.setAttribute, hv1, hv2, akeys]; decide +kernel)
  revert this
  decide +kernel

/-- **C94 as stated, reopening.** Two saved files of one package are the same package when opened. -/
def ReopenSame (env : Env) : Prop :=
  ∀ p e f z w q r, PkgReachable env p → HashSetOrder (p.closedForSave env).extPairs e → HashSetOrder (p.closedForSave env).extPairs f →
    (p.closedForSave env).toZip env e = .ok z → (p.closedForSave env).toZip env f = .ok w → Pkg.ofZip env z = .ok q → Pkg.ofZip env w = .ok r →
    ∀ n, (aget n q.archive).map Entry.extType = (aget n r.archive).map Entry.extType

/-- The file of the example package after adding a part, its extensions met in the given order; opened again. -/
def reopened (e : List (String × String)) : Res Pkg :=
  match ((exPkg.step exEnv (.openPart (.ok exTemplate) "new.xml")).closedForSave exEnv).toZip exEnv e with
  | .error e => .error e
  | .ok z => Pkg.ofZip exEnv z

theorem reopened_sound {e : List (String × String)} {v : String} (h : (reopened e).toOption.map (fun q => (aget "a.xml" q.archive).map Entry.extType) = some (some v)) :
    ∃ z q, ((exPkg.step exEnv (.openPart (.ok exTemplate) "new.xml")).closedForSave exEnv).toZip exEnv e = .ok z ∧ Pkg.ofZip exEnv z = .ok q ∧
      (aget "a.xml" q.archive).map Entry.extType = some v := by
  unfold reopened at h
  split at h
  · cases h
  · next z hz =>
    cases hq : Pkg.ofZip exEnv z with
    | error e => rw [hq] at h; cases h
    | ok q => rw [hq] at h; exact ⟨z, q, hz, hq, Option.some.inj h⟩

/-- **C94 is violated** when two parts disagree on the type of an extension (see C18): the order of the set of extensions decides which type
all parts with that extension have after the file is opened again. -/
theorem C94_violated : ¬ ReopenSame exEnv := by
  intro h
  have hp : PkgReachable exEnv (exPkg.step exEnv (.openPart (.ok exTemplate) "new.xml")) := .step _ (.load exZip_nodup exPkg_load)
  have hpairs : ((exPkg.step exEnv (.openPart (.ok exTemplate) "new.xml")).closedForSave exEnv).extPairs =
      [("xml", "text/xml"), ("png", "image/png"), ("xml", "text/xml"), ("xml", "application/xml")] := by decide +kernel
  obtain ⟨z, q, h1, h2, h3⟩ := reopened_sound (e := [("xml", "application/xml"), ("xml", "text/xml"), ("png", "image/png")]) (v := "application/xml") (by decide +kernel)
  obtain ⟨w, r, k1, k2, k3⟩ := reopened_sound (e := [("xml", "text/xml"), ("xml", "application/xml"), ("png", "image/png")]) (v := "text/xml") (by decide +kernel)
  have := h _ _ _ z w q r hp (by
    rw [hpairs]
    refine ⟨by decide +kernel, fun x => ?_⟩
    simp only [List.mem_cons, List.not_mem_nil, or_false]
    constructor
    · rintro (h | h | h) <;> simp [h]
    · rintro (h | h | h | h) <;> simp [h]) (by
    rw [hpairs]
    refine ⟨by decide +kernel, fun x => ?_⟩
    simp only [List.mem_cons, List.not_mem_nil, or_false]
    constructor
    · rintro (h | h | h) <;> simp [h]
    · rintro (h | h | h | h) <;> simp [h]) h1 k1 h2 k2 "a.xml"
  rw [h3, k3] at this
  revert this
  decide +kernel

end Oxml
