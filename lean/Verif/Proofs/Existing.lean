import Verif.Spec.Existing
import Verif.Proofs.OfficeDoc
/-!
# What opening an existing workbook does to each part
-/
namespace Oxml
open Spec

/-! ## Opening -/

/-- What is open and closed after opening some parts of a package nothing was open in. -/
structure OpensPart (env : Env) (p q : Pkg) (f : String → Option OpenDoc) : Prop where
  inv : q.Inv
  opened : ∀ m, aget m q.opened = f m
  archive : ∀ m, aget m q.archive = if (f m).isSome then none else aget m p.archive

theorem OpensPart.start {env : Env} {p : Pkg} (hp : p.Inv) (ho : p.opened = []) : OpensPart env p p (fun _ => none) :=
  ⟨hp, fun m => by rw [ho]; rfl, fun _ => rfl⟩

theorem OpensPart.source {env : Env} {p q : Pkg} {f : String → Option OpenDoc} (h : OpensPart env p q f) {t : Template} {n : String} {o : OpenDoc}
    (hn : f n = none) (hs : Source env q t n o) : Source env p t n o := by
  have e : aget n q.archive = aget n p.archive := by rw [h.archive, hn]; rfl
  rcases hs with ⟨h1, h2⟩ | ⟨en, d, h1, h2⟩
  · exact Or.inl ⟨e ▸ h1, h2⟩
  · exact Or.inr ⟨en, d, e ▸ h1, h2⟩

theorem OpensPart.openPart {env : Env} {p q q1 : Pkg} {f : String → Option OpenDoc} (h : OpensPart env p q f) {t : Template} {n : String} {hd : Nat}
    (e : q.openPart env (.ok t) n = (.ok hd, q1)) :
    f n = none ∧ ∃ o, o.handle = hd ∧ Source env p t n o ∧ OpensPart env p q1 (fun m => if m = n then some o else f m) := by
  obtain ⟨i, h1, h2, ⟨o, h3, h4, h5⟩, h6⟩ := openPart_full h.inv e
  have hn : f n = none := by rw [← h.opened]; exact h1
  refine ⟨hn, o, h4, h.source hn h5, i, ?_, ?_⟩
  · intro m
    by_cases hm : m = n
    · subst hm; rw [if_pos rfl]; exact h3
    · rw [if_neg hm, (h6 m hm).2, h.opened]
  · intro m
    by_cases hm : m = n
    · subst hm; rw [if_pos rfl]; exact h2
    · simp only [if_neg hm]; rw [(h6 m hm).1, h.archive]

theorem OpensPart.update {env : Env} {p q : Pkg} {f : String → Option OpenDoc} (h : OpensPart env p q f) {n : String} {o : OpenDoc}
    (ho : f n = some o) (d : XDoc) : OpensPart env p (q.update o.handle (fun _ => d)) (fun m => if m = n then some { o with doc := d } else f m) := by
  have ho' : aget n q.opened = some o := by rw [h.opened]; exact ho
  refine ⟨h.inv.update _ _, ?_, ?_⟩
  · intro m
    rw [h.inv.aget_update ho', h.opened]
  · intro m
    rw [Pkg.update_archive, h.archive]
    by_cases hm : m = n
    · subst hm; simp [ho]
    · simp [hm]

theorem OpensPart.rels {env : Env} {p q q1 : Pkg} {f : String → Option OpenDoc} (h : OpensPart env p q f) {n : String} {r : RelPart}
    (e : RelPart.new env q n = (.ok r, q1)) :
    f n = none ∧ r.path = n ∧ ∃ o, o.handle = r.handle ∧ Source env p relsTemplate n o ∧ (loadRels o.doc).1 = .ok r.rels ∧
      OpensPart env p q1 (fun m => if m = n then some { o with doc := (loadRels o.doc).2 } else f m) := by
  obtain ⟨i, h1, h2, h3, ⟨o, h4, h5, h6, h7⟩, h8⟩ := relNew_full h.inv e
  have hn : f n = none := by rw [← h.opened]; exact h1
  refine ⟨hn, h3, o, h6, h.source hn h4, h5, i, ?_, ?_⟩
  · intro m
    by_cases hm : m = n
    · subst hm; rw [if_pos rfl]; exact h7
    · rw [if_neg hm, (h8 m hm).2, h.opened]
  · intro m
    by_cases hm : m = n
    · subst hm; rw [if_pos rfl]; exact h2
    · simp only [if_neg hm]; rw [(h8 m hm).1, h.archive]

theorem OpensPart.typed {env : Env} {p q q1 : Pkg} {f : String → Option OpenDoc} (h : OpensPart env p q f) {c : Content} {dir : Option String}
    {t : Template} {r r1 : RelPart} {n : String} {hd : Nat} (e : openTyped env c dir t q r = .ok (n, hd, q1, r1)) :
    f n = none ∧ targetByType r.path r.rels c.type c dir none = (.ok n, r1.rels) ∧ r1.path = r.path ∧ r1.handle = r.handle ∧
    ∃ o, o.handle = hd ∧ Source env p t n o ∧ OpensPart env p q1 (fun m => if m = n then some o else f m) := by
  unfold openTyped at e
  split at e
  · cases e
  · next pa rels hr =>
    split at e
    · cases e
    · next h' p' ho =>
      cases e
      obtain ⟨h1, h2⟩ := h.openPart ho
      exact ⟨h1, hr, rfl, rfl, h2⟩

theorem OpensPart.load {env : Env} {p q q1 : Pkg} {f : String → Option OpenDoc} (h : OpensPart env p q f) {α : Type} {load : XDoc → Res α × XDoc} {a : α}
    {n : String} {o : OpenDoc} {hd : Nat} (hh : o.handle = hd) (ho : f n = some o) (e : loadPart q hd load = .ok (a, q1)) :
    (load o.doc).1 = .ok a ∧ OpensPart env p q1 (fun m => if m = n then some { o with doc := (load o.doc).2 } else f m) := by
  have ho' : aget n q.opened = some o := by rw [h.opened]; exact ho
  subst hh
  unfold loadPart at e
  rw [h.inv.docOf ho'] at e
  simp only at e
  split at e
  · cases e
  · next a' d' hl =>
    cases e
    rw [hl]
    exact ⟨rfl, h.update ho d'⟩

/-- An opened workbook: where its parts came from and what is open. -/
structure BookOpen (env : Env) (theme : XDoc) (p : Pkg) (x : Excel) (oroot ocore obook orel otheme ostr ocalc osty : OpenDoc)
    (root1 rels1 : List Rel) : Prop where
  inv : x.pkg.Inv
  rootPath : x.rootRels.path = "_rels/.rels"
  relsPath : ∃ dir, dirOf x.book.path = some dir ∧ x.rels.path = dir ++ "/_rels/workbook.xml.rels"
  nodup : (ownParts x).Nodup
  rootSource : Source env p relsTemplate "_rels/.rels" oroot
  rootLoad : (loadRels oroot.doc).1 = .ok root1
  rootHandle : oroot.handle = x.rootRels.handle
  rootOpen : aget "_rels/.rels" x.pkg.opened = some { oroot with doc := (loadRels oroot.doc).2 }
  coreSource : Source env p coreTemplate x.core.path ocore
  coreHandle : ocore.handle = x.core.handle
  coreOpen : aget x.core.path x.pkg.opened = some ocore
  bookSource : Source env p workbookTemplate x.book.path obook
  bookHandle : obook.handle = x.book.handle
  bookOpen : aget x.book.path x.pkg.opened = some { obook with doc := (loadBook obook.doc).2 }
  bookLoad : (loadBook obook.doc).1 = .ok (x.sheets, x.view)
  rootTargets : ∃ root2, targetByType "_rels/.rels" root1 coreContent.type coreContent none none = (.ok x.core.path, root2) ∧
    targetByType "_rels/.rels" root2 workbookContent.type workbookContent none none = (.ok x.book.path, x.rootRels.rels)
  relSource : Source env p relsTemplate x.rels.path orel
  relLoad : (loadRels orel.doc).1 = .ok rels1
  relHandle : orel.handle = x.rels.handle
  relOpen : aget x.rels.path x.pkg.opened = some { orel with doc := (loadRels orel.doc).2 }
  targets : ∃ rels2 rels3 rels4,
    targetByType x.rels.path rels1 themeContent.type themeContent (some "xl/theme") none = (.ok x.theme.path, rels2) ∧
    targetByType x.rels.path rels2 sharedStringContent.type sharedStringContent none none = (.ok x.strings.path, rels3) ∧
    targetByType x.rels.path rels3 calcChainContent.type calcChainContent none none = (.ok x.chain.path, rels4) ∧
    targetByType x.rels.path rels4 styleContent.type styleContent none none = (.ok x.styles.path, x.rels.rels)
  themeSource : Source env p (themeTemplate theme) x.theme.path otheme
  themeHandle : otheme.handle = x.theme.handle
  themeOpen : aget x.theme.path x.pkg.opened = some otheme
  strSource : Source env p stringsTemplate x.strings.path ostr
  strHandle : ostr.handle = x.strings.handle
  strLoad : (loadStrings ostr.doc).1 = x.strings.data
  strOpen : aget x.strings.path x.pkg.opened = some { ostr with doc := (loadStrings ostr.doc).2 }
  calcSource : Source env p calcTemplate x.chain.path ocalc
  calcHandle : ocalc.handle = x.chain.handle
  calcLoad : (loadCalc ocalc.doc).1 = .ok x.chain.data
  calcOpen : aget x.chain.path x.pkg.opened = some { ocalc with doc := (loadCalc ocalc.doc).2 }
  styleSource : Source env p styleTemplate x.styles.path osty
  styleHandle : osty.handle = x.styles.handle
  styleLoad : (Styles.load osty.doc).1 = .ok x.styles.data
  styleOpen : aget x.styles.path x.pkg.opened = some { osty with doc := (Styles.load osty.doc).2 }
  openOnly : ∀ m, m ∉ ownParts x → aget m x.pkg.opened = none
  others : ∀ m, m ∉ ownParts x → aget m x.pkg.archive = aget m p.archive

theorem ite_some_none {α : Type} {c : Prop} [Decidable c] {a : α} {b : Option α} : (if c then some a else b) = none ↔ ¬ c ∧ b = none := by
  by_cases h : c <;> simp [h]

theorem start_book {env : Env} {theme : XDoc} {p : Pkg} {x : Excel} (hp : p.Inv) (ho : p.opened = []) (h : Excel.start env theme p = .ok x) :
    ∃ oroot ocore obook orel otheme ostr ocalc osty root1 rels1,
      BookOpen env theme p x oroot ocore obook orel otheme ostr ocalc osty root1 rels1 := by
  unfold Excel.start at h
  have o0 := OpensPart.start (env := env) hp ho
  obtain ⟨⟨rr, p1⟩, e1, h⟩ := bind_ok h
  split at e1
  · cases e1
  next r' p' hrr =>
  cases e1
  obtain ⟨n1, rp1, oroot, c1, s1, l1, o1⟩ := o0.rels hrr
  obtain ⟨⟨corePath, coreH, p2, rr2⟩, e2, h⟩ := bind_ok h
  obtain ⟨n2, t2, rp2, rh2, ocore, c2, s2, o2⟩ := o1.typed e2
  obtain ⟨⟨bookPath, bookH, p3, rr3⟩, e3, h⟩ := bind_ok h
  obtain ⟨n3, t3, rp3, rh3, obook, c3, s3, o3⟩ := o2.typed e3
  obtain ⟨dir, e4, h⟩ := bind_ok h
  obtain ⟨⟨re, p4⟩, e5, h⟩ := bind_ok h
  split at e5
  · cases e5
  next r'' p'' hre =>
  cases e5
  obtain ⟨n4, rp4, orel, c4, s4, l4, o4⟩ := o3.rels hre
  obtain ⟨⟨themePath, themeH, p5, re5⟩, e6, h⟩ := bind_ok h
  obtain ⟨n5, t5, rp5, rh5, otheme, c5, s5, o5⟩ := o4.typed e6
  obtain ⟨⟨strPath, strH, p6, re6⟩, e7, h⟩ := bind_ok h
  obtain ⟨n6, t6, rp6, rh6, ostr, c6, s6, o6⟩ := o5.typed e7
  obtain ⟨⟨table, p7⟩, e8, h⟩ := bind_ok h
  obtain ⟨l7, o7⟩ := o6.load (n := strPath) c6 (if_pos rfl) e8
  obtain ⟨⟨calcPath, calcH, p8, re8⟩, e9, h⟩ := bind_ok h
  obtain ⟨n8, t8, rp8, rh8, ocalc, c8, s8, o8⟩ := o7.typed e9
  obtain ⟨⟨chain, p9⟩, e10, h⟩ := bind_ok h
  obtain ⟨l9, o9⟩ := o8.load (n := calcPath) c8 (if_pos rfl) e10
  obtain ⟨⟨stylePath, styleH, p10, re10⟩, e11, h⟩ := bind_ok h
  obtain ⟨n10, t10, rp10, rh10, osty, c10, s10, o10⟩ := o9.typed e11
  obtain ⟨⟨styles, p11⟩, e12, h⟩ := bind_ok h
  obtain ⟨l11, o11⟩ := o10.load (n := stylePath) c10 (if_pos rfl) e12
  obtain ⟨⟨⟨sheets, view⟩, p12⟩, e13, h⟩ := bind_ok h
  -- the names are distinct
  simp only [ite_some_none, and_true] at n1 n2 n3 n4 n5 n6 n8 n10
  obtain ⟨bo_co, bo_ro⟩ := n3
  obtain ⟨re_bo, re_co, re_ro⟩ := n4
  obtain ⟨th_re, th_bo, th_co, th_ro⟩ := n5
  obtain ⟨st_th, st_re, st_bo, st_co, st_ro⟩ := n6
  obtain ⟨ca_st, _, ca_th, ca_re, ca_bo, ca_co, ca_ro⟩ := n8
  obtain ⟨sy_ca, _, sy_st, _, sy_th, sy_re, sy_bo, sy_co, sy_ro⟩ := n10
  obtain ⟨l12, o12⟩ := o11.load (n := bookPath) (o := obook) c3 (by simp only [if_neg bo_ro, if_neg bo_co, if_neg (Ne.symm re_bo), if_neg (Ne.symm th_bo), if_neg (Ne.symm st_bo), if_neg (Ne.symm ca_bo), if_neg (Ne.symm sy_bo), if_true]) e13
  have hdir : dirOf bookPath = some dir := by
    split at e4
    · cases e4
    · next d hd => rw [hd]; cases e4; rfl
  cases h
  refine ⟨oroot, ocore, obook, orel, otheme, ostr, ocalc, osty, rr.rels, re.rels, ?_⟩
  have pr : rr3.path = "_rels/.rels" := rp3.trans (rp2.trans rp1)
  have pe : re10.path = dir ++ "/_rels/workbook.xml.rels" := rp10.trans (rp8.trans (rp6.trans (rp5.trans rp4)))
  have own : ∀ m, m ∈ [rr3.path, corePath, bookPath, re10.path, themePath, strPath, calcPath, stylePath] ↔
      (m = "_rels/.rels" ∨ m = corePath ∨ m = bookPath ∨ m = dir ++ "/_rels/workbook.xml.rels" ∨ m = themePath ∨ m = strPath ∨ m = calcPath ∨ m = stylePath) := by
    intro m
    simp only [pr, pe, List.mem_cons, List.not_mem_nil, or_false]
  have none_of : ∀ m, m ∉ [rr3.path, corePath, bookPath, re10.path, themePath, strPath, calcPath, stylePath] → aget m p12.opened = none := by
    intro m hm
    rw [own] at hm
    simp only [not_or] at hm
    obtain ⟨m1, m2, m3, m4, m5, m6, m7, m8⟩ := hm
    exact (o12.opened m).trans (by simp only [if_neg m1, if_neg m2, if_neg m3, if_neg m4, if_neg m5, if_neg m6, if_neg m7, if_neg m8])
  constructor
  case inv => exact o12.inv
  case rootPath => exact pr
  case relsPath => exact ⟨dir, hdir, pe⟩
  case nodup =>
    simp only [ownParts, pr, pe, List.nodup_cons, List.mem_cons, List.not_mem_nil, or_false, not_or, List.nodup_nil, and_true, not_false_eq_true]
    exact ⟨⟨Ne.symm n2, Ne.symm bo_ro, Ne.symm re_ro, Ne.symm th_ro, Ne.symm st_ro, Ne.symm ca_ro, Ne.symm sy_ro⟩,
      ⟨Ne.symm bo_co, Ne.symm re_co, Ne.symm th_co, Ne.symm st_co, Ne.symm ca_co, Ne.symm sy_co⟩,
      ⟨Ne.symm re_bo, Ne.symm th_bo, Ne.symm st_bo, Ne.symm ca_bo, Ne.symm sy_bo⟩,
      ⟨Ne.symm th_re, Ne.symm st_re, Ne.symm ca_re, Ne.symm sy_re⟩,
      ⟨Ne.symm st_th, Ne.symm ca_th, Ne.symm sy_th⟩, ⟨Ne.symm ca_st, Ne.symm sy_st⟩, Ne.symm sy_ca⟩
  case rootSource => exact s1
  case rootLoad => exact l1
  case rootHandle => rw [c1]; exact (rh3.trans rh2).symm
  case rootOpen => exact (o12.opened _).trans (by simp only [if_neg (Ne.symm n2), if_neg (Ne.symm bo_ro), if_neg (Ne.symm re_ro), if_neg (Ne.symm th_ro), if_neg (Ne.symm st_ro), if_neg (Ne.symm ca_ro), if_neg (Ne.symm sy_ro), if_true])
  case coreSource => exact s2
  case coreHandle => exact c2
  case coreOpen => exact (o12.opened _).trans (by simp only [if_neg n2, if_neg (Ne.symm bo_co), if_neg (Ne.symm re_co), if_neg (Ne.symm th_co), if_neg (Ne.symm st_co), if_neg (Ne.symm ca_co), if_neg (Ne.symm sy_co), if_true])
  case bookSource => exact s3
  case bookHandle => exact c3
  case bookOpen => exact (o12.opened _).trans (if_pos rfl)
  case bookLoad => exact l12
  case rootTargets => exact ⟨rr2.rels, by rw [← rp1]; exact t2, by rw [← rp1, ← rp2]; exact t3⟩
  case relSource => rw [pe]; exact s4
  case relLoad => exact l4
  case relHandle => rw [c4]; exact (rh10.trans (rh8.trans (rh6.trans rh5))).symm
  case relOpen => rw [pe]; exact (o12.opened _).trans (by simp only [if_neg re_ro, if_neg re_co, if_neg re_bo, if_neg (Ne.symm th_re), if_neg (Ne.symm st_re), if_neg (Ne.symm ca_re), if_neg (Ne.symm sy_re), if_true])
  case targets =>
    refine ⟨re5.rels, re6.rels, re8.rels, ?_, ?_, ?_, ?_⟩
    · rw [pe, ← rp4]; exact t5
    · rw [pe, ← rp4, ← rp5]; exact t6
    · rw [pe, ← rp4, ← rp5, ← rp6]; exact t8
    · rw [pe, ← rp4, ← rp5, ← rp6, ← rp8]; exact t10
  case themeSource => exact s5
  case themeHandle => exact c5
  case themeOpen => exact (o12.opened _).trans (by simp only [if_neg th_ro, if_neg th_co, if_neg th_bo, if_neg th_re, if_neg (Ne.symm st_th), if_neg (Ne.symm ca_th), if_neg (Ne.symm sy_th), if_true])
  case strSource => exact s6
  case strHandle => exact c6
  case strLoad => exact Except.ok.inj l7
  case strOpen => exact (o12.opened _).trans (by simp only [if_neg st_ro, if_neg st_co, if_neg st_bo, if_neg st_re, if_neg st_th, if_neg (Ne.symm ca_st), if_neg (Ne.symm sy_st), if_true])
  case calcSource => exact s8
  case calcHandle => exact c8
  case calcLoad => exact l9
  case calcOpen => exact (o12.opened _).trans (by simp only [if_neg ca_ro, if_neg ca_co, if_neg ca_bo, if_neg ca_re, if_neg ca_th, if_neg ca_st, if_neg (Ne.symm sy_ca), if_true])
  case styleSource => exact s10
  case styleHandle => exact c10
  case styleLoad => exact l11
  case styleOpen => exact (o12.opened _).trans (by simp only [if_neg sy_ro, if_neg sy_co, if_neg sy_bo, if_neg sy_re, if_neg sy_th, if_neg sy_st, if_neg sy_ca, if_true])
  case openOnly => exact none_of
  case others =>
    intro m hm
    rw [o12.archive, ← o12.opened, none_of m hm]; rfl

theorem BookOpen.isOpen {env : Env} {theme : XDoc} {p : Pkg} {x : Excel} {o1 o2 o3 o4 o5 o6 o7 o8 : OpenDoc} {r1 r2 : List Rel}
    (h : BookOpen env theme p x o1 o2 o3 o4 o5 o6 o7 o8 r1 r2) : ∀ m ∈ ownParts x, ∃ o, aget m x.pkg.opened = some o := by
  intro m hm
  simp only [ownParts, List.mem_cons, List.not_mem_nil, or_false] at hm
  rcases hm with rfl | rfl | rfl | rfl | rfl | rfl | rfl | rfl
  · rw [h.rootPath]; exact ⟨_, h.rootOpen⟩
  · exact ⟨_, h.coreOpen⟩
  · exact ⟨_, h.bookOpen⟩
  · exact ⟨_, h.relOpen⟩
  · exact ⟨_, h.themeOpen⟩
  · exact ⟨_, h.strOpen⟩
  · exact ⟨_, h.calcOpen⟩
  · exact ⟨_, h.styleOpen⟩

theorem BookOpen.gone {env : Env} {theme : XDoc} {p : Pkg} {x : Excel} {o1 o2 o3 o4 o5 o6 o7 o8 : OpenDoc} {r1 r2 : List Rel}
    (h : BookOpen env theme p x o1 o2 o3 o4 o5 o6 o7 o8 r1 r2) : ∀ m ∈ ownParts x, aget m x.pkg.archive = none := by
  intro m hm
  obtain ⟨o, ho⟩ := h.isOpen m hm
  exact (aget_eq_none_iff _ _).mpr (h.inv.disjoint m (mem_akeys_of_aget ho))

/-- Opening a file is loading the archive and starting. -/
theorem openFile_ok {env : Env} {theme : XDoc} {z : Zip} {x : Excel} :
    Excel.openFile env theme z = .ok x ↔ ∃ p, Pkg.ofZip env z = .ok p ∧ Excel.start env theme p = .ok x := by
  unfold Excel.openFile
  cases Pkg.ofZip env z with
  | error e => exact ⟨(fun h => by cases h), (fun ⟨_, h, _⟩ => by cases h)⟩
  | ok p =>
    simp only [Except.ok.injEq, exists_eq_left']
    cases Excel.start env theme p with
    | error e => exact ⟨(fun h => by cases h), (fun h => by cases h)⟩
    | ok y => exact Iff.rfl

/-- Opening a file. -/
theorem openFile_book {env : Env} {theme : XDoc} {z : Zip} {x : Excel} (hz : (akeys z).Nodup) (h : Excel.openFile env theme z = .ok x) :
    ∃ p oroot ocore obook orel otheme ostr ocalc osty root1 rels1, Pkg.ofZip env z = .ok p ∧
      BookOpen env theme p x oroot ocore obook orel otheme ostr ocalc osty root1 rels1 := by
  obtain ⟨p, hp, h⟩ := openFile_ok.mp h
  obtain ⟨_, _, _, _, _, _, _, hop, _⟩ := ofZip_ok hp
  obtain ⟨o1, o2, o3, o4, o5, o6, o7, o8, r1, r2, hb⟩ := start_book (Pkg.Inv.ofZip hz hp) (by rw [hop]) h
  exact ⟨p, o1, o2, o3, o4, o5, o6, o7, o8, r1, r2, hp, hb⟩

/-! ## Parts nothing is done to -/

/-- The part is not open; what is closed under the name. -/
structure Quiet (n : String) (c : Option Entry) (p : Pkg) : Prop where
  shut : aget n p.opened = none
  kept : aget n p.archive = c

theorem Quiet.update {n : String} {c : Option Entry} {p : Pkg} (h : Quiet n c p) (hd : Nat) (f : XDoc → XDoc) : Quiet n c (p.update hd f) :=
  ⟨Pkg.update_opened_none h.shut, h.kept⟩

theorem Quiet.close {n : String} {c : Option Entry} {p : Pkg} (h : Quiet n c p) (env : Env) {m : String} : Quiet n c (p.close env m) := by
  by_cases hm : m = n
  · subst hm; rw [Pkg.close_closed h.shut]; exact h
  · have := Pkg.close_ne (p := p) (env := env) hm
    exact ⟨this.2.trans h.shut, this.1.trans h.kept⟩

theorem Quiet.delete {n : String} {c : Option Entry} {p : Pkg} (h : Quiet n c p) {m : String} (hm : m ≠ n) : Quiet n c (p.delete m) :=
  ⟨h.shut, (aget_aerase_ne hm _).trans h.kept⟩

theorem Quiet.openPart {n : String} {c : Option Entry} {p : Pkg} (h : Quiet n c p) (env : Env) (t : Res Template) {m : String} (hm : m ≠ n) :
    Quiet n c (p.openPart env t m).2 := by
  have := Pkg.openPart_ne (p := p) (env := env) (t := t) hm
  exact ⟨this.2.trans h.shut, this.1.trans h.kept⟩

theorem Quiet.closedForSave {n : String} {c : Option Entry} {p : Pkg} (h : Quiet n c p) (env : Env) : aget n (p.closedForSave env).archive = c :=
  (Pkg.closedForSave_closed h.shut).trans h.kept

theorem Quiet.relNew {n : String} {c : Option Entry} {p : Pkg} (h : Quiet n c p) (env : Env) {m : String} (hm : m ≠ n) :
    Quiet n c (RelPart.new env p m).2 := by
  have h1 := h.openPart env (.ok relsTemplate) hm
  unfold RelPart.new
  split
  · next ho => rw [ho] at h1; exact h1
  · next hd p1 ho =>
    have h2 : Quiet n c p1 := by rw [ho] at h1; exact h1
    split
    · exact h2
    · split
      · next x' _ => exact h2.update hd (fun _ => x')
      · next x' _ => exact h2.update hd (fun _ => x')

theorem Quiet.relClose {n : String} {c : Option Entry} {p : Pkg} (h : Quiet n c p) (env : Env) {r : RelPart} (hm : r.path ≠ n) :
    Quiet n c (r.close env p).2 := by
  unfold RelPart.close
  split
  · exact h
  · split
    · exact h
    · simp only
      split
      · exact (h.update _ _).close env
      · exact (h.update _ _).delete hm

theorem Quiet.closeSheet {n : String} {c : Option Entry} {p : Pkg} (h : Quiet n c p) (env : Env) (g : SheetHandle) :
    Quiet n c (closeSheet env p g).2 := by
  unfold Oxml.closeSheet
  split
  · exact h.close env
  · split
    · exact h
    · exact (h.update _ _).close env

theorem Quiet.dropSheet {n : String} {c : Option Entry} {p : Pkg} (h : Quiet n c p) (env : Env) {g : SheetHandle} (hg : g.rels.path ≠ n) :
    Quiet n c (dropSheet env p g) := (h.closeSheet env g).relClose env hg

/-- The workbook does nothing to the part. -/
structure QuietBook (n : String) (c : Option Entry) (x : Excel) : Prop where
  pkg : Quiet n c x.pkg
  own : n ∉ ownParts x

theorem own_ne {n : String} {x : Excel} (h : n ∉ ownParts x) : x.rootRels.path ≠ n ∧ x.core.path ≠ n ∧ x.book.path ≠ n ∧ x.rels.path ≠ n ∧
    x.theme.path ≠ n ∧ x.strings.path ≠ n ∧ x.chain.path ≠ n ∧ x.styles.path ≠ n := by
  simp only [ownParts, List.mem_cons, List.not_mem_nil, or_false, not_or] at h
  obtain ⟨a, b, c, d, e, f, g, i⟩ := h
  exact ⟨Ne.symm a, Ne.symm b, Ne.symm c, Ne.symm d, Ne.symm e, Ne.symm f, Ne.symm g, Ne.symm i⟩

theorem QuietBook.closeTheme {n : String} {c : Option Entry} {x : Excel} (h : QuietBook n c x) (env : Env) : QuietBook n c (x.closeTheme env).2 :=
  ⟨h.pkg.close env, h.own⟩

theorem QuietBook.closeCalc {n : String} {c : Option Entry} {x : Excel} (h : QuietBook n c x) (env : Env) : QuietBook n c (x.closeCalc env).2 := by
  have hn := own_ne h.own
  unfold Excel.closeCalc
  split
  · exact ⟨h.pkg.delete hn.2.2.2.2.2.2.1, h.own⟩
  · split
    · exact ⟨h.pkg.close env, h.own⟩
    · split
      · exact h
      · exact ⟨(h.pkg.update _ _).close env, h.own⟩

theorem QuietBook.closeStrings {n : String} {c : Option Entry} {x : Excel} (h : QuietBook n c x) (env : Env) : QuietBook n c (x.closeStrings env).2 := by
  have hn := own_ne h.own
  unfold Excel.closeStrings
  split
  · exact ⟨h.pkg.delete hn.2.2.2.2.2.1, h.own⟩
  · split
    · exact ⟨h.pkg.close env, h.own⟩
    · split
      · exact h
      · exact ⟨(h.pkg.update _ _).close env, h.own⟩

theorem QuietBook.closeStyles {n : String} {c : Option Entry} {x : Excel} (h : QuietBook n c x) (env : Env) : QuietBook n c (x.closeStyles env).2 := by
  unfold Excel.closeStyles
  split
  · exact ⟨h.pkg.close env, h.own⟩
  · split
    · exact h
    · exact ⟨(h.pkg.update _ _).close env, h.own⟩

theorem QuietBook.closeRels {n : String} {c : Option Entry} {x : Excel} (h : QuietBook n c x) (env : Env) : QuietBook n c (x.closeRels env).2 :=
  ⟨h.pkg.relClose env (own_ne h.own).2.2.2.1, h.own⟩

theorem QuietBook.closeDoc {n : String} {c : Option Entry} {x : Excel} (h : QuietBook n c x) (env : Env) : QuietBook n c (x.closeDoc env).2 := by
  unfold Excel.closeDoc
  split
  · exact ⟨h.pkg.close env, h.own⟩
  · split
    · exact h
    · exact ⟨(h.pkg.update _ _).close env, h.own⟩

theorem QuietBook.closeCore {n : String} {c : Option Entry} {x : Excel} (h : QuietBook n c x) (env : Env) (now : String) :
    QuietBook n c (x.closeCore env now).2 := by
  unfold Excel.closeCore
  split
  · exact ⟨h.pkg.close env, h.own⟩
  · split
    · exact h
    · exact ⟨(h.pkg.update _ _).close env, h.own⟩

theorem QuietBook.closeRoot {n : String} {c : Option Entry} {x : Excel} (h : QuietBook n c x) (env : Env) : QuietBook n c (x.closeRoot env).2 :=
  ⟨h.pkg.relClose env (own_ne h.own).1, h.own⟩

theorem QuietBook.seq {n : String} {c : Option Entry} {fs : List (Excel → Res Unit × Excel)} (hf : ∀ f ∈ fs, ∀ x, QuietBook n c x → QuietBook n c (f x).2) :
    ∀ {x : Excel}, QuietBook n c x → QuietBook n c (x.seq fs).2 := by
  induction fs with
  | nil => intro x h; exact h
  | cons f fs ih =>
    intro x h
    have h1 := hf f (by simp) x h
    unfold Excel.seq
    split
    · next e => rw [e] at h1; exact h1
    · next e => rw [e] at h1; exact ih (fun g hg => hf g (by simp [hg])) h1

theorem QuietBook.seqDrop {n : String} {c : Option Entry} {fs : List (Excel → Res Unit × Excel)} (hf : ∀ f ∈ fs, ∀ x, QuietBook n c x → QuietBook n c (f x).2) :
    ∀ {x : Excel}, QuietBook n c x → QuietBook n c (x.seqDrop fs) := by
  induction fs with
  | nil => intro x h; exact h
  | cons f fs ih =>
    intro x h
    exact ih (fun g hg => hf g (by simp [hg])) (hf f (by simp) x h)

theorem QuietBook.closeBook {n : String} {c : Option Entry} {x : Excel} (h : QuietBook n c x) (env : Env) : QuietBook n c (x.closeBook env).2 := by
  apply QuietBook.seq _ h
  intro f hf y hy
  simp only [List.mem_cons, List.not_mem_nil, or_false] at hf
  rcases hf with rfl | rfl | rfl | rfl | rfl | rfl
  · exact hy.closeTheme env
  · exact hy.closeCalc env
  · exact hy.closeStrings env
  · exact hy.closeStyles env
  · exact hy.closeRels env
  · exact hy.closeDoc env

theorem QuietBook.dropBook {n : String} {c : Option Entry} {x : Excel} (h : QuietBook n c x) (env : Env) : QuietBook n c (x.dropBook env) := by
  apply QuietBook.seqDrop _ (h.closeBook env)
  intro f hf y hy
  simp only [List.mem_cons, List.not_mem_nil, or_false] at hf
  rcases hf with rfl | rfl | rfl | rfl | rfl
  · exact hy.closeCalc env
  · exact hy.closeStrings env
  · exact hy.closeStyles env
  · exact hy.closeRels env
  · exact hy.closeTheme env

theorem QuietBook.saved {n : String} {c : Option Entry} {x : Excel} (h : QuietBook n c x) {env : Env} {now : String} {q : Pkg}
    (hs : x.saved env now = .ok q) : aget n q.archive = c := by
  have h1 : QuietBook n c (x.seq [Excel.flushBook env, Excel.flushCore env now, Excel.closeRoot env]).2 := by
    apply QuietBook.seq _ h
    intro f hf y hy
    simp only [List.mem_cons, List.not_mem_nil, or_false] at hf
    rcases hf with rfl | rfl | rfl
    · exact (hy.closeBook env).dropBook env
    · exact (hy.closeCore env now).closeCore env now
    · exact hy.closeRoot env
  unfold Excel.saved at hs
  split at hs
  · cases hs
  · next e =>
    cases hs
    rw [e] at h1
    exact h1.pkg.closedForSave env

end Oxml
