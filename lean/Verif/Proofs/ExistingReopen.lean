import Verif.Proofs.ExistingReload
/-!
# Files that can be opened
-/
namespace Oxml
open Spec

/-- The document a part is opened with: the one in the package, or else the template's. -/
def Ready (env : Env) (p : Pkg) (t : Template) (n : String) (d : XDoc) : Prop :=
  (aget n p.archive = none ∧ d = t.doc) ∨ ∃ e dd, aget n p.archive = some e ∧ readXml env.uni e.content = .ok dd ∧ d = dd.toXDoc

theorem Ready.source {env : Env} {p : Pkg} {t : Template} {n : String} {d : XDoc} (h : Ready env p t n d) {o : OpenDoc} (hs : Source env p t n o) :
    o.doc = d := by
  rcases h with ⟨h1, rfl⟩ | ⟨e, dd, h1, h2, rfl⟩
  · rcases hs with ⟨_, h, _⟩ | ⟨e, dd, h, _⟩
    · exact h
    · rw [h1] at h; cases h
  · rcases hs with ⟨h, _⟩ | ⟨e', dd', g1, g2, g3, _⟩
    · rw [h1] at h; cases h
    · rw [h1] at g1; cases g1
      rw [h2] at g2; cases g2
      exact g3

theorem Source.ready {env : Env} {p : Pkg} {t : Template} {n : String} {o : OpenDoc} (hs : Source env p t n o) : Ready env p t n o.doc := by
  rcases hs with ⟨h1, h2, _⟩ | ⟨e, d, h1, h2, h3, _⟩
  · exact Or.inl ⟨h1, h2⟩
  · exact Or.inr ⟨e, d, h1, h2, h3⟩

theorem OpensPart.canOpen {env : Env} {p q : Pkg} {f : String → Option OpenDoc} (h : OpensPart env p q f) {t : Template} {n : String} {d : XDoc}
    (hn : f n = none) (hr : Ready env p t n d) : ∃ hd q1, q.openPart env (.ok t) n = (.ok hd, q1) := by
  have ho : aget n q.opened = none := by rw [h.opened]; exact hn
  have ha : aget n q.archive = aget n p.archive := by rw [h.archive, hn]; rfl
  rcases hr with ⟨h1, _⟩ | ⟨e, dd, h1, h2, _⟩
  · exact ⟨_, _, openPart_fresh ho (ha.trans h1)⟩
  · exact ⟨_, _, openPart_read ho (ha.trans h1) h2⟩

theorem OpensPart.canRels {env : Env} {p q : Pkg} {f : String → Option OpenDoc} (h : OpensPart env p q f) {n : String} {d : XDoc} {rels : List Rel}
    (hn : f n = none) (hr : Ready env p relsTemplate n d) (hl : (loadRels d).1 = .ok rels) :
    ∃ r q1 o, RelPart.new env q n = (.ok r, q1) ∧ r.path = n ∧ r.rels = rels ∧
      OpensPart env p q1 (fun m => if m = n then some o else f m) := by
  obtain ⟨hd, q1, e⟩ := h.canOpen hn hr
  obtain ⟨_, o, h1, h2, h3⟩ := h.openPart e
  have hdoc := hr.source h2
  have hof : q1.docOf hd = some o.doc := by
    rw [← h1]; exact h3.inv.docOf ((h3.opened n).trans (if_pos rfl))
  have : RelPart.new env q n = (.ok ⟨rels, hd, n⟩, q1.update hd (fun _ => (loadRels d).2)) := by
    unfold RelPart.new
    rw [e]
    simp only [hof, hdoc]
    split
    · next e' => rw [e'] at hl; cases hl
    · next e' => rw [e'] at hl ⊢; cases hl; rfl
  refine ⟨_, _, { o with doc := (loadRels d).2 }, this, rfl, rfl, ?_⟩
  have := h3.update (n := n) (o := o) (if_pos rfl) (loadRels d).2
  rw [h1] at this
  refine ⟨this.inv, ?_, ?_⟩
  · intro m; rw [this.opened]; by_cases hm : m = n <;> simp [hm, h1]
  · intro m; rw [this.archive]; by_cases hm : m = n <;> simp [hm]

theorem OpensPart.canTyped {env : Env} {p q : Pkg} {f : String → Option OpenDoc} (h : OpensPart env p q f) {c : Content} {dir : Option String}
    {t : Template} {r : RelPart} {n : String} {d : XDoc} {rels : List Rel} (hn : f n = none) (hr : Ready env p t n d)
    (ht : targetByType r.path r.rels c.type c dir none = (.ok n, rels)) :
    ∃ q1 o, openTyped env c dir t q r = .ok (n, o.handle, q1, { r with rels := rels }) ∧ o.doc = d ∧
      OpensPart env p q1 (fun m => if m = n then some o else f m) := by
  obtain ⟨hd, q1, e⟩ := h.canOpen hn hr
  obtain ⟨_, o, h1, h2, h3⟩ := h.openPart e
  refine ⟨q1, o, ?_, hr.source h2, h3⟩
  unfold openTyped
  rw [ht]
  simp only [e, h1]

theorem OpensPart.canLoad {env : Env} {p q : Pkg} {f : String → Option OpenDoc} (h : OpensPart env p q f) {α : Type} {load : XDoc → Res α × XDoc} {a : α}
    {n : String} {o : OpenDoc} (ho : f n = some o) (hl : (load o.doc).1 = .ok a) :
    ∃ q1, loadPart q o.handle load = .ok (a, q1) ∧ OpensPart env p q1 (fun m => if m = n then some { o with doc := (load o.doc).2 } else f m) := by
  have ho' : aget n q.opened = some o := by rw [h.opened]; exact ho
  refine ⟨_, ?_, h.update ho _⟩
  unfold loadPart
  rw [h.inv.docOf ho']
  simp only
  split
  · next e' => rw [e'] at hl; cases hl
  · next e' => rw [e'] at hl ⊢; cases hl; rfl

/-- What opening a package needs. -/
structure Openable (env : Env) (theme : XDoc) (p : Pkg) (core book rels th str chain sty : String)
    (droot dcore dbook drel dth dstr dchain dsty : XDoc) : Prop where
  nodup : ["_rels/.rels", core, book, rels, th, str, chain, sty].Nodup
  relsPath : ∃ dir, dirOf book = some dir ∧ rels = dir ++ "/_rels/workbook.xml.rels"
  rootIs : Ready env p relsTemplate "_rels/.rels" droot
  coreIs : Ready env p coreTemplate core dcore
  bookIs : Ready env p workbookTemplate book dbook
  relsIs : Ready env p relsTemplate rels drel
  themeIs : Ready env p (themeTemplate theme) th dth
  stringsIs : Ready env p stringsTemplate str dstr
  chainIs : Ready env p calcTemplate chain dchain
  stylesIs : Ready env p styleTemplate sty dsty
  rootTargets : ∃ r1 r2 r3, (loadRels droot).1 = .ok r1 ∧ targetByType "_rels/.rels" r1 coreContent.type coreContent none none = (.ok core, r2) ∧
    targetByType "_rels/.rels" r2 workbookContent.type workbookContent none none = (.ok book, r3)
  targets : ∃ r1 r2 r3 r4 r5, (loadRels drel).1 = .ok r1 ∧
    targetByType rels r1 themeContent.type themeContent (some "xl/theme") none = (.ok th, r2) ∧
    targetByType rels r2 sharedStringContent.type sharedStringContent none none = (.ok str, r3) ∧
    targetByType rels r3 calcChainContent.type calcChainContent none none = (.ok chain, r4) ∧
    targetByType rels r4 styleContent.type styleContent none none = (.ok sty, r5)
  chainLoads : ∃ c, (loadCalc dchain).1 = .ok c
  stylesLoad : ∃ s, (Styles.load dsty).1 = .ok s
  bookLoads : ∃ b, (loadBook dbook).1 = .ok b

theorem start_opens {env : Env} {theme : XDoc} {p : Pkg} (hp : p.Inv) (ho : p.opened = []) {core book rels th str chain sty : String}
    {d1 d2 d3 d4 d5 d6 d7 d8 : XDoc} (h : Openable env theme p core book rels th str chain sty d1 d2 d3 d4 d5 d6 d7 d8) :
    ∃ x, Excel.start env theme p = .ok x := by
  obtain ⟨nd, ⟨dir, hdir, rfl⟩, s1, s2, s3, s4, s5, s6, s7, s8, ⟨a1, a2, a3, l1, t1, t2⟩, ⟨b1, b2, b3, b4, b5, l4, t5, t6, t7, t8⟩,
    ⟨ch, l7⟩, ⟨st, l8⟩, ⟨⟨sh, vw⟩, l3⟩⟩ := h
  simp only [List.nodup_cons, List.mem_cons, List.not_mem_nil, or_false, not_or, List.nodup_nil, and_true, not_false_eq_true] at nd
  obtain ⟨⟨n12, n13, n14, n15, n16, n17, n18⟩, ⟨n23, n24, n25, n26, n27, n28⟩, ⟨n34, n35, n36, n37, n38⟩, ⟨n45, n46, n47, n48⟩, ⟨n56, n57, n58⟩,
    ⟨n67, n68⟩, n78⟩ := nd
  have o0 := OpensPart.start (env := env) hp ho
  obtain ⟨rr, q1, _, e1, p1, rr1, o1⟩ := o0.canRels rfl s1 l1
  subst rr1
  rw [← p1] at t1 t2
  obtain ⟨q2, oc, e2, _, o2⟩ := o1.canTyped (r := rr) (by simp only [if_neg (Ne.symm n12)]) s2 t1
  obtain ⟨q3, ob, e3, c3, o3⟩ := o2.canTyped (r := { rr with rels := a2 }) (by simp only [if_neg (Ne.symm n13), if_neg (Ne.symm n23)]) s3 t2
  obtain ⟨re, q4, _, e4, p4, rr4, o4⟩ := o3.canRels (by simp only [if_neg (Ne.symm n14), if_neg (Ne.symm n24), if_neg (Ne.symm n34)]) s4 l4
  subst rr4
  rw [← p4] at t5 t6 t7 t8
  obtain ⟨q5, ot, e5, _, o5⟩ := o4.canTyped (r := re)
    (by simp only [if_neg (Ne.symm n15), if_neg (Ne.symm n25), if_neg (Ne.symm n35), if_neg (Ne.symm n45)]) s5 t5
  obtain ⟨q6, os, e6, _, o6⟩ := o5.canTyped (r := { re with rels := b2 })
    (by simp only [if_neg (Ne.symm n16), if_neg (Ne.symm n26), if_neg (Ne.symm n36), if_neg (Ne.symm n46), if_neg (Ne.symm n56)]) s6 t6
  obtain ⟨q6', e6', o6'⟩ := o6.canLoad (load := fun x => (.ok (loadStrings x).1, (loadStrings x).2)) (if_pos rfl) rfl
  obtain ⟨q7, ok, e7, c7, o7⟩ := o6'.canTyped (r := { re with rels := b3 })
    (by simp only [if_neg (Ne.symm n17), if_neg (Ne.symm n27), if_neg (Ne.symm n37), if_neg (Ne.symm n47), if_neg (Ne.symm n57), if_neg (Ne.symm n67)]) s7 t7
  obtain ⟨q7', e7', o7'⟩ := o7.canLoad (load := loadCalc) (if_pos rfl) (by rw [c7]; exact l7)
  obtain ⟨q8, oy, e8, c8, o8⟩ := o7'.canTyped (r := { re with rels := b4 })
    (by simp only [if_neg (Ne.symm n18), if_neg (Ne.symm n28), if_neg (Ne.symm n38), if_neg (Ne.symm n48), if_neg (Ne.symm n58), if_neg (Ne.symm n68),
      if_neg (Ne.symm n78)]) s8 t8
  obtain ⟨q8', e8', o8'⟩ := o8.canLoad (load := Styles.load) (if_pos rfl) (by rw [c8]; exact l8)
  obtain ⟨q9, e9, o9⟩ := o8'.canLoad (n := book) (o := ob) (load := loadBook)
    (by simp only [if_neg n34, if_neg n35, if_neg n36, if_neg n37, if_neg n38, if_true]) (by rw [c3]; exact l3)
  cases hx : Excel.start env theme p with
  | ok x => exact ⟨x, rfl⟩
  | error e =>
    unfold Excel.start at hx
    simp only [e1, e2, e3, hdir, e4, e5, e6, e6', e7, e7', e8, e8', e9, bind, Except.bind, pure, Except.pure] at hx
    cases hx

end Oxml
