import Verif.Proofs.SheetXmlRows
import Verif.Props.ExistingReget
/-!
# Sheets the library refuses to read
-/
namespace Oxml
open Spec

variable {env : Env}

/-- Opening a relationship part that is closed and can be read. -/
theorem relNew_ready {p : Pkg} {rp : String} {dr : XDoc} {rels : List Rel} (hi : p.Inv) (h4 : aget rp p.opened = none) (h5 : Ready env p relsTemplate rp dr)
    (h6 : (loadRels dr).1 = .ok rels) : ∃ r p3, RelPart.new env p rp = (.ok r, p3) := by
  obtain ⟨hd2, p3, ho2⟩ : ∃ hd p3, p.openPart env (.ok relsTemplate) rp = (.ok hd, p3) := by
    rcases h5 with ⟨a, _⟩ | ⟨e, dd, a, b, _⟩
    · exact ⟨_, _, openPart_fresh h4 a⟩
    · exact ⟨_, _, openPart_read h4 a b⟩
  obtain ⟨i2, _, _, ⟨o2, v2, v3, v4⟩, _⟩ := openPart_full hi ho2
  have hdoc2 : o2.doc = dr := h5.source v4
  have hof : p3.docOf hd2 = some dr := by rw [← v3, ← hdoc2]; exact i2.docOf v2
  unfold RelPart.new
  rw [ho2]
  simp only [hof]
  split
  · next e' => rw [e'] at h6; cases h6
  · next e' => exact ⟨_, _, rfl⟩

/-- A sheet that could not be opened although its part was closed and can be read: the part stays open, as it was or without what reading took out of it. -/
theorem openAt_refused {x1 x2 : Excel} {path nm m : String} {d : XDoc} (hi : x1.pkg.Inv) (h1 : aget path x1.pkg.opened = none)
    (h2 : Ready env x1.pkg worksheetTemplate path d) (e : openAt env x1 path nm = (.error (.fail m), x2)) :
    ∃ o, (∃ rp, sheetRelsPath path = some rp) ∧ Still path o x2.pkg ∧ (o.doc = d ∨ o.doc = (Sheet.load env d).2) ∧
      ((∃ rp dr rels, sheetRelsPath path = some rp ∧ rp ≠ path ∧ aget rp x1.pkg.opened = none ∧ Ready env x1.pkg relsTemplate rp dr ∧ (loadRels dr).1 = .ok rels) →
        o.doc = (Sheet.load env d).2) := by
  obtain ⟨hd, p2, ho1⟩ : ∃ hd p2, x1.pkg.openPart env (.ok worksheetTemplate) path = (.ok hd, p2) := by
    rcases h2 with ⟨a, _⟩ | ⟨e, dd, a, b, _⟩
    · exact ⟨_, _, openPart_fresh h1 a⟩
    · exact ⟨_, _, openPart_read h1 a b⟩
  obtain ⟨i1, w0, w1, ⟨o, w2, w3, w4⟩, w5⟩ := openPart_full hi ho1
  have s1 : Still path o p2 := w2
  have hdoc : o.doc = d := h2.source w4
  unfold openAt at e
  rw [ho1] at e
  simp only at e
  cases hrp : sheetRelsPath path with
  | none => rw [hrp] at e; cases e
  | some rp =>
    rw [hrp] at e
    simp only at e
    have s2 := s1.relNew i1 env rp
    have i2 := i1.relNew env rp
    cases ho2 : RelPart.new env p2 rp with
    | mk r p3 =>
      rw [ho2] at e s2 i2
      cases r with
      | error er =>
        cases e
        refine ⟨o, ⟨_, rfl⟩, s2, .inl hdoc, ?_⟩
        rintro ⟨rp', dr, rels, c1, c2, c3, c4, c5⟩
        cases c1
        exfalso
        obtain ⟨r, p3', c6⟩ := relNew_ready (env := env) i1 (by rw [(w5 rp c2).2]; exact c3) (by unfold Ready at c4 ⊢; rw [(w5 rp c2).1]; exact c4) c5
        rw [ho2] at c6; cases c6
      | ok rels =>
        simp only at e s2 i2
        obtain ⟨_, v0, _, v1, ⟨ro, v2, v3, v4, v5⟩, _⟩ := relNew_full i1 ho2
        have hne : rp ≠ path := by
          intro e'
          rw [e', s1] at v0; cases v0
        have hh : o.handle ≠ rels.handle := by
          intro e'
          exact s2.handle_ne i2 ⟨_, v5, v4⟩ hne e'
        subst w3
        rw [i2.docOf s2] at e
        simp only at e
        rw [hdoc] at e
        cases hl : Sheet.load env d with
        | mk r d' =>
          rw [hl] at e
          cases r with
          | ok sh => cases e
          | error er =>
            cases e
            refine ⟨{ o with doc := d' }, ⟨_, rfl⟩, ?_, .inr rfl, fun _ => rfl⟩
            have := i2.aget_update s2 (fun _ => d') path
            rw [if_pos rfl] at this
            exact Still.relClose (h := this) env hh (by rw [v1]; exact hne)

theorem sheetFile_stored {x : Excel} {name path : String} (hn : StoredIn x name path) : x.sheetFile (some name) = (.ok (path, name), x) := by
  obtain ⟨e, r, n1, n2, n3⟩ := hn
  unfold Excel.sheetFile
  simp only [Option.bind_some, n1]
  have ht : targetById x.rels.path x.rels.rels e.relId = .ok (some path) := by
    unfold targetById
    rw [n2]
    simp only [n3]
  rw [ht]
  have hm : e.name = name := by have := List.find?_some n1; simpa using this
  simp only [hm]

/-- The session after a refused sheet. -/
theorem get_refused {s s1 : Session} {name path m : String} {d : XDoc} (hl : LiveSess s) (hn : StoredIn s.x name path) (h1 : aget path s.x.pkg.opened = none)
    (hh : ∀ g ∈ s.handles, g.path ≠ path ∧ g.rels.path ≠ path)
    (h2 : Ready env s.x.pkg worksheetTemplate path d) (e : s.step env (.get name) = (.error (.fail m), s1)) :
    ∃ o, (∃ rp, sheetRelsPath path = some rp) ∧ Orphan path o s1 ∧ (o.doc = d ∨ o.doc = (Sheet.load env d).2) ∧
      ((∃ rp dr rels, sheetRelsPath path = some rp ∧ rp ≠ path ∧ aget rp s.x.pkg.opened = none ∧ Ready env s.x.pkg relsTemplate rp dr ∧ (loadRels dr).1 = .ok rels) →
        o.doc = (Sheet.load env d).2) := by
  have hlive := hl.step env (.get name)
  rw [e] at hlive
  simp only [Session.step, Session.open] at e
  rw [openSheet_eq, sheetFile_stored hn] at e
  simp only at e
  cases ha : openAt env s.x path name with
  | mk ra x2 =>
    rw [ha] at e
    cases ra with
    | ok g => cases e
    | error er =>
      cases e
      obtain ⟨o, o0, o1, o2, o3⟩ := openAt_refused hl.inv h1 h2 ha
      exact ⟨o, o0, ⟨hlive, o1, hh⟩, o2, o3⟩

/-- A part left open is saved as it is. -/
theorem Orphan.saved {path : String} {o : OpenDoc} {s : Session} {now : String} {q : Pkg} (h : Orphan path o s) (hown : path ∉ ownParts s.x)
    (hs : s.x.saved env now = .ok q) : aget path q.archive = some (o.entry env o.doc) := by
  obtain ⟨_, _, _, _, _, _, _, _, A⟩ := h.live.allHeld
  obtain ⟨_, _, _, _, _, _, _, _, _, _, S⟩ := saved_all A hs
  rw [S.others _ hown, h.still]

/-! ## What a failed reading leaves -/

theorem children_withChildren (n : Node) (cs : List Node) : (n.withChildren cs).children = cs := by cases n; rfl

theorem filter_popTag (x : XDoc) (t tag : String) (h : tag ≠ t) :
    (x.popTag t).2.rootChildren.filter (fun n => n.tag = tag) = x.rootChildren.filter (fun n => n.tag = tag) := by
  unfold XDoc.popTag XDoc.mapRootChildren XDoc.rootChildren
  cases x.root with
  | none => rfl
  | some r =>
    simp only [Option.map_some]
    rw [children_withChildren, List.filter_filter]
    apply List.filter_congr
    intro n _
    by_cases e : n.tag = tag
    · simp [e, h]
    · simp [e]

theorem filter_popTag_self (x : XDoc) (t : String) : (x.popTag t).2.rootChildren.filter (fun n => n.tag = t) = [] := by
  unfold XDoc.popTag XDoc.mapRootChildren XDoc.rootChildren
  cases x.root with
  | none => rfl
  | some r =>
    simp only [Option.map_some]
    rw [children_withChildren, List.filter_filter]
    apply List.filter_eq_nil_iff.mpr
    intro n _
    simp

/-- The document is the other one without some of the root's children. -/
def Thinned (x y : XDoc) : Prop := ∃ p : Node → Bool, y = x.mapRootChildren (fun l => l.filter p)

theorem Thinned.pop {x y : XDoc} (h : Thinned x y) (t : String) : Thinned x (y.popTag t).2 := by
  obtain ⟨p, rfl⟩ := h
  refine ⟨fun n => p n && decide (n.tag ≠ t), ?_⟩
  unfold XDoc.popTag XDoc.mapRootChildren
  cases x with
  | mk ns root =>
    cases root with
    | none => rfl
    | some r =>
      cases r
      simp only [Option.map_some, Node.withChildren, Node.children, List.filter_filter]
      congr 3
      apply List.filter_congr
      intro n _
      rw [Bool.and_comm]

theorem Thinned.refl (x : XDoc) : Thinned x x := by
  refine ⟨fun _ => true, ?_⟩
  unfold XDoc.mapRootChildren
  cases x with
  | mk ns root =>
    cases root with
    | none => rfl
    | some r => cases r; simp only [Option.map_some, Node.withChildren, Node.children, List.filter_eq_self.mpr (fun _ _ => rfl)]

theorem load_thins (x : XDoc) : Thinned x (Sheet.load env x).2 := by
  unfold Sheet.load
  simp only [loadCols, loadData, loadViews]
  have h1 := ((Thinned.refl x).pop "dimension").pop "cols"
  split
  · next e => rw [← (Prod.mk.inj e).2]; exact h1
  · next e =>
    rw [← (Prod.mk.inj e).2]
    have h2 := h1.pop "sheetData"
    split
    · next e => rw [← (Prod.mk.inj e).2]; exact h2
    · next e =>
      rw [← (Prod.mk.inj e).2]
      have h3 := h2.pop "sheetViews"
      split
      · next e => rw [← (Prod.mk.inj e).2]; exact h3
      · next e => rw [← (Prod.mk.inj e).2]; exact h3

/-- Reading removes managed elements only. -/
theorem load_keeps (x : XDoc) (tag : String) (h : tag ∉ managedTags) :
    (Sheet.load env x).2.rootChildren.filter (fun n => n.tag = tag) = x.rootChildren.filter (fun n => n.tag = tag) := by
  simp only [managedTags, List.mem_cons, List.not_mem_nil, or_false, not_or] at h
  obtain ⟨h1, h2, h3, h4⟩ := h
  unfold Sheet.load
  simp only [loadCols, loadData, loadViews]
  split
  · next e => rw [← (Prod.mk.inj e).2]; simp [filter_popTag, h1, h2, h3, h4]
  · next e =>
    rw [← (Prod.mk.inj e).2]
    split
    · next e => rw [← (Prod.mk.inj e).2]; simp [filter_popTag, h1, h2, h3, h4]
    · next e =>
      rw [← (Prod.mk.inj e).2]
      split
      · next e => rw [← (Prod.mk.inj e).2]; simp [filter_popTag, h1, h2, h3, h4]
      · next e => rw [← (Prod.mk.inj e).2]; simp [filter_popTag, h1, h2, h3, h4]

/-- Numbers of two bytes are read. -/
theorem parse_small {max : Nat} (hm : 65535 ≤ max) {o : Option String} (h : ∀ v, o = some v → ∃ i : Nat, v = toString i ∧ i ≤ 65535) :
    ∃ k, parseOpt (parseUInt max) o = .ok k := by
  cases o with
  | none => exact ⟨none, rfl⟩
  | some v =>
    obtain ⟨i, rfl, hi⟩ := h v rfl
    refine ⟨some i, ?_⟩
    unfold parseOpt
    simp only [parseUInt_toString' (Nat.le_trans hi hm)]

theorem loadCol_sound {n : Node} (h : SoundCol env n) : ∃ c, loadCol env n = .ok c := by
  cases ha : n.attrs with
  | none => exact absurd ha h.attrs
  | some a =>
    have hk : ∀ k, n.attr? k = aget k a := attr?_eq ha
    obtain ⟨k1, e1⟩ := parse_small (max := u16Max) (by decide) (o := aget "min" a) (fun v hv => h.nums "min" (by simp) v (by rw [hk]; exact hv))
    obtain ⟨k2, e2⟩ := parse_small (max := u16Max) (by decide) (o := aget "max" a) (fun v hv => h.nums "max" (by simp) v (by rw [hk]; exact hv))
    obtain ⟨k3, e3⟩ := parse_small (max := u32Max) (by decide) (o := aget "style" a) (fun v hv => h.nums "style" (by simp) v (by rw [hk]; exact hv))
    obtain ⟨k4, e4⟩ := parse_small (max := usizeMax) (by decide) (o := aget "outlineLevel" a) (fun v hv => h.nums "outlineLevel" (by simp) v (by rw [hk]; exact hv))
    unfold loadCol
    rw [ha]
    by_cases hw : aget "customWidth" a = some "1"
    · obtain ⟨v, v1, v2⟩ := h.width (by rw [hk]; exact hw)
      rw [hk] at v1
      have e5 : parseOpt (parseF32 env.show32) (some v) = .ok (some v) := by simp only [parseOpt, parseF32_canonical v2]
      simp only [e1, e2, e3, e4, if_pos hw, v1, e5]
      exact ⟨_, rfl⟩
    · simp only [e1, e2, e3, e4, if_neg hw]
      exact ⟨_, rfl⟩

theorem mapRes_total' {α β : Type} {f : α → Res β} {l : List α} (h : ∀ a ∈ l, ∃ b, f a = .ok b) : ∃ r, mapRes f l = .ok r := by
  induction l with
  | nil => exact ⟨[], rfl⟩
  | cons a l ih =>
    obtain ⟨b, hb⟩ := h a (by simp)
    obtain ⟨r, hr⟩ := ih (fun a ha => h a (by simp [ha]))
    exact ⟨b :: r, by simp only [mapRes, hb, hr]⟩

/-- When columns are as they should be and reading fails, the rows are gone. -/
theorem load_loses {x : XDoc} (hc : ∀ n ∈ colElements x, SoundCol env n) :
    rowElements (Sheet.load env x).2 = [] ∧ colElements (Sheet.load env x).2 = [] := by
  have hcols : ∃ cs, (loadCols env (x.popTag "dimension").2).1 = .ok cs := by
    unfold loadCols
    simp only
    have : ((x.popTag "dimension").2.popTag "cols").1 = x.rootChildren.filter (fun n => n.tag = "cols") := filter_popTag x _ _ (by decide)
    rw [this]
    cases hl : (x.rootChildren.filter (fun n => n.tag = "cols")).getLast? with
    | none => exact ⟨_, rfl⟩
    | some n =>
      obtain ⟨r, hr⟩ := mapRes_total' (f := loadCol env) (l := n.children) (fun m hm => loadCol_sound (hc m
        (List.mem_flatMap.mpr ⟨n, List.mem_of_getLast? hl, hm⟩)))
      simp only [hr]
      exact ⟨_, rfl⟩
  obtain ⟨cs, hcs⟩ := hcols
  unfold rowElements colElements Sheet.load
  simp only
  split
  · next e => rw [e] at hcs; cases hcs
  · next e =>
    have e2 := (Prod.mk.inj e).2
    split
    · next e' =>
      rw [← (Prod.mk.inj e').2, filter_popTag_self, filter_popTag _ _ _ (by decide), ← e2, filter_popTag_self]
      exact ⟨rfl, rfl⟩
    · next e' =>
      have e3 := (Prod.mk.inj e').2
      split
      · next e'' =>
        rw [← (Prod.mk.inj e'').2, filter_popTag _ _ _ (by decide), filter_popTag _ _ _ (by decide), ← e3, filter_popTag_self, filter_popTag _ _ _ (by decide), ← e2,
          filter_popTag_self]
        exact ⟨rfl, rfl⟩
      · next e'' =>
        rw [← (Prod.mk.inj e'').2, filter_popTag _ _ _ (by decide), filter_popTag _ _ _ (by decide), ← e3, filter_popTag_self, filter_popTag _ _ _ (by decide), ← e2,
          filter_popTag_self]
        exact ⟨rfl, rfl⟩

theorem mapRes_bad {α β : Type} {f : α → Res β} {l : List α} {a : α} (ha : a ∈ l) (h : ∀ b, f a ≠ .ok b) : ∀ r, mapRes f l ≠ .ok r := by
  induction l with
  | nil => cases ha
  | cons b l ih =>
    intro r
    simp only [mapRes]
    cases hb : f b with
    | error e => simp
    | ok y =>
      rcases List.mem_cons.mp ha with rfl | ha
      · exact absurd hb (h y)
      · cases hl : mapRes f l with
        | error e => simp
        | ok r' => exact absurd hl (ih ha r')

/-- A sheet with a row without number or a cell without reference is not read. -/
theorem load_unnumbered {x x' : XDoc} {sh : Sheet} (h1 : (x.rootChildren.filter (fun n => n.tag = "sheetData")).length ≤ 1) (h2 : Unnumbered x) :
    Sheet.load env x ≠ (.ok sh, x') := by
  intro e
  obtain ⟨_, hd, _⟩ := load_ok e
  obtain ⟨n, hn, hbad⟩ := h2
  obtain ⟨p, hp, hnp⟩ := List.mem_flatMap.mp hn
  have hl : (x.rootChildren.filter (fun n => n.tag = "sheetData")).getLast? = some p := by
    generalize x.rootChildren.filter (fun n => n.tag = "sheetData") = l at hp h1
    match l, h1 with
    | [], _ => cases hp
    | [a], _ => rw [List.mem_singleton.mp hp]; rfl
    | _ :: _ :: _, h1 => simp at h1
  rw [hl] at hd
  unfold dataOf at hd
  simp only at hd
  have hrow : ∀ r, loadRow env n ≠ .ok r := by
    intro r hr
    unfold loadRow at hr
    cases ha : n.attrs with
    | none => rw [ha] at hr; cases hr
    | some a =>
      rw [ha] at hr
      simp only at hr
      rcases hbad with hb | ⟨c, hc, hb⟩
      · rw [attr?_eq ha] at hb
        rw [hb] at hr; cases hr
      · have hcell : ∀ r, loadCell env c ≠ .ok r := by
          intro r hr
          unfold loadCell at hr
          cases hca : c.attrs with
          | none => rw [hca] at hr; cases hr
          | some b =>
            rw [attr?_eq hca] at hb
            rw [hca] at hr
            simp only [hb] at hr
            cases hr
        split at hr
        · cases hr
        · split at hr
          · cases hr
          · split at hr
            · cases hr
            · split at hr
              · cases hr
              · next cs hcs => exact mapRes_bad hc hcell _ hcs
  split at hd
  · cases hd
  · next rows hrows => exact mapRes_bad hnp hrow _ hrows

end Oxml
