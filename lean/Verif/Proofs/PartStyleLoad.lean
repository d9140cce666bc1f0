import Verif.Proofs.PartLoads
/-!
# Loading styles, core properties and content types, as programs over the arena
-/
namespace Oxml
open Spec

theorem foldRes_fontItems : ∀ (ns : List Node) (f : Font), foldRes loadFontItem f ns = loadFontItems f ns
  | [], _ => rfl
  | n :: ns, f => by
    unfold foldRes loadFontItems
    cases loadFontItem f n with
    | error e => rfl
    | ok f' => exact foldRes_fontItems ns f'

theorem foldRes_fillItems : ∀ (ns : List Node) (f : Fill), foldRes loadFillItem f ns = loadFillItems f ns
  | [], _ => rfl
  | n :: ns, f => by
    unfold foldRes loadFillItems
    cases loadFillItem f n with
    | error e => rfl
    | ok f' => exact foldRes_fillItems ns f'

theorem foldRes_borderItems : ∀ (ns : List Node) (x : Border), foldRes loadBorderItem x ns = loadBorderItems x ns
  | [], _ => rfl
  | n :: ns, x => by
    unfold foldRes loadBorderItems
    cases loadBorderItem x n with
    | error e => rfl
    | ok x' => exact foldRes_borderItems ns x'

theorem reads_font {u : Unicode} : Reads u arenaFont (pushOf loadFont) := by
  intro acc e d hinv hk
  obtain ⟨h1, h2⟩ := drain_last (u := u) (check := noCheck) (missing := some (.fail "Failed to pull child element"))
    (reads_looks (f := loadFontItem) (fun _ _ _ _ _ => rfl)) {} e d hinv hk
  rw [foldRes_noCheck, foldRes_fontItems] at h1
  unfold arenaFont pushOf loadFont
  generalize drain noCheck (some (.fail "Failed to pull child element")) (looks loadFontItem) e.children {} d = r at h1 h2 ⊢
  obtain ⟨r, d1⟩ := r
  simp only at h1 h2
  rw [← h1]
  cases r with
  | error er => exact ⟨rfl, h2⟩
  | ok f => exact ⟨rfl, h2⟩

theorem bare_attr {d : XmlDoc} (e : Elem) (key : String) : e.bare.attr? key = (ownTree d e).attr? key := rfl

theorem reads_fill {u : Unicode} : Reads u arenaFill (pushOf loadFill) := by
  intro acc e d hinv hk
  obtain ⟨h1, h2, h3⟩ := popFirst_reads (u := u) hinv hk
  unfold arenaFill pushOf loadFill
  rw [← h1]
  generalize popFirst e d = r at h1 h2 h3 ⊢
  obtain ⟨o, d1⟩ := r
  cases o with
  | none => exact ⟨rfl, h2⟩
  | some p =>
    simp only [Option.map_some]
    rw [← bare_attr]
    obtain ⟨hkp, hdesc⟩ := h3 p rfl
    cases p.bare.attr? "patternType" with
    | none => exact ⟨rfl, h2⟩
    | some t =>
      simp only
      obtain ⟨k1, k2⟩ := drain_last (u := u) (check := noCheck) (missing := none)
        (reads_looks (f := loadFillItem) (fun _ _ _ _ _ => rfl)) { pattern := PatternType.parse t } p d1 h2.inv hkp
      rw [foldRes_noCheck, foldRes_fillItems] at k1
      generalize drain noCheck none (looks loadFillItem) p.children { pattern := PatternType.parse t } d1 = r at k1 k2 ⊢
      obtain ⟨r, d2⟩ := r
      simp only at k1 k2
      rw [← k1]
      have hc : Cut u d d2 (e.children.map Child.id) := h2.trans k2 (fun i hi => ⟨i, hi, .refl⟩) hdesc
      cases r with
      | error er => exact ⟨rfl, hc⟩
      | ok f => exact ⟨rfl, hc⟩

theorem arenaSide_eq {u : Unicode} {s : BorderSide} {e : Elem} {d : XmlDoc} (hinv : d.Inv) (hk : Kids d e.children) :
    (arenaSide s e d).1 = loadSide s (ownTree d e) ∧ Cut u d (arenaSide s e d).2 (e.children.map Child.id) := by
  obtain ⟨h1, h2, _⟩ := popFirst_reads (u := u) hinv hk
  unfold arenaSide loadSide
  rw [← bare_attr]
  cases e.bare.attr? "style" with
  | none => exact ⟨rfl, Cut.refl hinv _⟩
  | some t =>
    simp only
    by_cases hb : BorderKind.parse t ≠ .none
    · rw [if_pos hb, if_pos hb, ← h1]
      generalize popFirst e d = r at h1 h2 ⊢
      obtain ⟨o, d1⟩ := r
      cases o with
      | none => exact ⟨rfl, h2⟩
      | some c => exact ⟨rfl, h2⟩
    · rw [if_neg hb, if_neg hb]
      exact ⟨rfl, Cut.refl hinv _⟩

theorem reads_borderItem {u : Unicode} : Reads u arenaBorderItem loadBorderItem := by
  intro x e d hinv hk
  have side : ∀ s, (arenaSide s e d).1 = loadSide s (ownTree d e) ∧ Cut u d (arenaSide s e d).2 (e.children.map Child.id) :=
    fun s => arenaSide_eq hinv hk
  unfold arenaBorderItem loadBorderItem
  have ht : (ownTree d e).tag = e.tag := rfl
  rw [ht]
  by_cases h1 : e.tag = "left"
  · rw [if_pos h1, if_pos h1]; exact ⟨by rw [(side _).1], (side _).2⟩
  · rw [if_neg h1, if_neg h1]
    by_cases h2 : e.tag = "right"
    · rw [if_pos h2, if_pos h2]; exact ⟨by rw [(side _).1], (side _).2⟩
    · rw [if_neg h2, if_neg h2]
      by_cases h3 : e.tag = "top"
      · rw [if_pos h3, if_pos h3]; exact ⟨by rw [(side _).1], (side _).2⟩
      · rw [if_neg h3, if_neg h3]
        by_cases h4 : e.tag = "bottom"
        · rw [if_pos h4, if_pos h4]; exact ⟨by rw [(side _).1], (side _).2⟩
        · rw [if_neg h4, if_neg h4]
          by_cases h5 : e.tag = "diagonal"
          · rw [if_pos h5, if_pos h5]; exact ⟨by rw [(side _).1], (side _).2⟩
          · rw [if_neg h5, if_neg h5]; exact ⟨rfl, Cut.refl hinv _⟩

theorem reads_border {u : Unicode} : Reads u arenaBorder (pushOf loadBorder) := by
  intro acc e d hinv hk
  obtain ⟨h1, h2⟩ := drain_last (u := u) (check := noCheck) (missing := none) reads_borderItem {} e d hinv hk
  rw [foldRes_noCheck, foldRes_borderItems] at h1
  unfold arenaBorder pushOf loadBorder
  generalize drain noCheck none arenaBorderItem e.children {} d = r at h1 h2 ⊢
  obtain ⟨r, d1⟩ := r
  simp only at h1 h2
  rw [← h1]
  cases r with
  | error er => exact ⟨rfl, h2⟩
  | ok f => exact ⟨rfl, h2⟩

theorem loadXf_children (t : String) (a : Attrs) (v : Option String) (cs : List Node) :
    loadXf (.mk t (some a) v cs) =
      match loadXf (.mk t (some a) v []) with
      | .error e => .error e
      | .ok x => .ok (loadAlign x (.mk t (some a) v cs)) := by
  unfold loadXf
  simp only [Node.attrs]
  cases u16Attr a "numFmtId" with
  | error e => rfl
  | ok nf =>
    cases u16Attr a "fontId" with
    | error e => rfl
    | ok fo =>
      cases u16Attr a "fillId" with
      | error e => rfl
      | ok fi =>
        cases u16Attr a "borderId" with
        | error e => rfl
        | ok bo =>
          cases u16Attr a "xfId" with
          | error e => rfl
          | ok xf => rfl

theorem reads_xf {u : Unicode} : Reads u arenaXf (pushOf loadXf) := by
  intro acc e d hinv hk
  obtain ⟨h1, h2, _⟩ := popFirst_reads (u := u) hinv hk
  unfold arenaXf pushOf
  cases ha : e.attrs with
  | none =>
    refine ⟨?_, Cut.refl hinv _⟩
    unfold ownTree loadXf
    rw [ha]
    rfl
  | some a =>
    simp only
    have e1 : ownTree d e = .mk e.tag (some a) e.value (ownTree d e).children := by unfold ownTree; rw [ha]; rfl
    have e2 : e.bare = .mk e.tag (some a) e.value [] := by unfold Elem.bare; rw [ha]
    rw [e1, loadXf_children, e2]
    cases loadXf (.mk e.tag (some a) e.value []) with
    | error er => exact ⟨rfl, Cut.refl hinv _⟩
    | ok x =>
      simp only
      have e3 : loadAlign x (.mk e.tag (some a) e.value (ownTree d e).children) =
          match (ownTree d e).children.head? with
          | none => x
          | some c => loadAlign x (.mk e.tag (some a) e.value [c]) := by
        unfold loadAlign
        simp only [Node.children]
        cases (ownTree d e).children.head? <;> rfl
      rw [e3, ← h1]
      generalize popFirst e d = r at h1 h2 ⊢
      obtain ⟨o, d1⟩ := r
      cases o with
      | none => exact ⟨rfl, h2⟩
      | some c => exact ⟨rfl, h2⟩

/-- The children of the last of the elements. -/
def lastChildren (l : List Node) : List Node :=
  match l.getLast? with
  | none => []
  | some n => n.children

theorem table_reads {α : Type} {u : Unicode} {missing : Option Err} {body : List α → Elem → XmlDoc → Res (List α) × XmlDoc}
    {f : List α → Node → Res (List α)} (hb : Reads u body f) {d : XmlDoc} (hinv : d.Inv) (tag : String) :
    (arenaTable tag missing body d).1 = foldRes f [] (lastWith d.toXDoc tag) ∧
      Leaves u d (arenaTable tag missing body d).2 (d.toXDoc.popTag tag).2 := by
  obtain ⟨h1, h2⟩ := popLast_drain (check := noCheck) (missing := missing) hb hinv tag [] []
  refine ⟨?_, h2⟩
  unfold arenaTable
  rw [h1]
  unfold lastWith XDoc.popTag
  simp only
  cases (d.toXDoc.rootChildren.filter (fun n => decide (n.tag = tag))).getLast? with
  | none => rfl
  | some n => exact foldRes_noCheck _ _

theorem lastWith_popTag {x : XDoc} {a b : String} (h : b ≠ a) : lastWith (x.popTag a).2 b = lastWith x b := by
  unfold lastWith XDoc.popTag
  have : (XDoc.rootChildren (x.mapRootChildren (fun cs => cs.filter (fun n => decide (n.tag ≠ a))))).filter (fun n => decide (n.tag = b)) =
      x.rootChildren.filter (fun n => decide (n.tag = b)) := by
    unfold XDoc.mapRootChildren XDoc.rootChildren
    cases x.root with
    | none => rfl
    | some r =>
      simp only [Option.map_some, Node.withChildren, Node.children]
      cases r with
      | mk t at' v cs =>
        rw [List.filter_filter]
        apply List.filter_congr
        intro n _
        by_cases hn : n.tag = b
        · simp [hn, h]
        · simp [hn]
  simp only [this]

theorem mapRootChildren_comp (x : XDoc) (f g : List Node → List Node) :
    (x.mapRootChildren f).mapRootChildren g = x.mapRootChildren (fun cs => g (f cs)) := by
  unfold XDoc.mapRootChildren
  cases x.root with
  | none => rfl
  | some r =>
    cases r with
    | mk t a v cs => rfl

theorem mapRootChildren_congr (x : XDoc) {f g : List Node → List Node} (h : ∀ cs, f cs = g cs) : x.mapRootChildren f = x.mapRootChildren g := by
  have : f = g := funext h
  rw [this]

theorem popTag_styles (x : XDoc) :
    ((((((x.popTag "numFmts").2.popTag "fonts").2.popTag "fills").2.popTag "borders").2.popTag "cellStyleXfs").2.popTag "cellXfs").2 =
      x.mapRootChildren (fun cs => cs.filter (fun n => n.tag ∉ styleTags)) := by
  unfold XDoc.popTag
  simp only [mapRootChildren_comp]
  apply mapRootChildren_congr
  intro cs
  simp only [List.filter_filter]
  apply List.filter_congr
  intro n _
  simp [styleTags, and_comm, and_assoc, Bool.and_left_comm]

theorem arenaLoadStyles_eq {u : Unicode} {d : XmlDoc} (hinv : d.Inv) :
    (arenaLoadStyles d).1 = (Styles.load d.toXDoc).1 ∧ (arenaLoadStyles d).2.Inv ∧ (Reachable u d → Reachable u (arenaLoadStyles d).2) ∧
      ∀ st, (arenaLoadStyles d).1 = .ok st → (arenaLoadStyles d).2.toXDoc = (Styles.load d.toXDoc).2 := by
  unfold arenaLoadStyles Styles.load
  rw [← popTag_styles]
  generalize hx : d.toXDoc = x
  obtain ⟨a1, a2⟩ := table_reads (u := u) (missing := some (.fail "Element not Found Error"))
    (reads_looks (f := fun acc n => pushOpt acc (loadNumFmt n)) (fun _ _ _ _ _ => rfl)) hinv "numFmts"
  rw [foldRes_pushOpt, hx] at a1
  rw [hx] at a2
  generalize arenaTable "numFmts" _ _ d = r at a1 a2 ⊢
  obtain ⟨r, d1⟩ := r
  simp only at a1 a2
  subst a1
  cases mapRes loadNumFmt (lastWith x "numFmts") with
  | error e =>
    refine ⟨?_, a2.inv, a2.reach, fun st h => by cases h⟩
    simp only [Except.map]
  | ok nf =>
    simp only [Except.map, List.nil_append]
    obtain ⟨b1, b2⟩ := table_reads (u := u) (missing := some (.fail "Element not Found Error")) reads_font a2.inv "fonts"
    rw [foldRes_push, map_nil_append, a2.doc, lastWith_popTag (by decide)] at b1
    rw [a2.doc] at b2
    have l2 := a2.trans b2
    generalize arenaTable "fonts" _ _ d1 = r at b1 b2 l2 ⊢
    obtain ⟨r, d2⟩ := r
    simp only at b1 b2 l2
    subst b1
    cases mapRes loadFont (lastWith x "fonts") with
    | error e =>
      refine ⟨?_, l2.inv, l2.reach, fun st h => by cases h⟩
      simp only
    | ok fonts =>
      simp only
      obtain ⟨c1, c2⟩ := table_reads (u := u) (missing := some (.fail "Failed to pull child element")) reads_fill l2.inv "fills"
      rw [foldRes_push, map_nil_append, l2.doc, lastWith_popTag (by decide), lastWith_popTag (by decide)] at c1
      rw [l2.doc] at c2
      have l3 := l2.trans c2
      generalize arenaTable "fills" _ _ d2 = r at c1 c2 l3 ⊢
      obtain ⟨r, d3⟩ := r
      simp only at c1 c2 l3
      subst c1
      cases mapRes loadFill (lastWith x "fills") with
      | error e =>
        refine ⟨?_, l3.inv, l3.reach, fun st h => by cases h⟩
        simp only
      | ok fills =>
        simp only
        obtain ⟨e1, e2⟩ := table_reads (u := u) (missing := none) reads_border l3.inv "borders"
        rw [foldRes_push, map_nil_append, l3.doc, lastWith_popTag (by decide), lastWith_popTag (by decide), lastWith_popTag (by decide)] at e1
        rw [l3.doc] at e2
        have l4 := l3.trans e2
        generalize arenaTable "borders" _ _ d3 = r at e1 e2 l4 ⊢
        obtain ⟨r, d4⟩ := r
        simp only at e1 e2 l4
        subst e1
        cases mapRes loadBorder (lastWith x "borders") with
        | error e =>
          refine ⟨?_, l4.inv, l4.reach, fun st h => by cases h⟩
          simp only
        | ok borders =>
          simp only
          obtain ⟨f1, f2⟩ := table_reads (u := u) (missing := none) reads_xf l4.inv "cellStyleXfs"
          rw [foldRes_push, map_nil_append, l4.doc, lastWith_popTag (by decide), lastWith_popTag (by decide), lastWith_popTag (by decide),
            lastWith_popTag (by decide)] at f1
          rw [l4.doc] at f2
          have l5 := l4.trans f2
          generalize arenaTable "cellStyleXfs" _ _ d4 = r at f1 f2 l5 ⊢
          obtain ⟨r, d5⟩ := r
          simp only at f1 f2 l5
          subst f1
          cases mapRes loadXf (lastWith x "cellStyleXfs") with
          | error e =>
            refine ⟨?_, l5.inv, l5.reach, fun st h => by cases h⟩
            simp only
          | ok sx =>
            simp only
            obtain ⟨g1, g2⟩ := table_reads (u := u) (missing := none) reads_xf l5.inv "cellXfs"
            rw [foldRes_push, map_nil_append, l5.doc, lastWith_popTag (by decide), lastWith_popTag (by decide), lastWith_popTag (by decide),
              lastWith_popTag (by decide), lastWith_popTag (by decide)] at g1
            rw [l5.doc] at g2
            have l6 := l5.trans g2
            generalize arenaTable "cellXfs" _ _ d5 = r at g1 g2 l6 ⊢
            obtain ⟨r, d6⟩ := r
            simp only at g1 g2 l6
            subst g1
            cases mapRes loadXf (lastWith x "cellXfs") with
            | error e =>
              refine ⟨?_, l6.inv, l6.reach, fun st h => by cases h⟩
              simp only
            | ok cx =>
              simp only
              exact ⟨trivial, l6.inv, l6.reach, fun st _ => l6.doc⟩

/-! ## Content types of the parts -/

/-- Elements were taken out of the arena, all of them children of the root with one of the part names. -/
structure Taken (d d' : XmlDoc) (names : List String) : Prop where
  sub : ∀ j x, d'.get j = some x → d.get j = some x
  root : d'.get 0 = d.get 0
  gone : ∀ j x, d.get j = some x → d'.get j = none → ∃ n ∈ names, x.bare.attr? "PartName" = some ("/" ++ n)

theorem idsByAttribute_eq (d : XmlDoc) (key value : String) {e : Elem} (he : d.get 0 = some e) :
    d.idsByAttribute key value 0 = (e.children.filter (fun c => (d.get c.id).any (fun x => x.bare.attr? key = some value))).map Child.id := by
  unfold XmlDoc.idsByAttribute
  rw [he]
  simp only
  congr 1
  apply List.filter_congr
  intro c _
  cases d.get c.id with
  | none => rfl
  | some x =>
    obtain ⟨i, p, t, a, v, cs⟩ := x
    cases a with
    | none => rfl
    | some a => rfl

theorem slash_inject {a b : String} (h : "/" ++ a = "/" ++ b) : a = b := by
  have := congrArg String.toList h
  simp only [String.toList_append] at this
  have := List.append_cancel_left this
  exact String.toList_inj.mp this

theorem arenaOverride_eq {d d' : XmlDoc} {names : List String} {e : Elem} (hinv : d.Inv) (he : d.get 0 = some e) (ht : Taken d d' names)
    {name : String} (hn : name ∉ names) (htag : ∀ n ∈ d.toXDoc.rootChildren, n.tag ≠ "Default") :
    (arenaOverride d' name).1 = overrideContentType d.toXDoc name ∧ Taken d (arenaOverride d' name).2 (name :: names) := by
  have hids : d'.idsByAttribute "PartName" ("/" ++ name) 0 = d.idsByAttribute "PartName" ("/" ++ name) 0 := by
    rw [idsByAttribute_eq d' _ _ (by rw [ht.root]; exact he), idsByAttribute_eq d _ _ he]
    congr 1
    apply List.filter_congr
    intro c hc
    obtain ⟨hlt, x, hx, _⟩ := hinv.tree.child _ _ he c hc
    cases hy : d'.get c.id with
    | some y =>
      have := ht.sub _ _ hy
      rw [this]
    | none =>
      obtain ⟨m, hm, hp⟩ := ht.gone _ _ hx hy
      rw [hx]
      simp only [Option.any_none, Option.any_some, hp]
      symm
      rw [decide_eq_false_iff_not]
      intro h
      have := slash_inject (Option.some.inj h)
      exact hn (this ▸ hm)
  have hrc : d.toXDoc.rootChildren = e.children.map (fun c => d.tree c.id) := by
    unfold XDoc.rootChildren
    rw [toXDoc_some hinv he, tree_eq hinv he]
    rfl
  have hfil : (d.toXDoc.rootChildren.filter (fun n => decide (n.tag ≠ "Default"))).filter (fun n => decide (n.attr? "PartName" = some ("/" ++ name))) =
      (e.children.filter (fun c => (d.get c.id).any (fun x => x.bare.attr? "PartName" = some ("/" ++ name)))).map (fun c => d.tree c.id) := by
    have h0 : d.toXDoc.rootChildren.filter (fun n => decide (n.tag ≠ "Default")) = d.toXDoc.rootChildren :=
      List.filter_eq_self.mpr (by intro n hn; simpa using htag n hn)
    rw [h0, hrc, List.filter_map]
    congr 1
    apply List.filter_congr
    intro c hc
    obtain ⟨hlt, x, hx, _⟩ := hinv.tree.child _ _ he c hc
    simp only [Function.comp_apply, hx, Option.any_some]
    rw [tree_eq hinv hx]
    rfl
  unfold arenaOverride overrideContentType
  rw [hids, hfil, idsByAttribute_eq d _ _ he, List.getLast?_map, List.getLast?_map]
  cases hl : (e.children.filter (fun c => (d.get c.id).any (fun x => x.bare.attr? "PartName" = some ("/" ++ name)))).getLast? with
  | none => exact ⟨rfl, ht.sub, ht.root, fun j x h1 h2 => by
      obtain ⟨n, hn, h⟩ := ht.gone j x h1 h2
      exact ⟨n, by simp [hn], h⟩⟩
  | some c =>
    have hcm := List.mem_filter.mp (List.mem_of_getLast? hl)
    obtain ⟨hlt, x, hx, _⟩ := hinv.tree.child _ _ he c hcm.1
    have hpart : x.bare.attr? "PartName" = some ("/" ++ name) := by
      have := hcm.2
      rw [hx] at this
      simpa using this
    have hx' : d'.get c.id = some x := by
      cases hy : d'.get c.id with
      | some y => rw [ht.sub _ _ hy] at hx; exact hx
      | none =>
        obtain ⟨m, hm, hp⟩ := ht.gone _ _ hx hy
        rw [hpart] at hp
        exact absurd (slash_inject (Option.some.inj hp)) (fun h => hn (h ▸ hm))
    have hget : ∀ j, (d'.popElement c.id).1.get j = if c.id = j then none else d'.get j := by
      intro j
      change aget j (aerase c.id d'.elems) = _
      rw [aget_aerase]
      rfl
    have htk : Taken d (d'.popElement c.id).1 (name :: names) := by
      refine ⟨?_, ?_, ?_⟩
      · intro j y hy
        rw [hget] at hy
        split at hy
        · cases hy
        · exact ht.sub _ _ hy
      · rw [hget, if_neg (by omega)]; exact ht.root
      · intro j y hy hn'
        rw [hget] at hn'
        split at hn'
        · rename_i h
          subst h
          rw [hx] at hy
          cases hy
          exact ⟨name, by simp, hpart⟩
        · obtain ⟨n, hn, h⟩ := ht.gone j y hy hn'
          exact ⟨n, by simp [hn], h⟩
    simp only [Option.map_some]
    have hp : d'.popElement c.id = ((d'.popElement c.id).1, some x) := by rw [← hx']; rfl
    rw [hp]
    simp only
    rw [tree_eq hinv hx]
    simp only [Node.attr?, Node.attrs]
    simp only [Elem.bare, Node.attr?, Node.attrs] at hpart
    cases hxa : x.attrs with
    | none => rw [hxa] at hpart; cases hpart
    | some a =>
      simp only
      cases aget "ContentType" a with
      | none => exact ⟨rfl, htk⟩
      | some t => exact ⟨rfl, htk⟩

theorem toXDoc_none {d : XmlDoc} (h : d.get 0 = none) : d.toXDoc.root = none := by
  unfold XmlDoc.toXDoc XmlDoc.toNode
  rw [h]

theorem taken_refl (d : XmlDoc) : Taken d d [] := ⟨fun _ _ h => h, rfl, fun j x h1 h2 => by rw [h1] at h2; cases h2⟩

theorem arenaTypes_from {d : XmlDoc} {e : Elem} (hinv : d.Inv) (he : d.get 0 = some e)
    (htag : ∀ n ∈ d.toXDoc.rootChildren, n.tag ≠ "Default") :
    ∀ (names : List String) (d' : XmlDoc) (before : List String), Taken d d' before → names.Nodup → (∀ n ∈ names, n ∉ before) →
      (arenaTypes d' names).1 = mapRes (overrideContentType d.toXDoc) names
  | [], _, _, _, _, _ => rfl
  | name :: names, d', before, ht, hnd, hb => by
    obtain ⟨h1, h2⟩ := arenaOverride_eq hinv he ht (hb name (by simp)) htag
    unfold arenaTypes mapRes
    rw [← h1]
    generalize arenaOverride d' name = r at h1 h2 ⊢
    obtain ⟨r, d1⟩ := r
    cases r with
    | error er => rfl
    | ok t =>
      simp only
      have hnd' := List.nodup_cons.mp hnd
      have := arenaTypes_from hinv he htag names d1 (name :: before) h2 hnd'.2 (by
        intro n hn hm
        rcases List.mem_cons.mp hm with h | h
        · exact hnd'.1 (h ▸ hn)
        · exact hb n (by simp [hn]) h)
      rw [← this]
      generalize arenaTypes d1 names = r
      obtain ⟨r, d2⟩ := r
      cases r <;> rfl

theorem arenaTypes_none {d : XmlDoc} (h : d.get 0 = none) : ∀ names : List String,
    (arenaTypes d names).1 = mapRes (overrideContentType d.toXDoc) names
  | [] => rfl
  | name :: names => by
    have e1 : arenaOverride d name = (.ok none, d) := by
      unfold arenaOverride XmlDoc.idsByAttribute
      rw [h]
      rfl
    have e2 : overrideContentType d.toXDoc name = .ok none := by
      have : d.toXDoc.rootChildren = [] := by
        unfold XDoc.rootChildren
        rw [toXDoc_none h]
      unfold overrideContentType
      rw [this]
      rfl
    unfold arenaTypes mapRes
    rw [e1, e2, ← arenaTypes_none h names]
    simp only
    generalize arenaTypes d names = r
    obtain ⟨r, d2⟩ := r
    cases r <;> rfl

/-- The content types found for the parts of an archive, after the extensions were taken out. -/
theorem arenaTypes_eq {d : XmlDoc} (hinv : d.Inv) (htag : ∀ n ∈ d.toXDoc.rootChildren, n.tag ≠ "Default")
    {names : List String} (hnd : names.Nodup) : (arenaTypes d names).1 = mapRes (overrideContentType d.toXDoc) names := by
  cases he : d.get 0 with
  | none => exact arenaTypes_none he names
  | some e => exact arenaTypes_from hinv he htag names d [] (taken_refl d) hnd (by simp)

end Oxml
