import Verif.Proofs.CycleDocs
/-!
# Each own part, read from a saved file and saved again unchanged
-/
namespace Oxml
open Spec

theorem plain_root {t : String} {a : Option Attrs} {l : List Node} (h : PlainNode (reload (.mk t a none l))) :
    reloadAttrs (some (reloadAttrs a)) = reloadAttrs a ∧ (l.map reload).map reload = l.map reload := by
  simp only [reload] at h
  rw [PlainNode] at h
  refine ⟨reloadAttrs_fix h.1, ?_⟩
  rw [← reloads_eq, ← reloads_eq]
  exact reloads_fix l h.2

/-- The document read from a saved part. -/
theorem reloadDoc_mk (b : Build) (ns : Attrs) (t : String) (a : Option Attrs) (l : List Node) :
    reloadDoc b ⟨ns, some (.mk t a none l)⟩ = ⟨releaseNs b ns, some (.mk t (some (reloadAttrs a)) none (l.map reload))⟩ := by
  unfold reloadDoc
  simp only [Option.map_some, reload, reloads_eq]

/-! ### Parts whose elements are put at the end -/

theorem settled_append {b : Build} {ns : Attrs} {t T : String} {a : Option Attrs} {cs nodes nodes' : List Node} {d2 : XDoc}
    (hcs : ∀ c ∈ cs, c.tag ≠ T) (hn : ∀ c ∈ nodes, c.tag = T) (hp : PlainNode (reload (.mk t a none (cs ++ nodes))))
    (hr : nodes'.map reload = nodes.map reload)
    (h : ((reloadDoc b ⟨ns, some (.mk t a none (cs ++ nodes))⟩).popTag T).2.appendAll nodes' = .ok d2) :
    reloadDoc b d2 = reloadDoc b ⟨ns, some (.mk t a none (cs ++ nodes))⟩ := by
  obtain ⟨h1, h2⟩ := plain_root hp
  have e : (((cs ++ nodes).map reload).filter (fun n => n.tag ≠ T)) = cs.map reload := by
    rw [List.map_append]
    apply filter_ne_tag_append
    · intro c hc
      obtain ⟨n, hn, rfl⟩ := List.mem_map.mp hc
      rw [reload_tag]; exact hcs n hn
    · intro c hc
      obtain ⟨n, hn', rfl⟩ := List.mem_map.mp hc
      rw [reload_tag]; exact hn n hn'
  have hroot : ((reloadDoc b ⟨ns, some (.mk t a none (cs ++ nodes))⟩).popTag T).2 = ⟨releaseNs b ns, some (.mk t (some (reloadAttrs a)) none (cs.map reload))⟩ := by
    rw [reloadDoc_mk]
    unfold XDoc.popTag XDoc.mapRootChildren
    simp only [Option.map_some, Node.withChildren, Node.children, e]
  rw [hroot, appendAll_doc rfl] at h
  cases h
  rw [reloadDoc_mk, reloadDoc_mk, releaseNs_twice, h1]
  rw [List.map_append, List.map_append] at h2
  have h3 := (List.append_inj h2 (by simp)).1
  rw [List.map_append, List.map_append, h3, hr]

/-! ### The string table -/

theorem trimmed_reload {table : List String} (h : TrimmedTexts table) : table.map (fun s => (reloadText s).getD "") = table := by
  conv => rhs; rw [← List.map_id table]
  apply List.map_congr_left
  intro t ht
  unfold reloadText
  rw [h t ht]
  split
  · next e => exact (String.toList_inj.mp (show t.toList = _ by rw [e]; rfl)).symm
  · simp

theorem settled_strings {u : Unicode} {b : Build} {ns : Attrs} {t : String} {a : Attrs} {cs : List Node} {table : List String} {d d2 : XDoc}
    (hx : WfDoc u ⟨ns, some (.mk t (some a) none cs)⟩ (.mk t (some a) none cs)) (hcs : ∀ c ∈ cs, c.tag ≠ "si")
    (h : saveStrings ⟨ns, some (.mk t (some a) none cs)⟩ table = .ok d) {r : Node} (hr : (reloadDoc b d).root = some r) (hp : PlainNode r)
    (h2 : saveStrings (loadStrings (reloadDoc b d)).2 table = .ok d2) : reloadDoc b d2 = reloadDoc b d := by
  unfold saveStrings at h
  rw [insertRootAttrs_doc rfl, appendAll_doc rfl] at h
  cases h
  simp only [List.foldl_cons, List.foldl_nil] at *
  have hwa := wfAttrs_insert (wfAttrs_insert hx.names.2.1 (toString table.length) (validName_ascii (n := "count") u (by decide +kernel)) (by decide +kernel))
    (toString (distinctCount table)) (validName_ascii (n := "uniqueCount") u (by decide +kernel)) (by decide +kernel)
  generalize hA : ainsert "uniqueCount" (toString (distinctCount table)) (ainsert "count" (toString table.length) a) = A at *
  have g1 : aget "count" (reloadAttrs (some A)) = some (toString table.length) := by
    rw [aget_reloadAttrs hwa, ← hA]
    simp only [Option.getD_some]
    rw [aget_ainsert_ne (by simp), aget_ainsert_self]
    exact congrArg some (escStr_eq_self (noSpecials_nat _))
  have g2 : aget "uniqueCount" (reloadAttrs (some A)) = some (toString (distinctCount table)) := by
    rw [aget_reloadAttrs hwa, ← hA]
    simp only [Option.getD_some]
    rw [aget_ainsert_self]
    exact congrArg some (escStr_eq_self (noSpecials_nat _))
  have hrr : r = reload (.mk t (some A) none (cs ++ table.map siNode)) := by
    unfold reloadDoc at hr; exact (Option.some.inj hr).symm
  rw [hrr] at hp
  refine settled_append (T := "si") hcs ?_ hp rfl ?_
  · intro c hc
    obtain ⟨s, _, rfl⟩ := List.mem_map.mp hc
    rfl
  · unfold loadStrings at h2
    simp only at h2
    have e : ∃ l, ((reloadDoc b ⟨ns, some (.mk t (some A) none (cs ++ table.map siNode))⟩).popTag "si").2 =
        ⟨releaseNs b ns, some (.mk t (some (reloadAttrs (some A))) none l)⟩ := by
      rw [reloadDoc_mk]
      exact ⟨_, rfl⟩
    obtain ⟨l, e⟩ := e
    unfold saveStrings at h2
    rw [e, insertRootAttrs_doc rfl] at h2
    simp only [List.foldl_cons, List.foldl_nil] at h2
    rw [ainsert_held g1, ainsert_held g2] at h2
    rw [e]
    exact h2

/-! ### The workbook -/

theorem lastNodeIdx_map {f : Node → Node} (hf : ∀ n, (f n).tag = n.tag) (t : String) (cs : List Node) :
    insertNodeAfter.lastNodeIdx t (cs.map f) = insertNodeAfter.lastNodeIdx t cs := by
  induction cs with
  | nil => rfl
  | cons c cs ih => rw [List.map_cons, insertNodeAfter.lastNodeIdx, insertNodeAfter.lastNodeIdx, ih, hf]

theorem insertNodeAfter_map {f : Node → Node} (hf : ∀ n, (f n).tag = n.tag) (n : Node) (t : String) (cs : List Node) :
    (insertNodeAfter n t cs).map f = insertNodeAfter (f n) t (cs.map f) := by
  unfold insertNodeAfter
  rw [lastNodeIdx_map hf]
  cases insertNodeAfter.lastNodeIdx t cs with
  | none => simp
  | some i => simp [List.map_take, List.map_drop]

theorem orderNodes_map {f : Node → Node} (hf : ∀ n, (f n).tag = n.tag) (sk : List String) (cs : List Node) :
    (orderChildren Node.tag sk cs).map f = orderChildren Node.tag sk (cs.map f) := by
  unfold orderChildren
  by_cases h : cs ≠ [] ∧ sk ≠ []
  · rw [if_pos h, if_pos ⟨by simpa using h.1, h.2⟩, ← stableSort_map f (fun c => orderKey sk c.tag)]
    congr 1
    apply stableSort_congr
    intro c _
    rw [hf]
  · rw [if_neg h, if_neg (by simpa using h)]

/-- `placeBook` with the elements already made. -/
def placeNodes (v : Option Node) (s : Node) (cs : List Node) : List Node :=
  orderChildren Node.tag workbookOrder (insertNodeAfter s "bookViews" (match v with | some v => insertNodeAfter v "fileVersion" cs | none => cs))

theorem placeBook_nodes (sheets : List SheetEntry) (view : Option BookView) (cs : List Node) :
    placeBook sheets view cs = placeNodes (view.map (fun v => .mk "bookViews" none none [bookViewNode v])) (.mk "sheets" none none (sheetNodes 1 sheets)) cs := by
  unfold placeBook placeNodes
  cases view <;> rfl

theorem placeNodes_map {f : Node → Node} (hf : ∀ n, (f n).tag = n.tag) (v : Option Node) (s : Node) (cs : List Node) :
    (placeNodes v s cs).map f = placeNodes (v.map f) (f s) (cs.map f) := by
  unfold placeNodes
  rw [orderNodes_map hf, insertNodeAfter_map hf]
  cases v with
  | none => rfl
  | some v => simp only [Option.map_some]; rw [insertNodeAfter_map hf]

theorem lastIdx_get {t : String} {sk : List String} {i : Nat} (h : orderKey.lastIdx t sk = some i) : sk[i]? = some t := by
  induction sk generalizing i with
  | nil => cases h
  | cons x sk ih =>
    unfold orderKey.lastIdx at h
    split at h
    · next j e => cases h; simpa using ih e
    · split at h
      · next e => cases h; simp [e]
      · cases h

theorem bookKey {t : String} {i : Nat} (hi : i < usizeMax) (h : orderKey workbookOrder t = i) : workbookOrder[i]? = some t := by
  unfold orderKey at h
  split at h
  · next j e => subst h; exact lastIdx_get e
  · omega

/-- Lists in the order of their keys with the same elements under every key, in order, are the same. -/
theorem sorted_ext {α : Type} {key : α → Nat} {l l' : List α} (h : l.Pairwise (fun a b => key a ≤ key b)) (h' : l'.Pairwise (fun a b => key a ≤ key b))
    (hf : ∀ k, l.filter (fun a => key a = k) = l'.filter (fun a => key a = k)) : l = l' := by
  induction l generalizing l' with
  | nil =>
    cases l' with
    | nil => rfl
    | cons b l' => have := hf (key b); simp at this
  | cons a l ih =>
    cases l' with
    | nil => have := hf (key a); simp at this
    | cons b l' =>
      rw [List.pairwise_cons] at h h'
      have hk : key a = key b := by
        have h1 : a ∈ (b :: l').filter (fun c => key c = key a) := by rw [← hf]; simp
        have h2 : b ∈ (a :: l).filter (fun c => key c = key b) := by rw [hf]; simp
        have h1 := (List.mem_filter.mp h1).1
        have h2 := (List.mem_filter.mp h2).1
        rcases List.mem_cons.mp h1 with e | m1
        · rw [e]
        · rcases List.mem_cons.mp h2 with e | m2
          · rw [e]
          · exact Nat.le_antisymm (h.1 b m2) (h'.1 a m1)
      have e := hf (key a)
      rw [List.filter_cons_of_pos (by simp), List.filter_cons_of_pos (by simp [hk])] at e
      obtain ⟨rfl, _⟩ := List.cons.inj e
      congr 1
      apply ih h.2 h'.2
      intro k
      have := hf k
      rw [List.filter_cons, List.filter_cons] at this
      split at this
      · exact (List.cons.inj this).2
      · exact this

theorem orderNodes_sorted (l : List Node) :
    (orderChildren Node.tag workbookOrder l).Pairwise (fun a b => orderKey workbookOrder a.tag ≤ orderKey workbookOrder b.tag) := by
  unfold orderChildren
  split
  · exact stableSort_pairwise (fun c : Node => orderKey workbookOrder c.tag) l
  · next h =>
    cases l with
    | nil => exact List.Pairwise.nil
    | cons a l => exact absurd ⟨by simp, by decide⟩ h

theorem placeNodes_sorted (v : Option Node) (s : Node) (cs : List Node) :
    (placeNodes v s cs).Pairwise (fun a b => orderKey workbookOrder a.tag ≤ orderKey workbookOrder b.tag) := orderNodes_sorted _

theorem placeNodes_filter (v : Option Node) (s : Node) (cs : List Node) (hv : ∀ n, v = some n → n.tag = "bookViews") (hs : s.tag = "sheets")
    (hc : ∀ n ∈ cs, n.tag ∉ bookTags) (k : Nat) : (placeNodes v s cs).filter (fun n => orderKey workbookOrder n.tag = k) =
      if k = 6 then v.toList else if k = 7 then [s] else cs.filter (fun n => orderKey workbookOrder n.tag = k) := by
  have hk6 : orderKey workbookOrder "bookViews" = 6 := by decide +kernel
  have hk7 : orderKey workbookOrder "sheets" = 7 := by decide +kernel
  have h6 : cs.filter (fun n => orderKey workbookOrder n.tag = 6) = [] := by
    rw [List.filter_eq_nil_iff]
    intro n hn e
    have := bookKey (by decide) (of_decide_eq_true e)
    exact hc n hn (by simp [workbookOrder] at this; simp [bookTags, ← this])
  have h7 : cs.filter (fun n => orderKey workbookOrder n.tag = 7) = [] := by
    rw [List.filter_eq_nil_iff]
    intro n hn e
    have := bookKey (by decide) (of_decide_eq_true e)
    exact hc n hn (by simp [workbookOrder] at this; simp [bookTags, ← this])
  have ho : ∀ l : List Node, (orderChildren Node.tag workbookOrder l).filter (fun n => orderKey workbookOrder n.tag = k) =
      l.filter (fun n => orderKey workbookOrder n.tag = k) := by
    intro l
    unfold orderChildren
    split
    · apply stableSort_filter
      intro a b ha hb
      rw [of_decide_eq_true ha, of_decide_eq_true hb]
    · rfl
  unfold placeNodes
  rw [ho]
  by_cases e6 : k = 6
  · subst e6
    rw [if_pos rfl, insertNodeAfter_filter _ _ _ _ (by rw [hs, hk7]; rfl)]
    cases v with
    | none => exact h6
    | some n => exact insertNodeAfter_filter_new _ _ _ _ (by rw [hv n rfl, hk6]; rfl) h6
  · rw [if_neg e6]
    have e : (match v with | some v => insertNodeAfter v "fileVersion" cs | none => cs).filter (fun n => orderKey workbookOrder n.tag = k) =
        cs.filter (fun n => orderKey workbookOrder n.tag = k) := by
      cases v with
      | none => rfl
      | some n => exact insertNodeAfter_filter _ _ _ _ (by rw [hv n rfl, hk6]; exact decide_eq_false (fun h => e6 h.symm))
    by_cases e7 : k = 7
    · subst e7
      rw [if_pos rfl]
      exact insertNodeAfter_filter_new _ _ _ _ (by rw [hs, hk7]; rfl) (by rw [e]; exact h7)
    · rw [if_neg e7, insertNodeAfter_filter _ _ _ _ (by rw [hs, hk7]; exact decide_eq_false (fun h => e7 h.symm)), e]

/-- Placing again what was placed. -/
theorem placeNodes_again (v v0 : Option Node) (s s0 : Node) (cs : List Node) (hv : ∀ n, v = some n → n.tag = "bookViews") (hs : s.tag = "sheets")
    (hv0 : ∀ n, v0 = some n → n.tag = "bookViews") (hs0 : s0.tag = "sheets") (hc : ∀ n ∈ cs, n.tag ∉ bookTags) :
    placeNodes v s ((placeNodes v0 s0 cs).filter (fun n => n.tag ∉ bookTags)) = placeNodes v s cs := by
  apply sorted_ext (placeNodes_sorted _ _ _) (placeNodes_sorted _ _ _)
  intro k
  rw [placeNodes_filter v s cs hv hs hc, placeNodes_filter v s _ hv hs (by intro n hn; simpa using (List.mem_filter.mp hn).2)]
  by_cases e6 : k = 6
  · rw [if_pos e6, if_pos e6]
  · by_cases e7 : k = 7
    · rw [if_neg e6, if_neg e6, if_pos e7, if_pos e7]
    · rw [if_neg e6, if_neg e6, if_neg e7, if_neg e7, List.filter_filter]
      have : ∀ l : List Node, l.filter (fun a => (decide (orderKey workbookOrder a.tag = k)) && decide (a.tag ∉ bookTags)) =
          (l.filter (fun n => orderKey workbookOrder n.tag = k)).filter (fun n => n.tag ∉ bookTags) := by
        intro l
        rw [List.filter_filter]
        apply List.filter_congr
        intro n _
        rw [Bool.and_comm]
      rw [this, placeNodes_filter v0 s0 cs hv0 hs0 hc, if_neg e6, if_neg e7]
      apply List.filter_eq_self.mpr
      intro n hn
      simpa using hc n (List.mem_filter.mp hn).1

theorem sortAttrs_map {f : String × String → String × String} (hf : ∀ kv, (f kv).1 = kv.1) (a : Attrs) : sortAttrs (a.map f) = (sortAttrs a).map f := by
  have ins : ∀ (x : String × String) (l : Attrs), insertByKey (f x) (l.map f) = (insertByKey x l).map f := by
    intro x l
    induction l with
    | nil => rfl
    | cons y l ih =>
      rw [List.map_cons]
      unfold insertByKey
      rw [hf, hf]
      split
      · rfl
      · rw [ih]; rfl
  induction a with
  | nil => rfl
  | cons x a ih =>
    rw [List.map_cons]
    change insertByKey (f x) (sortAttrs (a.map f)) = (insertByKey x (sortAttrs a)).map f
    rw [ih, ins]

theorem flipFlag_key (kv : String × String) : (flipFlag kv).1 = kv.1 := by
  unfold flipFlag; split <;> rfl

theorem esc_one {v : String} : attrReload v = "1" ↔ v = "1" := by
  constructor
  · intro h
    apply escStr_inj
    exact h.trans (by decide +kernel)
  · rintro rfl; decide +kernel

theorem flip_esc (l : Attrs) : escAttrs (l.map flipFlag) = (escAttrs l).map flipFlag := by
  unfold escAttrs
  rw [List.map_map, List.map_map]
  apply List.map_congr_left
  intro kv _
  simp only [Function.comp]
  unfold flipFlag
  by_cases h : kv.1 = "showSheetTabs"
  · simp only [if_pos h, esc_one]
    by_cases h1 : kv.2 = "1"
    · rw [if_pos h1]
      exact congrArg (Prod.mk kv.1) (by decide +kernel)
    · rw [if_neg h1]
      exact congrArg (Prod.mk kv.1) (by decide +kernel)
  · simp only [if_neg h]

theorem flip_view (v : BookView) : bookViewNode (reloadBookView v) = flipView (escNode (bookViewNode v)) := by
  unfold bookViewNode
  rw [escNode, Option.map_some, escAttrs_present]
  simp only [flipView, Option.map_some]
  have e : ∀ T : List (String × Option String), (present T).map flipFlag =
      present (T.map (fun kv => (kv.1, kv.2.map (fun w => (flipFlag (kv.1, w)).2)))) := by
    intro T
    induction T with
    | nil => rfl
    | cons x T ih =>
      obtain ⟨k, w⟩ := x
      cases w with
      | none => exact ih
      | some w =>
        change flipFlag (k, w) :: (present T).map flipFlag = (k, (flipFlag (k, w)).2) :: present (T.map _)
        rw [ih]
        congr 1
        exact Prod.ext (flipFlag_key _) rfl
  rw [e, List.map_map]
  have e2 : bookViewTable (reloadBookView v) = (bookViewTable v).map ((fun kv : String × Option String => (kv.1, kv.2.map (fun w => (flipFlag (kv.1, w)).2))) ∘
      (fun kv : String × Option String => (kv.1, kv.2.map attrReload))) := by
    have z : attrReload "0" = "0" := by decide +kernel
    have o : attrReload "1" = "1" := by decide +kernel
    have hi : ∀ i : Int, attrReload (toString i) = toString i := fun i => attrReload_self (noSpecials_int i)
    unfold bookViewTable reloadBookView
    simp only [List.map_cons, List.map_nil, Function.comp]
    have key : ∀ (k : String) (w : Option String), k ≠ "showSheetTabs" → w.map (fun w => (flipFlag (k, w)).2) = w := by
      intro k w hk
      cases w with
      | none => rfl
      | some w => unfold flipFlag; simp [hk]
    rw [key "activeTab" _ (by simp), key "firstSheet" _ (by simp), key "tabRatio" _ (by simp), key "minimized" _ (by simp), key "visibility" _ (by simp),
      key "showVerticalScroll" _ (by simp), key "showHorizontalScroll" _ (by simp)]
    have t1 : (match v.dateGrouping with | some b => some (if b then (1 : Int) else 0) | none => v.tabRatio).map toString =
        (match v.dateGrouping with | some b => some (boolXmlFlag b) | none => v.tabRatio.map toString).map attrReload := by
      cases v.dateGrouping with
      | some b => cases b <;> exact congrArg some (by decide +kernel)
      | none =>
        cases v.tabRatio with
        | none => rfl
        | some i => exact congrArg some (hi i).symm
    have t2 : ∀ b, some (boolXmlFlag b) = (some (boolXmlFlag b)).map attrReload := by intro b; cases b <;> exact congrArg some (by decide +kernel)
    have t3 : ∀ b : Bool, some (if b then "0" else "1") = (some (if b then "0" else "1")).map attrReload := by
      intro b; cases b <;> exact congrArg some (by decide +kernel)
    have t4 : some (if (!v.hideTabs) then "0" else "1") = ((some (if v.hideTabs then "0" else "1")).map attrReload).map (fun w => (flipFlag ("showSheetTabs", w)).2) := by
      rw [← t3]
      cases v.hideTabs <;> exact congrArg some (by decide +kernel)
    simp only [← t2, ← t3, t4]
    exact congrArg (fun w => [("activeTab", v.activeTab.map attrReload), ("firstSheet", v.firstSheet.map attrReload), ("tabRatio", w), ("minimized", _),
      ("visibility", v.visibility.map attrReload), ("showSheetTabs", _), ("showVerticalScroll", _), ("showHorizontalScroll", _)]) t1
  rw [e2]
  rfl

theorem reload_flip (n : Node) : reload (flipView n) = flipView (reload n) := by
  obtain ⟨t, a, v, cs⟩ := n
  unfold flipView
  have e : reloadAttrs (a.map (fun l => l.map flipFlag)) = (reloadAttrs a).map flipFlag := by
    cases a with
    | none => rfl
    | some a => rw [Option.map_some, reloadAttrs_some, reloadAttrs_some, sortAttrs_map flipFlag_key, flip_esc]
  cases v with
  | none => simp only [reload, e, Option.map_some]
  | some v => simp only [reload, e, Option.map_some]

/-- `flipTabs` on one child of the root. -/
def flipChild (n : Node) : Node := if n.tag = "bookViews" then n.withChildren (n.children.map flipView) else n

theorem flipChild_tag (n : Node) : (flipChild n).tag = n.tag := by
  unfold flipChild
  split
  · cases n; rfl
  · rfl

theorem flipTabs_mk (ns : Attrs) (t : String) (a : Option Attrs) (v : Option String) (cs : List Node) :
    flipTabs ⟨ns, some (.mk t a v cs)⟩ = ⟨ns, some (.mk t a v (cs.map flipChild))⟩ := rfl

theorem loadBook_strip {x : XDoc} {r : List SheetEntry × Option BookView} (hl : (loadBook x).1 = .ok r) :
    (loadBook x).2 = x.mapRootChildren (fun cs => cs.filter (fun n => n.tag ∉ bookTags)) := by
  have e : (loadBook x).2 = ((x.popTag "bookViews").2.popTag "sheets").2 := by
    unfold loadBook at hl ⊢
    simp only at hl ⊢
    split
    · next e => rw [e] at hl; cases hl
    · next v e =>
      rw [e] at hl
      simp only at hl
      split
      · next e2 => rw [e2] at hl
      · rfl
  rw [e]
  obtain ⟨ns, root⟩ := x
  cases root with
  | none => rfl
  | some r =>
    obtain ⟨t, a, v, cs⟩ := r
    unfold XDoc.popTag XDoc.mapRootChildren
    simp only [Option.map_some, Node.withChildren, Node.children, List.filter_filter]
    congr 3
    apply List.filter_congr
    intro n _
    by_cases h1 : n.tag = "bookViews" <;> by_cases h2 : n.tag = "sheets" <;> simp [bookTags, h1, h2]

/-- The workbook part: everything stays but the flag for showing sheet tabs. -/
theorem settled_book {b : Build} {ns : Attrs} {t : String} {a : Option Attrs} {cs : List Node} {sheets : List SheetEntry} {view : Option BookView} {d2 : XDoc}
    (hc : ∀ n ∈ cs, n.tag ∉ bookTags) (hp : PlainNode (reload (.mk t a none (placeBook sheets view cs))))
    (hl : ∃ r, (loadBook (reloadDoc b ⟨ns, some (.mk t a none (placeBook sheets view cs))⟩)).1 = .ok r)
    (h : saveBook (sheets.map reloadSheetEntry) (view.map reloadBookView) (loadBook (reloadDoc b ⟨ns, some (.mk t a none (placeBook sheets view cs))⟩)).2 = .ok d2) :
    reloadDoc b d2 = flipTabs (reloadDoc b ⟨ns, some (.mk t a none (placeBook sheets view cs))⟩) := by
  obtain ⟨h1, h2⟩ := plain_root hp
  obtain ⟨r, hl⟩ := hl
  rw [loadBook_strip hl, reloadDoc_mk] at h
  unfold XDoc.mapRootChildren saveBook at h
  simp only [Option.map_some, Node.withChildren, Node.children] at h
  unfold XDoc.mapRootChildren at h
  simp only [Option.map_some, Node.withChildren, Node.children] at h
  cases h
  rw [reloadDoc_mk, reloadDoc_mk, flipTabs_mk, releaseNs_twice, h1]
  congr 3
  simp only [placeBook_nodes] at h2 ⊢
  generalize hv0 : (view.map (fun v => Node.mk "bookViews" none none [bookViewNode v])) = v0 at *
  generalize hs0 : Node.mk "sheets" none none (sheetNodes 1 sheets) = s0 at *
  have tv0 : ∀ n, v0 = some n → n.tag = "bookViews" := by
    intro n hn
    rw [← hv0] at hn
    cases view with
    | none => cases hn
    | some v => cases hn; rfl
  have ts0 : s0.tag = "sheets" := by rw [← hs0]; rfl
  have hcr : ∀ n ∈ cs.map reload, n.tag ∉ bookTags := by
    intro n hn
    obtain ⟨m, hm, rfl⟩ := List.mem_map.mp hn
    rw [reload_tag]; exact hc m hm
  have mem : ∀ n ∈ placeNodes v0 s0 cs, reload (reload n) = reload n := by
    intro n hn
    have := List.map_congr_left (l := (placeNodes v0 s0 cs).map reload) (f := reload) (g := id)
    rw [List.map_map] at h2
    exact List.map_inj_left.mp h2 n hn
  have hvm : ∀ n, v0 = some n → reload (reload n) = reload n := by
    intro n hn
    apply mem
    have : n ∈ (placeNodes v0 s0 cs).filter (fun n => orderKey workbookOrder n.tag = 6) := by
      rw [placeNodes_filter v0 s0 cs tv0 ts0 hc, if_pos rfl, hn]; simp
    exact (List.mem_filter.mp this).1
  have hsm : reload (reload s0) = reload s0 := by
    apply mem
    have : s0 ∈ (placeNodes v0 s0 cs).filter (fun n => orderKey workbookOrder n.tag = 7) := by
      rw [placeNodes_filter v0 s0 cs tv0 ts0 hc, if_neg (by decide), if_pos rfl]; simp
    exact (List.mem_filter.mp this).1
  rw [placeNodes_map reload_tag, placeNodes_map reload_tag, placeNodes_map flipChild_tag]
  have es : reload (.mk "sheets" none none (sheetNodes 1 (sheets.map reloadSheetEntry))) = reload s0 := by
    rw [← hsm, ← hs0]
    apply again_of_esc
    rw [escNode, escNodes_eq, esc_sheetNodes]; rfl
  have ef : flipChild (reload s0) = reload s0 := by
    unfold flipChild; rw [reload_tag, ts0, if_neg (by decide)]
  have ev : ((view.map reloadBookView).map (fun v => Node.mk "bookViews" none none [bookViewNode v])).map reload = (v0.map reload).map flipChild := by
    subst hv0
    cases view with
    | none => rfl
    | some v =>
      simp only [Option.map_some, Option.some.injEq]
      have e := hvm _ rfl
      rw [flip_view]
      have e1 : ∀ n, reload (.mk "bookViews" none none [n]) = .mk "bookViews" (some []) none [reload n] := by
        intro n; simp only [reload, reloads]; rfl
      have e2 : ∀ n, reload (.mk "bookViews" (some []) none [n]) = .mk "bookViews" (some []) none [reload n] := by
        intro n; simp only [reload, reloads]; rfl
      rw [e1, e2] at e
      simp only [Node.mk.injEq, List.cons.injEq, and_true, true_and] at e
      rw [e1, e1, reload_flip, ← reload_twice, e]
      rfl
  rw [es, ev, ef]
  have ec : (cs.map reload).map flipChild = cs.map reload := by
    conv => rhs; rw [← List.map_id (cs.map reload)]
    apply List.map_congr_left
    intro n hn
    unfold flipChild
    rw [if_neg (by intro h; exact hcr n hn (by rw [h]; decide))]; rfl
  rw [ec]
  have ecr : (List.filter (fun n => decide (n.tag ∉ bookTags)) ((placeNodes v0 s0 cs).map reload)).map reload =
      (placeNodes (v0.map reload) (reload s0) (cs.map reload)).filter (fun n => n.tag ∉ bookTags) := by
    rw [← placeNodes_map reload_tag]
    have hfm : ∀ l : List Node, (l.filter (fun n => n.tag ∉ bookTags)).map reload = (l.map reload).filter (fun n => n.tag ∉ bookTags) := by
      intro l
      rw [List.filter_map]
      congr 1
      apply List.filter_congr
      intro n _
      simp only [Function.comp, reload_tag]
    rw [hfm, h2]
  rw [← placeNodes_map reload_tag v0 s0 cs, ecr]
  apply placeNodes_again
  · intro n hn
    subst hv0
    cases view with
    | none => cases hn
    | some v => cases hn; rw [flipChild_tag, reload_tag]; rfl
  · rw [reload_tag, ts0]
  · intro n hn
    cases v0 with
    | none => cases hn
    | some v => cases hn; rw [reload_tag]; exact tv0 v rfl
  · rw [reload_tag, ts0]
  · exact hcr

/-! ### Styles -/

/-- The tables as elements, in the order they are written. -/
def styleNodes (st : Styles) : List Node :=
  [countedNode "numFmts" (st.numFmts.map numFmtNode), countedNode "fonts" (st.fonts.map fontNode), countedNode "fills" (st.fills.map fillNode),
   countedNode "borders" (st.borders.map borderNode), countedNode "cellStyleXfs" (st.styleXfs.map (xfNode false)),
   countedNode "cellXfs" (st.xfs.map (xfNode true))]

theorem placeStyles_nodes (st : Styles) (cs : List Node) (hc : ∀ n ∈ cs, n.tag ∉ styleTags) : placeStyles st cs = styleNodes st ++ cs :=
  placeStyles_eq st cs hc

theorem esc_styleNodes {st : Styles} (hu : UprightFonts st) (hb : (∀ x ∈ st.xfs, FlagsBit x) ∧ ∀ x ∈ st.styleXfs, FlagsBit x) :
    styleNodes (reloadStyles st) = (styleNodes st).map escNode := by
  unfold styleNodes reloadStyles
  simp only [List.map_cons, List.map_nil]
  rw [again_map (fun f _ => esc_numFmtNode f), again_map (fun f hf => esc_fontNode (hu f hf)), again_map (fun f _ => esc_fillNode f),
    again_map (fun f _ => esc_borderNode f), again_map (fun f hf => esc_xfNode false (hb.2 f hf)), again_map (fun f hf => esc_xfNode true (hb.1 f hf))]
  simp only [esc_counted]

theorem settled_styles {b : Build} {ns : Attrs} {t : String} {a : Option Attrs} {cs : List Node} {st : Styles} {d2 : XDoc}
    (hc : ∀ n ∈ cs, n.tag ∉ styleTags) (hu : UprightFonts st) (hb : (∀ x ∈ st.xfs, FlagsBit x) ∧ ∀ x ∈ st.styleXfs, FlagsBit x)
    (hp : PlainNode (reload (.mk t a none (placeStyles st cs))))
    (hl : ∃ r, (Styles.load (reloadDoc b ⟨ns, some (.mk t a none (placeStyles st cs))⟩)).1 = .ok r)
    (h : (reloadStyles st).save (Styles.load (reloadDoc b ⟨ns, some (.mk t a none (placeStyles st cs))⟩)).2 = .ok d2) :
    reloadDoc b d2 = reloadDoc b ⟨ns, some (.mk t a none (placeStyles st cs))⟩ := by
  obtain ⟨h1, h2⟩ := plain_root hp
  obtain ⟨r, hl⟩ := hl
  have e : ∀ x : XDoc, (Styles.load x).1 = .ok r → (Styles.load x).2 = x.mapRootChildren (fun cs => cs.filter (fun n => n.tag ∉ styleTags)) := by
    intro x hl
    revert hl
    unfold Styles.load
    split <;> intro hl <;> first | rfl | cases hl
  rw [e _ hl, reloadDoc_mk] at h
  unfold XDoc.mapRootChildren Styles.save at h
  simp only [Option.map_some, Node.withChildren, Node.children] at h
  unfold XDoc.mapRootChildren at h
  simp only [Option.map_some, Node.withChildren, Node.children] at h
  cases h
  rw [reloadDoc_mk, reloadDoc_mk, releaseNs_twice, h1]
  congr 3
  rw [placeStyles_nodes st cs hc] at h2 ⊢
  have ef : ((styleNodes st ++ cs).map reload).filter (fun n => n.tag ∉ styleTags) = cs.map reload := by
    rw [List.map_append, List.filter_append, List.filter_eq_nil_iff.mpr, List.filter_eq_self.mpr, List.nil_append]
    · intro n hn
      obtain ⟨m, hm, rfl⟩ := List.mem_map.mp hn
      rw [reload_tag]; simpa using hc m hm
    · intro n hn
      obtain ⟨m, hm, rfl⟩ := List.mem_map.mp hn
      rw [reload_tag]
      unfold styleNodes at hm
      simp only [List.mem_cons, List.not_mem_nil, or_false] at hm
      rcases hm with rfl | rfl | rfl | rfl | rfl | rfl <;> simp [countedNode, Node.tag, styleTags]
  rw [ef, placeStyles_nodes _ _ (by
    intro n hn
    obtain ⟨m, hm, rfl⟩ := List.mem_map.mp hn
    rw [reload_tag]; exact hc m hm), esc_styleNodes hu hb]
  rw [List.map_append, List.map_append] at h2
  obtain ⟨h3, h4⟩ := List.append_inj h2 (by simp)
  rw [List.map_append, List.map_append, h4, ← h3]
  congr 1
  rw [List.map_map, List.map_map]
  apply List.map_congr_left
  intro n _
  exact (reload_twice n).symm

/-! ### Core properties -/

/-- `blankModified` on one child of the root. -/
def blankChild (n : Node) : Node := if n.tag = "dcterms:modified" then .mk n.tag n.attrs none [] else n

theorem blankModified_mk (ns : Attrs) (t : String) (a : Option Attrs) (v : Option String) (cs : List Node) :
    blankModified ⟨ns, some (.mk t a v cs)⟩ = ⟨ns, some (.mk t a v (cs.map blankChild))⟩ := rfl

/-- Writing a time into an element read before. -/
theorem reload_withValue {n : Node} (h : reload n = n) (v : String) : reload (n.withValue v) = .mk n.tag n.attrs (reloadText v) [] := by
  obtain ⟨t, a, w, cs⟩ := n
  have ha : some (reloadAttrs a) = a := by
    cases w with
    | none => simp only [reload, Node.mk.injEq] at h; exact h.2.1
    | some w => simp only [reload, Node.mk.injEq] at h; exact h.2.1
  unfold Node.withValue
  simp only [reload, Node.tag, Node.attrs, ha]

theorem mapFirst_self {p : Node → Bool} {f : Node → Node} {l : List Node} (h : ∀ n ∈ l, p n = true → f n = n) : mapFirst p f l = l := by
  induction l with
  | nil => rfl
  | cons c l ih =>
    unfold mapFirst
    split
    · next hc => rw [h c (by simp) hc]
    · rw [ih (fun n hn => h n (by simp [hn]))]

theorem mapFirst_mem {p : Node → Bool} {f : Node → Node} {l : List Node} {n : Node} (h : n ∈ mapFirst p f l) : n ∈ l ∨ ∃ m ∈ l, p m = true ∧ n = f m := by
  induction l with
  | nil => cases h
  | cons c l ih =>
    unfold mapFirst at h
    split at h
    · next hc =>
      rcases List.mem_cons.mp h with rfl | h
      · exact Or.inr ⟨c, by simp, hc, rfl⟩
      · exact Or.inl (by simp [h])
    · rcases List.mem_cons.mp h with rfl | h
      · exact Or.inl (by simp)
      · rcases ih h with h | ⟨m, hm, h1, h2⟩
        · exact Or.inl (by simp [h])
        · exact Or.inr ⟨m, by simp [hm], h1, h2⟩

theorem blank_first {now : String} {l : List Node} (hl : ∀ n ∈ l, reload n = n) :
    ((mapFirst (fun c => c.tag = "dcterms:modified") (fun n => n.withValue now) l).map reload).map blankChild = l.map blankChild := by
  induction l with
  | nil => rfl
  | cons c l ih =>
    have hrest : (l.map reload).map blankChild = l.map blankChild := by
      rw [List.map_map]
      apply List.map_congr_left
      intro n hn
      simp only [Function.comp]
      rw [hl n (by simp [hn])]
    unfold mapFirst
    split
    · next hc =>
      have hc := of_decide_eq_true hc
      rw [List.map_cons, List.map_cons, List.map_cons, hrest, reload_withValue (hl c (by simp))]
      have e1 : blankChild (.mk c.tag c.attrs (reloadText now) []) = .mk c.tag c.attrs none [] := if_pos hc
      have e2 : blankChild c = .mk c.tag c.attrs none [] := if_pos hc
      rw [e1, e2]
    · rw [List.map_cons, List.map_cons, List.map_cons, ih (fun n hn => hl n (by simp [hn])), hl c (by simp)]

theorem settled_core {b : Build} {ns : Attrs} {a : Option Attrs} {l : List Node} {now : String} {d2 : XDoc}
    (hp : PlainNode (reload (.mk "cp:coreProperties" a none l)))
    (hcr : ∀ n ∈ l.map reload, n.tag = "dcterms:created" → n.value ≠ none)
    (h : saveCore now now (reloadDoc b ⟨ns, some (.mk "cp:coreProperties" a none l)⟩) = .ok d2) :
    ∃ l2, reloadDoc b d2 = ⟨releaseNs b ns, some (.mk "cp:coreProperties" (some (reloadAttrs a)) none l2)⟩ ∧ PlainNodes l2 ∧
      (∀ n ∈ l2, n.tag = "dcterms:created" → n.value ≠ none) ∧ l2.map blankChild = (l.map reload).map blankChild := by
  obtain ⟨h1, h2⟩ := plain_root hp
  have hl : ∀ n ∈ l.map reload, reload n = n := by
    intro n hn
    have := List.map_inj_left.mp (h2.trans (List.map_id _).symm) n hn
    exact this
  rw [reloadDoc_mk] at h
  unfold saveCore at h
  simp only at h
  have hm : ∀ (tag : String) (f : Node → Node) (a : Option Attrs) (cs : List Node), Node.mapCoreItem tag f (.mk "cp:coreProperties" a none cs) =
      .mk "cp:coreProperties" a none (mapFirst (fun c => c.tag = tag) f cs) := by
    intro tag f a cs; unfold Node.mapCoreItem; exact if_pos rfl
  rw [hm, hm, mapFirst_self (p := fun c => decide (c.tag = "dcterms:created"))] at h
  · cases h
    refine ⟨_, ?_, ?_, ?_, blank_first (now := now) hl⟩
    · rw [reloadDoc_mk, releaseNs_twice, h1]
    · rw [plainNodes_iff]
      intro n hn
      obtain ⟨m, hm, rfl⟩ := List.mem_map.mp hn
      have hpl : ∀ n ∈ l.map reload, PlainNode n := by
        rw [← plainNodes_iff]
        simp only [reload, reloads_eq] at hp
        rw [PlainNode] at hp
        exact hp.2
      rcases mapFirst_mem hm with hm | ⟨k, hk, _, rfl⟩
      · rw [hl m hm]; exact hpl m hm
      · rw [reload_withValue (hl k hk)]
        have := hpl k hk
        cases k
        rw [PlainNode] at this ⊢
        exact ⟨this.1, trivial⟩
    · intro n hn ht
      obtain ⟨m, hm, rfl⟩ := List.mem_map.mp hn
      rw [reload_tag] at ht
      rcases mapFirst_mem hm with hm | ⟨k, hk, hkt, rfl⟩
      · rw [hl m hm]; exact hcr m hm ht
      · have : (k.withValue now).tag = k.tag := by cases k; rfl
        rw [this, of_decide_eq_true hkt] at ht
        exact absurd ht (by decide)
  · intro n hn ht
    have ht := of_decide_eq_true ht
    have hv : n.value ≠ none := by
      rcases mapFirst_mem hn with hm | ⟨k, hk, hkt, rfl⟩
      · exact hcr n hm ht
      · have : (k.withValue now).tag = k.tag := by cases k; rfl
        rw [this, of_decide_eq_true hkt] at ht
        exact absurd ht (by decide)
    cases hv' : n.value with
    | none => exact absurd hv' hv
    | some _ => rfl

end Oxml
