import Verif.Proofs.PartSaves
import Verif.Proofs.KernelRfl
/-!
# Saving the parts, as programs over the arena
-/
namespace Oxml
open Spec

/-- A name accepted as an attribute name that declares no namespace. -/
def NameOk (u : Unicode) (k : String) : Bool := isValidXmlName u k && !isNsKey k

theorem plain_of {u : Unicode} {a : Attrs} (h : (akeys a).all (NameOk u) = true) (hn : (akeys a).Nodup) : PlainKeys u a := by
  refine ⟨fun k hk => ?_, hn⟩
  have := List.all_eq_true.mp h k hk
  simpa [NameOk] using this

theorem plain_present {u : Unicode} {tbl : List (String × Option String)} (h : (tbl.map Prod.fst).all (NameOk u) = true)
    (hn : (tbl.map Prod.fst).Nodup) : PlainKeys u (present tbl) := by
  have hsub : List.Sublist (akeys (present tbl)) (tbl.map Prod.fst) := by
    unfold akeys present
    clear h hn
    induction tbl with
    | nil => exact List.Sublist.slnil
    | cons kv l ih =>
      obtain ⟨k, v⟩ := kv
      cases v with
      | none => simpa using ih.cons k
      | some v => simpa using ih
  refine plain_of ?_ (hn.sublist hsub)
  rw [List.all_eq_true] at h ⊢
  exact fun k hk => h k (hsub.subset hk)

/-- What a save leaves: the document the tree-level save makes, in a sound arena. -/
structure Writes (u : Unicode) (d : XmlDoc) (r : Res XmlDoc) (x : Res XDoc) : Prop where
  doc : r.map XmlDoc.toXDoc = x
  inv : ∀ d', r = .ok d' → d'.Inv
  reach : ∀ d', r = .ok d' → Reachable u d → Reachable u d'

theorem writes_error {u : Unicode} {d : XmlDoc} {e : Err} : Writes u d (.error e) (.error e) :=
  ⟨rfl, (fun _ h => by cases h), (fun _ h => by cases h)⟩

theorem runs_writes {u : Unicode} {prog : XmlDoc → Res XmlDoc} {r : Res (Node → Node)} (h : Runs u prog 0 r) {d : XmlDoc}
    (hinv : d.Inv) {n : Node} (hr : d.toXDoc.root = some n) :
    Writes u d (prog d) (r.map (fun g => { d.toXDoc with root := some (g n) })) := by
  obtain ⟨e, he⟩ := root_get hr
  have hne : d.get 0 ≠ none := by rw [he]; simp
  cases r with
  | error er => rw [h d hinv hne]; exact writes_error
  | ok g =>
    obtain ⟨d', h1, h2⟩ := h d hinv hne
    rw [h1]
    refine ⟨?_, fun x hx => by cases hx; exact h2.acts.inv, fun x hx => by cases hx; exact h2.reach⟩
    have : ∃ e', d'.get 0 = some e' := Option.ne_none_iff_exists'.mp h2.acts.here
    obtain ⟨e', he'⟩ := this
    have hroot : d'.toXDoc.root = some (g n) := by
      rw [toXDoc_some h2.acts.inv he', h2.acts.tree, tree_root hr]
    have hns : d'.toXDoc.ns = d.toXDoc.ns := h2.ns
    change Except.ok d'.toXDoc = Except.ok _
    congr 1
    generalize d'.toXDoc = y at hroot hns
    generalize d.toXDoc = x at hns
    obtain ⟨ns, root⟩ := y
    obtain ⟨ns', root'⟩ := x
    cases hroot
    cases hns
    rfl

theorem root_none {d : XmlDoc} (hinv : d.Inv) (h : d.toXDoc.root = none) : d.get 0 = none := by
  cases he : d.get 0 with
  | none => rfl
  | some e => rw [toXDoc_some hinv he] at h; cases h

theorem insertWith_none {u : Unicode} {d : XmlDoc} {tag : String} {i : Nat} {place : Child → List Child → Res (List Child)}
    (h : d.get i = none) : d.insertWith u tag i place = .error (.fail "Parent Element Not Found") := by
  unfold XmlDoc.insertWith
  rw [h]

theorem mapRes_oks {α β : Type} (f : α → β) : ∀ l : List α, mapRes (fun x => (Except.ok (f x) : Res β)) l = .ok (l.map f)
  | [] => rfl
  | x :: l => by
    unfold mapRes
    rw [mapRes_oks f l]
    rfl

theorem runs_foldOk {α : Type} {u : Unicode} {i : Nat} {f : XmlDoc → α → Res XmlDoc} {node : α → Node}
    (h : ∀ x, Runs u (fun d => f d x) i (.ok (withKids [node x]))) (l : List α) :
    Runs u (fun d => l.foldlM f d) i (.ok (withKids (l.map node))) := by
  have := runs_fold (node := fun x => .ok (node x)) h l
  rw [mapRes_oks] at this
  exact this

/-- A child with attributes. -/
theorem runs_attrs {u : Unicode} {tag : String} (i : Nat) (hv : isValidXmlName u tag = true) {a : Attrs} (ha : PlainKeys u a) :
    Runs u (fun d => d.appendChild u tag i >>= fun p => p.1.setAttribute u p.2 a) i (.ok (withKids [.mk tag (some a) none []])) :=
  runs_append i hv (fun j => runs_setAttribute ha j)

/-- A child with a text. -/
theorem runs_text {u : Unicode} {tag : String} (i : Nat) (hv : isValidXmlName u tag = true) (s : String) :
    Runs u (fun d => d.appendChild u tag i >>= fun p => p.1.setValue p.2 s) i (.ok (withKids [.mk tag none (some s) []])) :=
  runs_append i hv (fun j => runs_setValue j)

/-! ## Strings, calculation chain, relationships, content types -/

theorem appendAll_eq {d : XmlDoc} {n : Node} (hr : d.toXDoc.root = some n) (ns : List Node) :
    (.ok { d.toXDoc with root := some (withKids ns n) } : Res XDoc) = d.toXDoc.appendAll ns := by
  unfold XDoc.appendAll XDoc.mapRootChildren
  rw [hr]
  cases n
  rfl

theorem foldlM_none {α : Type} {u : Unicode} {d : XmlDoc} (h : d.get 0 = none) {f : XmlDoc → α → Res XmlDoc} {tag : String}
    {body : α → Nat → XmlDoc → Res XmlDoc} (hf : ∀ x, f d x = d.appendChild u tag 0 >>= fun p => body x p.2 p.1) {l : List α} (hl : l ≠ []) :
    l.foldlM f d = .error (.fail "Parent Element Not Found") := by
  cases l with
  | nil => exact absurd rfl hl
  | cons x l =>
    change (f d x >>= fun d => l.foldlM f d) = _
    rw [hf, XmlDoc.appendChild, insertWith_none h]
    rfl

/-- A list of children appended to the root. -/
theorem fold_writes {α : Type} {u : Unicode} {f : XmlDoc → α → Res XmlDoc} {node : α → Node} {tag : String}
    {body : α → Nat → XmlDoc → Res XmlDoc} (hf : ∀ d x, f d x = d.appendChild u tag 0 >>= fun p => body x p.2 p.1)
    (h : ∀ x, Runs u (fun d => f d x) 0 (.ok (withKids [node x]))) {d : XmlDoc} (hinv : d.Inv) (l : List α) :
    Writes u d (l.foldlM f d) (d.toXDoc.appendAll (l.map node)) := by
  cases hr : d.toXDoc.root with
  | some n =>
    have := runs_writes (runs_foldOk h l) hinv hr
    rw [← appendAll_eq hr]
    exact this
  | none =>
    have h0 := root_none hinv hr
    unfold XDoc.appendAll
    rw [hr]
    by_cases hl : l = []
    · subst hl
      exact ⟨rfl, fun _ h => by cases h; exact hinv, fun _ h => by cases h; exact fun h => h⟩
    · rw [foldlM_none h0 (fun x => hf d x) hl]
      simp only
      rw [if_neg (by simpa using hl)]
      exact writes_error

theorem arenaSaveCalc_eq {u : Unicode} {d : XmlDoc} (hinv : d.Inv) (chain : List CalcEntry) :
    Writes u d (arenaSaveCalc u d chain) (saveCalc d.toXDoc chain) :=
  fold_writes (f := arenaSaveEntry u) (node := calcNode) (tag := "c") (body := fun e j d => d.setAttribute u j [("r", e.1), ("i", e.2.1)]) (fun _ _ => rfl)
    (fun e => runs_attrs 0 (by kernel_rfl) (plain_of (a := [("r", e.1), ("i", e.2.1)]) (by kernel_rfl) (by simp [akeys]))) hinv chain

theorem plain_rel {u : Unicode} (r : Rel) : PlainKeys u ([("Id", r.id), ("Target", r.target), ("Type", r.type)] ++
    (match r.mode with | none => [] | some m => [("TargetMode", m)])) := by
  cases r.mode with
  | none => exact plain_of (by kernel_rfl) (by simp [akeys])
  | some m => exact plain_of (by kernel_rfl) (by simp [akeys])

theorem arenaSaveRels_eq {u : Unicode} {d : XmlDoc} (hinv : d.Inv) (rels : List Rel) :
    (arenaSaveRels u d rels).map (fun p => (p.1.toXDoc, p.2)) = saveRels d.toXDoc rels ∧
      ∀ d' b, arenaSaveRels u d rels = .ok (d', b) → d'.Inv ∧ (Reachable u d → Reachable u d') := by
  have hw := fold_writes (u := u) (d := d) (f := arenaSaveRel u) (node := relNode) (tag := "Relationship") (body := fun r j d => d.setAttribute u j
      ([("Id", r.id), ("Target", r.target), ("Type", r.type)] ++ (match r.mode with | none => [] | some m => [("TargetMode", m)])))
    (fun _ _ => rfl) (fun r => runs_attrs (u := u) 0 (by kernel_rfl) (plain_rel r)) hinv rels
  unfold arenaSaveRels saveRels
  cases he : d.get 0 with
  | none =>
    rw [toXDoc_none he]
    exact ⟨rfl, fun _ _ h => by cases h⟩
  | some e =>
    have hlen : (d.tree 0).children.length = e.children.length := by rw [tree_eq hinv he]; simp [Node.children]
    rw [toXDoc_some hinv he, ← hw.doc]
    simp only
    have hi := hw.inv
    have hre := hw.reach
    change Except.map _ (rels.foldlM (arenaSaveRel u) d >>= _) = _ ∧ ∀ d' b, (rels.foldlM (arenaSaveRel u) d >>= _) = _ → _
    generalize rels.foldlM (arenaSaveRel u) d = r at hi hre ⊢
    cases r with
    | error er => exact ⟨rfl, fun _ _ h => by cases h⟩
    | ok d1 =>
      refine ⟨?_, ?_⟩
      · change Except.ok (d1.toXDoc, decide (e.children.length > 0 ∨ rels.length > 0)) = Except.ok _
        rw [hlen]
      · intro d' b h
        cases h
        exact ⟨hi _ rfl, hre _ rfl⟩

theorem updateAttribute_does {u : Unicode} {d : XmlDoc} (hinv : d.Inv) {i : Nat} {e : Elem} (he : d.get i = some e) {k : String}
    (hk : NameOk u k = true) (v : String) :
    Does u d (d.updateAttribute u i k v) i (fun n => match n with | .mk t a x cs => .mk t (a.map (fun a => ainsert k v a)) x cs) := by
  have hk' : isValidXmlName u k = true ∧ isNsKey k = false := by simpa [NameOk] using hk
  cases ha : e.attrs with
  | none =>
    have hd : d.updateAttribute u i k v = d := by simp only [XmlDoc.updateAttribute, he, ha]
    rw [hd]
    refine (Does.id hinv (by rw [he]; simp)).congr ?_
    rw [tree_eq hinv he, ha]
    rfl
  | some a =>
    have hd : d.updateAttribute u i k v = d.put i { e with attrs := some (ainsert k v a) } := by
      simp only [XmlDoc.updateAttribute, he, ha]
      rw [if_pos hk']
    rw [hd]
    refine does_put (e' := { e with attrs := some (ainsert k v a) }) hinv he (by rw [← hd]; exact hinv.updateAttribute) (fun c hc => hc) (by rw [tree_eq hinv he, ha]; rfl) ?_
    intro hr
    have := hr.edit (.attr i k v) trivial
    rw [← hd]
    exact this

theorem arenaSaveStrings_eq {u : Unicode} {d : XmlDoc} (hinv : d.Inv) (table : List String) :
    Writes u d (arenaSaveStrings u d table) (saveStrings d.toXDoc table) := by
  have hsi : ∀ s, Runs u (fun d => d.appendChild u "si" 0 >>= fun p => p.1.appendChild u "t" p.2 >>= fun q => q.1.setValue q.2 s) 0
      (.ok (withKids [siNode s])) := fun s => runs_append 0 (by kernel_rfl) (fun j => runs_text j (by kernel_rfl) s)
  have fold : ∀ {d : XmlDoc}, d.Inv → Writes u d (table.foldlM (arenaSaveString u) d) (d.toXDoc.appendAll (table.map siNode)) := fun hinv =>
    fold_writes (tag := "si") (body := fun s j d => d.appendChild u "t" j >>= fun q => q.1.setValue q.2 s) (fun _ _ => rfl) hsi hinv table
  unfold arenaSaveStrings saveStrings
  simp only
  cases he : d.get 0 with
  | none =>
    have h1 : ∀ k v, d.updateAttribute u 0 k v = d := fun k v => by simp only [XmlDoc.updateAttribute, he]
    rw [h1, h1]
    have : d.toXDoc.insertRootAttrs [("count", toString table.length), ("uniqueCount", toString (distinctCount table))] = d.toXDoc := by
      unfold XDoc.insertRootAttrs
      have := toXDoc_none he
      generalize d.toXDoc = x at this ⊢
      cases x
      cases this
      rfl
    rw [this]
    exact fold hinv
  | some e =>
    have a1 := updateAttribute_does hinv he (u := u) (k := "count") (by kernel_rfl) (toString table.length)
    obtain ⟨e1, he1⟩ := Option.ne_none_iff_exists'.mp a1.acts.here
    have a2 := updateAttribute_does a1.acts.inv he1 (u := u) (k := "uniqueCount") (by kernel_rfl) (toString (distinctCount table))
    have a := a1.comp a2
    obtain ⟨e2, he2⟩ := Option.ne_none_iff_exists'.mp a2.acts.here
    have hw := fold a2.acts.inv
    have hdoc : ((d.updateAttribute u 0 "count" (toString table.length)).updateAttribute u 0 "uniqueCount"
        (toString (distinctCount table))).toXDoc =
        d.toXDoc.insertRootAttrs [("count", toString table.length), ("uniqueCount", toString (distinctCount table))] := by
      have hroot := toXDoc_some a2.acts.inv he2
      rw [a.acts.tree, tree_eq hinv he] at hroot
      have hns : ((d.updateAttribute u 0 "count" (toString table.length)).updateAttribute u 0 "uniqueCount"
        (toString (distinctCount table))).toXDoc.ns = d.toXDoc.ns := a.ns
      unfold XDoc.insertRootAttrs
      rw [toXDoc_some hinv he, tree_eq hinv he, ← hns]
      generalize ((d.updateAttribute u 0 "count" (toString table.length)).updateAttribute u 0 "uniqueCount"
        (toString (distinctCount table))).toXDoc = y at hroot ⊢
      obtain ⟨ns, root⟩ := y
      simp only at hroot
      rw [hroot]
      cases e.attrs <;> rfl
    rw [← hdoc]
    exact ⟨hw.doc, hw.inv, fun d' h hr => hw.reach d' h (a.reach hr)⟩

theorem arenaContentTypes_eq {u : Unicode} (exts overrides : List (String × String)) :
    ∃ d, arenaContentTypes u exts overrides = .ok d ∧ d.toXDoc = contentTypesDoc exts overrides ∧ d.Inv ∧ Reachable u d := by
  let d0 : XmlDoc := { XmlDoc.new.put 0 { id := 0, parentId := 0, tag := "Types", attrs := some [], value := none, children := [] } with
    ns := [(defaultNsKey, contentTypesNs)] }
  have h1 : XmlDoc.new.createRoot u "Types" = .ok (XmlDoc.new.put 0 { id := 0, parentId := 0, tag := "Types", attrs := none, value := none, children := [] }) := by
    unfold XmlDoc.createRoot newElem
    rw [show isValidXmlName u "Types" = true by kernel_rfl]
    rfl
  have h2 : (XmlDoc.new.put 0 { id := 0, parentId := 0, tag := "Types", attrs := none, value := none, children := [] }).setAttribute u 0
      [("xmlns", contentTypesNs)] = .ok d0 := by
    unfold XmlDoc.setAttribute
    rw [XmlDoc.get_put_self]
    simp only [akeys, List.map_cons, List.map_nil, List.all_cons, List.all_nil]
    rw [show isValidXmlName u "xmlns" = true by kernel_rfl]
    rfl
  have hreach : Reachable u d0 := by
    have r1 := Reachable.new (u := u) |>.edit (.createRoot "Types") trivial
    have e1 : XmlDoc.new.edit u (.createRoot "Types") = XmlDoc.new.put 0 { id := 0, parentId := 0, tag := "Types", attrs := none, value := none, children := [] } := by
      simp only [XmlDoc.edit, h1]; rfl
    rw [e1] at r1
    have r2 := r1.edit (.attributes 0 [("xmlns", contentTypesNs)]) (by simp [Edit.ProperMap, akeys])
    simp only [XmlDoc.edit, h2] at r2
    exact r2
  have hinv := hreach.good.1
  have hget : d0.get 0 = some { id := 0, parentId := 0, tag := "Types", attrs := some [], value := none, children := [] } := rfl
  have hroot : d0.toXDoc.root = some (.mk "Types" (some []) none []) := by
    rw [toXDoc_some hinv hget, tree_eq hinv hget]
    rfl
  have hA : ∀ e : String × String, Runs u (fun d => arenaSaveDefault u d e) 0
      (.ok (withKids [.mk "Default" (some [("Extension", e.1), ("ContentType", e.2)]) none []])) :=
    fun e => runs_attrs 0 (by kernel_rfl) (plain_of (by kernel_rfl) (by simp [akeys]))
  have hB : ∀ e : String × String, Runs u (fun d => arenaSaveOverride u d e) 0
      (.ok (withKids [.mk "Override" (some [("PartName", e.1), ("ContentType", e.2)]) none []])) :=
    fun e => runs_attrs 0 (by kernel_rfl) (plain_of (by kernel_rfl) (by simp [akeys]))
  have hw := runs_writes (runs_seq (runs_foldOk hA exts) (runs_foldOk hB overrides)) hinv hroot
  have hprog : arenaContentTypes u exts overrides = (exts.foldlM (arenaSaveDefault u) d0 >>= fun d => overrides.foldlM (arenaSaveOverride u) d) := by
    unfold arenaContentTypes
    simp only [h1, h2, bind, Except.bind]
  rw [hprog]
  have hdoc := hw.doc
  have hi := hw.inv
  have hre := hw.reach
  change Except.map XmlDoc.toXDoc (exts.foldlM (arenaSaveDefault u) d0 >>= fun d => overrides.foldlM (arenaSaveOverride u) d) = _ at hdoc
  change ∀ d', (exts.foldlM (arenaSaveDefault u) d0 >>= fun d => overrides.foldlM (arenaSaveOverride u) d) = _ → _ at hi hre
  generalize (exts.foldlM (arenaSaveDefault u) d0 >>= fun d => overrides.foldlM (arenaSaveOverride u) d) = r at hdoc hi hre ⊢
  cases r with
  | error e => cases hdoc
  | ok d =>
    refine ⟨d, rfl, ?_, hi d rfl, hre d rfl hreach⟩
    have := Except.ok.inj hdoc
    rw [this]
    rfl

end Oxml
