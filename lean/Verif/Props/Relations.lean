import Verif.Proofs.Relations
import Verif.Props.Package
/-!
# C21–C23: relationships
-/
namespace Oxml
open Spec

/-- What the library does to a relationship list. -/
inductive RelOp where
  | add (c : Content) (path name : Option String)
  | byType (filePath type : String) (c : Content) (path name : Option String)
  | delete (path : String)

/-- One operation. -/
def RelOp.run (rels : List Rel) : RelOp → List Rel
  | .add c p n => (newRel rels c p n).1
  | .byType f t c p n => (targetByType f rels t c p n).2
  | .delete p => deleteRel rels p

/-- A history. -/
def RelOp.runAll (rels : List Rel) (ops : List RelOp) : List Rel := ops.foldl RelOp.run rels

theorem deleteRel_eq (rels : List Rel) (p : String) :
    ∃ full, deleteRel rels p = rels.filter (fun r => r.target ≠ full) ∧ (full = p ∨ full = "/" ++ p) := by
  unfold deleteRel
  split
  · exact ⟨_, rfl, Or.inl rfl⟩
  · exact ⟨_, rfl, Or.inr rfl⟩

theorem newRel_cases (rels : List Rel) (op : RelOp) :
    (∃ r, RelOp.run rels op = rels ++ [r] ∧ r.id = nextRelId rels) ∨ RelOp.run rels op = rels ∨
      ∃ p full, op = .delete p ∧ RelOp.run rels op = rels.filter (fun r => r.target ≠ full) ∧ (full = p ∨ full = "/" ++ p) := by
  cases op with
  | add c p n => exact Or.inl ⟨_, rfl, rfl⟩
  | byType f t c p n =>
    simp only [RelOp.run, targetByType]
    split
    · exact Or.inr (Or.inl rfl)
    · exact Or.inl ⟨_, rfl, rfl⟩
  | delete p =>
    obtain ⟨full, h1, h2⟩ := deleteRel_eq rels p
    exact Or.inr (Or.inr ⟨p, full, rfl, h1, h2⟩)

/-! ## C21 -/

/-- **C21.** A new id is `rId<n>` for some number and was not in use. -/
theorem C21_new_id_fresh (rels : List Rel) (c : Content) (path name : Option String) :
    (∃ n : Nat, (newRel rels c path name).2 = "rId" ++ toString n) ∧ (newRel rels c path name).2 ∉ rels.map Rel.id ∧
    ∃ r, (newRel rels c path name).1 = rels ++ [r] ∧ r.id = (newRel rels c path name).2 :=
  ⟨⟨_, rfl⟩, nextRelId_fresh rels, ⟨_, rfl, rfl⟩⟩

/-- **C21.** Ids stay distinct over every history. -/
theorem C21_ids_unique (rels : List Rel) (ops : List RelOp) (h : (rels.map Rel.id).Nodup) :
    ((RelOp.runAll rels ops).map Rel.id).Nodup := by
  unfold RelOp.runAll
  induction ops generalizing rels with
  | nil => exact h
  | cons op ops ih =>
    apply ih
    rcases newRel_cases rels op with ⟨r, hr, hid⟩ | hr | ⟨p, full, _, hr, _⟩
    · rw [hr, List.map_append, List.nodup_append]
      refine ⟨h, by simp, ?_⟩
      intro a ha b hb
      simp only [List.map_cons, List.map_nil, List.mem_singleton] at hb
      rintro rfl
      rw [hb, hid] at ha
      exact nextRelId_fresh rels ha
    · rw [hr]; exact h
    · rw [hr]; exact List.Nodup.sublist (List.filter_sublist.map _) h

example : (RelOp.runAll [⟨"rId2", "/xl/a.xml", "t", none⟩] [.add worksheetContent (some "xl/worksheets") (some "sheet1"),
      .add styleContent none none, .delete "xl/styles.xml", .add themeContent (some "xl/theme") none]).map Rel.id = ["rId2", "rId3", "rId4"] ∧
    ([⟨"rId2", "/xl/a.xml", "t", none⟩].map Rel.id).Nodup := by decide +kernel

/-! ## C22 -/

/-- The operation deletes the relationship to this absolute target. -/
def RelOp.deletes (target : String) : RelOp → Prop
  | .delete p => p = target ∨ "/" ++ p = target
  | _ => False

theorem find_stable {q : Rel → Bool} {rels : List Rel} {r : Rel} (ops : List RelOp) (hf : rels.find? q = some r)
    (hd : ∀ op ∈ ops, ¬ op.deletes r.target) : (RelOp.runAll rels ops).find? q = some r := by
  unfold RelOp.runAll
  induction ops generalizing rels with
  | nil => exact hf
  | cons op ops ih =>
    refine ih ?_ (fun o ho => hd o (by simp [ho]))
    rcases newRel_cases rels op with ⟨r', hr, _⟩ | hr | ⟨p, full, rfl, hr, hfull⟩
    · rw [hr]; exact find?_append_some hf
    · rw [hr]; exact hf
    · rw [hr]
      refine find?_filter_keep hf ?_
      simp only [ne_eq, decide_not, Bool.not_eq_true', decide_eq_false_iff_not]
      intro he
      apply hd (.delete p) (by simp)
      rcases hfull with h | h
      · exact Or.inl (by rw [he, ← h])
      · exact Or.inr (by rw [he, ← h])

/-- **C22.** A relationship created for a part resolves by its id to the path of that part, after any later history that
does not delete it. -/
theorem C22_by_id (fp dir : String) (hfp : relativePath fp = .ok dir) (rels : List Rel) (c : Content) (path name : Option String)
    (ops : List RelOp) (hd : ∀ op ∈ ops, ¬ op.deletes ("/" ++ partPath c path name)) :
    targetById fp (RelOp.runAll (newRel rels c path name).1 ops) (newRel rels c path name).2 = .ok (some (partPath c path name)) := by
  have h1 : (newRel rels c path name).1.find? (fun r => r.id = (newRel rels c path name).2) =
      some { id := nextRelId rels, target := "/" ++ partPath c path name, type := c.type, mode := none } := by
    simp only [newRel]
    rw [List.find?_append, List.find?_eq_none.mpr]
    · simp
    · intro r hr he
      exact nextRelId_fresh rels (List.mem_map.mpr ⟨r, hr, of_decide_eq_true he⟩)
  have h2 := find_stable ops h1 hd
  unfold targetById
  rw [h2]
  simp only [resolve_abs hfp]

/-- **C22.** The path returned when a relationship is created by type is returned by every later look-up of that type, after
any history that does not delete it; those look-ups change nothing. -/
theorem C22_by_type (fp dir : String) (hfp : relativePath fp = .ok dir) (rels : List Rel) (c : Content) (path name : Option String)
    (hnone : rels.find? (fun r => r.type = c.type) = none) (ops : List RelOp)
    (hd : ∀ op ∈ ops, ¬ op.deletes ("/" ++ partPath c path name)) (c' : Content) (path' name' : Option String) :
    (targetByType fp rels c.type c path name).1 = .ok (partPath c path name) ∧
    targetByType fp (RelOp.runAll (targetByType fp rels c.type c path name).2 ops) c.type c' path' name' =
      (.ok (partPath c path name), RelOp.runAll (targetByType fp rels c.type c path name).2 ops) := by
  have h0 : targetByType fp rels c.type c path name = (.ok (partPath c path name), (newRel rels c path name).1) := by
    unfold targetByType; rw [hnone]
  refine ⟨by rw [h0], ?_⟩
  rw [h0]
  simp only
  have h1 : (newRel rels c path name).1.find? (fun r => r.type = c.type) =
      some { id := nextRelId rels, target := "/" ++ partPath c path name, type := c.type, mode := none } := by
    simp only [newRel]
    rw [List.find?_append, hnone]
    simp
  have h2 := find_stable ops h1 hd
  unfold targetByType
  rw [h2]
  simp only [resolve_abs hfp]

/-- Without a deletion the hypotheses are met, and the usual relationship part paths are fine. -/
example : relativePath "xl/_rels/workbook.xml.rels" = .ok "xl/" ∧ relativePath "_rels/.rels" = .ok "" ∧
    (targetByType "xl/_rels/workbook.xml.rels" [] styleContent.type styleContent none none).1 = .ok "xl/styles.xml" ∧
    targetById "xl/_rels/workbook.xml.rels" [⟨"rId1", "worksheets/sheet1.xml", "t", none⟩] "rId1" = .ok (some "xl/worksheets/sheet1.xml") := by
  decide +kernel

/-! ## C23 -/

/-- **C23 as stated**, for relationship parts made by the library: writing and reading gives the list back. -/
def RelationshipsSurvive (env : Env) : Prop :=
  ∀ rels x keep d, rels ≠ [] → saveRels relsTemplate.doc rels = .ok (x, keep) →
    readXml env.uni (renderDoc env.build env.stamp x) = .ok d → (loadRels d.toXDoc).1 = .ok rels

/-- Exact reload: the list comes back in order, every text escaped once more. -/
theorem rels_reload (env : Env) (hst : env.build.release = true → StampOk env.stamp) {x : XDoc} {t : String} {a : Option Attrs}
    {cs : List Node} (hx : WfDoc env.uni x (.mk t a none cs)) (hcs : ∀ c ∈ cs, c.tag ≠ "Relationship") (rels : List Rel) (hne : rels ≠ []) :
    ∃ x' d, saveRels x rels = .ok (x', true) ∧ readXml env.uni (renderDoc env.build env.stamp x') = .ok d ∧
      loadRels d.toXDoc = (.ok (rels.map escRel), (d.toXDoc.popTag "Relationship").2) ∧ d.toXDoc = reloadDoc env.build x' ∧
      x'.root = some (.mk t a none (cs ++ rels.map relNode)) := by
  have hsave : saveRels x rels = .ok ({ ns := x.ns, root := some (.mk t a none (cs ++ rels.map relNode)) }, true) := by
    unfold saveRels
    rw [hx.isRoot]
    simp only [appendAll_doc hx.isRoot]
    have : 0 < rels.length := List.length_pos_iff.mpr hne
    simp [this]
  have hwf := wfDoc_append hx (ns := rels.map relNode) (wfNodes_iff.mpr (by
    intro c hc
    obtain ⟨r, _, rfl⟩ := List.mem_map.mp hc
    exact wf_relNode env.uni r))
  have hne' : cs ++ rels.map relNode ≠ [] := by
    intro he
    have := (List.append_eq_nil_iff.mp he).2
    exact hne (List.map_eq_nil_iff.mp this)
  obtain ⟨d, hd, hdx⟩ := read_doc env hst hwf hne'
  refine ⟨_, d, hsave, hd, ?_, hdx, rfl⟩
  unfold loadRels
  congr 1
  unfold XDoc.popTag
  rw [hdx, reloadDoc_rootChildren ⟨rfl⟩]
  simp only
  rw [List.map_append, filter_tag_append, List.map_map]
  · exact mapRes_map rels (fun r => loadRel_reload env.uni r)
  · intro c hc
    obtain ⟨n, hn, rfl⟩ := List.mem_map.mp hc
    rw [reload_tag]; exact hcs n hn
  · intro c hc
    obtain ⟨n, hn, rfl⟩ := List.mem_map.mp hc
    obtain ⟨r, _, rfl⟩ := List.mem_map.mp hn
    rw [reload_tag]; rfl

theorem wf_relsTemplate (u : Unicode) : WfDoc u relsTemplate.doc (.mk "Relationships" (some []) none []) :=
  wfDoc_template (by decide +kernel) (by decide +kernel)

/-- **C23 is violated** in every build: the target `http://x/?a=1&b=2` of a hyperlink comes back as `http://x/?a=1&amp;b=2`. -/
theorem C23_violated (env : Env) (hst : env.build.release = true → StampOk env.stamp) : ¬ RelationshipsSurvive env := by
  intro h
  obtain ⟨x', d, h1, h2, h3, _⟩ := rels_reload env hst (wf_relsTemplate env.uni) (by simp)
    [⟨"rId1", "http://x/?a=1&b=2", "t", some "External"⟩] (by simp)
  have := h _ _ _ d (by simp) h1 h2
  rw [h3] at this
  simp only [List.map_cons, List.map_nil] at this
  have hne : ¬ (Except.ok [escRel ⟨"rId1", "http://x/?a=1&b=2", "t", some "External"⟩] : Res (List Rel)) =
      .ok [⟨"rId1", "http://x/?a=1&b=2", "t", some "External"⟩] := by
    intro he
    have := Except.ok.inj he
    revert this
    decide +kernel
  exact hne this

/-- **C23, what holds.** For every relationship document that holds no relationship yet, whatever else it contains: the list
is written, read and loaded in the same order with the same number of entries; each entry is the one written exactly
when its texts have no special character, and otherwise has them escaped. Other elements of the part stay.
Missing from the full claim: texts with one of the five special characters. -/
theorem C23_partial (env : Env) (hst : env.build.release = true → StampOk env.stamp) (x : XDoc) (t : String) (a : Option Attrs)
    (cs : List Node) (hx : WfDoc env.uni x (.mk t a none cs)) (hcs : ∀ c ∈ cs, c.tag ≠ "Relationship") (rels : List Rel) (hne : rels ≠ []) :
    ∃ x' d rels', saveRels x rels = .ok (x', true) ∧ readXml env.uni (renderDoc env.build env.stamp x') = .ok d ∧
      (loadRels d.toXDoc).1 = .ok rels' ∧ rels'.length = rels.length ∧
      (∀ (i : Nat) (r r' : Rel), rels[i]? = some r → rels'[i]? = some r' →
        (r' = r ↔ NoSpecials r.id ∧ NoSpecials r.target ∧ NoSpecials r.type ∧ ∀ m, r.mode = some m → NoSpecials m)) ∧
      (loadRels d.toXDoc).2.rootChildren = cs.map reload := by
  obtain ⟨x', d, h1, h2, h3, h4, h5⟩ := rels_reload env hst hx hcs rels hne
  refine ⟨x', d, rels.map escRel, h1, h2, by rw [h3], by simp, ?_, ?_⟩
  · intro i r r' hr hr'
    rw [List.getElem?_map, hr] at hr'
    cases hr'
    exact escRel_eq_iff r
  · rw [h3]
    simp only [XDoc.popTag, h4]
    have hroot : (reloadDoc env.build x').root = some (reload (.mk t a none (cs ++ rels.map relNode))) := by
      unfold reloadDoc; rw [h5]; rfl
    unfold XDoc.rootChildren XDoc.mapRootChildren
    rw [hroot]
    simp only [Option.map_some, reload, Node.withChildren, Node.children, reloads_eq, List.map_append]
    apply filter_ne_tag_append
    · intro c hc
      obtain ⟨n, hn, rfl⟩ := List.mem_map.mp hc
      rw [reload_tag]; exact hcs n hn
    · intro c hc
      obtain ⟨n, hn, rfl⟩ := List.mem_map.mp hc
      obtain ⟨r, _, rfl⟩ := List.mem_map.mp hn
      rw [reload_tag]; rfl

/-- The template meets the hypotheses, and an ordinary list has no special characters. -/
example : WfDoc ⟨fun _ => false⟩ relsTemplate.doc (.mk "Relationships" (some []) none []) ∧
    (RelOp.runAll [] [.add styleContent none none]).map (fun r => r.target) = ["/xl/styles.xml"] :=
  ⟨wf_relsTemplate _, by decide +kernel⟩

end Oxml
