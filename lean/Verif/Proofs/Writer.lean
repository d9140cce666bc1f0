import Verif.Proofs.LTree
import Verif.Spec.Render
/-!
# The iterative writer emits the document in order
-/
namespace Oxml

open LTree

mutual
/-- Loop iterations spent below an element. -/
def LTree.steps : LTree → Nat
  | .node e ks =>
    match e.value with
    | some _ => 1
    | none => if ks.isEmpty then 1 else LTree.stepsL ks + 2
def LTree.stepsL : List LTree → Nat
  | [] => 0
  | k :: ks => k.steps + LTree.stepsL ks
end

theorem render_erase_nil (b : Build) (e : Elem) (h : e.value = none) :
    render b (erase (.node e [])) = openTag b e.tag e.attrs none true := by
  simp [erase, erases, render, h]

theorem render_erase_some (b : Build) (e : Elem) (ks : List LTree) (v : String) (h : e.value = some v) :
    render b (erase (.node e ks)) = openTag b e.tag e.attrs none false ++ valueClose v e.tag := by
  cases ks <;> simp [erase, erases, render, h]

theorem render_erase_kids (b : Build) (e : Elem) (k : LTree) (ks : List LTree) (h : e.value = none) :
    render b (erase (.node e (k :: ks))) =
      openTag b e.tag e.attrs none false ++ renders b (erases (k :: ks)) ++ valueClose "" e.tag := by
  simp [erase, erases, render, h]

/-- What the writer does with one subtree: from parent `p` whose next child is this tree. -/
def SimTree (b : Build) (t : LTree) : Prop :=
  ∀ (d : XmlDoc) (fuel p : Nat) (pe : Elem) (rest : List Child) (out : List Char),
    d.get p = some pe → pe.children = t.asChild :: rest → t.Holds d.get → t.Consistent → t.ids.Nodup →
    p ∉ t.ids → 0 ∉ t.ids → t.elem.parentId = p →
    ∃ d' : XmlDoc, writeLoop b (fuel + t.steps) d p out = writeLoop b fuel d' p (out ++ render b t.erase) ∧
      d'.get p = some { pe with children := rest } ∧ ∀ j, j ≠ p → j ∉ t.ids → d'.get j = d.get j

/-- The same for a list of subtrees. -/
def SimList (b : Build) (ts : List LTree) : Prop :=
  ∀ (d : XmlDoc) (fuel p : Nat) (pe : Elem) (rest : List Child) (out : List Char),
    d.get p = some pe → pe.children = ts.map asChild ++ rest → HoldsL d.get ts → ConsistentL ts → (idsL ts).Nodup →
    p ∉ idsL ts → 0 ∉ idsL ts → (∀ t ∈ ts, t.elem.parentId = p) →
    ∃ d' : XmlDoc, writeLoop b (fuel + stepsL ts) d p out = writeLoop b fuel d' p (out ++ renders b (erases ts)) ∧
      d'.get p = some { pe with children := rest } ∧ ∀ j, j ≠ p → j ∉ idsL ts → d'.get j = d.get j

theorem simList_of {b : Build} {ts : List LTree} (h : ∀ t ∈ ts, SimTree b t) : SimList b ts := by
  induction ts with
  | nil =>
    intro d fuel p pe rest out hp hch _ _ _ _ _ _
    refine ⟨d, by simp [stepsL, erases, renders], ?_, fun _ _ _ => rfl⟩
    rw [hp]; simp only [List.map_nil, List.nil_append] at hch; rw [← hch]
  | cons t ts ih =>
    intro d fuel p pe rest out hp hch hh hc hn hpn h0 hpar
    obtain ⟨hh1, hh2⟩ := holdsL_cons.mp hh
    obtain ⟨hc1, hc2⟩ := hc
    rw [idsL_cons] at hn hpn h0
    obtain ⟨hn1, hn2, hdis⟩ := List.nodup_append.mp hn
    simp only [List.mem_append, not_or] at hpn h0
    obtain ⟨d1, e1, g1, k1⟩ := h t (by simp) d (fuel + stepsL ts) p pe (ts.map asChild ++ rest) out hp
      (by simpa using hch) hh1 hc1 hn1 hpn.1 h0.1 (hpar t (by simp))
    have hh2' : HoldsL d1.get ts := by
      apply hh2.congr
      intro i hi
      apply k1
      · rintro rfl; exact hpn.2 hi
      · intro hi'; exact hdis i hi' i hi rfl
    obtain ⟨d2, e2, g2, k2⟩ := ih (fun x hx => h x (by simp [hx])) d1 fuel p _ rest (out ++ render b t.erase) g1 rfl hh2' hc2 hn2
      hpn.2 h0.2 (fun x hx => hpar x (by simp [hx]))
    refine ⟨d2, ?_, g2, ?_⟩
    · rw [stepsL, show fuel + (t.steps + stepsL ts) = fuel + stepsL ts + t.steps by omega, e1, e2]
      simp [erases, renders]
    · intro j hj hj'
      rw [idsL_cons, List.mem_append, not_or] at hj'
      rw [k2 j hj hj'.2, k1 j hj hj'.1]

theorem simTree (b : Build) : ∀ t : LTree, SimTree b t := by
  refine LTree.ind ?_
  intro e ks ih d fuel p pe rest out hp hch hh hc hn hpn h0 hpar
  obtain ⟨he, hhk⟩ := holds_node.mp hh
  obtain ⟨hech, hkpar, hck⟩ := hc
  rw [ids_node] at hn hpn h0
  obtain ⟨hne, hnk⟩ := List.nodup_cons.mp hn
  simp only [List.mem_cons, not_or] at hpn h0
  have hstep : ∀ f, writeLoop b (f + 1) d p out =
      (let d1 := d.put p { pe with children := rest }
       if e.isEmptyTag then writeLoop b f d1 p (out ++ openTag b e.tag e.attrs none true)
       else
        let out1 := out ++ openTag b e.tag e.attrs none false
        match e.value with
        | some v => writeLoop b f d1 p (out1 ++ valueClose v e.tag)
        | none => writeLoop b f d1 e.id out1) := by
    intro f
    conv => lhs; unfold writeLoop
    rw [hp]
    simp only [hch]
    have : (asChild (.node e ks)).id = e.id := rfl
    rw [this, XmlDoc.get_put_ne _ hpn.1, he]
    rfl
  have frame : ∀ j, j ≠ p → (d.put p { pe with children := rest }).get j = d.get j :=
    fun j hj => XmlDoc.get_put_ne _ (Ne.symm hj) _
  cases hv : e.value with
  | some v =>
    refine ⟨d.put p { pe with children := rest }, ?_, XmlDoc.get_put_self _ _ _, fun j hj _ => frame j hj⟩
    have hs : (LTree.node e ks).steps = 1 := by simp [LTree.steps, hv]
    rw [hs, hstep, render_erase_some b e ks v hv]
    simp [Elem.isEmptyTag, hv]
  | none =>
    cases ks with
    | nil =>
      refine ⟨d.put p { pe with children := rest }, ?_, XmlDoc.get_put_self _ _ _, fun j hj _ => frame j hj⟩
      have hs : (LTree.node e []).steps = 1 := by simp [LTree.steps, hv]
      rw [hs, hstep, render_erase_nil b e hv]
      have : e.isEmptyTag = true := by simp [Elem.isEmptyTag, hv, hech]
      simp [this]
    | cons k ks =>
      have hs : (LTree.node e (k :: ks)).steps = stepsL (k :: ks) + 2 := by simp [LTree.steps, hv]
      have hemp : e.isEmptyTag = false := by simp [Elem.isEmptyTag, hech]
      rw [hs, show fuel + (stepsL (k :: ks) + 2) = fuel + 1 + stepsL (k :: ks) + 1 by omega, hstep,
        render_erase_kids b e k ks hv]
      simp only [hemp, hv, Bool.false_eq_true, if_false]
      have hpk : p ∉ idsL (k :: ks) := hpn.2
      have hget1 : (d.put p { pe with children := rest }).get e.id = some e := by
        rw [frame _ (fun h => hpn.1 h.symm)]; exact he
      have hh1 : HoldsL (d.put p { pe with children := rest }).get (k :: ks) := by
        apply hhk.congr
        intro i hi
        apply frame
        rintro rfl; exact hpk hi
      obtain ⟨d2, e2, g2, k2⟩ := simList_of ih (d.put p { pe with children := rest }) (fuel + 1) e.id e []
        (out ++ openTag b e.tag e.attrs none false) hget1 (by simpa using hech) hh1 hck hnk hne h0.2 hkpar
      refine ⟨d2, ?_, ?_, ?_⟩
      · rw [e2]
        conv => lhs; unfold writeLoop
        rw [g2]
        simp only
        rw [if_neg (Ne.symm h0.1)]
        have : e.parentId = p := hpar
        rw [this]
        simp
      · rw [k2 p hpn.1 hpk]
        exact XmlDoc.get_put_self _ _ _
      · intro j hj hj'
        rw [ids_node, List.mem_cons, not_or] at hj'
        rw [k2 j hj'.1 hj'.2, frame j hj]

mutual
theorem LTree.steps_le : ∀ t : LTree, t.steps ≤ 2 * t.entries.length
  | .node e ks => by
    have := LTree.stepsL_le ks
    unfold LTree.steps
    split
    · simp only [entries, List.length_cons]; omega
    · split <;> simp only [entries, List.length_cons] <;> omega
theorem LTree.stepsL_le : ∀ ts : List LTree, stepsL ts ≤ 2 * (entriesL ts).length
  | [] => by simp [stepsL]
  | t :: ts => by
    have h1 := LTree.steps_le t
    have h2 := LTree.stepsL_le ts
    simp only [stepsL, entriesL, List.length_append]
    omega
end

theorem ids_length_le_count {d : XmlDoc} {t : LTree} (hn : t.ids.Nodup) (hh : t.Holds d.get) :
    t.entries.length ≤ d.count := by
  have : t.ids.length ≤ (akeys d.elems).length := by
    apply length_le_of_nodup_subset hn
    intro i hi
    obtain ⟨x, hx, rfl⟩ := List.mem_map.mp hi
    exact mem_akeys_of_aget (hh x hx)
  simpa [LTree.ids, akeys, XmlDoc.count] using this

/-- Writing a tree-shaped arena never fails and gives the document-order text. -/
theorem buildXmlTree_eq (b : Build) {d : XmlDoc} (hinv : d.Inv) :
    buildXmlTree b d = .ok (match d.toXDoc.root with
      | none => []
      | some r => renderRoot b d.ns r) := by
  unfold buildXmlTree
  cases h0 : d.get 0 with
  | none =>
    have : d.toXDoc.root = none := by
      simp [XmlDoc.toXDoc, XmlDoc.toNode, h0]
    simp [this]
  | some e =>
    obtain ⟨t, ht, hc, hh, hge, hn, hnode⟩ := exists_ltree hinv (d.runningId + 1) 0 e (by omega) h0
    have hroot : d.toXDoc.root = some t.erase := hnode (d.runningId + 1) (by omega)
    rw [hroot]
    cases t with
    | node e' ks =>
      obtain rfl : e = e' := ht.symm
      simp only
      have heid : e.id = 0 := hinv.tree.ownId _ _ h0
      obtain ⟨hech, hkpar, hck⟩ := hc
      cases hv : e.value with
      | some v =>
        have : e.isEmptyTag = false := by simp [Elem.isEmptyTag, hv]
        cases ks <;> simp [this, erase, erases, renderRoot, hv]
      | none =>
        cases ks with
        | nil =>
          have : e.isEmptyTag = true := by simp [Elem.isEmptyTag, hv, hech]
          simp [this, erase, erases, renderRoot, hv]
        | cons k ks =>
          have hemp : e.isEmptyTag = false := by simp [Elem.isEmptyTag, hech]
          simp only [hemp, hv, Bool.false_eq_true, if_false]
          obtain ⟨_, hhk⟩ := holds_node.mp hh
          have hcount := ids_length_le_count hn hh
          rw [ids_node] at hn
          obtain ⟨hne, hnk⟩ := List.nodup_cons.mp hn
          rw [heid] at hne
          have hsteps := LTree.stepsL_le (k :: ks)
          simp only [entries, List.length_cons] at hcount
          obtain ⟨fuel, hf⟩ : ∃ fuel, d.count * 2 = fuel + 1 + stepsL (k :: ks) :=
            ⟨d.count * 2 - 1 - stepsL (k :: ks), by omega⟩
          obtain ⟨d2, e2, g2, _⟩ := simList_of (fun t _ => simTree b t) d (fuel + 1) 0 e []
            (openTag b e.tag e.attrs (some d.ns) false) h0 (by simpa using hech) hhk hck hnk hne hne
            (fun t ht => by rw [hkpar t ht, heid])
          rw [hf, e2]
          unfold writeLoop
          rw [g2]
          simp [erase, erases, renderRoot, hv, bind, Except.bind]

theorem writeXml_eq (b : Build) (stamp : List Char) {d : XmlDoc} (hinv : d.Inv) :
    writeXml b stamp d = .ok (renderDoc b stamp d.toXDoc) := by
  unfold writeXml
  rw [buildXmlTree_eq b hinv]
  rfl

end Oxml
