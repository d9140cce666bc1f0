import Verif.Proofs.AllWellFormed
/-!
# Lemmas for C115: names and content types of parts
-/
namespace Oxml
open Spec

/-- The name and the types of a part are of XML characters. -/
def PartX (n : String) (ct : Option String) (ex et : String) : Prop := XmlChars n ∧ OptX ct ∧ XmlChars ex ∧ XmlChars et

/-- So they are for every part. -/
structure MetaX (p : Pkg) : Prop where
  arch : ∀ n e, aget n p.archive = some e → PartX n e.ctype e.ext e.extType
  opened : ∀ n o, aget n p.opened = some o → PartX n o.ctype o.ext o.extType

variable {env : Env} {z : Zip} {p : Pkg}

theorem MetaX.delete (h : MetaX p) (m : String) : MetaX (p.delete m) := by
  refine ⟨fun n e he => ?_, h.opened⟩
  unfold Pkg.delete at he
  rw [aget_aerase] at he
  split at he
  · cases he
  · exact h.arch n e he

theorem MetaX.update (h : MetaX p) (k : Nat) (f : XDoc → XDoc) : MetaX (p.update k f) := by
  refine ⟨h.arch, fun n o ho => ?_⟩
  rw [aget_updated] at ho
  cases he : aget n p.opened with
  | none => rw [he] at ho; cases ho
  | some v =>
    rw [he] at ho
    simp only [Option.map_some, Option.some.injEq] at ho
    subst ho
    split <;> exact h.opened n v he

theorem MetaX.close (h : MetaX p) (env : Env) (m : String) : MetaX (p.close env m) := by
  cases ho : aget m p.opened with
  | none =>
    have : p.close env m = p := by unfold Pkg.close; rw [ho]
    rw [this]; exact h
  | some o =>
    have e : p.close env m = { p with opened := aerase m p.opened, archive := ainsert m { ext := o.ext, extType := o.extType, ctype := o.ctype, content := renderDoc env.build env.stamp o.doc } p.archive } := by
      unfold Pkg.close; rw [ho]
    rw [e]
    refine ⟨fun n e he => ?_, fun n o' ho' => ?_⟩
    · simp only [aget_ainsert] at he
      split at he
      · next hm =>
        subst hm
        cases he
        exact h.opened _ o ho
      · exact h.arch n e he
    · simp only [aget_aerase] at ho'
      split at ho'
      · cases ho'
      · exact h.opened n o' ho'

theorem MetaX.openPart (h : MetaX p) (env : Env) {t : Template} {m : String} (ht : PartX m t.ctype t.ext t.extType) : MetaX (p.openPart env (.ok t) m).2 := by
  have reg : ∀ {q : Pkg} (d : XDoc) (ct : Option String) (ex et : String), MetaX q → PartX m ct ex et → MetaX (q.register m d ct ex et).1 := by
    intro q d ct ex et hq hd
    refine ⟨hq.arch, fun n o ho => ?_⟩
    unfold Pkg.register at ho
    simp only [aget_ainsert] at ho
    split at ho
    · next hm => subst hm; cases ho; exact hd
    · exact hq.opened n o ho
  unfold Pkg.openPart Pkg.getXmlTree
  split
  · next e p1 he =>
    split at he
    · cases he; exact h
    · split at he
      · cases he
      · split at he
        · cases he; exact h.delete m
        · cases he
  · next t' p1 he =>
    split at he
    · cases he
    · split at he
      · cases he
      · next e ha =>
        split at he
        · cases he
        · next d hd =>
          simp only [Prod.mk.injEq, Except.ok.injEq, Option.some.injEq] at he
          obtain ⟨rfl, rfl⟩ := he
          exact reg _ _ _ _ (h.delete m) (h.arch m e ha)
  · next p1 he =>
    split at he
    · cases he
    · split at he
      · cases he
        exact reg _ _ _ _ h ht
      · split at he <;> cases he

theorem partX_rels {m : String} (hm : XmlChars m) : PartX m relsTemplate.ctype relsTemplate.ext relsTemplate.extType :=
  ⟨hm, fun t ht => xlit (by
    have : relsTemplate.ctype.toList.all (fun t => t.toList.all (fun x => decide (0x20 ≤ x.toNat ∧ x.toNat < 128))) = true := by decide +kernel
    exact List.all_eq_true.mp this t (Option.mem_toList.mpr ht)), xlit (by decide +kernel), xlit (by decide +kernel)⟩

theorem partX_template {t : Template} (h : (t.ctype.toList ++ [t.ext, t.extType]).all (fun t => t.toList.all (fun x => decide (0x20 ≤ x.toNat ∧ x.toNat < 128))) = true)
    {m : String} (hm : XmlChars m) : PartX m t.ctype t.ext t.extType := by
  have := List.all_eq_true.mp h
  exact ⟨hm, fun t ht => xlit (this t (List.mem_append_left _ (Option.mem_toList.mpr ht))), xlit (this _ (by simp)), xlit (this _ (by simp))⟩

theorem MetaX.relNew (h : MetaX p) (env : Env) {m : String} (hm : XmlChars m) : MetaX (RelPart.new env p m).2 := by
  have h1 := h.openPart env (partX_rels hm)
  unfold RelPart.new
  split
  · next ho => rw [ho] at h1; exact h1
  · next hd p1 ho =>
    have h2 : MetaX p1 := by rw [ho] at h1; exact h1
    split
    · exact h2
    · split
      · next x' _ => exact h2.update hd (fun _ => x')
      · next x' _ => exact h2.update hd (fun _ => x')

theorem MetaX.relClose (h : MetaX p) (env : Env) (r : RelPart) : MetaX (r.close env p).2 := by
  unfold RelPart.close
  split
  · exact h
  · split
    · exact h
    · simp only
      split
      · exact (h.update _ _).close env _
      · exact (h.update _ _).delete _

theorem MetaX.closeSheet (h : MetaX p) (env : Env) (g : SheetHandle) : MetaX (closeSheet env p g).2 := by
  unfold Oxml.closeSheet
  split
  · exact h.close env _
  · split
    · exact h
    · exact (h.update _ _).close env _

theorem MetaX.dropSheet (h : MetaX p) (env : Env) (g : SheetHandle) : MetaX (dropSheet env p g) := (h.closeSheet env g).relClose env _

theorem dirOf_x {f d : String} (hf : XmlChars f) (h : dirOf f = some d) : XmlChars d := by
  unfold dirOf at h
  split at h
  · have e1 := Option.some.inj h
    subst e1
    refine xml_chars String.toList_ofList fun c hc => hf c ?_
    have := List.mem_of_mem_tail (List.mem_reverse.mp hc)
    exact List.mem_reverse.mp ((List.dropWhile_sublist _).subset this)
  · cases h

theorem sheetRelsPath_x {f r : String} (hf : XmlChars f) (h : sheetRelsPath f = some r) : XmlChars r := by
  unfold sheetRelsPath at h
  cases hd : dirOf f with
  | none => rw [hd] at h; cases h
  | some d =>
    rw [hd] at h
    simp only [Option.map_some] at h
    have h := Option.some.inj h
    subst h
    refine xml_append (xml_append (xml_append (dirOf_x hf hd) (xlit (by decide +kernel))) ?_) (xlit (by decide +kernel))
    unfold baseOf
    refine xml_chars String.toList_ofList fun c hc => hf c ?_
    exact List.mem_reverse.mp ((List.takeWhile_sublist _).subset (List.mem_reverse.mp hc))

theorem MetaX.openAt {x1 : Excel} (h : MetaX x1.pkg) (env : Env) {path : String} (hp : XmlChars path) (nm : String) : MetaX (openAt env x1 path nm).2.pkg := by
  have h1 := h.openPart env (t := worksheetTemplate) (m := path) (partX_template (by decide +kernel) hp)
  unfold Oxml.openAt
  cases ho1 : x1.pkg.openPart env (.ok worksheetTemplate) path with
  | mk r p2 =>
    rw [ho1] at h1
    cases r with
    | error e => exact h1
    | ok hd =>
      simp only
      cases hrp : sheetRelsPath path with
      | none => exact h1
      | some rp =>
        simp only
        have h2 := MetaX.relNew h1 env (sheetRelsPath_x hp hrp)
        cases ho2 : RelPart.new env p2 rp with
        | mk r p3 =>
          rw [ho2] at h2
          cases r with
          | error e => exact h2
          | ok rels =>
            simp only
            cases hdoc : p3.docOf hd with
            | none => exact MetaX.relClose h2 env rels
            | some d =>
              simp only
              cases hl : Sheet.load env d with
              | mk r d' =>
                cases r with
                | error e => exact (MetaX.update h2 hd (fun _ => d')).relClose env rels
                | ok sh => exact MetaX.update h2 hd (fun _ => d')

/-- The path of a sheet. -/
theorem sheetFile_x {x : Excel} (h : BookX x) {name : Option String} {path nm : String} {x1 : Excel} (hf : x.sheetFile name = (.ok (path, nm), x1)) : XmlChars path := by
  unfold Excel.sheetFile at hf
  split at hf
  · next e _ =>
    split at hf
    · cases hf
    · cases hf
    · next t ht =>
      cases hf
      unfold targetById at ht
      split at ht
      · cases ht
      · next r hr =>
        split at ht
        · cases ht
        · next t' ht' =>
          cases ht
          exact resolveTarget_x h.relsPath (h.rels r (List.mem_of_find?_eq_some hr)).2.1 ht'
  · split at hf
    · cases hf
    · next dir hd =>
      cases hf
      have hdir := relativePath_x h.relsPath hd
      have hw : ContentX worksheetContent := contentX_of (by decide +kernel)
      unfold sheetPath
      exact xml_append (xml_append (xml_append (xml_append (xml_append (xml_append hdir hw.1) (xlit (by decide +kernel))) hw.2.1) (xml_nat _)) (xlit (by decide +kernel))) hw.2.2.1

theorem MetaX.open {s : Session} (h : MetaX s.x.pkg) (hb : BookX s.x) (env : Env) (name : Option String) : MetaX (s.open env name).2.x.pkg := by
  unfold Session.open
  rw [openSheet_eq]
  have f1 := (sheetFile_pairs (x := s.x) (name := name)).1
  cases hf : s.x.sheetFile name with
  | mk r x1 =>
    rw [hf] at f1
    simp only at f1
    have h1 : MetaX x1.pkg := by rw [f1]; exact h
    cases r with
    | error e => exact h1
    | ok pn =>
      obtain ⟨path, nm⟩ := pn
      have h2 := h1.openAt env (sheetFile_x hb hf) nm
      simp only
      cases ha : Oxml.openAt env x1 path nm with
      | mk r x2 =>
        rw [ha] at h2
        cases r with
        | error e => exact h2
        | ok g => exact h2

theorem MetaX.step {s : Session} (h : MetaX s.x.pkg) (hb : BookX s.x) (env : Env) (op : WbOp) : MetaX (s.step env op).2.x.pkg := by
  cases op with
  | add name => exact h.open hb env name
  | get name => exact h.open hb env (some name)
  | sheet i op =>
    unfold Session.step
    simp only
    split
    · exact h
    · split <;> exact h
  | drop i =>
    unfold Session.step
    simp only
    split
    · exact h
    · exact h.dropSheet env _
  | delete i =>
    unfold Session.step
    simp only
    split
    · exact h
    · exact ((h.delete _).closeSheet env _).dropSheet env _
  | rename old new =>
    unfold Session.step
    simp only
    split <;> exact h
  | active name => exact h
  | hide name => exact h
  | view op => exact h
  | style hs st =>
    unfold Session.step
    simp only
    split <;> exact h

theorem MetaX.run {ops : List WbOp} {s s' : Session} (hr : s.run env ops = .ok s') (h : MetaX s.x.pkg) (hb : BookX s.x)
    (ho : ∀ op ∈ ops, ∀ t ∈ givenTexts op, XmlChars t) : MetaX s'.x.pkg := by
  induction ops generalizing s with
  | nil => cases hr; exact h
  | cons op ops ih => exact ih (run_cons hr) (h.step hb env op) (hb.step (ho op (by simp))) (fun o h => ho o (by simp [h]))

/-! ## What was loaded -/

theorem DeepX.attrVal {n : Node} (h : DeepX n) {k v : String} (hv : n.attr? k = some v) : XmlChars v := by
  cases hat : n.attrs with
  | none => unfold Node.attr? at hv; rw [hat] at hv; cases hv
  | some a =>
    refine h.attr hat k v ?_
    unfold Node.attr? at hv
    rw [hat] at hv
    exact hv

/-- The parts of a file as loaded. -/
theorem metaX_load (hn : ∀ n ∈ akeys z, XmlChars n) (hct : ∀ c d, aget contentTypesName z = some c → readXml env.uni c = .ok d → DeepDoc d.toXDoc) (hp : Pkg.ofZip env z = .ok p) :
    MetaX p := by
  obtain ⟨ct, d, exts, h1, h2, h3, h4, h5, _⟩ := ofZip_ok hp
  have hd := (hct ct d h1 h2).children
  refine ⟨fun n e he => ?_, fun n o ho => by rw [h5] at ho; cases ho⟩
  obtain ⟨k1, k2⟩ := loadEntries_ok h4
  have hname : XmlChars n := by
    have : n ∈ akeys p.archive := mem_akeys_of_aget he
    rw [k1] at this
    obtain ⟨kv, hkv, rfl⟩ := List.mem_map.mp this
    exact hn _ (List.mem_map_of_mem (List.mem_filter.mp hkv).1)
  have := k2 n
  rw [he] at this
  cases hc : aget n (z.filter (fun kv => kv.1 ≠ contentTypesName)) with
  | none => rw [hc] at this; cases this
  | some c =>
    rw [hc] at this
    simp only [Option.map_some, Option.some.injEq] at this
    have hext : ∀ e ∈ exts, XmlChars e.1 ∧ XmlChars e.2 := by
      intro e he
      obtain ⟨n, hn, e'⟩ := mapRes_mem h3 e he
      have hx := hd n (List.mem_filter.mp hn).1
      unfold needAttr at e'
      split at e'
      · cases e'
      · next a ha =>
        split at e'
        · cases e'
        · next b hb =>
          cases e'
          split at ha
          · next v hv =>
            cases ha
            split at hb
            · next w hw => cases hb; exact ⟨hx.attrVal hv, hx.attrVal hw⟩
            · cases hb
          · cases ha
    unfold loadEntry at this
    split at this
    · cases this
    · next t ht =>
      have hov : OptX t := by
        unfold overrideContentType at ht
        split at ht
        · cases ht; exact optX_none
        · next m hm =>
          split at ht
          · next w hw =>
            cases ht
            exact optX_some ((hd m (List.mem_filter.mp (List.mem_filter.mp (List.mem_of_getLast? hm)).1).1).attrVal hw)
          · cases ht
      split at this
      · next q hq =>
        cases this
        have := hext q (List.mem_of_find?_eq_some hq)
        exact ⟨hname, hov, this.1, this.2⟩
      · cases this
        exact ⟨hname, hov, xlit (s := "") (by decide +kernel), xlit (s := "") (by decide +kernel)⟩

theorem source_meta {t : Template} {n : String} {o : OpenDoc} (h : MetaX p) (hs : Source env p t n o) (ht : PartX n t.ctype t.ext t.extType) : PartX n o.ctype o.ext o.extType := by
  rcases hs with ⟨_, _, h1, h2, h3⟩ | ⟨e, d, h0, _, _, h1, h2, h3⟩
  · rw [h1, h2, h3]; exact ht
  · rw [h1, h2, h3]; exact h.arch n e h0

end Oxml
