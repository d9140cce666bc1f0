import Verif.Proofs.ForeignSaved
import Verif.Proofs.FileClean
import Verif.Props.WellFormedFile
/-!
# Towards C112: texts of opened documents
-/
namespace Oxml
open Spec

/-! ## Texts of items -/

mutual
/-- All texts and attribute values another program reads are of XML characters. -/
def ItemX : Item → Prop
  | .text t => ∀ c ∈ t, XmlChar c
  | .elem _ kvs cs => (∀ kv ∈ kvs, ∀ c ∈ kv.2, XmlChar c) ∧ ItemXs cs
def ItemXs : List Item → Prop
  | [] => True
  | i :: l => ItemX i ∧ ItemXs l
end

theorem attrs_x {s : List Char} {kvs : List (List Char × List Char)} (h : IsAttrs s kvs) : ∀ kv ∈ kvs, ∀ c ∈ kv.2, XmlChar c := by
  induction h with
  | nil => intro kv h; cases h
  | cons h1 _ ih =>
    intro kv hkv
    rcases List.mem_cons.mp hkv with rfl | hkv
    · obtain ⟨_, _, _, _, _, _, _, _, _, _, _, _, _, _, _, _, h⟩ := h1
      exact h
    · exact ih kv hkv

theorem content_x {s : List Char} {l : List Item} (h : IsContent s l) : ItemXs l := by
  induction h with
  | nil => trivial
  | text h1 _ _ ih => exact ⟨h1.means, ih⟩
  | void _ h2 _ _ _ ih => exact ⟨⟨attrs_x h2, trivial⟩, ih⟩
  | elem _ h2 _ _ _ _ _ ih1 ih2 => exact ⟨⟨attrs_x h2, ih1⟩, ih2⟩
  | comment _ _ ih => exact ih
  | pi _ _ ih => exact ih
  | cdata h1 _ ih =>
    obtain ⟨raw, _, h2, _, rfl⟩ := h1
    exact ⟨xmlChars_lineEnds h2, ih⟩

theorem document_x {s : List Char} {root : Item} (h : IsDocument s root) : ItemX root := by
  obtain ⟨_, _, _, _, _, _, _, h, _, _⟩ := h
  exact (content_x h).1

/-! ## Texts the library keeps -/

mutual
/-- All texts and attribute values of the element and everything in it are of XML characters. -/
def DeepX : Node → Prop
  | .mk _ a v cs => AttrsX a ∧ OptX v ∧ DeepXs cs
def DeepXs : List Node → Prop
  | [] => True
  | c :: cs => DeepX c ∧ DeepXs cs
end

theorem deepXs_iff {cs : List Node} : DeepXs cs ↔ ∀ c ∈ cs, DeepX c := by
  induction cs with
  | nil => simp [DeepXs]
  | cons c cs ih => simp [DeepXs, ih]

theorem DeepX.nodeX : ∀ n : Node, DeepX n → NodeX n := by
  refine Node.ind ?_
  intro tag a v cs ih h
  obtain ⟨h1, h2, h3⟩ := h
  cases v with
  | some v => exact nodeX_text h1 (h2 v rfl)
  | none => exact nodeX_mk h1 (fun c hc => ih c hc (deepXs_iff.mp h3 c hc))

theorem DeepX.attr {n : Node} (h : DeepX n) {a : Attrs} (ha : n.attrs = some a) (k : String) : OptX (aget k a) := by
  obtain ⟨t, a', v, cs⟩ := n
  cases ha
  intro w hw
  exact h.1 (k, w) (mem_of_aget hw)

theorem DeepX.child {n c : Node} (h : DeepX n) (hc : c ∈ n.children) : DeepX c := by
  obtain ⟨t, a', v, cs⟩ := n
  exact deepXs_iff.mp h.2.2 c hc

theorem DeepX.text {n : Node} (h : DeepX n) : OptX n.value := by
  obtain ⟨t, a', v, cs⟩ := n
  exact h.2.1

theorem sameLines_source {a b : List Char} (h : SameLines a b) (hb : ∀ c ∈ b, XmlChar c) : ∀ c ∈ a, XmlChar c := by
  induction h with
  | nil => exact hb
  | same _ ih =>
    intro c hc
    rcases List.mem_cons.mp hc with rfl | hc
    · exact hb _ (by simp)
    · exact ih (fun c h => hb c (List.mem_cons_of_mem _ h)) c hc
  | crlf _ ih =>
    intro c hc
    simp only [List.mem_cons] at hc
    rcases hc with rfl | rfl | hc
    · exact .inr (.inr (.inl rfl))
    · exact .inr (.inl rfl)
    · exact ih (fun c h => hb c (List.mem_cons_of_mem _ h)) c hc
  | cr _ ih =>
    intro c hc
    rcases List.mem_cons.mp hc with rfl | hc
    · exact .inr (.inr (.inl rfl))
    · exact ih (fun c h => hb c (List.mem_cons_of_mem _ h)) c hc

theorem written_x {w : Spec.Written} {x : Char} (h : w.Means x) (hx : XmlChar x) : ∀ c ∈ w.text, XmlChar c := by
  have dec : ∀ d : Fin 10, 0x20 ≤ (decDigit d).toNat ∧ (decDigit d).toNat < 128 := by decide +kernel
  have hex : ∀ d : Fin 16, ∀ b : Bool, 0x20 ≤ (hexDigit (d, b)).toNat ∧ (hexDigit (d, b)).toNat < 128 := by decide +kernel
  cases w with
  | plain c =>
    intro y hy
    rw [Spec.Written.text, List.mem_singleton] at hy
    subst hy
    rw [h.1]
    exact hx
  | lt => exact ascii_xml (by decide +kernel)
  | gt => exact ascii_xml (by decide +kernel)
  | amp => exact ascii_xml (by decide +kernel)
  | apos => exact ascii_xml (by decide +kernel)
  | quot => exact ascii_xml (by decide +kernel)
  | dec ds =>
    intro y hy
    simp only [Spec.Written.text, List.mem_cons, List.mem_append, List.mem_map, List.not_mem_nil, or_false] at hy
    rcases hy with rfl | rfl | ⟨d, _, rfl⟩ | rfl
    · exact xmlChar_ascii (by decide) (by decide)
    · exact xmlChar_ascii (by decide) (by decide)
    · exact xmlChar_ascii (dec d).1 (dec d).2
    · exact xmlChar_ascii (by decide) (by decide)
  | hex ds =>
    intro y hy
    simp only [Spec.Written.text, List.mem_cons, List.mem_append, List.mem_map, List.not_mem_nil, or_false] at hy
    rcases hy with rfl | rfl | rfl | ⟨d, _, rfl⟩ | rfl
    · exact xmlChar_ascii (by decide) (by decide)
    · exact xmlChar_ascii (by decide) (by decide)
    · exact xmlChar_ascii (by decide) (by decide)
    · exact xmlChar_ascii (hex d.1 d.2).1 (hex d.1 d.2).2
    · exact xmlChar_ascii (by decide) (by decide)

theorem standsFor_x {s t : List Char} (h : StandsFor s t) (ht : ∀ c ∈ t, XmlChar c) : ∀ c ∈ s, XmlChar c := by
  obtain ⟨ws, rfl, rfl, h⟩ := h
  intro c hc
  obtain ⟨w, hw, hc⟩ := List.mem_flatMap.mp hc
  exact written_x (h w hw) (ht _ (List.mem_map_of_mem hw)) c hc

theorem lineEnds_has {s : List Char} {c : Char} (h : c ∈ s) (hr : c ≠ '\r') : c ∈ lineEnds s := by
  fun_induction lineEnds s with
  | case1 => cases h
  | case2 s ih =>
    simp only [List.mem_cons] at h ⊢
    rcases h with h | h | h
    · exact absurd h hr
    · exact .inl h
    · exact .inr (ih h)
  | case3 s _ ih =>
    simp only [List.mem_cons] at h ⊢
    rcases h with h | h
    · exact absurd h hr
    · exact .inr (ih h)
  | case4 d s _ _ ih =>
    simp only [List.mem_cons] at h ⊢
    rcases h with h | h
    · exact .inl h
    · exact .inr (ih h)

theorem attrValue_x {v t : List Char} (h : StandsFor ((lineEnds v).map whiteToSpace) t) (ht : ∀ c ∈ t, XmlChar c) : ∀ c ∈ v, XmlChar c := by
  intro c hc
  by_cases h1 : c = '\t'
  · exact .inl h1
  by_cases h2 : c = '\n'
  · exact .inr (.inl h2)
  by_cases h3 : c = '\r'
  · exact .inr (.inr (.inl h3))
  have hm : whiteToSpace c = c := by
    unfold whiteToSpace
    simp [h1, h2, h3]
  have := standsFor_x h ht (whiteToSpace c) (List.mem_map_of_mem (lineEnds_has hc h3))
  rw [hm] at this
  exact this

theorem mem_textsOf {l : List Item} {t : List Char} (h : t ∈ textsOf l) : Item.text t ∈ l := by
  induction l with
  | nil => cases h
  | cons i l ih =>
    cases i with
    | text s =>
      rw [textsOf] at h
      rcases List.mem_cons.mp h with rfl | h
      · simp
      · exact List.mem_cons_of_mem _ (ih h)
    | elem => exact List.mem_cons_of_mem _ (ih h)

theorem itemXs_iff {l : List Item} : ItemXs l ↔ ∀ i ∈ l, ItemX i := by
  induction l with
  | nil => simp [ItemXs]
  | cons c cs ih => simp [ItemXs, ih]

mutual
theorem readAs_x {f : Bool} : ∀ (i : Item) (n : Node), ReadAs f n i → ItemX i → DeepX n
  | .text _, .mk _ _ _ _, h, _ => by rw [ReadAs] at h; exact h.elim
  | .elem n kvs content, .mk tag a v cs, h, hx => by
    rw [ReadAs] at h
    rw [ItemX] at hx
    obtain ⟨_, h2, h3, h4⟩ := h
    refine ⟨?_, ?_, readAll_x content cs h4 hx.2⟩
    · intro kv hkv
      obtain ⟨x, hm, hk⟩ := agree_left h2 kv hkv
      exact attrValue_x hk.2.1 (hx.1 x (List.mem_filter.mp hm).1)
    · rintro w ⟨⟩
      obtain ⟨p, t, q, e, ⟨_, l, r, _, _, hs⟩, _⟩ := h3
      have ht : ∀ c ∈ t, XmlChar c := itemXs_iff.mp hx.2 (.text t) (mem_textsOf (by rw [e]; simp))
      exact fun c hc => sameLines_source hs ht c (by simp [hc])
theorem readAll_x {f : Bool} : ∀ (l : List Item) (cs : List Node), ReadAll f cs l → ItemXs l → DeepXs cs
  | [], cs, h, _ => by rw [ReadAll] at h; subst h; trivial
  | .text _ :: l, cs, h, hx => by rw [ReadAll] at h; exact readAll_x l cs h hx.2
  | .elem n kvs content :: l, [], _, _ => trivial
  | .elem n kvs content :: l, c :: cs, h, hx => by
    rw [ReadAll] at h
    exact ⟨readAs_x _ c h.1 hx.1, readAll_x l cs h.2 hx.2⟩
end

/-! ## Sheets as loaded -/

theorem canonical_x {env : Env} {t : String} (h : Canonical env t) : XmlChars t := float_xml h.1

theorem loadCellChildren_x {cs : List Node} {c c' : CellProps} (h : loadCellChildren c cs = .ok c') (hc : CellX c) (hx : ∀ n ∈ cs, DeepX n) : CellX c' := by
  induction cs generalizing c with
  | nil => cases h; exact hc
  | cons n ns ih =>
    rw [loadCellChildren] at h
    split at h
    · cases h
    · next c1 e =>
      refine ih h ?_ (fun m hm => hx m (List.mem_cons_of_mem _ hm))
      have hn := hx n (by simp)
      unfold loadCellChild at e
      split at e
      · cases e; exact ⟨hc.formula, hn.text, hc.metadata⟩
      · split at e
        · cases e; exact ⟨hn.text, hc.value, hc.metadata⟩
        · split at e
          · cases e
            split
            · exact hc
            · next t ht => exact ⟨hc.formula, (hn.child (List.mem_of_mem_head? ht)).text, hc.metadata⟩
          · cases e

theorem loadCell_x {env : Env} {n : Node} {r : Nat × CellProps} (h : loadCell env n = .ok r) (hn : DeepX n) : CellX r.2 := by
  unfold loadCell at h
  split at h
  · cases h
  next a ha =>
  split at h
  · cases h
  split at h
  · cases h
  split at h
  · split at h
    · cases h
    next c hc =>
    cases h
    exact loadCellChildren_x hc ⟨optX_none, optX_none, hn.attr ha "vm"⟩ (fun m hm => hn.child hm)
  · cases h

theorem loadRow_x {env : Env} (he : PrintsF32 env) {n : Node} {r : Nat × RowProps × List (Nat × CellProps)} (h : loadRow env n = .ok r) (hn : DeepX n) :
    RowX (rowDataOf r.2.1 r.2.2) := by
  have hf := (loadRow_fit he h).2.1.2.2
  unfold loadRow at h
  split at h
  · cases h
  next a ha =>
  split at h
  · cases h
  split at h
  · cases h
  split at h
  · cases h
  next p hp =>
  split at h
  · cases h
  next cs hcs =>
  cases h
  refine ⟨fun t ht => canonical_x (hf t ht), ?_, ?_⟩
  · unfold loadRowProps at hp
    split at hp
    · cases hp
      exact hn.attr ha "spans"
    · cases hp
  · intro kv hkv
    have hm : kv ∈ extendMap [] cs := by
      unfold rowDataOf at hkv
      simp only at hkv
      split at hkv
      · exact hkv
      · cases hkv
    rcases mem_extendMap hm with hm | hm
    · obtain ⟨c, hc, e⟩ := mapRes_mem hcs kv hm
      exact loadCell_x e (hn.child hc)
    · cases hm

theorem load_x {env : Env} (he : PrintsF32 env) {x x' : XDoc} {s : Sheet} (h : Sheet.load env x = (.ok s, x')) (hx : ∀ n ∈ x.rootChildren, DeepX n) : SheetX s := by
  have hf := load_fits he h
  obtain ⟨hc, hd, hv, _⟩ := load_ok h
  have last : ∀ {tag : String} {n : Node}, (x.rootChildren.filter (fun n => n.tag = tag)).getLast? = some n → DeepX n := fun e =>
    hx _ (List.mem_filter.mp (List.mem_of_getLast? e)).1
  refine ⟨?_, ?_, ?_⟩
  · have dflt : XmlChars (({} : View).workbookViewId) ∧ OptX (({} : View).topLeftCell) ∧ OptX (({} : View).view) :=
      ⟨xlit (by decide +kernel), optX_none, optX_none⟩
    intro v hvm
    unfold viewsOf at hv
    split at hv
    · have e := Except.ok.inj hv
      rw [← e, List.mem_singleton] at hvm
      subst hvm; exact dflt
    · next n hn =>
      split at hv
      · cases hv
      · next l hl =>
        have e := Except.ok.inj hv
        rw [← e] at hvm
        rcases List.mem_cons.mp hvm with rfl | hvm
        · exact dflt
        · obtain ⟨m, hm, e⟩ := mapRes_mem hl v hvm
          have hmx := (last hn).child hm
          unfold loadView at e
          split at e
          · cases e
          split at e
          · cases e
          next a ha =>
          split at e
          · cases e
          next id hid =>
          split at e
          · cases e
            exact ⟨hmx.attr ha "workbookViewId" id hid, hmx.attr ha _, hmx.attr ha _⟩
          · cases e
  · intro c hcm t ht
    cases hcs : s.cols with
    | none => rw [hcs] at hcm; cases hcm
    | some cs =>
      rw [hcs] at hcm
      exact canonical_x ((hf.cols cs hcs c hcm).2.2.2 t ht)
  · intro kv hkv
    cases hsd : s.data with
    | none => rw [hsd] at hkv; cases hkv
    | some d =>
      rw [hsd] at hkv
      unfold dataOf at hd
      split at hd
      · have e := (Prod.mk.inj (Except.ok.inj hd)).1
        rw [hsd] at e; cases e
      · next n hn =>
        split at hd
        · cases hd
        · next rows hrows =>
          have e := (Prod.mk.inj (Except.ok.inj hd)).1
          rw [hsd] at e
          have e := Option.some.inj e
          subst e
          rcases mem_extendMap hkv with hm | hm
          · obtain ⟨y, hy, rfl⟩ := List.mem_map.mp hm
            obtain ⟨m, hm, e⟩ := mapRes_mem hrows y hy
            exact loadRow_x he e ((last hn).child hm)
          · cases hm

/-! ## Edits -/

theorem Edits.x {b : Build} {sh0 sh : Sheet} {T : List String} {W : List SheetOp} (h : Edits b sh0 T W sh) (h0 : SheetX sh0) (hT : ∀ t ∈ T, XmlChars t)
    (hW : ∀ op ∈ W, ∀ t ∈ op.texts, XmlChars t) : SheetX sh := by
  induction h with
  | nil => exact h0
  | snoc _ h1 h2 ih =>
    have hp := (sheetOp_prefix h1).trans h2
    exact ((ih (fun op ho => hW op (by simp [ho]))).run (fun t ht => hT t (hp.subset ht)) (hW _ (by simp)) h1).1

theorem sheetOp_table {b : Build} {sh sh' : Sheet} {t t' : List String} {op : SheetOp} (h : op.run b (sh, t) = .ok (sh', t')) (ht : ∀ s ∈ t, XmlChars s)
    (ho : ∀ s ∈ op.texts, XmlChars s) : ∀ s ∈ t', XmlChars s := by
  cases op with
  | write r c cells =>
    simp only [SheetOp.run, Sheet.setRow] at h
    split at h
    · cases h
    · split at h
      · cases h
      · cases h
        exact (typeCells_x ht (fun d hd => cellX_texts fun s hs => ho s (List.mem_flatMap.mpr ⟨d, hd, hs⟩))).2
  | rowProps r p => cases h; exact ht
  | column c p => cases h; exact ht

/-- Only calls on sheets change the strings. -/
theorem step_strings (env : Env) (s : Session) (op : WbOp) (hop : ∀ i o, op ≠ .sheet i o) : (s.step env op).2.x.strings.data = s.x.strings.data := by
  have hopen : ∀ name, (s.open env name).2.x.strings = s.x.strings := by
    intro name
    unfold Session.open
    rw [openSheet_eq]
    have h1 : (s.x.sheetFile name).2.strings = s.x.strings := by
      unfold Excel.sheetFile
      split
      · split <;> rfl
      · split <;> rfl
    cases hf : s.x.sheetFile name with
    | mk r x1 =>
      rw [hf] at h1
      cases r with
      | error e => exact h1
      | ok pn =>
        obtain ⟨path, nm⟩ := pn
        have h2 : (openAt env x1 path nm).2.strings = x1.strings := by
          unfold openAt
          split
          · rfl
          · split
            · rfl
            · split
              · rfl
              · split
                · rfl
                · split <;> rfl
        simp only
        split <;> next e => rw [e] at h2; exact h2.trans h1
  cases op with
  | add name => rw [Session.step, hopen]
  | get name => rw [Session.step, hopen]
  | sheet i op => exact absurd rfl (hop i op)
  | drop i =>
    unfold Session.step
    simp only
    split <;> rfl
  | delete i =>
    unfold Session.step
    simp only
    split <;> rfl
  | rename old new =>
    unfold Session.step
    simp only
    split <;> rfl
  | active name => rfl
  | hide name => rfl
  | view op => rfl
  | style hs st =>
    unfold Session.step
    simp only
    split <;> rfl

theorem step_strings_x {env : Env} {s : Session} {op : WbOp} (hs : ∀ t ∈ s.x.strings.data, XmlChars t) (ho : ∀ t ∈ givenTexts op, XmlChars t) :
    ∀ t ∈ (s.step env op).2.x.strings.data, XmlChars t := by
  by_cases hop : ∃ i o, op = .sheet i o
  · obtain ⟨i, o, rfl⟩ := hop
    unfold Session.step
    simp only
    split
    · exact hs
    · split
      · exact hs
      · next e => exact sheetOp_table e hs ho
  · rw [step_strings env s op (fun i o e => hop ⟨i, o, e⟩)]
    exact hs

theorem run_strings_x {env : Env} {ops : List WbOp} {s s' : Session} (hr : s.run env ops = .ok s') (hs : ∀ t ∈ s.x.strings.data, XmlChars t)
    (ho : ∀ op ∈ ops, ∀ t ∈ givenTexts op, XmlChars t) : ∀ t ∈ s'.x.strings.data, XmlChars t := by
  induction ops generalizing s with
  | nil => cases hr; exact hs
  | cons op ops ih =>
    have key : (s.step env op).2.run env ops = .ok s' := by
      rw [Session.run] at hr
      split at hr
      · cases hr
      · next e => rw [e]; exact hr
    exact ih key (step_strings_x hs (ho op (by simp))) (fun o h => ho o (by simp [h]))

theorem written_call {env : Env} {path : String} {ops : List WbOp} {s : Session} {o : SheetOp} (h : o ∈ writesTo env path s ops) : ∃ i, WbOp.sheet i o ∈ ops := by
  induction ops generalizing s with
  | nil => cases h
  | cons op ops ih =>
    rw [writesTo] at h
    rcases List.mem_append.mp h with h | h
    · cases op with
      | sheet i op =>
        unfold onPart at h
        simp only at h
        split at h
        · split at h
          · rw [List.mem_singleton] at h
            subst h
            exact ⟨i, by simp⟩
          · cases h
        · cases h
      | _ => cases h
    · obtain ⟨i, hi⟩ := ih h
      exact ⟨i, by simp [hi]⟩

/-! ## Saved documents -/

theorem SheetX.save_doc {s : Sheet} (hs : SheetX s) {x xd : XDoc} {t : String} {a : Option Attrs} {cs : List Node} (hw : WfDoc asciiOnly x (.mk t a none cs))
    (hm : ∀ n ∈ cs, n.tag ∉ managedTags) (hu : ∀ kv ∈ x.ns, UriXml kv.2) (ha : AttrsX a) (hc : ∀ c ∈ cs, NodeX c) (h : s.save x = .ok xd) : DocX xd := by
  obtain ⟨cs', hw', hcs, _⟩ := wf_saved asciiOnly hw hm h
  obtain ⟨ref, root, rows, h1, h2, h3, rfl⟩ := save_ok h
  rw [hw.isRoot] at h2
  cases h2
  have e : cs' = placeSheetParts ref s.cols s.views rows cs := by
    have := hw'.isRoot
    unfold XDoc.mapRootChildren at this
    rw [hw.isRoot] at this
    simp only [Option.map_some, Node.withChildren, Node.children] at this
    cases this
    rfl
  refine ⟨_, _, cs', hw', hu, ha, ?_⟩
  rw [e]
  unfold placeSheetParts
  simp only
  refine nodesX_perm (orderChildren_perm _ _ _) ?_
  have b1 : ∀ c ∈ cs ++ [Node.mk "dimension" (some [("ref", ref)]) none []], NodeX c :=
    nodesX_append hc (nodesX_one (nodeX_mk (attrsX_one (xml_dimension h1)) nodesX_nil))
  have b2 : ∀ c ∈ (match s.cols with
      | some (c :: rest) => insertNodeAfter (Node.mk "cols" none none ((c :: rest).map colNode)) "sheetFormatPr" (cs ++ [Node.mk "dimension" (some [("ref", ref)]) none []])
      | _ => cs ++ [Node.mk "dimension" (some [("ref", ref)]) none []]), NodeX c := by
    split
    · rename_i c rest hc
      exact nodesX_insert (nodeX_mk attrsX_none (nodesX_map (fun a ha => nodeX_col (hs.cols a (by rw [hc]; exact ha))))) b1
    · exact b1
  have b3 : ∀ c ∈ insertNodeAfter (Node.mk "sheetViews" none none (s.views.reverse.map viewNode)) "dimension" _, NodeX c :=
    nodesX_insert (nodeX_mk attrsX_none (nodesX_map (fun v hv => nodeX_view (hs.views v (List.mem_reverse.mp hv))))) b2
  split
  · rename_i ns
    refine nodesX_insert (nodeX_mk attrsX_none ?_) b3
    cases hd : s.data with
    | none => rw [hd] at h3; cases h3
    | some d =>
      rw [hd] at h3
      obtain ⟨ns', e', hm⟩ := h3
      cases e'
      intro c hc
      obtain ⟨kv, hkv, e⟩ := mapRes_mem hm c hc
      exact nodeX_row (hs.rows kv (by rw [hd]; exact hkv)) e
  · exact b3

theorem nodeX_si {t : String} (h : XmlChars t) : NodeX (siNode t) := nodeX_mk attrsX_none (nodesX_one (nodeX_text attrsX_none h))

end Oxml
