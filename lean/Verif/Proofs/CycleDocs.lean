import Verif.Spec.Cycle
import Verif.Proofs.ExistingAgain
import Verif.Proofs.ReloadTwice
/-!
# Own parts read, written unchanged and read again
-/
namespace Oxml
open Spec

/-! ### Plain elements -/

theorem noSpecials_of_esc {v : String} (h : NoSpecials (attrReload v)) : NoSpecials v :=
  (escStr_eq_iff v).mp (escStr_inj (escStr_eq_self h))

theorem plainNodes_iff {l : List Node} : PlainNodes l ↔ ∀ n ∈ l, PlainNode n := by
  induction l with
  | nil => simp [PlainNodes]
  | cons c cs ih => simp [PlainNodes, ih]

theorem reloadAttrs_fix {a : Option Attrs} (h : ∀ kv ∈ reloadAttrs a, NoSpecials kv.2) : reloadAttrs (some (reloadAttrs a)) = reloadAttrs a := by
  cases a with
  | none => rfl
  | some a =>
    rw [reloadAttrs_some] at h ⊢
    rw [reloadAttrs_some, sortAttrs_esc, sortAttrs_twice]
    unfold escAttrs at h ⊢
    rw [List.map_map]
    apply List.map_congr_left
    intro kv hkv
    have := h _ (List.mem_map.mpr ⟨kv, hkv, rfl⟩)
    simp only [Function.comp]
    rw [attrReload_self this]

mutual
/-- A plain element read is written and read unchanged. -/
theorem reload_fix : ∀ n : Node, PlainNode (reload n) → reload (reload n) = reload n
  | .mk tag attrs value cs, h => by
    cases value with
    | none =>
      simp only [reload] at h ⊢
      rw [PlainNode] at h
      rw [reloadAttrs_fix h.1, reloads_fix cs h.2]
    | some v =>
      simp only [reload] at h ⊢
      rw [PlainNode] at h
      have h1 := reloadText_twice v
      cases hv : reloadText v with
      | none => simp only [reloads]; rw [reloadAttrs_fix h.1]
      | some w =>
        rw [hv] at h1
        simp only
        rw [reloadAttrs_fix h.1, show reloadText w = some w from h1]
theorem reloads_fix : ∀ l : List Node, PlainNodes (reloads l) → reloads (reloads l) = reloads l
  | [], _ => rfl
  | c :: cs, h => by
    rw [reloads, PlainNodes] at h
    rw [reloads, reloads, reload_fix c h.1, reloads_fix cs h.2]
end

theorem releaseNs_twice (b : Build) (ns : Attrs) : releaseNs b (releaseNs b ns) = releaseNs b ns := by
  unfold releaseNs
  cases b.release with
  | false => rfl
  | true =>
    simp only [if_true]
    induction ns with
    | nil => simp [ainsert]
    | cons kv ns ih =>
      obtain ⟨k, v⟩ := kv
      by_cases h : k = "dvmo"
      · subst h; simp [ainsert]
      · simp only [ainsert]
        simp only [if_neg h]
        simp only [ainsert]
        simp only [if_neg h]
        rw [ih]

theorem reloadDoc_fix {b : Build} {x : XDoc} {r : Node} (hr : x.root = some r) (h : PlainNode (reload r)) : reloadDoc b (reloadDoc b x) = reloadDoc b x := by
  unfold reloadDoc
  simp only [hr, Option.map_some, releaseNs_twice, reload_fix r h]

/-! ### Placing read elements -/

theorem lastNodeIdx_reload (t : String) (cs : List Node) : insertNodeAfter.lastNodeIdx t (cs.map reload) = insertNodeAfter.lastNodeIdx t cs := by
  induction cs with
  | nil => rfl
  | cons c cs ih => rw [List.map_cons, insertNodeAfter.lastNodeIdx, insertNodeAfter.lastNodeIdx, ih, reload_tag]

theorem insertNodeAfter_reload (n : Node) (t : String) (cs : List Node) :
    (insertNodeAfter n t cs).map reload = insertNodeAfter (reload n) t (cs.map reload) := by
  unfold insertNodeAfter
  rw [lastNodeIdx_reload]
  cases insertNodeAfter.lastNodeIdx t cs with
  | none => simp
  | some i => simp [List.map_take, List.map_drop]

theorem orderChildren_reload (sk : List String) (cs : List Node) :
    (orderChildren Node.tag sk cs).map reload = orderChildren Node.tag sk (cs.map reload) := by
  unfold orderChildren
  by_cases h : cs ≠ [] ∧ sk ≠ []
  · rw [if_pos h, if_pos ⟨by simpa using h.1, h.2⟩, ← stableSort_map reload (fun c => orderKey sk c.tag)]
    congr 1
    apply stableSort_congr
    intro c _
    rw [reload_tag]
  · rw [if_neg h, if_neg (by simpa using h)]

/-- Placing rebuilt elements among read ones gives, once read, the placed elements read twice. -/
theorem insert_again {n n' : Node} {l l' : List Node} (t : String) (hn : reload n' = reload (reload n)) (hl : l'.map reload = (l.map reload).map reload) :
    (insertNodeAfter n' t l').map reload = ((insertNodeAfter n t l).map reload).map reload := by
  rw [insertNodeAfter_reload, insertNodeAfter_reload, insertNodeAfter_reload, hn, hl]

/-! ### The rebuilt elements -/

theorem again_of_esc {n n' : Node} (h : n' = escNode n) : reload n' = reload (reload n) := by rw [h, reload_twice]

theorem again_map {α : Type} {f : α → Node} {g : α → α} {l : List α} (h : ∀ a ∈ l, f (g a) = escNode (f a)) : (l.map g).map f = (l.map f).map escNode := by
  rw [List.map_map, List.map_map]
  exact List.map_congr_left h

theorem esc_calcNode (e : CalcEntry) : calcNode (reloadEntry e) = escNode (calcNode e) := by
  unfold calcNode reloadEntry
  rw [escNode]
  rfl

theorem esc_counted (tag : String) (l : List Node) : countedNode tag (l.map escNode) = escNode (countedNode tag l) := by
  unfold countedNode
  rw [escNode, escNodes_eq, List.length_map, Option.map_some]
  simp only [escAttrs, List.map_cons, List.map_nil]
  rw [attrReload_self (noSpecials_nat _)]

theorem esc_numFmtNode (f : NumFmt) : numFmtNode (reloadNumFmt f) = escNode (numFmtNode f) := by
  unfold numFmtNode reloadNumFmt
  rw [escNode]
  simp only [Option.map_some, escAttrs, List.map_cons, List.map_nil, escNodes]
  rw [attrReload_self (noSpecials_nat _)]

theorem esc_valNode (tag v : String) : escNode (valNode tag v) = valNode tag (attrReload v) := rfl

theorem esc_colorNode (tag : String) (c : Color) : colorNode tag (reloadColor c) = escNode (colorNode tag c) := rfl

theorem esc_fontNode {f : Font} (h : f.italic = false ∧ f.underline = false) : fontNode (reloadFont f) = escNode (fontNode f) := by
  have hs : ∀ s : FontScheme, attrReload s.text = s.text := fun s => attrReload_self (by cases s <;> unfold NoSpecials <;> decide +kernel)
  unfold fontNode reloadFont
  rw [escNode, escNodes_eq]
  simp only [h.1, h.2, List.map_append, List.map_cons, List.map_nil, esc_valNode, hs, attrReload_self (noSpecials_nat _), esc_colorNode]
  cases f.bold <;> cases f.doubleUnderline <;>
    simp [escNode, escNodes, valNode, attrReload_self (show NoSpecials "double" by unfold NoSpecials; decide +kernel), escAttrs]

theorem esc_fillNode (f : Fill) : fillNode (reloadFill f) = escNode (fillNode f) := by
  have hs : ∀ s : PatternType, attrReload s.text = s.text := fun s => attrReload_self (by cases s <;> unfold NoSpecials <;> decide +kernel)
  unfold fillNode reloadFill
  rw [escNode, escNodes, escNode, escNodes_eq]
  simp only [Option.map_some, Option.map_none, escAttrs, List.map_cons, List.map_nil, escNodes, hs, List.map_append]
  cases f.foreground <;> cases f.background <;> rfl

theorem esc_sideNode (tag : String) (s : BorderSide) : sideNode tag (reloadSide s) = escNode (sideNode tag s) := by
  have hs : ∀ s : BorderKind, attrReload s.text = s.text := fun s => attrReload_self (by cases s <;> unfold NoSpecials <;> decide +kernel)
  unfold reloadSide
  by_cases h : s.style = .none
  · rw [if_pos h]
    unfold sideNode
    rw [if_neg (by simp), if_neg (by simp [h])]
    rfl
  · rw [if_neg h]
    unfold sideNode
    rw [if_pos h, if_pos h, escNode, escNodes_eq]
    simp only [Option.map_some, escAttrs, List.map_cons, List.map_nil, hs]
    cases s.color <;> rfl

theorem esc_borderNode (x : Border) : borderNode (reloadBorder x) = escNode (borderNode x) := by
  unfold borderNode reloadBorder
  rw [escNode, escNodes_eq]
  simp only [List.map_cons, List.map_nil, esc_sideNode, Option.map_none]

/-- The flags of a cell format are 0 or 1. -/
def FlagsBit (x : Xf) : Prop := x.applyFont ≤ 1 ∧ x.applyAlignment ≤ 1 ∧ x.applyFill ≤ 1 ∧ x.applyBorder ≤ 1 ∧ x.applyNumFmt ≤ 1 ∧
  x.applyProtection ≤ 1 ∧ x.wrap ≤ 1

theorem esc_positive (n : Nat) : (positive n).map attrReload = positive n :=
  esc_opt (by intro t ht; unfold positive at ht; split at ht <;> cases ht; exact noSpecials_nat _)

theorem flag_bit {n : Nat} (h : n ≤ 1) : flag01 n = n := by unfold flag01; split <;> omega

theorem esc_xfNode (w : Bool) {x : Xf} (h : FlagsBit x) : xfNode w (reloadXf w x) = escNode (xfNode w x) := by
  obtain ⟨h1, h2, h3, h4, h5, h6, h7⟩ := h
  have hv : ∀ s : VAlign, attrReload s.text = s.text := fun s => attrReload_self (by cases s <;> unfold NoSpecials <;> decide +kernel)
  have hh : ∀ s : HAlign, attrReload s.text = s.text := fun s => attrReload_self (by cases s <;> unfold NoSpecials <;> decide +kernel)
  have e : reloadXf w x = { x with formatId := if w then x.formatId else 0 } := by
    unfold reloadXf
    rw [flag_bit h1, flag_bit h2, flag_bit h3, flag_bit h4, flag_bit h5, flag_bit h6, flag_bit h7]
  rw [e]
  unfold xfNode
  rw [escNode, Option.map_some, escAttrs_present, escNodes_eq]
  have e1 : xfTable w { x with formatId := if w then x.formatId else 0 } = (xfTable w x).map (fun kv => (kv.1, kv.2.map attrReload)) := by
    unfold xfTable
    simp only [List.map_cons, List.map_nil, Option.map_some, esc_positive, attrReload_self (noSpecials_nat _)]
    cases w
    · rfl
    · have : attrReload (toString x.formatId) = toString x.formatId := attrReload_self (noSpecials_nat _)
      simp only [if_true, Option.map_some, this]
  rw [e1]
  congr 1
  simp only
  split
  · simp only [List.map_cons, List.map_nil]
    rw [escNode, Option.map_some, escAttrs_present]
    have e2 : alignTable { x with formatId := if w then x.formatId else 0 } = (alignTable x).map (fun kv => (kv.1, kv.2.map attrReload)) := by
      unfold alignTable
      simp only [List.map_cons, List.map_nil, esc_positive]
      by_cases h8 : x.vertical = .none <;> by_cases h9 : x.horizontal = .none <;> simp [h8, h9, hv, hh]
    rw [e2]
    rfl
  · rfl

theorem esc_sheetNode (i : Nat) (e : SheetEntry) : sheetNode i (reloadSheetEntry e) = escNode (sheetNode i e) := by
  unfold sheetNode reloadSheetEntry
  rw [escNode, Option.map_some, escAttrs_present]
  simp only [List.map_cons, List.map_nil, Option.map_some, attrReload_self (noSpecials_nat _), escNodes]
  cases e.hide
  · rfl
  · simp [attrReload_self (show NoSpecials "hidden" by unfold NoSpecials; decide +kernel)]

theorem esc_sheetNodes (i : Nat) (l : List SheetEntry) : sheetNodes i (l.map reloadSheetEntry) = (sheetNodes i l).map escNode := by
  induction l generalizing i with
  | nil => rfl
  | cons e l ih => rw [List.map_cons, sheetNodes, sheetNodes, List.map_cons, ih, esc_sheetNode]

/-! ### A read root always has attributes -/

theorem ainsert_held {k v : String} {m : Attrs} (h : aget k m = some v) : ainsert k v m = m := by
  induction m with
  | nil => cases h
  | cons x m ih =>
    obtain ⟨k', v'⟩ := x
    simp only [aget] at h
    simp only [ainsert]
    split at h
    · next e => cases h; rw [if_pos e, e]
    · next e => rw [if_neg e, ih h]

/-- Element 0 has attributes, and there is one only once the root was read. -/
def RootRead (s : RState) : Prop := (s.rootLoaded = false → s.doc.get 0 = none) ∧ ∀ e, s.doc.get 0 = some e → e.attrs ≠ none

theorem get_put (d : XmlDoc) (i j : Nat) (e : Elem) : (d.put i e).get j = if i = j then some e else d.get j := aget_ainsert i j e d.elems

theorem setAttribute_root {u : Unicode} {d d' : XmlDoc} {i : Nat} {a : Attrs} (h : d.setAttribute u i a = .ok d')
    (h0 : ∀ e, i ≠ 0 → d.get 0 = some e → e.attrs ≠ none) : ∀ e, d'.get 0 = some e → e.attrs ≠ none := by
  unfold XmlDoc.setAttribute at h
  split at h
  · cases h
  · next e he =>
    split at h
    · cases h
    · cases h
      intro e' he'
      have he' : (d.put i { e with attrs := some (a.filter (fun kv => !isNsKey kv.1)) }).get 0 = some e' := he'
      rw [get_put] at he'
      split at he'
      · cases he'; simp
      · next hi => exact h0 e' hi he'

theorem appendChild_root {u : Unicode} {d d' : XmlDoc} {tag : String} {p id : Nat} (h : d.appendChild u tag p = .ok (d', id))
    (h0 : ∀ e, d.get 0 = some e → e.attrs ≠ none) : id ≠ 0 ∧ ∀ e, d'.get 0 = some e → e.attrs ≠ none := by
  unfold XmlDoc.appendChild XmlDoc.insertWith at h
  split at h
  · cases h
  · next e he =>
    cases hn : newElem u tag with
    | error x => rw [hn] at h; cases h
    | ok n =>
      rw [hn] at h
      cases h
      refine ⟨by omega, ?_⟩
      intro e' he'
      have hg : ((d.put p { e with children := e.children ++ [{ id := d.runningId + 1, tag := tag }] }).put (d.runningId + 1)
        { n with id := d.runningId + 1, parentId := p }).get 0 = some e' := he'
      rw [get_put, if_neg (by omega), get_put] at hg
      by_cases hp : p = 0
      · rw [if_pos hp] at hg
        rw [← Option.some.inj hg]
        rw [hp] at he
        exact h0 e he
      · rw [if_neg hp] at hg
        exact h0 e' hg

theorem readStep_rootRead {u : Unicode} {s s' : RState} {t : Token} (hs : RootRead s) (h : readStep u s t = .ok s') : RootRead s' := by
  cases t with
  | start n a =>
    simp only [readStep] at h
    split at h
    · next hl =>
      cases h1 : s.doc.appendChild u (String.ofList n) s.active with
      | error e => rw [h1] at h; cases h
      | ok r =>
        obtain ⟨d1, id⟩ := r
        rw [h1] at h
        cases h2 : d1.setAttribute u id (attributesString a) with
        | error e => simp only [bind, Except.bind, h2] at h; cases h
        | ok d2 =>
          simp only [bind, Except.bind, h2] at h
          cases h
          obtain ⟨_, g⟩ := appendChild_root h1 hs.2
          exact ⟨fun e => (by rw [hl] at e; cases e), setAttribute_root h2 (fun e _ => g e)⟩
    · cases h1 : s.doc.createRoot u (String.ofList n) with
      | error e => rw [h1] at h; cases h
      | ok d1 =>
        rw [h1] at h
        cases h2 : d1.setAttribute u 0 (attributesString a) with
        | error e => simp only [bind, Except.bind, h2] at h; cases h
        | ok d2 =>
          simp only [bind, Except.bind, h2] at h
          cases h
          exact ⟨fun e => (by cases e), setAttribute_root h2 (fun e hne => absurd rfl hne)⟩
  | empty n a =>
    simp only [readStep] at h
    cases h1 : s.doc.appendChild u (String.ofList n) s.active with
    | error e => rw [h1] at h; cases h
    | ok r =>
      obtain ⟨d1, id⟩ := r
      rw [h1] at h
      cases h2 : d1.setAttribute u id (attributesString a) with
      | error e => simp only [bind, Except.bind, h2] at h; cases h
      | ok d2 =>
        simp only [bind, Except.bind, h2] at h
        cases h
        obtain ⟨hid, g⟩ := appendChild_root h1 hs.2
        refine ⟨fun e => ?_, setAttribute_root h2 (fun e _ => g e)⟩
        have h0 := hs.1 e
        cases hg : s.doc.get s.active with
        | none => unfold XmlDoc.appendChild XmlDoc.insertWith at h1; rw [hg] at h1; cases h1
        | some p =>
          by_cases ha : s.active = 0
          · rw [ha, h0] at hg; cases hg
          · cases hd : d2.get 0 with
            | none => rfl
            | some e' =>
              exfalso
              unfold XmlDoc.appendChild XmlDoc.insertWith at h1
              rw [hg] at h1
              cases hn : newElem u (String.ofList n) with
              | error x => rw [hn] at h1; cases h1
              | ok m =>
                rw [hn] at h1
                cases h1
                unfold XmlDoc.setAttribute at h2
                split at h2
                · cases h2
                · split at h2
                  · cases h2
                  · cases h2
                    simp only [XmlDoc.get, XmlDoc.put] at hd h0
                    rw [aget_ainsert_ne (by omega), aget_ainsert_ne (by omega), aget_ainsert_ne ha, h0] at hd
                    cases hd
  | text raw =>
    simp only [readStep] at h
    cases h1 : unescape raw with
    | error e => rw [h1] at h; cases h
    | ok t =>
      rw [h1] at h
      simp only [bind, Except.bind] at h
      cases h2 : s.doc.setValue s.active (String.ofList t) with
      | error e => rw [h2] at h; cases h
      | ok d1 =>
        rw [h2] at h
        cases h
        unfold XmlDoc.setValue at h2
        split at h2
        · cases h2
        · next e he =>
          cases h2
          refine ⟨fun hr => ?_, fun e' he' => ?_⟩
          · have := hs.1 hr
            show (s.doc.put _ _).get 0 = none
            rw [get_put]
            split
            · next ha => rw [ha, this] at he; cases he
            · exact this
          · have he' : (s.doc.put s.active { e with value := some (String.ofList t) }).get 0 = some e' := he'
            rw [get_put] at he'
            split at he'
            · next ha => cases he'; rw [ha] at he; exact hs.2 e he
            · exact hs.2 e' he'
  | close n =>
    simp only [readStep] at h
    split at h
    · cases h
    · split at h
      · cases h; exact hs
      · cases h

theorem readLoop_rootRead {u : Unicode} {ts : List Token} {s s' : RState} (hs : RootRead s) (h : readLoop u s ts = .ok s') : RootRead s' := by
  induction ts generalizing s with
  | nil => cases h; exact hs
  | cons t ts ih =>
    unfold readLoop at h
    cases h1 : readStep u s t with
    | error e => rw [h1] at h; cases h
    | ok s1 => rw [h1] at h; exact ih (readStep_rootRead hs h1) h

/-- A document read from text has attributes at its root, if only none. -/
theorem read_root_attrs {u : Unicode} {c : List Char} {d : XmlDoc} {r : Node} (h : readXml u c = .ok d) (hr : d.toXDoc.root = some r) : ∃ a, r.attrs = some a := by
  unfold readXml at h
  cases h1 : lex c with
  | error e => rw [h1] at h; cases h
  | ok ts =>
    rw [h1] at h
    simp only [bind, Except.bind] at h
    split at h
    · cases h2 : readLoop u { doc := XmlDoc.new, rootLoaded := false, active := 0 } ts with
      | error e => rw [h2] at h; cases h
      | ok s =>
        rw [h2] at h
        cases h
        have hi := (readLoop_rootRead (u := u) (s := { doc := XmlDoc.new, rootLoaded := false, active := 0 }) ⟨fun _ => rfl, fun e he => (by cases he)⟩ h2).2
        unfold XmlDoc.toXDoc at hr
        simp only [XmlDoc.toNode] at hr
        split at hr
        · cases hr
        · next e he =>
          split at hr
          · cases hr
          · cases hr
            cases ha : e.attrs with
            | none => exact absurd ha (hi e he)
            | some a => exact ⟨a, by rw [Node.attrs]⟩
    · cases h

end Oxml
