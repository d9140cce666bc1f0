import Verif.Spec.Crash
import Verif.Proofs.ExistingStill
import Verif.Proofs.ExistingSave
import Verif.Props.OfficeDoc
/-!
# Which calls cannot crash
-/
namespace Oxml
open Spec

section
variable {α β : Type}

theorem crash_fail {m : String} : ¬ Crashes (.error (.fail m) : Res α) := fun ⟨_, h⟩ => by cases h

theorem crash_ok {a : α} : ¬ Crashes (.ok a : Res α) := fun ⟨_, h⟩ => by cases h

theorem crash_error {e : Err} : Crashes (.error e : Res α) ↔ ∃ m, e = .panic m :=
  ⟨(fun ⟨m, h⟩ => ⟨m, by cases h; rfl⟩), (fun ⟨m, h⟩ => ⟨m, by rw [h]⟩)⟩

theorem crash_cast {e : Err} : Crashes (.error e : Res α) ↔ Crashes (.error e : Res β) := crash_error.trans crash_error.symm

theorem crash_bind {x : Res α} {f : α → Res β} (h : Crashes (x >>= f)) : Crashes x ∨ ∃ a, x = .ok a ∧ Crashes (f a) := by
  cases x with
  | error e => exact Or.inl (crash_cast.mp h)
  | ok a => exact Or.inr ⟨a, rfl, h⟩

/-- A chain of calls that cannot crash cannot. -/
theorem calm_bind {x : Res α} {f : α → Res β} (hx : ¬ Crashes x) (hf : ∀ a, x = .ok a → ¬ Crashes (f a)) : ¬ Crashes (x >>= f) := by
  intro h
  rcases crash_bind h with h | ⟨a, e, h⟩
  · exact hx h
  · exact hf a e h

theorem calm_mapRes {f : α → Res β} : ∀ {l : List α}, (∀ a ∈ l, ¬ Crashes (f a)) → ¬ Crashes (mapRes f l)
  | [], _ => crash_ok
  | a :: l, h => by
    unfold mapRes
    have h1 := h a (by simp)
    have h2 := calm_mapRes (l := l) (fun b hb => h b (by simp [hb]))
    cases e1 : f a with
    | error e => rw [e1] at h1; exact fun hc => h1 (crash_cast.mp hc)
    | ok b =>
      simp only
      cases e2 : mapRes f l with
      | error e => rw [e2] at h2; exact fun hc => h2 (crash_cast.mp hc)
      | ok bs => exact crash_ok

theorem crash_mapRes {f : α → Res β} {l : List α} (h : Crashes (mapRes f l)) : ∃ a ∈ l, Crashes (f a) :=
  Classical.byContradiction fun hn => calm_mapRes (fun a ha hc => hn ⟨a, ha, hc⟩) h

end

/-! ## Reading XML -/

theorem calm_unescapeFrom : ∀ (s : List Char) (p : Option (List Char)), ¬ Crashes (unescapeFrom p s)
  | [], none => crash_ok
  | [], some _ => crash_fail
  | c :: cs, none => by
    unfold unescapeFrom
    split
    · exact calm_unescapeFrom cs _
    · exact calm_bind (calm_unescapeFrom cs _) (fun _ _ => crash_ok)
  | c :: cs, some acc => by
    unfold unescapeFrom
    split
    · split
      · exact crash_fail
      · exact calm_bind (calm_unescapeFrom cs _) (fun _ _ => crash_ok)
    · exact calm_unescapeFrom cs _

theorem calm_parseAttrs : ∀ (s : List Char) (st : AState), ¬ Crashes (parseAttrs st s)
  | [], st => by cases st <;> first | exact crash_ok | exact crash_fail
  | c :: cs, st => by
    cases st <;> simp only [parseAttrs]
    · split <;> exact calm_parseAttrs cs _
    · split
      · exact calm_parseAttrs cs _
      · split <;> exact calm_parseAttrs cs _
    · split
      · exact calm_parseAttrs cs _
      · split
        · exact calm_parseAttrs cs _
        · exact crash_fail
    · split
      · exact calm_parseAttrs cs _
      · split
        · exact calm_parseAttrs cs _
        · exact crash_fail
    · split
      · exact calm_bind (calm_parseAttrs cs _) (fun _ _ => crash_ok)
      · exact calm_parseAttrs cs _

theorem calm_parseTag (s : List Char) : ¬ Crashes (parseTag s) := by
  unfold parseTag
  refine calm_bind (calm_parseAttrs _ _) (fun a _ => ?_)
  split
  · exact crash_fail
  · split
    · exact crash_fail
    · exact crash_ok

theorem calm_tagToken (s : List Char) : ¬ Crashes (tagToken s) := by
  unfold tagToken
  split <;> exact calm_bind (calm_parseTag _) (fun _ _ => crash_ok)

theorem calm_lexFrom : ∀ (s : List Char) (st : LState), ¬ Crashes (lexFrom st s)
  | [], st => by cases st <;> first | exact crash_ok | exact crash_fail
  | c :: cs, st => by
    rcases st with acc | _ | ⟨_ | q, acc⟩ | acc | acc | acc <;> simp only [lexFrom]
    · split
      · exact calm_bind (calm_lexFrom cs _) (fun _ _ => crash_ok)
      · exact calm_lexFrom cs _
    · split
      · exact calm_lexFrom cs _
      · split
        · exact calm_lexFrom cs _
        · split
          · exact calm_lexFrom cs _
          · split
            · exact calm_bind (calm_tagToken _) (fun _ _ => calm_bind (calm_lexFrom cs _) (fun _ _ => crash_ok))
            · exact calm_lexFrom cs _
    · split
      · exact calm_bind (calm_tagToken _) (fun _ _ => calm_bind (calm_lexFrom cs _) (fun _ _ => crash_ok))
      · exact calm_lexFrom cs _
    · exact calm_lexFrom cs _
    · split
      · exact calm_bind (calm_lexFrom cs _) (fun _ _ => crash_ok)
      · exact calm_lexFrom cs _
    · split
      · exact crash_fail
      · split <;> exact calm_lexFrom cs _
    · split
      · split
        · exact calm_lexFrom cs _
        · exact crash_fail
      · exact calm_lexFrom cs _

theorem calm_newElem (u : Unicode) (t : String) : ¬ Crashes (newElem u t) := by
  unfold newElem; split
  · exact crash_ok
  · exact crash_fail

theorem calm_appendChild (u : Unicode) (d : XmlDoc) (t : String) (p : Nat) : ¬ Crashes (d.appendChild u t p) := by
  unfold XmlDoc.appendChild XmlDoc.insertWith
  split
  · exact crash_fail
  · exact calm_bind (calm_newElem _ _) (fun _ _ => calm_bind crash_ok (fun _ _ => crash_ok))

theorem calm_setAttribute (u : Unicode) (d : XmlDoc) (i : Nat) (a : Attrs) : ¬ Crashes (d.setAttribute u i a) := by
  unfold XmlDoc.setAttribute
  split
  · exact crash_fail
  · split
    · exact crash_fail
    · exact crash_ok

theorem calm_setValue (d : XmlDoc) (i : Nat) (t : String) : ¬ Crashes (d.setValue i t) := by
  unfold XmlDoc.setValue
  split
  · exact crash_fail
  · exact crash_ok

theorem calm_readStep (u : Unicode) (s : RState) (t : Token) : ¬ Crashes (readStep u s t) := by
  cases t <;> simp only [readStep]
  · split
    · exact calm_bind (calm_appendChild _ _ _ _) (fun _ _ => calm_bind (calm_setAttribute _ _ _ _) (fun _ _ => crash_ok))
    · refine calm_bind ?_ (fun _ _ => calm_bind (calm_setAttribute _ _ _ _) (fun _ _ => crash_ok))
      exact calm_bind (calm_newElem _ _) (fun _ _ => crash_ok)
  · exact calm_bind (calm_appendChild _ _ _ _) (fun _ _ => calm_bind (calm_setAttribute _ _ _ _) (fun _ _ => crash_ok))
  · exact calm_bind (calm_unescapeFrom _ _) (fun _ _ => calm_bind (calm_setValue _ _ _) (fun _ _ => crash_ok))
  · split
    · exact crash_fail
    · split
      · exact crash_ok
      · exact crash_fail

theorem calm_readLoop (u : Unicode) : ∀ (ts : List Token) (s : RState), ¬ Crashes (readLoop u s ts)
  | [], _ => crash_ok
  | t :: ts, s => calm_bind (calm_readStep u s t) (fun _ _ => calm_readLoop u ts _)

theorem calm_readXml (u : Unicode) (s : List Char) : ¬ Crashes (readXml u s) := by
  unfold readXml
  refine calm_bind (calm_lexFrom _ _) (fun ts _ => ?_)
  split
  · exact calm_bind (calm_readLoop _ _ _) (fun _ _ => crash_ok)
  · exact crash_fail

/-! ## Opening parts -/

theorem calm_getXmlTree (env : Env) (p : Pkg) (n : String) : ¬ Crashes (p.getXmlTree env n).1 := by
  unfold Pkg.getXmlTree
  split
  · exact crash_fail
  · split
    · exact crash_ok
    · next e _ =>
      have := calm_readXml env.uni e.content
      cases h : readXml env.uni e.content with
      | error er => rw [h] at this; exact fun hc => this (crash_cast.mp hc)
      | ok d => exact crash_ok

theorem calm_openPart (env : Env) (p : Pkg) (t : Template) (n : String) : ¬ Crashes (p.openPart env (.ok t) n).1 := by
  have := calm_getXmlTree env p n
  unfold Pkg.openPart
  split
  · next e p1 h => rw [h] at this; exact fun hc => this (crash_cast.mp hc)
  · exact crash_ok
  · exact crash_ok

theorem calm_loadRel (n : Node) : ¬ Crashes (loadRel n) := by
  unfold loadRel
  split
  · exact crash_fail
  · split
    · exact crash_ok
    · exact crash_fail
    · exact crash_fail
    · exact crash_fail

theorem calm_relNew (env : Env) (p : Pkg) (n : String) : ¬ Crashes (RelPart.new env p n).1 := by
  have := calm_openPart env p relsTemplate n
  unfold RelPart.new
  split
  · next e p1 h => rw [h] at this; exact fun hc => this (crash_cast.mp hc)
  · next h p1 e =>
    cases p1.docOf h with
    | none => exact crash_ok
    | some x =>
      have hc : ¬ Crashes (loadRels x).1 := calm_mapRes (fun a _ => calm_loadRel a)
      simp only
      split
      · next er x' hl => rw [hl] at hc; exact fun h => hc (crash_cast.mp h)
      · exact crash_ok

/-- The relative path of a relationship part. -/
theorem crash_relativePath {p : String} (h : Crashes (relativePath p)) : OddName p := by
  have split : ∀ (l b : List Char), beforeSub "_rels".toList l = some b → ∃ a, l = b ++ ("_rels".toList ++ a) := by
    intro l
    induction l with
    | nil => intro b h; simp [beforeSub] at h
    | cons c cs ih =>
      intro b h
      unfold beforeSub at h
      split at h
      · next hp =>
        cases h
        obtain ⟨t, ht⟩ := List.isPrefixOf_iff_prefix.mp hp
        exact ⟨t, by rw [List.nil_append]; exact ht.symm⟩
      · simp only [Option.map_eq_some_iff] at h
        obtain ⟨b', hb, rfl⟩ := h
        obtain ⟨a, ha⟩ := ih b' hb
        exact ⟨a, by rw [ha]; rfl⟩
  unfold relativePath at h
  split at h
  · exact absurd h crash_fail
  · exact absurd h crash_ok
  · next c cs hb =>
    split at h
    · exact absurd h crash_ok
    · next hn =>
      obtain ⟨a, ha⟩ := split _ _ hb
      refine ⟨(c :: cs).dropLast, (c :: cs).getLast (by simp), a, ?_, ?_⟩
      · rw [ha]
        conv => lhs; rw [← List.dropLast_concat_getLast (l := c :: cs) (by simp)]
        rw [List.append_assoc]; rfl
      · exact UInt32.not_lt.mp hn

theorem crash_resolveTarget {p t : String} (h : Crashes (resolveTarget p t)) : OddName p := by
  unfold resolveTarget at h
  split at h
  · next e he => exact crash_relativePath (he ▸ crash_cast.mp h)
  · split at h <;> exact absurd h crash_ok

theorem crash_targetByType {p : String} {R : List Rel} {ty : String} {c : Content} {dir nm : Option String}
    (h : Crashes (targetByType p R ty c dir nm).1) : OddName p := by
  unfold targetByType at h
  split at h
  · exact crash_resolveTarget h
  · exact absurd h crash_ok

theorem crash_openTyped {env : Env} {c : Content} {dir : Option String} {t : Template} {p : Pkg} {r : RelPart}
    (h : Crashes (openTyped env c dir t p r)) : OddName r.path := by
  unfold openTyped at h
  split at h
  · next e _ he => exact crash_targetByType (by rw [he]; exact crash_cast.mp h)
  · next path rels he =>
    have := calm_openPart env p t path
    split at h
    · next e p1 h1 => rw [h1] at this; exact absurd (crash_cast.mp h) this
    · exact absurd h crash_ok

theorem not_odd_root : ¬ OddName "_rels/.rels" := by
  rintro ⟨a, c, b, h, hc⟩
  have hm : c ∈ "_rels/.rels".toList := by rw [h]; simp
  have : ∀ c ∈ "_rels/.rels".toList, ¬ 128 ≤ c.val := by decide +kernel
  exact this c hm hc


/-! ## Loading parts -/

theorem calm_loadNumFmt (n : Node) : ¬ Crashes (loadNumFmt n) := by
  unfold loadNumFmt
  repeat' split
  all_goals first | exact crash_ok | exact crash_fail

theorem calm_loadFontItem (f : Font) (n : Node) : ¬ Crashes (loadFontItem f n) := by
  unfold loadFontItem
  repeat' split
  all_goals first | exact crash_ok | exact crash_fail

theorem calm_fold {α : Type} {step : α → Node → Res α} {all : α → List Node → Res α} (h0 : ∀ a, all a [] = .ok a)
    (h1 : ∀ a n ns, all a (n :: ns) = match step a n with | .error e => .error e | .ok a' => all a' ns) (hs : ∀ a n, ¬ Crashes (step a n)) :
    ∀ (ns : List Node) (a : α), ¬ Crashes (all a ns)
  | [], a => by rw [h0]; exact crash_ok
  | n :: ns, a => by
    rw [h1]
    have := hs a n
    cases h : step a n with
    | error e => rw [h] at this; exact this
    | ok a' => exact calm_fold h0 h1 hs ns a'

theorem calm_loadFont (n : Node) : ¬ Crashes (loadFont n) :=
  calm_fold (all := loadFontItems) (fun _ => rfl) (fun a n ns => by rw [loadFontItems]; cases loadFontItem a n <;> rfl) calm_loadFontItem _ _

theorem calm_loadFillItem (f : Fill) (n : Node) : ¬ Crashes (loadFillItem f n) := by
  unfold loadFillItem
  repeat' split
  all_goals first | exact crash_ok | exact crash_fail

theorem calm_loadFill (n : Node) : ¬ Crashes (loadFill n) := by
  unfold loadFill
  repeat' split
  · exact crash_ok
  · exact crash_ok
  · exact calm_fold (all := loadFillItems) (fun _ => rfl) (fun a n ns => by rw [loadFillItems]; cases loadFillItem a n <;> rfl) calm_loadFillItem _ _

theorem calm_loadBorderItem (f : Border) (n : Node) : ¬ Crashes (loadBorderItem f n) := by
  unfold loadBorderItem
  repeat' split
  all_goals first | exact crash_ok | exact crash_fail

theorem calm_loadBorder (n : Node) : ¬ Crashes (loadBorder n) :=
  calm_fold (all := loadBorderItems) (fun _ => rfl) (fun a n ns => by rw [loadBorderItems]; cases loadBorderItem a n <;> rfl) calm_loadBorderItem _ _

theorem calm_u16Attr (a : Attrs) (k : String) : ¬ Crashes (u16Attr a k) := by
  unfold u16Attr
  repeat' split
  all_goals first | exact crash_ok | exact crash_fail

theorem calm_of_eq {α β : Type} {r : Res α} {e : Err} (h : r = .error e) (hr : ¬ Crashes r) : ¬ Crashes (.error e : Res β) := by
  rw [h] at hr; exact fun hc => hr (crash_cast.mp hc)

theorem calm_loadXf (n : Node) : ¬ Crashes (loadXf n) := by
  unfold loadXf
  split
  · exact crash_ok
  · split
    · exact crash_ok
    all_goals first
      | exact calm_of_eq (by assumption) (calm_u16Attr _ _)

theorem calm_stylesLoad (x : XDoc) : ¬ Crashes (Styles.load x).1 := by
  unfold Styles.load
  split
  · exact crash_ok
  · exact calm_of_eq (by assumption) (calm_mapRes (fun a _ => calm_loadNumFmt a))
  · exact calm_of_eq (by assumption) (calm_mapRes (fun a _ => calm_loadFont a))
  · exact calm_of_eq (by assumption) (calm_mapRes (fun a _ => calm_loadFill a))
  · exact calm_of_eq (by assumption) (calm_mapRes (fun a _ => calm_loadBorder a))
  · exact calm_of_eq (by assumption) (calm_mapRes (fun a _ => calm_loadXf a))
  · exact calm_of_eq (by assumption) (calm_mapRes (fun a _ => calm_loadXf a))

theorem calm_parseOpt {α : Type} (f : String → Option α) (s : Option String) : ¬ Crashes (parseOpt f s) := by
  unfold parseOpt
  repeat' split
  all_goals first | exact crash_ok | exact crash_fail

theorem calm_loadBookView (a : Attrs) : ¬ Crashes (loadBookView a) := by
  unfold loadBookView
  split
  · exact calm_of_eq (by assumption) (calm_parseOpt _ _)
  · exact crash_ok

theorem calm_loadBookViews : ∀ (ns : List Node) (v : Option BookView), ¬ Crashes (loadBookViews v ns)
  | [], _ => crash_ok
  | n :: ns, v => by
    unfold loadBookViews
    split
    · exact calm_loadBookViews ns v
    · split
      · exact calm_of_eq (by assumption) (calm_loadBookView _)
      · exact calm_loadBookViews ns _

theorem calm_loadSheetEntry (a : Attrs) : ¬ Crashes (loadSheetEntry a) := by
  unfold loadSheetEntry
  repeat' split
  all_goals first | exact crash_ok | exact crash_fail

theorem calm_loadBook (x : XDoc) : ¬ Crashes (loadBook x).1 := by
  unfold loadBook
  simp only
  split
  · exact calm_of_eq (by assumption) (calm_loadBookViews _ _)
  · split
    · exact calm_of_eq (by assumption) (calm_mapRes (fun a _ => calm_loadSheetEntry a))
    · exact crash_ok

theorem crash_loadPart {α : Type} {p : Pkg} {h : Nat} {load : XDoc → Res α × XDoc} (hc : Crashes (loadPart p h load)) :
    ∃ x, p.docOf h = some x ∧ Crashes (load x).1 := by
  unfold loadPart at hc
  split at hc
  · exact absurd hc crash_fail
  · next x hx =>
    refine ⟨x, hx, ?_⟩
    split at hc
    · next e _ he => rw [he]; exact crash_cast.mp hc
    · exact absurd hc crash_ok

theorem crash_loadCalc {x : XDoc} (h : Crashes (loadCalc x).1) :
    ∃ c ∈ x.rootChildren, c.tag = "c" ∧ c.attrs ≠ none ∧ (c.attr? "r" = none ∨ c.attr? "i" = none) := by
  obtain ⟨c, hc, h⟩ := crash_mapRes h
  simp only [XDoc.popTag, List.mem_filter, decide_eq_true_eq] at hc
  refine ⟨c, hc.1.1, hc.1.2, (fun hn => by rw [hn] at hc; exact absurd hc.2 (by simp)), ?_⟩
  unfold Node.attr?
  cases ha : c.attrs with
  | none => exact Or.inl rfl
  | some a =>
    rw [ha] at h
    simp only [Option.getD_some] at h ⊢
    cases e1 : aget "r" a with
    | none => exact Or.inl rfl
    | some r =>
      cases e2 : aget "i" a with
      | none => exact Or.inr rfl
      | some i => rw [e1, e2] at h; exact absurd h crash_ok

theorem saveCore_crash {a b : String} {x : XDoc} : Crashes (saveCore a b x) ↔ x.root = none := by
  unfold saveCore
  cases x.root with
  | none => exact ⟨fun _ => rfl, fun _ => ⟨_, rfl⟩⟩
  | some r => exact ⟨(fun h => absurd h crash_ok), (fun h => by cases h)⟩

/-! ## Opening a file -/

theorem crash_ofZip {env : Env} {z : Zip} (h : Crashes (Pkg.ofZip env z)) : UntypedPart env z := by
  unfold Pkg.ofZip at h
  split at h
  · exact absurd h crash_fail
  next ct hct =>
  split at h
  · next e he => exact absurd h (calm_of_eq he (calm_readXml _ _))
  next d hd =>
  split at h
  · next e he =>
    refine absurd h (calm_of_eq he (calm_mapRes (fun n _ => ?_)))
    unfold needAttr
    cases n.attr? "Extension" with
    | none => exact crash_fail
    | some a =>
      cases n.attr? "ContentType" with
      | none => exact crash_fail
      | some c => exact crash_ok
  next exts hexts =>
  split at h
  · next e he =>
    have key : ∀ (zs : Zip), Crashes (loadEntries d.toXDoc exts zs) → ∃ n ∈ akeys zs, ∃ o ∈ d.toXDoc.rootChildren, o.tag ≠ "Default" ∧
        o.attr? "PartName" = some ("/" ++ n) ∧ o.attr? "ContentType" = none := by
      intro zs
      induction zs with
      | nil => exact fun h => absurd h crash_ok
      | cons kv rest ih =>
        intro h
        obtain ⟨n, c⟩ := kv
        unfold loadEntries at h
        split at h
        · next e1 h1 =>
          refine ⟨n, by simp [akeys], ?_⟩
          have h1c : Crashes (loadEntry d.toXDoc exts n c) := by rw [h1]; exact crash_cast.mp h
          unfold loadEntry at h1c
          split at h1c
          · next e2 h2 =>
            have h2c : Crashes (overrideContentType d.toXDoc n) := by rw [h2]; exact crash_cast.mp h1c
            unfold overrideContentType at h2c
            split at h2c
            · exact absurd h2c crash_ok
            · next o ho =>
              have hm := List.mem_of_getLast? ho
              simp only [List.mem_filter, decide_eq_true_eq] at hm
              refine ⟨o, hm.1.1, hm.1.2, hm.2, ?_⟩
              split at h2c
              · exact absurd h2c crash_ok
              · assumption
          · split at h1c <;> exact absurd h1c crash_ok
        · split at h
          · next e2 h2 =>
            obtain ⟨m, hm, ho⟩ := ih (by rw [h2]; exact crash_cast.mp h)
            exact ⟨m, by simp [akeys] at hm ⊢; exact Or.inr hm, ho⟩
          · exact absurd h crash_ok
    obtain ⟨n, hn, o, h1, h2, h3, h4⟩ := key _ (by rw [he]; exact crash_cast.mp h)
    have hk : n ∈ akeys z ∧ n ≠ contentTypesName := by
      simp only [akeys, List.mem_map, List.mem_filter, decide_eq_true_eq] at hn ⊢
      obtain ⟨kv, ⟨k1, k2⟩, rfl⟩ := hn
      exact ⟨⟨kv, k1, rfl⟩, k2⟩
    exact ⟨d.toXDoc, n, o, zipDoc_eq hct hd, hk.1, hk.2, h1, h2, h3, h4⟩
  · exact absurd h crash_ok

theorem find_loaded {ty : String} : ∀ {ns : List Node} {R : List Rel}, mapRes loadRel ns = .ok R →
    match ns.find? (fun n => n.attr? "Type" = some ty) with
    | none => R.find? (fun r => r.type = ty) = none
    | some n => ∃ r, R.find? (fun r => r.type = ty) = some r ∧ n.attr? "Target" = some r.target
  | [], R, h => by cases h; exact rfl
  | n :: ns, R, h => by
    unfold mapRes at h
    split at h
    · cases h
    next r hr =>
    split at h
    · cases h
    next rs hrs =>
    cases h
    have ih := find_loaded (ty := ty) hrs
    unfold loadRel at hr
    split at hr
    · cases hr
    next a ha =>
    split at hr
    case h_2 => cases hr
    case h_3 => cases hr
    case h_4 => cases hr
    next i t y hi ht hy =>
    cases hr
    have e1 : n.attr? "Type" = some y := by unfold Node.attr?; rw [ha]; exact hy
    have e2 : n.attr? "Target" = some t := by unfold Node.attr?; rw [ha]; exact ht
    by_cases hty : y = ty
    · simp only [List.find?_cons, e1, hty, decide_true]
      exact ⟨_, rfl, e2⟩
    · have : ¬ (some y = some ty) := fun h => hty (Option.some.inj h)
      simp only [List.find?_cons, e1, this, hty, decide_false]
      exact ih

/-- What a loaded relationship part leads to. -/
theorem leads_of {env : Env} {z : Zip} {p : Pkg} {relsPart : String} {o : OpenDoc} {R0 R : List Rel} {c : Content} {n : String} {R' : List Rel}
    (hp : Pkg.ofZip env z = .ok p) (hne : relsPart ≠ contentTypesName) (hs : Source env p relsTemplate relsPart o) (hl : (loadRels o.doc).1 = .ok R0)
    (hR : R.find? (fun r => r.type = c.type) = R0.find? (fun r => r.type = c.type))
    (ht : targetByType relsPart R c.type c none none = (.ok n, R')) : LeadsTo env z relsPart c n := by
  have hf := find_loaded (ty := c.type) hl
  have hfirst : firstOfType o.doc c.type = (o.doc.popTag "Relationship").1.find? (fun n => n.attr? "Type" = some c.type) := rfl
  rw [← hfirst] at hf
  unfold targetByType at ht
  rw [hR] at ht
  rcases source_zip hp hne hs with ⟨h1, h2⟩ | ⟨ct, d, h1, h2, h3⟩
  · have e : firstOfType o.doc c.type = none := by rw [h2]; rfl
    rw [e] at hf
    simp only at hf
    rw [hf] at ht
    cases ht
    refine Or.inr ⟨fun d hd => ?_, rfl⟩
    obtain ⟨c', d', k, _⟩ := of_zipDoc hd
    rw [h1] at k; cases k
  · have hz := zipDoc_eq h1 h2
    rw [h3] at hf
    cases e : firstOfType d.toXDoc c.type with
    | none =>
      rw [e] at hf
      simp only at hf
      rw [hf] at ht
      cases ht
      refine Or.inr ⟨fun d' hd => ?_, rfl⟩
      rw [hz] at hd; cases hd; exact e
    | some nd =>
      rw [e] at hf
      obtain ⟨r, hr, htg⟩ := hf
      rw [hr] at ht
      simp only [Prod.mk.injEq] at ht
      exact Or.inl ⟨_, nd, r.target, hz, e, htg, ht.1⟩

/-- Looking for another type leaves the first relationship of a type. -/
theorem find_after {f : String} {R R' : List Rel} {c : Content} {dir nm : Option String} {n : String} {ty : String} (hty : c.type ≠ ty)
    (h : targetByType f R c.type c dir nm = (.ok n, R')) : R'.find? (fun r => r.type = ty) = R.find? (fun r => r.type = ty) := by
  unfold targetByType at h
  split at h
  · simp only [Prod.mk.injEq] at h; rw [h.2]
  · simp only [Prod.mk.injEq] at h
    rw [← h.2]
    simp only [newRel, List.find?_append, List.find?_cons, hty, decide_false, List.find?_nil, Option.or_none]

theorem dirOf_some {path d : String} (h : dirOf path = some d) : ∃ base : List Char, path.toList = d.toList ++ '/' :: base ∧ '/' ∉ base := by
  unfold dirOf at h
  split at h
  · next hm =>
    cases h
    have hs : (path.toList.reverse.takeWhile (· ≠ '/')) ++ (path.toList.reverse.dropWhile (· ≠ '/')) = path.toList.reverse := List.takeWhile_append_dropWhile
    cases hd : path.toList.reverse.dropWhile (· ≠ '/') with
    | nil =>
      have : ∀ c ∈ path.toList.reverse, (decide (c ≠ '/')) = true := by
        rw [hd, List.append_nil] at hs
        rw [← hs]
        exact fun c hc => List.all_eq_true.mp (List.all_takeWhile) c hc
      exact absurd rfl (of_decide_eq_true (this '/' (by simpa using hm)))
    | cons c cs =>
      have hc : c = '/' := by
        have := List.head?_dropWhile_not (fun c : Char => decide (c ≠ '/')) path.toList.reverse
        rw [hd] at this
        simpa using this
      refine ⟨(path.toList.reverse.takeWhile (· ≠ '/')).reverse, ?_, ?_⟩
      · rw [hd, hc] at hs
        have := congrArg List.reverse hs
        rw [List.reverse_append, List.reverse_reverse] at this
        refine this.symm.trans ?_
        rw [String.toList_ofList, List.tail_cons, List.reverse_cons, List.append_assoc]
        rfl
      · simp only [List.mem_reverse]
        intro hm
        have := List.all_eq_true.mp (List.all_takeWhile (l := path.toList.reverse) (p := fun c => decide (c ≠ '/'))) '/' hm
        exact absurd rfl (of_decide_eq_true this)
  · cases h

theorem dirOf_none {path : String} (h : dirOf path = none) : '/' ∉ path.toList := by
  unfold dirOf at h
  split at h
  · cases h
  · assumption

/-- The documents of a started package: the part of the core properties. -/
theorem core_rootless {env : Env} {z : Zip} {p : Pkg} {n : String} {o : OpenDoc} (hp : Pkg.ofZip env z = .ok p) (hs : Source env p coreTemplate n o)
    (hr : o.doc.root = none) : ¬ HasRoot env z n := by
  have hn : n ≠ contentTypesName := by
    rcases hs with ⟨_, h, _⟩ | ⟨e, d, h, _⟩
    · rw [h] at hr; cases hr
    · intro he
      subst he
      exact ofZip_no_types hp (mem_akeys_of_aget h)
  rcases source_zip hp hn hs with ⟨_, h⟩ | ⟨c, d, h1, h2, h3⟩
  · rw [h] at hr; cases hr
  · exact fun h => h _ (zipDoc_eq h1 h2) (by rw [← h3]; exact hr)

theorem core_of_failed {env : Env} {z : Zip} {p : Pkg} {e : Err} {m : String} (hz : (akeys z).Nodup) (hp : Pkg.ofZip env z = .ok p)
    (h : Excel.failedStart env p e = .panic m) : e = .panic m ∨ RootlessCore env z := by
  unfold Excel.failedStart at h
  split at h
  · exact Or.inl h
  next r p1 hr =>
  split at h
  · exact Or.inl h
  next n hd p2 r2 ho =>
  obtain ⟨_, _, _, _, _, _, _, hop, _⟩ := ofZip_ok hp
  have o0 := OpensPart.start (env := env) (Pkg.Inv.ofZip hz hp) hop
  obtain ⟨n1, rp1, oroot, c1, s1, l1, o1⟩ := o0.rels hr
  obtain ⟨n2, t2, rp2, rh2, ocore, c2, s2, o2⟩ := o1.typed ho
  have hdoc : p2.docOf hd = some ocore.doc := by
    rw [← c2]; exact o2.inv.docOf ((o2.opened n).trans (if_pos rfl))
  rw [hdoc] at h
  simp only [Option.map_some] at h
  split at h
  · next m' hm =>
    refine Or.inr ⟨n, ?_, core_rootless hp s2 (saveCore_crash.mp ⟨_, Option.some.inj hm⟩)⟩
    exact leads_of hp (by decide +kernel) s1 l1 rfl (by rw [← rp1]; exact t2)
  · exact Or.inl h

theorem crash_start {env : Env} {theme : XDoc} {z : Zip} {p : Pkg} (hz : (akeys z).Nodup) (hp : Pkg.ofZip env z = .ok p)
    (h : Crashes (Excel.start env theme p)) :
    ∃ n, LeadsTo env z "_rels/.rels" workbookContent n ∧
      ('/' ∉ n.toList ∨ ∃ rp, WorkbookRels n rp ∧ (OddName rp ∨ BrokenChain env z rp)) := by
  obtain ⟨_, _, _, _, _, _, _, hop, _⟩ := ofZip_ok hp
  have o0 := OpensPart.start (env := env) (Pkg.Inv.ofZip hz hp) hop
  unfold Excel.start at h
  rcases crash_bind h with h | ⟨⟨rr, p1⟩, e1, h⟩
  · split at h
    · next e _ he => exact absurd (crash_cast.mp h) (calm_of_eq (congrArg Prod.fst he) (calm_relNew _ _ _) (β := RelPart))
    · exact absurd h crash_ok
  split at e1
  · cases e1
  next r' p' hrr =>
  cases e1
  obtain ⟨n1, rp1, oroot, c1, s1, l1, o1⟩ := o0.rels hrr
  rcases crash_bind h with h | ⟨⟨corePath, coreH, p2, rr2⟩, e2, h⟩
  · exact absurd (rp1 ▸ crash_openTyped h) not_odd_root
  obtain ⟨n2, t2, rp2, rh2, ocore, c2, s2, o2⟩ := o1.typed e2
  rcases crash_bind h with h | ⟨⟨bookPath, bookH, p3, rr3⟩, e3, h⟩
  · exact absurd (rp1 ▸ rp2 ▸ crash_openTyped h) not_odd_root
  obtain ⟨n3, t3, rp3, rh3, obook, c3, s3, o3⟩ := o2.typed e3
  have lead : LeadsTo env z "_rels/.rels" workbookContent bookPath :=
    leads_of hp (by decide +kernel) s1 l1 (find_after (by decide +kernel) t2) (by rw [← rp1, ← rp2]; exact t3)
  refine ⟨bookPath, lead, ?_⟩
  rcases crash_bind h with h | ⟨dir, e4, h⟩
  · split at h
    · next hd => exact Or.inl (dirOf_none hd)
    · exact absurd h crash_ok
  have hdir : dirOf bookPath = some dir := by
    split at e4
    · cases e4
    · next d hd => rw [hd]; cases e4; rfl
  refine Or.inr ⟨dir ++ "/_rels/workbook.xml.rels", ?_, ?_⟩
  · obtain ⟨base, h1, h2⟩ := dirOf_some hdir
    exact ⟨dir.toList, base, h1, h2, by rw [String.toList_append]⟩
  have hne : dir ++ "/_rels/workbook.xml.rels" ≠ contentTypesName := by
    intro he
    have : '/' ∈ contentTypesName.toList := by
      rw [← he, String.toList_append]
      exact List.mem_append_right _ (by decide +kernel)
    exact absurd this (by decide +kernel)
  rcases crash_bind h with h | ⟨⟨re, p4⟩, e5, h⟩
  · split at h
    · next e _ he => exact absurd (crash_cast.mp h) (calm_of_eq (congrArg Prod.fst he) (calm_relNew _ _ _) (β := RelPart))
    · exact absurd h crash_ok
  split at e5
  · cases e5
  next r'' p'' hre =>
  cases e5
  obtain ⟨n4, rp4, orel, c4, s4, l4, o4⟩ := o3.rels hre
  rcases crash_bind h with h | ⟨⟨themePath, themeH, p5, re5⟩, e6, h⟩
  · exact Or.inl (rp4 ▸ crash_openTyped h)
  obtain ⟨n5, t5, rp5, rh5, otheme, c5, s5, o5⟩ := o4.typed e6
  rcases crash_bind h with h | ⟨⟨strPath, strH, p6, re6⟩, e7, h⟩
  · exact Or.inl (rp4 ▸ rp5 ▸ crash_openTyped h)
  obtain ⟨n6, t6, rp6, rh6, ostr, c6, s6, o6⟩ := o5.typed e7
  rcases crash_bind h with h | ⟨⟨table, p7⟩, e8, h⟩
  · obtain ⟨x, _, hx⟩ := crash_loadPart h
    exact absurd hx crash_ok
  obtain ⟨l7, o7⟩ := o6.load (n := strPath) c6 (if_pos rfl) e8
  rcases crash_bind h with h | ⟨⟨calcPath, calcH, p8, re8⟩, e9, h⟩
  · exact Or.inl (rp4 ▸ rp5 ▸ rp6 ▸ crash_openTyped h)
  obtain ⟨n8, t8, rp8, rh8, ocalc, c8, s8, o8⟩ := o7.typed e9
  rcases crash_bind h with h | ⟨⟨chain, p9⟩, e10, h⟩
  · right
    obtain ⟨x, hx, hc⟩ := crash_loadPart h
    have hx' : x = ocalc.doc := by
      rw [← c8, o8.inv.docOf ((o8.opened calcPath).trans (if_pos rfl))] at hx
      exact (Option.some.inj hx).symm
    subst hx'
    obtain ⟨c, k1, k2, k3, k4⟩ := crash_loadCalc hc
    have hsrc : calcPath ≠ contentTypesName := by
      rcases s8 with ⟨_, h, _⟩ | ⟨e, d, h, _⟩
      · rw [h] at k1; cases k1
      · intro he
        subst he
        exact ofZip_no_types hp (mem_akeys_of_aget h)
    rcases source_zip hp hsrc s8 with ⟨_, h⟩ | ⟨ct, d, h1, h2, h3⟩
    · rw [h] at k1; cases k1
    · refine ⟨calcPath, d.toXDoc, c, ?_, zipDoc_eq h1 h2, h3 ▸ k1, k2, k3, k4⟩
      refine leads_of hp hne s4 l4 ((find_after (by decide +kernel) t6).trans (find_after (by decide +kernel) t5)) (R' := re8.rels) ?_
      rw [← rp4, ← rp5, ← rp6]; exact t8
  rcases crash_bind h with h | ⟨⟨stylePath, styleH, p10, re10⟩, e11, h⟩
  · exact Or.inl (rp4 ▸ rp5 ▸ rp6 ▸ rp8 ▸ crash_openTyped h)
  rcases crash_bind h with h | ⟨⟨styles, p11⟩, e12, h⟩
  · obtain ⟨x, _, hx⟩ := crash_loadPart h
    exact absurd hx (calm_stylesLoad _)
  rcases crash_bind h with h | ⟨⟨⟨sheets, view⟩, p12⟩, e13, h⟩
  · obtain ⟨x, _, hx⟩ := crash_loadPart h
    exact absurd hx (calm_loadBook _)
  · exact absurd h crash_ok

end Oxml
