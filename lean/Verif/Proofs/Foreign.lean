import Verif.Spec.Foreign
import Verif.Props.Source
import Verif.Proofs.Unambiguous
/-!
# The library reads well-formed documents (C109)

Every text of the grammar of XML without CDATA sections is a text of `Src` pieces, whose reading is known (C69).
-/
namespace Oxml
open Spec

/-! ## Texts -/

theorem SameLines.refl : ∀ s : List Char, SameLines s s
  | [] => .nil
  | _ :: s => .same (SameLines.refl s)

theorem lineEnds_cons {c : Char} (h : c ≠ '\r') (s : List Char) : lineEnds (c :: s) = c :: lineEnds s := by
  rw [lineEnds.eq_def]
  split
  · rename_i e; cases e
  · rename_i e; exact absurd (List.cons.inj e).1 h
  · rename_i e; exact absurd (List.cons.inj e).1 h
  · rename_i e; obtain ⟨rfl, rfl⟩ := List.cons.inj e; rfl

theorem lineEnds_inv {s r : List Char} {c : Char} (h : lineEnds s = c :: r) :
    (∃ s', s = c :: s' ∧ lineEnds s' = r) ∨ c = '\n' ∧ ∃ s', (s = '\r' :: '\n' :: s' ∨ s = '\r' :: s') ∧ lineEnds s' = r := by
  rw [lineEnds.eq_def] at h
  split at h
  · cases h
  · obtain ⟨rfl, rfl⟩ := List.cons.inj h; exact .inr ⟨rfl, _, .inl rfl, rfl⟩
  · obtain ⟨rfl, rfl⟩ := List.cons.inj h; exact .inr ⟨rfl, _, .inr rfl, rfl⟩
  · obtain ⟨rfl, rfl⟩ := List.cons.inj h; exact .inl ⟨_, rfl, rfl⟩

theorem lineEnds_pre {x : List Char} (hx : '\n' ∉ x) : ∀ {s r : List Char}, lineEnds s = x ++ r → ∃ s', s = x ++ s' ∧ lineEnds s' = r := by
  induction x with
  | nil => intro s r h; exact ⟨s, rfl, h⟩
  | cons c x ih =>
    intro s r h
    rcases lineEnds_inv h with ⟨s', rfl, h'⟩ | ⟨rfl, _⟩
    · obtain ⟨s2, rfl, h2⟩ := ih (fun hm => hx (List.mem_cons_of_mem _ hm)) h'
      exact ⟨s2, rfl, h2⟩
    · exact absurd (List.mem_cons_self ..) hx

theorem dec_plain : ∀ d : Fin 10, decDigit d ≠ '\n' ∧ decDigit d ≠ '?' := by decide +kernel
theorem hex_plain : ∀ d : Fin 16 × Bool, hexDigit d ≠ '\n' ∧ hexDigit d ≠ '?' := by
  have : ∀ (a : Fin 16) (b : Bool), hexDigit (a, b) ≠ '\n' ∧ hexDigit (a, b) ≠ '?' := by decide +kernel
  exact fun d => this d.1 d.2

theorem written_text {w : Written} {c : Char} (h : w.Means c) : w.text = [c] ∧ w = .plain c ∨ '\n' ∉ w.text ∧ '?' ∉ w.text := by
  cases w with
  | plain x => obtain ⟨rfl, _⟩ := h; exact .inl ⟨rfl, rfl⟩
  | dec ds =>
    right
    simp only [Written.text, List.mem_cons, List.mem_append, List.mem_map, List.not_mem_nil, or_false]
    constructor
    · rintro (h | h | ⟨d, _, hd⟩ | h)
      · revert h; decide
      · revert h; decide
      · exact (dec_plain d).1 hd
      · revert h; decide
    · rintro (h | h | ⟨d, _, hd⟩ | h)
      · revert h; decide
      · revert h; decide
      · exact (dec_plain d).2 hd
      · revert h; decide
  | hex ds =>
    right
    simp only [Written.text, List.mem_cons, List.mem_append, List.mem_map, List.not_mem_nil, or_false]
    constructor
    · rintro (h | h | h | ⟨d, _, hd⟩ | h)
      · revert h; decide
      · revert h; decide
      · revert h; decide
      · exact (hex_plain d).1 hd
      · revert h; decide
    · rintro (h | h | h | ⟨d, _, hd⟩ | h)
      · revert h; decide
      · revert h; decide
      · revert h; decide
      · exact (hex_plain d).2 hd
      · revert h; decide
  | _ => right; decide

theorem standsFor_nil : StandsFor [] [] := ⟨[], rfl, rfl, fun _ h => nomatch h⟩

theorem standsFor_cons {w : Written} {c : Char} (h : w.Means c) {s t : List Char} (hs : StandsFor s t) : StandsFor (w.text ++ s) (c :: t) := by
  obtain ⟨ws, rfl, rfl, h3⟩ := hs
  refine ⟨(w, c) :: ws, rfl, rfl, fun x hx => ?_⟩
  rcases List.mem_cons.mp hx with rfl | hx
  · exact h
  · exact h3 x hx

/-- Without the change of line ends, references stand for the same characters. -/
theorem standsFor_lines {s t : List Char} (h : StandsFor (lineEnds s) t) : ∃ t', StandsFor s t' ∧ SameLines t' t := by
  obtain ⟨ws, h1, rfl, h3⟩ := h
  induction ws generalizing s with
  | nil =>
    have : s = [] := by
      cases s with
      | nil => rfl
      | cons c s =>
        rw [lineEnds.eq_def] at h1
        split at h1
        · rename_i e; cases e
        all_goals cases h1
    subst this
    exact ⟨[], standsFor_nil, .nil⟩
  | cons w ws ih =>
    have hw := h3 w (List.mem_cons_self ..)
    have hws := fun x hx => h3 x (List.mem_cons_of_mem _ hx)
    simp only [List.flatMap_cons] at h1
    rcases written_text hw with ⟨ht, hp⟩ | ⟨hn, _⟩
    · rw [ht] at h1
      have hne : w.2 ≠ '&' := by rw [hp] at hw; exact hw.2
      rcases lineEnds_inv h1 with ⟨s', rfl, h'⟩ | ⟨hc, s', hs, h'⟩
      · obtain ⟨t', g1, g2⟩ := ih h' hws
        refine ⟨w.2 :: t', ?_, .same g2⟩
        have := standsFor_cons hw g1
        rwa [ht] at this
      · obtain ⟨t', g1, g2⟩ := ih h' hws
        have hcr : (Written.plain '\r').Means '\r' := ⟨rfl, by decide⟩
        have hlf : (Written.plain '\n').Means '\n' := ⟨rfl, by decide⟩
        rcases hs with rfl | rfl
        · refine ⟨'\r' :: '\n' :: t', standsFor_cons hcr (standsFor_cons hlf g1), ?_⟩
          rw [List.map_cons, hc]; exact .crlf g2
        · refine ⟨'\r' :: t', standsFor_cons hcr g1, ?_⟩
          rw [List.map_cons, hc]; exact .cr g2
    · obtain ⟨s', rfl, h'⟩ := lineEnds_pre hn h1
      obtain ⟨t', g1, g2⟩ := ih h' hws
      exact ⟨w.2 :: t', standsFor_cons hw g1, .same g2⟩

theorem white_not {c : Char} (h : White c) : c ≠ '&' ∧ c ≠ ';' ∧ c ≠ '<' := by
  rcases h with rfl | rfl | rfl | rfl <;> decide

theorem unescape_whites {r : List Char} (h : Whites r) : unescapeFrom none r = .ok r ∧ ∀ acc, ∃ e, unescapeFrom (some acc) r = .error e := by
  induction r with
  | nil => exact ⟨rfl, fun _ => ⟨_, rfl⟩⟩
  | cons c r ih =>
    have hw := white_not (h c (List.mem_cons_self ..))
    obtain ⟨i1, i2⟩ := ih (fun x hx => h x (List.mem_cons_of_mem _ hx))
    refine ⟨?_, fun acc => ?_⟩
    · rw [unescapeFrom, if_neg hw.1, i1]; rfl
    · obtain ⟨e, he⟩ := i2 (c :: acc)
      exact ⟨e, by rw [unescapeFrom, if_neg hw.2.1, he]⟩

theorem unescape_right {r : List Char} (h : Whites r) : ∀ (s : List Char) (st : Option (List Char)) (t : List Char), unescapeFrom st (s ++ r) = .ok t →
    ∃ v, unescapeFrom st s = .ok v ∧ t = v ++ r := by
  intro s
  induction s with
  | nil =>
    intro st t ht
    rw [List.nil_append] at ht
    cases st with
    | none => rw [(unescape_whites h).1] at ht; cases ht; exact ⟨[], rfl, rfl⟩
    | some acc => obtain ⟨e, he⟩ := (unescape_whites h).2 acc; rw [he] at ht; cases ht
  | cons c s ih =>
    intro st t ht
    rw [List.cons_append] at ht
    cases st with
    | none =>
      rw [unescapeFrom] at ht ⊢
      by_cases hc : c = '&'
      · rw [if_pos hc] at ht ⊢; exact ih _ _ ht
      · rw [if_neg hc] at ht ⊢
        cases he : unescapeFrom none (s ++ r) with
        | error e => rw [he] at ht; cases ht
        | ok x =>
          rw [he] at ht; cases ht
          obtain ⟨v, h1, rfl⟩ := ih _ _ he
          exact ⟨c :: v, by rw [h1]; rfl, rfl⟩
    | some acc =>
      rw [unescapeFrom] at ht ⊢
      by_cases hc : c = ';'
      · rw [if_pos hc] at ht ⊢
        cases hm : entity acc.reverse with
        | none => rw [hm] at ht; cases ht
        | some y =>
          rw [hm] at ht
          simp only at ht ⊢
          cases he : unescapeFrom none (s ++ r) with
          | error e => rw [he] at ht; cases ht
          | ok x =>
            rw [he] at ht; cases ht
            obtain ⟨v, h1, rfl⟩ := ih _ _ he
            exact ⟨y ++ v, by rw [h1]; rfl, by rw [List.append_assoc]⟩
      · rw [if_neg hc] at ht ⊢; exact ih _ _ ht

theorem unescape_left {l : List Char} (h : Whites l) (s t : List Char) (ht : unescapeFrom none (l ++ s) = .ok t) :
    ∃ v, unescapeFrom none s = .ok v ∧ t = l ++ v := by
  induction l generalizing t with
  | nil => exact ⟨t, ht, rfl⟩
  | cons c l ih =>
    have hw := white_not (h c (List.mem_cons_self ..))
    rw [List.cons_append, unescapeFrom, if_neg hw.1] at ht
    cases he : unescapeFrom none (l ++ s) with
    | error e => rw [he] at ht; cases ht
    | ok x =>
      rw [he] at ht; cases ht
      obtain ⟨v, h1, rfl⟩ := ih (fun x hx => h x (List.mem_cons_of_mem _ hx)) _ he
      exact ⟨v, h1, rfl⟩

theorem unescape_ne_nil {s : List Char} (h : s ≠ []) {t : List Char} (ht : unescape s = .ok t) : t ≠ [] := by
  rintro rfl
  obtain ⟨ws, rfl, h2, _⟩ := (C69_references _ _).mp ht
  rw [List.map_eq_nil_iff.mp h2.symm] at h
  exact h rfl

/-- Character data as the library takes it. -/
theorem charData_kept {s t : List Char} (h : CharData s t) : TextOk s ∧
    (trimXml s = [] ∧ Whites t ∨ trimXml s ≠ [] ∧ KeptOf (decoded (trimXml s)) t) := by
  obtain ⟨t', h1, h2⟩ := standsFor_lines h.reads
  have h3 := (C69_references _ _).mpr h1
  obtain ⟨l, r, e, hl, hr, _, _⟩ := trimXml_trimmed s
  have h4 : unescapeFrom none (l ++ (trimXml s ++ r)) = .ok t' := by rw [← e]; exact h3
  obtain ⟨v1, h5, rfl⟩ := unescape_left hl _ _ h4
  obtain ⟨v, h6, rfl⟩ := unescape_right hr _ _ _ h5
  refine ⟨⟨h.noMarkup, v, h6⟩, ?_⟩
  by_cases hn : trimXml s = []
  · refine .inl ⟨hn, ?_⟩
    have hs : Whites s := by
      rw [e, hn, List.nil_append]
      intro c hc
      rcases List.mem_append.mp hc with hc | hc
      · exact hl c hc
      · exact hr c hc
    have hle : Whites (lineEnds s) := by
      intro c hc
      rcases mem_lineEnds hc with hc | rfl
      · exact hs c hc
      · exact .inr (.inr (.inl rfl))
    have := (C69_references _ _).mpr h.reads
    unfold unescape at this
    rw [(unescape_whites hle).1] at this
    cases this
    exact hle
  · refine .inr ⟨hn, ?_, l, r, hl, hr, ?_⟩
    · have := unescape_ne_nil hn h6
      unfold decoded unescape
      rw [h6]
      intro e
      exact this (by simpa using congrArg String.toList e)
    · unfold decoded unescape
      rw [h6, String.toList_ofList]
      exact h2

/-! ## Lists of texts -/

theorem agree_append {α β : Type} {P : α → β → Prop} {a a' : List α} {b b' : List β} (h : Agree P a b) (h' : Agree P a' b') : Agree P (a ++ a') (b ++ b') := by
  induction a generalizing b with
  | nil => cases b with
    | nil => exact h'
    | cons => exact h.elim
  | cons x a ih => cases b with
    | nil => exact h.elim
    | cons y b => exact ⟨h.1, ih h.2⟩

/-- Pieces of character data with the texts they are read as; empty ones are none. -/
def TextsAs (ps ts : List (List Char)) : Prop := Agree CharData (ps.filter (fun p => decide (p ≠ []))) ts

theorem textsAs_nil (ps ts : List (List Char)) (h : TextsAs ps ts) : TextsAs ([] :: ps) ts := by
  unfold TextsAs
  rw [List.filter_cons_of_neg (by simp)]
  exact h

theorem textsAs_cons {p : List Char} {ps ts : List (List Char)} {t : List Char} (hp : CharData p t) (h : TextsAs ps ts) : TextsAs (p :: ps) (t :: ts) := by
  unfold TextsAs
  rw [List.filter_cons_of_pos (by simp [hp.nonempty])]
  exact ⟨hp, h⟩

theorem lastKept_agree : ∀ {ps ts : List (List Char)}, Agree CharData ps ts → LastKept (((ps.map trimXml).filter (fun s => s ≠ [])).getLast?.map decoded) ts
  | [], [], _ => fun _ h => nomatch h
  | [], _ :: _, h => h.elim
  | _ :: _, [], h => h.elim
  | p :: ps, t :: ts, h => by
    have ih := lastKept_agree h.2
    rw [List.map_cons]
    cases hl : ((ps.map trimXml).filter (fun s => s ≠ [])).getLast? with
    | some x =>
      rw [hl] at ih
      obtain ⟨a, y, b, rfl, h1, h2⟩ := ih
      have : ((trimXml p :: ps.map trimXml).filter (fun s => s ≠ [])).getLast? = some x := by
        rw [List.filter_cons]
        split
        · rw [List.getLast?_cons, hl]; rfl
        · exact hl
      rw [this]
      exact ⟨t :: a, y, b, rfl, h1, h2⟩
    | none =>
      rw [hl] at ih
      have hnil := List.getLast?_eq_none_iff.mp hl
      obtain ⟨_, hk⟩ := charData_kept h.1
      rcases hk with ⟨h1, h2⟩ | ⟨h1, h2⟩
      · rw [List.filter_cons_of_neg (by simp [h1]), hl]
        intro x hx
        rcases List.mem_cons.mp hx with rfl | hx
        · exact h2
        · exact ih x hx
      · rw [List.filter_cons_of_pos (by simp [h1]), hnil]
        exact ⟨[], t, ts, rfl, h2, ih⟩

theorem trim_nil : trimXml [] = [] := rfl

theorem lastText_kept {ps ts : List (List Char)} (h : TextsAs ps ts) : LastKept (lastText ps) ts := by
  have := lastKept_agree h
  have e : ((ps.filter (fun p => decide (p ≠ []))).map trimXml).filter (fun s => s ≠ []) = (ps.map trimXml).filter (fun s => s ≠ []) := by
    clear this h
    induction ps with
    | nil => rfl
    | cons p ps ih =>
      by_cases hp : p = []
      · subst hp
        rw [List.filter_cons_of_neg (by simp), List.map_cons, List.filter_cons_of_neg (by simp [trim_nil]), ih]
      · rw [List.filter_cons_of_pos (by simp [hp]), List.map_cons, List.map_cons, List.filter_cons, List.filter_cons, ih]
  rw [e] at this
  exact this

/-! ## Attributes -/

theorem blank_of {s : List Char} (h : Whites s) : Blank s := fun c hc => (C69_white c).mpr (h c hc)

/-- An attribute of a piece and the attribute read. -/
def AttrSrc (f : Bool) (a : SAttr) (kv : List Char × List Char) : Prop :=
  a.name = kv.1 ∧ StandsFor ((lineEnds a.value).map whiteToSpace) kv.2 ∧ (f = true → '&' ∉ a.value)

/-- What is asked of every piece of the text. -/
def Fit (f : Bool) (s : List Char) : Prop := NoCdata s ∧ (f = true → RefsInTexts s)

theorem fit_inner {f : Bool} {a s b t : List Char} (h : Fit f t) (e : t = a ++ (s ++ b)) : Fit f s := by
  refine ⟨?_, fun hf l m q r es hq => ?_⟩
  · rintro l r rfl
    exact h.1 (a ++ l) (r ++ b) (by rw [e]; simp only [List.append_assoc])
  · subst es
    exact h.2 hf (a ++ l) m q (r ++ b) (by rw [e]; simp) hq

theorem attr_src {u : Unicode} {f : Bool} {s : List Char} {kv : List Char × List Char} (h : IsAttr s kv) (hn : LegalName u (String.ofList kv.1)) (hf : Fit f s) :
    ∃ a : SAttr, s = a.text ∧ a.Ok u ∧ AttrSrc f a kv := by
  obtain ⟨sep, l, r, q, raw, rfl, h1, h2, h3, h4, h5, h6, h7, h8, h9, h10, h11⟩ := h
  refine ⟨⟨sep, kv.1, l, r, q, raw⟩, by simp [SAttr.text], ⟨⟨blank_of h1, h2⟩, (isValidXmlName_iff _ _).mpr hn, ⟨blank_of h4, blank_of h5⟩, h6, h7⟩, rfl, h10, fun he hm => ?_⟩
  obtain ⟨x, y, rfl⟩ := List.append_of_mem hm
  refine h8 (List.mem_append_right _ (List.mem_cons_of_mem _ (hf.2 he (sep ++ (kv.1 ++ (l ++ '=' :: (r ++ q :: x)))) y q [] ?_ h6)))
  simp

theorem attrs_src {u : Unicode} {f : Bool} {s : List Char} {kvs : List (List Char × List Char)} (h : IsAttrs s kvs) (hn : ∀ kv ∈ kvs, LegalName u (String.ofList kv.1))
    (hf : Fit f s) : ∃ as : List SAttr, s = as.flatMap SAttr.text ∧ (∀ a ∈ as, a.Ok u) ∧ Agree (AttrSrc f) as kvs := by
  induction h with
  | nil => exact ⟨[], rfl, (fun _ h => nomatch h), trivial⟩
  | @cons s kv ss kvs h1 _ ih =>
    obtain ⟨a, rfl, g1, g2⟩ := attr_src h1 (hn _ (List.mem_cons_self ..)) (fit_inner hf (a := []) (b := ss) (by simp))
    obtain ⟨as, rfl, g3, g4⟩ := ih (fun x hx => hn x (List.mem_cons_of_mem _ hx)) (fit_inner hf (a := a.text) (b := []) (by simp))
    refine ⟨a :: as, rfl, fun x hx => ?_, g2, g4⟩
    rcases List.mem_cons.mp hx with rfl | hx
    · exact g1
    · exact g3 x hx

theorem agree_names {f : Bool} {as : List SAttr} {kvs : List (List Char × List Char)} (h : Agree (AttrSrc f) as kvs) : as.map SAttr.name = kvs.map Prod.fst := by
  induction as generalizing kvs with
  | nil => cases kvs with
    | nil => rfl
    | cons => exact h.elim
  | cons a as ih => cases kvs with
    | nil => exact h.elim
    | cons kv kvs => rw [List.map_cons, List.map_cons, ih h.2, h.1.1]

theorem agree_mem {f : Bool} {as : List SAttr} {kvs : List (List Char × List Char)} (h : Agree (AttrSrc f) as kvs) : ∀ a ∈ as, ∃ kv ∈ kvs, AttrSrc f a kv := by
  induction as generalizing kvs with
  | nil => exact fun _ h => nomatch h
  | cons a as ih => cases kvs with
    | nil => exact h.elim
    | cons kv kvs =>
      intro x hx
      rcases List.mem_cons.mp hx with rfl | hx
      · exact ⟨kv, List.mem_cons_self .., h.1⟩
      · obtain ⟨y, hy, h'⟩ := ih h.2 x hx
        exact ⟨y, List.mem_cons_of_mem _ hy, h'⟩

theorem agree_plain {f : Bool} {as : List SAttr} {kvs : List (List Char × List Char)} (h : Agree (AttrSrc f) as kvs) : Agree (AttrAs f) (plainAttrs as) (otherAttrs kvs) := by
  induction as generalizing kvs with
  | nil => cases kvs with
    | nil => trivial
    | cons => exact h.elim
  | cons a as ih => cases kvs with
    | nil => exact h.elim
    | cons kv kvs =>
      have i := ih h.2
      have e : isNsKey (String.ofList a.name) = "xmlns".toList.isPrefixOf kv.1 := by
        unfold isNsKey; rw [h.1.1, String.toList_ofList (l := kv.1)]
      unfold plainAttrs otherAttrs at *
      rw [List.map_cons, List.filter_cons, List.filter_cons]
      simp only [e]
      split
      · refine ⟨⟨by rw [String.toList_ofList]; exact h.1.1, by rw [String.toList_ofList]; exact h.1.2.1, by rw [String.toList_ofList]; exact h.1.2.2⟩, i⟩
      · exact i

/-- A text without references and white space stands for itself only. -/
theorem standsFor_self {s t : List Char} (h : StandsFor ((lineEnds s).map whiteToSpace) t) (h1 : '&' ∉ s) (h2 : '\r' ∉ s) (h3 : '\n' ∉ s) (h4 : '\t' ∉ s) : t = s := by
  rw [lineEnds_self h2, List.map_congr_left (g := id), List.map_id] at h
  · exact C69_references_unique _ _ _ h (standsFor_plain h1)
  · intro c hc
    unfold whiteToSpace
    rw [if_neg]
    · rfl
    · rintro (rfl | rfl | rfl)
      · exact h4 hc
      · exact h3 hc
      · exact h2 hc

theorem tag_src {u : Unicode} {f : Bool} {n a sp : List Char} {kvs : List (List Char × List Char)} {content : List Item} (hi : ItemOk u (.elem n kvs content)) (h1 : IsAttrs a kvs)
    (h2 : (kvs.map Prod.fst).Nodup) (h3 : Whites sp) (hf : Fit f a) : ∃ as : List SAttr, a = as.flatMap SAttr.text ∧ TagOk u n as sp ∧ Agree (AttrAs f) (plainAttrs as) (otherAttrs kvs) := by
  obtain ⟨k1, k2, k3, _⟩ := hi
  obtain ⟨as, rfl, g1, g2⟩ := attrs_src h1 k2 hf
  refine ⟨as, rfl, ⟨(isValidXmlName_iff _ _).mpr k1, g1, by rw [agree_names g2]; exact h2, blank_of h3, ?_⟩, agree_plain g2⟩
  intro x hx p hp hr
  obtain ⟨kv, hkv, e1, e2, _⟩ := agree_mem g2 x hx
  obtain ⟨q1, q2, q3, q4⟩ := k3 kv hkv p (by rw [← e1]; exact hp)
  have of : ∀ s : String, String.ofList x.value = s → '&' ∉ s.toList → '\r' ∉ s.toList → '\n' ∉ s.toList → '\t' ∉ s.toList → kv.2 = s.toList := by
    intro s hs a1 a2 a3 a4
    have hs' : x.value = s.toList := by rw [← hs, String.toList_ofList]
    rw [hs'] at e2
    exact standsFor_self e2 a1 a2 a3 a4
  have key : ∀ s : String, String.ofList p = s → p = s.toList := fun s hs => by rw [← hs, String.toList_ofList]
  rcases hr with ⟨h, _⟩ | h | ⟨_, h | h⟩
  · exact q1 (key _ h)
  · exact q2 (key _ h)
  · exact q3 (of _ h (by decide) (by decide) (by decide) (by decide))
  · exact q4 (of _ h (by decide) (by decide) (by decide) (by decide))

/-! ## Content -/

/-- The piece with another text in front. -/
def withPre (p : List Char) : Src → Src
  | .elem _ n a sp b t e => .elem p n a sp b t e
  | .void _ n a sp => .void p n a sp
  | .comment _ s => .comment p s
  | .cdata _ s => .cdata p s
  | .pi _ s => .pi p s
  | .doctype _ s => .doctype p s

theorem withPre_text (x : Src) : ∃ r, ∀ p, (withPre p x).text = p ++ '<' :: r := by
  cases x <;> exact ⟨_, fun p => by rw [withPre, Src.text]⟩

theorem withPre_self (x : Src) : withPre x.pre x = x := by cases x <;> rfl
theorem withPre_pre (p : List Char) (x : Src) : (withPre p x).pre = p := by cases x <;> rfl
theorem withPre_node (p : List Char) (x : Src) : (withPre p x).node = x.node := by cases x <;> simp only [withPre, Src.node]

theorem withPre_ok {u : Unicode} {p : List Char} {x : Src} (h : x.Ok u) (hp : TextOk p) : (withPre p x).Ok u := by
  cases x <;> (simp only [withPre, Src.Ok] at *; exact ⟨hp, h.2⟩)

theorem textOk_nil : TextOk [] := ⟨by simp, [], rfl⟩

/-- Content as pieces and a last text. -/
structure PiecesOf (u : Unicode) (f : Bool) (s : List Char) (l : List Item) (body : List Src) (tail : List Char) : Prop where
  text : s = Src.texts body ++ tail
  oks : Src.Oks u body
  tailOk : TextOk tail
  reads : ReadAll f (Src.nodes body) l
  texts : TextsAs (body.map Src.pre ++ [tail]) (textsOf l)

theorem split_after {α : Type} {x : α} {r : List α} : ∀ {n t l : List α}, x ∉ n → n ++ t = l ++ x :: r → ∃ l', t = l' ++ x :: r
  | [], _, l, _, e => ⟨l, e⟩
  | a :: n, t, [], h, e => by
    rw [List.cons_append, List.nil_append] at e
    exact absurd (by rw [(List.cons.inj e).1]; exact List.mem_cons_self ..) h
  | a :: n, t, b :: l, h, e => split_after (fun hm => h (List.mem_cons_of_mem _ hm)) (List.cons.inj e).2

theorem pi_inside {n t : List Char} (h : XmlName n) (ht : ∀ l r, t ≠ l ++ '?' :: '>' :: r) :
    (n ++ t).head? ≠ some '>' ∧ ∀ l r, n ++ t ≠ l ++ '?' :: '>' :: r := by
  have hq : '?' ∉ n := fun hm => (nameChar_not (name_chars h _ hm)).2.2.2.2.1 rfl
  refine ⟨?_, fun l r e => ?_⟩
  · obtain ⟨c, cs, rfl, h1, _⟩ := h
    simp only [List.cons_append, List.head?_cons, ne_eq, Option.some.injEq]
    exact (nameStart_not h1).2.2.1
  · obtain ⟨l', e'⟩ := split_after hq e
    exact ht _ _ e'

theorem itemsOk_cons {u : Unicode} {i : Item} {l : List Item} (h : ItemsOk u (i :: l)) : ItemOk u i ∧ ItemsOk u l := by
  rw [ItemsOk] at h; exact h

theorem pieces_of {u : Unicode} {f : Bool} {s : List Char} {l : List Item} (h : IsContent s l) : Fit f s → ItemsOk u l → ∃ body tail, PiecesOf u f s l body tail := by
  induction h with
  | nil => intro _ _; exact ⟨[], [], ⟨rfl, trivial, textOk_nil, by simp only [Src.nodes, ReadAll], textsAs_nil [] [] (by simp [TextsAs, Agree])⟩⟩
  | @text s t r l h1 _ h3 ih =>
    intro hc hi
    obtain ⟨body, tail, p⟩ := ih (fit_inner hc (a := s) (b := []) (by simp)) (itemsOk_cons hi).2
    have hs := (charData_kept h1).1
    cases body with
    | nil =>
      have e := p.text
      rw [Src.texts, List.nil_append] at e
      have : tail = [] := by
        rcases h3 with h3 | h3
        · rw [← e, h3]
        · rw [e] at h3
          cases tail with
          | nil => rfl
          | cons c tl =>
            simp only [List.head?_cons, Option.some.injEq] at h3
            exact absurd (by rw [h3]; exact List.mem_cons_self ..) p.tailOk.1
      subst this
      subst e
      refine ⟨[], s, ⟨by simp [Src.texts], trivial, hs, by rw [ReadAll]; exact p.reads, ?_⟩⟩
      have ht : textsOf l = [] := by
        have := p.texts
        simp only [TextsAs, List.map_nil, List.nil_append, ne_eq] at this
        rw [List.filter_cons_of_neg (by simp)] at this
        cases hl : textsOf l with
        | nil => rfl
        | cons => rw [hl] at this; exact this.elim
      rw [textsOf, ht]
      exact textsAs_cons h1 (by simp [TextsAs, Agree])
    | cons x xs =>
      obtain ⟨w, hw⟩ := withPre_text x
      have hx : x.text = x.pre ++ '<' :: w := by rw [← hw, withPre_self]
      have hpre : x.pre = [] := by
        have e := p.text
        rw [Src.texts, hx] at e
        rcases h3 with h3 | h3
        · rw [h3] at e
          have := congrArg List.length e
          simp at this
        · rw [e] at h3
          cases hp : x.pre with
          | nil => rfl
          | cons c tl =>
            rw [hp] at h3
            simp only [List.cons_append, List.head?_cons, Option.some.injEq] at h3
            have hok := p.oks.1
            have : TextOk x.pre := by cases x <;> (simp only [Src.Ok] at hok; exact hok.1)
            exact absurd (by rw [hp, h3]; exact List.mem_cons_self ..) this.1
      refine ⟨withPre s x :: xs, tail, ⟨?_, ⟨withPre_ok p.oks.1 hs, p.oks.2⟩, p.tailOk, ?_, ?_⟩⟩
      · rw [p.text, Src.texts, Src.texts, hw, hx, hpre]; simp
      · have := p.reads
        rw [ReadAll, Src.nodes, withPre_node]
        rw [Src.nodes] at this
        exact this
      · have := p.texts
        rw [List.map_cons, hpre] at this
        rw [List.map_cons, withPre_pre, textsOf]
        refine textsAs_cons h1 ?_
        simp only [TextsAs, List.cons_append] at this
        rw [List.filter_cons_of_neg (by simp)] at this
        exact this
  | @void n a kvs sp r l h1 h2 h3 h4 _ ih =>
    intro hc hi
    obtain ⟨hi1, hi2⟩ := itemsOk_cons hi
    obtain ⟨body, tail, p⟩ := ih (fit_inner hc (a := '<' :: (n ++ (a ++ (sp ++ ['/', '>'])))) (b := []) (by simp)) hi2
    obtain ⟨as, rfl, g1, g2⟩ := tag_src hi1 h2 h3 h4 (fit_inner hc (a := '<' :: n) (b := sp ++ '/' :: '>' :: r) (by simp))
    refine ⟨.void [] n as sp :: body, tail, ⟨?_, ⟨⟨textOk_nil, g1⟩, p.oks⟩, p.tailOk, ?_, ?_⟩⟩
    · rw [p.text, Src.texts, Src.text, tagText]; simp
    · rw [Src.nodes, Src.node]
      simp only [Option.toList, List.singleton_append]
      rw [ReadAll, ReadAs]
      exact ⟨⟨(String.toList_ofList).symm, g2, by simp [LastKept, textsOf], by rw [ReadAll]⟩, p.reads⟩
    · exact textsAs_nil _ _ p.texts
  | @elem n a kvs sp body cs sp' r l h1 h2 h3 h4 _ h5 _ ihb ihr =>
    intro hc hi
    obtain ⟨hi1, hi2⟩ := itemsOk_cons hi
    have hi3 : ItemsOk u cs := by rw [ItemOk] at hi1; exact hi1.2.2.2
    obtain ⟨bb, bt, pb⟩ := ihb (fit_inner hc (a := '<' :: (n ++ (a ++ (sp ++ ['>'])))) (b := '<' :: '/' :: (n ++ (sp' ++ '>' :: r))) (by simp)) hi3
    obtain ⟨rb, rt, pr⟩ := ihr (fit_inner hc (a := '<' :: (n ++ (a ++ (sp ++ '>' :: (body ++ '<' :: '/' :: (n ++ (sp' ++ ['>']))))))) (b := []) (by simp)) hi2
    obtain ⟨as, rfl, g1, g2⟩ := tag_src hi1 h2 h3 h4 (fit_inner hc (a := '<' :: n) (b := sp ++ '>' :: (body ++ '<' :: '/' :: (n ++ (sp' ++ '>' :: r)))) (by simp))
    refine ⟨.elem [] n as sp bb bt sp' :: rb, rt, ⟨?_, ⟨⟨textOk_nil, g1, pb.oks, pb.tailOk, blank_of h5⟩, pr.oks⟩, pr.tailOk, ?_, ?_⟩⟩
    · rw [pb.text, pr.text, Src.texts, Src.text, tagText]; simp
    · rw [Src.nodes, Src.node]
      simp only [Option.toList, List.singleton_append]
      rw [ReadAll, ReadAs]
      exact ⟨⟨(String.toList_ofList).symm, g2, lastText_kept pb.texts, pb.reads⟩, pr.reads⟩
    · exact textsAs_nil _ _ pr.texts
  | @comment s r l h1 _ ih =>
    intro hc hi
    obtain ⟨body, tail, p⟩ := ih (fit_inner hc (a := s) (b := []) (by simp)) hi
    obtain ⟨t, rfl, _, k2, k3⟩ := h1
    refine ⟨.comment [] t :: body, tail, ⟨?_, ⟨⟨textOk_nil, k2, k3⟩, p.oks⟩, p.tailOk, ?_, textsAs_nil _ _ p.texts⟩⟩
    · rw [p.text, Src.texts, Src.text]; simp
    · simp only [Src.nodes, Src.node]; exact p.reads
  | @pi s r l h1 _ ih =>
    intro hc hi
    obtain ⟨body, tail, p⟩ := ih (fit_inner hc (a := s) (b := []) (by simp)) hi
    obtain ⟨n, t, rfl, k1, _, _, _, k5⟩ := h1
    refine ⟨.pi [] (n ++ t) :: body, tail, ⟨?_, ⟨⟨textOk_nil, pi_inside k1 k5⟩, p.oks⟩, p.tailOk, ?_, textsAs_nil _ _ p.texts⟩⟩
    · rw [p.text, Src.texts, Src.text]; simp
    · simp only [Src.nodes, Src.node]; exact p.reads
  | @cdata s t r l h1 _ ih =>
    intro hc _
    obtain ⟨raw, rfl, _⟩ := h1
    exact absurd (by simp) (hc.1 [] (raw ++ ("]]>".toList ++ r)))

/-! ## Around the root -/

theorem textOk_blank {s : List Char} (h : Blank s) : TextOk s := by
  refine ⟨fun hm => ?_, [], ?_⟩
  · have := h _ hm; revert this; decide
  · rw [blank_trim h]; rfl

/-- Comments, processing instructions and white space as pieces. -/
structure Around (u : Unicode) (s : List Char) (ss : List Src) (fin : List Char) : Prop where
  text : s = Src.texts ss ++ fin
  oks : Src.Oks u ss
  misc : ∀ x ∈ ss, Misc x
  blank : Blank fin

theorem blank_cons {c : Char} (h : White c) {s : List Char} (hs : Blank s) : Blank (c :: s) := by
  intro x hx
  rcases List.mem_cons.mp hx with rfl | hx
  · exact (C69_white _).mpr h
  · exact hs x hx

theorem blank_nil : Blank [] := fun _ h => nomatch h

theorem misc_pre {x : Src} (h : Misc x) : Blank x.pre := by cases x <;> first | exact h | exact h.elim
theorem misc_withPre {x : Src} (h : Misc x) {p : List Char} (hp : Blank p) : Misc (withPre p x) := by cases x <;> first | exact hp | exact h.elim

theorem around_of {u : Unicode} {s : List Char} (h : IsMisc s) : ∃ ss fin, Around u s ss fin := by
  induction h with
  | nil => exact ⟨[], [], ⟨rfl, trivial, (fun _ h => nomatch h), blank_nil⟩⟩
  | @white c r h1 _ ih =>
    obtain ⟨ss, fin, a⟩ := ih
    cases ss with
    | nil =>
      refine ⟨[], c :: fin, ⟨?_, trivial, (fun _ h => nomatch h), blank_cons h1 a.blank⟩⟩
      rw [a.text]; rfl
    | cons x xs =>
      obtain ⟨w, hw⟩ := withPre_text x
      have hx : x.text = x.pre ++ '<' :: w := by rw [← hw, withPre_self]
      have hm := a.misc x (List.mem_cons_self ..)
      have hb : Blank (c :: x.pre) := blank_cons h1 (misc_pre hm)
      refine ⟨withPre (c :: x.pre) x :: xs, fin, ⟨?_, ⟨withPre_ok a.oks.1 (textOk_blank hb), a.oks.2⟩, fun y hy => ?_, a.blank⟩⟩
      · rw [a.text, Src.texts, Src.texts, hw, hx]; rfl
      · rcases List.mem_cons.mp hy with rfl | hy
        · exact misc_withPre hm hb
        · exact a.misc y (List.mem_cons_of_mem _ hy)
  | @comment s r h1 _ ih =>
    obtain ⟨ss, fin, a⟩ := ih
    obtain ⟨t, rfl, _, k2, k3⟩ := h1
    refine ⟨.comment [] t :: ss, fin, ⟨?_, ⟨⟨textOk_nil, k2, k3⟩, a.oks⟩, fun y hy => ?_, a.blank⟩⟩
    · rw [a.text, Src.texts, Src.text]; simp
    · rcases List.mem_cons.mp hy with rfl | hy
      · exact blank_nil
      · exact a.misc y hy
  | @pi s r h1 _ ih =>
    obtain ⟨ss, fin, a⟩ := ih
    obtain ⟨n, t, rfl, k1, _, _, _, k5⟩ := h1
    refine ⟨.pi [] (n ++ t) :: ss, fin, ⟨?_, ⟨⟨textOk_nil, pi_inside k1 k5⟩, a.oks⟩, fun y hy => ?_, a.blank⟩⟩
    · rw [a.text, Src.texts, Src.text]; simp
    · rcases List.mem_cons.mp hy with rfl | hy
      · exact blank_nil
      · exact a.misc y hy

theorem standsFor_q {s t : List Char} (h : StandsFor s t) (hq : '?' ∈ s) : '?' ∈ t := by
  obtain ⟨ws, rfl, rfl, h3⟩ := h
  obtain ⟨w, hw, hm⟩ := List.mem_flatMap.mp hq
  rcases written_text (h3 w hw) with ⟨e, _⟩ | ⟨_, e⟩
  · rw [e] at hm
    exact List.mem_map.mpr ⟨w, hw, (List.mem_singleton.mp hm).symm⟩
  · exact absurd hm e

theorem lineEnds_q {s : List Char} (h : '?' ∈ s) : '?' ∈ lineEnds s := by
  induction s using lineEnds.induct with
  | case1 => cases h
  | case2 s ih =>
    rw [lineEnds.eq_def]
    simp only [List.mem_cons] at h
    rcases h with h | h | h
    · exact absurd h (by decide)
    · exact absurd h (by decide)
    · exact List.mem_cons_of_mem _ (ih h)
  | case3 s hs ih =>
    have e : lineEnds ('\r' :: s) = '\n' :: lineEnds s := by
      rw [lineEnds.eq_def]
      split
      · rename_i e; cases e
      · rename_i e; exact absurd (List.cons.inj e).2 (hs _)
      · rename_i e; rw [(List.cons.inj e).2]
      · rename_i hx e; exact (hx (List.cons.inj e).1.symm).elim
    rw [e]
    rcases List.mem_cons.mp h with h | h
    · exact absurd h (by decide)
    · exact List.mem_cons_of_mem _ (ih h)
  | case4 c s h1 h2 ih =>
    rw [lineEnds_cons (fun e => h2 e)]
    rcases List.mem_cons.mp h with rfl | h
    · exact List.mem_cons_self ..
    · exact List.mem_cons_of_mem _ (ih h)

theorem whites_q {s : List Char} (h : Whites s) : '?' ∉ s := by
  intro hm
  rcases h _ hm with h | h | h | h <;> (revert h; decide)

theorem attr_q {s : List Char} {kv : List Char × List Char} (h : IsAttr s kv) (hk : '?' ∉ kv.2) : '?' ∉ s := by
  obtain ⟨sep, l, r, q, raw, rfl, h1, h2, h3, h4, h5, h6, h7, h8, h9, h10, h11⟩ := h
  have hq : q ≠ '?' := by rcases h6 with rfl | rfl <;> decide
  have hn : '?' ∉ kv.1 := fun hm => (nameChar_not (name_chars h3 _ hm)).2.2.2.2.1 rfl
  have hr : '?' ∉ raw := fun hm => hk (standsFor_q h10 (List.mem_map.mpr ⟨'?', lineEnds_q hm, by decide⟩))
  have := whites_q h1
  have := whites_q h4
  have := whites_q h5
  simp [*, Ne.symm hq]

theorem attrs_q {s : List Char} {kvs : List (List Char × List Char)} (h : IsAttrs s kvs) (hk : ∀ kv ∈ kvs, '?' ∉ kv.2) : '?' ∉ s := by
  induction h with
  | nil => simp
  | cons h1 _ ih =>
    intro hm
    rcases List.mem_append.mp hm with hm | hm
    · exact attr_q h1 (hk _ (List.mem_cons_self ..)) hm
    · exact ih (fun x hx => hk x (List.mem_cons_of_mem _ hx)) hm

theorem declaration_src {u : Unicode} {s : List Char} (h : IsDeclaration s) : ∃ x : Src, s = x.text ∧ x.Ok u ∧ Misc x := by
  obtain ⟨a, kvs, sp, rfl, h1, h2, h3⟩ := h
  have hk : ∀ kv ∈ kvs, '?' ∉ kv.2 := by
    clear h1
    revert kvs
    decide
  have ha := attrs_q h1 hk
  have hs := whites_q h2
  refine ⟨.pi [] ("xml".toList ++ (a ++ sp)), by rw [Src.text]; simp, ⟨textOk_nil, by simp, fun l r e => ?_⟩, blank_nil⟩
  have : '?' ∈ "xml".toList ++ (a ++ sp) := by rw [e]; simp
  simp only [List.mem_append] at this
  rcases this with h | h | h
  · revert h; decide
  · exact ha h
  · exact hs h

/-- The root of a content that is one element with something in it. -/
theorem root_of_content {s : List Char} {l : List Item} (h : IsContent s l) {n : List Char} {kvs : List (List Char × List Char)} {cs : List Item}
    (e : l = [.elem n kvs cs]) (hne : cs ≠ []) : ∃ m1 a sp body sp' m2, s = m1 ++ ('<' :: (n ++ (a ++ (sp ++ '>' :: (body ++ '<' :: '/' :: (n ++ (sp' ++ ['>'])))))) ++ m2) ∧
      IsMisc m1 ∧ IsMisc m2 ∧ XmlName n ∧ IsAttrs a kvs ∧ (kvs.map Prod.fst).Nodup ∧ Whites sp ∧ IsContent body cs ∧ Whites sp' := by
  induction h with
  | nil => cases e
  | comment h1 _ ih =>
    obtain ⟨m1, a, sp, body, sp', m2, rfl, g1, g⟩ := ih e
    exact ⟨_ ++ m1, a, sp, body, sp', m2, by simp only [List.append_assoc], .comment h1 g1, g⟩
  | pi h1 _ ih =>
    obtain ⟨m1, a, sp, body, sp', m2, rfl, g1, g⟩ := ih e
    exact ⟨_ ++ m1, a, sp, body, sp', m2, by simp only [List.append_assoc], .pi h1 g1, g⟩
  | text => cases e
  | cdata => cases e
  | void =>
    simp only [List.cons.injEq, Item.elem.injEq] at e
    exact absurd e.1.2.2.symm hne
  | @elem n' a kvs' sp body cs' sp' r l h1 h2 h3 h4 hb h5 hr _ _ =>
    simp only [List.cons.injEq, Item.elem.injEq] at e
    obtain ⟨⟨rfl, rfl, rfl⟩, rfl⟩ := e
    exact ⟨[], a, sp, body, sp', r, by simp, .nil, misc_of_content hr rfl, h1, h2, h3, h4, hb, h5⟩

theorem oks_append {u : Unicode} {a b : List Src} (h1 : Src.Oks u a) (h2 : Src.Oks u b) : Src.Oks u (a ++ b) := by
  rw [oks_iff] at *
  intro s hs
  rcases List.mem_append.mp hs with h | h
  · exact h1 s h
  · exact h2 s h

theorem texts_append (a b : List Src) : Src.texts (a ++ b) = Src.texts a ++ Src.texts b := by
  induction a with
  | nil => rfl
  | cons x a ih => rw [List.cons_append, Src.texts, Src.texts, ih, List.append_assoc]

/-- A well-formed document with something in its root is read. -/
theorem reads_document {u : Unicode} {f : Bool} {s n : List Char} {kvs : List (List Char × List Char)} {cs : List Item} (h : IsDocument s (.elem n kvs cs)) (hne : cs ≠ [])
    (hc : Fit f s) (hi : ItemOk u (.elem n kvs cs)) : ∃ d r, readXml u s = .ok d ∧ Reachable u d ∧ d.toXDoc.root = some r ∧ ReadAs f r (.elem n kvs cs) := by
  obtain ⟨decl, before, body, after, rfl, hd, hb, hbody, _, ha⟩ := h
  obtain ⟨m1, a, sp, inner, sp', m2, rfl, g1, g2, g3, g4, g5, g6, g7, g8⟩ := root_of_content hbody rfl hne
  obtain ⟨as, rfl, k1, k2⟩ := tag_src hi g4 g5 g6 (fit_inner hc (a := decl ++ (before ++ (m1 ++ '<' :: n)))
    (b := (sp ++ '>' :: (inner ++ '<' :: '/' :: (n ++ (sp' ++ ['>'])))) ++ (m2 ++ after)) (by simp))
  have hi3 : ItemsOk u cs := by rw [ItemOk] at hi; exact hi.2.2.2
  obtain ⟨bb, bt, pb⟩ := pieces_of (u := u) g7 (fit_inner hc (a := decl ++ (before ++ (m1 ++ ('<' :: (n ++ (as.flatMap SAttr.text ++ (sp ++ ['>'])))))))
    (b := ('<' :: '/' :: (n ++ (sp' ++ ['>']))) ++ (m2 ++ after)) (by simp)) hi3
  obtain ⟨bs, bf, pbs⟩ := around_of (u := u) (misc_append hb g1)
  obtain ⟨es, ef, pes⟩ := around_of (u := u) (misc_append g2 ha)
  obtain ⟨ds, hds, hdo, hdm⟩ : ∃ ds : List Src, decl = Src.texts ds ∧ Src.Oks u ds ∧ ∀ x ∈ ds, Misc x := by
    rcases hd with rfl | hd
    · exact ⟨[], rfl, trivial, (fun _ h => nomatch h)⟩
    · obtain ⟨x, rfl, h1, h2⟩ := declaration_src (u := u) hd
      exact ⟨[x], by simp [Src.texts], ⟨h1, trivial⟩, by simp [h2]⟩
  let x : SDoc := { before := ds ++ bs, root := .elem bf n as sp bb bt sp', after := es, final := ef }
  have hx : x.Ok u := {
    before := ⟨oks_append hdo pbs.oks, fun y hy => (List.mem_append.mp hy).elim (hdm y) (pbs.misc y)⟩
    root := ⟨⟨textOk_blank pbs.blank, k1, pb.oks, pb.tailOk, blank_of g8⟩, pbs.blank⟩
    isElem := ⟨_, _, _, _, _, _, _, rfl⟩
    after := ⟨pes.oks, pes.misc⟩
    final := pes.blank }
  obtain ⟨d, h1, h2, h3⟩ := C69_reads u x hx
  have ht : x.text = decl ++ (before ++ (m1 ++ ('<' :: (n ++ (as.flatMap SAttr.text ++ (sp ++ '>' :: (inner ++ '<' :: '/' :: (n ++ (sp' ++ ['>'])))))) ++ m2) ++ after)) := by
    have e1 := pbs.text
    have e2 := pes.text
    calc x.text = Src.texts ds ++ ((Src.texts bs ++ bf) ++ ('<' :: (tagText n as sp ++ '>' :: ((Src.texts bb ++ bt) ++ '<' :: '/' :: (n ++ (sp' ++ ['>'])))) ++ (Src.texts es ++ ef))) := by
          simp [SDoc.text, x, Src.text, texts_append]
      _ = _ := by rw [← e1, ← e2, ← pb.text, ← hds]; simp [tagText]
  rw [ht] at h1
  refine ⟨d, _, h1, h2, h3, ?_⟩
  rw [ReadAs]
  exact ⟨(String.toList_ofList).symm, k2, lastText_kept pb.texts, pb.reads⟩

end Oxml
