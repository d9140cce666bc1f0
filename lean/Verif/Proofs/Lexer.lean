import Verif.Proofs.Escape
import Verif.Proofs.Maps
import Verif.Spec.Render
/-!
# Lexing what the writer wrote
-/
namespace Oxml

/-- Characters that cannot end or structure a tag. -/
def SafeChar (c : Char) : Prop :=
  c ≠ '<' ∧ c ≠ '>' ∧ c ≠ '/' ∧ c ≠ '"' ∧ c ≠ '\'' ∧ c ≠ '=' ∧ c ≠ '!' ∧ c ≠ '?' ∧ isXmlSpace c = false

theorem safeChar_of_nameChar {u : Unicode} {c : Char} (h : isNameChar u c = true) : SafeChar c := by
  refine ⟨?_, ?_, ?_, ?_, ?_, ?_, ?_, ?_, ?_⟩
  all_goals first
    | (rintro rfl; exact absurd h (by simp [isNameChar, isNameStartChar, isAlphabetic]; try decide))
    | skip
  cases hs : isXmlSpace c with
  | false => rfl
  | true =>
    unfold isXmlSpace at hs
    simp only [Bool.or_eq_true, decide_eq_true_eq] at hs
    rcases hs with ((rfl | rfl) | rfl) | rfl <;>
      exact absurd h (by simp [isNameChar, isNameStartChar, isAlphabetic]; try decide)

theorem nameTailOk_chars {u : Unicode} {cs : List Char} {n : Nat} (h : nameTailOk u cs n = true) :
    ∀ c ∈ cs, isNameChar u c = true := by
  induction cs generalizing n with
  | nil => simp
  | cons x xs ih =>
    intro c hc
    unfold nameTailOk at h
    split at h
    · rename_i hx; subst hx
      split at h
      · cases h
      · rcases List.mem_cons.mp hc with rfl | hc
        · simp [isNameChar]
        · exact ih h c hc
    · split at h
      · cases h
      · rename_i hx
        rcases List.mem_cons.mp hc with rfl | hc
        · simpa using hx
        · exact ih h c hc

theorem validName_chars {u : Unicode} {n : String} (h : isValidXmlName u n = true) :
    n.toList ≠ [] ∧ ∀ c ∈ n.toList, isNameChar u c = true := by
  unfold isValidXmlName at h
  split at h
  · cases h
  · rename_i c cs hl
    rw [hl]
    split at h
    · cases h
    · rename_i hc
      refine ⟨by simp, ?_⟩
      intro x hx
      rcases List.mem_cons.mp hx with rfl | hx
      · simp at hc; simp [isNameChar, hc]
      · exact nameTailOk_chars h x hx

theorem validName_safe {u : Unicode} {n : String} (h : isValidXmlName u n = true) :
    n.toList ≠ [] ∧ ∀ c ∈ n.toList, SafeChar c :=
  ⟨(validName_chars h).1, fun c hc => safeChar_of_nameChar ((validName_chars h).2 c hc)⟩

/-! ### Quote tracking inside a tag -/

/-- Quote state after one character. -/
def qstep (q : Option Char) (c : Char) : Option Char :=
  match q with
  | none => if c = '"' ∨ c = '\'' then some c else none
  | some x => if c = x then none else some x

/-- No `>` outside quotes. -/
def okTag : Option Char → List Char → Prop
  | _, [] => True
  | q, c :: cs => (q = none → c ≠ '>') ∧ okTag (qstep q c) cs

theorem okTag_append (q : Option Char) (a b : List Char) :
    okTag q (a ++ b) ↔ okTag q a ∧ okTag (a.foldl qstep q) b := by
  induction a generalizing q with
  | nil => simp [okTag]
  | cons x xs ih => simp [okTag, ih, and_assoc]

theorem lexFrom_tag (q : Option Char) (acc content rest : List Char) (h : okTag q content) :
    lexFrom (.tag q acc) (content ++ rest) = lexFrom (.tag (content.foldl qstep q) (content.reverse ++ acc)) rest := by
  induction content generalizing q acc with
  | nil => rfl
  | cons c cs ih =>
    obtain ⟨h1, h2⟩ := h
    simp only [List.cons_append, List.foldl_cons, List.reverse_cons, List.append_assoc]
    simp only [List.cons_append, List.nil_append]
    rw [← ih _ _ h2]
    cases q with
    | none => rw [lexFrom, if_neg (h1 rfl)]; rfl
    | some x => rw [lexFrom]; rfl

/-- Characters neutral outside quotes. -/
def Neutral (c : Char) : Prop := c ≠ '>' ∧ c ≠ '"' ∧ c ≠ '\''

theorem neutral_ok {l : List Char} (h : ∀ c ∈ l, Neutral c) : okTag none l ∧ l.foldl qstep none = none := by
  induction l with
  | nil => simp [okTag]
  | cons c cs ih =>
    obtain ⟨h1, h2, h3⟩ := h c (by simp)
    have hq : qstep none c = none := by simp [qstep, h2, h3]
    simp only [okTag, List.foldl_cons, hq]
    have := ih (fun x hx => h x (by simp [hx]))
    exact ⟨⟨fun _ => h1, this.1⟩, this.2⟩

theorem quoted_ok {l : List Char} (h : ∀ c ∈ l, c ≠ '"') : okTag (some '"') l ∧ l.foldl qstep (some '"') = some '"' := by
  induction l with
  | nil => simp [okTag]
  | cons c cs ih =>
    have h1 := h c (by simp)
    have hq : qstep (some '"') c = some '"' := by simp [qstep, h1]
    simp only [okTag, List.foldl_cons, hq]
    have := ih (fun x hx => h x (by simp [hx]))
    exact ⟨⟨(by intro h; cases h), this.1⟩, this.2⟩

/-! ### Attribute pairs -/

/-- `key="value"`. -/
def pairText (kv : List Char × List Char) : List Char := kv.1 ++ '=' :: '"' :: kv.2 ++ ['"']

/-- A pair the attribute iterator reads back. -/
def GoodPair (kv : List Char × List Char) : Prop :=
  kv.1 ≠ [] ∧ (∀ c ∈ kv.1, SafeChar c) ∧ (∀ c ∈ kv.2, c ≠ '"') ∧ badBinding kv = false

theorem pairText_ok {kv : List Char × List Char} (h : GoodPair kv) :
    okTag none (pairText kv) ∧ (pairText kv).foldl qstep none = none := by
  obtain ⟨_, h1, h2, _⟩ := h
  have hk := neutral_ok (l := kv.1) (fun c hc => ⟨(h1 c hc).2.1, (h1 c hc).2.2.2.1, (h1 c hc).2.2.2.2.1⟩)
  have hv := quoted_ok h2
  unfold pairText
  rw [show kv.1 ++ '=' :: '"' :: kv.2 ++ ['"'] = kv.1 ++ (['=', '"'] ++ (kv.2 ++ ['"'])) by simp]
  have hq2 : ['=', '"'].foldl qstep none = some '"' := by decide
  have hq3 : ['"'].foldl qstep (some '"') = none := by decide
  constructor
  · rw [okTag_append, okTag_append, okTag_append, hk.2, hq2, hv.2]
    refine ⟨hk.1, ?_, hv.1, ?_⟩ <;> simp [okTag, qstep]
  · rw [List.foldl_append, List.foldl_append, List.foldl_append, hk.2, hq2, hv.2, hq3]

theorem joinPairs_ok {ps : List (List Char × List Char)} (h : ∀ p ∈ ps, GoodPair p) :
    okTag none (joinSpace (ps.map pairText)) ∧ (joinSpace (ps.map pairText)).foldl qstep none = none := by
  induction ps with
  | nil => simp [joinSpace, okTag]
  | cons p ps ih =>
    have hp := pairText_ok (h p (by simp))
    have := ih (fun x hx => h x (by simp [hx]))
    cases ps with
    | nil => simpa [joinSpace] using hp
    | cons p' ps' =>
      simp only [List.map_cons, joinSpace] at *
      rw [okTag_append, List.foldl_append, hp.2]
      have hsp : qstep none ' ' = none := by decide
      simp only [okTag, List.foldl_cons, hsp]
      exact ⟨⟨hp.1, by decide, this.1⟩, this.2⟩

theorem parseAttrs_key (acc k rest : List Char) (h : ∀ c ∈ k, SafeChar c) :
    parseAttrs (.key acc) (k ++ rest) = parseAttrs (.key (k.reverse ++ acc)) rest := by
  induction k generalizing acc with
  | nil => rfl
  | cons c cs ih =>
    have hc := h c (by simp)
    simp only [List.cons_append]
    rw [parseAttrs, if_neg hc.2.2.2.2.2.1, if_neg (by simp [hc.2.2.2.2.2.2.2.2]), ih _ (fun x hx => h x (by simp [hx]))]
    simp

theorem parseAttrs_value (k acc v rest : List Char) (h : ∀ c ∈ v, c ≠ '"') :
    parseAttrs (.value k '"' acc) (v ++ rest) = parseAttrs (.value k '"' (v.reverse ++ acc)) rest := by
  induction v generalizing acc with
  | nil => rfl
  | cons c cs ih =>
    simp only [List.cons_append]
    rw [parseAttrs, if_neg (h c (by simp)), ih _ (fun x hx => h x (by simp [hx]))]
    simp

theorem parseAttrs_pair {kv : List Char × List Char} (h : GoodPair kv) (rest : List Char) :
    parseAttrs .skip (pairText kv ++ rest) = (parseAttrs .skip rest).map (kv :: ·) := by
  obtain ⟨hne, h1, h2, _⟩ := h
  obtain ⟨k, v⟩ := kv
  cases k with
  | nil => exact absurd rfl hne
  | cons c k =>
    have hc := h1 c (by simp)
    unfold pairText
    simp only [List.cons_append, List.append_assoc]
    rw [parseAttrs, if_neg (by simp [hc.2.2.2.2.2.2.2.2]), parseAttrs_key _ _ _ (fun x hx => h1 x (by simp [hx]))]
    rw [parseAttrs, if_pos rfl, parseAttrs, if_neg (by decide), if_pos (by decide), parseAttrs_value _ _ _ _ h2]
    simp only [List.nil_append, List.append_nil]
    rw [parseAttrs, if_pos rfl]
    simp only [List.reverse_append, List.reverse_reverse, List.reverse_cons, List.reverse_nil, List.nil_append]
    cases parseAttrs .skip rest <;> rfl

theorem parseAttrs_space (rest : List Char) : parseAttrs .skip (' ' :: rest) = parseAttrs .skip rest := by
  rw [parseAttrs, if_pos (by decide)]

theorem parseAttrs_join {ps : List (List Char × List Char)} (h : ∀ p ∈ ps, GoodPair p) (rest : List Char) :
    parseAttrs .skip (joinSpace (ps.map pairText) ++ rest) = (parseAttrs .skip rest).map (ps ++ ·) := by
  induction ps with
  | nil => simp only [List.map_nil, joinSpace, List.nil_append]; cases parseAttrs .skip rest <;> rfl
  | cons p ps ih =>
    have := ih (fun x hx => h x (by simp [hx]))
    cases ps with
    | nil =>
      simp only [List.map_cons, List.map_nil, joinSpace]
      rw [parseAttrs_pair (h p (by simp))]
      rfl
    | cons p' ps' =>
      simp only [List.map_cons, joinSpace, List.append_assoc, List.cons_append] at *
      rw [parseAttrs_pair (h p (by simp)), parseAttrs_space, this]
      cases parseAttrs .skip rest <;> rfl

/-! ### Whole tags -/

/-- Pair read for a namespace entry. -/
def nsPair (kv : String × String) : List Char × List Char :=
  (if kv.1 = defaultNsKey then "xmlns".toList else "xmlns:".toList ++ kv.1.toList, kv.2.toList)

/-- Pair read for an attribute. -/
def attrPair (kv : String × String) : List Char × List Char := (kv.1.toList, escape kv.2.toList)

theorem nsText_eq (kv : String × String) : nsText kv = pairText (nsPair kv) := by
  unfold nsText pairText nsPair
  split
  · simp
  · simp

theorem attrText_eq (kv : String × String) : attrText kv = pairText (attrPair kv) := by
  simp [attrText, pairText, attrPair]

/-- Pairs written in an opening tag. -/
def tagPairs (b : Build) (attrs ns : Option Attrs) : List (List Char × List Char) :=
  (match ns with
    | some m => (releaseNs b m).map nsPair
    | none => []) ++
  (match attrs with
    | some a => (sortAttrs a).map attrPair
    | none => [])

/-- Text between the tag name and the end of an opening tag. -/
def tagMiddle (b : Build) (attrs ns : Option Attrs) : List Char :=
  (match ns with
    | some m => ' ' :: joinSpace (((releaseNs b m).map nsPair).map pairText)
    | none => []) ++
  (match attrs with
    | some a => ' ' :: joinSpace (((sortAttrs a).map attrPair).map pairText)
    | none => [])

theorem openTag_eq (b : Build) (tag : String) (attrs ns : Option Attrs) (close : Bool) :
    openTag b tag attrs ns close =
      '<' :: (tag.toList ++ (tagMiddle b attrs ns ++ (if close then [' ', '/', '>'] else [' ', '>']))) := by
  unfold openTag tagMiddle
  have h1 : ∀ m : Attrs, m.map nsText = (m.map nsPair).map pairText := by
    intro m; rw [List.map_map]; exact List.map_congr_left (fun x _ => nsText_eq x)
  have h2 : ∀ m : Attrs, m.map attrText = (m.map attrPair).map pairText := by
    intro m; rw [List.map_map]; exact List.map_congr_left (fun x _ => attrText_eq x)
  cases attrs <;> cases ns <;> cases close <;> simp [h1, h2]

theorem tagMiddle_ok {b : Build} {attrs ns : Option Attrs} (h : ∀ p ∈ tagPairs b attrs ns, GoodPair p) :
    okTag none (tagMiddle b attrs ns) ∧ (tagMiddle b attrs ns).foldl qstep none = none := by
  unfold tagMiddle
  unfold tagPairs at h
  have hsp : qstep none ' ' = none := by decide
  have key : ∀ ps : List (List Char × List Char), (∀ p ∈ ps, GoodPair p) →
      okTag none (' ' :: joinSpace (ps.map pairText)) ∧ (' ' :: joinSpace (ps.map pairText)).foldl qstep none = none := by
    intro ps hps
    have := joinPairs_ok hps
    simp only [okTag, List.foldl_cons, hsp]
    exact ⟨⟨by decide, this.1⟩, this.2⟩
  have hnil : okTag none [] ∧ ([] : List Char).foldl qstep none = none := ⟨trivial, rfl⟩
  rw [okTag_append, List.foldl_append]
  cases ns with
  | none =>
    simp only [List.foldl_nil]
    cases attrs with
    | none => exact ⟨⟨trivial, trivial⟩, rfl⟩
    | some a => exact ⟨⟨trivial, (key _ (fun p hp => h p (by simpa using hp))).1⟩, (key _ (fun p hp => h p (by simpa using hp))).2⟩
  | some m =>
    have hm := key ((releaseNs b m).map nsPair) (fun p hp => h p (List.mem_append_left _ hp))
    rw [hm.2]
    cases attrs with
    | none => exact ⟨⟨hm.1, trivial⟩, rfl⟩
    | some a =>
      have ha := key ((sortAttrs a).map attrPair) (fun p hp => h p (List.mem_append_right _ hp))
      exact ⟨⟨hm.1, ha.1⟩, ha.2⟩

theorem parseAttrs_middle {b : Build} {attrs ns : Option Attrs} (h : ∀ p ∈ tagPairs b attrs ns, GoodPair p) :
    parseAttrs .skip (tagMiddle b attrs ns ++ [' ']) = .ok (tagPairs b attrs ns) := by
  unfold tagMiddle
  unfold tagPairs at h ⊢
  have hend : parseAttrs .skip [' '] = .ok [] := by decide
  cases ns with
  | none =>
    cases attrs with
    | none => exact hend
    | some a =>
      simp only [List.nil_append, List.cons_append]
      rw [parseAttrs_space, parseAttrs_join (fun p hp => h p (by simpa using hp)), hend]
      simp [Except.map]
  | some m =>
    have hm : ∀ p ∈ (releaseNs b m).map nsPair, GoodPair p := fun p hp => h p (List.mem_append_left _ hp)
    cases attrs with
    | none =>
      simp only [List.append_nil, List.cons_append]
      rw [parseAttrs_space, parseAttrs_join hm, hend]
      simp [Except.map]
    | some a =>
      have ha : ∀ p ∈ (sortAttrs a).map attrPair, GoodPair p := fun p hp => h p (List.mem_append_right _ hp)
      simp only [List.cons_append, List.append_assoc]
      rw [parseAttrs_space, parseAttrs_join hm, parseAttrs_space, parseAttrs_join ha, hend]
      simp [Except.map]

theorem takeWhile_name {n r : List Char} (h : ∀ c ∈ n, SafeChar c) :
    (n ++ ' ' :: r).takeWhile (fun c => !isXmlSpace c) = n ∧
    (n ++ ' ' :: r).dropWhile (fun c => !isXmlSpace c) = ' ' :: r := by
  induction n with
  | nil => simp [isXmlSpace]
  | cons c cs ih =>
    have hc := (h c (by simp)).2.2.2.2.2.2.2.2
    have := ih (fun x hx => h x (by simp [hx]))
    simp [hc, this]

theorem middle_space (b : Build) (attrs ns : Option Attrs) : ∃ r, tagMiddle b attrs ns ++ [' '] = ' ' :: r := by
  unfold tagMiddle
  cases ns with
  | none => cases attrs with
    | none => exact ⟨_, rfl⟩
    | some a => exact ⟨_, rfl⟩
  | some m => exact ⟨_, rfl⟩

theorem hasDup_false {l : List (List Char)} (h : l.Nodup) : hasDup l = false := by
  induction l with
  | nil => rfl
  | cons x xs ih =>
    obtain ⟨h1, h2⟩ := List.nodup_cons.mp h
    simp [hasDup, ih h2, h1]

theorem parseTag_open {b : Build} {tag : String} {attrs ns : Option Attrs} (ht : ∀ c ∈ tag.toList, SafeChar c)
    (h : ∀ p ∈ tagPairs b attrs ns, GoodPair p) (hd : ((tagPairs b attrs ns).map Prod.fst).Nodup) :
    parseTag (tag.toList ++ (tagMiddle b attrs ns ++ [' '])) = .ok (tag.toList, tagPairs b attrs ns) := by
  obtain ⟨r, hr⟩ := middle_space b attrs ns
  unfold parseTag
  rw [hr, (takeWhile_name ht).1, (takeWhile_name ht).2, ← hr, parseAttrs_middle h]
  have hb : (tagPairs b attrs ns).any badBinding = false := by
    rw [List.any_eq_false]
    intro p hp
    simp [(h p hp).2.2.2]
  simp [bind, Except.bind, hasDup_false hd, hb]

/-- The token of an opening tag. -/
def openToken (b : Build) (tag : String) (attrs ns : Option Attrs) (close : Bool) : Token :=
  if close then .empty tag.toList (tagPairs b attrs ns) else .start tag.toList (tagPairs b attrs ns)

theorem tagToken_open {b : Build} {tag : String} {attrs ns : Option Attrs} {close : Bool}
    (ht : ∀ c ∈ tag.toList, SafeChar c)
    (h : ∀ p ∈ tagPairs b attrs ns, GoodPair p) (hd : ((tagPairs b attrs ns).map Prod.fst).Nodup) :
    tagToken (tag.toList ++ (tagMiddle b attrs ns ++ (if close then [' ', '/'] else [' ']))) =
      .ok (openToken b tag attrs ns close) := by
  unfold tagToken openToken
  cases close with
  | true =>
    have hl : (tag.toList ++ (tagMiddle b attrs ns ++ [' ', '/'])) =
        (tag.toList ++ (tagMiddle b attrs ns ++ [' '])) ++ ['/'] := by simp
    simp only [if_true]
    rw [hl]
    simp only [List.getLast?_append, List.getLast?_singleton, List.dropLast_concat]
    rw [if_pos (by simp), parseTag_open ht h hd]
    rfl
  | false =>
    simp only [Bool.false_eq_true, if_false]
    rw [if_neg, parseTag_open ht h hd]
    · rfl
    · simp [List.getLast?_append]

/-- Lexing an opening tag, whatever follows. -/
theorem lex_openTag {b : Build} {tag : String} {attrs ns : Option Attrs} {close : Bool}
    (hne : tag.toList ≠ []) (ht : ∀ c ∈ tag.toList, SafeChar c)
    (h : ∀ p ∈ tagPairs b attrs ns, GoodPair p) (hd : ((tagPairs b attrs ns).map Prod.fst).Nodup) (rest : List Char) :
    lexFrom (.text []) (openTag b tag attrs ns close ++ rest) =
      (lexFrom (.text []) rest).map (openToken b tag attrs ns close :: ·) := by
  rw [openTag_eq]
  cases htl : tag.toList with
  | nil => exact absurd htl hne
  | cons c cs =>
    have hc : SafeChar c := ht c (by rw [htl]; simp)
    have hcs : ∀ x ∈ cs, SafeChar x := fun x hx => ht x (by rw [htl]; simp [hx])
    obtain ⟨hc1, hc2, hc3, hc4, hc5, hc6, hc7, hc8, hc9⟩ := hc
    simp only [List.cons_append, List.append_assoc]
    rw [lexFrom, if_pos rfl, lexFrom, if_neg hc3, if_neg hc8, if_neg hc7, if_neg hc2, if_neg (by simp [hc4, hc5])]
    have hclose : (if close then [' ', '/', '>'] else [' ', '>']) = (if close then [' ', '/'] else [' ']) ++ ['>'] := by
      cases close <;> rfl
    rw [hclose]
    have hname := neutral_ok (l := cs) (fun x hx => ⟨(hcs x hx).2.1, (hcs x hx).2.2.2.1, (hcs x hx).2.2.2.2.1⟩)
    have hmid := tagMiddle_ok h
    have hend : okTag none (if close then [' ', '/'] else [' ']) ∧
        (if close then [' ', '/'] else [' ']).foldl qstep none = none := by
      apply neutral_ok
      cases close <;> (intro x hx; simp at hx; rcases hx with rfl | rfl <;> simp [Neutral])
    have hok : okTag none (cs ++ (tagMiddle b attrs ns ++ (if close then [' ', '/'] else [' ']))) := by
      rw [okTag_append, okTag_append, hname.2, hmid.2]; exact ⟨hname.1, hmid.1, hend.1⟩
    have hq : (cs ++ (tagMiddle b attrs ns ++ (if close then [' ', '/'] else [' ']))).foldl qstep none = none := by
      rw [List.foldl_append, List.foldl_append, hname.2, hmid.2, hend.2]
    have hsplit : cs ++ (tagMiddle b attrs ns ++ ((if close then [' ', '/'] else [' ']) ++ (['>'] ++ rest))) =
        (cs ++ (tagMiddle b attrs ns ++ (if close then [' ', '/'] else [' ']))) ++ ('>' :: rest) := by simp
    simp only [List.append_assoc]
    rw [hsplit, lexFrom_tag _ _ _ _ hok, hq, lexFrom, if_pos rfl]
    have hcontent : ((cs ++ (tagMiddle b attrs ns ++ (if close then [' ', '/'] else [' ']))).reverse ++ [c]).reverse =
        tag.toList ++ (tagMiddle b attrs ns ++ (if close then [' ', '/'] else [' '])) := by
      rw [htl]; simp
    rw [hcontent, tagToken_open ht h hd]
    cases lexFrom (.text []) rest <;> simp [bind, Except.bind, Except.map, textToken, trimXml]

theorem lexFrom_close (acc n rest : List Char) (h : ∀ c ∈ n, SafeChar c) :
    lexFrom (.close acc) (n ++ rest) = lexFrom (.close (n.reverse ++ acc)) rest := by
  induction n generalizing acc with
  | nil => rfl
  | cons c cs ih =>
    simp only [List.cons_append]
    rw [lexFrom, if_neg (h c (by simp)).2.1, ih _ (fun x hx => h x (by simp [hx]))]
    simp

theorem lexFrom_text (acc t rest : List Char) (h : ∀ c ∈ t, c ≠ '<') :
    lexFrom (.text acc) (t ++ rest) = lexFrom (.text (t.reverse ++ acc)) rest := by
  induction t generalizing acc with
  | nil => rfl
  | cons c cs ih =>
    simp only [List.cons_append]
    rw [lexFrom, if_neg (h c (by simp)), ih _ (fun x hx => h x (by simp [hx]))]
    simp

theorem closeName_safe {n : List Char} (hne : n ≠ []) (h : ∀ c ∈ n, SafeChar c) : closeName n.reverse = n := by
  have hd : n.reverse.dropWhile isXmlSpace = n.reverse := by
    cases hr : n.reverse with
    | nil => rfl
    | cons x xs =>
      have hx : x ∈ n := by rw [← List.mem_reverse, hr]; simp
      simp [(h x hx).2.2.2.2.2.2.2.2]
  unfold closeName
  rw [hd, if_neg (by simpa using hne), List.reverse_reverse]

/-- Lexing a value and the closing tag. -/
theorem lex_valueClose {v tag : String} (hne : tag.toList ≠ []) (ht : ∀ c ∈ tag.toList, SafeChar c) (rest : List Char) :
    lexFrom (.text []) (valueClose v tag ++ rest) =
      (lexFrom (.text []) rest).map (fun r => textToken (escape v.toList).reverse ++ Token.close tag.toList :: r) := by
  have : valueClose v tag ++ rest = escape v.toList ++ ('<' :: '/' :: (tag.toList ++ ('>' :: rest))) := by
    simp [valueClose]
  rw [this, lexFrom_text _ _ _ (fun c hc => (escape_no_markup hc).1), lexFrom, if_pos rfl, lexFrom, if_pos rfl,
    lexFrom_close _ _ _ ht]
  simp only [List.append_nil]
  rw [lexFrom, if_pos rfl, closeName_safe hne ht]
  cases lexFrom (.text []) rest <;> rfl

end Oxml
