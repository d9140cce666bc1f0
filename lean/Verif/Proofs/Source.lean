import Verif.Proofs.RoundTrip
import Verif.Spec.Source
/-!
# Reading source text
-/
namespace Oxml
open Spec LTree

theorem Src.ind {P : Src → Prop}
    (he : ∀ pre name attrs sp body tail endSp, (∀ s ∈ body, P s) → P (.elem pre name attrs sp body tail endSp))
    (hv : ∀ pre name attrs sp, P (.void pre name attrs sp)) (hc : ∀ pre s, P (.comment pre s))
    (hd : ∀ pre s, P (.cdata pre s)) (hp : ∀ pre s, P (.pi pre s)) (ht : ∀ pre s, P (.doctype pre s)) : ∀ s, P s :=
  Src.rec (motive_1 := P) (motive_2 := fun ss => ∀ s ∈ ss, P s)
    (fun pre name attrs sp body tail endSp ih => he pre name attrs sp body tail endSp ih)
    hv hc hd hp ht (by simp) (fun s ss h1 h2 x hx => by
      rcases List.mem_cons.mp hx with rfl | hx
      · exact h1
      · exact h2 x hx)

theorem oks_iff {u : Unicode} {ss : List Src} : Src.Oks u ss ↔ ∀ s ∈ ss, s.Ok u := by
  induction ss with
  | nil => simp [Src.Oks]
  | cons s ss ih => simp [Src.Oks, ih]

/-- The condition on namespace declarations from a check of each attribute. -/
theorem bindings_of {attrs : List SAttr} (h : attrs.all (fun a => !badBinding (a.name, a.value)) = true) :
    ∀ a ∈ attrs, ∀ p, a.name = "xmlns:".toList ++ p → ¬Reserved (String.ofList p) (String.ofList a.value) := by
  intro a ha p hp hr
  have := List.all_eq_true.mp h a ha
  rw [hp, badBinding_iff.mpr hr] at this
  cases this

/-! ### Tokens -/

/-- Name and raw value. -/
def Spec.SAttr.pair (a : SAttr) : List Char × List Char := (a.name, a.value)

mutual
/-- Tokens of a piece. -/
def stoks : Src → List Token
  | .elem pre name attrs _ body tail _ =>
    textToken pre.reverse ++ .start name (attrs.map SAttr.pair) :: (stoksL body ++ (textToken tail.reverse ++ [.close name]))
  | .void pre name attrs _ => textToken pre.reverse ++ [.empty name (attrs.map SAttr.pair)]
  | .comment pre _ => textToken pre.reverse
  | .cdata pre _ => textToken pre.reverse
  | .pi pre _ => textToken pre.reverse
  | .doctype pre _ => textToken pre.reverse
def stoksL : List Src → List Token
  | [] => []
  | s :: ss => stoks s ++ stoksL ss
end

theorem blank_neutral {s : List Char} (h : Blank s) : ∀ c ∈ s, Neutral c := by
  intro c hc
  have := h c hc
  refine ⟨?_, ?_, ?_⟩ <;> (rintro rfl; simp [isXmlSpace] at this)

theorem quoted_ok' {q : Char} {l : List Char} (h : ∀ c ∈ l, c ≠ q) : okTag (some q) l ∧ l.foldl qstep (some q) = some q := by
  induction l with
  | nil => simp [okTag]
  | cons c cs ih =>
    have h1 := h c (by simp)
    have hq : qstep (some q) c = some q := by simp [qstep, h1]
    simp only [okTag, List.foldl_cons, hq]
    have := ih (fun x hx => h x (by simp [hx]))
    exact ⟨⟨(by intro h; cases h), this.1⟩, this.2⟩

theorem safe_neutral {s : List Char} (h : ∀ c ∈ s, SafeChar c) : ∀ c ∈ s, Neutral c :=
  fun c hc => ⟨(h c hc).2.1, (h c hc).2.2.2.1, (h c hc).2.2.2.2.1⟩

theorem name_safe {u : Unicode} {n : List Char} (h : isValidXmlName u (String.ofList n) = true) : n ≠ [] ∧ ∀ c ∈ n, SafeChar c := by
  have := validName_safe h
  simpa using this

theorem attrText_ok {u : Unicode} {a : SAttr} (h : a.Ok u) : okTag none a.text ∧ a.text.foldl qstep none = none := by
  have h1 := neutral_ok (blank_neutral h.sep.1)
  have h2 := neutral_ok (safe_neutral (name_safe h.name).2)
  have h3 := neutral_ok (blank_neutral h.eq.1)
  have h4 := neutral_ok (blank_neutral h.eq.2)
  have h5 := quoted_ok' (q := a.quote) (l := a.value) (fun c hc e => h.value (e ▸ hc))
  have hq0 : qstep none '=' = none := by decide
  have hq1 : qstep none a.quote = some a.quote := by rcases h.quote with e | e <;> (rw [e]; decide)
  have hq2 : qstep (some a.quote) a.quote = none := by simp [qstep]
  have hgt : a.quote ≠ '>' := by rcases h.quote with e | e <;> (rw [e]; decide)
  unfold SAttr.text
  constructor
  · rw [okTag_append, okTag_append, okTag_append, h1.2, h2.2, h3.2]
    refine ⟨h1.1, h2.1, h3.1, by decide, ?_⟩
    rw [hq0, okTag_append, h4.2]
    refine ⟨h4.1, fun _ => hgt, ?_⟩
    rw [hq1, okTag_append, h5.2]
    exact ⟨h5.1, (fun e => by cases e), trivial⟩
  · rw [List.foldl_append, List.foldl_append, List.foldl_append, h1.2, h2.2, h3.2, List.foldl_cons, hq0, List.foldl_append,
      h4.2, List.foldl_cons, hq1, List.foldl_append, h5.2, List.foldl_cons, hq2, List.foldl_nil]

theorem attrsText_ok {u : Unicode} {attrs : List SAttr} (h : ∀ a ∈ attrs, a.Ok u) :
    okTag none (attrs.flatMap SAttr.text) ∧ (attrs.flatMap SAttr.text).foldl qstep none = none := by
  induction attrs with
  | nil => exact ⟨trivial, rfl⟩
  | cons a as ih =>
    have h1 := attrText_ok (h a (by simp))
    have h2 := ih (fun x hx => h x (by simp [hx]))
    rw [List.flatMap_cons, okTag_append, List.foldl_append, h1.2]
    exact ⟨⟨h1.1, h2.1⟩, h2.2⟩

theorem parseAttrs_skip {s : List Char} (h : Blank s) (rest : List Char) : parseAttrs .skip (s ++ rest) = parseAttrs .skip rest := by
  induction s with
  | nil => rfl
  | cons c cs ih =>
    simp only [List.cons_append]
    rw [parseAttrs, if_pos (h c (by simp)), ih (fun x hx => h x (by simp [hx]))]

theorem parseAttrs_afterKey {s : List Char} (h : Blank s) (k rest : List Char) :
    parseAttrs (.afterKey k) (s ++ rest) = parseAttrs (.afterKey k) rest := by
  induction s with
  | nil => rfl
  | cons c cs ih =>
    simp only [List.cons_append]
    rw [parseAttrs, if_pos (h c (by simp)), ih (fun x hx => h x (by simp [hx]))]

theorem parseAttrs_afterEq {s : List Char} (h : Blank s) (k rest : List Char) :
    parseAttrs (.afterEq k) (s ++ rest) = parseAttrs (.afterEq k) rest := by
  induction s with
  | nil => rfl
  | cons c cs ih =>
    simp only [List.cons_append]
    rw [parseAttrs, if_pos (h c (by simp)), ih (fun x hx => h x (by simp [hx]))]

theorem parseAttrs_quoted {q : Char} (k acc v rest : List Char) (h : ∀ c ∈ v, c ≠ q) :
    parseAttrs (.value k q acc) (v ++ rest) = parseAttrs (.value k q (v.reverse ++ acc)) rest := by
  induction v generalizing acc with
  | nil => rfl
  | cons c cs ih =>
    simp only [List.cons_append]
    rw [parseAttrs, if_neg (h c (by simp)), ih _ (fun x hx => h x (by simp [hx]))]
    simp

theorem parseAttrs_eq {s : List Char} (h : Blank s) (acc rest : List Char) :
    parseAttrs (.key acc) (s ++ '=' :: rest) = parseAttrs (.afterEq acc.reverse) rest := by
  cases s with
  | nil => simp only [List.nil_append]; rw [parseAttrs, if_pos rfl]
  | cons c cs =>
    have hc := h c (by simp)
    simp only [List.cons_append]
    rw [parseAttrs, if_neg (by rintro rfl; simp [isXmlSpace] at hc), if_pos hc,
      parseAttrs_afterKey (fun x hx => h x (by simp [hx])), parseAttrs, if_neg (by decide), if_pos rfl]

theorem parseAttrs_sattr {u : Unicode} {a : SAttr} (h : a.Ok u) (rest : List Char) :
    parseAttrs .skip (a.text ++ rest) = (parseAttrs .skip rest).map (a.pair :: ·) := by
  obtain ⟨hne, hs⟩ := name_safe h.name
  unfold SAttr.text
  simp only [List.append_assoc, List.cons_append]
  rw [parseAttrs_skip h.sep.1]
  cases hn : a.name with
  | nil => exact absurd hn hne
  | cons c k =>
    rw [hn] at hs
    have hc := hs c (by simp)
    simp only [List.cons_append]
    rw [parseAttrs, if_neg (by simp [hc.2.2.2.2.2.2.2.2]), parseAttrs_key _ _ _ (fun x hx => hs x (by simp [hx])),
      parseAttrs_eq h.eq.1, parseAttrs_afterEq h.eq.2]
    have hqs : isXmlSpace a.quote = false := by rcases h.quote with e | e <;> (rw [e]; decide)
    rw [parseAttrs, if_neg (by simp [hqs]), if_pos h.quote, parseAttrs_quoted _ _ _ _ (fun c hc (e : c = a.quote) => h.value (e ▸ hc))]
    simp only [List.nil_append, List.append_nil]
    rw [parseAttrs, if_pos rfl]
    simp only [List.reverse_append, List.reverse_reverse, List.reverse_cons, List.reverse_nil, List.nil_append]
    simp only [SAttr.pair, hn]
    cases parseAttrs .skip rest <;> rfl

theorem parseAttrs_sattrs {u : Unicode} {attrs : List SAttr} (h : ∀ a ∈ attrs, a.Ok u) {sp : List Char} (hsp : Blank sp) :
    parseAttrs .skip (attrs.flatMap SAttr.text ++ sp) = .ok (attrs.map SAttr.pair) := by
  induction attrs with
  | nil =>
    have := parseAttrs_skip hsp []
    rw [List.append_nil] at this
    exact this
  | cons a as ih =>
    rw [List.flatMap_cons, List.append_assoc, parseAttrs_sattr (h a (by simp)), ih (fun x hx => h x (by simp [hx]))]
    rfl

/-- After the name comes white space or nothing. -/
theorem afterName {u : Unicode} {attrs : List SAttr} (h : ∀ a ∈ attrs, a.Ok u) {sp : List Char} (hsp : Blank sp) :
    attrs.flatMap SAttr.text ++ sp = [] ∨ ∃ c r, attrs.flatMap SAttr.text ++ sp = c :: r ∧ isXmlSpace c = true := by
  cases attrs with
  | nil =>
    cases sp with
    | nil => exact .inl rfl
    | cons c cs => exact .inr ⟨c, cs, rfl, hsp c (by simp)⟩
  | cons a as =>
    right
    obtain ⟨h1, h2⟩ := (h a (by simp)).sep
    cases hs : a.sep with
    | nil => exact absurd hs h2
    | cons c cs =>
      refine ⟨c, cs ++ (a.name ++ (a.eqL ++ '=' :: (a.eqR ++ a.quote :: (a.value ++ [a.quote]))) ++ (as.flatMap SAttr.text ++ sp)), ?_,
        h1 c (by rw [hs]; simp)⟩
      rw [List.flatMap_cons]; unfold SAttr.text; rw [hs]; simp

theorem takeWhile_name' {n r : List Char} (h : ∀ c ∈ n, SafeChar c) (hr : r = [] ∨ ∃ c r', r = c :: r' ∧ isXmlSpace c = true) :
    (n ++ r).takeWhile (fun c => !isXmlSpace c) = n ∧ (n ++ r).dropWhile (fun c => !isXmlSpace c) = r := by
  induction n with
  | nil =>
    rcases hr with rfl | ⟨c, r', rfl, hc⟩
    · simp
    · simp [hc]
  | cons c cs ih =>
    have hc := (h c (by simp)).2.2.2.2.2.2.2.2
    have := ih (fun x hx => h x (by simp [hx]))
    simp [hc, this]

theorem parseTag_src {u : Unicode} {name : List Char} {attrs : List SAttr} {sp : List Char} (h : TagOk u name attrs sp) :
    parseTag (tagText name attrs sp) = .ok (name, attrs.map SAttr.pair) := by
  have hs := (name_safe h.nameOk).2
  have ht := takeWhile_name' hs (afterName h.attrsOk h.spOk)
  unfold parseTag tagText
  rw [ht.1, ht.2, parseAttrs_sattrs h.attrsOk h.spOk]
  have : (attrs.map SAttr.pair).map Prod.fst = attrs.map SAttr.name := by simp [SAttr.pair]
  have hb : (attrs.map SAttr.pair).any badBinding = false := by
    rw [List.any_eq_false]
    intro p hp
    obtain ⟨a, ha, rfl⟩ := List.mem_map.mp hp
    intro hbad
    have hpre : "xmlns:".toList.isPrefixOf a.name = true := by
      unfold badBinding at hbad
      split at hbad
      · assumption
      · cases hbad
    obtain ⟨q, hq⟩ := List.isPrefixOf_iff_prefix.mp hpre
    have he : a.pair = ("xmlns:".toList ++ q, a.value) := by rw [hq]; rfl
    rw [he, badBinding_iff] at hbad
    exact h.bindings a ha q hq.symm hbad
  simp [bind, Except.bind, this, hasDup_false h.distinct, hb]

/-- The tag does not end in a slash. -/
theorem tagText_last {u : Unicode} {name : List Char} {attrs : List SAttr} {sp : List Char} (h : TagOk u name attrs sp) :
    (tagText name attrs sp).getLast? ≠ some '/' := by
  obtain ⟨hne, hs⟩ := name_safe h.nameOk
  intro hl
  unfold tagText at hl
  rw [List.getLast?_append, List.getLast?_append] at hl
  cases hsp : sp.getLast? with
  | some c =>
    rw [hsp] at hl
    simp at hl; subst hl
    have := h.spOk _ (List.mem_of_getLast? hsp)
    simp [isXmlSpace] at this
  | none =>
    rw [hsp] at hl
    simp only [Option.none_or] at hl
    cases ha : (attrs.flatMap SAttr.text).getLast? with
    | some c =>
      rw [ha] at hl
      simp at hl; subst hl
      have hne' : attrs ≠ [] := by rintro rfl; simp at ha
      obtain ⟨as, a, rfl⟩ : ∃ as a, attrs = as ++ [a] := ⟨attrs.dropLast, attrs.getLast hne', (List.dropLast_concat_getLast hne').symm⟩
      rw [List.flatMap_append, List.getLast?_append] at ha
      have : (([a] : List SAttr).flatMap SAttr.text).getLast? = some a.quote := by
        simp [SAttr.text, List.getLast?_append, List.getLast?_cons]
      rw [this] at ha
      simp at ha
      rcases (h.attrsOk a (by simp)).quote with e | e <;> (rw [e] at ha; cases ha)
    | none =>
      rw [ha] at hl
      simp only [Option.none_or] at hl
      exact (hs _ (List.mem_of_getLast? hl)).2.2.1 rfl

/-- Lexing a tag. -/
theorem lex_tag {u : Unicode} {name : List Char} {attrs : List SAttr} {sp : List Char} (h : TagOk u name attrs sp) (rest : List Char) :
    lexFrom .lt (tagText name attrs sp ++ '>' :: rest) =
      (lexFrom (.text []) rest).map (Token.start name (attrs.map SAttr.pair) :: ·) ∧
    lexFrom .lt (tagText name attrs sp ++ '/' :: '>' :: rest) =
      (lexFrom (.text []) rest).map (Token.empty name (attrs.map SAttr.pair) :: ·) := by
  obtain ⟨hne, hs⟩ := name_safe h.nameOk
  have hname := neutral_ok (safe_neutral hs)
  have hat := attrsText_ok h.attrsOk
  have hsp := neutral_ok (blank_neutral h.spOk)
  have hok : okTag none (tagText name attrs sp) ∧ (tagText name attrs sp).foldl qstep none = none := by
    unfold tagText
    rw [okTag_append, okTag_append, List.foldl_append, List.foldl_append, hname.2, hat.2]
    exact ⟨⟨hname.1, hat.1, hsp.1⟩, hsp.2⟩
  cases hn : name with
  | nil => exact absurd hn hne
  | cons c cs =>
    have hT : tagText name attrs sp = c :: (cs ++ (attrs.flatMap SAttr.text ++ sp)) := by unfold tagText; rw [hn]; rfl
    rw [hn] at hs
    obtain ⟨hc1, hc2, hc3, hc4, hc5, hc6, hc7, hc8, hc9⟩ := hs c (by simp)
    have hq : qstep none c = none := by simp [qstep, hc4, hc5]
    have hok' : okTag none (cs ++ (attrs.flatMap SAttr.text ++ sp)) ∧ (cs ++ (attrs.flatMap SAttr.text ++ sp)).foldl qstep none = none := by
      rw [hT] at hok
      simp only [okTag, List.foldl_cons, hq] at hok
      exact ⟨hok.1.2, hok.2⟩
    have hp := parseTag_src h
    have hlast := tagText_last h
    have go : ∀ r : List Char, lexFrom .lt (tagText name attrs sp ++ r) = lexFrom (.tag none (tagText name attrs sp).reverse) r := by
      intro r
      rw [hT]
      simp only [List.cons_append]
      rw [lexFrom, if_neg hc3, if_neg hc8, if_neg hc7, if_neg hc2, if_neg (by simp [hc4, hc5]), lexFrom_tag _ _ _ _ hok'.1, hok'.2]
      simp
    rw [← hn, go, go]
    constructor
    · rw [lexFrom, if_pos rfl, List.reverse_reverse]
      unfold tagToken
      rw [if_neg hlast, hp]
      cases lexFrom (.text []) rest <;> simp [bind, Except.bind, Except.map]
    · rw [lexFrom, if_neg (by decide), if_neg (by decide), lexFrom, if_pos rfl, List.reverse_cons, List.reverse_reverse]
      unfold tagToken
      rw [if_pos (by simp), List.dropLast_concat, hp]
      cases lexFrom (.text []) rest <;> simp [bind, Except.bind, Except.map]

/-- Text up to the next markup. -/
theorem lex_pre {s : List Char} (h : '<' ∉ s) (rest : List Char) :
    lexFrom (.text []) (s ++ '<' :: rest) = (lexFrom .lt rest).map (textToken s.reverse ++ ·) := by
  rw [lexFrom_text _ _ _ (fun c hc e => h (e ▸ hc)), lexFrom, if_pos rfl, List.append_nil]
  cases lexFrom .lt rest <;> rfl

theorem lex_endTag {name endSp : List Char} (hne : name ≠ []) (hs : ∀ c ∈ name, SafeChar c) (hsp : Blank endSp) (rest : List Char) :
    lexFrom .lt ('/' :: (name ++ (endSp ++ '>' :: rest))) = (lexFrom (.text []) rest).map (Token.close name :: ·) := by
  rw [lexFrom, if_pos rfl, lexFrom_close _ _ _ hs]
  have hb : ∀ (acc sp : List Char), Blank sp → lexFrom (.close acc) (sp ++ '>' :: rest) = lexFrom (.close (sp.reverse ++ acc)) ('>' :: rest) := by
    intro acc sp h
    induction sp generalizing acc with
    | nil => rfl
    | cons c cs ih =>
      simp only [List.cons_append]
      rw [lexFrom, if_neg (by rintro rfl; simp [isXmlSpace, Blank] at h), ih _ (fun x hx => h x (by simp [hx]))]
      simp
  rw [hb _ _ hsp, lexFrom, if_pos rfl]
  have hcn : closeName (endSp.reverse ++ (name.reverse ++ [])) = name := by
    have hd : (endSp.reverse ++ (name.reverse ++ [])).dropWhile isXmlSpace = name.reverse := by
      rw [List.append_nil]
      have : ∀ l : List Char, Blank l → (l ++ name.reverse).dropWhile isXmlSpace = name.reverse.dropWhile isXmlSpace := by
        intro l hl
        induction l with
        | nil => rfl
        | cons c cs ih => simp only [List.cons_append, List.dropWhile_cons]; rw [if_pos (hl c (by simp)), ih (fun x hx => hl x (by simp [hx]))]
      rw [this _ (fun c hc => hsp c (by simpa using hc))]
      cases hr : name.reverse with
      | nil => rfl
      | cons x xs =>
        have hx : x ∈ name := by rw [← List.mem_reverse, hr]; simp
        simp [(hs x hx).2.2.2.2.2.2.2.2]
    unfold closeName
    rw [hd, if_neg (by simpa using hne), List.reverse_reverse]
  rw [hcn]
  cases lexFrom (.text []) rest <;> rfl

theorem lex_comment {s : List Char} (h : (∀ l r, s ≠ l ++ '-' :: '-' :: r) ∧ (∀ l, s ≠ l ++ ['-'])) (rest : List Char) :
    lexFrom .lt ('!' :: '-' :: '-' :: (s ++ '-' :: '-' :: '>' :: rest)) = lexFrom (.text []) rest := by
  rw [lexFrom, if_neg (by decide), if_neg (by decide), if_pos rfl, lexFrom, if_neg (by simp), lexFrom, if_neg (by simp)]
  exact lexFrom_comment [] s rest (fun l r e => h.1 l ('>' :: r) (by simpa using e))

theorem lex_piece_pi {s : List Char} (h0 : s.head? ≠ some '>') (h : ∀ l r, s ≠ l ++ '?' :: '>' :: r) (rest : List Char) :
    lexFrom .lt ('?' :: (s ++ '?' :: '>' :: rest)) = lexFrom (.text []) rest := by
  rw [lexFrom, if_neg (by decide), if_pos rfl]
  have go : ∀ (post pre : List Char), pre ++ post = s → lexFrom (.pi pre.reverse) (post ++ '?' :: '>' :: rest) = lexFrom (.text []) rest := by
    intro post
    induction post with
    | nil =>
      intro pre _
      simp only [List.nil_append]
      rw [lexFrom, if_neg (by simp), if_neg (by simp), lexFrom, if_neg (by simp), if_pos ⟨rfl, rfl⟩]
    | cons c cs ih =>
      intro pre hp
      simp only [List.cons_append]
      rw [lexFrom, if_neg (by rintro ⟨rfl, hn⟩; apply h0; rw [← hp, List.reverse_eq_nil_iff.mp hn]; rfl), if_neg]
      · have := ih (pre ++ [c]) (by simpa using hp)
        simpa using this
      · rintro ⟨rfl, hh⟩
        cases hr : pre.reverse with
        | nil => rw [hr] at hh; cases hh
        | cons x xs =>
          rw [hr] at hh
          simp at hh; subst hh
          apply h xs.reverse cs
          rw [← hp, ← List.reverse_reverse pre, hr]; simp
  exact go s [] rfl

theorem lex_cdata {s : List Char} (h : ∀ l r, s ≠ l ++ ']' :: ']' :: '>' :: r) (rest : List Char) :
    lexFrom .lt ('!' :: '[' :: 'C' :: 'D' :: 'A' :: 'T' :: 'A' :: '[' :: (s ++ ']' :: ']' :: '>' :: rest)) = lexFrom (.text []) rest := by
  rw [lexFrom, if_neg (by decide), if_neg (by decide), if_pos rfl]
  have step : ∀ (c : Char) (acc r : List Char), c ≠ '>' → lexFrom (.bang acc) (c :: r) = lexFrom (.bang (c :: acc)) r := by
    intro c acc r hc; rw [lexFrom, if_neg (by simp [hc])]
  rw [step _ _ _ (by decide), step _ _ _ (by decide), step _ _ _ (by decide), step _ _ _ (by decide), step _ _ _ (by decide),
    step _ _ _ (by decide), step _ _ _ (by decide)]
  have open_ : ∀ p : List Char, (p.reverse ++ ['[', 'A', 'T', 'A', 'D', 'C', '[']).reverse = '[' :: 'C' :: 'D' :: 'A' :: 'T' :: 'A' :: '[' :: p := by
    intro p; simp
  have full : ∀ p : List Char, bangComplete (p.reverse ++ ['[', 'A', 'T', 'A', 'D', 'C', '[']) =
      "]]".toList.isPrefixOf (p.reverse ++ ['[', 'A', 'T', 'A', 'D', 'C', '[']) := by
    intro p
    unfold bangComplete
    rw [open_ p]
    rfl
  have go : ∀ (post pre : List Char), pre ++ post = s →
      lexFrom (.bang (pre.reverse ++ ['[', 'A', 'T', 'A', 'D', 'C', '['])) (post ++ ']' :: ']' :: '>' :: rest) = lexFrom (.text []) rest := by
    intro post
    induction post with
    | nil =>
      intro pre _
      simp only [List.nil_append]
      rw [step _ _ _ (by decide), step _ _ _ (by decide), lexFrom,
        show (']' :: ']' :: (pre.reverse ++ ['[', 'A', 'T', 'A', 'D', 'C', '['])) =
          (pre ++ [']', ']']).reverse ++ ['[', 'A', 'T', 'A', 'D', 'C', '['] by simp, if_pos ⟨rfl, by rw [full]; simp⟩,
        if_pos (by rw [open_]; simp [bangValid])]
    | cons c cs ih =>
      intro pre hp
      simp only [List.cons_append]
      rw [lexFrom, if_neg]
      · have := ih (pre ++ [c]) (by simpa using hp)
        simpa using this
      · rintro ⟨rfl, hh⟩
        rw [full] at hh
        cases hr : pre.reverse with
        | nil => rw [hr] at hh; simp [List.isPrefixOf] at hh
        | cons x xs =>
          cases xs with
          | nil => rw [hr] at hh; simp [List.isPrefixOf] at hh
          | cons y ys =>
            rw [hr] at hh
            simp [List.isPrefixOf] at hh
            obtain ⟨rfl, rfl⟩ := hh
            apply h ys.reverse cs
            rw [← hp, ← List.reverse_reverse pre, hr]; simp
  exact go s [] rfl

theorem lex_doctype {s : List Char} (h : DoctypeOk s) (rest : List Char) :
    lexFrom .lt ('!' :: 'D' :: 'O' :: 'C' :: 'T' :: 'Y' :: 'P' :: 'E' :: (s ++ '>' :: rest)) = lexFrom (.text []) rest := by
  rw [lexFrom, if_neg (by decide), if_neg (by decide), if_pos rfl]
  have step : ∀ (c : Char) (acc r : List Char), c ≠ '>' → lexFrom (.bang acc) (c :: r) = lexFrom (.bang (c :: acc)) r := by
    intro c acc r hc; rw [lexFrom, if_neg (by simp [hc])]
  rw [step _ _ _ (by decide), step _ _ _ (by decide), step _ _ _ (by decide), step _ _ _ (by decide), step _ _ _ (by decide),
    step _ _ _ (by decide), step _ _ _ (by decide)]
  have open_ : ∀ p : List Char, (p.reverse ++ ['E', 'P', 'Y', 'T', 'C', 'O', 'D']).reverse = 'D' :: 'O' :: 'C' :: 'T' :: 'Y' :: 'P' :: 'E' :: p := by
    intro p; simp
  have full : ∀ p : List Char, bangComplete (p.reverse ++ ['E', 'P', 'Y', 'T', 'C', 'O', 'D']) = (p.count '<' == p.count '>') := by
    intro p
    unfold bangComplete
    rw [open_ p]
    simp [List.count_append, List.count_reverse]
  have go : ∀ (post pre : List Char), pre ++ post = s →
      lexFrom (.bang (pre.reverse ++ ['E', 'P', 'Y', 'T', 'C', 'O', 'D'])) (post ++ '>' :: rest) = lexFrom (.text []) rest := by
    intro post
    induction post with
    | nil =>
      intro pre hp
      simp only [List.append_nil] at hp
      subst hp
      simp only [List.nil_append]
      rw [lexFrom, if_pos ⟨rfl, by rw [full]; simp [h.closed]⟩, if_pos]
      rw [open_]
      have hn : pre.any (fun c => !isXmlSpace c) = true := by
        have := h.name
        unfold Blank at this
        simpa using this
      have hl : List.map Char.toLower ['D', 'O', 'C', 'T', 'Y', 'P', 'E'] == "doctype".toList := by decide +kernel
      show (List.map Char.toLower ['D', 'O', 'C', 'T', 'Y', 'P', 'E'] == "doctype".toList && pre.any (fun c => !isXmlSpace c)) = true
      rw [hl, hn]; rfl
    | cons c cs ih =>
      intro pre hp
      simp only [List.cons_append]
      rw [lexFrom, if_neg]
      · have := ih (pre ++ [c]) (by simpa using hp)
        simpa using this
      · rintro ⟨rfl, hh⟩
        rw [full] at hh
        have := h.opened pre cs hp.symm
        simp at hh
        omega
  exact go s [] rfl

theorem lex_srcs {ss : List Src}
    (h : ∀ s ∈ ss, ∀ rest, lexFrom (.text []) (s.text ++ rest) = (lexFrom (.text []) rest).map (stoks s ++ ·)) (rest : List Char) :
    lexFrom (.text []) (Src.texts ss ++ rest) = (lexFrom (.text []) rest).map (stoksL ss ++ ·) := by
  induction ss with
  | nil => simp only [Src.texts, stoksL, List.nil_append]; cases lexFrom (.text []) rest <;> rfl
  | cons s ss ih =>
    simp only [Src.texts, stoksL, List.append_assoc]
    rw [h s (by simp), ih (fun x hx => h x (by simp [hx])), map_map_res]

theorem lex_src {u : Unicode} : ∀ s : Src, s.Ok u → ∀ rest,
    lexFrom (.text []) (s.text ++ rest) = (lexFrom (.text []) rest).map (stoks s ++ ·) := by
  refine Src.ind ?_ ?_ ?_ ?_ ?_ ?_
  · intro pre name attrs sp body tail endSp ih hok rest
    obtain ⟨hpre, htag, hbody, htail, hend⟩ := hok
    obtain ⟨hne, hs⟩ := name_safe htag.nameOk
    simp only [Src.text, stoks, List.append_assoc, List.cons_append]
    rw [lex_pre hpre.1, (lex_tag htag _).1, lex_srcs (fun s hs r => ih s hs (oks_iff.mp hbody s hs) r), lex_pre htail.1,
      lex_endTag hne hs hend, map_map_res, map_map_res, map_map_res, map_map_res]
    simp
  · intro pre name attrs sp hok rest
    obtain ⟨hpre, htag⟩ := hok
    simp only [Src.text, stoks, List.append_assoc, List.cons_append, List.nil_append]
    rw [lex_pre hpre.1, (lex_tag htag _).2, map_map_res]
  · intro pre s hok rest
    simp only [Src.text, stoks, List.append_assoc, List.cons_append, List.nil_append]
    rw [lex_pre hok.1.1, lex_comment hok.2]
  · intro pre s hok rest
    simp only [Src.text, stoks, List.append_assoc, List.cons_append, List.nil_append]
    rw [lex_pre hok.1.1, lex_cdata hok.2]
  · intro pre s hok rest
    simp only [Src.text, stoks, List.append_assoc, List.cons_append, List.nil_append]
    rw [lex_pre hok.1.1, lex_piece_pi hok.2.1 hok.2.2]
  · intro pre s hok rest
    simp only [Src.text, stoks, List.append_assoc, List.cons_append, List.nil_append]
    rw [lex_pre hok.1.1, lex_doctype hok.2]

/-! ### End tags -/

theorem checkEnds_stoksL {ss : List Src} (h : ∀ s ∈ ss, ∀ stack rest, checkEnds stack (stoks s ++ rest) = checkEnds stack rest)
    (stack : List (List Char)) (rest : List Token) : checkEnds stack (stoksL ss ++ rest) = checkEnds stack rest := by
  induction ss with
  | nil => rfl
  | cons s ss ih =>
    simp only [stoksL, List.append_assoc]
    rw [h s (by simp), ih (fun x hx => h x (by simp [hx]))]

theorem checkEnds_stoks : ∀ (s : Src) (stack : List (List Char)) (rest : List Token),
    checkEnds stack (stoks s ++ rest) = checkEnds stack rest := by
  refine Src.ind ?_ ?_ ?_ ?_ ?_ ?_
  · intro pre name attrs sp body tail endSp ih stack rest
    simp only [stoks, List.append_assoc, List.cons_append]
    rw [checkEnds_textToken, checkEnds, checkEnds_stoksL ih, checkEnds_textToken]
    simp [checkEnds]
  · intro pre name attrs sp stack rest
    simp only [stoks, List.append_assoc]
    rw [checkEnds_textToken]; simp [checkEnds]
  all_goals
    intro pre s stack rest
    simp only [stoks]
    exact checkEnds_textToken _ _ _

/-! ### Reading -/

/-- The value of an element after a further text. -/
def overText (v : Option String) (s : List Char) : Option String := if trimXml s = [] then v else some (decoded (trimXml s))

theorem lastText_foldl (ps : List (List Char)) : lastText ps = ps.foldl overText none := by
  have go : ∀ (ps : List (List Char)) (v : Option String), ps.foldl overText v =
      match ((ps.map trimXml).filter (fun s => s ≠ [])).getLast? with
      | some t => some (decoded t)
      | none => v := by
    intro ps
    induction ps with
    | nil => intro v; rfl
    | cons p ps ih =>
      intro v
      rw [List.foldl_cons, ih, List.map_cons, List.filter_cons]
      unfold overText
      by_cases h : trimXml p = []
      · simp [h]
      · simp only [h, if_false, ne_eq, not_false_eq_true, decide_true, if_true]
        rw [List.getLast?_cons]
        cases ((ps.map trimXml).filter (fun s => s ≠ [])).getLast? <;> simp
  rw [go]
  unfold lastText
  cases ((ps.map trimXml).filter (fun s => s ≠ [])).getLast? <;> rfl

theorem readLoop_pre {u : Unicode} {d : XmlDoc} {p : Nat} {pe : Elem} (hinv : d.Inv) (hp : d.get p = some pe) {s : List Char} (h : TextOk s)
    (rest : List Token) :
    ∃ d', readLoop u ⟨d, true, p⟩ (textToken s.reverse ++ rest) = readLoop u ⟨d', true, p⟩ rest ∧ d'.ns = d.ns ∧
      Grown d d' p { pe with value := overText pe.value s } [] := by
  obtain ⟨t, ht⟩ := h.2
  unfold textToken
  simp only [List.reverse_reverse]
  by_cases hb : trimXml s = []
  · refine ⟨d, by rw [if_pos hb]; rfl, rfl, ?_⟩
    have : ({ pe with value := overText pe.value s } : Elem) = pe := by simp [overText, hb]
    rw [this]
    exact Grown.refl hinv hp
  · refine ⟨d.put p { pe with value := overText pe.value s }, ?_, rfl, ?_⟩
    · rw [if_neg hb]
      simp only [List.singleton_append]
      apply readLoop_cons
      have : decoded (trimXml s) = String.ofList t := by unfold decoded; rw [ht]
      simp only [readStep, ht, bind, Except.bind, setValue_get hp, overText, if_neg hb, this]
    · refine ⟨by simp [XmlDoc.get_put_self], fun j _ hj => XmlDoc.get_put_ne _ (Ne.symm hj) _, Nat.le_refl _, by simp [HoldsL, entriesL], trivial,
        by simp, by simp, ?_⟩
      exact hinv.put_same hp rfl rfl rfl (fun c hc => hc) (hinv.tree.once p pe hp)

theorem entriesL_append (a b : List LTree) : entriesL (a ++ b) = entriesL a ++ entriesL b := by
  rw [entriesL_eq, entriesL_eq, entriesL_eq, List.flatMap_append]

/-- Two runs of appended subtrees. -/
theorem Grown.trans {d d1 d2 : XmlDoc} {p : Nat} {pe pe1 : Elem} {ts1 ts2 : List LTree} (hle : p ≤ d.runningId)
    (h1 : Grown d d1 p pe1 ts1) (h2 : Grown d1 d2 p { pe with children := pe.children ++ ts1.map asChild } ts2) :
    Grown d d2 p pe (ts1 ++ ts2) := by
  refine ⟨?_, ?_, Nat.le_trans h1.mono h2.mono, ?_, ?_, ?_, ?_, h2.inv⟩
  · rw [h2.parent]; simp
  · intro j hj hne
    rw [h2.frame j (Nat.le_trans hj h1.mono) hne, h1.frame j hj hne]
  · intro e he
    rw [entriesL_append, List.mem_append] at he
    rcases he with he | he
    · have hi' := h1.ids e.id (List.mem_map.mpr ⟨e, he, rfl⟩)
      rw [h2.frame e.id hi'.2 (by omega)]
      exact h1.holds e he
    · exact h2.holds e he
  · rw [consistentL_iff]
    intro k hk
    rcases List.mem_append.mp hk with hk | hk
    · exact (consistentL_iff _).mp h1.consistent k hk
    · exact (consistentL_iff _).mp h2.consistent k hk
  · intro x hx
    rcases List.mem_append.mp hx with hx | hx
    · exact h1.parentId x hx
    · exact h2.parentId x hx
  · intro i hi
    simp only [idsL, entriesL_append, List.map_append, List.mem_append] at hi
    rcases hi with hi | hi
    · have := h1.ids i hi
      have := h2.mono; omega
    · have := h2.ids i hi
      have := h1.mono; omega

/-- Setting attributes, namespace declarations included. -/
theorem setAttribute_any {u : Unicode} {d : XmlDoc} {id : Nat} {e : Elem} {a : Attrs} (he : d.get id = some e)
    (h : ∀ k ∈ akeys a, isValidXmlName u k = true) :
    d.setAttribute u id a = .ok { (d.put id { e with attrs := some (a.filter (fun kv => !isNsKey kv.1)) }) with
      ns := (a.filter (fun kv => isNsKey kv.1)).foldl (fun m kv => addNs m kv.1 kv.2) d.ns } := by
  unfold XmlDoc.setAttribute
  rw [he]
  have hall : (akeys a).all (isValidXmlName u) = true := by
    rw [List.all_eq_true]; exact fun k hk => h k hk
  simp only [hall, Bool.not_true, Bool.false_eq_true, if_false]

/-- The attribute map read for a tag. -/
theorem tag_attrs {u : Unicode} {name : List Char} {attrs : List SAttr} {sp : List Char} (h : TagOk u name attrs sp) :
    attributesString (attrs.map SAttr.pair) = attrs.map (fun a => (String.ofList a.name, String.ofList a.value)) ∧
    ∀ k ∈ akeys (attributesString (attrs.map SAttr.pair)), isValidXmlName u k = true := by
  have e : attributesString (attrs.map SAttr.pair) = attrs.map (fun a => (String.ofList a.name, String.ofList a.value)) := by
    rw [attributesString_nodup]
    · simp [SAttr.pair]
    · have : (attrs.map SAttr.pair).map Prod.fst = attrs.map SAttr.name := by simp [SAttr.pair]
      rw [this]; exact h.distinct
  refine ⟨e, ?_⟩
  rw [e]
  intro k hk
  simp only [akeys, List.map_map, List.mem_map] at hk
  obtain ⟨a, ha, rfl⟩ := hk
  exact (h.attrsOk a ha).name

/-- Namespace bindings after further declarations. -/
def declare (ns : Attrs) (ds : Attrs) : Attrs := ds.foldl (fun m kv => addNs m kv.1 kv.2) ns

/-- Reading an opening or empty tag below `p`. -/
theorem read_tag {u : Unicode} {d : XmlDoc} {p : Nat} {pe : Elem} {name : List Char} {attrs : List SAttr} {sp : List Char}
    (hinv : d.Inv) (hp : d.get p = some pe) (h : TagOk u name attrs sp) :
    ∃ d2, readStep u ⟨d, true, p⟩ (.start name (attrs.map SAttr.pair)) = .ok ⟨d2, true, d.runningId + 1⟩ ∧
      readStep u ⟨d, true, p⟩ (.empty name (attrs.map SAttr.pair)) = .ok ⟨d2, true, p⟩ ∧
      Grown d d2 p pe [.node { id := d.runningId + 1, parentId := p, tag := String.ofList name, attrs := some (plainAttrs attrs), value := none, children := [] } []] ∧
      d2.runningId = d.runningId + 1 ∧ d2.ns = declare d.ns (tagDecls attrs) := by
  obtain ⟨ea, hv⟩ := tag_attrs h
  have hplain : ∀ k ∈ akeys (plainAttrs attrs), isValidXmlName u k = true ∧ isNsKey k = false := by
    intro k hk
    simp only [plainAttrs, akeys, List.mem_map] at hk
    obtain ⟨kv, hkv, rfl⟩ := hk
    obtain ⟨h1, h2⟩ := List.mem_filter.mp hkv
    refine ⟨hv kv.1 ?_, by simpa using h2⟩
    rw [ea]; exact List.mem_map.mpr ⟨kv, h1, rfl⟩
  obtain ⟨d1, d2, h1, h2, g, hr, hns⟩ := append_with_attrs hinv hp h.nameOk hplain
  have happ := appendChild_get hp h.nameOk
  rw [h1] at happ
  cases happ
  have hinv1 := hinv.insertWith places_append h1
  have hget : (appended d p pe (String.ofList name)).get (d.runningId + 1) = some (freshElem d p (String.ofList name)) := by
    rw [get_appended, if_pos rfl]
  have hany := setAttribute_any (u := u) hget hv
  have hpl := setAttribute_plain (u := u) hget hplain
  rw [h2] at hpl
  cases hpl
  have hinv2 := hinv1.setAttribute hany
  rw [ea] at hany hinv2
  refine ⟨{ (appended d p pe (String.ofList name)).put (d.runningId + 1) { freshElem d p (String.ofList name) with attrs := some (plainAttrs attrs) } with
      ns := declare d.ns (tagDecls attrs) }, ?_, ?_,
    ⟨g.parent, g.frame, g.mono, g.holds, g.consistent, g.parentId, g.ids, hinv2⟩, hr, rfl⟩
  · simp only [readStep, if_true, h1, ea, hany, bind, Except.bind]; rfl
  · simp only [readStep, h1, ea, hany, bind, Except.bind]; rfl

/-- The reader processes the tokens of one piece. -/
def ReadsSrc (u : Unicode) (s : Src) : Prop :=
  ∀ (d : XmlDoc) (p : Nat) (pe : Elem) (rest : List Token), d.Inv → d.get p = some pe →
    ∃ d' ts, readLoop u ⟨d, true, p⟩ (stoks s ++ rest) = readLoop u ⟨d', true, p⟩ rest ∧
      Grown d d' p { pe with value := overText pe.value s.pre } ts ∧ erases ts = s.node.toList ∧ d'.ns = declare d.ns s.decls

theorem erases_append (a b : List LTree) : erases (a ++ b) = erases a ++ erases b := by
  rw [erases_eq, erases_eq, erases_eq, List.map_append]

theorem declare_append (ns a b : Attrs) : declare ns (a ++ b) = declare (declare ns a) b := by
  simp [declare, List.foldl_append]

theorem readsSrcs {u : Unicode} {ss : List Src} (h : ∀ s ∈ ss, ReadsSrc u s) :
    ∀ (d : XmlDoc) (p : Nat) (pe : Elem) (rest : List Token), d.Inv → d.get p = some pe →
    ∃ d' ts, readLoop u ⟨d, true, p⟩ (stoksL ss ++ rest) = readLoop u ⟨d', true, p⟩ rest ∧
      Grown d d' p { pe with value := (ss.map Src.pre).foldl overText pe.value } ts ∧ erases ts = Src.nodes ss ∧
      d'.ns = declare d.ns (Src.declss ss) := by
  induction ss with
  | nil => intro d p pe rest hinv hp; exact ⟨d, [], rfl, Grown.refl hinv hp, rfl, rfl⟩
  | cons s ss ih =>
    intro d p pe rest hinv hp
    obtain ⟨d1, ts1, e1, g1, r1, n1⟩ := h s (by simp) d p pe (stoksL ss ++ rest) hinv hp
    obtain ⟨d2, ts2, e2, g2, r2, n2⟩ := ih (fun x hx => h x (by simp [hx])) d1 p _ rest g1.inv g1.parent
    refine ⟨d2, ts1 ++ ts2, ?_, Grown.trans (hinv.le _ _ hp) g1 g2, ?_, ?_⟩
    · simp only [stoksL, List.append_assoc]; rw [e1, e2]
    · rw [erases_append, r1, r2]; rfl
    · rw [n2, n1, Src.declss, declare_append]

theorem readsSrc {u : Unicode} : ∀ s : Src, s.Ok u → ReadsSrc u s := by
  refine Src.ind ?_ ?_ ?_ ?_ ?_ ?_
  · intro pre name attrs sp body tail endSp ih hok d p pe rest hinv hp
    obtain ⟨hpre, htag, hbody, htail, _⟩ := hok
    have hple := hinv.le _ _ hp
    simp only [stoks, List.append_assoc, List.cons_append, List.nil_append]
    obtain ⟨d0, e0, n0, g0⟩ := readLoop_pre (u := u) hinv hp hpre
      (Token.start name (attrs.map SAttr.pair) :: (stoksL body ++ (textToken tail.reverse ++ Token.close name :: rest)))
    have hp0 := g0.parent
    simp only [List.map_nil, List.append_nil] at hp0
    obtain ⟨d1, hs1, _, g1, hr1, n1⟩ := read_tag (u := u) g0.inv hp0 htag
    have hE : d1.get (d0.runningId + 1) = some _ := (holds_node.mp (holdsL_cons.mp g1.holds).1).1
    obtain ⟨d2, ts, e2, g2, r2, n2⟩ := readsSrcs (fun s hs => ih s hs (oks_iff.mp hbody s hs)) d1 (d0.runningId + 1) _
      (textToken tail.reverse ++ Token.close name :: rest) g1.inv hE
    obtain ⟨d3, e3, n3, g3⟩ := readLoop_pre (u := u) g2.inv g2.parent htail (Token.close name :: rest)
    have hp3 := g3.parent
    simp only [List.map_nil, List.append_nil, List.nil_append] at hp3
    have hle1 : d0.runningId + 1 ≤ d1.runningId := by omega
    have g23 := Grown.trans (ts2 := []) (pe := { id := d0.runningId + 1, parentId := p, tag := String.ofList name, attrs := some (plainAttrs attrs), value := lastText (body.map Src.pre ++ [tail]), children := [] }) hle1 g2 (by
      rw [lastText_foldl, List.foldl_append]
      exact g3)
    simp only [List.append_nil] at g23
    have gn : Grown d0 d3 p { pe with value := overText pe.value pre }
        [.node { id := d0.runningId + 1, parentId := p, tag := String.ofList name, attrs := some (plainAttrs attrs), value := lastText (body.map Src.pre ++ [tail]), children := ts.map asChild } ts] :=
      Grown.nest (by have := g0.mono; omega) g1 rfl rfl rfl rfl (by simpa using g23.parent) (fun j hj hne => g23.frame j hj hne) g23.mono
        g23.holds g23.consistent g23.parentId g23.ids g23.inv
    refine ⟨d3, _, ?_, Grown.trans (ts1 := []) (ts2 := _) hple g0 (by simpa [Src.pre] using gn), ?_, ?_⟩
    · rw [e0, readLoop_cons hs1, e2, e3]
      have := readStep_close (u := u) hp3 true
      simp only [String.toList_ofList] at this
      exact readLoop_cons this
    · simp [erase, erases, Src.node, r2]
    · rw [n3, n2, n1, n0, Src.decls, declare_append]
  · intro pre name attrs sp hok d p pe rest hinv hp
    obtain ⟨hpre, htag⟩ := hok
    have hple := hinv.le _ _ hp
    simp only [stoks, List.append_assoc, List.cons_append, List.nil_append]
    obtain ⟨d0, e0, n0, g0⟩ := readLoop_pre (u := u) hinv hp hpre (Token.empty name (attrs.map SAttr.pair) :: rest)
    have hp0 := g0.parent
    simp only [List.map_nil, List.append_nil] at hp0
    obtain ⟨d1, _, hs1, g1, hr1, n1⟩ := read_tag (u := u) g0.inv hp0 htag
    refine ⟨d1, _, ?_, Grown.trans (ts1 := []) (ts2 := _) hple g0 (by simpa [Src.pre] using g1), ?_, ?_⟩
    · rw [e0]; exact readLoop_cons hs1
    · simp [erase, erases, Src.node]
    · rw [n1, n0, Src.decls]
  all_goals
    intro pre s hok d p pe rest hinv hp
    obtain ⟨d0, e0, n0, g0⟩ := readLoop_pre (u := u) hinv hp hok.1 rest
    exact ⟨d0, [], e0, g0, rfl, n0⟩

/-! ### Whole documents -/

theorem blank_trim {s : List Char} (h : Blank s) : trimXml s = [] := by
  unfold trimXml
  have : s.dropWhile isXmlSpace = [] := by
    have : ∀ l : List Char, Blank l → l.dropWhile isXmlSpace = [] := by
      intro l hl
      induction l with
      | nil => rfl
      | cons c cs ih => rw [List.dropWhile_cons, if_pos (hl c (by simp)), ih (fun x hx => hl x (by simp [hx]))]
    exact this s h
  rw [this]; rfl

theorem blank_token {s : List Char} (h : Blank s) : textToken s.reverse = [] := by
  unfold textToken
  rw [List.reverse_reverse, blank_trim h]; rfl

theorem misc_tokens {ss : List Src} (h : ∀ s ∈ ss, Misc s) : stoksL ss = [] := by
  induction ss with
  | nil => rfl
  | cons s ss ih =>
    have h1 := h s (by simp)
    have : stoks s = [] := by
      cases s with
      | comment p _ => exact blank_token h1
      | pi p _ => exact blank_token h1
      | doctype p _ => exact blank_token h1
      | elem => exact absurd h1 (by simp [Misc])
      | void => exact absurd h1 (by simp [Misc])
      | cdata => exact absurd h1 (by simp [Misc])
    rw [stoksL, this, ih (fun x hx => h x (by simp [hx]))]; rfl

theorem lex_blank {s : List Char} (h : Blank s) : lexFrom (.text []) s = .ok [] := by
  have := lexFrom_text [] s [] (by intro c hc e; subst e; have := h _ hc; simp [isXmlSpace] at this)
  rw [List.append_nil, List.append_nil] at this
  rw [this, lexFrom, blank_token h]

theorem dropBom_of {s : List Char} (h : ∀ c, s.head? = some c → c ≠ '\uFEFF') : dropBom s = s := by
  cases s with
  | nil => rfl
  | cons c cs => exact if_neg (h c rfl)

theorem head_pre {pre r : List Char} (h : Blank pre) : ∀ c, (pre ++ '<' :: r).head? = some c → c ≠ '\uFEFF' := by
  intro c hc e
  subst e
  cases pre with
  | nil => simp at hc
  | cons p ps =>
    simp only [List.cons_append, List.head?_cons, Option.some.injEq] at hc
    subst hc
    have := h '\uFEFF' (by simp)
    revert this; decide

/-- Only the byte order mark is removed from a well-formed document. -/
theorem dropBom_source {u : Unicode} {x : SDoc} (h : x.Ok u) :
    dropBom x.text = Src.texts x.before ++ (x.root.text ++ (Src.texts x.after ++ x.final)) := by
  unfold SDoc.text
  cases x.bom with
  | true => rfl
  | false =>
    refine dropBom_of ?_
    have hb := h.before.2
    cases hx : x.before with
    | nil =>
      obtain ⟨pre, name, attrs, sp, body, tail, endSp, hroot⟩ := h.isElem
      have hbl := h.root.2
      rw [hroot] at hbl ⊢
      simp only [Bool.false_eq_true, if_false, List.nil_append, Src.texts, Src.text, List.append_assoc, List.cons_append]
      exact head_pre hbl
    | cons s ss =>
      rw [hx] at hb
      have h1 := hb s (by simp)
      cases s with
      | comment p _ =>
        simp only [Bool.false_eq_true, if_false, List.nil_append, Src.texts, Src.text, List.append_assoc, List.cons_append]
        exact head_pre h1
      | pi p _ =>
        simp only [Bool.false_eq_true, if_false, List.nil_append, Src.texts, Src.text, List.append_assoc, List.cons_append]
        exact head_pre h1
      | doctype p _ =>
        simp only [Bool.false_eq_true, if_false, List.nil_append, Src.texts, Src.text, List.append_assoc, List.cons_append]
        exact head_pre h1
      | elem => exact absurd h1 (by simp [Misc])
      | void => exact absurd h1 (by simp [Misc])
      | cdata => exact absurd h1 (by simp [Misc])

/-- Every well-formed document is read. -/
theorem readXml_source {u : Unicode} {x : SDoc} (h : x.Ok u) :
    ∃ d, readXml u x.text = .ok d ∧ d.Inv ∧ d.toXDoc = { ns := declare [] x.root.decls, root := x.root.node } := by
  obtain ⟨pre, name, attrs, sp, body, tail, endSp, hroot⟩ := h.isElem
  have hlex : lex x.text = .ok (stoks x.root) := by
    unfold lex
    rw [dropBom_source h, lex_srcs (fun s hs r => lex_src s (oks_iff.mp h.before.1 s hs) r), lex_src _ h.root.1,
      lex_srcs (fun s hs r => lex_src s (oks_iff.mp h.after.1 s hs) r), lex_blank h.final, misc_tokens h.before.2, misc_tokens h.after.2]
    simp [Except.map]
  have hck : checkEnds [] (stoks x.root) = true := by
    have := checkEnds_stoks x.root [] []
    rw [List.append_nil] at this
    rw [this]; rfl
  unfold readXml
  rw [hlex]
  simp only [bind, Except.bind, hck, if_true]
  have hok := h.root.1
  have hbl := h.root.2
  rw [hroot] at hok hbl ⊢
  obtain ⟨_, htag, hbody, htail, _⟩ := hok
  simp only [Src.pre] at hbl
  simp only [stoks, blank_token hbl, List.nil_append]
  obtain ⟨ea, hv⟩ := tag_attrs htag
  have hcr : XmlDoc.new.createRoot u (String.ofList name) =
      .ok (XmlDoc.new.put 0 { id := 0, parentId := 0, tag := String.ofList name, attrs := none, value := none, children := [] }) := by
    simp [XmlDoc.createRoot, newElem, htag.nameOk, bind, Except.bind]
  have hinv0 := XmlDoc.Inv.new.createRoot hcr
  have hset := setAttribute_any (u := u) (XmlDoc.get_put_self XmlDoc.new 0 { id := 0, parentId := 0, tag := String.ofList name, attrs := none, value := none, children := [] }) hv
  have hinv1 := hinv0.setAttribute hset
  rw [ea] at hset hinv1
  obtain ⟨d1, hs1, hi1, hg1, hn1⟩ : ∃ d1, readStep u ⟨XmlDoc.new, false, 0⟩ (.start name (attrs.map SAttr.pair)) = .ok ⟨d1, true, 0⟩ ∧ d1.Inv ∧
      d1.get 0 = some { id := 0, parentId := 0, tag := String.ofList name, attrs := some (plainAttrs attrs), value := none, children := [] } ∧
      d1.ns = declare [] (tagDecls attrs) := by
    refine ⟨_, ?_, hinv1, XmlDoc.get_put_self _ _ _, rfl⟩
    simp only [readStep, Bool.false_eq_true, if_false, hcr, ea, hset, bind, Except.bind]
  rw [readLoop_cons hs1]
  obtain ⟨d2, ts, e2, g2, r2, n2⟩ := readsSrcs (fun s hs => readsSrc s (oks_iff.mp hbody s hs)) d1 0 _
    (textToken tail.reverse ++ [Token.close name]) hi1 hg1
  obtain ⟨d3, e3, n3, g3⟩ := readLoop_pre (u := u) g2.inv g2.parent htail [Token.close name]
  have g23 := Grown.trans (ts2 := []) (pe := { id := 0, parentId := 0, tag := String.ofList name, attrs := some (plainAttrs attrs), value := lastText (body.map Src.pre ++ [tail]), children := [] }) (Nat.zero_le _) g2 (by
    rw [lastText_foldl, List.foldl_append]
    exact g3)
  simp only [List.append_nil] at g23
  have hp3 := g23.parent
  simp only [List.nil_append] at hp3
  rw [e2, e3]
  have hcl := readStep_close (u := u) hp3 true
  simp only [String.toList_ofList] at hcl
  rw [readLoop_cons hcl]
  refine ⟨d3, rfl, g3.inv, ?_⟩
  have := toNode_of_holds g23.inv (.node { id := 0, parentId := 0, tag := String.ofList name, attrs := some (plainAttrs attrs), value := lastText (body.map Src.pre ++ [tail]), children := ts.map asChild } ts)
    ⟨rfl, g23.parentId, g23.consistent⟩ (by rw [holds_node]; exact ⟨hp3, g23.holds⟩) (d3.runningId + 1) (by omega)
  have hns : d3.ns = declare [] (Src.decls (.elem pre name attrs sp body tail endSp)) := by
    rw [n3, n2, Src.decls, declare_append, hn1]
  simp only [XmlDoc.toXDoc, hns]
  congr 1
  simpa [erase, LTree.elem, Src.node, r2] using this

end Oxml
