import Verif.Proofs.Source
import Verif.Props.Xml
/-!
# C68, C69: reading XML text written by other programs
-/
namespace Oxml
open Spec

/-! ## C68 -/

/-- After the tokens, one part per open element, each ended by its end tag. -/
theorem checkEnds_nested : ∀ (ts : List Token) (stack : List (List Char)), checkEnds stack ts = true →
    Nested ts ∨ ∃ n rest us vs, stack = n :: rest ∧ ts = us ++ .close n :: vs ∧ Closed us ∧ checkEnds rest vs = true := by
  have key : ∀ (k : Nat) (ts : List Token) (stack : List (List Char)), ts.length ≤ k → checkEnds stack ts = true →
      Nested ts ∨ ∃ n rest us vs, stack = n :: rest ∧ ts = us ++ .close n :: vs ∧ Closed us ∧ checkEnds rest vs = true := by
    intro k
    induction k with
    | zero =>
      intro ts stack hl _
      have : ts = [] := List.length_eq_zero_iff.mp (by omega)
      subst this
      exact .inl (.closed .nil)
    | succ k ih =>
      intro ts stack hl h
      cases ts with
      | nil => exact .inl (.closed .nil)
      | cons t ts =>
        simp only [List.length_cons] at hl
        cases t with
        | text x =>
          rcases ih ts stack (by omega) h with h1 | ⟨n, rest, us, vs, e1, e2, h1, h2⟩
          · left
            cases h1 with
            | closed h1 => exact .closed (.text h1)
            | opened h1 h2 => exact Nested.opened (Closed.text h1) h2
          · exact .inr ⟨n, rest, .text x :: us, vs, e1, by rw [e2]; rfl, .text h1, h2⟩
        | empty n a =>
          rcases ih ts stack (by omega) h with h1 | ⟨m, rest, us, vs, e1, e2, h1, h2⟩
          · left
            cases h1 with
            | closed h1 => exact .closed (.empty h1)
            | opened h1 h2 => exact Nested.opened (Closed.empty h1) h2
          · exact .inr ⟨m, rest, .empty n a :: us, vs, e1, by rw [e2]; rfl, .empty h1, h2⟩
        | start n a =>
          rcases ih ts (n :: stack) (by omega) h with h1 | ⟨m, rest, us, vs, e1, e2, h1, h2⟩
          · exact .inl (Nested.opened (ts := []) .nil h1)
          · cases e1
            have hlen : vs.length ≤ k := by rw [e2] at hl; simp at hl; omega
            rcases ih vs stack hlen h2 with h3 | ⟨m', rest', us', vs', e1', e2', h1', h2'⟩
            · left
              rw [e2]
              cases h3 with
              | closed h3 => exact .closed (.elem h1 h3)
              | opened h3 h4 =>
                rename_i us3 us4 n3 a3
                have := Nested.opened (n := n3) (a := a3) (Closed.elem (n := n) (a := a) h1 h3) h4
                simpa using this
            · right
              refine ⟨m', rest', .start n a :: (us ++ .close n :: us'), vs', e1', ?_, .elem h1 h1', h2'⟩
              rw [e2, e2']; simp
        | close n =>
          cases stack with
          | nil => simp [checkEnds] at h
          | cons s stack =>
            simp only [checkEnds] at h
            split at h
            · rename_i hsn
              subst hsn
              exact .inr ⟨s, stack, [], ts, rfl, rfl, .nil, h⟩
            · cases h
  exact fun ts stack h => key ts.length ts stack (Nat.le_refl _) h

/-- **C68, what holds.** If a text is read, its tags are properly nested as far as they go: every end tag ends the
innermost open element, there are no surplus end tags, and no text or tag of it is cut off in the middle. -/
theorem C68_partial (u : Unicode) (s : List Char) (d : XmlDoc) (h : readXml u s = .ok d) :
    ∃ ts, lex s = .ok ts ∧ Nested ts := by
  unfold readXml at h
  cases hl : lex s with
  | error e => rw [hl] at h; cases h
  | ok ts =>
    refine ⟨ts, rfl, ?_⟩
    rw [hl] at h
    simp only [bind, Except.bind] at h
    split at h
    · rename_i hc
      rcases checkEnds_nested ts [] hc with h1 | ⟨n, rest, us, vs, e, _⟩
      · exact h1
      · cases e
    · cases h

/-- The same seen from outside: a text whose tags are not nested is refused. -/
theorem C68_refused (u : Unicode) (s : List Char) (ts : List Token) (hl : lex s = .ok ts) (hn : ¬Nested ts) :
    ∃ e, readXml u s = .error e := by
  cases h : readXml u s with
  | error e => exact ⟨e, rfl⟩
  | ok d =>
    obtain ⟨ts', h1, h2⟩ := C68_partial u s d h
    rw [hl] at h1; cases h1
    exact absurd h2 hn

example : readXml ⟨fun _ => false⟩ "<a><b></b></a></a>".toList = .error (.fail "end tag mismatch") ∧
    readXml ⟨fun _ => false⟩ "<a><b></a></b>".toList = .error (.fail "end tag mismatch") ∧
    readXml ⟨fun _ => false⟩ "<a><b></b".toList = .error (.fail "unexpected end of file") := by decide +kernel

/-- `</a>` without start tag is not nested. -/
example : ¬Nested [.close ['a']] := by
  have hc : ∀ ts, Closed ts → ∀ n r, ts ≠ .close n :: r := by
    intro ts h n r e; subst e; cases h
  intro h
  generalize hts : [Token.close ['a']] = ts at h
  cases h with
  | closed h => exact hc _ h _ _ hts.symm
  | opened h1 h2 =>
    rename_i us vs n a
    cases us with
    | nil => simp at hts
    | cons x xs =>
      simp only [List.cons_append, List.cons.injEq] at hts
      exact hc _ h1 ['a'] xs (by rw [← hts.1])

/-- **C68, as stated, is false.** A document cut off after any complete tag is accepted, its remaining elements
closed silently. -/
theorem C68_violated : ¬∀ (u : Unicode) (s : List Char) (d : XmlDoc), readXml u s = .ok d → ∃ ts, lex s = .ok ts ∧ OneRoot ts := by
  intro h
  obtain ⟨ts, h1, h2⟩ := h ⟨fun _ => false⟩ "<a><b>x</b>".toList _ (by decide +kernel :
    readXml ⟨fun _ => false⟩ "<a><b>x</b>".toList = .ok { runningId := 1, ns := [], elems := [(0, { id := 0, parentId := 0, tag := "a", attrs := some [], value := none, children := [⟨1, "b"⟩] }), (1, { id := 1, parentId := 0, tag := "b", attrs := some [], value := some "x", children := [] })] })
  rw [(by decide +kernel : lex "<a><b>x</b>".toList = .ok [.start ['a'] [], .start ['b'] [], .text ['x'], .close ['b']])] at h1
  cases h1
  generalize hts : [Token.start ['a'] [], .start ['b'] [], .text ['x'], .close ['b']] = ts at h2
  cases h2 with
  | empty => simp at hts
  | elem hc =>
    rename_i n a ts'
    simp only [List.cons.injEq, Token.start.injEq] at hts
    obtain ⟨⟨rfl, rfl⟩, h3⟩ := hts
    have := congrArg List.getLast? h3
    simp at this

theorem checkEnds_prefix : ∀ (ts us : List Token) (stack : List (List Char)), checkEnds stack (ts ++ us) = true → checkEnds stack ts = true := by
  intro ts us
  induction ts with
  | nil => intro stack _; cases stack <;> rfl
  | cons t ts ih =>
    intro stack h
    cases t with
    | start n a => exact ih _ h
    | empty n a => exact ih _ h
    | text x => exact ih _ h
    | close n =>
      cases stack with
      | nil => cases h
      | cons m stack =>
        simp only [List.cons_append, checkEnds] at h ⊢
        split at h
        · rename_i hm; rw [if_pos hm]; exact ih _ h
        · cases h

theorem readLoop_prefix {u : Unicode} : ∀ (ts us : List Token) (s s' : RState), readLoop u s (ts ++ us) = .ok s' →
    ∃ s1, readLoop u s ts = .ok s1 := by
  intro ts us
  induction ts with
  | nil => intro s s' _; exact ⟨s, rfl⟩
  | cons t ts ih =>
    intro s s' h
    simp only [List.cons_append, readLoop, bind, Except.bind] at h ⊢
    split at h
    · cases h
    · rename_i s1 hs
      exact ih s1 s' h

/-- **C68, why.** Whatever text the library accepts, it also accepts cut off after any of its tags or texts: a
damaged part of a package is not recognised. -/
theorem C68_truncated (u : Unicode) (s t : List Char) (ts us : List Token) (d : XmlDoc) (h : readXml u (s ++ t) = .ok d)
    (hs : lex s = .ok ts) (hst : lex (s ++ t) = .ok (ts ++ us)) : ∃ d', readXml u s = .ok d' := by
  unfold readXml at h ⊢
  rw [hst] at h
  rw [hs]
  simp only [bind, Except.bind] at h ⊢
  split at h
  · rename_i hc
    rw [if_pos (checkEnds_prefix ts us [] hc)]
    split at h
    · cases h
    · rename_i s' hr
      obtain ⟨s1, h1⟩ := readLoop_prefix ts us _ _ hr
      rw [h1]
      exact ⟨_, rfl⟩
  · cases h

example : lex "<a><b>x</b>".toList = .ok [.start ['a'] [], .start ['b'] [], .text ['x'], .close ['b']] ∧
    lex ("<a><b>x</b>".toList ++ "<c/></a>".toList) = .ok ([.start ['a'] [], .start ['b'] [], .text ['x'], .close ['b']] ++ [.empty ['c'] [], .close ['a']]) ∧
    (readXml ⟨fun _ => false⟩ ("<a><b>x</b>".toList ++ "<c/></a>".toList)).isOk = true := by decide +kernel

/-- **C68.** Text outside the root becomes the root's text, a second root becomes a child of the first, and an empty
text is accepted as a document without root. -/
theorem C68_violated_outside :
    (readXml ⟨fun _ => false⟩ "<a><b></b></a>junk".toList).map (fun d => d.toXDoc.root) =
      .ok (some (.mk "a" (some []) (some "junk") [.mk "b" (some []) none []])) ∧
    (readXml ⟨fun _ => false⟩ "<a></a><b></b><c/>".toList).map (fun d => d.toXDoc.root) =
      .ok (some (.mk "a" (some []) none [.mk "b" (some []) none [], .mk "c" (some []) none []])) ∧
    (readXml ⟨fun _ => false⟩ []).map (fun d => d.toXDoc.root) = .ok none := by
  refine ⟨?_, ?_, ?_⟩ <;> decide +kernel

/-! ## C69 -/

/-- **C69, what is read.** Every well-formed document whose root has an end tag is read, whatever its quotes, white
space, entities, comments and processing instructions. Elements come with tags, nesting and order; attributes with
their raw values; the text of an element is the last of its texts that is not blank, trimmed, with entities resolved. -/
theorem C69_reads (u : Unicode) (x : SDoc) (h : x.Ok u) :
    ∃ d, readXml u x.text = .ok d ∧ Reachable u d ∧ d.toXDoc.root = x.root.node := by
  obtain ⟨d, h1, _, h3⟩ := readXml_source h
  exact ⟨d, h1, .read h1, by rw [h3]⟩

theorem unescape_plain {s : List Char} (h : '&' ∉ s) : unescape s = .ok s := by
  unfold unescape
  induction s with
  | nil => rfl
  | cons c cs ih =>
    simp only [List.mem_cons, not_or] at h
    rw [unescapeFrom, if_neg (Ne.symm h.1), ih h.2]
    rfl

theorem decoded_plain {s : List Char} (h : '&' ∉ s) : decoded s = String.ofList s := by
  unfold decoded; rw [unescape_plain h]

theorem blank_decoded {s : List Char} (h : Blank s) : decoded s = String.ofList s :=
  decoded_plain (fun hm => by have := h _ hm; simp [isXmlSpace] at this)

theorem plainAttrs_decoded {attrs : List SAttr} (h : NoEntities attrs) :
    (plainAttrs attrs).map (fun kv => (kv.1, decoded kv.2.toList)) = plainAttrs attrs := by
  rw [List.map_congr_left (g := id), List.map_id]
  intro kv hkv
  unfold plainAttrs at hkv
  obtain ⟨a, ha, rfl⟩ := List.mem_map.mp (List.mem_filter.mp hkv).1
  simp only [String.toList_ofList, decoded_plain (h a ha), id]

theorem simples_iff {ss : List Src} : Src.Simples ss ↔ ∀ s ∈ ss, s.Simple := by
  induction ss with
  | nil => simp [Src.Simples]
  | cons s ss ih => simp [Src.Simples, ih]

theorem chars_simple {s : Src} (h : s.Simple) : s.chars = (decoded s.pre).toList := by
  cases s <;> simp [Src.chars, Src.Simple] at *

theorem flatMap_chars {body : List Src} (h : Src.Simples body) (tail : List Char) :
    body.flatMap Src.chars ++ (decoded tail).toList = (body.map Src.pre ++ [tail]).flatMap (fun p => (decoded p).toList) := by
  induction body with
  | nil => simp
  | cons s ss ih =>
    simp only [List.flatMap_cons, List.map_cons, List.cons_append, List.append_assoc]
    rw [chars_simple h.1, ih h.2]

theorem lastText_one {ps : List (List Char)} (h : OneText ps) :
    lastText ps = if (ps.flatMap (fun p => (decoded p).toList)).all isXmlSpace then none
      else some (String.ofList (ps.flatMap (fun p => (decoded p).toList))) := by
  rcases h with h | ⟨l, t, r, rfl, h1, h2, h3⟩
  · have e1 : lastText ps = none := by
      unfold lastText
      have : (ps.map trimXml).filter (fun s => s ≠ []) = [] := by
        rw [List.filter_eq_nil_iff]
        intro s hs
        obtain ⟨p, hp, rfl⟩ := List.mem_map.mp hs
        simp [blank_trim (h p hp)]
      rw [this]; rfl
    have e2 : (ps.flatMap (fun p => (decoded p).toList)).all isXmlSpace = true := by
      rw [List.all_eq_true]
      intro c hc
      obtain ⟨p, hp, hc⟩ := List.mem_flatMap.mp hc
      rw [blank_decoded (h p hp), String.toList_ofList] at hc
      exact h p hp c hc
    rw [e1, if_pos e2]
  · have hnil : ∀ l : List (List Char), (∀ p ∈ l, p = []) → l.flatMap (fun p => (decoded p).toList) = [] := by
      intro l hl
      rw [List.flatMap_eq_nil_iff]
      intro p hp
      rw [hl p hp]; rfl
    have hf : ∀ l : List (List Char), (∀ p ∈ l, p = []) → (l.map trimXml).filter (fun s => s ≠ []) = [] := by
      intro l hl
      rw [List.filter_eq_nil_iff]
      intro s hs
      obtain ⟨p, hp, rfl⟩ := List.mem_map.mp hs
      rw [hl p hp]; decide
    have hl := fun p hp => h1 p (List.mem_append_left _ hp)
    have hr := fun p hp => h1 p (List.mem_append_right _ hp)
    rw [List.flatMap_append, List.flatMap_cons, hnil l hl, hnil r hr, List.append_nil, List.nil_append]
    have htne : t ≠ [] := by
      rintro rfl
      exact h3 (by intro c hc; simp [decoded, unescape, unescapeFrom] at hc)
    have e1 : lastText (l ++ t :: r) = some (decoded t) := by
      unfold lastText
      rw [List.map_append, List.map_cons, List.filter_append, List.filter_cons, hf l hl, hf r hr, h2]
      simp [htne]
    have e2 : ¬(decoded t).toList.all isXmlSpace = true := by
      rw [List.all_eq_true]; exact h3
    rw [e1, if_neg e2, String.ofList_toList]

theorem ideal_simple : ∀ s : Src, s.Simple → s.node = s.ideal := by
  refine Src.ind ?_ ?_ ?_ ?_ ?_ ?_
  · intro pre name attrs sp body tail endSp ih h
    obtain ⟨h1, h2, h3⟩ := h
    have hn : Src.nodes body = Src.ideals body := by
      clear h2
      induction body with
      | nil => rfl
      | cons s ss ih2 =>
        simp only [Src.nodes, Src.ideals]
        rw [ih s (by simp) h3.1, ih2 (fun x hx => ih x (by simp [hx])) h3.2]
    simp only [Src.node, Src.ideal]
    rw [plainAttrs_decoded h1, hn, lastText_one h2, elemText, flatMap_chars h3]
  · intro pre name attrs sp h
    simp only [Src.node, Src.ideal]
    rw [plainAttrs_decoded h]
  · intros; rfl
  · intro pre s h; exact absurd h (by simp [Src.Simple])
  · intros; rfl
  · intros; rfl

/-- **C69 for text as most programs write it.** Without CDATA sections and entities in attribute values, and when each
element has one trimmed text or child elements, what is read is exactly what the text stands for. -/
theorem C69_partial (u : Unicode) (x : SDoc) (h : x.Ok u) (hs : x.root.Simple) :
    ∃ d, readXml u x.text = .ok d ∧ Reachable u d ∧ d.toXDoc.root = x.root.ideal := by
  obtain ⟨d, h1, h2, h3⟩ := C69_reads u x h
  exact ⟨d, h1, h2, by rw [h3, ideal_simple _ hs]⟩

/-- A root with one text-like piece inside. -/
def oneDoc (attrs : List SAttr) (body : List Src) (tail : String) : SDoc :=
  { before := [.pi [] "xml version='1.0'".toList], root := .elem ['\n'] ['t'] attrs [] body tail.toList [], after := [], final := ['\n'] }

theorem oneDoc_ok {attrs : List SAttr} {body : List Src} {tail : String}
    (h1 : TagOk ⟨fun _ => false⟩ ['t'] attrs []) (h2 : Src.Oks ⟨fun _ => false⟩ body) (h3 : TextOk tail.toList) :
    (oneDoc attrs body tail).Ok ⟨fun _ => false⟩ := by
  refine ⟨⟨⟨⟨⟨by decide, ⟨[], by decide +kernel⟩⟩, by decide, ?_⟩, trivial⟩, ?_⟩, ⟨⟨⟨by decide, ⟨[], by decide +kernel⟩⟩, h1, h2, h3, by simp [Blank]⟩, ?_⟩, ?_, ⟨trivial, ?_⟩, ?_⟩
  · intro l r h
    have : '>' ∈ "xml version='1.0'".toList := by rw [h]; simp
    revert this; decide
  · intro s hs
    simp only [oneDoc, List.mem_singleton] at hs
    subst hs
    simp [Misc, Blank]
  · intro c hc
    simp only [oneDoc, Src.pre, List.mem_singleton] at hc
    subst hc; decide
  · exact ⟨_, _, _, _, _, _, _, rfl⟩
  · simp [oneDoc]
  · intro c hc
    simp only [oneDoc, List.mem_singleton] at hc
    subst hc; decide

theorem noAttrs_ok : TagOk ⟨fun _ => false⟩ ['t'] [] [] := ⟨by decide +kernel, by simp, by simp, by simp [Blank], by simp⟩

/-- A CDATA section, a comment inside a text, white space around a text, an entity in an attribute. -/
def lossy : List SDoc :=
  [oneDoc [] [.cdata [] ['5']] "",
   oneDoc [] [.comment ['a'] ['c']] "b",
   oneDoc [] [] " a ",
   oneDoc [⟨[' '], ['k'], [], [], '"', "&amp;".toList⟩] [] ""]

theorem lossy_ok : ∀ x ∈ lossy, x.Ok ⟨fun _ => false⟩ ∧ x.root.node ≠ x.root.ideal := by
  intro x hx
  simp only [lossy, List.mem_cons, List.not_mem_nil, or_false] at hx
  have hnil : TextOk [] := ⟨by simp, ⟨[], by decide +kernel⟩⟩
  rcases hx with rfl | rfl | rfl | rfl
  · refine ⟨oneDoc_ok noAttrs_ok ⟨⟨hnil, ?_⟩, trivial⟩ ⟨by simp, ⟨[], by decide +kernel⟩⟩, by decide +kernel⟩
    intro l r h
    have : ']' ∈ (['5'] : List Char) := by rw [h]; simp
    revert this; decide
  · refine ⟨oneDoc_ok noAttrs_ok ⟨⟨⟨by decide, ⟨['a'], by decide +kernel⟩⟩, ?_, ?_⟩, trivial⟩ ⟨by decide, ⟨['b'], by decide +kernel⟩⟩, by decide +kernel⟩
    · intro l r h
      have : '-' ∈ (['c'] : List Char) := by rw [h]; simp
      revert this; decide
    · intro l h
      have : '-' ∈ (['c'] : List Char) := by rw [h]; simp
      revert this; decide
  · exact ⟨oneDoc_ok noAttrs_ok trivial ⟨by decide, ⟨['a'], by decide +kernel⟩⟩, by decide +kernel⟩
  · refine ⟨oneDoc_ok ⟨by decide +kernel, ?_, by simp, by simp [Blank], bindings_of (by decide +kernel)⟩ trivial ⟨by simp, ⟨[], by decide +kernel⟩⟩, by decide +kernel⟩
    intro a ha
    rw [List.mem_singleton] at ha
    subst ha
    refine ⟨⟨?_, by simp⟩, by decide +kernel, ⟨by simp [Blank], by simp [Blank]⟩, .inl rfl, by decide⟩
    intro c hc
    simp only [List.mem_singleton] at hc
    subst hc; decide

/-- **C69, as stated, is false**, for four independent reasons: content of a CDATA section is dropped; a comment (or
child) inside a text makes everything before it disappear; white space around a text is removed; entities in attribute
values are not resolved. Each of the four documents is well-formed and read as something else. -/
theorem C69_violated : ∀ x ∈ lossy, x.Ok ⟨fun _ => false⟩ ∧
    ¬∃ d, readXml ⟨fun _ => false⟩ x.text = .ok d ∧ d.toXDoc.root = x.root.ideal := by
  intro x hx
  obtain ⟨hok, hne⟩ := lossy_ok x hx
  refine ⟨hok, ?_⟩
  rintro ⟨d, h1, h2⟩
  obtain ⟨d', h1', _, h3⟩ := C69_reads _ x hok
  rw [h1] at h1'
  cases h1'
  exact hne (h3.symm.trans h2)

example : lossy.map (fun x => String.ofList x.text) =
    ["<?xml version='1.0'?>\n<t><![CDATA[5]]></t>\n", "<?xml version='1.0'?>\n<t>a<!--c-->b</t>\n",
     "<?xml version='1.0'?>\n<t> a </t>\n", "<?xml version='1.0'?>\n<t k=\"&amp;\"></t>\n"] := by decide +kernel

example : lossy.map (fun x => x.root.node) =
    [some (.mk "t" (some []) none []), some (.mk "t" (some []) (some "b") []), some (.mk "t" (some []) (some "a") []),
     some (.mk "t" (some [("k", "&amp;")]) none [])] := by decide +kernel

/-- A document within the hypotheses of `C69_partial`: indented child elements, an entity in a text, both quotes, white
space around `=` and a comment between elements. -/
def simpleDoc : SDoc :=
  oneDoc [⟨[' '], "k".toList, [' '], ['\t'], '\'', "1\"2".toList⟩]
    [.comment "\n  ".toList " note ".toList,
     .elem "\n  ".toList "b".toList [] [] [] "x&lt;y".toList [' '],
     .void "\n  ".toList "c".toList [⟨"\n".toList, "xml:space".toList, [], [], '"', "preserve".toList⟩] [' ']] "\n"

theorem simpleDoc_ok : simpleDoc.Ok ⟨fun _ => false⟩ ∧ simpleDoc.root.Simple := by
  have sp : ∀ s : List Char, s.all isXmlSpace = true → Blank s := fun s h => List.all_eq_true.mp h
  constructor
  · refine oneDoc_ok ⟨by decide +kernel, ?_, by simp, by simp [Blank], bindings_of (by decide +kernel)⟩ ⟨⟨⟨by decide, ⟨[], by decide +kernel⟩⟩, ?_, ?_⟩,
      ⟨⟨by decide, ⟨[], by decide +kernel⟩⟩, ⟨by decide +kernel, by simp, by simp, by simp [Blank], by simp⟩, trivial,
        ⟨by decide, ⟨"x<y".toList, by decide +kernel⟩⟩, sp _ (by decide)⟩,
      ⟨⟨by decide, ⟨[], by decide +kernel⟩⟩, ⟨by decide +kernel, ?_, by simp, sp _ (by decide), bindings_of (by decide +kernel)⟩⟩, trivial⟩ ⟨by decide, ⟨[], by decide +kernel⟩⟩
    · intro a ha
      rw [List.mem_singleton] at ha
      subst ha
      exact ⟨⟨sp _ (by decide), by simp⟩, by decide +kernel, ⟨sp _ (by decide), sp _ (by decide)⟩, .inr rfl, by decide⟩
    · intro l r h
      have : '-' ∈ " note ".toList := by rw [h]; simp
      revert this; decide
    · intro l h
      have : '-' ∈ " note ".toList := by rw [h]; simp
      revert this; decide
    · intro a ha
      rw [List.mem_singleton] at ha
      subst ha
      exact ⟨⟨sp _ (by decide), by simp⟩, by decide +kernel, ⟨by simp [Blank], by simp [Blank]⟩, .inl rfl, by decide⟩
  · refine ⟨by simp [NoEntities], .inl ?_, trivial, ⟨by simp [NoEntities], .inr ⟨[], "x&lt;y".toList, [], rfl, by simp, by decide, ?_⟩, trivial⟩, by simp [Src.Simple, NoEntities], trivial⟩
    · intro p hp
      simp only [List.map_cons, List.map_nil, Src.pre, List.cons_append, List.nil_append, List.mem_cons, List.not_mem_nil, or_false] at hp
      rcases hp with rfl | rfl | rfl | rfl <;> exact sp _ (by decide)
    · intro h
      have := h 'x' (by decide +kernel)
      revert this; decide

example : String.ofList simpleDoc.text =
    "<?xml version='1.0'?>\n<t k =\t'1\"2'>\n  <!-- note -->\n  <b>x&lt;y</b >\n  <c\nxml:space=\"preserve\" />\n</t>\n" := by decide +kernel

example : simpleDoc.root.ideal = some (.mk "t" (some [("k", "1\"2")]) none
    [.mk "b" (some []) (some "x<y") [], .mk "c" (some [("xml:space", "preserve")]) none []]) := by decide +kernel

/-- Brackets closed after `d` open ones, checked character by character. -/
def openedFrom : Nat → List Char → Bool
  | _, [] => true
  | d, c :: cs =>
    if c = '<' then openedFrom (d + 1) cs
    else if c = '>' then match d with
      | 0 => false
      | d + 1 => openedFrom d cs
    else openedFrom d cs

theorem openedFrom_spec {s : List Char} : ∀ {d : Nat}, openedFrom d s = true →
    ∀ l r, s = l ++ '>' :: r → l.count '>' < l.count '<' + d := by
  induction s with
  | nil => intro d _ l r h; simp at h
  | cons c cs ih =>
    intro d h l r hl
    cases l with
    | nil =>
      simp only [List.nil_append, List.cons.injEq] at hl
      obtain ⟨rfl, rfl⟩ := hl
      cases d with
      | zero => simp [openedFrom] at h
      | succ d => simp
    | cons x xs =>
      simp only [List.cons_append, List.cons.injEq] at hl
      obtain ⟨rfl, rfl⟩ := hl
      unfold openedFrom at h
      split at h
      · rename_i hc
        subst hc
        have := ih h xs r rfl
        simp
        omega
      · rename_i hc
        split at h
        · rename_i hc2
          subst hc2
          cases d with
          | zero => cases h
          | succ d =>
            have := ih h xs r rfl
            simp
            omega
        · rename_i hc2
          have := ih h xs r rfl
          rw [List.count_cons_of_ne (by exact hc2), List.count_cons_of_ne (by exact hc)]
          omega

/-- A document with a document type in front, which contains declarations of its own. -/
def doctypeDoc : SDoc :=
  { simpleDoc with before := [.doctype [] " t SYSTEM 't.dtd' [<!ELEMENT t ANY><!ELEMENT b ANY>]".toList] }

example : doctypeDoc.Ok ⟨fun _ => false⟩ ∧ doctypeDoc.root.Simple ∧
    ∃ d, readXml ⟨fun _ => false⟩ doctypeDoc.text = .ok d ∧ d.toXDoc.root = simpleDoc.root.ideal := by
  have hd : DoctypeOk " t SYSTEM 't.dtd' [<!ELEMENT t ANY><!ELEMENT b ANY>]".toList := by
    refine ⟨?_, by decide +kernel, ?_⟩
    · intro h
      have := h 't' (by decide +kernel)
      revert this; decide
    · intro l r h
      simpa using openedFrom_spec (d := 0) (by decide +kernel) l r h
  have hok : doctypeDoc.Ok ⟨fun _ => false⟩ := by
    refine ⟨⟨⟨⟨⟨by simp, ⟨[], by decide +kernel⟩⟩, hd⟩, trivial⟩, ?_⟩, simpleDoc_ok.1.root, simpleDoc_ok.1.isElem, simpleDoc_ok.1.after,
      simpleDoc_ok.1.final⟩
    intro s hs
    simp only [doctypeDoc, List.mem_singleton] at hs
    subst hs
    simp [Misc, Blank]
  obtain ⟨d, h1, _, h3⟩ := C69_partial _ doctypeDoc hok simpleDoc_ok.2
  exact ⟨hok, simpleDoc_ok.2, d, h1, h3⟩

/-! ### Namespaces -/

theorem aget_addNs_prefix {m : Attrs} {q v : String} (hq : ':' ∉ q.toList) (p : String) :
    aget p (addNs m ("xmlns:" ++ q) v) = if q = p ∧ aget p m = none then some v else aget p m := by
  unfold addNs
  rw [nsAlias_prefix hq]
  simp only
  split
  · rename_i h
    rw [if_neg]
    rintro ⟨rfl, hn⟩
    unfold ahas at h; rw [hn] at h; cases h
  · rename_i h
    rw [aget_ainsert]
    by_cases hqp : q = p
    · subst hqp
      have : aget q m = none := by
        unfold ahas at h
        cases hm : aget q m with
        | none => rfl
        | some x => rw [hm] at h; simp at h
      simp [this]
    · rw [if_neg hqp, if_neg (fun h => hqp h.1)]

theorem aget_addNs_default {m : Attrs} {v : String} (p : String) :
    aget p (addNs m "xmlns" v) = if defaultNsKey = p then some v else aget p m := by
  unfold addNs
  rw [nsAlias_default, aget_ainsert]

/-- Declarations are `xmlns` or `xmlns:prefix`. -/
def DeclsOk (ds : Attrs) : Prop := ∀ kv ∈ ds, kv.1 = "xmlns" ∨ ∃ q, kv.1 = "xmlns:" ++ q ∧ ':' ∉ q.toList ∧ q ≠ defaultNsKey

theorem xmlns_ne (q : String) : "xmlns" ≠ "xmlns:" ++ q := by
  intro h
  have := congrArg (fun s => s.toList.length) h
  simp at this

theorem xmlns_inj {p q : String} (h : "xmlns:" ++ p = "xmlns:" ++ q) : p = q := by
  have := congrArg String.toList h
  rw [String.toList_append, String.toList_append] at this
  exact String.toList_inj.mp (List.append_cancel_left this)

theorem declare_lookup (ds : Attrs) (h : DeclsOk ds) : ∀ m : Attrs,
    (∀ p, p ≠ defaultNsKey → aget p (declare m ds) = (aget p m).or (firstValue ("xmlns:" ++ p) ds)) ∧
    aget defaultNsKey (declare m ds) = (lastValue "xmlns" ds).or (aget defaultNsKey m) := by
  induction ds with
  | nil => intro m; exact ⟨fun p _ => by simp [declare, firstValue], by simp [declare, lastValue]⟩
  | cons kv ds ih =>
    intro m
    obtain ⟨k, v⟩ := kv
    have ih' := ih (fun x hx => h x (by simp [hx])) (addNs m k v)
    have hk := h (k, v) (by simp)
    simp only at hk
    have hd : declare m ((k, v) :: ds) = declare (addNs m k v) ds := rfl
    constructor
    · intro p hp
      rw [hd, ih'.1 p hp]
      rcases hk with rfl | ⟨q, rfl, hq, hqd⟩
      · rw [aget_addNs_default, if_neg (Ne.symm hp)]
        have : firstValue ("xmlns:" ++ p) (("xmlns", v) :: ds) = firstValue ("xmlns:" ++ p) ds := by
          unfold firstValue; rw [List.filter_cons, if_neg (by simpa using xmlns_ne p)]
        rw [this]
      · rw [aget_addNs_prefix hq]
        by_cases hqp : q = p
        · subst hqp
          have : firstValue ("xmlns:" ++ q) (("xmlns:" ++ q, v) :: ds) = some v := by
            unfold firstValue; rw [List.filter_cons, if_pos (by simp)]; rfl
          rw [this]
          cases hm : aget q m <;> simp
        · rw [if_neg (fun h => hqp h.1)]
          have : firstValue ("xmlns:" ++ p) (("xmlns:" ++ q, v) :: ds) = firstValue ("xmlns:" ++ p) ds := by
            unfold firstValue; rw [List.filter_cons, if_neg (by simpa using fun e => hqp (xmlns_inj e))]
          rw [this]
    · rw [hd, ih'.2]
      rcases hk with rfl | ⟨q, rfl, hq, hqd⟩
      · rw [aget_addNs_default, if_pos rfl]
        unfold lastValue
        rw [List.filter_cons, if_pos (by simp), List.getLast?_cons]
        cases (ds.filter (fun kv => kv.1 = "xmlns")).getLast? <;> simp
      · rw [aget_addNs_prefix hq, if_neg (fun h => hqd h.1)]
        have : lastValue "xmlns" (("xmlns:" ++ q, v) :: ds) = lastValue "xmlns" ds := by
          unfold lastValue; rw [List.filter_cons, if_neg (by simpa using Ne.symm (xmlns_ne q))]
        rw [this]

/-- **C69, namespaces.** All declarations of a document end up in one table: a prefix keeps its first declaration in
document order, the default namespace its last. -/
theorem C69_namespaces (u : Unicode) (x : SDoc) (h : x.Ok u) (hd : DeclsOk x.root.decls) :
    ∃ d, readXml u x.text = .ok d ∧ (∀ p, p ≠ defaultNsKey → aget p d.ns = firstValue ("xmlns:" ++ p) x.root.decls) ∧
      aget defaultNsKey d.ns = lastValue "xmlns" x.root.decls := by
  obtain ⟨d, h1, _, h3⟩ := readXml_source h
  have hns : d.ns = declare [] x.root.decls := congrArg XDoc.ns h3
  have := declare_lookup _ hd []
  refine ⟨d, h1, fun p hp => ?_, ?_⟩
  · rw [hns, this.1 p hp]; rfl
  · rw [hns, this.2]; simp [aget]

/-- The same document in a file that starts with a byte order mark. -/
example : ({ simpleDoc with bom := true } : SDoc).Ok ⟨fun _ => false⟩ ∧
    ({ simpleDoc with bom := true } : SDoc).text = '\uFEFF' :: simpleDoc.text :=
  ⟨⟨simpleDoc_ok.1.before, simpleDoc_ok.1.root, simpleDoc_ok.1.isElem, simpleDoc_ok.1.after, simpleDoc_ok.1.final⟩, rfl⟩

/-- A root with a default namespace and a prefix, and a child with its own default namespace. -/
def nsDoc : SDoc :=
  oneDoc [⟨[' '], "xmlns".toList, [], [], '"', "main".toList⟩, ⟨[' '], "xmlns:r".toList, [], [], '"', "rel".toList⟩]
    [.void [] "e".toList [⟨[' '], "xmlns".toList, [], [], '"', "other".toList⟩] []] ""

theorem nsDoc_ok : nsDoc.Ok ⟨fun _ => false⟩ ∧ DeclsOk nsDoc.root.decls ∧
    firstValue "xmlns:r" nsDoc.root.decls = some "rel" ∧ lastValue "xmlns" nsDoc.root.decls = some "other" := by
  have sp : ∀ s : List Char, s.all isXmlSpace = true → Blank s := fun s h => List.all_eq_true.mp h
  refine ⟨oneDoc_ok ⟨by decide +kernel, ?_, by decide, by simp [Blank], bindings_of (by decide +kernel)⟩
    ⟨⟨⟨by simp, ⟨[], by decide +kernel⟩⟩, ⟨by decide +kernel, ?_, by simp, by simp [Blank], bindings_of (by decide +kernel)⟩⟩, trivial⟩ ⟨by simp, ⟨[], by decide +kernel⟩⟩, ?_,
    by decide +kernel, by decide +kernel⟩
  · intro a ha
    simp only [List.mem_cons, List.not_mem_nil, or_false] at ha
    rcases ha with rfl | rfl <;>
      exact ⟨⟨sp _ (by decide), by simp⟩, by decide +kernel, ⟨by simp [Blank], by simp [Blank]⟩, .inl rfl, by decide⟩
  · intro a ha
    rw [List.mem_singleton] at ha
    subst ha
    exact ⟨⟨sp _ (by decide), by simp⟩, by decide +kernel, ⟨by simp [Blank], by simp [Blank]⟩, .inl rfl, by decide⟩
  · intro kv hkv
    rw [(by decide +kernel : nsDoc.root.decls = [("xmlns", "main"), ("xmlns:r", "rel"), ("xmlns", "other")])] at hkv
    simp only [List.mem_cons, List.not_mem_nil, or_false] at hkv
    rcases hkv with rfl | rfl | rfl
    · exact .inl rfl
    · exact .inr ⟨"r", by decide +kernel, by decide, by decide +kernel⟩
    · exact .inl rfl

/-- **C69, namespaces of children leak.** A default namespace declared on a child becomes the namespace of the whole
document: the root of this document is in `main` when read and in `other` when saved. -/
theorem C69_violated_namespaces : ∃ d, readXml ⟨fun _ => false⟩ nsDoc.text = .ok d ∧ aget defaultNsKey d.ns = some "other" := by
  obtain ⟨d, h1, _, h3⟩ := C69_namespaces _ nsDoc nsDoc_ok.1 nsDoc_ok.2.1
  exact ⟨d, h1, by rw [h3]; exact nsDoc_ok.2.2.2⟩

end Oxml
