import Verif.Proofs.Lexer
import Verif.Spec.Reload
/-!
# Tokens of a written document
-/
namespace Oxml
open Spec

theorem wfNodes_iff {u : Unicode} {cs : List Node} : WfNodes u cs ↔ ∀ c ∈ cs, WfNode u c := by
  induction cs with
  | nil => simp [WfNodes]
  | cons c cs ih => simp [WfNodes, ih]

theorem reloads_eq (cs : List Node) : reloads cs = cs.map reload := by
  induction cs with
  | nil => rfl
  | cons c cs ih => simp [reloads, ih]

theorem renders_eq (b : Build) (cs : List Node) : renders b cs = cs.flatMap (render b) := by
  induction cs with
  | nil => rfl
  | cons c cs ih => simp [renders, ih]

/-! ### Sorting attributes -/

theorem insertByKey_perm (kv : String × String) (a : Attrs) : (insertByKey kv a).Perm (kv :: a) := by
  induction a with
  | nil => exact List.Perm.refl _
  | cons x xs ih =>
    unfold insertByKey
    split
    · exact List.Perm.refl _
    · exact (List.Perm.cons x ih).trans (List.Perm.swap _ _ _)

theorem sortAttrs_perm (a : Attrs) : (sortAttrs a).Perm a := by
  induction a with
  | nil => exact List.Perm.refl _
  | cons x xs ih =>
    change (insertByKey x (sortAttrs xs)).Perm (x :: xs)
    exact (insertByKey_perm x _).trans (List.Perm.cons x ih)

theorem akeys_sortAttrs_perm (a : Attrs) : (akeys (sortAttrs a)).Perm (akeys a) := (sortAttrs_perm a).map _

theorem aget_perm {K V : Type} [DecidableEq K] {m m' : List (K × V)} (hp : m.Perm m') (hn : (akeys m).Nodup) (k : K) :
    aget k m = aget k m' := by
  have hn' : (akeys m').Nodup := (hp.map Prod.fst).nodup_iff.mp hn
  cases h : aget k m with
  | none =>
    have := (aget_eq_none_iff k m).mp h
    symm
    rw [aget_eq_none_iff]
    intro hk; exact this ((hp.map Prod.fst).mem_iff.mpr hk)
  | some v =>
    symm
    exact aget_of_mem hn' (hp.mem_iff.mp (mem_of_aget h))

/-! ### Well-formed pairs -/

theorem isPrefixOf_of_append {p q l : List Char} (h : (p ++ q).isPrefixOf l = true) : p.isPrefixOf l = true := by
  rw [List.isPrefixOf_iff_prefix] at *
  exact (List.prefix_append p q).trans h

theorem badBinding_plain {kv : List Char × List Char} (h : "xmlns".toList.isPrefixOf kv.1 = false) : badBinding kv = false := by
  unfold badBinding
  rw [if_neg]
  intro h'
  have := isPrefixOf_of_append (p := "xmlns".toList) (q := [':']) (by simpa using h')
  rw [h] at this
  cases this

theorem badBinding_iff {p v : List Char} : badBinding ("xmlns:".toList ++ p, v) = true ↔ Reserved (String.ofList p) (String.ofList v) := by
  have hx : ∀ (l : List Char) (s : String), String.ofList l = s ↔ l = s.toList := by
    intro l s
    constructor
    · rintro rfl; simp
    · rintro rfl; simp
  have hd : ("xmlns:".toList ++ p).drop 6 = p := by simp
  unfold badBinding Reserved xmlUri xmlnsUri
  simp only [hx, ne_eq, hd]
  rw [if_pos (by rw [List.isPrefixOf_iff_prefix]; exact List.prefix_append _ _)]
  have hxx : "xml".toList ≠ "xmlns".toList := by decide +kernel
  generalize "xml".toList = a at *
  generalize "xmlns".toList = b at *
  generalize "http://www.w3.org/XML/1998/namespace".toList = c
  generalize "http://www.w3.org/2000/xmlns/".toList = d
  split
  · rename_i h
    subst h
    simp [hxx]
  · rename_i h
    simp [h, or_assoc]

theorem attrPairs_good {u : Unicode} {a : Attrs} (h : WfAttrs u (some a)) :
    (∀ p ∈ (sortAttrs a).map attrPair, GoodPair p) ∧ (((sortAttrs a).map attrPair).map Prod.fst).Nodup := by
  obtain ⟨hn, hk⟩ := h a rfl
  constructor
  · intro p hp
    obtain ⟨kv, hkv, rfl⟩ := List.mem_map.mp hp
    have hmem : kv.1 ∈ akeys a := (akeys_sortAttrs_perm a).mem_iff.mp (List.mem_map.mpr ⟨kv, hkv, rfl⟩)
    have hs := validName_safe (hk _ hmem).1
    refine ⟨hs.1, hs.2, fun c hc => (escape_no_markup hc).2.2.1, badBinding_plain ?_⟩
    have := (hk _ hmem).2
    unfold isNsKey at this
    exact this
  · rw [List.map_map]
    have : (sortAttrs a).map (Prod.fst ∘ attrPair) = (akeys (sortAttrs a)).map String.toList := by
      simp [akeys, attrPair, Function.comp_def]
    rw [this]
    have hn' := (akeys_sortAttrs_perm a).nodup_iff.mpr hn
    exact List.Pairwise.map _ (fun x y hxy h => hxy (String.toList_inj.mp h)) hn'

theorem tagPairs_good {b : Build} {u : Unicode} {attrs : Option Attrs} (h : WfAttrs u attrs) :
    (∀ p ∈ tagPairs b attrs none, GoodPair p) ∧ ((tagPairs b attrs none).map Prod.fst).Nodup := by
  cases attrs with
  | none => simp [tagPairs]
  | some a => simpa [tagPairs] using attrPairs_good h

/-! ### Tokens of a tree -/

mutual
/-- Tokens of a written element. -/
def toks (b : Build) : Node → List Token
  | .mk tag attrs value cs =>
    match value, cs with
    | none, [] => [openToken b tag attrs none true]
    | some v, _ => openToken b tag attrs none false :: (textToken (escape v.toList).reverse ++ [.close tag.toList])
    | none, c :: cs' => openToken b tag attrs none false :: (toksL b (c :: cs') ++ [.close tag.toList])
def toksL (b : Build) : List Node → List Token
  | [] => []
  | c :: cs => toks b c ++ toksL b cs
end

theorem map_map_res {α β γ : Type} (r : Res α) (f : α → β) (g : β → γ) : (r.map f).map g = r.map (fun x => g (f x)) := by
  cases r <;> rfl

theorem lex_renders {b : Build} {cs : List Node}
    (h : ∀ c ∈ cs, ∀ rest, lexFrom (.text []) (render b c ++ rest) = (lexFrom (.text []) rest).map (toks b c ++ ·))
    (rest : List Char) : lexFrom (.text []) (renders b cs ++ rest) = (lexFrom (.text []) rest).map (toksL b cs ++ ·) := by
  induction cs with
  | nil => simp only [renders, toksL, List.nil_append]; cases lexFrom (.text []) rest <;> rfl
  | cons c cs ih =>
    simp only [renders, toksL, List.append_assoc]
    rw [h c (by simp), ih (fun x hx => h x (by simp [hx])), map_map_res]

theorem lex_close_empty {tag : String} (hne : tag.toList ≠ []) (ht : ∀ c ∈ tag.toList, SafeChar c) (rest : List Char) :
    lexFrom (.text []) (valueClose "" tag ++ rest) = (lexFrom (.text []) rest).map (Token.close tag.toList :: ·) := by
  rw [lex_valueClose hne ht]
  congr 1

theorem lex_render {b : Build} {u : Unicode} : ∀ n : Node, WfNode u n → ∀ rest,
    lexFrom (.text []) (render b n ++ rest) = (lexFrom (.text []) rest).map (toks b n ++ ·) := by
  refine Node.ind ?_
  intro tag attrs value cs ih hwf rest
  obtain ⟨htag, hattrs, hcs⟩ := hwf
  obtain ⟨hne, hsafe⟩ := validName_safe htag
  obtain ⟨hg, hd⟩ := tagPairs_good (b := b) hattrs
  have hkids := lex_renders (b := b) (fun c hc r => ih c hc (wfNodes_iff.mp hcs c hc) r)
  cases value with
  | some v =>
    simp only [render, toks, List.append_assoc]
    rw [lex_openTag hne hsafe hg hd, lex_valueClose hne hsafe, map_map_res]
    simp
  | none =>
    cases cs with
    | nil =>
      simp only [render, toks]
      rw [lex_openTag hne hsafe hg hd]
      rfl
    | cons c cs' =>
      simp only [render, toks, List.append_assoc]
      rw [lex_openTag hne hsafe hg hd, hkids, lex_close_empty hne hsafe, map_map_res, map_map_res]
      simp

/-! ### End tags match -/

theorem checkEnds_textToken (stack : List (List Char)) (acc : List Char) (rest : List Token) :
    checkEnds stack (textToken acc ++ rest) = checkEnds stack rest := by
  unfold textToken
  simp only
  split
  · rfl
  · simp [checkEnds]

theorem checkEnds_toksL {b : Build} {cs : List Node}
    (h : ∀ c ∈ cs, ∀ stack rest, checkEnds stack (toks b c ++ rest) = checkEnds stack rest) (stack : List (List Char))
    (rest : List Token) : checkEnds stack (toksL b cs ++ rest) = checkEnds stack rest := by
  induction cs with
  | nil => rfl
  | cons c cs ih =>
    simp only [toksL, List.append_assoc]
    rw [h c (by simp), ih (fun x hx => h x (by simp [hx]))]

theorem checkEnds_toks {b : Build} : ∀ (n : Node) (stack : List (List Char)) (rest : List Token),
    checkEnds stack (toks b n ++ rest) = checkEnds stack rest := by
  refine Node.ind ?_
  intro tag attrs value cs ih stack rest
  cases value with
  | some v =>
    simp only [toks, openToken, List.cons_append, List.append_assoc, Bool.false_eq_true, if_false, checkEnds]
    rw [checkEnds_textToken]
    simp [checkEnds]
  | none =>
    cases cs with
    | nil => simp [toks, openToken, checkEnds]
    | cons c cs' =>
      simp only [toks, openToken, List.cons_append, List.append_assoc, Bool.false_eq_true, if_false, checkEnds]
      rw [checkEnds_toksL ih]
      simp [checkEnds]

end Oxml
