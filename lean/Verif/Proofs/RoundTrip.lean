import Verif.Proofs.Reader
import Verif.Proofs.Writer
/-!
# Reading a written document
-/
namespace Oxml
open Spec LTree

/-! ### Validity of plain ASCII names -/

theorem isAlphabetic_mono (u : Unicode) (c : Char) (h : isAlphabetic ⟨fun _ => false⟩ c = true) : isAlphabetic u c = true := by
  unfold isAlphabetic at *
  split at h
  · rename_i hc; rw [if_pos hc]; exact h
  · cases h

theorem isNameStartChar_mono (u : Unicode) (c : Char) (h : isNameStartChar ⟨fun _ => false⟩ c = true) : isNameStartChar u c = true := by
  unfold isNameStartChar at *
  simp only [Bool.or_eq_true] at *
  rcases h with h | h
  · exact .inl h
  · exact .inr (isAlphabetic_mono u c h)

theorem isNameChar_mono (u : Unicode) (c : Char) (h : isNameChar ⟨fun _ => false⟩ c = true) : isNameChar u c = true := by
  unfold isNameChar at *
  simp only [Bool.or_eq_true] at *
  rcases h with (((h | h) | h) | h) | h
  · exact .inl (.inl (.inl (.inl (isNameStartChar_mono u c h))))
  · exact .inl (.inl (.inl (.inr h)))
  · exact .inl (.inl (.inr h))
  · exact .inl (.inr h)
  · exact .inr h

theorem nameTailOk_mono (u : Unicode) (cs : List Char) (n : Nat) (h : nameTailOk ⟨fun _ => false⟩ cs n = true) :
    nameTailOk u cs n = true := by
  induction cs generalizing n with
  | nil => rfl
  | cons c cs ih =>
    rw [nameTailOk] at h ⊢
    split at h
    · rename_i hc
      rw [if_pos hc]
      split at h
      · cases h
      · rename_i hn; rw [if_neg hn]; exact ih _ h
    · rename_i hc
      rw [if_neg hc]
      split at h
      · cases h
      · rename_i hn
        rw [if_neg]
        · exact ih _ h
        · simp at hn; simp [isNameChar_mono u c hn]

/-- A name valid without any non-ASCII letter is valid for every Unicode table. -/
theorem validName_ascii (u : Unicode) {n : String} (h : isValidXmlName ⟨fun _ => false⟩ n = true) :
    isValidXmlName u n = true := by
  unfold isValidXmlName at *
  split at h
  · cases h
  · split at h
    · cases h
    · rename_i c cs _ hc
      simp at hc
      simp [isNameStartChar_mono u c hc, nameTailOk_mono u cs 0 h]

/-! ### Header -/

theorem lexFrom_pi (acc content rest : List Char) (h : ∀ c ∈ content, c ≠ '>') :
    lexFrom (.pi acc) (content ++ '?' :: '>' :: rest) = lexFrom (.text []) rest := by
  induction content generalizing acc with
  | nil =>
    simp only [List.nil_append]
    rw [lexFrom, if_neg (by simp), if_neg (by simp), lexFrom, if_neg (by simp), if_pos ⟨rfl, rfl⟩]
  | cons c cs ih =>
    simp only [List.cons_append]
    rw [lexFrom, if_neg (by simp [h c (by simp)]), if_neg (by simp [h c (by simp)]), ih _ (fun x hx => h x (by simp [hx]))]

theorem bind_nil_append {r : Res (List Token)} : (do let x ← r; Except.ok (([] : List Token) ++ x)) = r := by
  cases r <;> rfl

theorem lexFrom_lt (rest : List Char) : lexFrom (.text []) ('<' :: rest) = lexFrom .lt rest := by
  rw [lexFrom, if_pos rfl]
  exact bind_nil_append

theorem lexFrom_comment (pre post rest : List Char) (h : StampOk (pre ++ post)) :
    lexFrom (.bang (pre.reverse ++ ['-', '-'])) (post ++ '-' :: '-' :: '>' :: rest) = lexFrom (.text []) rest := by
  have hpre : ∀ p : List Char, (p.reverse ++ ['-', '-']).reverse = '-' :: '-' :: p := by intro p; simp
  have hfull : ∀ p : List Char, bangComplete (p.reverse ++ ['-', '-']) =
      (decide (4 ≤ p.length + 2) && "--".toList.isPrefixOf (p.reverse ++ ['-', '-'])) := by
    intro p
    unfold bangComplete
    rw [hpre]
    simp
  induction post generalizing pre with
  | nil =>
    simp only [List.nil_append]
    rw [lexFrom, if_neg (by simp), lexFrom, if_neg (by simp), lexFrom]
    rw [show ('-' :: '-' :: (pre.reverse ++ ['-', '-'])) = (pre ++ ['-', '-']).reverse ++ ['-', '-'] by simp]
    rw [if_pos ⟨rfl, by rw [hfull]; simp⟩, if_pos (by rw [hpre]; simp [bangValid])]
  | cons c cs ih =>
    simp only [List.cons_append]
    rw [lexFrom, if_neg]
    · have := ih (pre ++ [c]) (by simpa using h)
      simpa using this
    · rintro ⟨rfl, hb⟩
      rw [hfull] at hb
      simp only [Bool.and_eq_true, decide_eq_true_eq] at hb
      obtain ⟨hlen, hsuf⟩ := hb
      -- the last two characters before `>` are `--`
      cases hr : pre.reverse with
      | nil =>
        have : pre = [] := by simpa using hr
        subst this; simp at hlen
      | cons x xs =>
        cases xs with
        | nil =>
          have := congrArg List.length hr
          simp at this; omega
        | cons y ys =>
          rw [hr] at hsuf
          simp only [String.reduceToList, List.cons_append, List.isPrefixOf, Bool.and_true, Bool.and_eq_true,
            beq_iff_eq] at hsuf
          obtain ⟨rfl, rfl⟩ := hsuf
          have hp : pre = ys.reverse ++ ['-', '-'] := by
            rw [← List.reverse_reverse pre, hr]; simp
          apply h ys.reverse cs
          rw [hp]; simp

theorem lex_header (b : Build) {stamp : List Char} (h : b.release = true → StampOk stamp) (rest : List Char) :
    lexFrom (.text []) (xmlHeader b stamp ++ rest) = lexFrom (.text []) rest := by
  unfold xmlHeader
  have hdecl : ∀ r : List Char, lexFrom (.text []) ("<?xml version=\"1.0\" encoding=\"utf-8\"?>".toList ++ r) =
      lexFrom (.text []) r := by
    intro r
    have : "<?xml version=\"1.0\" encoding=\"utf-8\"?>".toList ++ r =
        '<' :: '?' :: ("xml version=\"1.0\" encoding=\"utf-8\"".toList ++ '?' :: '>' :: r) := by simp
    rw [this, lexFrom_lt, lexFrom, if_neg (by decide), if_pos rfl]
    exact lexFrom_pi [] _ r (by decide)
  rw [List.append_assoc, hdecl]
  cases hb : b.release with
  | false => simp
  | true =>
    simp only [if_true]
    have hst := h hb
    have : "<!--".toList ++ stamp ++ "-->".toList ++ rest = '<' :: '!' :: '-' :: '-' :: (stamp ++ '-' :: '-' :: '>' :: rest) := by simp
    rw [this, lexFrom_lt, lexFrom, if_neg (by decide), if_neg (by decide), if_pos rfl, lexFrom, if_neg (by simp), lexFrom, if_neg (by simp)]
    exact lexFrom_comment [] stamp rest (by simpa using hst)

theorem dropBom_header (b : Build) (stamp rest : List Char) :
    dropBom (xmlHeader b stamp ++ rest) = xmlHeader b stamp ++ rest := by
  unfold xmlHeader
  simp only [String.reduceToList, List.cons_append, dropBom]
  rw [if_neg (by decide)]

/-! ### The root tag with its namespaces -/

theorem attributesString_nodup (ps : List (List Char × List Char)) (h : (ps.map Prod.fst).Nodup) :
    attributesString ps = ps.map (fun kv => (String.ofList kv.1, String.ofList kv.2)) := by
  have := attributesString_pairs (a := ps.map (fun kv => (String.ofList kv.1, String.ofList kv.2))) (by
    have hk : akeys (ps.map (fun kv => (String.ofList kv.1, String.ofList kv.2))) = (ps.map Prod.fst).map String.ofList := by
      simp [akeys]
    rw [hk]
    exact List.Pairwise.map _ (fun x y hxy he => hxy (String.ofList_injective he)) h) String.toList
  simpa [List.map_map, Function.comp_def] using this

/-- Attribute name of a namespace entry. -/
def nsKeyOf (k : String) : String := if k = defaultNsKey then "xmlns" else "xmlns:" ++ k

theorem nsPair_eq (kv : String × String) : (String.ofList (nsPair kv).1, String.ofList (nsPair kv).2) = (nsKeyOf kv.1, kv.2) := by
  unfold nsPair nsKeyOf
  split
  · simp
  · simp [← String.toList_inj]

theorem isNsKey_nsKeyOf (k : String) : isNsKey (nsKeyOf k) = true := by
  unfold nsKeyOf isNsKey
  split
  · decide
  · simp [List.isPrefixOf]

theorem nsAlias_default : nsAlias "xmlns" = none := by decide +kernel

theorem takeWhile_no_colon {l : List Char} (h : ':' ∉ l) : l.takeWhile (fun c => decide (c ≠ ':')) = l := by
  induction l with
  | nil => rfl
  | cons c cs ih =>
    simp only [List.mem_cons, not_or] at h
    simp only [List.takeWhile_cons]
    rw [if_pos (by simpa using Ne.symm h.1), ih h.2]

theorem nsAlias_prefix {k : String} (h : ':' ∉ k.toList) : nsAlias ("xmlns:" ++ k) = some k := by
  unfold nsAlias
  have : ("xmlns:" ++ k).toList.dropWhile (fun c => decide (c ≠ ':')) = ':' :: k.toList := by
    rw [String.toList_append]
    simp [List.dropWhile]
  rw [this]
  simp only
  rw [takeWhile_no_colon h, String.ofList_toList]

theorem nsKeyOf_inj {a b : String} (h : nsKeyOf a = nsKeyOf b) : a = b := by
  unfold nsKeyOf at h
  split at h <;> split at h
  · rename_i h1 h2; rw [h1, h2]
  · have := congrArg String.toList h; simp at this
  · have := congrArg String.toList h; simp at this
  · have := congrArg String.toList h
    simp only [String.toList_append, List.append_cancel_left_eq, String.toList_inj] at this
    exact this

theorem addNs_nsKeyOf {u : Unicode} {acc : Attrs} {k v : String}
    (hk : k = defaultNsKey ∨ (isValidXmlName u ("xmlns:" ++ k) = true ∧ ':' ∉ k.toList)) (hn : k ∉ akeys acc) :
    addNs acc (nsKeyOf k) v = acc ++ [(k, v)] := by
  by_cases hd : k = defaultNsKey
  · have h1 : nsKeyOf k = "xmlns" := by unfold nsKeyOf; rw [if_pos hd]
    unfold addNs
    rw [h1, nsAlias_default, ← hd]
    exact ainsert_of_not_mem hn
  · have h1 : nsKeyOf k = "xmlns:" ++ k := by unfold nsKeyOf; rw [if_neg hd]
    rcases hk with hk | ⟨_, hc⟩
    · exact absurd hk hd
    · unfold addNs
      rw [h1, nsAlias_prefix hc]
      simp only
      rw [if_neg (by rw [ahas_iff]; exact hn)]
      exact ainsert_of_not_mem hn

theorem foldl_addNs {u : Unicode} {ns : Attrs} (h : WfNs u ns) :
    (ns.map (fun kv => (nsKeyOf kv.1, kv.2))).foldl (fun m kv => addNs m kv.1 kv.2) [] = ns := by
  have go : ∀ (l acc : Attrs), (akeys acc ++ akeys l).Nodup →
      (∀ k ∈ akeys l, k = defaultNsKey ∨ (isValidXmlName u ("xmlns:" ++ k) = true ∧ ':' ∉ k.toList)) →
      (l.map (fun kv => (nsKeyOf kv.1, kv.2))).foldl (fun m kv => addNs m kv.1 kv.2) acc = acc ++ l := by
    intro l
    induction l with
    | nil => intro acc _ _; simp
    | cons x xs ih =>
      intro acc hn hk
      have hx : x.1 ∉ akeys acc := by
        intro hm
        rw [List.nodup_append] at hn
        exact hn.2.2 x.1 hm x.1 (by simp [akeys]) rfl
      simp only [List.map_cons, List.foldl_cons]
      rw [addNs_nsKeyOf (hk x.1 (by simp [akeys])) hx, ih _ (by simpa [akeys, List.append_assoc] using hn)
        (fun k hk' => hk k (by simp [akeys] at hk' ⊢; exact .inr hk'))]
      simp
  simpa using go ns [] (by simpa [akeys] using h.1) h.2

theorem wfNs_release {u : Unicode} (b : Build) {ns : Attrs} (h : WfNs u ns) : WfNs u (releaseNs b ns) := by
  unfold releaseNs
  split
  · refine ⟨nodup_ainsert _ _ h.1, ?_⟩
    intro k hk
    rcases (mem_akeys_ainsert _ _ _ _).mp hk with rfl | hk
    · right
      exact ⟨validName_ascii u (by decide +kernel), by decide +kernel⟩
    · exact h.2 k hk
  · exact h

theorem mem_ainsert {k : String} {v : String} {kv : String × String} {m : Attrs} (h : kv ∈ ainsert k v m) :
    kv = (k, v) ∨ kv ∈ m := by
  induction m with
  | nil => simp [ainsert] at h; exact .inl h
  | cons x xs ih =>
    obtain ⟨k', v'⟩ := x
    unfold ainsert at h
    split at h
    · rcases List.mem_cons.mp h with h | h
      · exact .inl h
      · exact .inr (by simp [h])
    · rcases List.mem_cons.mp h with h | h
      · exact .inr (by simp [h])
      · rcases ih h with h | h
        · exact .inl h
        · exact .inr (by simp [h])

theorem cleanUris_release (b : Build) {ns : Attrs} (h : CleanUris ns) : CleanUris (releaseNs b ns) := by
  unfold releaseNs
  split
  · intro kv hkv
    rcases mem_ainsert hkv with rfl | hkv
    · exact ⟨by decide +kernel, fun _ => by unfold Reserved; decide +kernel⟩
    · exact h kv hkv
  · exact h

theorem nsPairs_good {u : Unicode} {ns : Attrs} (h : WfNs u ns) (hc : CleanUris ns) :
    (∀ p ∈ ns.map nsPair, GoodPair p) ∧ ∀ k ∈ akeys ns, isValidXmlName u (nsKeyOf k) = true := by
  have hv : ∀ k ∈ akeys ns, isValidXmlName u (nsKeyOf k) = true := by
    intro k hk
    unfold nsKeyOf
    split
    · exact validName_ascii u (by decide +kernel)
    · rename_i hd
      rcases h.2 k hk with h | h
      · exact absurd h hd
      · exact h.1
  refine ⟨?_, hv⟩
  intro p hp
  obtain ⟨kv, hkv, rfl⟩ := List.mem_map.mp hp
  have hk := hv kv.1 (List.mem_map.mpr ⟨kv, hkv, rfl⟩)
  have hs := validName_safe hk
  have heq : (nsPair kv).1 = (nsKeyOf kv.1).toList := by
    have := congrArg Prod.fst (nsPair_eq kv)
    simp only at this
    rw [← this, String.toList_ofList]
  refine ⟨by rw [heq]; exact hs.1, by rw [heq]; exact hs.2, ?_, ?_⟩
  · intro c hcm
    rintro rfl
    exact (hc kv hkv).1 hcm
  · have hpair : nsPair kv = ((nsKeyOf kv.1).toList, kv.2.toList) := by
      have h2 : (nsPair kv).2 = kv.2.toList := by
        have := congrArg Prod.snd (nsPair_eq kv)
        simp only at this
        rw [← this, String.toList_ofList]
      rw [← heq, ← h2]
    rw [hpair]
    unfold nsKeyOf
    split
    · have hpf : ¬ "xmlns:".toList.isPrefixOf "xmlns".toList = true := by decide +kernel
      unfold badBinding; rw [if_neg hpf]
    · rename_i hd
      rw [String.toList_append, Bool.eq_false_iff, Ne, badBinding_iff, String.ofList_toList, String.ofList_toList]
      exact (hc kv hkv).2 hd

theorem rootPairs_good {b : Build} {u : Unicode} {attrs : Option Attrs} {ns : Attrs} (ha : WfAttrs u attrs) (hn : WfNs u ns)
    (hc : CleanUris ns) : (∀ p ∈ tagPairs b attrs (some ns), GoodPair p) ∧ ((tagPairs b attrs (some ns)).map Prod.fst).Nodup := by
  have hns := nsPairs_good (wfNs_release b hn) (cleanUris_release b hc)
  have hat := tagPairs_good (b := b) ha
  have hsplit : tagPairs b attrs (some ns) = (releaseNs b ns).map nsPair ++ tagPairs b attrs none := by
    simp [tagPairs]
  rw [hsplit]
  constructor
  · intro p hp
    rcases List.mem_append.mp hp with hp | hp
    · exact hns.1 p hp
    · exact hat.1 p hp
  · rw [List.map_append, List.nodup_append]
    have hfst : ((releaseNs b ns).map nsPair).map Prod.fst = (akeys (releaseNs b ns)).map (fun k => (nsKeyOf k).toList) := by
      simp only [akeys, List.map_map]
      apply List.map_congr_left
      intro kv _
      have := congrArg Prod.fst (nsPair_eq kv)
      simp only at this
      simp [← this]
    refine ⟨?_, hat.2, ?_⟩
    · rw [hfst]
      exact List.Pairwise.map _ (fun x y hxy he => hxy (nsKeyOf_inj (String.toList_inj.mp he))) (wfNs_release b hn).1
    · intro x hx y hy hxy
      subst hxy
      rw [hfst] at hx
      obtain ⟨k, _, rfl⟩ := List.mem_map.mp hx
      cases attrs with
      | none => simp [tagPairs] at hy
      | some a =>
        simp only [tagPairs, List.nil_append, List.map_map, List.mem_map] at hy
        obtain ⟨kv, hkv, heq⟩ := hy
        have hmem : kv.1 ∈ akeys a := (akeys_sortAttrs_perm a).mem_iff.mp (List.mem_map.mpr ⟨kv, hkv, rfl⟩)
        have h1 := ((ha a rfl).2 kv.1 hmem).2
        have h2 : kv.1 = nsKeyOf k := String.toList_inj.mp heq
        rw [h2, isNsKey_nsKeyOf] at h1
        cases h1

theorem rootAttributes {b : Build} {u : Unicode} {attrs : Option Attrs} {ns : Attrs} (ha : WfAttrs u attrs) (hn : WfNs u ns)
    (hc : CleanUris ns) : attributesString (tagPairs b attrs (some ns)) =
      (releaseNs b ns).map (fun kv => (nsKeyOf kv.1, kv.2)) ++ reloadAttrs attrs := by
  rw [attributesString_nodup _ (rootPairs_good ha hn hc).2]
  have hsplit : tagPairs b attrs (some ns) = (releaseNs b ns).map nsPair ++ tagPairs b attrs none := by
    simp [tagPairs]
  rw [hsplit, List.map_append]
  congr 1
  · rw [List.map_map]
    exact List.map_congr_left (fun kv _ => nsPair_eq kv)
  · rw [← attributesString_tagPairs (b := b) ha, attributesString_nodup _ (tagPairs_good ha).2]

/-- Reading the root's opening tag. -/
theorem readStep_root {b : Build} {u : Unicode} {tag : String} {attrs : Option Attrs} {ns : Attrs}
    (htag : isValidXmlName u tag = true) (ha : WfAttrs u attrs) (hn : WfNs u ns) (hc : CleanUris ns) :
    ∃ d, readStep u ⟨XmlDoc.new, false, 0⟩ (openToken b tag attrs (some ns) false) = .ok ⟨d, true, 0⟩ ∧
      d.Inv ∧ d.ns = releaseNs b ns ∧
      d.get 0 = some { id := 0, parentId := 0, tag := tag, attrs := some (reloadAttrs attrs), value := none, children := [] } := by
  have hcr : XmlDoc.new.createRoot u tag = .ok (XmlDoc.new.put 0 { id := 0, parentId := 0, tag := tag, attrs := none, value := none, children := [] }) := by
    simp [XmlDoc.createRoot, newElem, htag, bind, Except.bind]
  have hinv1 := XmlDoc.Inv.new.createRoot hcr
  have hns := nsPairs_good (wfNs_release b hn) (cleanUris_release b hc)
  have hrel := reloadAttrs_keys ha
  have hset : (XmlDoc.new.put 0 { id := 0, parentId := 0, tag := tag, attrs := none, value := none, children := [] }).setAttribute u 0
      (attributesString (tagPairs b attrs (some ns))) =
      .ok { (XmlDoc.new.put 0 { id := 0, parentId := 0, tag := tag, attrs := none, value := none, children := [] }).put 0
        { id := 0, parentId := 0, tag := tag, attrs := some (reloadAttrs attrs), value := none, children := [] } with ns := releaseNs b ns } := by
    rw [rootAttributes ha hn hc]
    unfold XmlDoc.setAttribute
    rw [XmlDoc.get_put_self]
    have hall : (akeys ((releaseNs b ns).map (fun kv => (nsKeyOf kv.1, kv.2)) ++ reloadAttrs attrs)).all (isValidXmlName u) = true := by
      rw [List.all_eq_true]
      intro k hk
      simp only [akeys, List.map_append, List.mem_append, List.map_map] at hk
      rcases hk with hk | hk
      · obtain ⟨kv, hkv, rfl⟩ := List.mem_map.mp hk
        exact hns.2 kv.1 (List.mem_map.mpr ⟨kv, hkv, rfl⟩)
      · exact (hrel.2 k hk).1
    have hf1 : ((releaseNs b ns).map (fun kv => (nsKeyOf kv.1, kv.2)) ++ reloadAttrs attrs).filter (fun kv => isNsKey kv.1) =
        (releaseNs b ns).map (fun kv => (nsKeyOf kv.1, kv.2)) := by
      rw [List.filter_append]
      have h1 : ((releaseNs b ns).map (fun kv => (nsKeyOf kv.1, kv.2))).filter (fun kv => isNsKey kv.1) =
          (releaseNs b ns).map (fun kv => (nsKeyOf kv.1, kv.2)) := by
        rw [List.filter_eq_self]
        intro kv hkv
        obtain ⟨x, _, rfl⟩ := List.mem_map.mp hkv
        exact isNsKey_nsKeyOf _
      have h2 : (reloadAttrs attrs).filter (fun kv => isNsKey kv.1) = [] := by
        rw [List.filter_eq_nil_iff]
        intro kv hkv
        simp [(hrel.2 kv.1 (List.mem_map.mpr ⟨kv, hkv, rfl⟩)).2]
      rw [h1, h2, List.append_nil]
    have hf2 : ((releaseNs b ns).map (fun kv => (nsKeyOf kv.1, kv.2)) ++ reloadAttrs attrs).filter (fun kv => !isNsKey kv.1) =
        reloadAttrs attrs := by
      rw [List.filter_append]
      have h1 : ((releaseNs b ns).map (fun kv => (nsKeyOf kv.1, kv.2))).filter (fun kv => !isNsKey kv.1) = [] := by
        rw [List.filter_eq_nil_iff]
        intro kv hkv
        obtain ⟨x, _, rfl⟩ := List.mem_map.mp hkv
        simp [isNsKey_nsKeyOf]
      have h2 : (reloadAttrs attrs).filter (fun kv => !isNsKey kv.1) = reloadAttrs attrs := by
        rw [List.filter_eq_self]
        intro kv hkv
        simp [(hrel.2 kv.1 (List.mem_map.mpr ⟨kv, hkv, rfl⟩)).2]
      rw [h1, h2, List.nil_append]
    have hfold : ((releaseNs b ns).map (fun kv => (nsKeyOf kv.1, kv.2))).foldl (fun m kv => addNs m kv.1 kv.2)
        (XmlDoc.new.put 0 { id := 0, parentId := 0, tag := tag, attrs := none, value := none, children := [] }).ns = releaseNs b ns :=
      foldl_addNs (wfNs_release b hn)
    simp only [hall, hf1, hf2, hfold, Bool.not_true, Bool.false_eq_true, if_false]
  refine ⟨_, ?_, hinv1.setAttribute hset, rfl, ?_⟩
  · have htok : openToken b tag attrs (some ns) false = .start tag.toList (tagPairs b attrs (some ns)) := rfl
    rw [htok]
    simp only [readStep, Bool.false_eq_true, if_false, String.ofList_toList, hcr, hset, bind, Except.bind]
  · exact XmlDoc.get_put_self _ _ _

/-! ### Whole documents -/

/-- A labelled tree found in the arena is what `toNode` returns. -/
theorem toNode_of_holds {d : XmlDoc} (hinv : d.Inv) : ∀ t : LTree, t.Consistent → t.Holds d.get → ∀ fuel,
    d.runningId - t.elem.id < fuel → d.toNode fuel t.elem.id = some t.erase := by
  refine LTree.ind ?_
  intro e ks ih hc hh fuel hf
  obtain ⟨he, hhk⟩ := holds_node.mp hh
  obtain ⟨hch, hpar, hck⟩ := hc
  simp only [LTree.elem] at hf ⊢
  cases fuel with
  | zero => omega
  | succ fuel =>
    unfold XmlDoc.toNode
    rw [he]
    simp only
    have hcol : collect (e.children.map (fun c => d.toNode fuel c.id)) = some (ks.map erase) := by
      rw [hch, List.map_map]
      have : ∀ k ∈ ks, ((fun c : Child => d.toNode fuel c.id) ∘ asChild) k = some k.erase := by
        intro k hk
        have hkh := holdsL_iff.mp hhk k hk
        have hget := hkh k.elem k.elem_mem_entries
        have hle := hinv.le _ _ hget
        have hlt := (hinv.tree.child _ _ he k.asChild (by rw [hch]; exact List.mem_map.mpr ⟨k, hk, rfl⟩)).1
        simp only [asChild] at hlt
        exact ih k hk ((consistentL_iff ks).mp hck k hk) hkh fuel (by omega)
      rw [List.map_congr_left this, collect_map_some]
    rw [hcol]
    simp [erase, erases_eq]

/-- Reading a rendered document gives the reloaded document. -/
theorem readXml_renderDoc (b : Build) (u : Unicode) {stamp : List Char} (hst : b.release = true → StampOk stamp) {x : XDoc}
    {root : Node} (h : WfDoc u x root) (hnc : selfClosing root = false) :
    ∃ d, readXml u (renderDoc b stamp x) = .ok d ∧ d.Inv ∧ d.toXDoc = reloadDoc b x := by
  obtain ⟨hroot, hnames, hns, huris⟩ := h
  cases root with
  | mk tag attrs value cs =>
  obtain ⟨htag, hattrs, hcs⟩ := hnames
  obtain ⟨hne, hsafe⟩ := validName_safe htag
  obtain ⟨hg, hd⟩ := rootPairs_good (b := b) hattrs hns huris
  obtain ⟨d1, hs1, hinv1, hns1, hget1⟩ := readStep_root (b := b) htag hattrs hns huris
  unfold renderDoc readXml lex
  rw [hroot]
  simp only
  rw [dropBom_header, lex_header b hst]
  have hnil : lexFrom (.text []) [] = .ok [] := by decide
  cases value with
  | some v =>
    have hlex : lexFrom (.text []) (renderRoot b x.ns (.mk tag attrs (some v) cs)) =
        .ok (openToken b tag attrs (some x.ns) false :: (textToken (escape v.toList).reverse ++ [Token.close tag.toList])) := by
      have := lex_openTag (close := false) hne hsafe hg hd (valueClose v tag ++ [])
      rw [lex_valueClose hne hsafe, hnil, List.append_nil] at this
      cases cs <;> (simp only [renderRoot]; rw [this]; simp [Except.map])
    rw [hlex]
    have hck : checkEnds [] (openToken b tag attrs (some x.ns) false :: (textToken (escape v.toList).reverse ++ [Token.close tag.toList])) = true := by
      simp only [openToken, Bool.false_eq_true, if_false, checkEnds]
      rw [checkEnds_textToken]
      simp [checkEnds]
    simp only [bind, Except.bind, hck, if_true]
    rw [readLoop_cons hs1]
    rcases readLoop_text (u := u) hget1 v rfl [Token.close tag.toList] with h | ⟨hnone, h⟩
    · rw [h, readLoop_cons (readStep_close (XmlDoc.get_put_self _ _ _) true)]
      have hinv2 : (d1.put 0 { id := 0, parentId := 0, tag := tag, attrs := some (reloadAttrs attrs), value := reloadText v, children := [] }).Inv :=
        hinv1.put_same hget1 rfl rfl rfl (fun c hc => hc) (by simp)
      refine ⟨_, rfl, hinv2, ?_⟩
      have := toNode_of_holds hinv2 (.node { id := 0, parentId := 0, tag := tag, attrs := some (reloadAttrs attrs), value := reloadText v, children := [] } [])
        ⟨rfl, by simp, trivial⟩ (by rw [holds_node]; exact ⟨XmlDoc.get_put_self _ _ _, by simp [HoldsL, entriesL]⟩)
        ((d1.put 0 { id := 0, parentId := 0, tag := tag, attrs := some (reloadAttrs attrs), value := reloadText v, children := [] }).runningId + 1) (by omega)
      simp only [XmlDoc.toXDoc, reloadDoc, hroot, Option.map_some]
      rw [show (d1.put 0 { id := 0, parentId := 0, tag := tag, attrs := some (reloadAttrs attrs), value := reloadText v, children := [] }).ns = releaseNs b x.ns from hns1]
      congr 1
    · rw [h, readLoop_cons (readStep_close hget1 true)]
      refine ⟨_, rfl, hinv1, ?_⟩
      have := toNode_of_holds hinv1 (.node { id := 0, parentId := 0, tag := tag, attrs := some (reloadAttrs attrs), value := none, children := [] } [])
        ⟨rfl, by simp, trivial⟩ (by rw [holds_node]; exact ⟨hget1, by simp [HoldsL, entriesL]⟩) (d1.runningId + 1) (by omega)
      simp only [XmlDoc.toXDoc, reloadDoc, hroot, Option.map_some, hns1]
      congr 1
      simpa [erase, erases, reload, LTree.elem, hnone] using this
  | none =>
    cases cs with
    | nil => simp [selfClosing] at hnc
    | cons c cs' =>
      have hlex : lexFrom (.text []) (renderRoot b x.ns (.mk tag attrs none (c :: cs'))) =
          .ok (openToken b tag attrs (some x.ns) false :: (toksL b (c :: cs') ++ [Token.close tag.toList])) := by
        have := lex_openTag (close := false) hne hsafe hg hd (renders b (c :: cs') ++ (valueClose "" tag ++ []))
        rw [lex_renders (fun n hn r => lex_render n (wfNodes_iff.mp hcs n hn) r), lex_close_empty hne hsafe, hnil] at this
        simp only [renderRoot]
        rw [List.append_nil] at this
        rw [List.append_assoc, this]
        simp [Except.map]
      rw [hlex]
      have hck : checkEnds [] (openToken b tag attrs (some x.ns) false :: (toksL b (c :: cs') ++ [Token.close tag.toList])) = true := by
        simp only [openToken, Bool.false_eq_true, if_false, checkEnds]
        rw [checkEnds_toksL (fun n _ => checkEnds_toks n)]
        simp [checkEnds]
      simp only [bind, Except.bind, hck, if_true]
      rw [readLoop_cons hs1]
      obtain ⟨d2, ts, e2, g2, r2, n2⟩ := readsList_of (fun n hn => readsTree (b := b) n (wfNodes_iff.mp hcs n hn)) d1 0 _
        [Token.close tag.toList] hinv1 hget1
      have hp2 := g2.parent
      simp only [List.nil_append] at hp2
      rw [e2, readLoop_cons (readStep_close hp2 true)]
      refine ⟨_, rfl, g2.inv, ?_⟩
      have := toNode_of_holds g2.inv (.node { id := 0, parentId := 0, tag := tag, attrs := some (reloadAttrs attrs), value := none, children := ts.map asChild } ts)
        ⟨rfl, g2.parentId, g2.consistent⟩ (by rw [holds_node]; exact ⟨hp2, g2.holds⟩) (d2.runningId + 1) (by omega)
      simp only [XmlDoc.toXDoc, reloadDoc, hroot, Option.map_some, n2, hns1]
      congr 1
      simpa [erase, reload, LTree.elem, r2] using this

/-- A document written with a self-closing root cannot be read. -/
theorem readXml_selfClosing (b : Build) (u : Unicode) {stamp : List Char} (hst : b.release = true → StampOk stamp) {x : XDoc}
    {root : Node} (h : WfDoc u x root) (hnc : selfClosing root = true) :
    readXml u (renderDoc b stamp x) = .error (.fail "Parent Element Not Found") := by
  obtain ⟨hroot, hnames, hns, huris⟩ := h
  cases root with
  | mk tag attrs value cs =>
  obtain ⟨htag, hattrs, hcs⟩ := hnames
  obtain ⟨hne, hsafe⟩ := validName_safe htag
  obtain ⟨hg, hd⟩ := rootPairs_good (b := b) hattrs hns huris
  unfold renderDoc readXml lex
  rw [hroot]
  simp only
  rw [dropBom_header, lex_header b hst]
  have hnil : lexFrom (.text []) [] = .ok [] := by decide
  cases value with
  | some v => simp [selfClosing] at hnc
  | none =>
    cases cs with
    | cons c cs' => simp [selfClosing] at hnc
    | nil =>
      have hlex : lexFrom (.text []) (renderRoot b x.ns (.mk tag attrs none [])) =
          .ok [openToken b tag attrs (some x.ns) true] := by
        have := lex_openTag (close := true) hne hsafe hg hd []
        rw [hnil, List.append_nil] at this
        simp only [renderRoot]
        rw [this]; rfl
      rw [hlex]
      simp [bind, Except.bind, openToken, checkEnds, readLoop, readStep, XmlDoc.appendChild, XmlDoc.insertWith, XmlDoc.new, XmlDoc.get]

/-- Reloaded documents are well-formed again. -/
theorem wfNode_reload {u : Unicode} : ∀ n : Node, WfNode u n → WfNode u (reload n) := by
  refine Node.ind ?_
  intro tag attrs value cs ih h
  obtain ⟨htag, hattrs, hcs⟩ := h
  have ha : WfAttrs u (some (reloadAttrs attrs)) := by
    intro a hae
    cases hae
    exact reloadAttrs_keys hattrs
  cases value with
  | some v => simp only [reload]; exact ⟨htag, ha, trivial⟩
  | none =>
    simp only [reload]
    refine ⟨htag, ha, ?_⟩
    rw [reloads_eq, wfNodes_iff]
    intro c hc
    obtain ⟨n, hn, rfl⟩ := List.mem_map.mp hc
    exact ih n hn (wfNodes_iff.mp hcs n hn)

end Oxml
