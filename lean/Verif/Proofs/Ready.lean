import Verif.Proofs.Steady
import Verif.Proofs.DocOps
/-!
# Lemmas for C102 and C103: documents with plain names
-/
namespace Oxml
open Spec

/-- Only ASCII letters are letters: names accepted then are names of XML. -/
def asciiOnly : Unicode := ⟨fun _ => false⟩

theorem nameChar_ascii {c : Char} (h : isNameChar asciiOnly c = true) :
    (c.isAlpha || c.isDigit || c = '_' || c = '-' || c = '.' || c = ':') = true := by
  simp only [isNameChar, isNameStartChar, isAlphabetic, asciiOnly, Bool.or_eq_true, decide_eq_true_eq] at h ⊢
  rcases h with ((((h | h) | h) | h) | h) | h
  · simp [h]
  · split at h
    · simp [h]
    · cases h
  all_goals simp [h]

theorem nameTail_ascii {s : List Char} {k : Nat} (h : nameTailOk asciiOnly s k = true) :
    s.all (fun x => x.isAlpha || x.isDigit || x = '_' || x = '-' || x = '.' || x = ':') = true := by
  induction s generalizing k with
  | nil => rfl
  | cons c s ih =>
    rw [nameTailOk] at h
    rw [List.all_cons, Bool.and_eq_true]
    split at h
    · rename_i e
      split at h
      · cases h
      · exact ⟨by subst e; decide, ih h⟩
    · split at h
      · cases h
      · rename_i hc
        exact ⟨nameChar_ascii (by simpa using hc), ih h⟩

theorem xmlName_valid {s : String} (h : isValidXmlName asciiOnly s = true) : XmlName s.toList := by
  apply xmlName_ascii
  unfold isValidXmlName at h
  split at h
  · cases h
  · rename_i c cs e
    rw [e]
    rw [asciiName, Bool.and_eq_true]
    split at h
    · cases h
    · rename_i hc
      refine ⟨?_, nameTail_ascii h⟩
      simp only [isNameStartChar, isAlphabetic, asciiOnly, Bool.not_eq_true', Bool.or_eq_false_iff, not_and, Bool.not_eq_false] at hc
      simp only [Bool.or_eq_true, decide_eq_true_eq] at hc ⊢
      by_cases e : c = '_'
      · exact .inr e
      · have := hc (by simpa using e)
        split at this
        · exact .inl this
        · cases this

mutual
theorem names_wf {n : Node} (h : WfNode asciiOnly n) : (∀ x ∈ allNames n, XmlName x.toList) ∧ DistinctAttrs n := by
  match n with
  | .mk tag attrs value cs =>
    simp only [WfNode, allNames, DistinctAttrs] at *
    have h3 := namess_wf h.2.2
    have h2 : ((attrs.getD []).map Prod.fst).Nodup ∧ ∀ k ∈ (attrs.getD []).map Prod.fst, XmlName k.toList := by
      cases attrs with
      | none => simp
      | some a => exact ⟨(h.2.1 a rfl).1, fun k hk => xmlName_valid ((h.2.1 a rfl).2 k hk).1⟩
    refine ⟨fun x hx => ?_, h2.1, h3.2⟩
    rcases List.mem_append.mp hx with hx | hx
    · rcases List.mem_cons.mp hx with rfl | hx
      · exact xmlName_valid h.1
      · exact h2.2 x hx
    · exact h3.1 x hx
theorem namess_wf {cs : List Node} (h : WfNodes asciiOnly cs) : (∀ x ∈ allNamess cs, XmlName x.toList) ∧ DistinctAttrss cs := by
  match cs with
  | [] => simp [allNamess, DistinctAttrss]
  | c :: cs =>
    simp only [WfNodes, allNamess, DistinctAttrss] at *
    have h1 := names_wf h.1
    have h2 := namess_wf h.2
    refine ⟨fun x hx => ?_, h1.2, h2.2⟩
    rcases List.mem_append.mp hx with hx | hx
    · exact h1.1 x hx
    · exact h2.1 x hx
end

/-- A namespace URI XML can hold as it is. -/
def UriXml (s : String) : Prop := XmlChars s ∧ '<' ∉ s.toList ∧ '&' ∉ s.toList

theorem declName_inj {a b : String} (h : declName a = declName b) : a = b := by
  unfold declName at h
  split at h <;> split at h
  · rename_i h1 h2; rw [h1, h2]
  · have := congrArg (fun s => s.toList) h
    simp at this
  · have := congrArg (fun s => s.toList) h
    simp at this
  · have := congrArg (fun s => s.toList) h
    simp only [String.toList_append, List.append_cancel_left_eq] at this
    exact String.toList_inj.mp this

theorem isNsKey_declName (k : String) : isNsKey (declName k) = true := by
  unfold declName isNsKey
  split
  · decide
  · rw [String.toList_append]
    exact List.isPrefixOf_iff_prefix.mpr ⟨":".toList ++ k.toList, by rw [← List.append_assoc]; rfl⟩

theorem ready_wf (b : Build) {x : XDoc} {root : Node} (h : WfDoc asciiOnly x root) (hu : ∀ kv ∈ x.ns, UriXml kv.2) (ht : ∀ t ∈ allTexts root, XmlChars t) :
    XmlReady (releaseNs b x.ns) root := by
  obtain ⟨_, h1, ⟨h2, h3⟩, h4⟩ := h
  have hk : (akeys (releaseNs b x.ns)).Nodup ∧ (∀ k ∈ akeys (releaseNs b x.ns), k = defaultNsKey ∨ (isValidXmlName asciiOnly ("xmlns:" ++ k) = true ∧ ':' ∉ k.toList)) ∧
      ∀ kv ∈ releaseNs b x.ns, UriXml kv.2 ∧ '"' ∉ kv.2.toList := by
    unfold releaseNs
    split
    · refine ⟨nodup_ainsert _ _ h2, ?_, ?_⟩
      · intro k hk
        rcases (mem_akeys_ainsert _ _ _ _).mp hk with rfl | hk
        · right; decide +kernel
        · exact h3 k hk
      · intro kv hkv
        rcases mem_ainsert hkv with rfl | hkv
        · exact ⟨⟨fun c hc => ascii_xml (by decide +kernel) c hc, by decide +kernel, by decide +kernel⟩, by decide +kernel⟩
        · exact ⟨hu kv hkv, (h4 kv hkv).1⟩
    · exact ⟨h2, h3, fun kv hkv => ⟨hu kv hkv, (h4 kv hkv).1⟩⟩
  obtain ⟨k1, k2, k3⟩ := hk
  have hn := names_wf h1
  refine ⟨hn.1, hn.2, ht, ?_, ?_⟩
  · intro kv hkv
    refine ⟨?_, (k3 kv hkv).1.1, (k3 kv hkv).2, (k3 kv hkv).1.2.1, (k3 kv hkv).1.2.2⟩
    unfold declName
    split
    · exact xmlName_ascii (by decide +kernel)
    · rename_i hne
      rcases k2 kv.1 (List.mem_map.mpr ⟨kv, hkv, rfl⟩) with e | e
      · exact absurd e hne
      · exact xmlName_valid e.1
  · rw [List.map_append, List.nodup_append]
    refine ⟨?_, ?_, ?_⟩
    · have : (declAttrs (releaseNs b x.ns)).map Prod.fst = (akeys (releaseNs b x.ns)).map declName := by simp [declAttrs, akeys]
      rw [this]
      exact List.pairwise_map.mpr (k1.imp (fun hne e => hne (declName_inj e)))
    · cases root with
      | mk tag attrs value cs => simp only [DistinctAttrs] at hn; exact hn.2.1
    · intro k hk1 k' hk2 e
      subst e
      obtain ⟨kv, hkv, rfl⟩ := List.mem_map.mp hk1
      obtain ⟨kv', hkv', rfl⟩ := List.mem_map.mp hkv
      cases root with
      | mk tag attrs value cs =>
        simp only [WfNode] at h1
        cases attrs with
        | none => cases hk2
        | some a =>
          have := ((h1.2.1 a rfl).2 _ hk2).2
          rw [isNsKey_declName] at this
          cases this

end Oxml
