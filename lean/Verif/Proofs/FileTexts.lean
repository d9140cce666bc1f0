import Verif.Proofs.Ready
import Verif.Proofs.SessionFile
import Verif.Proofs.SessionCells
import Verif.Proofs.ExistingReload
import Verif.Proofs.ContentTypes
import Verif.Props.CoreProps
import Verif.Props.Sessions
import Verif.Spec.GivenTexts
/-!
# Lemmas for C104: the characters of everything written
-/
namespace Oxml
open Spec

/-- Characters of a literal. -/
theorem xlit {s : String} (h : s.toList.all (fun x => decide (0x20 ≤ x.toNat ∧ x.toNat < 128)) = true) : XmlChars s := ascii_xml h

theorem xml_append {a b : String} (ha : XmlChars a) (hb : XmlChars b) : XmlChars (a ++ b) := by
  intro c hc
  rw [String.toList_append] at hc
  rcases List.mem_append.mp hc with h | h
  · exact ha c h
  · exact hb c h

theorem xml_nat (n : Nat) : XmlChars (toString n) := by
  intro c hc
  rw [toList_toString_nat] at hc
  have hd := isDigit_of_mem_decimal hc
  simp only [Char.isDigit, Bool.and_eq_true, decide_eq_true_eq] at hd
  refine xc c ⟨?_, ?_⟩
  · have := UInt32.le_iff_toNat_le.mp hd.1
    have e : c.toNat = c.val.toNat := rfl
    rw [e]
    have : '0'.val.toNat = 48 := by decide
    omega
  · have := UInt32.le_iff_toNat_le.mp hd.2
    have e : c.toNat = c.val.toNat := rfl
    rw [e]
    have : '9'.val.toNat = 57 := by decide
    omega

theorem xml_int (n : Int) : XmlChars (toString n) := by
  cases n with
  | ofNat n => exact xml_nat n
  | negSucc n =>
    have : toString (Int.negSucc n) = "-" ++ toString (n + 1) := rfl
    rw [this]
    exact xml_append (xlit (by decide +kernel)) (xml_nat _)

theorem xml_flag (b : Bool) : XmlChars (boolXmlFlag b) := by
  cases b <;> exact xlit (by decide +kernel)

/-- Every text of the element is of XML characters. -/
def NodeX (n : Node) : Prop := ∀ t ∈ allTexts n, XmlChars t

theorem mem_allTextss {cs : List Node} {t : String} : t ∈ allTextss cs ↔ ∃ c ∈ cs, t ∈ allTexts c := by
  induction cs with
  | nil => simp [allTextss]
  | cons c cs ih => simp [allTextss, ih]

def AttrsX (a : Option Attrs) : Prop := ∀ kv ∈ a.getD [], XmlChars kv.2

theorem nodeX_mk {tag : String} {a : Option Attrs} {cs : List Node} (ha : AttrsX a) (hc : ∀ c ∈ cs, NodeX c) : NodeX (.mk tag a none cs) := by
  intro t ht
  rw [allTexts] at ht
  rcases List.mem_append.mp ht with h | h
  · obtain ⟨kv, hkv, rfl⟩ := List.mem_map.mp h
    exact ha kv hkv
  · obtain ⟨c, hc', ht⟩ := mem_allTextss.mp h
    exact hc c hc' t ht

theorem nodeX_text {tag v : String} {a : Option Attrs} {cs : List Node} (ha : AttrsX a) (hv : XmlChars v) : NodeX (.mk tag a (some v) cs) := by
  intro t ht
  rw [allTexts] at ht
  rcases List.mem_append.mp ht with h | h
  · obtain ⟨kv, hkv, rfl⟩ := List.mem_map.mp h
    exact ha kv hkv
  · rw [List.mem_singleton] at h
    subst h; exact hv

theorem attrsX_none : AttrsX none := nofun
theorem attrsX_nil : AttrsX (some []) := nofun

theorem attrsX_cons {k v : String} {a : Attrs} (h : XmlChars v) (ha : AttrsX (some a)) : AttrsX (some ((k, v) :: a)) := by
  intro kv hkv
  rcases List.mem_cons.mp hkv with rfl | hkv
  · exact h
  · exact ha kv hkv

theorem attrsX_one {k v : String} (h : XmlChars v) : AttrsX (some [(k, v)]) := attrsX_cons h attrsX_nil

/-- An optional text, if there, is of XML characters. -/
def OptX (o : Option String) : Prop := ∀ v ∈ o, XmlChars v

theorem optX_none : OptX none := nofun
theorem optX_some {v : String} (h : XmlChars v) : OptX (some v) := by rintro _ ⟨⟩; exact h
theorem optX_map {α : Type} {f : α → String} (o : Option α) (h : ∀ a, XmlChars (f a)) : OptX (o.map f) := by
  cases o with
  | none => exact optX_none
  | some a => exact optX_some (h a)

def TableX : List (String × Option String) → Prop
  | [] => True
  | kv :: t => OptX kv.2 ∧ TableX t

theorem attrsX_present {t : List (String × Option String)} (h : TableX t) : AttrsX (some (present t)) := by
  induction t with
  | nil => exact attrsX_nil
  | cons kv t ih =>
    obtain ⟨k, v⟩ := kv
    cases v with
    | none => exact ih h.2
    | some v =>
      have : present ((k, some v) :: t) = (k, v) :: present t := rfl
      rw [this]
      exact attrsX_cons (h.1 v rfl) (ih h.2)

theorem nodesX_perm {l l' : List Node} (hp : l.Perm l') (h : ∀ c ∈ l', NodeX c) : ∀ c ∈ l, NodeX c := fun c hc => h c (hp.mem_iff.mp hc)

theorem nodesX_insert {new : Node} {t : String} {cs : List Node} (hn : NodeX new) (h : ∀ c ∈ cs, NodeX c) : ∀ c ∈ insertNodeAfter new t cs, NodeX c := by
  refine nodesX_perm (insertNodeAfter_perm new t cs) ?_
  intro c hc
  rcases List.mem_cons.mp hc with rfl | hc
  · exact hn
  · exact h c hc

theorem nodesX_append {a b : List Node} (ha : ∀ c ∈ a, NodeX c) (hb : ∀ c ∈ b, NodeX c) : ∀ c ∈ a ++ b, NodeX c := by
  intro c hc
  rcases List.mem_append.mp hc with h | h
  · exact ha c h
  · exact hb c h

theorem nodesX_map {α : Type} {f : α → Node} {l : List α} (h : ∀ a ∈ l, NodeX (f a)) : ∀ c ∈ l.map f, NodeX c := by
  intro c hc
  obtain ⟨a, ha, rfl⟩ := List.mem_map.mp hc
  exact h a ha

theorem nodesX_one {n : Node} (h : NodeX n) : ∀ c ∈ [n], NodeX c := by simpa using h
theorem nodesX_nil : ∀ c ∈ ([] : List Node), NodeX c := nofun
theorem nodesX_cons {n : Node} {l : List Node} (h : NodeX n) (hl : ∀ c ∈ l, NodeX c) : ∀ c ∈ n :: l, NodeX c := by
  intro c hc
  rcases List.mem_cons.mp hc with rfl | hc
  · exact h
  · exact hl c hc

/-! ## Documents -/

/-- A document XML can hold. -/
def DocX (x : XDoc) : Prop :=
  ∃ t a cs, WfDoc asciiOnly x (.mk t a none cs) ∧ (∀ kv ∈ x.ns, UriXml kv.2) ∧ AttrsX a ∧ ∀ c ∈ cs, NodeX c

theorem DocX.wellFormed {x : XDoc} (h : DocX x) {b : Build} {stamp : List Char} (hs : b.release = true → StampXml stamp) : WellFormed (renderDoc b stamp x) := by
  obtain ⟨t, a, cs, h1, h2, h3, h4⟩ := h
  exact ⟨_, document_write b stamp x _ h1.isRoot (ready_wf b h1 h2 (nodeX_mk h3 h4)) hs⟩

theorem xml_escape {s : List Char} (h : ∀ c ∈ s, XmlChar c) : ∀ c ∈ escape s, XmlChar c := by
  intro c hc
  obtain ⟨d, hd, hc⟩ := List.mem_flatMap.mp hc
  unfold escapeChar at hc
  split at hc
  · exact ascii_xml (s := "&lt;".toList) (by decide +kernel) c hc
  split at hc
  · exact ascii_xml (s := "&gt;".toList) (by decide +kernel) c hc
  split at hc
  · exact ascii_xml (s := "&amp;".toList) (by decide +kernel) c hc
  split at hc
  · exact ascii_xml (s := "&apos;".toList) (by decide +kernel) c hc
  split at hc
  · exact ascii_xml (s := "&quot;".toList) (by decide +kernel) c hc
  · rw [List.mem_singleton] at hc
    subst hc; exact h _ hd

theorem attrsX_reload {a : Option Attrs} (h : AttrsX a) : AttrsX (some (reloadAttrs a)) := by
  intro kv hkv
  cases a with
  | none => cases hkv
  | some a =>
    obtain ⟨kv', hm, rfl⟩ := List.mem_map.mp hkv
    have : kv' ∈ a := (sortAttrs_perm a).mem_iff.mp hm
    intro c hc
    rw [String.toList_ofList] at hc
    exact xml_escape (h kv' this) c hc

theorem mem_trimXml {s : List Char} {c : Char} (h : c ∈ trimXml s) : c ∈ s := by
  unfold trimXml at h
  have h1 := List.mem_reverse.mp h
  have h2 := (List.dropWhile_sublist _).mem h1
  have h3 := List.mem_reverse.mp h2
  exact (List.dropWhile_sublist _).mem h3

theorem mem_reloads {cs : List Node} {c : Node} (h : c ∈ reloads cs) : ∃ d ∈ cs, c = reload d := by
  induction cs with
  | nil => cases h
  | cons d cs ih =>
    rw [reloads] at h
    rcases List.mem_cons.mp h with rfl | h
    · exact ⟨d, by simp, rfl⟩
    · obtain ⟨e, he, rfl⟩ := ih h
      exact ⟨e, List.mem_cons_of_mem _ he, rfl⟩

theorem nodeX_reload : ∀ n : Node, NodeX n → NodeX (reload n) := by
  refine Node.ind ?_
  intro tag attrs value cs ih h
  have ha : AttrsX attrs := by
    intro kv hkv
    refine h kv.2 ?_
    rw [allTexts.eq_def]
    exact List.mem_append_left _ (List.mem_map_of_mem hkv)
  cases value with
  | some v =>
    have hv : XmlChars v := h v (by rw [allTexts]; exact List.mem_append_right _ (List.mem_singleton.mpr rfl))
    rw [reload]
    unfold reloadText
    split
    · exact nodeX_mk (attrsX_reload ha) nodesX_nil
    · refine nodeX_text (attrsX_reload ha) ?_
      intro c hc
      rw [String.toList_ofList] at hc
      exact hv c (mem_trimXml hc)
  | none =>
    rw [reload]
    refine nodeX_mk (attrsX_reload ha) ?_
    intro c hc
    obtain ⟨d, hd, rfl⟩ := mem_reloads hc
    refine ih d hd ?_
    intro t ht
    refine h t ?_
    simp only [allTexts]
    exact List.mem_append_right _ (mem_allTextss.mpr ⟨d, hd, ht⟩)

theorem DocX.reload {x : XDoc} (h : DocX x) (b : Build) : DocX (reloadDoc b x) := by
  obtain ⟨t, a, cs, h1, h2, h3, h4⟩ := h
  refine ⟨t, some (reloadAttrs a), reloads cs, ⟨?_, ?_, wfNs_release b h1.ns, cleanUris_release b h1.uris⟩, ?_, attrsX_reload h3, ?_⟩
  · unfold reloadDoc
    rw [h1.isRoot]
    rfl
  · have := wfNode_reload _ h1.names
    rw [Spec.reload] at this
    exact this
  · intro kv hkv
    change kv ∈ releaseNs b x.ns at hkv
    unfold releaseNs at hkv
    split at hkv
    · rcases mem_ainsert hkv with rfl | hkv
      · exact ⟨xlit (by decide +kernel), by decide +kernel, by decide +kernel⟩
      · exact h2 kv hkv
    · exact h2 kv hkv
  · intro c hc
    obtain ⟨d, hd, rfl⟩ := mem_reloads hc
    exact nodeX_reload d (h4 d hd)

/-- A document with other children. -/
theorem DocX.withChildren {x : XDoc} {t : String} {a : Option Attrs} {cs cs' : List Node} (h : WfDoc asciiOnly x (.mk t a none cs))
    (hu : ∀ kv ∈ x.ns, UriXml kv.2) (ha : AttrsX a) {f : List Node → List Node} (hf : f cs = cs') (hw : WfNodes asciiOnly cs') (hc : ∀ c ∈ cs', NodeX c) :
    DocX (x.mapRootChildren f) := by
  refine ⟨t, a, cs', ⟨?_, ⟨h.names.1, h.names.2.1, hw⟩, h.ns, h.uris⟩, hu, ha, hc⟩
  unfold XDoc.mapRootChildren
  rw [h.isRoot, ← hf]
  rfl

end Oxml
