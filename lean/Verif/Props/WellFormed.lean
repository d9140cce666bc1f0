import Verif.Proofs.Ready
import Verif.Proofs.Unambiguous
import Verif.Props.Xml
import Verif.Proofs.KernelRfl
/-!
# C102, C103: what other programs that read XML make of a written document
-/
namespace Oxml
open Spec

/-! ## C102 -/

/-- **C102, one reading.** A text is an XML document in one way only: all programs that read it find the same elements, attributes and texts. -/
theorem C102_one_reading {text : List Char} {item item' : Item} (h : IsDocument text item) (h' : IsDocument text item') : item = item' :=
  document_unique h h'

/-- **C102.** A document with names, texts and namespaces XML can hold is written as a well-formed document, and what every other program reads
in it is the tree of the document: every element with its name, its attributes, its text and its children in order, texts with line
ends as XML reads them. -/
theorem C102_written_wellformed (b : Build) (u : Unicode) (stamp : List Char) (hs : b.release = true → StampXml stamp) (d : XmlDoc) (h : Reachable u d)
    (root : Node) (hr : d.toXDoc.root = some root) (hx : XmlReady (releaseNs b d.ns) root) :
    ∃ text, writeXml b stamp d = .ok text ∧ WellFormed text ∧
      (TextOrChildren root → ∀ item, IsDocument text item → ShowsRoot Reading.xml (releaseNs b d.ns) root item) := by
  refine ⟨_, (C07_write_total b u stamp d h).1, ⟨_, document_write b stamp d.toXDoc root hr hx hs⟩, fun ht item hi => ?_⟩
  rw [document_unique hi (document_write b stamp d.toXDoc root hr hx hs)]
  exact shows_root b d.ns root ht

/-- **C102, violated always.** As soon as one text or attribute value of a document has a character XML does not allow, the text written
is no XML document: such characters are neither refused nor replaced. -/
theorem C102_violated_always (b : Build) (u : Unicode) (stamp : List Char) (d : XmlDoc) (h : Reachable u d) (root : Node)
    (hr : d.toXDoc.root = some root) (v : String) (hv : v ∈ allTexts root) (hb : ¬XmlChars v) :
    ∃ text, writeXml b stamp d = .ok text ∧ ¬WellFormed text := by
  refine ⟨_, (C07_write_total b u stamp d h).1, ?_⟩
  intro hw
  refine hb fun c hc => Classical.byContradiction fun hn => ?_
  exact not_wellFormed b stamp d.toXDoc root hr hv hc hn hw

/-- **C102, exactly when.** With names and namespaces XML can hold, the text written is well-formed exactly when every character of every
text and attribute value is one XML allows. -/
theorem C102_exact (b : Build) (u : Unicode) (stamp : List Char) (hs : b.release = true → StampXml stamp) (d : XmlDoc) (h : Reachable u d) (root : Node)
    (hr : d.toXDoc.root = some root) (hn : ∀ n ∈ allNames root, XmlName n.toList) (hd : DistinctAttrs root)
    (hk : ∀ kv ∈ releaseNs b d.ns, XmlName (declName kv.1).toList ∧ XmlChars kv.2 ∧ '"' ∉ kv.2.toList ∧ '<' ∉ kv.2.toList ∧ '&' ∉ kv.2.toList)
    (ha : ((declAttrs (releaseNs b d.ns) ++ root.attrs.getD []).map Prod.fst).Nodup) :
    (∃ text, writeXml b stamp d = .ok text ∧ WellFormed text) ↔ ∀ t ∈ allTexts root, XmlChars t := by
  constructor
  · rintro ⟨text, h1, h2⟩ t ht
    refine Classical.byContradiction fun hb => ?_
    obtain ⟨text', h3, h4⟩ := C102_violated_always b u stamp d h root hr t ht hb
    rw [h1] at h3
    cases h3
    exact h4 h2
  · intro ht
    obtain ⟨text, h1, h2, _⟩ := C102_written_wellformed b u stamp hs d h root hr ⟨hn, hd, ht, hk, ha⟩
    exact ⟨text, h1, h2⟩

/-- A document with a text between two tags and an attribute. -/
def spokenDoc (text attr : String) : XmlDoc :=
  XmlDoc.history asciiOnly [.createRoot "sst", .append "t" 0, .value 1 text, .attributes 1 [("k", attr)]]

theorem spoken_reachable (text attr : String) : Reachable asciiOnly (spokenDoc text attr) := by
  simp only [spokenDoc, XmlDoc.history, List.foldl_cons, List.foldl_nil]
  refine .edit (.edit (.edit (.edit .new _ ?_) _ ?_) _ ?_) _ ?_
  · trivial
  · trivial
  · trivial
  · simp [Edit.ProperMap, akeys]

theorem spoken_root (text attr : String) :
    (spokenDoc text attr).toXDoc.root = some (.mk "sst" none none [.mk "t" (some [("k", attr)]) (some text) []]) := by
  kernel_rfl

theorem spoken_ns (text attr : String) : (spokenDoc text attr).ns = [] := by
  kernel_rfl

theorem spoken_ready (b : Build) (text attr : String) (h1 : XmlChars text) (h2 : XmlChars attr) :
    XmlReady (releaseNs b (spokenDoc text attr).ns) (.mk "sst" none none [.mk "t" (some [("k", attr)]) (some text) []]) := by
  refine ready_wf b (x := (spokenDoc text attr).toXDoc) ⟨spoken_root text attr, ?_, ?_, ?_⟩ ?_ ?_
  · simp only [WfNode, WfNodes, WfAttrs]
    refine ⟨by decide +kernel, nofun, ⟨by decide +kernel, ?_, trivial⟩, trivial⟩
    rintro a ⟨⟩
    simp only [akeys, List.map_cons, List.map_nil, List.mem_singleton, forall_eq]
    exact ⟨by simp, by decide +kernel, by decide +kernel⟩
  · change WfNs _ (spokenDoc text attr).ns
    rw [spoken_ns]
    exact ⟨List.nodup_nil, nofun⟩
  · change CleanUris (spokenDoc text attr).ns
    rw [spoken_ns]
    nofun
  · change ∀ kv ∈ (spokenDoc text attr).ns, _
    rw [spoken_ns]
    nofun
  · simp [allTexts, allTextss, h1, h2]

example : writeXml ⟨false⟩ [] (spokenDoc "a<b" "c\"d") = .ok "<?xml version=\"1.0\" encoding=\"utf-8\"?><sst  ><t k=\"c&quot;d\" >a&lt;b</t></sst>".toList := by
  decide +kernel

/-- The hypotheses of C102 are met, and a text of the document is read as it is. -/
example : ∃ text, writeXml ⟨false⟩ [] (spokenDoc "a<b" "c\"d") = .ok text ∧ WellFormed text := by
  obtain ⟨t, h1, h2, _⟩ := C102_written_wellformed ⟨false⟩ asciiOnly [] nofun _ (spoken_reachable "a<b" "c\"d") _ (spoken_root _ _)
    (spoken_ready _ _ _ (fun c hc => ascii_xml (by decide +kernel) c hc) (fun c hc => ascii_xml (by decide +kernel) c hc))
  exact ⟨t, h1, h2⟩

/-- **C102, violated.** A text with the character U+0001 is written as it is, and the document is no XML. -/
theorem C102_violated : ∃ text, writeXml ⟨false⟩ [] (spokenDoc "\x01" "") = .ok text ∧ ¬WellFormed text :=
  C102_violated_always _ _ _ _ (spoken_reachable _ _) _ (spoken_root _ _) "\x01" (by simp [allTexts, allTextss]) (fun h => by
    have := h '\x01' (by decide)
    revert this
    unfold XmlChar
    decide)

/-! ## C103 -/

theorem noHash_doc (b : Build) (stamp : List Char) (hs : '&' ∉ stamp) (x : XDoc) (root : Node) (hr : x.root = some root) (h : XmlReady (releaseNs b x.ns) root) :
    ∀ l r, renderDoc b stamp x ≠ l ++ '&' :: '#' :: r := by
  intro l r e
  refine NamedOnly.noHash (l := l) (r := r) ?_
  rw [← e]
  unfold renderDoc
  rw [hr]
  refine NamedOnly.append ?_ (namedOnly_root b x.ns root h.names (fun kv hkv => ⟨(h.decls kv hkv).1, (h.decls kv hkv).2.2.2.2⟩))
  apply NamedOnly.plain
  unfold xmlHeader
  intro hm
  rcases List.mem_append.mp hm with hm | hm
  · revert hm; decide +kernel
  · split at hm
    · simp only [List.mem_append] at hm
      rcases hm with (hm | hm) | hm
      · revert hm; decide +kernel
      · exact hs hm
      · revert hm; decide +kernel
    · cases hm

/-- **C103, exactly when.** Every other program that reads XML finds every text and attribute value of a written document as the document held it
exactly when no text has a carriage return and no attribute value or namespace has one, a line feed or a tab: the library writes these as
they are, not as references, and XML reads them as a line feed, or as a space. -/
theorem C103_exact (b : Build) (u : Unicode) (stamp : List Char) (hs : b.release = true → StampXml stamp) (hs' : '&' ∉ stamp) (d : XmlDoc)
    (h : Reachable u d) (root : Node) (hr : d.toXDoc.root = some root) (hx : XmlReady (releaseNs b d.ns) root) (ht : TextOrChildren root) :
    (∃ text, writeXml b stamp d = .ok text ∧ WellFormed text ∧ ∀ item, IsDocument text item → ShowsRoot Reading.same (releaseNs b d.ns) root item) ↔
      Steady (releaseNs b d.ns) root := by
  constructor
  · rintro ⟨text, h1, _, h3⟩
    rw [(C07_write_total b u stamp d h).1] at h1
    cases h1
    have h2 := document_write b stamp d.toXDoc root hr hx hs
    exact showsRoot_calm _ root _ ht (h3 _ h2) (isDocument_calm h2 (noHash_doc b stamp hs' d.toXDoc root hr hx))
  · intro hst
    refine ⟨_, (C07_write_total b u stamp d h).1, ⟨_, document_write b stamp d.toXDoc root hr hx hs⟩, fun item hi => ?_⟩
    rw [document_unique hi (document_write b stamp d.toXDoc root hr hx hs)]
    exact showsRoot_same _ root _ ht hst (shows_root b d.ns root ht)

/-- **C103, violated.** No program that reads XML finds the carriage return of this text, though the document is well-formed. -/
theorem C103_violated : ∃ text, writeXml ⟨false⟩ [] (spokenDoc "a\r\nb" "") = .ok text ∧ WellFormed text ∧
    ¬∃ item, IsDocument text item ∧ ShowsRoot Reading.same [] (.mk "sst" none none [.mk "t" (some [("k", "")]) (some "a\r\nb") []]) item := by
  have hx := spoken_ready ⟨false⟩ "a\r\nb" "" (by
    intro c hc
    rcases (by simpa using hc : c = 'a' ∨ c = '\r' ∨ c = '\n' ∨ c = 'b') with rfl | rfl | rfl | rfl <;> (unfold XmlChar; decide)) nofun
  obtain ⟨t, h1, h2, _⟩ := C102_written_wellformed ⟨false⟩ asciiOnly [] nofun _ (spoken_reachable _ _) _ (spoken_root _ _) hx
  refine ⟨t, h1, h2, fun ⟨item, h3, h4⟩ => ?_⟩
  have := (C103_exact ⟨false⟩ asciiOnly [] nofun nofun _ (spoken_reachable _ _) _ (spoken_root _ _) hx (by simp [TextOrChildren, TextOrChildrens])).mp
    ⟨t, h1, h2, fun _ hi => document_unique hi h3 ▸ h4⟩
  exact this.texts "a\r\nb" (by simp [elemTexts, elemTextss]) (by decide)

/-- **C103, violated.** The same for the line feed of an attribute value. -/
theorem C103_violated_attribute : ∃ text, writeXml ⟨false⟩ [] (spokenDoc "" "a\nb") = .ok text ∧ WellFormed text ∧
    ¬∃ item, IsDocument text item ∧ ShowsRoot Reading.same [] (.mk "sst" none none [.mk "t" (some [("k", "a\nb")]) (some "") []]) item := by
  have hx := spoken_ready ⟨false⟩ "" "a\nb" nofun (by
    intro c hc
    rcases (by simpa using hc : c = 'a' ∨ c = '\n' ∨ c = 'b') with rfl | rfl | rfl <;> (unfold XmlChar; decide))
  obtain ⟨t, h1, h2, _⟩ := C102_written_wellformed ⟨false⟩ asciiOnly [] nofun _ (spoken_reachable _ _) _ (spoken_root _ _) hx
  refine ⟨t, h1, h2, fun ⟨item, h3, h4⟩ => ?_⟩
  have := (C103_exact ⟨false⟩ asciiOnly [] nofun nofun _ (spoken_reachable _ _) _ (spoken_root _ _) hx (by simp [TextOrChildren, TextOrChildrens])).mp
    ⟨t, h1, h2, fun _ hi => document_unique hi h3 ▸ h4⟩
  exact (this.attrs "a\nb" (by simp [attrTexts, attrTextss])).2.1 (by decide)

/-- The hypotheses of C103 can all be met: a text with markup, quotes and a line feed is read as it is. -/
example : ∃ text, writeXml ⟨false⟩ [] (spokenDoc "a<\n'b'" "&") = .ok text ∧ WellFormed text ∧ ∀ item, IsDocument text item →
    ShowsRoot Reading.same [] (.mk "sst" none none [.mk "t" (some [("k", "&")]) (some "a<\n'b'") []]) item := by
  have hx := spoken_ready ⟨false⟩ "a<\n'b'" "&" (by
    intro c hc
    rcases (by simpa using hc : c = 'a' ∨ c = '<' ∨ c = '\n' ∨ c = '\'' ∨ c = 'b' ∨ c = '\'') with rfl | rfl | rfl | rfl | rfl | rfl <;> (unfold XmlChar; decide))
    (fun c hc => ascii_xml (by decide +kernel) c hc)
  refine (C103_exact ⟨false⟩ asciiOnly [] nofun nofun _ (spoken_reachable _ _) _ (spoken_root _ _) hx (by simp [TextOrChildren, TextOrChildrens])).mpr ⟨?_, ?_, nofun⟩
  · simp [elemTexts, elemTextss]
  · simp [attrTexts, attrTextss]

end Oxml
