import Verif.Spec.Xml
import Verif.Spec.Render
import Verif.Model.XmlWriter
/-!
# Parts see the content of their document only

The library keeps each open document as an arena: elements with ids, parent pointers, child lists, an id counter.
Users see the content (`toXDoc`: the namespace map and the tree), in the files.
-/
namespace Oxml.Spec

/-- The text of the file, when the document is written after `r`. -/
def fileOf (b : Build) (stamp : List Char) (r : Res XmlDoc) : Res (List Char) :=
  match r with
  | .error e => .error e
  | .ok d => writeXml b stamp d

/-- A loading function sees the content of the document only: documents with equal content, however they were built,
give equal results and are left with equal content. What is left can again be used as a document. -/
def LoadsAlike {α : Type} (load : XmlDoc → Res α × XmlDoc) : Prop :=
  ∀ (u : Unicode) (d1 d2 : XmlDoc), Reachable u d1 → Reachable u d2 → d1.toXDoc = d2.toXDoc →
    (load d1).1 = (load d2).1 ∧ Reachable u (load d1).2 ∧
    ∀ x, (load d1).1 = .ok x → (load d1).2.toXDoc = (load d2).2.toXDoc

/-- A saving function sees the content of the document and its data only: documents with equal content give the same
file, or the same failure. After a successful save the document can again be used, and be written. -/
def SavesAlike {α : Type} (save : Unicode → α → XmlDoc → Res XmlDoc) : Prop :=
  ∀ (u : Unicode) (b : Build) (stamp : List Char) (x : α) (d1 d2 : XmlDoc), Reachable u d1 → Reachable u d2 →
    d1.toXDoc = d2.toXDoc →
    fileOf b stamp (save u x d1) = fileOf b stamp (save u x d2) ∧
    ∀ d', save u x d1 = .ok d' → Reachable u d' ∧ ∃ s, writeXml b stamp d' = .ok s

end Oxml.Spec
