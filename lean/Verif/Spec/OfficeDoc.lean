import Verif.Model.OfficeDoc
import Verif.Spec.Xml
import Verif.Spec.CoreProps
/-!
# Vocabulary for Word and PowerPoint packages
-/
namespace Oxml.Spec

/-- What the library reads from a part of a file, `none` if the part is absent or unreadable. -/
def zipDoc (env : Env) (z : Zip) (n : String) : Option XDoc :=
  match aget n z with
  | none => none
  | some c =>
    match readXml env.uni c with
    | .error _ => none
    | .ok d => some d.toXDoc

/-- A document with a root that has no text of its own; its namespace names have no double quote. -/
structure Tidy (x : XDoc) : Prop where
  uris : CleanUris x.ns
  root : ∃ t a cs, x.root = some (.mk t a none cs)

/-- None of the texts of the relationship has a special character. -/
def PlainRel (r : Rel) : Prop := NoSpecials r.id ∧ NoSpecials r.target ∧ NoSpecials r.type ∧ ∀ m, r.mode = some m → NoSpecials m

/-- The relationship type of core properties. -/
def coreType : String := "http://schemas.openxmlformats.org/package/2006/relationships/metadata/core-properties"

/-- The relationship type of the main part of a document. -/
def mainType : String := "http://schemas.openxmlformats.org/officeDocument/2006/relationships/officeDocument"

end Oxml.Spec
