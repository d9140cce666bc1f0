import Verif.Spec.ForeignSaved
/-!
# Parts other programs wrote that stay well-formed XML (C112)
-/
namespace Oxml.Spec

/-- If the file has the part, then another program wrote well-formed XML there, with something in the root, without CDATA sections, with names the library accepts. -/
def WellWritten (env : Env) (z : Zip) (path : String) : Prop :=
  ∀ text, aget path z = some text →
    (∃ n kvs cs, IsDocument text (.elem n kvs cs) ∧ cs ≠ [] ∧ NoCdata text ∧ ItemOk env.uni (.elem n kvs cs)) ∧ ∀ d0, zipDoc env z path = some d0 → PlainNames d0

end Oxml.Spec
