import Verif.Model.Package
/-!
# Vocabulary for statements about packages
-/
namespace Oxml.Spec

/-- Package states a program can reach: start empty or load a zip (whose entry names are distinct), then any operations. -/
inductive PkgReachable (env : Env) : Pkg → Prop where
  | new : PkgReachable env Pkg.empty
  | load {z p} : (akeys z).Nodup → Pkg.ofZip env z = .ok p → PkgReachable env p
  | step {p} (op : PkgOp) : PkgReachable env p → PkgReachable env (p.step env op)

/-- The operation opens, closes or deletes this part. -/
def touches (n : String) : PkgOp → Prop
  | .openPart _ m => m = n
  | .close m => m = n
  | .delete m => m = n
  | .mutate _ _ => False

/-- The package holds a part of this name, open or closed. -/
def holds (p : Pkg) (n : String) : Prop := n ∈ akeys p.opened ∨ n ∈ akeys p.archive

/-- A history of successful opens, closes and edits. -/
def OpensAndCloses (env : Env) : Pkg → List PkgOp → Prop
  | _, [] => True
  | p, op :: ops =>
    (match op with
      | .openPart t n => ∃ h, (p.openPart env t n).1 = .ok h
      | .close _ => True
      | .delete _ => False
      | .mutate _ _ => True) ∧ OpensAndCloses env (p.step env op) ops

end Oxml.Spec
