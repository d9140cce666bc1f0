import Verif.Model.XmlWriter
/-!
# Document-order rendering of a tree

The recursive definition the iterative writer is compared with.
-/
namespace Oxml

mutual
/-- Text of a non-root element. A value suppresses the children. -/
def render (b : Build) : Node → List Char
  | .mk tag attrs value cs =>
    match value, cs with
    | none, [] => openTag b tag attrs none true
    | some v, _ => openTag b tag attrs none false ++ valueClose v tag
    | none, c :: cs' => openTag b tag attrs none false ++ renders b (c :: cs') ++ valueClose "" tag
/-- Text of a list of elements. -/
def renders (b : Build) : List Node → List Char
  | [] => []
  | c :: cs => render b c ++ renders b cs
end

/-- Text of the root element, which carries the namespace declarations. -/
def renderRoot (b : Build) (ns : Attrs) : Node → List Char
  | .mk tag attrs value cs =>
    match value, cs with
    | none, [] => openTag b tag attrs (some ns) true
    | some v, _ => openTag b tag attrs (some ns) false ++ valueClose v tag
    | none, c :: cs' => openTag b tag attrs (some ns) false ++ renders b (c :: cs') ++ valueClose "" tag

/-- Text of a document value. -/
def renderDoc (b : Build) (stamp : List Char) (x : XDoc) : List Char :=
  xmlHeader b stamp ++ (match x.root with
    | none => []
    | some r => renderRoot b x.ns r)

end Oxml
