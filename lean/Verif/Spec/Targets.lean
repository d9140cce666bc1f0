import Verif.Model.Relations
/-!
# Resolution of relationship targets

The Open Packaging Conventions resolve a relative target against the directory of the source part: `.` segments are
dropped, `..` segments go up one directory, a leading slash starts at the package root, and external targets are not
part names at all.
-/
namespace Oxml.Spec

/-- Segments joined with slashes. -/
def joinPath : List (List Char) → List Char
  | [] => []
  | [s] => s
  | s :: ss => s ++ '/' :: joinPath ss

/-- Dot segments removed. -/
def normal (segs : List (List Char)) : List (List Char) :=
  segs.foldl (fun acc s => if s = ['.'] then acc else if s = ['.', '.'] then acc.dropLast else acc ++ [s]) []

/-- The relationship part of the part `name` in the directory `dir`. -/
def relsPath (dir : List (List Char)) (name : List Char) : String :=
  String.ofList (joinPath (dir ++ ["_rels".toList, name ++ ".rels".toList]))

/-- A directory name: not empty, no slash, no dot segment. -/
def Seg (s : List Char) : Prop := s ≠ [] ∧ '/' ∉ s ∧ s ≠ ['.'] ∧ s ≠ ['.', '.']

/-- A directory with its final slash. -/
def dirText (dir : List (List Char)) : List Char := dir.flatMap (fun s => s ++ ['/'])

end Oxml.Spec
