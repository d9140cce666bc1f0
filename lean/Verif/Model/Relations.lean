import Verif.Model.Package
import Verif.Model.Content
/-!
# `rs/src/global/global_2007/parts/relations.rs`
-/
namespace Oxml

/-- One relationship: id, target, type, target mode (`relations.rs:11-12`). -/
structure Rel where
  id : String
  target : String
  type : String
  mode : Option String
deriving DecidableEq, Repr

/-- Text before the first occurrence of a pattern (`str::find`), `none` if it does not occur. -/
def beforeSub (pat : List Char) : List Char → Option (List Char)
  | [] => if pat = [] then some [] else none
  | c :: cs => if pat.isPrefixOf (c :: cs) then some [] else (beforeSub pat cs).map (c :: ·)

/-- `get_relative_path` (`relations.rs:129-139`). The slice `[..pos - 1]` is in bytes: cutting a multi-byte character
panics. -/
def relativePath (filePath : String) : Res String :=
  match beforeSub "_rels".toList filePath.toList with
  | none => .error (.fail "Failed to string Prefix path from relation")
  | some [] => .ok ""
  | some (c :: cs) =>
    if ((c :: cs).getLast (by simp)).val < 128 then .ok (String.ofList ((c :: cs).dropLast ++ ['/']))
    else .error (.panic "byte index is not a char boundary")

/-- Resolution of a target against the directory of the relationship part (`relations.rs:150-158`). -/
def resolveTarget (filePath target : String) : Res String :=
  match relativePath filePath with
  | .error e => .error e
  | .ok dir =>
    match target.toList with
    | '/' :: rest => .ok (String.ofList rest)
    | _ => .ok (dir ++ target)

/-- `get_target_by_id` (`relations.rs:141-162`). -/
def targetById (filePath : String) (rels : List Rel) (id : String) : Res (Option String) :=
  match rels.find? (fun r => r.id = id) with
  | none => .ok none
  | some r =>
    match resolveTarget filePath r.target with
    | .error e => .error e
    | .ok t => .ok (some t)

/-- The text `rId{n}`. -/
def rId (n : Nat) : String := "rId" ++ toString n

/-- The search loop (`relations.rs:202-213`). Fuel `len + 1` is enough: see `nextRelId_fresh`. -/
def nextRelIdLoop (rels : List Rel) : Nat → Nat → Nat
  | 0, n => n
  | fuel + 1, n => if rels.any (fun r => r.id = rId n) then nextRelIdLoop rels fuel (n + 1) else n

/-- `get_next_relationship_id` (`relations.rs:200-215`). -/
def nextRelId (rels : List Rel) : String := rId (nextRelIdLoop rels (rels.length + 1) (rels.length + 1))

/-- The part path `{path}/{name}.{ext}` with defaults filled in (`relations.rs:190-195`). -/
def partPath (c : Content) (path name : Option String) : String :=
  path.getD c.path ++ "/" ++ name.getD c.name ++ "." ++ c.ext

/-- `set_new_relationship_mut` (`relations.rs:252-271`). -/
def newRel (rels : List Rel) (c : Content) (path name : Option String) : List Rel × String :=
  (rels ++ [{ id := nextRelId rels, target := "/" ++ partPath c path name, type := c.type, mode := none }], nextRelId rels)

/-- `get_relationship_target_by_type_mut` (`relations.rs:166-197`): the target of the first relationship of the type, else a
new one. -/
def targetByType (filePath : String) (rels : List Rel) (type : String) (c : Content) (path name : Option String) :
    Res String × List Rel :=
  match rels.find? (fun r => r.type = type) with
  | some r => (resolveTarget filePath r.target, rels)
  | none => (.ok (partPath c path name), (newRel rels c path name).1)

/-- `delete_relationship_mut` (`relations.rs:274-283`). -/
def deleteRel (rels : List Rel) (filePath : String) : List Rel :=
  let full := match filePath.toList with
    | '/' :: _ => filePath
    | _ => "/" ++ filePath
  rels.filter (fun r => r.target ≠ full)

/-- One `Relationship` element (`relations.rs:231-243`). -/
def relNode (r : Rel) : Node :=
  .mk "Relationship" (some ([("Id", r.id), ("Target", r.target), ("Type", r.type)] ++
    (match r.mode with | none => [] | some m => [("TargetMode", m)]))) none []

/-- `save_relationship_to_doc` (`relations.rs:221-249`) on an upgraded document: the new document and whether to keep it. -/
def saveRels (x : XDoc) (rels : List Rel) : Res (XDoc × Bool) :=
  match x.root with
  | none => .error (.fail "No Root Relationship Element Found")
  | some r =>
    match x.appendAll (rels.map relNode) with
    | .error e => .error e
    | .ok x' => .ok (x', decide (r.children.length > 0 ∨ rels.length > 0))

/-- One loaded relationship (`relations.rs:104-122`). -/
def loadRel (n : Node) : Res Rel :=
  match n.attrs with
  | none => .error (.fail "Failed! Relationship attributes missing")
  | some a =>
    match aget "Id" a, aget "Target" a, aget "Type" a with
    | some i, some t, some y => .ok { id := i, target := t, type := y, mode := aget "TargetMode" a }
    | none, _, _ => .error (.fail "Failed. Id in relationship Not Fount!")
    | _, none, _ => .error (.fail "Failed. Target in relationship Not Fount!")
    | _, _, none => .error (.fail "Failed. Type in relationship Not Fount!")

/-- `load_relations` (`relations.rs:93-127`): the list and the document without the `Relationship` elements. -/
def loadRels (x : XDoc) : Res (List Rel) × XDoc :=
  (mapRes loadRel (x.popTag "Relationship").1, (x.popTag "Relationship").2)

/-- `initialize_content_xml` (`relations.rs:50-70`). -/
def relsTemplate : Template :=
  { doc := XDoc.template "Relationships" relsContent.ns, ctype := none, ext := relsContent.ext, extType := relsContent.extType }

/-- `RelationsPart` (`relations.rs:10-16`). -/
structure RelPart where
  rels : List Rel
  handle : Nat
  path : String
deriving DecidableEq, Repr

/-- The document of a handle, if still open. -/
def Pkg.docOf (p : Pkg) (h : Nat) : Option XDoc := (p.byHandle h).map OpenDoc.doc

/-- `RelationsPart::new` (`relations.rs:75-88`). -/
def RelPart.new (env : Env) (p : Pkg) (path : String) : Res RelPart × Pkg :=
  match p.openPart env (.ok relsTemplate) path with
  | (.error e, p1) => (.error e, p1)
  | (.ok h, p1) =>
    match p1.docOf h with
    | none => (.ok { rels := [], handle := h, path := path }, p1)
    | some x =>
      match loadRels x with
      | (.error e, x') => (.error e, p1.update h (fun _ => x'))
      | (.ok rels, x') => (.ok { rels := rels, handle := h, path := path }, p1.update h (fun _ => x'))

/-- `RelationsPart::close_document` (`relations.rs:26-48`). An empty relationship document is deleted from the closed parts
only, so it stays open. -/
def RelPart.close (env : Env) (p : Pkg) (r : RelPart) : Res Unit × Pkg :=
  match p.docOf r.handle with
  | none => (.error (.fail "Failed to Get XML Handle"), p)
  | some x =>
    match saveRels x r.rels with
    | .error e => (.error e, p)
    | .ok (x', keep) =>
      let p1 := p.update r.handle (fun _ => x')
      (.ok (), if keep then p1.close env r.path else p1.delete r.path)

end Oxml
