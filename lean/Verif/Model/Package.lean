import Verif.Model.XmlReader
import Verif.Model.DocOps
import Verif.Spec.Render
/-!
# `rs/src/files/office_document.rs`, `content_types.rs`, `xml_parts.rs`: the package

A package holds closed parts (text) and open parts (trees). Compression is loss-free and not modelled; a zip file
is the list of its named contents. Open parts hold document values (`XDoc`): reading goes through the arena reader
(`readXml`), and writing uses the rendering the arena writer was proved to produce (`C07_write_total`).
-/
namespace Oxml

/-- Session constants: build profile, Unicode table, the comment text of release builds, and how an `f32` literal is
printed after parsing (`show32`). Simplification: the comment (which contains the time) is the same for all parts
written in a session. -/
structure Env where
  build : Build
  uni : Unicode
  stamp : List Char
  show32 : String → String := id

/-- A closed part (`office_document.rs:21-33`) without the sizes and the compression level. -/
structure Entry where
  ext : String
  extType : String
  ctype : Option String
  content : List Char
deriving DecidableEq, Repr

/-- An open part (`office_document.rs:18-20`). The `Rc` is a handle number: a `Weak` upgrades iff its handle is still
in the collection. -/
structure OpenDoc where
  handle : Nat
  doc : XDoc
  ctype : Option String
  ext : String
  extType : String
deriving DecidableEq, Repr

/-- `OfficeDocument` (`office_document.rs:17-34`). `nextHandle` numbers the `Rc`s. -/
structure Pkg where
  opened : List (String × OpenDoc)
  archive : List (String × Entry)
  nextHandle : Nat
deriving DecidableEq, Repr

/-- A zip file: names and contents. -/
abbrev Zip := List (String × List Char)

/-- The name of the content type part. -/
def contentTypesName : String := "[Content_Types].xml"

/-- `OfficeDocument::new(None)` (`office_document.rs:38-49`). -/
def Pkg.empty : Pkg := { opened := [], archive := [], nextHandle := 0 }

/-- `check_file_exist` (`office_document.rs:51-53`): looks at closed parts only. -/
def Pkg.checkFileExist (p : Pkg) (name : String) : Bool := ahas name p.archive

/-- `delete_document_mut` (`office_document.rs:55-57`): closed parts only. -/
def Pkg.delete (p : Pkg) (name : String) : Pkg := { p with archive := aerase name p.archive }

/-- `get_xml_document_ref` (`office_document.rs:59-79`). Returns the new handle. -/
def Pkg.register (p : Pkg) (name : String) (x : XDoc) (ctype : Option String) (ext extType : String) : Pkg × Nat :=
  ({ p with
      opened := ainsert name { handle := p.nextHandle, doc := x, ctype := ctype, ext := ext, extType := extType } p.opened
      nextHandle := p.nextHandle + 1 }, p.nextHandle)

/-- A document value with its package metadata: content type, extension, extension type. -/
structure Template where
  doc : XDoc
  ctype : Option String
  ext : String
  extType : String
deriving DecidableEq, Repr

/-- `get_xml_tree_mut` (`office_document.rs:82-110`). The part leaves the archive before it is parsed. -/
def Pkg.getXmlTree (env : Env) (p : Pkg) (name : String) : Res (Option Template) × Pkg :=
  if ahas name p.opened then
    (.error (.fail "Please close the Existing object before creating new handle"), p)
  else
    match aget name p.archive with
    | none => (.ok none, p)
    | some e =>
      let p1 := { p with archive := aerase name p.archive }
      match readXml env.uni e.content with
      | .error err => (.error err, p1)
      | .ok d => (.ok (some { doc := d.toXDoc, ctype := e.ctype, ext := e.ext, extType := e.extType }), p1)

/-- `get_xml_document` (`xml_parts.rs:19-51`): open an existing part or start from the template. -/
def Pkg.openPart (env : Env) (template : Res Template) (p : Pkg) (name : String) : Res Nat × Pkg :=
  match p.getXmlTree env name with
  | (.error e, p1) => (.error e, p1)
  | (.ok (some t), p1) =>
    let r := p1.register name t.doc t.ctype t.ext t.extType
    (.ok r.2, r.1)
  | (.ok none, p1) =>
    match template with
    | .error e => (.error e, p1)
    | .ok t =>
      let r := p1.register name t.doc t.ctype t.ext t.extType
      (.ok r.2, r.1)

/-- `close_xml_document` (`office_document.rs:113-150`). Serialisation cannot fail (`C07_write_total`). -/
def Pkg.close (env : Env) (p : Pkg) (name : String) : Pkg :=
  match aget name p.opened with
  | none => p
  | some o =>
    { p with
      opened := aerase name p.opened
      archive := ainsert name
        { ext := o.ext, extType := o.extType, ctype := o.ctype, content := renderDoc env.build env.stamp o.doc } p.archive }

/-- Closing several parts in turn (`office_document.rs:155-163`). -/
def Pkg.closeAll (env : Env) (p : Pkg) (names : List String) : Pkg := names.foldl (Pkg.close env) p

/-- The open document with a handle: `Weak::upgrade`. -/
def Pkg.byHandle (p : Pkg) (h : Nat) : Option OpenDoc :=
  (p.opened.find? (fun kv => kv.2.handle = h)).map Prod.snd

/-- Mutation through an upgraded handle. -/
def Pkg.update (p : Pkg) (h : Nat) (f : XDoc → XDoc) : Pkg :=
  { p with opened := p.opened.map (fun kv => if kv.2.handle = h then (kv.1, { kv.2 with doc := f kv.2.doc }) else kv) }

/-! ### Content types -/

/-- Namespace of the content type part (`element_dictionary.rs:15-16`). -/
def contentTypesNs : String := "http://schemas.openxmlformats.org/package/2006/content-types"

/-- `ContentTypesPart::create_xml_file` (`content_types.rs:67-116`), as a document value. -/
def contentTypesDoc (extensions overrides : List (String × String)) : XDoc :=
  { ns := [(defaultNsKey, contentTypesNs)]
    root := some (.mk "Types" (some []) none
      (extensions.map (fun e => .mk "Default" (some [("Extension", e.1), ("ContentType", e.2)]) none [])
        ++ overrides.map (fun o => .mk "Override" (some [("PartName", o.1), ("ContentType", o.2)]) none []))) }

/-- An attribute that must be present. -/
def needAttr (n : Node) (key : String) (msg : String) : Res String :=
  match n.attr? key with
  | some v => .ok v
  | none => .error (.fail msg)

/-- All results, or the first error. -/
def mapRes {α β : Type} (f : α → Res β) : List α → Res (List β)
  | [] => .ok []
  | x :: xs =>
    match f x with
    | .error e => .error e
    | .ok y =>
      match mapRes f xs with
      | .error e => .error e
      | .ok ys => .ok (y :: ys)

/-- `get_extensions` (`content_types.rs:21-44`); an absent list and an empty list are treated alike by the caller. -/
def getExtensions (x : XDoc) : Res (List (String × String)) :=
  mapRes (fun n =>
    match needAttr n "Extension" "content type default attribute missing" with
    | .error e => .error e
    | .ok a =>
      match needAttr n "ContentType" "content type default attribute missing" with
      | .error e => .error e
      | .ok c => .ok (a, c)) (x.rootChildren.filter (fun n => n.tag = "Default"))

/-- `get_override_content_type` (`content_types.rs:46-65`): the last child (the `Default`s were taken out before) whose
`PartName` is `/name`; a missing `ContentType` panics. The element found is taken out, which cannot be noticed:
names of a zip are distinct. -/
def overrideContentType (x : XDoc) (name : String) : Res (Option String) :=
  match ((x.rootChildren.filter (fun n => n.tag ≠ "Default")).filter (fun n => n.attr? "PartName" = some ("/" ++ name))).getLast? with
  | none => .ok none
  | some n =>
    match n.attr? "ContentType" with
    | some c => .ok (some c)
    | none => .error (.panic "unwrap on None")

/-- Text after the last dot, the whole name without a dot (`rsplit(".").next()`, `office_document.rs:276`). -/
def fileExtension (name : String) : String :=
  String.ofList ((name.toList.reverse.takeWhile (fun c => c ≠ '.')).reverse)

/-! ### Saving and loading -/

/-- The (extension, type) pairs collected while writing the parts (`office_document.rs:197`). -/
def Pkg.extPairs (p : Pkg) : List (String × String) := p.archive.map (fun kv => (kv.2.ext, kv.2.extType))

/-- The overrides collected while writing the parts (`office_document.rs:198-200`). -/
def Pkg.overrides (p : Pkg) : List (String × String) :=
  p.archive.filterMap (fun kv => kv.2.ctype.map (fun c => ("/" ++ kv.1, c)))

/-- An order in which a `HashSet` collected from `l` may be iterated (`office_document.rs:218-222`). -/
structure HashSetOrder {α : Type} (l exts : List α) : Prop where
  nodup : exts.Nodup
  mem : ∀ x, x ∈ exts ↔ x ∈ l

/-- `save_database_into_archive` (`office_document.rs:176-231`); `exts` is the iteration order of the set of extensions.
The zip writer refuses a second file of the same name. -/
def Pkg.toZip (env : Env) (p : Pkg) (exts : List (String × String)) : Res Zip :=
  if ahas contentTypesName p.archive then .error (.fail "Zip File Write Start Fail")
  else .ok (p.archive.map (fun kv => (kv.1, kv.2.content))
    ++ [(contentTypesName, renderDoc env.build env.stamp (contentTypesDoc exts p.overrides))])

/-- Loading one part (`office_document.rs:272-309`). -/
def loadEntry (types : XDoc) (extensions : List (String × String)) (name : String) (content : List Char) : Res Entry :=
  match overrideContentType types name with
  | .error e => .error e
  | .ok ct =>
    match extensions.find? (fun e => e.1 = fileExtension name) with
    | some e => .ok { ext := e.1, extType := e.2, ctype := ct, content := content }
    | none => .ok { ext := "", extType := "", ctype := ct, content := content }

/-- The part loop (`office_document.rs:271-310`). -/
def loadEntries (types : XDoc) (extensions : List (String × String)) : Zip → Res (List (String × Entry))
  | [] => .ok []
  | (name, content) :: rest =>
    match loadEntry types extensions name content with
    | .error e => .error e
    | .ok e =>
      match loadEntries types extensions rest with
      | .error e => .error e
      | .ok m => .ok ((name, e) :: m)

/-- `load_archive_into_database` (`office_document.rs:234-311`). -/
def Pkg.ofZip (env : Env) (z : Zip) : Res Pkg :=
  match aget contentTypesName z with
  | none => .error (.fail "Read [Content_Types].xml Failed")
  | some ct =>
    match readXml env.uni ct with
    | .error e => .error e
    | .ok d =>
      match getExtensions d.toXDoc with
      | .error e => .error e
      | .ok exts =>
        match loadEntries d.toXDoc exts (z.filter (fun kv => kv.1 ≠ contentTypesName)) with
        | .error e => .error e
        | .ok m => .ok { opened := [], archive := m, nextHandle := 0 }

/-- The package operations parts use, over which histories range. -/
inductive PkgOp where
  | openPart (template : Res Template) (name : String)
  | close (name : String)
  | delete (name : String)
  | mutate (handle : Nat) (f : XDoc → XDoc)

/-- One operation. -/
def Pkg.step (env : Env) (p : Pkg) : PkgOp → Pkg
  | .openPart t name => (p.openPart env t name).2
  | .close name => p.close env name
  | .delete name => p.delete name
  | .mutate h f => p.update h f

/-- A history. -/
def Pkg.run (env : Env) (p : Pkg) (ops : List PkgOp) : Pkg := ops.foldl (Pkg.step env) p

/-- The package state when its zip is produced by `save_as` (`office_document.rs:153-166`): all open parts are closed
first, in some order of the collection's keys. -/
def Pkg.closedForSave (env : Env) (p : Pkg) : Pkg := p.closeAll env (akeys p.opened)

/-! ### Disk -/

/-- File system: path to content. -/
abbrev Disk := List (String × List Char)

/-- Disk effects of `save_as` (`office_document.rs:167-172`): remove the old file if it exists, create (empty), write. A
write goes out in pieces. -/
inductive DiskStep where
  | remove (path : String)
  | create (path : String)
  | append (path : String) (piece : List Char)
deriving DecidableEq, Repr

def DiskStep.apply (d : Disk) : DiskStep → Disk
  | .remove path => aerase path d
  | .create path => ainsert path [] d
  | .append path piece => ainsert path ((aget path d).getD [] ++ piece) d

/-- The steps of a save, the content being written as the given pieces. -/
def saveSteps (d : Disk) (path : String) (pieces : List (List Char)) : List DiskStep :=
  (if ahas path d then [.remove path] else []) ++ .create path :: pieces.map (.append path)

/-- `OfficeDocument::save_as` (`office_document.rs:153-173`), up to the moment `crash`: how many disk steps happened.
`bytes` encodes a zip; an encoding failure happens before any disk step. -/
def saveAs (env : Env) (bytes : Zip → List Char) (split : List Char → List (List Char)) (p : Pkg) (exts : List (String × String))
    (d : Disk) (path : String) (crash : Nat) : Res Unit × Disk :=
  match (p.closedForSave env).toZip env exts with
  | .error e => (.error e, d)
  | .ok z =>
    let steps := saveSteps d path (split (bytes z))
    (.ok (), (steps.take crash).foldl DiskStep.apply d)

end Oxml
