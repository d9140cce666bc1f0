import Verif.Model.Workbook
/-!
# `rs/src/document/document_2007/word.rs` and `rs/src/presentation/presentation_2007/power_point.rs`

The two types are written alike, line for line (`word.rs:11-65`, `power_point.rs:11-65`); one model serves both.
-/
namespace Oxml

/-- `Word` (`word.rs:11-16`), `PowerPoint` (`power_point.rs:11-16`). -/
structure OfficeDoc where
  pkg : Pkg
  rootRels : RelPart
  core : Kept Unit
deriving DecidableEq, Repr

/-- `Word::new`, `PowerPoint::new` (`word.rs:29-51`, `power_point.rs:29-51`) on the package created or loaded. A failure discards
everything. -/
def OfficeDoc.start (env : Env) (p : Pkg) : Res OfficeDoc :=
  match RelPart.new env p "_rels/.rels" with
  | (.error e, _) => .error e
  | (.ok r, p1) =>
    match openTyped env coreContent none coreTemplate p1 r with
    | .error e => .error e
    | .ok (path, h, p2, r2) => .ok { pkg := p2, rootRels := r2, core := ⟨(), h, path⟩ }

/-- `new(None)`. -/
def OfficeDoc.new (env : Env) : Res OfficeDoc := OfficeDoc.start env Pkg.empty

/-- `new(Some(file))` on the content of the file. -/
def OfficeDoc.openFile (env : Env) (z : Zip) : Res OfficeDoc :=
  match Pkg.ofZip env z with
  | .error e => .error e
  | .ok p => OfficeDoc.start env p

/-- `CorePropertiesPart::close_document` (`core_properties.rs:43-87`). -/
def OfficeDoc.closeCore (env : Env) (now : String) (d : OfficeDoc) : Res Unit × OfficeDoc :=
  match d.pkg.docOf d.core.handle with
  | none => (.ok (), { d with pkg := d.pkg.close env d.core.path })
  | some x =>
    match saveCore now now x with
    | .error e => (.error e, d)
    | .ok x' => (.ok (), { d with pkg := (d.pkg.update d.core.handle (fun _ => x')).close env d.core.path })

/-- The package `save_as` writes (`word.rs:54-65`, `power_point.rs:54-65`): `flush` of the core properties closes and drops, and
dropping closes again (`core_properties.rs:19-23`). -/
def OfficeDoc.saved (env : Env) (now : String) (d : OfficeDoc) : Res Pkg :=
  match d.closeCore env now with
  | (.error e, _) => .error e
  | (.ok _, d1) =>
    let d2 := (d1.closeCore env now).2
    match d2.rootRels.close env d2.pkg with
    | (.error e, _) => .error e
    | (.ok _, p) => .ok (p.closedForSave env)

/-- `save_as` up to the bytes. -/
def OfficeDoc.toZip (env : Env) (now : String) (d : OfficeDoc) (exts : List (String × String)) : Res Zip :=
  match d.saved env now with
  | .error e => .error e
  | .ok p => p.toZip env exts

end Oxml
