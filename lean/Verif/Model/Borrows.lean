import Verif.Spec.Borrows

/-!
# Borrows made by the library

The other model files ignore `RefCell` guards. Here each function is reduced to the guards it takes, in order, with what runs while
they are held. Branches, loop counts, early returns (`?`, `return`, panics that unwind) and outcomes of `Weak::upgrade` are left open
(any program may stop anywhere, see `Trace.stop`), and so is which cell of a kind is meant: two handles of the same kind may be the same cell.
Guards are lexical in the code: a `let` guard lives to the end of its block, a temporary to the end of its statement, of
its `if` condition, or of the whole `if let`/`for` (edition 2021, `rs/Cargo.toml:13`).
-/

namespace Oxml

open Spec

/-- The guards of a piece of code. -/
inductive Prog
  | skip
  | seq (p q : Prog)
  | choice (p q : Prog)
  | loop (p : Prog)
  | guard (m : Mode) (k : Kind) (body : Prog)
  deriving DecidableEq, Repr

/-- The runs of a piece of code. -/
inductive Trace : Prog → List Ev → Prop
  | stop (p : Prog) : Trace p []
  | seq {p q : Prog} {s t : List Ev} : Trace p s → Trace q t → Trace (.seq p q) (s ++ t)
  | left {p q : Prog} {t : List Ev} : Trace p t → Trace (.choice p q) t
  | right {p q : Prog} {t : List Ev} : Trace q t → Trace (.choice p q) t
  | loop {p : Prog} {s t : List Ev} : Trace p s → Trace (.loop p) t → Trace (.loop p) (s ++ t)
  | guard {m : Mode} {k : Kind} {p : Prog} {t : List Ev} (n : Nat) :
      Trace p t → Trace (.guard m k p) (.acquire m ⟨k, n⟩ :: (t ++ [.release m ⟨k, n⟩]))

namespace Prog

/-- One after the other. -/
def all : List Prog → Prog
  | [] => skip
  | p :: ps => seq p (all ps)

/-- One of several. -/
def any : List Prog → Prog
  | [] => skip
  | p :: ps => choice p (any ps)

/-! ## `xml_tree.rs` -/

/-- `get_element_ids_by_attribute` (`xml_tree.rs:44-59`): the filter reads other elements, but no child list. -/
def idsByAttribute : Prog := guard .shared .kids skip

/-- `get_element_ids_by_tag` (`xml_tree.rs:74-80`). -/
def idsByTag : Prog := guard .shared .kids skip

/-- `pop_elements_by_tag_mut` (`xml_tree.rs:113-136`). -/
def popByTag : Prog := seq idsByTag (guard .excl .kids skip)

/-- `insert_children_before_tag_mut` (`xml_tree.rs:547-566`), `insert_children_after_tag_mut` (`xml_tree.rs:568-584`),
`insert_children_at_mut` (`xml_tree.rs:586-594`) and `append_children_mut` (`xml_tree.rs:536-545`), called on the parent by the document functions
of the same names (`xml_tree.rs:142-237`). -/
def insertChild : Prog := guard .excl .kids skip

/-- `get_first_element_id` (`xml_tree.rs:247-275`): the guard lives to the end of the loop body. -/
def firstElementId : Prog := loop (guard .shared .kids skip)

/-- `get_child_count`, `is_empty_tag`, `get_first_child_id` (`xml_tree.rs:397-399`, `409-411`, `433-439`). -/
def childCount : Prog := guard .shared .kids skip

/-- `get_namespace` (`xml_tree.rs:417-423`). -/
def namespaceMap : Prog := guard .shared .names skip

/-- `pop_child_mut` (`xml_tree.rs:449-456`): the guard of the condition is gone before the branch. -/
def popChild : Prog := seq (guard .excl .kids skip) (guard .excl .kids skip)

/-- `order_child_mut` (`xml_tree.rs:462-477`). -/
def orderChild : Prog := seq (guard .excl .kids skip) (guard .excl .kids skip)

/-- `set_attribute_mut` (`xml_tree.rs:479-529`). -/
def setAttribute : Prog := guard .excl .names skip

/-- Any sequence of calls of functions of `xml_tree.rs`: each returns with its guards given back. -/
def treeOps : Prog :=
  loop (any [idsByAttribute, idsByTag, popByTag, insertChild, firstElementId, childCount, namespaceMap, popChild, orderChild, setAttribute])

/-- `vec_to_xml_doc_tree` (`xml_serialize.rs:17-33`, `35-117`). -/
def readXml : Prog := treeOps

/-- `xml_tree_to_vec` (`xml_deserialize.rs:11-41`, `43-112`). -/
def writeXml : Prog := treeOps

/-! ## `office_document.rs`, `xml_parts.rs` -/

/-- `OfficeDocument::new` (`office_document.rs:38-50`): reads the content types. -/
def officeNew : Prog := seq readXml treeOps

/-- `get_xml_tree_mut` (`office_document.rs:83-110`). -/
def getXmlTree : Prog := readXml

/-- `close_xml_document` (`office_document.rs:113-149`): the guard on the document lives to the end. -/
def closeXml : Prog := guard .excl .doc writeXml

/-- `save_as` (`office_document.rs:152-174`); the content types are written from a document outside of any cell. -/
def officeSaveAs : Prog := seq (loop closeXml) (seq treeOps writeXml)

/-- `get_xml_document` (`xml_parts.rs:19-51`): the first guard lives to the end of the `let`, so the template is read under it. -/
def getXmlDocument : Prog := seq (guard .excl .office (seq getXmlTree (seq readXml treeOps))) (guard .excl .office skip)

/-! ## `relations.rs`, `core_properties.rs`, `theme.rs` -/

/-- `load_relations` (`relations.rs:93-124`). -/
def loadRels : Prog := guard .excl .doc treeOps

/-- `RelationsPart::new` (`relations.rs:74-87`). -/
def relsNew : Prog := seq getXmlDocument loadRels

/-- `save_relationship_to_doc` (`relations.rs:221-249`). -/
def saveRels : Prog := guard .excl .doc treeOps

/-- `close_document` (`relations.rs:26-47`). -/
def closeRels : Prog := seq saveRels (choice (guard .excl .office closeXml) (guard .excl .office skip))

/-- `Drop for RelationsPart` (`relations.rs:18-22`). -/
def dropRels : Prog := closeRels

/-- `get_core_properties_file_name`, `get_theme_file_name`, `get_share_string_file_name`, `get_calc_chain_file_name`, `get_style_file_name`,
`get_workbook_file_name` (`core_properties.rs:109-126`, `theme.rs:74-92`, `share_string.rs:148-166`, `calculation_chain.rs:122-140`,
`style.rs:132-150`, `workbook.rs:472-490`): the functions of `RelationsPart` called under the guard take none. -/
def partName : Prog := guard .excl .rels skip

/-- `CorePropertiesPart::new` (`core_properties.rs:92-106`). -/
def coreNew : Prog := seq partName getXmlDocument

/-- `close_document` (`core_properties.rs:43-87`). -/
def closeCore : Prog := seq (guard .excl .doc treeOps) (guard .excl .office closeXml)

/-- `ThemePart::new` (`theme.rs:57-71`). -/
def themeNew : Prog := seq partName getXmlDocument

/-- `close_document` (`theme.rs:26-37`). -/
def closeTheme : Prog := guard .excl .office closeXml

/-! ## `services` -/

/-- `ShareStringPart::new` (`share_string.rs:126-145`, `168-190`). -/
def stringsNew : Prog := all [partName, getXmlDocument, guard .excl .doc treeOps]

/-- `close_document` (`share_string.rs:32-97`). -/
def closeStrings : Prog :=
  choice (seq (guard .excl .doc treeOps) (guard .excl .office closeXml)) (seq (guard .excl .rels skip) (guard .excl .office skip))

/-- `CalculationChainPart::new` (`calculation_chain.rs:100-119`, `141-162`). -/
def chainNew : Prog := all [partName, getXmlDocument, guard .excl .doc treeOps]

/-- `close_document` (`calculation_chain.rs:28-72`). -/
def closeChain : Prog :=
  choice (seq (guard .excl .doc treeOps) (guard .excl .office closeXml)) (seq (guard .excl .rels skip) (guard .excl .office skip))

/-- `StylePart::new` (`style.rs:97-128`, `153-548`). -/
def styleNew : Prog := all [partName, getXmlDocument, guard .excl .doc treeOps]

/-- `close_document` (`style.rs:48-79`, `550-1068`). -/
def closeStyle : Prog := seq (guard .excl .doc treeOps) (guard .excl .office closeXml)

/-- `close_service` (`common_service.rs:25-36`). -/
def closeServices : Prog := all [closeChain, closeStrings, closeStyle]

/-- Dropping `CommonServices`: its fields in order (`share_string.rs:25-29`, `calculation_chain.rs:21-25`, `style.rs:41-45`). -/
def dropServices : Prog := all [closeChain, closeStrings, closeStyle]

/-! ## `worksheet.rs` -/

/-- `get_sheet_file_name` (`worksheet.rs:1033-1127`): the guard on the sheets lives through the `if let`, the one on the package
to the end of its block. -/
def sheetFileName : Prog :=
  all [guard .shared .sheets (guard .shared .rels skip), guard .shared .sheets skip, guard .excl .rels skip, guard .shared .office skip,
    guard .excl .rels skip, guard .excl .sheets skip]

/-- `close_document` (`worksheet.rs:164-209`): the guard on the package is held throughout, the one on the document is given back before
`close_xml_document` asks for it. -/
def closeSheet : Prog := guard .excl .office (seq (guard .excl .doc treeOps) closeXml)

/-- `Drop for WorkSheet` (`worksheet.rs:137-141`), then its relationship part. -/
def dropSheet : Prog := seq closeSheet dropRels

/-- `WorkSheet::new` (`worksheet.rs:215-259`, `261-302`); the relationship part is dropped when loading fails. -/
def sheetNew : Prog := all [sheetFileName, getXmlDocument, relsNew, guard .excl .doc treeOps, dropRels]

/-- `set_row_value_index_mut`, `update_share_string` (`worksheet.rs:1235-1336`, `1338-1348`): one request per text cell. -/
def setCells : Prog := loop (guard .excl .services skip)

/-- `delete_sheet_mut` (`worksheet.rs:1360-1381`): `flush` drops the sheet. -/
def deleteSheet : Prog := all [guard .excl .sheets skip, guard .excl .rels skip, guard .excl .office skip, closeSheet, dropSheet]

/-! ## `workbook.rs` -/

/-- `close_document` (`workbook.rs:94-233`): the sheet names are read under the guard on the workbook document; the guard lives through the `for`. -/
def closeBook : Prog :=
  all [closeTheme, guard .excl .services closeServices, guard .excl .rels closeRels,
    guard .excl .doc (all [treeOps, guard .excl .sheets treeOps, treeOps]), guard .excl .office closeXml]

/-- `Drop for WorkbookPart` (`workbook.rs:66-70`), then its fields. -/
def dropBook : Prog := all [closeBook, dropServices, dropRels, closeTheme]

/-- `WorkbookPart::new` (`workbook.rs:239-302`, `308-465`); parts made so far are dropped when a later step fails. -/
def bookNew : Prog :=
  all [partName, getXmlDocument, relsNew, themeNew, stringsNew, chainNew, styleNew, guard .excl .doc treeOps, dropServices, closeTheme, dropRels]

/-! ## What users call -/

/-- `Excel::new` (`excel.rs:42-85`): the default sheet is dropped at once; what was made is dropped when a later step fails. -/
def excelNew : Prog :=
  all [officeNew, relsNew, coreNew, bookNew, sheetNew, dropSheet, dropBook, closeCore, dropRels]

/-- `Excel::save_as` (`excel.rs:151-171`): `flush` drops the workbook and the core properties. -/
def excelSave : Prog :=
  all [closeBook, dropBook, closeCore, closeCore, guard .excl .rels closeRels, guard .excl .office officeSaveAs, dropRels]

/-- Dropping an `Excel` (`excel.rs:17-22`). -/
def excelDrop : Prog := all [dropRels, closeCore, dropBook]

/-- `Word::new` (`word.rs:29-52`), `PowerPoint::new` (`power_point.rs:29-52`). -/
def docNew : Prog := all [officeNew, relsNew, coreNew, closeCore, dropRels]

/-- `Word::save_as` (`word.rs:54-65`), `PowerPoint::save_as` (`power_point.rs:54-65`). -/
def docSave : Prog :=
  all [closeCore, closeCore, guard .excl .rels closeRels, guard .excl .office officeSaveAs, dropRels]

/-- Dropping a `Word` or `PowerPoint` (`word.rs:13-17`, `power_point.rs:13-17`). -/
def docDrop : Prog := all [dropRels, closeCore]

end Prog

/-- The calls of the library. -/
inductive Call
  | excelNew | addSheet | getSheet | rename | setActive | hide | view | listNames | getStyle | excelSave | excelDrop
  | setColumn | setRow | setCells | deleteSheet | dropSheet
  | docNew | docSave | docDrop
  deriving DecidableEq, Repr

/-- The guards of each call: `excel.rs:87-171`, `workbook.rs:492-688`, `worksheet.rs:1130-1381`, `word.rs`, `power_point.rs`. -/
def Call.prog : Call → Prog
  | .excelNew => .excelNew
  | .addSheet => .sheetNew
  | .getSheet => .sheetNew
  | .rename => .seq (.guard .shared .sheets .skip) (.guard .excl .sheets .skip)
  | .setActive => .guard .excl .sheets .skip
  | .hide => .guard .excl .sheets .skip
  | .view => .skip
  | .listNames => .guard .shared .sheets .skip
  | .getStyle => .guard .excl .services .skip
  | .excelSave => .excelSave
  | .excelDrop => .excelDrop
  | .setColumn => .skip
  | .setRow => .skip
  | .setCells => .setCells
  | .deleteSheet => .deleteSheet
  | .dropSheet => .dropSheet
  | .docNew => .docNew
  | .docSave => .docSave
  | .docDrop => .docDrop

/-- A program using the library: calls one after the other, on whatever workbooks and sheets it has. -/
def callsProg : List Call → Prog
  | [] => .skip
  | c :: cs => .seq c.prog (callsProg cs)

end Oxml
