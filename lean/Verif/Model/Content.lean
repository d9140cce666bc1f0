/-!
# `rs/src/global/references/element_dictionary.rs`: the content tables
-/
namespace Oxml

/-- `Content` (`element_dictionary.rs:3-12`) without the alias. -/
structure Content where
  ns : String
  type : String
  ctype : String
  ext : String
  extType : String
  path : String
  name : String
deriving DecidableEq, Repr

/-- `"rels"` (`element_dictionary.rs:35-44`). -/
def relsContent : Content :=
  { ns := "http://schemas.openxmlformats.org/package/2006/relationships", type := "",
    ctype := "application/vnd.openxmlformats-package.relationships+xml", ext := "rels",
    extType := "application/vnd.openxmlformats-package.relationships+xml", path := ".", name := "" }

/-- `"docProps_core"` (`element_dictionary.rs:45-54`). -/
def coreContent : Content :=
  { ns := "http://schemas.openxmlformats.org/package/2006/metadata/core-properties",
    type := "http://schemas.openxmlformats.org/package/2006/relationships/metadata/core-properties",
    ctype := "application/vnd.openxmlformats-package.core-properties+xml", ext := "xml", extType := "application/xml",
    path := "docProps", name := "core" }

/-- `"theme"` (`element_dictionary.rs:56-65`). -/
def themeContent : Content :=
  { ns := "http://schemas.openxmlformats.org/drawingml/2006/main",
    type := "http://schemas.openxmlformats.org/officeDocument/2006/relationships/theme",
    ctype := "application/vnd.openxmlformats-officedocument.theme+xml", ext := "xml", extType := "application/xml",
    path := "theme", name := "theme1" }

/-- Namespace of all spreadsheet parts. -/
def mainNs : String := "http://schemas.openxmlformats.org/spreadsheetml/2006/main"

/-- `"style"` (`element_dictionary.rs:69-78`). -/
def styleContent : Content :=
  { ns := mainNs, type := "http://schemas.openxmlformats.org/officeDocument/2006/relationships/styles",
    ctype := "application/vnd.openxmlformats-officedocument.spreadsheetml.styles+xml", ext := "xml", extType := "application/xml",
    path := "xl", name := "styles" }

/-- `"share_string"` (`element_dictionary.rs:79-88`). -/
def sharedStringContent : Content :=
  { ns := mainNs, type := "http://schemas.openxmlformats.org/officeDocument/2006/relationships/sharedStrings",
    ctype := "application/vnd.openxmlformats-officedocument.spreadsheetml.sharedStrings+xml", ext := "xml",
    extType := "application/xml", path := "xl", name := "sharedStrings" }

/-- `"calc_chain"` (`element_dictionary.rs:89-98`). -/
def calcChainContent : Content :=
  { ns := mainNs, type := "http://schemas.openxmlformats.org/officeDocument/2006/relationships/calcChain",
    ctype := "application/vnd.openxmlformats-officedocument.spreadsheetml.calcChain+xml", ext := "xml",
    extType := "application/xml", path := "xl", name := "calcChain" }

/-- `"workbook"` (`element_dictionary.rs:99-108`). -/
def workbookContent : Content :=
  { ns := mainNs, type := "http://schemas.openxmlformats.org/officeDocument/2006/relationships/officeDocument",
    ctype := "application/vnd.openxmlformats-officedocument.spreadsheetml.sheet.main+xml", ext := "xml",
    extType := "application/xml", path := "xl", name := "workbook" }

/-- `"worksheet"` (`element_dictionary.rs:119-128`). -/
def worksheetContent : Content :=
  { ns := mainNs, type := "http://schemas.openxmlformats.org/officeDocument/2006/relationships/worksheet",
    ctype := "application/vnd.openxmlformats-officedocument.spreadsheetml.worksheet+xml", ext := "xml",
    extType := "application/xml", path := "worksheets", name := "sheet" }

end Oxml
