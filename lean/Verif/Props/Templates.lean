import Verif.Model.Workbook
/-!
# The templates of the workbook, the worksheet and the core properties
-/
namespace Oxml

/-- The template text (`workbook.rs:77-81`), line by line. -/
def workbookXml : List Char := List.flatten [
  ['<', '?', 'x', 'm', 'l', ' ', 'v', 'e', 'r', 's', 'i', 'o', 'n', '=', '"', '1', '.', '0', '"', ' ', 'e', 'n', 'c', 'o', 'd', 'i', 'n', 'g', '=', '"', 'U', 'T', 'F', '-', '8', '"', ' ', 's', 't', 'a', 'n', 'd', 'a', 'l', 'o', 'n', 'e', '=', '"', 'y', 'e', 's', '"', '?', '>', '\n'],
  ['<', 'w', 'o', 'r', 'k', 'b', 'o', 'o', 'k', ' ', 'x', 'm', 'l', 'n', 's', '=', '"', 'h', 't', 't', 'p', ':', '/', '/', 's', 'c', 'h', 'e', 'm', 'a', 's', '.', 'o', 'p', 'e', 'n', 'x', 'm', 'l', 'f', 'o', 'r', 'm', 'a', 't', 's', '.', 'o', 'r', 'g', '/', 's', 'p', 'r', 'e', 'a', 'd', 's', 'h', 'e', 'e', 't', 'm', 'l', '/', '2', '0', '0', '6', '/', 'm', 'a', 'i', 'n', '"', '\n'],
  [' ', ' ', ' ', ' ', 'x', 'm', 'l', 'n', 's', ':', 'r', '=', '"', 'h', 't', 't', 'p', ':', '/', '/', 's', 'c', 'h', 'e', 'm', 'a', 's', '.', 'o', 'p', 'e', 'n', 'x', 'm', 'l', 'f', 'o', 'r', 'm', 'a', 't', 's', '.', 'o', 'r', 'g', '/', 'o', 'f', 'f', 'i', 'c', 'e', 'D', 'o', 'c', 'u', 'm', 'e', 'n', 't', '/', '2', '0', '0', '6', '/', 'r', 'e', 'l', 'a', 't', 'i', 'o', 'n', 's', 'h', 'i', 'p', 's', '"', '>', '\n'],
  [' ', ' ', ' ', ' ', '<', 'f', 'i', 'l', 'e', 'V', 'e', 'r', 's', 'i', 'o', 'n', ' ', 'a', 'p', 'p', 'N', 'a', 'm', 'e', '=', '"', 'o', 'p', 'e', 'n', 'x', 'm', 'l', '-', 'o', 'f', 'f', 'i', 'c', 'e', '"', ' ', 'l', 'a', 's', 't', 'E', 'd', 'i', 't', 'e', 'd', '=', '"', '7', '"', ' ', 'l', 'o', 'w', 'e', 's', 't', 'E', 'd', 'i', 't', 'e', 'd', '=', '"', '7', '"', ' ', '/', '>', '\n'],
  ['<', '/', 'w', 'o', 'r', 'k', 'b', 'o', 'o', 'k', '>']]

/-- Reading the template gives the document of the model. -/
example : (readXml ⟨fun _ => false⟩ workbookXml).toOption.map XmlDoc.toXDoc = some workbookDoc := by decide +kernel

/-- The template text (`worksheet.rs:148-152`), line by line. -/
def worksheetXml : List Char := List.flatten [
  ['<', '?', 'x', 'm', 'l', ' ', 'v', 'e', 'r', 's', 'i', 'o', 'n', '=', '"', '1', '.', '0', '"', ' ', 'e', 'n', 'c', 'o', 'd', 'i', 'n', 'g', '=', '"', 'U', 'T', 'F', '-', '8', '"', ' ', 's', 't', 'a', 'n', 'd', 'a', 'l', 'o', 'n', 'e', '=', '"', 'y', 'e', 's', '"', '?', '>', '\n'],
  ['<', 'w', 'o', 'r', 'k', 's', 'h', 'e', 'e', 't', ' ', 'x', 'm', 'l', 'n', 's', '=', '"', 'h', 't', 't', 'p', ':', '/', '/', 's', 'c', 'h', 'e', 'm', 'a', 's', '.', 'o', 'p', 'e', 'n', 'x', 'm', 'l', 'f', 'o', 'r', 'm', 'a', 't', 's', '.', 'o', 'r', 'g', '/', 's', 'p', 'r', 'e', 'a', 'd', 's', 'h', 'e', 'e', 't', 'm', 'l', '/', '2', '0', '0', '6', '/', 'm', 'a', 'i', 'n', '"', '\n'],
  [' ', ' ', ' ', ' ', 'x', 'm', 'l', 'n', 's', ':', 'r', '=', '"', 'h', 't', 't', 'p', ':', '/', '/', 's', 'c', 'h', 'e', 'm', 'a', 's', '.', 'o', 'p', 'e', 'n', 'x', 'm', 'l', 'f', 'o', 'r', 'm', 'a', 't', 's', '.', 'o', 'r', 'g', '/', 'o', 'f', 'f', 'i', 'c', 'e', 'D', 'o', 'c', 'u', 'm', 'e', 'n', 't', '/', '2', '0', '0', '6', '/', 'r', 'e', 'l', 'a', 't', 'i', 'o', 'n', 's', 'h', 'i', 'p', 's', '"', '>', '\n'],
  [' ', ' ', ' ', ' ', '<', 's', 'h', 'e', 'e', 't', 'D', 'a', 't', 'a', ' ', '/', '>', '\n'],
  ['<', '/', 'w', 'o', 'r', 'k', 's', 'h', 'e', 'e', 't', '>']]

/-- Reading the template gives the document of the model. -/
example : (readXml ⟨fun _ => false⟩ worksheetXml).toOption.map XmlDoc.toXDoc = some worksheetDoc := by decide +kernel

/-- The text of `core_properties.xml`, line by line. -/
def coreXml : List Char := List.flatten [
  ['<', '?', 'x', 'm', 'l', ' ', 'v', 'e', 'r', 's', 'i', 'o', 'n', '=', '"', '1', '.', '0', '"', ' ', 'e', 'n', 'c', 'o', 'd', 'i', 'n', 'g', '=', '"', 'U', 'T', 'F', '-', '8', '"', ' ', 's', 't', 'a', 'n', 'd', 'a', 'l', 'o', 'n', 'e', '=', '"', 'y', 'e', 's', '"', '?', '>', '\n'],
  ['<', 'c', 'p', ':', 'c', 'o', 'r', 'e', 'P', 'r', 'o', 'p', 'e', 'r', 't', 'i', 'e', 's', '\n'],
  [' ', ' ', ' ', ' ', 'x', 'm', 'l', 'n', 's', ':', 'c', 'p', '=', '"', 'h', 't', 't', 'p', ':', '/', '/', 's', 'c', 'h', 'e', 'm', 'a', 's', '.', 'o', 'p', 'e', 'n', 'x', 'm', 'l', 'f', 'o', 'r', 'm', 'a', 't', 's', '.', 'o', 'r', 'g', '/', 'p', 'a', 'c', 'k', 'a', 'g', 'e', '/', '2', '0', '0', '6', '/', 'm', 'e', 't', 'a', 'd', 'a', 't', 'a', '/', 'c', 'o', 'r', 'e', '-', 'p', 'r', 'o', 'p', 'e', 'r', 't', 'i', 'e', 's', '"', '\n'],
  [' ', ' ', ' ', ' ', 'x', 'm', 'l', 'n', 's', ':', 'd', 'c', '=', '"', 'h', 't', 't', 'p', ':', '/', '/', 'p', 'u', 'r', 'l', '.', 'o', 'r', 'g', '/', 'd', 'c', '/', 'e', 'l', 'e', 'm', 'e', 'n', 't', 's', '/', '1', '.', '1', '/', '"', '\n'],
  [' ', ' ', ' ', ' ', 'x', 'm', 'l', 'n', 's', ':', 'd', 'c', 't', 'e', 'r', 'm', 's', '=', '"', 'h', 't', 't', 'p', ':', '/', '/', 'p', 'u', 'r', 'l', '.', 'o', 'r', 'g', '/', 'd', 'c', '/', 't', 'e', 'r', 'm', 's', '/', '"', '\n'],
  [' ', ' ', ' ', ' ', 'x', 'm', 'l', 'n', 's', ':', 'd', 'c', 'm', 'i', 't', 'y', 'p', 'e', '=', '"', 'h', 't', 't', 'p', ':', '/', '/', 'p', 'u', 'r', 'l', '.', 'o', 'r', 'g', '/', 'd', 'c', '/', 'd', 'c', 'm', 'i', 't', 'y', 'p', 'e', '/', '"', '\n'],
  [' ', ' ', ' ', ' ', 'x', 'm', 'l', 'n', 's', ':', 'x', 's', 'i', '=', '"', 'h', 't', 't', 'p', ':', '/', '/', 'w', 'w', 'w', '.', 'w', '3', '.', 'o', 'r', 'g', '/', '2', '0', '0', '1', '/', 'X', 'M', 'L', 'S', 'c', 'h', 'e', 'm', 'a', '-', 'i', 'n', 's', 't', 'a', 'n', 'c', 'e', '"', '>', '\n'],
  [' ', ' ', ' ', ' ', '<', 'd', 'c', ':', 'c', 'r', 'e', 'a', 't', 'o', 'r', '>', 'O', 'p', 'e', 'n', 'X', 'M', 'L', '-', 'O', 'f', 'f', 'i', 'c', 'e', '<', '/', 'd', 'c', ':', 'c', 'r', 'e', 'a', 't', 'o', 'r', '>', '\n'],
  [' ', ' ', ' ', ' ', '<', 'c', 'p', ':', 'l', 'a', 's', 't', 'M', 'o', 'd', 'i', 'f', 'i', 'e', 'd', 'B', 'y', '>', 'O', 'p', 'e', 'n', 'X', 'M', 'L', '-', 'O', 'f', 'f', 'i', 'c', 'e', '<', '/', 'c', 'p', ':', 'l', 'a', 's', 't', 'M', 'o', 'd', 'i', 'f', 'i', 'e', 'd', 'B', 'y', '>', '\n'],
  [' ', ' ', ' ', ' ', '<', 'd', 'c', 't', 'e', 'r', 'm', 's', ':', 'c', 'r', 'e', 'a', 't', 'e', 'd', ' ', 'x', 's', 'i', ':', 't', 'y', 'p', 'e', '=', '"', 'd', 'c', 't', 'e', 'r', 'm', 's', ':', 'W', '3', 'C', 'D', 'T', 'F', '"', ' ', '/', '>', '\n'],
  [' ', ' ', ' ', ' ', '<', 'd', 'c', 't', 'e', 'r', 'm', 's', ':', 'm', 'o', 'd', 'i', 'f', 'i', 'e', 'd', ' ', 'x', 's', 'i', ':', 't', 'y', 'p', 'e', '=', '"', 'd', 'c', 't', 'e', 'r', 'm', 's', ':', 'W', '3', 'C', 'D', 'T', 'F', '"', ' ', '/', '>', '\n'],
  ['<', '/', 'c', 'p', ':', 'c', 'o', 'r', 'e', 'P', 'r', 'o', 'p', 'e', 'r', 't', 'i', 'e', 's', '>']]

/-- Reading the template gives the document of the model. -/
example : (readXml ⟨fun _ => false⟩ coreXml).toOption.map XmlDoc.toXDoc = some coreDoc := by decide +kernel

end Oxml
