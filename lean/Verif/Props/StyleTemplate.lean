import Verif.Model.Style
/-!
# The style template
-/
namespace Oxml

/-- The text of `style.xml`, line by line. -/
def styleXml : List Char := List.flatten [
  ['<', '?', 'x', 'm', 'l', ' ', 'v', 'e', 'r', 's', 'i', 'o', 'n', '=', '"', '1', '.', '0', '"', ' ', 'e', 'n', 'c', 'o', 'd', 'i', 'n', 'g', '=', '"', 'U', 'T', 'F', '-', '8', '"', ' ', 's', 't', 'a', 'n', 'd', 'a', 'l', 'o', 'n', 'e', '=', '"', 'y', 'e', 's', '"', '?', '>', '\n'],
  ['<', 's', 't', 'y', 'l', 'e', 'S', 'h', 'e', 'e', 't', ' ', 'x', 'm', 'l', 'n', 's', '=', '"', 'h', 't', 't', 'p', ':', '/', '/', 's', 'c', 'h', 'e', 'm', 'a', 's', '.', 'o', 'p', 'e', 'n', 'x', 'm', 'l', 'f', 'o', 'r', 'm', 'a', 't', 's', '.', 'o', 'r', 'g', '/', 's', 'p', 'r', 'e', 'a', 'd', 's', 'h', 'e', 'e', 't', 'm', 'l', '/', '2', '0', '0', '6', '/', 'm', 'a', 'i', 'n', '"', '>', '\n'],
  [' ', ' ', ' ', ' ', '<', 'f', 'o', 'n', 't', 's', ' ', 'c', 'o', 'u', 'n', 't', '=', '"', '1', '"', '>', '\n'],
  [' ', ' ', ' ', ' ', ' ', ' ', ' ', ' ', '<', 'f', 'o', 'n', 't', '>', '\n'],
  [' ', ' ', ' ', ' ', ' ', ' ', ' ', ' ', ' ', ' ', ' ', ' ', '<', 's', 'z', ' ', 'v', 'a', 'l', '=', '"', '1', '1', '"', ' ', '/', '>', '\n'],
  [' ', ' ', ' ', ' ', ' ', ' ', ' ', ' ', ' ', ' ', ' ', ' ', '<', 'c', 'o', 'l', 'o', 'r', ' ', 't', 'h', 'e', 'm', 'e', '=', '"', '1', '"', ' ', '/', '>', '\n'],
  [' ', ' ', ' ', ' ', ' ', ' ', ' ', ' ', ' ', ' ', ' ', ' ', '<', 'n', 'a', 'm', 'e', ' ', 'v', 'a', 'l', '=', '"', 'C', 'a', 'l', 'i', 'b', 'r', 'i', '"', ' ', '/', '>', '\n'],
  [' ', ' ', ' ', ' ', ' ', ' ', ' ', ' ', ' ', ' ', ' ', ' ', '<', 'f', 'a', 'm', 'i', 'l', 'y', ' ', 'v', 'a', 'l', '=', '"', '2', '"', ' ', '/', '>', '\n'],
  [' ', ' ', ' ', ' ', ' ', ' ', ' ', ' ', ' ', ' ', ' ', ' ', '<', 's', 'c', 'h', 'e', 'm', 'e', ' ', 'v', 'a', 'l', '=', '"', 'm', 'i', 'n', 'o', 'r', '"', ' ', '/', '>', '\n'],
  [' ', ' ', ' ', ' ', ' ', ' ', ' ', ' ', '<', '/', 'f', 'o', 'n', 't', '>', '\n'],
  [' ', ' ', ' ', ' ', '<', '/', 'f', 'o', 'n', 't', 's', '>', '\n'],
  [' ', ' ', ' ', ' ', '<', 'f', 'i', 'l', 'l', 's', ' ', 'c', 'o', 'u', 'n', 't', '=', '"', '2', '"', '>', '\n'],
  [' ', ' ', ' ', ' ', ' ', ' ', ' ', ' ', '<', 'f', 'i', 'l', 'l', '>', '\n'],
  [' ', ' ', ' ', ' ', ' ', ' ', ' ', ' ', ' ', ' ', ' ', ' ', '<', 'p', 'a', 't', 't', 'e', 'r', 'n', 'F', 'i', 'l', 'l', ' ', 'p', 'a', 't', 't', 'e', 'r', 'n', 'T', 'y', 'p', 'e', '=', '"', 'n', 'o', 'n', 'e', '"', ' ', '/', '>', '\n'],
  [' ', ' ', ' ', ' ', ' ', ' ', ' ', ' ', '<', '/', 'f', 'i', 'l', 'l', '>', '\n'],
  [' ', ' ', ' ', ' ', ' ', ' ', ' ', ' ', '<', 'f', 'i', 'l', 'l', '>', '\n'],
  [' ', ' ', ' ', ' ', ' ', ' ', ' ', ' ', ' ', ' ', ' ', ' ', '<', 'p', 'a', 't', 't', 'e', 'r', 'n', 'F', 'i', 'l', 'l', ' ', 'p', 'a', 't', 't', 'e', 'r', 'n', 'T', 'y', 'p', 'e', '=', '"', 'g', 'r', 'a', 'y', '1', '2', '5', '"', ' ', '/', '>', '\n'],
  [' ', ' ', ' ', ' ', ' ', ' ', ' ', ' ', '<', '/', 'f', 'i', 'l', 'l', '>', '\n'],
  [' ', ' ', ' ', ' ', '<', '/', 'f', 'i', 'l', 'l', 's', '>', '\n'],
  [' ', ' ', ' ', ' ', '<', 'b', 'o', 'r', 'd', 'e', 'r', 's', ' ', 'c', 'o', 'u', 'n', 't', '=', '"', '1', '"', '>', '\n'],
  [' ', ' ', ' ', ' ', ' ', ' ', ' ', ' ', '<', 'b', 'o', 'r', 'd', 'e', 'r', '>', '\n'],
  [' ', ' ', ' ', ' ', ' ', ' ', ' ', ' ', ' ', ' ', ' ', ' ', '<', 'l', 'e', 'f', 't', ' ', '/', '>', '\n'],
  [' ', ' ', ' ', ' ', ' ', ' ', ' ', ' ', ' ', ' ', ' ', ' ', '<', 'r', 'i', 'g', 'h', 't', ' ', '/', '>', '\n'],
  [' ', ' ', ' ', ' ', ' ', ' ', ' ', ' ', ' ', ' ', ' ', ' ', '<', 't', 'o', 'p', ' ', '/', '>', '\n'],
  [' ', ' ', ' ', ' ', ' ', ' ', ' ', ' ', ' ', ' ', ' ', ' ', '<', 'b', 'o', 't', 't', 'o', 'm', ' ', '/', '>', '\n'],
  [' ', ' ', ' ', ' ', ' ', ' ', ' ', ' ', ' ', ' ', ' ', ' ', '<', 'd', 'i', 'a', 'g', 'o', 'n', 'a', 'l', ' ', '/', '>', '\n'],
  [' ', ' ', ' ', ' ', ' ', ' ', ' ', ' ', '<', '/', 'b', 'o', 'r', 'd', 'e', 'r', '>', '\n'],
  [' ', ' ', ' ', ' ', '<', '/', 'b', 'o', 'r', 'd', 'e', 'r', 's', '>', '\n'],
  [' ', ' ', ' ', ' ', '<', 'c', 'e', 'l', 'l', 'S', 't', 'y', 'l', 'e', 'X', 'f', 's', ' ', 'c', 'o', 'u', 'n', 't', '=', '"', '1', '"', '>', '\n'],
  [' ', ' ', ' ', ' ', ' ', ' ', ' ', ' ', '<', 'x', 'f', ' ', 'n', 'u', 'm', 'F', 'm', 't', 'I', 'd', '=', '"', '0', '"', ' ', 'f', 'o', 'n', 't', 'I', 'd', '=', '"', '0', '"', ' ', 'f', 'i', 'l', 'l', 'I', 'd', '=', '"', '0', '"', ' ', 'b', 'o', 'r', 'd', 'e', 'r', 'I', 'd', '=', '"', '0', '"', ' ', '/', '>', '\n'],
  [' ', ' ', ' ', ' ', '<', '/', 'c', 'e', 'l', 'l', 'S', 't', 'y', 'l', 'e', 'X', 'f', 's', '>', '\n'],
  [' ', ' ', ' ', ' ', '<', 'c', 'e', 'l', 'l', 'X', 'f', 's', ' ', 'c', 'o', 'u', 'n', 't', '=', '"', '1', '"', '>', '\n'],
  [' ', ' ', ' ', ' ', ' ', ' ', ' ', ' ', '<', 'x', 'f', ' ', 'n', 'u', 'm', 'F', 'm', 't', 'I', 'd', '=', '"', '0', '"', ' ', 'f', 'o', 'n', 't', 'I', 'd', '=', '"', '0', '"', ' ', 'f', 'i', 'l', 'l', 'I', 'd', '=', '"', '0', '"', ' ', 'b', 'o', 'r', 'd', 'e', 'r', 'I', 'd', '=', '"', '0', '"', ' ', 'x', 'f', 'I', 'd', '=', '"', '0', '"', ' ', '/', '>', '\n'],
  [' ', ' ', ' ', ' ', '<', '/', 'c', 'e', 'l', 'l', 'X', 'f', 's', '>', '\n'],
  [' ', ' ', ' ', ' ', '<', 'c', 'e', 'l', 'l', 'S', 't', 'y', 'l', 'e', 's', ' ', 'c', 'o', 'u', 'n', 't', '=', '"', '1', '"', '>', '\n'],
  [' ', ' ', ' ', ' ', ' ', ' ', ' ', ' ', '<', 'c', 'e', 'l', 'l', 'S', 't', 'y', 'l', 'e', ' ', 'n', 'a', 'm', 'e', '=', '"', 'N', 'o', 'r', 'm', 'a', 'l', '"', ' ', 'x', 'f', 'I', 'd', '=', '"', '0', '"', ' ', 'b', 'u', 'i', 'l', 't', 'i', 'n', 'I', 'd', '=', '"', '0', '"', ' ', '/', '>', '\n'],
  [' ', ' ', ' ', ' ', '<', '/', 'c', 'e', 'l', 'l', 'S', 't', 'y', 'l', 'e', 's', '>', '\n'],
  [' ', ' ', ' ', ' ', '<', 'd', 'x', 'f', 's', ' ', 'c', 'o', 'u', 'n', 't', '=', '"', '0', '"', ' ', '/', '>', '\n'],
  [' ', ' ', ' ', ' ', '<', 't', 'a', 'b', 'l', 'e', 'S', 't', 'y', 'l', 'e', 's', ' ', 'c', 'o', 'u', 'n', 't', '=', '"', '0', '"', ' ', 'd', 'e', 'f', 'a', 'u', 'l', 't', 'T', 'a', 'b', 'l', 'e', 'S', 't', 'y', 'l', 'e', '=', '"', 'T', 'a', 'b', 'l', 'e', 'S', 't', 'y', 'l', 'e', 'M', 'e', 'd', 'i', 'u', 'm', '2', '"', '\n'],
  [' ', ' ', ' ', ' ', ' ', ' ', ' ', ' ', 'd', 'e', 'f', 'a', 'u', 'l', 't', 'P', 'i', 'v', 'o', 't', 'S', 't', 'y', 'l', 'e', '=', '"', 'P', 'i', 'v', 'o', 't', 'S', 't', 'y', 'l', 'e', 'L', 'i', 'g', 'h', 't', '1', '6', '"', ' ', '/', '>', '\n'],
  ['<', '/', 's', 't', 'y', 'l', 'e', 'S', 'h', 'e', 'e', 't', '>']]

/-- Reading the template gives the document of the model. -/
example : (readXml ⟨fun _ => false⟩ styleXml).toOption.map XmlDoc.toXDoc = some styleDoc := by decide +kernel

end Oxml
