import Verif.Spec.Sessions
/-!
# Limits of the file format (C100, C101)
-/
namespace Oxml.Spec

/-- Length in UTF-16 code units, as spreadsheet programs count. -/
def utf16Length (l : List Char) : Nat := l.foldr (fun c n => (if c.toNat < 0x10000 then 1 else 2) + n) 0

/-- The names spreadsheet programs accept for a sheet. -/
def AllowedName (n : String) : Prop :=
  n ≠ "" ∧ utf16Length n.toList ≤ 31 ∧ (∀ c ∈ [':', '\\', '/', '?', '*', '[', ']'], c ∉ n.toList) ∧ n.toList.head? ≠ some '\'' ∧ n.toList.getLast? ≠ some '\''

/-- The names a history asks for: sheets to add or get, and new names. -/
def askedNames : List WbOp → List String
  | [] => []
  | .add (some n) :: ops => n :: askedNames ops
  | .get n :: ops => n :: askedNames ops
  | .rename _ n :: ops => n :: askedNames ops
  | _ :: ops => askedNames ops

/-- The cells of a sheet: rows 1 to 1048576, columns A to XFD. -/
def InGrid (r c : Nat) : Prop := 1 ≤ r ∧ r ≤ 1048576 ∧ 1 ≤ c ∧ c ≤ 16384

/-- A call writes in the grid only. -/
def SheetOp.Inside : SheetOp → Prop
  | .write row col cells => ∀ c, col ≤ c → c < col + cells.length → InGrid row c
  | _ => True

/-- A saved package lists the sheet. -/
def Lists (env : Env) (p : Pkg) (n : String) : Prop := ∃ d, partDoc env p "xl/workbook.xml" = some d ∧ ∃ i r, (i, some (attrReload n), r) ∈ sheetRows d

/-- C100, as users would have it. -/
def OnlyAllowedNames (env : Env) (theme : XDoc) : Prop :=
  ∀ ops s now p n, Ran env theme ops s → s.x.saved env now = .ok p → n ∈ names s.x.sheets → Lists env p n → AllowedName n

end Oxml.Spec
