import Verif.Props.Conversions
import Verif.Props.Xml
import Verif.Props.Source
import Verif.Props.Targets
import Verif.Props.TreeEdits
import Verif.Props.Package
import Verif.Props.Relations
import Verif.Props.ShareString
import Verif.Props.Worksheet
import Verif.Props.WorksheetFile
import Verif.Props.Style
import Verif.Props.StyleTemplate
import Verif.Props.Workbook
import Verif.Proofs.PkgEffects
import Verif.Proofs.SessionSave
import Verif.Proofs.SheetTotal
import Verif.Proofs.SessionLinks
import Verif.Proofs.Reopen
import Verif.Props.Sessions
import Verif.Props.SessionCells
import Verif.Props.Templates
import Verif.Props.CoreProps
import Verif.Props.OfficeDoc
import Verif.Props.Ffi
import Verif.Props.StyleParts
import Verif.Props.DotNet
import Verif.Props.BookOrder
import Verif.Props.PartArena
import Verif.Props.SaveFails
import Verif.Props.SourceText
import Verif.Props.Messages
import Verif.Spec.Borrows
import Verif.Model.Borrows
import Verif.Proofs.Borrows
import Verif.Props.Borrows
import Verif.Spec.Existing
import Verif.Proofs.Existing
import Verif.Proofs.ExistingRun
import Verif.Proofs.ExistingLive
import Verif.Proofs.ExistingSave
import Verif.Proofs.ExistingKept
import Verif.Props.Existing
import Verif.Proofs.ExistingStill
import Verif.Proofs.ExistingReload
import Verif.Proofs.ExistingReopen
import Verif.Proofs.ExistingRels
import Verif.Proofs.ExistingDocs
import Verif.Proofs.StylesFit
import Verif.Proofs.ExistingData
import Verif.Proofs.ExistingAgain
import Verif.Proofs.ExistingTables
import Verif.Props.ExistingData
import Verif.Proofs.ExistingSheets
import Verif.Props.ExistingSheets
import Verif.Proofs.ExistingReget
import Verif.Props.ExistingReget
import Verif.Props.ExistingDelete
import Verif.Props.ExistingSaves
import Verif.Spec.SheetXml
import Verif.Proofs.SheetXml
import Verif.Proofs.SheetXmlRows
import Verif.Props.SheetXml
import Verif.Props.SheetLayout
import Verif.Proofs.SheetRefused
import Verif.Props.SheetRefused
import Verif.Spec.Crash
import Verif.Proofs.Crash
import Verif.Proofs.CrashCalls
import Verif.Proofs.CrashSave
import Verif.Props.Crash
import Verif.Spec.Order
import Verif.Proofs.Order
import Verif.Proofs.OrderDocs
import Verif.Proofs.OrderPkg
import Verif.Proofs.OrderExcel
import Verif.Proofs.OrderRun
import Verif.Props.Order
import Verif.Spec.StyledCells
import Verif.Props.StyledCells
import Verif.Spec.DropOrder
import Verif.Proofs.DropOrder
import Verif.Props.DropOrder
import Verif.Spec.Cycle
import Verif.Proofs.CycleDocs
import Verif.Proofs.CycleParts
import Verif.Proofs.CycleFlags
import Verif.Proofs.CycleFile
import Verif.Props.Cycle
import Verif.Proofs.ExistingDead
import Verif.Props.ExistingDead
import Verif.Props.ExistingTexts
import Verif.Spec.ColumnEdits
import Verif.Proofs.ColumnEdits
import Verif.Props.ColumnEdits
import Verif.Props.RelsDead
import Verif.Props.Handles
import Verif.Spec.NewSheets
import Verif.Props.NewSheets
import Verif.Props.NewSheetsOpened
import Verif.Spec.Limits
import Verif.Props.Limits
import Verif.Spec.WellFormed
import Verif.Proofs.WellFormed
import Verif.Proofs.Unambiguous
import Verif.Proofs.Steady
import Verif.Proofs.Ready
import Verif.Props.WellFormed
import Verif.Spec.GivenTexts
import Verif.Proofs.FileTexts
import Verif.Proofs.FileClean
import Verif.Proofs.FileParts
import Verif.Proofs.FileSession
import Verif.Props.WellFormedFile
import Verif.Spec.Elsewhere
import Verif.Proofs.Elsewhere
import Verif.Proofs.ElsewhereParts
import Verif.Props.Elsewhere
import Verif.Spec.Navigate
import Verif.Proofs.Navigate
import Verif.Proofs.NavigateFile
import Verif.Props.Navigate
import Verif.Spec.SeenStyles
import Verif.Proofs.SeenStyles
import Verif.Props.SeenStyles
import Verif.Spec.SeenRows
import Verif.Proofs.SeenRows
import Verif.Props.SeenRows
import Verif.Spec.Foreign
import Verif.Proofs.Foreign
import Verif.Spec.ForeignSheet
import Verif.Proofs.ForeignSheet
import Verif.Props.Foreign
import Verif.Spec.ForeignStrings
import Verif.Props.ForeignStrings
import Verif.Spec.ForeignSaved
import Verif.Proofs.ForeignSaved
import Verif.Props.ForeignSaved
import Verif.Spec.StillWellFormed
import Verif.Proofs.StillWellFormed
import Verif.Props.StillWellFormed
import Verif.Proofs.OwnWellFormed
import Verif.Props.OwnWellFormed
import Verif.Proofs.AllWellFormed
import Verif.Props.AllWellFormed
import Verif.Proofs.TypesWellFormed
import Verif.Props.TypesWellFormed
