import Verif.Props.Masks
import Verif.Props.Pack
import Verif.Props.IntKeyDict
import Verif.Props.XlDate
import Verif.Props.ReadXl
import Verif.Props.Dbf
import Verif.Props.Text
import Verif.Props.TextNames
import Verif.Props.ContextOpen
import Verif.Props.Preparse
import Verif.Props.Lazy
import Verif.Props.CompDoc
import Verif.Props.CompDocExamples
import Verif.Props.SheetCells
import Verif.Props.Formatting
import Verif.Props.World
import Verif.Props.Xlsx
import Verif.Props.XlsxSheet
import Verif.Props.XlsxText
import Verif.Props.XlsxStyles
import Verif.Props.XlsxBook
import Verif.Props.Biff
import Verif.Props.XlsSheet
import Verif.Props.XlsBook
import Verif.Props.XlsFile
import Verif.Props.SheetFile
import Verif.Props.PackName
import Verif.Props.Exact
import Verif.Props.Newlines
import Verif.Props.Views
import Verif.Props.XlsObjects
import Verif.Props.XlsOld
import Verif.Props.XlsNames
import Verif.Props.XlsxNames
import Verif.Props.FullFile
import Verif.Props.Duration
import Verif.Props.PyFloat
import Verif.Props.Binary64
import Verif.Props.FileNumber
import Verif.Props.IntMask
import Verif.Props.MaskData
import Verif.Props.Records
import Verif.Props.TextNumber
import Verif.Props.LazyNumber
import Verif.Props.DurationPy
import Verif.Props.Fallback
import Verif.Props.NpArray
import Verif.Props.PackText
import Verif.Props.PackDbf
import Verif.Props.PackSheet
import Verif.Props.NpAppend
import Verif.Props.FilePack
import Verif.Props.DateRead
import Verif.Props.DebugOut
import Verif.Props.RecordKeys
import Verif.Props.DbfSeek
import Verif.Props.MaskFits
import Verif.Props.SheetAccess
import Verif.Props.PackBecomes
import Verif.Props.TextBlank
import Verif.Props.DurationExact
import Verif.Props.XlsxCellNames
import Verif.Props.NameCells
import Verif.Props.RangeName
import Verif.Props.CompDocLocate
import Verif.Props.SstSplit
import Verif.Props.StringExact
import Verif.Props.RecordsExact
import Verif.Props.NamesExact
import Verif.Props.XlsxRels
import Verif.Props.OldExact
import Verif.Props.LateFormats
import Verif.Props.Independent
import Verif.Props.ObjExact
import Verif.Props.AnyFormats
import Verif.Props.RecordsNow
import Verif.Props.BookAccess
import Verif.Props.OnDemand
import Verif.Props.StringParts
import Verif.Props.Override
import Verif.Props.OverrideUnicode
