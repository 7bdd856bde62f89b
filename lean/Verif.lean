import Verif.Lemmas.AnyDump
import Verif.Lemmas.ApidbDeal
import Verif.Lemmas.ApidbIndex
import Verif.Lemmas.ApidbIterate
import Verif.Lemmas.ApidbJoin
import Verif.Lemmas.ApidbOwners
import Verif.Lemmas.ApidbReader
import Verif.Lemmas.ApidbRecords
import Verif.Lemmas.ApidbRoundTrip
import Verif.Lemmas.ApidbRow
import Verif.Lemmas.ApidbRows
import Verif.Lemmas.ApidbSorted
import Verif.Lemmas.ApidbToc
import Verif.Lemmas.ApidbWriter
import Verif.Lemmas.Calendar
import Verif.Lemmas.Coord
import Verif.Lemmas.Decode
import Verif.Lemmas.DumpSessions
import Verif.Lemmas.F64
import Verif.Lemmas.FailingTables
import Verif.Lemmas.File
import Verif.Lemmas.ForEach
import Verif.Lemmas.Format
import Verif.Lemmas.FormatFile
import Verif.Lemmas.FormatWrite
import Verif.Lemmas.Ieee
import Verif.Lemmas.Lenient
import Verif.Lemmas.LenientBlob
import Verif.Lemmas.LenientMessages
import Verif.Lemmas.LenientRules
import Verif.Lemmas.Meaning
import Verif.Lemmas.Orderer
import Verif.Lemmas.OsmData
import Verif.Lemmas.ParallelHeader
import Verif.Lemmas.ParallelIo
import Verif.Lemmas.ParallelMemory
import Verif.Lemmas.ParallelSystem
import Verif.Lemmas.Pipeline
import Verif.Lemmas.Pool
import Verif.Lemmas.Proto
import Verif.Lemmas.Protobuf
import Verif.Lemmas.ProtobufRead
import Verif.Lemmas.ProtobufWrite
import Verif.Lemmas.Quant
import Verif.Lemmas.Reader
import Verif.Lemmas.Size
import Verif.Lemmas.Sql
import Verif.Lemmas.StringTable
import Verif.Lemmas.Text
import Verif.Lemmas.Tile
import Verif.Lemmas.TocDat
import Verif.Lemmas.TocEntries
import Verif.Lemmas.Wire
import Verif.Lemmas.Writer
import Verif.Model.Accumulators
import Verif.Model.ApidbDirectory
import Verif.Model.ApidbReader
import Verif.Model.ApidbToc
import Verif.Model.ApidbWriter
import Verif.Model.Basic
import Verif.Model.BoundingBox
import Verif.Model.BoxText
import Verif.Model.BufWriter
import Verif.Model.ChangingFile
import Verif.Model.Checked
import Verif.Model.Converters
import Verif.Model.Counting
import Verif.Model.DumpParallel
import Verif.Model.Element
import Verif.Model.F64
import Verif.Model.FailingDisk
import Verif.Model.FailingRead
import Verif.Model.FailingTables
import Verif.Model.FileBlock
import Verif.Model.ForEach
import Verif.Model.Header
import Verif.Model.Ieee
import Verif.Model.InfoCalls
import Verif.Model.OsmData
import Verif.Model.ParallelFailing
import Verif.Model.ParallelIo
import Verif.Model.ParallelSystem
import Verif.Model.ParallelWriter
import Verif.Model.PbfInfo
import Verif.Model.Pipelines
import Verif.Model.Pool
import Verif.Model.Proto
import Verif.Model.Reader
import Verif.Model.Sql
import Verif.Model.TakeCalls
import Verif.Model.Text
import Verif.Model.TocDat
import Verif.Model.Wire
import Verif.Model.Writer
import Verif.Model.WriterCalls
import Verif.Props.Accumulator
import Verif.Props.Accumulators
import Verif.Props.AnyDump
import Verif.Props.ApidbColumns
import Verif.Props.ApidbDirectory
import Verif.Props.ApidbLoad
import Verif.Props.ApidbReader
import Verif.Props.ApidbRoundTrip
import Verif.Props.ApidbRow
import Verif.Props.ApidbShown
import Verif.Props.ApidbSortable
import Verif.Props.ApidbTables
import Verif.Props.ApidbToc
import Verif.Props.ApidbWriter
import Verif.Props.Block
import Verif.Props.Box
import Verif.Props.BoxMore
import Verif.Props.BoxText
import Verif.Props.BufWriter
import Verif.Props.Calendar
import Verif.Props.ChangingFile
import Verif.Props.Checked
import Verif.Props.CheckedWrite
import Verif.Props.Complete
import Verif.Props.Concat
import Verif.Props.Converters
import Verif.Props.CopyAgain
import Verif.Props.Counting
import Verif.Props.Crash
import Verif.Props.CutFile
import Verif.Props.Damaged
import Verif.Props.DamagedDump
import Verif.Props.Defaults
import Verif.Props.DirectoryPrograms
import Verif.Props.DumpCrash
import Verif.Props.DumpLimits
import Verif.Props.DumpOrder
import Verif.Props.DumpParallel
import Verif.Props.DumpRenamed
import Verif.Props.DumpRepeatedKeys
import Verif.Props.DumpSessions
import Verif.Props.DumpShown
import Verif.Props.DumpTwice
import Verif.Props.DumpTwicePrograms
import Verif.Props.FailingDisk
import Verif.Props.FailingRead
import Verif.Props.FailingTables
import Verif.Props.File
import Verif.Props.Filters
import Verif.Props.ForEach
import Verif.Props.Format
import Verif.Props.FormatFile
import Verif.Props.FormatMore
import Verif.Props.Frames
import Verif.Props.Header
import Verif.Props.Ieee
import Verif.Props.IeeeLaws
import Verif.Props.InfoCalls
import Verif.Props.Lenient
import Verif.Props.LenientFile
import Verif.Props.Oversized
import Verif.Props.Parallel
import Verif.Props.ParallelFailing
import Verif.Props.ParallelHeader
import Verif.Props.ParallelIo
import Verif.Props.ParallelMemory
import Verif.Props.ParallelSystem
import Verif.Props.ParallelWriter
import Verif.Props.PbfInfo
import Verif.Props.Pipelines
import Verif.Props.Refusals
import Verif.Props.RefusalsMore
import Verif.Props.SameFile
import Verif.Props.Size
import Verif.Props.SizePrograms
import Verif.Props.Sql
import Verif.Props.StableSort
import Verif.Props.TakeCalls
import Verif.Props.WriterCalls
import Verif.Spec.Accumulators
import Verif.Spec.AnyDump
import Verif.Spec.Apidb
import Verif.Spec.ApidbColumns
import Verif.Spec.ApidbJoin
import Verif.Spec.ApidbLoad
import Verif.Spec.ApidbRead
import Verif.Spec.ApidbRoundTrip
import Verif.Spec.ApidbRow
import Verif.Spec.ApidbToc
import Verif.Spec.Block
import Verif.Spec.BoxText
import Verif.Spec.BufWriter
import Verif.Spec.Calendar
import Verif.Spec.ChangingFile
import Verif.Spec.Checked
import Verif.Spec.Complete
import Verif.Spec.Concat
import Verif.Spec.Converters
import Verif.Spec.CopyAgain
import Verif.Spec.DamagedRow
import Verif.Spec.Defaults
import Verif.Spec.DumpCrash
import Verif.Spec.DumpSessions
import Verif.Spec.FailingRead
import Verif.Spec.FailingTables
import Verif.Spec.File
import Verif.Spec.Format
import Verif.Spec.FormatFile
import Verif.Spec.Frames
import Verif.Spec.Ieee
import Verif.Spec.InfoCalls
import Verif.Spec.Lenient
import Verif.Spec.LenientFile
import Verif.Spec.Meaning
import Verif.Spec.Parallel
import Verif.Spec.ParallelHeader
import Verif.Spec.ParallelIo
import Verif.Spec.ParallelSystem
import Verif.Spec.ParallelWriter
import Verif.Spec.Pipelines
import Verif.Spec.Protobuf
import Verif.Spec.SameFile
import Verif.Spec.Size
import Verif.Spec.StableSort
import Verif.Spec.TakeCalls
import Verif.Spec.TocStatements
import Verif.Spec.WriterCalls
