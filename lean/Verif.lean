import Verif.Props.Bytes
import Verif.Props.Classification
import Verif.Props.Point
import Verif.Props.Coord
import Verif.Props.Rehome
import Verif.Props.Schema
import Verif.Props.Header
import Verif.Props.RoundTrip
import Verif.Props.WriteRead
import Verif.Props.Records
import Verif.Props.Reading
import Verif.Props.Reset
import Verif.Props.Cached
import Verif.Props.Malformed
import Verif.Props.Filter
import Verif.Props.Bounds
import Verif.Props.Factory
import Verif.Props.Transform
import Verif.Props.Summary
import Verif.Props.Chipper
import Verif.Props.Index
import Verif.Props.IndexRecords
import Verif.Props.IndexChunks
import Verif.Props.IndexHeader
import Verif.Props.IndexWindow
import Verif.Props.IndexLong
import Verif.Props.CSession
import Verif.Props.Las2lasCases
import Verif.Props.KernelFilterCases
import Verif.Props.KernelHeaderCases
import Verif.Props.HeaderSchema
import Verif.Props.MinOffset
import Verif.Props.KernelTransforms
import Verif.Props.Lasblock
import Verif.Props.Sha1
import Verif.Props.Las2txt
import Verif.Props.Las2txtCases
import Verif.Props.Zip
import Verif.Props.ZipCases
import Verif.Props.ZipWrite
import Verif.Props.ZipWriteCases
import Verif.Props.Txt2las
import Verif.Props.Txt2lasCases
import Verif.Props.TextRoundTrip
import Verif.Props.Ts2las
import Verif.Props.Ts2lasCases
import Verif.Props.Las2colThreads
import Verif.Props.Las2colEnds
import Verif.Props.Morton
import Verif.Props.Las2pg
import Verif.Props.Las2pgCases
import Verif.Props.Las2col
import Verif.Props.Las2colCases
import Verif.Props.IndexGrid
import Verif.Props.IndexLife
import Verif.Props.IndexStale
import Verif.Props.IndexAgain
import Verif.Props.SchemaXml
import Verif.Props.FullDisk
import Verif.Props.MapAlloc
import Verif.Props.SpatialRef
import Verif.Props.SummaryXml
import Verif.Props.XmlDoc
import Verif.Props.SummaryLife
import Verif.Props.WriterSession
import Verif.Props.ReaderSession
import Verif.Props.HeaderTransforms
import Verif.Props.PointLife
import Verif.Props.ProjectId
import Verif.Props.HeaderXml
import Verif.Props.Handles
import Verif.Props.LasCommon
import Verif.Props.Progress
import Verif.Props.Copies
