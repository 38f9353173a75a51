import Verif.Model.Base
import Verif.Model.Bitstruct
import Verif.Model.Conversion
import Verif.Model.Codec
import Verif.Model.Message
import Verif.Props.Encode
import Verif.Props.Decode
import Verif.Props.Layout
import Verif.Props.LayoutIds
import Verif.Props.DbcFile
import Verif.Props.DbcRelations
import Verif.Model.FloatConversion
import Verif.Props.Conversion
import Verif.Model.Prune
import Verif.Props.Prune
import Verif.Model.Container
import Verif.Props.Container
import Verif.Model.Database
import Verif.Props.Database
import Verif.Model.J1939
import Verif.Props.J1939
import Verif.Model.EndToEnd
import Verif.Props.EndToEnd
import Verif.Model.SecOC
import Verif.Props.SecOC
import Verif.Model.Did
import Verif.Props.Did
import Verif.Props.Dbc
import Verif.Model.CSource
import Verif.Model.CNames
import Verif.Model.Tester
import Verif.Spec.Tester
import Verif.Props.Tester
import Verif.Props.TesterPeriodic
import Verif.Props.TesterFrame
import Verif.Model.InvertTree
import Verif.Spec.SignalTree
import Verif.Lemmas.SignalTree
import Verif.Props.SignalTree
import Verif.Model.Load
import Verif.Spec.Load
import Verif.Props.Load
import Verif.Spec.CSource
import Verif.Lemmas.CSegments
import Verif.Lemmas.CExec
import Verif.Lemmas.CRun
import Verif.Props.CSource
import Verif.Props.CRange
import Verif.Props.CNames
import Verif.Model.Similar
import Verif.Spec.Similar
import Verif.Lemmas.Similar
import Verif.Props.Similar
import Verif.Model.Regex
import Verif.Model.LogReader
import Verif.Spec.LogReader
import Verif.Lemmas.Regex
import Verif.Lemmas.LogReader
import Verif.Lemmas.Candump
import Verif.Lemmas.Pcan
import Verif.Lemmas.Detect
import Verif.Props.LogReader
import Verif.Model.Kcd
import Verif.Spec.Kcd
import Verif.Lemmas.KcdText
import Verif.Lemmas.Kcd
import Verif.Props.Kcd
import Verif.Model.KcdXml
import Verif.Spec.KcdXml
import Verif.Lemmas.KcdXml
import Verif.Lemmas.KcdXmlLoad
import Verif.Props.KcdXml
import Verif.Model.Monitor
import Verif.Spec.Monitor
import Verif.Lemmas.Monitor
import Verif.Lemmas.MonitorRun
import Verif.Props.Monitor
import Verif.Lemmas.MonitorPrompt
import Verif.Props.MonitorPrompt
import Verif.Model.DbcLex
import Verif.Model.DbcFile
import Verif.Model.DbcRelations
import Verif.Model.Dump
import Verif.Spec.Dump
import Verif.Lemmas.Dump
import Verif.Lemmas.DumpUnion
import Verif.Lemmas.DumpText
import Verif.Lemmas.DumpNames
import Verif.Props.Dump
import Verif.Props.TesterInit
import Verif.Spec.DbcNumber
import Verif.Spec.DbcFile
import Verif.Spec.DbcRelations
import Verif.Lemmas.DbcLex
import Verif.Lemmas.DbcNumber
import Verif.Lemmas.DbcEntry
import Verif.Lemmas.DbcParse
import Verif.Lemmas.DbcText
import Verif.Lemmas.DbcSync
import Verif.Lemmas.DbcDoc
import Verif.Lemmas.DbcLoad
import Verif.Lemmas.DbcLoaded
import Verif.Lemmas.DbcRestore
import Verif.Lemmas.DbcSignal
import Verif.Lemmas.DbcMessage
import Verif.Lemmas.DbcDatabase
import Verif.Lemmas.DbcUnique
import Verif.Lemmas.DbcWritten
import Verif.Lemmas.DbcNested
import Verif.Lemmas.DbcRelText
import Verif.Lemmas.DbcRelations
import Verif.Lemmas.DbcKept
import Verif.Lemmas.DbcHalves
import Verif.Lemmas.LayoutIds
import Verif.Spec.LayoutIds
import Verif.Model.SymLex
import Verif.Model.Sym
import Verif.Spec.Sym
import Verif.Lemmas.SymLex
import Verif.Lemmas.SymParse
import Verif.Lemmas.SymText
import Verif.Lemmas.SymContent
import Verif.Lemmas.SymOk
import Verif.Lemmas.SymLoad
import Verif.Lemmas.SymMsg
import Verif.Lemmas.Spread
import Verif.Lemmas.SpreadFrame
import Verif.Lemmas.SpreadCodec
import Verif.Lemmas.SymKept
import Verif.Lemmas.SymPlaces
import Verif.Props.Sym
import Verif.Model.DecodeCommand
import Verif.Spec.DecodeCommand
import Verif.Props.DecodeCommand
import Verif.Model.Arxml
import Verif.Model.ArxmlScale
import Verif.Spec.Arxml
import Verif.Spec.ArxmlScale
import Verif.Lemmas.Arxml
import Verif.Lemmas.ArxmlScale
import Verif.Lemmas.ArxmlNumber
import Verif.Props.Arxml
import Verif.Props.ArxmlScale
import Verif.Model.Cdd
import Verif.Spec.Cdd
import Verif.Lemmas.Cdd
import Verif.Props.Cdd
import Verif.Model.ArxmlRef
import Verif.Spec.ArxmlRef
import Verif.Lemmas.ArxmlRef
import Verif.Props.ArxmlRef
import Verif.Model.ArxmlFile
import Verif.Spec.ArxmlFile
import Verif.Lemmas.ArxmlFile
import Verif.Props.ArxmlFile
import Verif.Props.ArxmlFileDoc
import Verif.Model.Plot
import Verif.Spec.Plot
import Verif.Lemmas.Plot
import Verif.Lemmas.PlotDraw
import Verif.Lemmas.PlotLines
import Verif.Lemmas.PlotLoop
import Verif.Props.Plot
import Verif.Model.Ieee
import Verif.Spec.Ieee
import Verif.Lemmas.Ieee
import Verif.Lemmas.IeeeNearest
import Verif.Lemmas.IeeeBits
import Verif.Lemmas.IeeeScaling
import Verif.Props.Ieee
import Verif.Model.CConvert
import Verif.Spec.CConvert
import Verif.Lemmas.CConvert
import Verif.Props.CConvert
import Verif.Model.CHeader
import Verif.Spec.CHeader
import Verif.Lemmas.CHeader
import Verif.Props.CHeader
import Verif.Model.Files
import Verif.Spec.Files
import Verif.Lemmas.FilesText
import Verif.Lemmas.FilesDbc
import Verif.Lemmas.FilesSym
import Verif.Lemmas.FilesLoad
import Verif.Props.Files
import Verif.Spec.Secured
import Verif.Props.ArxmlSecured
import Verif.Spec.ArxmlContainer
import Verif.Lemmas.ArxmlContainer
import Verif.Props.ArxmlContainer
import Verif.Props.ArxmlContainerDoc
import Verif.Model.ArxmlNodes
import Verif.Spec.ArxmlNodes
import Verif.Lemmas.ArxmlNodes
import Verif.Lemmas.ArxmlTalks
import Verif.Props.ArxmlNodes
import Verif.Props.ArxmlNodesDoc
import Verif.Model.ArxmlProtect
import Verif.Spec.ArxmlProtect
import Verif.Lemmas.ArxmlProtect
import Verif.Props.ArxmlProtect
import Verif.Props.ArxmlProtectDoc
import Verif.Model.EcuExtract
import Verif.Spec.EcuExtract
import Verif.Lemmas.EcuExtract
import Verif.Lemmas.EcuExtractRead
import Verif.Props.EcuExtract
import Verif.Props.EcuExtractDoc
import Verif.Model.Listing
import Verif.Spec.Listing
import Verif.Lemmas.ListingText
import Verif.Lemmas.Listing
import Verif.Lemmas.ListingSame
import Verif.Lemmas.ListingLines
import Verif.Lemmas.ListingEntry
import Verif.Props.Listing
import Verif.Model.TesterBus
import Verif.Spec.TesterBus
import Verif.Lemmas.TesterBus
import Verif.Props.TesterBus
import Verif.Lemmas.LayoutSign
import Verif.Model.KcdFile
import Verif.Spec.KcdFile
import Verif.Lemmas.KcdFile
import Verif.Props.KcdFile
import Verif.Model.DumpCommand
import Verif.Spec.DumpCommand
import Verif.Lemmas.DumpCommand
import Verif.Props.DumpCommand
import Verif.Model.SnakeOil
import Verif.Spec.SnakeOil
import Verif.Props.SnakeOil
import Verif.Model.CFuzz
import Verif.Props.CFuzz
import Verif.Model.CUnit
import Verif.Spec.CUnit
import Verif.Lemmas.CUnit
import Verif.Props.CUnit
import Verif.Props.CUnitCode
import Verif.Model.SignalEdit
import Verif.Props.SignalEdit
import Verif.Model.CCommand
import Verif.Props.CCommand
