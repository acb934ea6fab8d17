import Verif.BinarySearch
import Verif.Binout
import Verif.BinoutBounds
import Verif.BinoutCalls
import Verif.BinoutCd
import Verif.BinoutLemmas
import Verif.BinoutMem
import Verif.BinoutRead
import Verif.BinoutReadLemmas
import Verif.BinoutSession
import Verif.BinoutSimple
import Verif.BinoutSpec
import Verif.BinoutWriter
import Verif.CStr
import Verif.Card
import Verif.CardFloat
import Verif.CardLemmas
import Verif.Common
import Verif.CppArray
import Verif.CppCard
import Verif.CppHandle
import Verif.CppKey
import Verif.CppOwn
import Verif.CppPart
import Verif.CppPartNodes
import Verif.CppPrint
import Verif.CppRows
import Verif.CppState
import Verif.CppTransform
import Verif.D3AllIds
import Verif.D3Buffer
import Verif.D3BufferLemmas
import Verif.D3Elements
import Verif.D3Float
import Verif.D3Mean
import Verif.D3Mem
import Verif.D3PartMem
import Verif.D3PartNodes
import Verif.D3Plot
import Verif.D3PlotIds
import Verif.D3PlotInv
import Verif.D3PlotLemmas
import Verif.D3PlotOpen
import Verif.D3PlotStates
import Verif.D3PlotTotal
import Verif.D3Read
import Verif.D3ReadLemmas
import Verif.D3Sample
import Verif.D3Titles
import Verif.D3Window
import Verif.D3Writer
import Verif.Directory
import Verif.DirectoryLemmas
import Verif.ExtraString
import Verif.IncludeTransform
import Verif.KeyCallback
import Verif.KeyFile
import Verif.KeyInfo
import Verif.KeyMem
import Verif.KeyName
import Verif.KeyOwn
import Verif.KeyParse
import Verif.KeyWriter
import Verif.LineReader
import Verif.MultiFile
import Verif.MultiFileLemmas
import Verif.MultiFileSingle
import Verif.Path
import Verif.PathOpen
import Verif.PathReal
import Verif.PathView
import Verif.Profiling
import Verif.Props.Binout
import Verif.Props.BinoutCalls
import Verif.Props.BinoutCut
import Verif.Props.BinoutMem
import Verif.Props.BinoutRead
import Verif.Props.BinoutRoundTrip
import Verif.Props.BinoutRoundTripChildren
import Verif.Props.BinoutSession
import Verif.Props.BinoutSimple
import Verif.Props.BinoutTimedError
import Verif.Props.BinoutWhy
import Verif.Props.BinoutWhyStep
import Verif.Props.Card
import Verif.Props.CardFloat
import Verif.Props.CardReject
import Verif.Props.CardValue
import Verif.Props.CppArray
import Verif.Props.CppCard
import Verif.Props.CppHandle
import Verif.Props.CppKey
import Verif.Props.CppOwn
import Verif.Props.CppPart
import Verif.Props.CppPartNodes
import Verif.Props.CppPrint
import Verif.Props.CppRows
import Verif.Props.CppState
import Verif.Props.CppTransform
import Verif.Props.D3Accept
import Verif.Props.D3AllIds
import Verif.Props.D3Buffer
import Verif.Props.D3Calls
import Verif.Props.D3Elements
import Verif.Props.D3Float
import Verif.Props.D3Ids
import Verif.Props.D3Mean
import Verif.Props.D3Mem
import Verif.Props.D3MemBase
import Verif.Props.D3MemCalls
import Verif.Props.D3MemOpen
import Verif.Props.D3MemSim
import Verif.Props.D3PartMem
import Verif.Props.D3PartNodes
import Verif.Props.D3Plot
import Verif.Props.D3RoundTrip
import Verif.Props.D3RoundTripParts
import Verif.Props.D3RoundTripValues
import Verif.Props.D3State
import Verif.Props.D3Titles
import Verif.Props.D3Window
import Verif.Props.Directory
import Verif.Props.ExtraString
import Verif.Props.IncludeTransform
import Verif.Props.KeyCallback
import Verif.Props.KeyFile
import Verif.Props.KeyInclude
import Verif.Props.KeyInfo
import Verif.Props.KeyMeaning
import Verif.Props.KeyMeaningAll
import Verif.Props.KeyMem
import Verif.Props.KeyName
import Verif.Props.KeyOwn
import Verif.Props.KeyParse
import Verif.Props.KeyRoundTrip
import Verif.Props.KeyRoundTripFields
import Verif.Props.LineReader
import Verif.Props.MultiFile
import Verif.Props.MultiFileIdle
import Verif.Props.MultiFileSingle
import Verif.Props.PathOpen
import Verif.Props.PathReal
import Verif.Props.Profiling
import Verif.Props.PyArray
import Verif.Props.PyBinout
import Verif.Props.PyCard
import Verif.Props.PyKey
import Verif.Props.Search
import Verif.Props.StateMem
import Verif.Props.Sync
import Verif.Props.WinGlob
import Verif.PyArray
import Verif.PyBinout
import Verif.PyCard
import Verif.PyKey
import Verif.StateMem
import Verif.StringBuilder
import Verif.Sync
import Verif.WinGlob
