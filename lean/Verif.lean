import Verif.Props.Naming
import Verif.Props.Strftime
import Verif.Props.GoLayout
import Verif.Props.Errors
import Verif.Props.Traverse
import Verif.Props.Text
import Verif.Props.Duration
import Verif.Props.LangValidate
import Verif.Props.PyParse
import Verif.Props.PySer
import Verif.Props.JsonKeys
import Verif.Props.PyOptional
import Verif.Props.PyKeys
import Verif.Props.PyFaults
import Verif.Props.Main
import Verif.Props.Schema
import Verif.Props.GoParse
import Verif.Props.GoTarget
import Verif.CppGraph
import Verif.CppTotal
import Verif.CppSer
import Verif.CppValid
import Verif.CppDemo
import Verif.Props.CppParse
import Verif.Props.CppRound
import Verif.TypeGraph
import Verif.TypeGraphLemmas
import Verif.GoScope
import Verif.GoCode
import Verif.GoCodeLemmas
import Verif.GoFuncs
import Verif.GoPatterns
import Verif.GoSerNames
import Verif.GoPackage
import Verif.GoImports
import Verif.GoDeclared
import Verif.GoTotal
import Verif.GoValidated
import Verif.Props.GoNames
import Verif.GoMeaning
import Verif.Props.GoMeaning
import Verif.Interop
import Verif.InteropLemmas
import Verif.InteropCpp
import Verif.InteropPy
import Verif.InteropMeans
import Verif.Props.Interop
import Verif.Props.InteropExample
import Verif.Transfer
import Verif.TransferMeans
import Verif.TransferCpp
import Verif.TransferGo
import Verif.TransferPy
import Verif.FloatLarge
import Verif.TransferLeaves
import Verif.Props.Transfer
import Verif.Props.TransferExample
import Verif.PyScope
import Verif.PyCode
import Verif.PyFlow
import Verif.PyParse
import Verif.PyParseNames
import Verif.PyFrom
import Verif.PyCheck
import Verif.PyFromGraph
import Verif.PyToValue
import Verif.PyTo
import Verif.PyStatic
import Verif.PyTypes
import Verif.PyTypesModule
import Verif.PyLocals
import Verif.PyLookup
import Verif.PyParseModule
import Verif.PyFromModule
import Verif.PyToModule
import Verif.PyImports
import Verif.PyTotal
import Verif.PyGenTotal
import Verif.PyPackage
import Verif.PyReach
import Verif.Props.PyNames
import Verif.CppScope
import Verif.CppCode
import Verif.CppFlow
import Verif.CppFresh
import Verif.CppParseValue
import Verif.CppParseTypes
import Verif.CppParseFuncs
import Verif.CppParseGraph
import Verif.CppSerFuncs
import Verif.CppSerGraph
import Verif.CppWorld
import Verif.CppBodies
import Verif.CppHeader
import Verif.CppDefs
import Verif.CppGenerates
import Verif.CppIncludes
import Verif.Props.CppNames
import Verif.Props.CppCompiles
import Verif.GoTypes
import Verif.GoErase
import Verif.Props.GoTypes
import Verif.GoAccept
import Verif.GoAcceptParse
import Verif.GoAcceptFuncs
import Verif.GoAcceptGraph
import Verif.GoAcceptSerialize
import Verif.GoAcceptPackage
import Verif.Props.GoCompiles
import Verif.PyLang
import Verif.PyGen
import Verif.PyHeap
import Verif.PyExecValue
import Verif.PyExecItems
import Verif.PyExecTypes
import Verif.PyExecProps
import Verif.PyExecCall
import Verif.PyExecEmbed
import Verif.PyExecAlloc
import Verif.PyExecInst
import Verif.PyExecGraph
import Verif.PyFuel
import Verif.PyHide
import Verif.PyWriteValue
import Verif.PyWriteProps
import Verif.PyWriteCall
import Verif.PyWriteGraph
import Verif.PyUnhidden
import Verif.PyShown
import Verif.PyTyped
import Verif.PyIdentity
import Verif.PyPrint
import Verif.GoPrint
import Verif.Props.PyExec
import Verif.Props.PyWrite
import Verif.GoLang
import Verif.GoGen
import Verif.GoMemory
import Verif.GoWriteValue
import Verif.GoWriteTy
import Verif.GoWriteProps
import Verif.GoWriteGraph
import Verif.GoReadValue
import Verif.GoReadTy
import Verif.GoReadAll
import Verif.GoReadProps
import Verif.GoReadComposite
import Verif.GoReadAlloc
import Verif.GoReadInstances
import Verif.GoGenTotal
import Verif.GoOutcome
import Verif.Props.GoWrite
import Verif.GoReadGraph
import Verif.GoGenReader
import Verif.Props.GoRead
import Verif.InteropCode
import Verif.Props.InteropCode
import Verif.GoRename
import Verif.GoWritten
import Verif.Props.GoWritten
import Verif.CppLang
import Verif.CppGen
import Verif.CppPrint
import Verif.CppWriteValue
import Verif.CppWriteGraph
import Verif.CppErase
import Verif.CppWritten
import Verif.CppOutcome
import Verif.Props.CppWrite
import Verif.Props.InteropCpp
import Verif.CppReadLang
import Verif.CppReadGen
import Verif.CppReadPath
import Verif.CppReadScalar
import Verif.CppReadValue
import Verif.CppReadRun
import Verif.Props.CppRead
import Verif.CppReadGraph
import Verif.CppReadGraphRun
import Verif.Props.CppReadGraph
import Verif.Props.InteropToCpp
import Verif.Props.InteropAccept
import Verif.Props.CppReadSafe
import Verif.CppReadPrint
