import Verif.H5.Store
import Verif.H5.StoreLemmas
import Verif.H5.Tree
import Verif.Hickle.Alike
import Verif.Hickle.AlikeDump
import Verif.Hickle.AstroTable
import Verif.Hickle.AstroTypes
import Verif.Hickle.Astropy
import Verif.Hickle.Custom
import Verif.Hickle.CustomDump
import Verif.Hickle.CustomLoad
import Verif.Hickle.CustomReg
import Verif.Hickle.CustomSpec
import Verif.Hickle.CustomWork
import Verif.Hickle.Depth
import Verif.Hickle.Dump
import Verif.Hickle.DumpDomain
import Verif.Hickle.DumpEnds
import Verif.Hickle.DumpInv
import Verif.Hickle.DumpSpec
import Verif.Hickle.DumpState
import Verif.Hickle.DumpSteps
import Verif.Hickle.DumpTotal
import Verif.Hickle.DumpTwins
import Verif.Hickle.FileIO
import Verif.Hickle.Fitting
import Verif.Hickle.Grows
import Verif.Hickle.History
import Verif.Hickle.LegacyFile
import Verif.Hickle.LegacyV3
import Verif.Hickle.LegacyV4
import Verif.Hickle.Load
import Verif.Hickle.LoadArr
import Verif.Hickle.LoadBlind
import Verif.Hickle.LoadCache
import Verif.Hickle.LoadGood
import Verif.Hickle.LoadInv
import Verif.Hickle.LoadMade
import Verif.Hickle.LoadNode
import Verif.Hickle.LoadSpec
import Verif.Hickle.LoadSteps
import Verif.Hickle.LoadTwins
import Verif.Hickle.LoaderSearch
import Verif.Hickle.Memory
import Verif.Hickle.Missing
import Verif.Hickle.Moved
import Verif.Hickle.Nest
import Verif.Hickle.NpTypes
import Verif.Hickle.PartCall
import Verif.Hickle.PartDump
import Verif.Hickle.PartLoad
import Verif.Hickle.PartSpec
import Verif.Hickle.PartTop
import Verif.Hickle.Proxy
import Verif.Hickle.RegSpec
import Verif.Hickle.Registry
import Verif.Hickle.RoundTrip
import Verif.Hickle.Salvage
import Verif.Hickle.Spec
import Verif.Hickle.StepDump
import Verif.Hickle.StepLoad
import Verif.Hickle.StepLoadSafe
import Verif.Hickle.StepSafe
import Verif.Hickle.StepSeq
import Verif.Hickle.Steps
import Verif.Hickle.Stored
import Verif.Hickle.Threads
import Verif.Hickle.ThreadsLoad
import Verif.Hickle.ThreadsPar
import Verif.Hickle.ThreadsSafe
import Verif.Hickle.ThreadsSeq
import Verif.Hickle.ThreadsSys
import Verif.Hickle.Top
import Verif.Hickle.TopSteps
import Verif.Hickle.TypesTable
import Verif.Hickle.WarnDump
import Verif.Hickle.WarnLoad
import Verif.Hickle.WarnNames
import Verif.Hickle.Warnings
import Verif.Hickle.World
import Verif.Props.Basic
import Verif.Props.C01
import Verif.Props.C02
import Verif.Props.C03
import Verif.Props.C04
import Verif.Props.C05
import Verif.Props.C06
import Verif.Props.C07
import Verif.Props.C08
import Verif.Props.C09
import Verif.Props.C10
import Verif.Props.C11
import Verif.Props.C12
import Verif.Props.C13
import Verif.Props.C14
import Verif.Props.C15
import Verif.Props.C16
import Verif.Props.C17
import Verif.Props.C18
import Verif.Props.C19
import Verif.Props.C20
import Verif.Props.C21
import Verif.Props.C22
import Verif.Props.C23
import Verif.Props.C24
import Verif.Props.C25
import Verif.Props.C26
import Verif.Props.C27
import Verif.Props.C28
import Verif.Props.C29
import Verif.Props.C30
import Verif.Props.C31
import Verif.Props.C32
import Verif.Props.C33
import Verif.Props.C34
import Verif.Props.C35
import Verif.Props.C36
import Verif.Props.C37
import Verif.Props.C38
import Verif.Props.C39
import Verif.Props.C40
import Verif.Props.C41
import Verif.Props.C42
import Verif.Props.C42Graph
import Verif.Props.C43
import Verif.Props.C44
import Verif.Props.C44Paths
import Verif.Props.C45
import Verif.Props.C46
import Verif.Props.C47
import Verif.Props.C48
import Verif.Props.C49
import Verif.Props.C50
import Verif.Props.C51
import Verif.Props.C52
import Verif.Props.C53
import Verif.Props.C54
import Verif.Props.C55
import Verif.Props.C56
import Verif.Props.C57
import Verif.Props.C58
import Verif.Props.C59
import Verif.Props.C60
import Verif.Props.C61
import Verif.Props.C62
import Verif.Props.C63
import Verif.Props.C64
import Verif.Props.C65
import Verif.Props.C66
import Verif.Props.C67
import Verif.Props.C68
import Verif.Props.Check
import Verif.Props.Examples
import Verif.Props.Parts
import Verif.Props.RepoTests
import Verif.Props.RepoTestsAstropy
import Verif.Props.RepoTestsFiles
import Verif.Props.RepoTestsNumpy
import Verif.Props.Same
import Verif.Props.V3Keys
import Verif.Props.V3Round
import Verif.Props.V3Spec
import Verif.Props.V4Main
import Verif.Props.V4Round
import Verif.Props.V4Spec
import Verif.Props.Values
import Verif.Py.Assoc
import Verif.Py.Dec
import Verif.Py.Eq
import Verif.Py.Err
import Verif.Py.F64
import Verif.Py.Heap
import Verif.Py.Hoare
import Verif.Py.Repr
import Verif.Py.Round
import Verif.Py.Utf8
