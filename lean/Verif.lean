import Verif.Model.AppThreads
import Verif.Model.MacroExpr
import Verif.Model.StdioSync
import Verif.Proofs.JsonStrings
import Verif.Props.AppMem
import Verif.Props.AppThreads
import Verif.Props.Assign
import Verif.Props.BigFloat
import Verif.Props.BigFloatDouble
import Verif.Props.BigFloatMore
import Verif.Props.BigFloatProg
import Verif.Props.BigInt
import Verif.Props.BigIntProg
import Verif.Props.BuilderProg
import Verif.Props.CharClass
import Verif.Props.Classes
import Verif.Props.Comparators
import Verif.Props.Config
import Verif.Props.Console
import Verif.Props.ConsoleProg
import Verif.Props.ConsoleThreads
import Verif.Props.Convert
import Verif.Props.Cost
import Verif.Props.Counts
import Verif.Props.Declared
import Verif.Props.Defs
import Verif.Props.Detect
import Verif.Props.DivCost
import Verif.Props.Enums
import Verif.Props.Expected
import Verif.Props.ExpectedBrace
import Verif.Props.ExpectedParts
import Verif.Props.ExpectedProg
import Verif.Props.ExpectedRefs
import Verif.Props.ExpectedTypes
import Verif.Props.Extract
import Verif.Props.File
import Verif.Props.FileErrors
import Verif.Props.FileMachine
import Verif.Props.FindCost
import Verif.Props.Format
import Verif.Props.FormatArgs
import Verif.Props.FormatCost
import Verif.Props.FormatExact
import Verif.Props.FormatFull
import Verif.Props.FormatSpec
import Verif.Props.Forward
import Verif.Props.Headers
import Verif.Props.JsonCost
import Verif.Props.JsonDepth
import Verif.Props.JsonDoc
import Verif.Props.JsonMacro
import Verif.Props.JsonMem
import Verif.Props.JsonMemProg
import Verif.Props.JsonNodes
import Verif.Props.JsonOverlap
import Verif.Props.JsonParse
import Verif.Props.JsonPrint
import Verif.Props.JsonProg
import Verif.Props.JsonRead
import Verif.Props.JsonRefs
import Verif.Props.JsonStack
import Verif.Props.JsonThreads
import Verif.Props.Locale
import Verif.Props.Lookup
import Verif.Props.MacroExpr
import Verif.Props.NumMem
import Verif.Props.OdrUse
import Verif.Props.PowTrace
import Verif.Props.PrintMem
import Verif.Props.Ptr
import Verif.Props.PtrEq
import Verif.Props.PtrMem
import Verif.Props.PtrTemp
import Verif.Props.Random
import Verif.Props.RandomSeq
import Verif.Props.Registry
import Verif.Props.RegistryAdd
import Verif.Props.RepoTests
import Verif.Props.SharedThreads
import Verif.Props.Sizes
import Verif.Props.Special
import Verif.Props.Statics
import Verif.Props.StdioSync
import Verif.Props.Storage
import Verif.Props.StrMem
import Verif.Props.StrMore
import Verif.Props.StrOps
import Verif.Props.StrProg
import Verif.Props.StrUtil
import Verif.Props.StreamMem
import Verif.Props.TestDecl
import Verif.Props.Testing
import Verif.Props.Traits
import Verif.Props.TraitsCat
import Verif.Props.Unicode
import Verif.Props.UniqueLinks
import Verif.Props.Utf8
import Verif.Props.WriteArgs
