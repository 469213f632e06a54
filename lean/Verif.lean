import Verif.FloorDiv
import Verif.FloorDivProps
import Verif.IntOperator
import Verif.IntOperatorProps
import Verif.Slice
import Verif.SliceProps
import Verif.Strings
import Verif.StringsProps
import Verif.ListOps
import Verif.ListOpsProps
import Verif.ConstFold
import Verif.ConstFoldProps
import Verif.ParallelFor
import Verif.ParallelForProps
import Verif.ThreadPool
import Verif.ThreadPoolProps
import Verif.Base64
import Verif.Base64Props
import Verif.Utf8
import Verif.Utf8Props
import Verif.DTypeStr
import Verif.DTypeStrProps
import Verif.StrEscape
import Verif.StrEscapeProps
import Verif.Session
import Verif.SessionTopoProps
import Verif.SessionProps
import Verif.SessionAlias
import Verif.SessionAliasProps
import Verif.UniqueIndex
import Verif.UniqueIndexProps
import Verif.Msgpack
import Verif.MsgpackProps
import Verif.MsgpackRoundtrip
import Verif.MsgpackSize
import Verif.HashMap
import Verif.HashMapInv
import Verif.HashMapProps
import Verif.DictSetProps
import Verif.HashMapCapacity
import Verif.PdqSort
import Verif.PdqSortLemmas
import Verif.PdqSortProps
import Verif.PdqSortTies
import Verif.PdqSortStable
import Verif.Heap
import Verif.HeapProps
import Verif.HashEq
import Verif.HashEqProps
import Verif.Mpmc
import Verif.MpmcProps
import Verif.Liveness
import Verif.LivenessProps
import Verif.ReachDef
import Verif.ReachDefProps
import Verif.Dominators
import Verif.DominatorsProps
import Verif.CfgBuild
import Verif.CfgBuildProps
import Verif.CfgPipelineProps
import Verif.Broadcast
import Verif.BroadcastProps
import Verif.KernelArith
import Verif.KernelArithProps
import Verif.Fuse
import Verif.FuseStepProps
import Verif.FuseValProps
import Verif.FuseWFProps
import Verif.FusePassProps
import Verif.FuseBuildProps
import Verif.FuseProps
import Verif.Cedar
import Verif.CedarRing
import Verif.CedarAllocProps
import Verif.CedarSlotProps
import Verif.CedarPlaceProps
import Verif.CedarChainProps
import Verif.CedarTreeProps
import Verif.CedarMoveProps
import Verif.CedarFollowProps
import Verif.CedarProps
import Verif.CedarText
import Verif.CedarTextProps
import Verif.CodegenOpt
import Verif.CodegenOptProps
import Verif.NDArray
import Verif.NDArrayBase
import Verif.NDArrayViews
import Verif.NDArrayViewProps
import Verif.NDArrayCopy
import Verif.NDArrayReadProps
import Verif.NDArrayNested
import Verif.NDArraySetProps
import Verif.NDArrayArithProps
import Verif.NDArrayJoinProps
import Verif.NDArrayMakeProps
import Verif.NDArrayRunProps
import Verif.Lower
import Verif.LowerOrd
import Verif.LowerSafe
import Verif.LowerExpr
import Verif.LowerFrame
import Verif.LowerSim
import Verif.LowerStmt
import Verif.LowerBound
import Verif.LowerProps
import Verif.LowerCases
import Verif.StrCore
import Verif.StrCoreInv
import Verif.StrCoreMem
import Verif.StrCoreGrow
import Verif.StrCoreOps
import Verif.StrCoreProps
import Verif.StrCoreCost
import Verif.StrCoreCases
import Verif.FileIO
import Verif.FileIOInv
import Verif.FileIOSafe
import Verif.FileIOProps
import Verif.FileIOText
import Verif.FileIOCases
import Verif.Random
import Verif.RandomSeq
import Verif.RandomSeed
import Verif.RandomProps
import Verif.RandomRace
import Verif.Pickle
import Verif.PickleProps
import Verif.PickleSave
import Verif.PickleJson
import Verif.IntParse
import Verif.IntParseProps
import Verif.Generator
import Verif.GeneratorProps
import Verif.GeneratorUse
import Verif.Regex
import Verif.RegexProps
import Verif.RegexUse
import Verif.Bfc
import Verif.BfcInv
import Verif.BfcSteps
import Verif.BfcSplit
import Verif.BfcOps
import Verif.BfcAlloc
import Verif.BfcProps
import Verif.BfcUse
import Verif.Deps
import Verif.DepsVisit
import Verif.DepsDfs
import Verif.DepsProps
import Verif.CallArgs
import Verif.CallArgsBind
import Verif.CallArgsProps
import Verif.Rc
import Verif.RcInv
import Verif.RcProps
import Verif.Ffi
import Verif.FfiOwn
import Verif.FfiProps
import Verif.Order
import Verif.OrderProps
import Verif.OrderSort
import Verif.OrderMod
import Verif.Half
import Verif.HalfProps
import Verif.HalfWrite
import Verif.HalfStore
import Verif.Iterate
import Verif.IterateProps
import Verif.IterateComp
import Verif.Normalize
import Verif.NormalizeProps
import Verif.NormalizeComp
import Verif.NormalizeForms
import Verif.NormalizeTree
import Verif.NormalizeData
import Verif.NormalizeCheck
import Verif.NormalizeUcd
import Verif.WordPiece
import Verif.WordPieceProps
import Verif.WordPieceVocab
import Verif.WordPieceUse
import Verif.Emoji
import Verif.EmojiProps
import Verif.EmojiText
import Verif.StructEq
import Verif.StructEqProps
import Verif.StructEqSpec
import Verif.StructEqRel
import Verif.StructEqFast
import Verif.StructHash
import Verif.StructHashProps
import Verif.StructHashEq
import Verif.StructEqUse
import Verif.DocPrint
import Verif.DocPrintProps
import Verif.DocPrintMain
import Verif.DocPrintUse
import Verif.SaveLoad
import Verif.SaveLoadProps
import Verif.SaveLoadMain
import Verif.SaveLoadUse
import Verif.SoCache
import Verif.SoCacheProps
import Verif.SoCacheMain
import Verif.SoCacheUse
import Verif.BundleArgs
import Verif.BundleArgsProps
import Verif.BundleArgsMain
import Verif.BundleArgsUse
import Verif.Nested
import Verif.NestedProps
import Verif.NestedMain
import Verif.TypeJoin
import Verif.TypeJoinProps
import Verif.TypeJoinMain
import Verif.TypeJoinUse
import Verif.Warmup
import Verif.WarmupProps
import Verif.WarmupMain
import Verif.ObjPoolThms
import Verif.ObjPoolShrink
import Verif.VisionBatchProps
import Verif.StrFormatProps
import Verif.FuncRegProps
import Verif.ForkPoolsProps
