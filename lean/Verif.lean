import Verif.Props.AsStrided
import Verif.Props.Promote
import Verif.Props.Types
import Verif.Props.Fx
import Verif.Props.FxMutation
import Verif.Props.TypeSubclassMap
import Verif.Props.RefTracker
import Verif.Props.FxNames
import Verif.Props.While
import Verif.Props.FxBuiltins
import Verif.Props.SymExpr
import Verif.Props.SymShape
import Verif.Props.Dtypes
import Verif.Props.TypeText
import Verif.Props.Sparsity
import Verif.Props.Version
import Verif.Props.Broadcast
import Verif.Props.Expand
import Verif.Props.Permute
import Verif.Props.Reduce
import Verif.Props.Cat
import Verif.Props.Matmul
import Verif.Props.Reshape
import Verif.Props.Slice
import Verif.Props.Triangular
import Verif.Props.NegativeDims
import Verif.Props.Diagonal
import Verif.Props.Pool
import Verif.Props.Conv
import Verif.Props.Index
import Verif.Props.OnnxName
import Verif.Props.OnnxTypes
import Verif.Props.OnnxFunctions
import Verif.Props.OnnxInputs
import Verif.Props.OnnxScope
import Verif.Props.OnnxLexical
import Verif.Props.OnnxAttributes
import Verif.Props.Reporting
import Verif.Props.RefBackend
import Verif.Props.Registry
import Verif.Props.Dynamo
import Verif.Props.Compile
import Verif.Props.ValueSem
import Verif.Props.Fold
import Verif.Props.FoldList
import Verif.Props.ListInterp
import Verif.Props.Unroll
import Verif.Props.FoldSlice
import Verif.Props.TmSort
import Verif.Props.TmScan
import Verif.Props.TmScatter
import Verif.Props.TmTopk
import Verif.Props.Slots
import Verif.Props.Scf
import Verif.Props.LinSlice
import Verif.Props.LinPad
import Verif.Props.LinDiag
import Verif.Props.LinPerm
import Verif.Props.LinBroadcast
import Verif.Props.LinView
import Verif.Props.LinSqueeze
import Verif.Props.DecMove
import Verif.Props.DecShape
import Verif.Props.LinPool
import Verif.Props.LinIndirect
import Verif.Props.LinReduce
import Verif.Props.LinMatmul
import Verif.Props.LinCtor
import Verif.Props.LinConv
import Verif.Props.LinConvBack
import Verif.Props.LinUnpool
import Verif.Props.DecTri
import Verif.Props.DecBucket
import Verif.Props.DecPoint
import Verif.Props.DecAdapt
import Verif.Props.DecPad
import Verif.Props.DecEye
import Verif.Props.DecReal
