import Verif.Access
import Verif.Access2
import Verif.AllocFailure
import Verif.Arith
import Verif.Backward
import Verif.BackwardPotrf
import Verif.Binary
import Verif.BinaryGetrf
import Verif.BinaryLu
import Verif.BinaryLuFinite
import Verif.BinaryLuStuck
import Verif.BinaryPos
import Verif.BinaryPotrf
import Verif.BinarySolve
import Verif.BinarySum
import Verif.BinaryTrsm
import Verif.Blasfeo
import Verif.BlasfeoApi
import Verif.BlasfeoOwn
import Verif.BlockCalls
import Verif.Cases.Accuracy
import Verif.Cases.AllocFailure
import Verif.Cases.Binary
import Verif.Cases.BinaryCholesky
import Verif.Cases.BinaryLu
import Verif.Cases.BinaryOrder
import Verif.Cases.BinaryRandom
import Verif.Cases.BinarySolve
import Verif.Cases.BinarySystem
import Verif.Cases.BinaryTests
import Verif.Cases.BinaryTestsLu
import Verif.Cases.Blasfeo
import Verif.Cases.BlasfeoApi
import Verif.Cases.BlockCalls
import Verif.Cases.Checked
import Verif.Cases.Demo
import Verif.Cases.DynReg
import Verif.Cases.FastMath
import Verif.Cases.FlushAgree
import Verif.Cases.FlushLu
import Verif.Cases.FlushZero
import Verif.Cases.Forward
import Verif.Cases.Frame
import Verif.Cases.Gemm
import Verif.Cases.GemmKernel
import Verif.Cases.Ger
import Verif.Cases.History
import Verif.Cases.Integers
import Verif.Cases.Lu
import Verif.Cases.LuCatch
import Verif.Cases.LuRowBinary
import Verif.Cases.MatrixForm
import Verif.Cases.NanProp
import Verif.Cases.Parametric
import Verif.Cases.ParametricVec
import Verif.Cases.Potrf
import Verif.Cases.PotrfUpper
import Verif.Cases.Reference
import Verif.Cases.Register
import Verif.Cases.Relations
import Verif.Cases.Reproducible
import Verif.Cases.Scaling
import Verif.Cases.Selection
import Verif.Cases.Storage
import Verif.Cases.Testing
import Verif.Cases.Threads
import Verif.Cases.Transpose
import Verif.Cases.TransposeRandom
import Verif.Cases.Trmm
import Verif.Cases.TrmmUsed
import Verif.Cases.Views
import Verif.Checked
import Verif.CheckedLemmas
import Verif.CheckedViews
import Verif.Complexity
import Verif.Container
import Verif.ContainerLemmas
import Verif.Contraction
import Verif.Determined
import Verif.DynReg
import Verif.Eval
import Verif.FastMath
import Verif.Frame
import Verif.Gemm
import Verif.Ger
import Verif.Getrf
import Verif.GetrfRound
import Verif.GetrfSafe
import Verif.History
import Verif.Ieee
import Verif.Integers
import Verif.Lawful
import Verif.Lifecycle
import Verif.LinAlg
import Verif.Lu
import Verif.LuCatch
import Verif.LuDet
import Verif.LuMath
import Verif.LuRound
import Verif.LuRow
import Verif.MakePosDef
import Verif.MatForm
import Verif.Mem
import Verif.Nan
import Verif.NanProp
import Verif.Once
import Verif.PanelAssign
import Verif.PanelRandom
import Verif.Parametric
import Verif.ParametricLu
import Verif.Pointer
import Verif.Potrf
import Verif.Props.Accuracy
import Verif.Props.AllocFailure
import Verif.Props.AllocFailureAny
import Verif.Props.BackwardLu
import Verif.Props.BackwardPotrf
import Verif.Props.BackwardSolve
import Verif.Props.BackwardSystem
import Verif.Props.Binary
import Verif.Props.BinaryCholesky
import Verif.Props.BinaryLu
import Verif.Props.BinaryOrder
import Verif.Props.BinaryRandom
import Verif.Props.BinarySolve
import Verif.Props.BinarySystem
import Verif.Props.BinaryTests
import Verif.Props.BinaryTestsLu
import Verif.Props.Blasfeo
import Verif.Props.BlasfeoApi
import Verif.Props.BlasfeoOwn
import Verif.Props.BlockAlgos
import Verif.Props.BlockCalls
import Verif.Props.Checked
import Verif.Props.Complexity
import Verif.Props.Contraction
import Verif.Props.DynReg
import Verif.Props.FastMath
import Verif.Props.FlushAgree
import Verif.Props.FlushLu
import Verif.Props.FlushZero
import Verif.Props.Forward
import Verif.Props.Frame
import Verif.Props.Gemm
import Verif.Props.GemmKernel
import Verif.Props.Ger
import Verif.Props.History
import Verif.Props.Integers
import Verif.Props.Lifecycle
import Verif.Props.Lu
import Verif.Props.LuCatch
import Verif.Props.LuCatchBlocked
import Verif.Props.LuRowBinary
import Verif.Props.LuSafe
import Verif.Props.MakePosDef
import Verif.Props.MatrixForm
import Verif.Props.NanProp
import Verif.Props.PanelAssign
import Verif.Props.PanelRandom
import Verif.Props.Parametric
import Verif.Props.ParametricLu
import Verif.Props.ParametricVec
import Verif.Props.Potrf
import Verif.Props.PotrfUpper
import Verif.Props.Reference
import Verif.Props.ReferenceAccuracy
import Verif.Props.ReferenceTrmm
import Verif.Props.Register
import Verif.Props.Relations
import Verif.Props.Reproducible
import Verif.Props.Scaling
import Verif.Props.Selection
import Verif.Props.Simd
import Verif.Props.SizeArith
import Verif.Props.Solve
import Verif.Props.StaticVec
import Verif.Props.Storage
import Verif.Props.Syrk
import Verif.Props.Testing
import Verif.Props.Threads
import Verif.Props.Tile
import Verif.Props.Transpose
import Verif.Props.TransposeRandom
import Verif.Props.Trmm
import Verif.Props.TrmmUsed
import Verif.Props.TrsmDense
import Verif.Props.ViewAlgos
import Verif.Props.Views
import Verif.RealArith
import Verif.Reference
import Verif.ReferenceTrmm
import Verif.RegLemmas
import Verif.RegLower
import Verif.RegMat
import Verif.RegTri
import Verif.Relations
import Verif.RoundEven
import Verif.Rounding
import Verif.RoundingBinary
import Verif.RowTiles
import Verif.Scaling
import Verif.Selection
import Verif.Simd
import Verif.SimdLoops
import Verif.SizeArith
import Verif.Spec
import Verif.StaticVec
import Verif.Syrk
import Verif.Testing
import Verif.Threads
import Verif.ThreadsLemmas
import Verif.Tile
import Verif.TileLemmas
import Verif.Trmm
import Verif.TrsmDense
import Verif.VecObj
import Verif.VecPointer
import Verif.Views
