import Verif.Spec.Decimal
import Verif.Model.Names
import Verif.Props.C01_Names
import Verif.Props.C03_Shapes
import Verif.Props.C05_Seeds
import Verif.Model.Graph
import Verif.Props.GraphInv
import Verif.Props.GraphEdits
import Verif.Props.GraphReplaceAll
import Verif.Props.C06_Lookup
import Verif.Spec.Semantics
import Verif.Spec.Tensor
import Verif.Spec.TensorOps
import Verif.Props.Exec
import Verif.Model.TopoSort
import Verif.Props.C11_Topo
import Verif.Model.Prune
import Verif.Props.C10_Prune
import Verif.Props.C09_ReplaceAll
import Verif.Props.C04_DepSort
import Verif.Props.Ranked
import Verif.Model.IdentityOpt
import Verif.Props.C13_Identity
import Verif.Model.MergeDup
import Verif.Model.Construct
import Verif.Props.C14_Merge
import Verif.Props.C12_Construct
import Verif.Model.TransposeOpt
import Verif.Model.ConstFold
import Verif.Props.C16_Transpose
import Verif.Props.C19_Push
import Verif.Props.C19_Unsqueeze
import Verif.Props.C19_Push2
import Verif.Props.C18_Reshape
import Verif.Props.C15_ConstFold
import Verif.Props.C17_Cast
import Verif.Props.C23_Registry
import Verif.Props.C20_Driver
import Verif.Props.C25_Decode
import Verif.Props.C24_External
import Verif.Props.C29_Flex
import Verif.Props.C30_Padding
import Verif.Props.C31_SliceOps
import Verif.Model.Rename
import Verif.Props.C38_Rename
import Verif.Model.Matcher
import Verif.Props.C21_Matcher
import Verif.Props.C22_Symbolic
import Verif.Props.C41_ReshapeOpt
import Verif.Model.NestedGraph
import Verif.Props.C08_Nested
import Verif.Model.ShapeInf
import Verif.Props.C36_ShapeInf
import Verif.Model.ConvBatchNorm
import Verif.Props.C42_ConvBN
import Verif.Model.QDQ
import Verif.Props.QDQBase
import Verif.Props.QDQUp
import Verif.Props.QDQUp2
import Verif.Props.QDQUp3
import Verif.Props.QDQUp4
import Verif.Props.QDQDown
import Verif.Props.QDQDown2
import Verif.Props.QDQDown3
import Verif.Props.C43_QDQ
import Verif.Model.Rewriters
import Verif.Props.RewriteBase
import Verif.Props.RewriteDup
import Verif.Props.MatchFacts
import Verif.Props.C44_LeakyRelu
import Verif.Props.C44_Examples
import Verif.Props.C45_Thresholded
import Verif.Props.HandlerBase
import Verif.Spec.Elem
import Verif.Model.Handlers
import Verif.Model.HandlerActs
import Verif.Model.HandlersElem
import Verif.Spec.ElemOps
import Verif.Props.HandlerKit
import Verif.Props.HandlerActs
import Verif.Props.HandlerSite
import Verif.Props.HandlerExamples
import Verif.Props.ElemWitness
import Verif.Props.C49_Unary
import Verif.Props.C49_Binary
import Verif.Props.C49_Examples
import Verif.Props.C46_FloorOps
import Verif.Props.C46_Examples
import Verif.Props.C47_Compare
import Verif.Props.C47_Examples
import Verif.Props.Tables
import Verif.Model.Mapping
import Verif.Props.C48_Mapping
import Verif.Props.C48_Table
import Verif.Props.C48_Examples
import Verif.Model.ControlFlow
import Verif.Spec.ControlFlow
import Verif.Props.CFPrefix
import Verif.Props.CFBind
import Verif.Props.CFSem
import Verif.Props.C50_If
import Verif.Props.CFInline
import Verif.Props.C51_Body
import Verif.Props.C51_Loop
import Verif.Props.CFWhile
import Verif.Props.CFWhileParts
import Verif.Props.C51_While
import Verif.Props.C50_Examples
import Verif.Props.C50_Violations
import Verif.Props.Frame
import Verif.Props.C52_Tidy
import Verif.Model.Pipeline
import Verif.Props.C52_Pipeline
import Verif.Props.C52_Convert
import Verif.Props.C52_Examples
import Verif.Spec.AxisOps
import Verif.Model.HandlersAxis
import Verif.Props.C53_Base
import Verif.Props.C53_Reduce
import Verif.Props.C53_Tensor
import Verif.Props.C53_Shape
import Verif.Props.C53_Expand
import Verif.Props.C53_AllAny
import Verif.Props.C53_Concat
import Verif.Props.AxisWitness
import Verif.Props.C53_Examples
import Verif.Props.C53_Violations
import Verif.Spec.OnnxEval
import Verif.Spec.TfRearrange
import Verif.Model.Rearrange
import Verif.Props.EmitKit
import Verif.Props.EmitVec
import Verif.Props.C54_Reverse
import Verif.Props.C55_Blocks
import Verif.Props.C55_Kit
import Verif.Props.C55_Gen
import Verif.Props.C55_GenBack
import Verif.Props.C55_Fast
import Verif.Props.C55_SpaceBatch
import Verif.Spec.Rnn
import Verif.Model.Rnn
import Verif.Props.C56_Kit
import Verif.Props.C56_Lstm
import Verif.Props.C56_LstmMain
import Verif.Props.C56_Gru
import Verif.Props.C56_Stack
import Verif.Props.C56_Bi
import Verif.Props.C56_Examples
import Verif.Props.C57_Kit
import Verif.Props.C57_Geom
import Verif.Props.C57_Conv
import Verif.Props.C57_Depthwise
import Verif.Props.C58_Pool
import Verif.Props.C57_Examples
import Verif.Model.ConvDilations
import Verif.Props.C59_Window
import Verif.Props.C59_Dilations
import Verif.Props.C59_Examples
import Verif.Spec.ConvTranspose
import Verif.Model.ConvTranspose
import Verif.Props.C60_Transpose
import Verif.Props.C60_Dynamic
import Verif.Props.C60_Examples
import Verif.Spec.PoolOps
import Verif.Spec.QuantOps
import Verif.Model.SmallOpts
import Verif.Props.OptPass
import Verif.Props.C61_Pool
import Verif.Props.C61_Upsample
import Verif.Props.C61_Move
import Verif.Props.C61_Examples
import Verif.Spec.Einsum
import Verif.Model.Einsum
import Verif.Props.C62_Sum
import Verif.Props.C62_Align
import Verif.Props.C62_Perm
import Verif.Props.C62_Dot
import Verif.Props.C62_Batch
import Verif.Props.C62_Step
import Verif.Props.C62_Loop
import Verif.Props.C62_Rename
import Verif.Props.C62_Merge
import Verif.Props.C62_Einsum
import Verif.Props.C62_Text
import Verif.Props.C62_Handler
import Verif.Props.EditTotal
import Verif.Props.HandlerTotal
import Verif.Props.MappingTotal
import Verif.Props.ElemTotal
import Verif.Props.C52_Total
import Verif.Props.C63_Examples
import Verif.Spec.VecOps
import Verif.Spec.Ragged
import Verif.Model.Ragged
import Verif.Model.SparseOps
import Verif.Props.C64_Cells
import Verif.Props.C64_Paths
import Verif.Props.C64_Lookup
import Verif.Props.C64_Blocks
import Verif.Props.C64_RowIds
import Verif.Props.C64_Dense
import Verif.Props.C64_Gather
import Verif.Props.C64_Range
import Verif.Props.C64_Sparse
import Verif.Props.C64_Examples
import Verif.Spec.IndexOps
import Verif.Spec.TfIndex
import Verif.Model.IndexOps
import Verif.Props.C65_Count
import Verif.Props.C65_Stitch
import Verif.Props.C65_OneHot
import Verif.Props.C65_Diag
import Verif.Props.C65_Sets
import Verif.Props.C65_SetOps
import Verif.Props.C65_Examples
import Verif.Props.C65_Unique
import Verif.Spec.PatternOps
import Verif.Model.PatternRewriters
import Verif.Props.C66_Broadcast
import Verif.Props.C66_Gemm
import Verif.Props.C66_Shapes
import Verif.Props.C66_ConvPad
import Verif.Props.C66_ConvBias
import Verif.Props.C66_Norm
import Verif.Props.C66_Random
import Verif.Spec.Quantize
import Verif.Model.QuantRewriter
import Verif.Props.C67_Round
import Verif.Props.C67_Qdq
import Verif.Props.C67_Fake
import Verif.Spec.ScanOps
import Verif.Spec.Atan2
import Verif.Model.ScanOps
import Verif.Model.Atan2
import Verif.Props.C68_Cumprod
import Verif.Props.C68_Generate
import Verif.Props.C68_Mask
import Verif.Props.C68_Select
import Verif.Props.C68_Atan2
import Verif.Spec.CondFlow
import Verif.Model.CondRewriter
import Verif.Props.C69_Worklist
import Verif.Props.C69_Eval
import Verif.Props.C69_Step
import Verif.Props.C69_Body
import Verif.Props.C69_Run
import Verif.Props.C69_Examples
import Verif.Spec.WhileFlow
import Verif.Model.LoopRewriter
import Verif.Props.C70_Kit
import Verif.Props.C70_Step
import Verif.Props.C70_Vars
import Verif.Props.C70_Body
import Verif.Props.C70_Loop
import Verif.Props.C70_New
import Verif.Props.C70_Inv
import Verif.Props.C70_Run
import Verif.Props.C70_Examples
import Verif.Spec.Fourier
import Verif.Model.Fourier
import Verif.Props.C71_Kit
import Verif.Props.C71_Rfft
import Verif.Props.C71_Main
import Verif.Props.C71_Abs
import Verif.Props.C71_Rfft2d
import Verif.Props.C71_Main2d
import Verif.Spec.Softmax
import Verif.Model.Softmax
import Verif.Props.C72_Kit
import Verif.Props.C72_Softmax
import Verif.Props.C72_Main
import Verif.Props.C72_Sparse
import Verif.Spec.Bits
import Verif.Model.Bits
import Verif.Props.C73_Shift
import Verif.Spec.Colour
import Verif.Model.Colour
import Verif.Props.C74_Saturation
import Verif.Props.C74_Main
import Verif.Props.C74_Hue
import Verif.Spec.Channels
import Verif.Model.Channels
import Verif.Props.C75_Blocks
import Verif.Props.C75_Lrn
import Verif.Props.C75_Stretch
import Verif.Props.C75_Norm
import Verif.Props.C75_Batch
import Verif.Spec.Resize
import Verif.Model.Resize
import Verif.Props.C76_Taps
import Verif.Props.C76_Resize
import Verif.Props.C76_Sound
import Verif.Props.C76_Defects
import Verif.Spec.Crop
import Verif.Model.Crop
import Verif.Props.C77_Crop
import Verif.Props.C77_Examples
import Verif.Spec.Stack
import Verif.Model.Stack
import Verif.Props.C78_Stack
import Verif.Props.C78_TopK
import Verif.Spec.Patches
import Verif.Model.Patches
import Verif.Props.C79_Patches
import Verif.Props.C79_Examples
import Verif.Spec.Argmax
import Verif.Model.Argmax
import Verif.Props.C80_Argmax
import Verif.Props.C80_Examples
import Verif.Spec.Greedy
import Verif.Model.Greedy
import Verif.Props.C81_Greedy
import Verif.Props.C81_Examples
import Verif.Spec.Nms
import Verif.Model.Nms
import Verif.Props.C82_Nms
import Verif.Props.C82_Examples
import Verif.Props.C82_Combined
import Verif.Props.C82_CombinedExamples
import Verif.Spec.Detection
import Verif.Model.Detection
import Verif.Props.C83_Detection
import Verif.Props.C83_Examples
import Verif.Spec.Distort
import Verif.Model.Distort
import Verif.Props.C84_Distort
import Verif.Props.C84_Examples
