import Verif.Lemmas.AGraph
import Verif.Lemmas.AdjMatrix
import Verif.Lemmas.Approx
import Verif.Lemmas.Bits
import Verif.Lemmas.Bytes
import Verif.Lemmas.CApi
import Verif.Lemmas.CCodec
import Verif.Lemmas.CGraph
import Verif.Lemmas.Compress
import Verif.Lemmas.Extremes
import Verif.Lemmas.F32
import Verif.Lemmas.F64
import Verif.Lemmas.F64Text
import Verif.Lemmas.F64Wide
import Verif.Lemmas.Graph
import Verif.Lemmas.GraphCodec
import Verif.Lemmas.Grid
import Verif.Lemmas.HMap
import Verif.Lemmas.Ieee
import Verif.Lemmas.IntText
import Verif.Lemmas.Machines
import Verif.Lemmas.MapValues
import Verif.Lemmas.NoNul
import Verif.Lemmas.Pool
import Verif.Lemmas.PoolLarge
import Verif.Lemmas.PoolVal
import Verif.Lemmas.Py
import Verif.Lemmas.PySim
import Verif.Lemmas.Reach
import Verif.Lemmas.Scripts
import Verif.Lemmas.ScriptsMod
import Verif.Lemmas.SqMatrix
import Verif.Lemmas.SqText
import Verif.Lemmas.TextChars
import Verif.Lemmas.TextPanic
import Verif.Lemmas.TextSpill
import Verif.Lemmas.TextTotal
import Verif.Lemmas.TextWrong
import Verif.Lemmas.Work
import Verif.Model.Abi
import Verif.Model.AdjMatrix
import Verif.Model.CApi
import Verif.Model.CSteps
import Verif.Model.Compressed
import Verif.Model.Demo
import Verif.Model.Display
import Verif.Model.F32
import Verif.Model.F64
import Verif.Model.F64Fmt
import Verif.Model.Graph
import Verif.Model.Packaging
import Verif.Model.Pool
import Verif.Model.Py
import Verif.Model.PyArgs
import Verif.Model.PyCopy
import Verif.Model.Reach
import Verif.Model.Scripts
import Verif.Model.Signed
import Verif.Model.SqMatrix
import Verif.Model.Std
import Verif.Model.Util
import Verif.Model.Work
import Verif.Props.Abi
import Verif.Props.Aborts
import Verif.Props.Addresses
import Verif.Props.Blocks
import Verif.Props.Buffers
import Verif.Props.Builder
import Verif.Props.CApi
import Verif.Props.CCodec
import Verif.Props.CInjective
import Verif.Props.COrders
import Verif.Props.CSafety
import Verif.Props.CSize
import Verif.Props.CUndef
import Verif.Props.Codec
import Verif.Props.Compress
import Verif.Props.Congruence
import Verif.Props.Counting
import Verif.Props.Cutoff
import Verif.Props.Damage
import Verif.Props.Deciding
import Verif.Props.DecodeErrors
import Verif.Props.Demo
import Verif.Props.Edits
import Verif.Props.F32
import Verif.Props.FloatText
import Verif.Props.Gc
import Verif.Props.History
import Verif.Props.Ieee
import Verif.Props.Images
import Verif.Props.Locality
import Verif.Props.Losses
import Verif.Props.Machines
import Verif.Props.MachinesC
import Verif.Props.MachinesPy
import Verif.Props.Matrices
import Verif.Props.Metamorphic
import Verif.Props.Orders
import Verif.Props.Overlap
import Verif.Props.Packaging
import Verif.Props.Parts
import Verif.Props.PartsC
import Verif.Props.Paths
import Verif.Props.Pipeline
import Verif.Props.Pooling
import Verif.Props.Py
import Verif.Props.PyArgs
import Verif.Props.PyCompress
import Verif.Props.PyCopy
import Verif.Props.PyOrders
import Verif.Props.PyText
import Verif.Props.Queries
import Verif.Props.Scripts
import Verif.Props.Sharp
import Verif.Props.Signed
import Verif.Props.Storage
import Verif.Props.Strings
import Verif.Props.TextAll
import Verif.Props.TextChars
import Verif.Props.TextExact
import Verif.Props.TextFloat
import Verif.Props.TextPanic
import Verif.Props.TextWidth
import Verif.Props.Threads
import Verif.Props.ThreadsAlone
import Verif.Props.Unchecked
import Verif.Props.Work
import Verif.Spec.AGraph
import Verif.Spec.Abi
import Verif.Spec.Addresses
import Verif.Spec.Blocks
import Verif.Spec.Buffers
import Verif.Spec.CApi
import Verif.Spec.COrders
import Verif.Spec.CSafety
import Verif.Spec.Checks
import Verif.Spec.Deciding
import Verif.Spec.F32
import Verif.Spec.Format
import Verif.Spec.Gc
import Verif.Spec.Grid
import Verif.Spec.History
import Verif.Spec.Ieee
import Verif.Spec.Images
import Verif.Spec.Losses
import Verif.Spec.Machines
import Verif.Spec.MachinesC
import Verif.Spec.MachinesPy
import Verif.Spec.Matrix
import Verif.Spec.Orders
import Verif.Spec.Overlap
import Verif.Spec.Packaging
import Verif.Spec.Parts
import Verif.Spec.PartsC
import Verif.Spec.Paths
import Verif.Spec.Py
import Verif.Spec.PyArgs
import Verif.Spec.PyOrders
import Verif.Spec.ResRel
import Verif.Spec.Scripts
import Verif.Spec.Storage
import Verif.Spec.TextFloat
import Verif.Spec.TextRoom
import Verif.Spec.Threads
import Verif.Validation.CTests
import Verif.Validation.DocTests
import Verif.Validation.PyTests
import Verif.Validation.RepoTests
