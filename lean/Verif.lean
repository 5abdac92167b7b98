import Verif.Basic
import Verif.Spec
import Verif.Model.Portable
import Verif.Model.Simd
import Verif.Model.Sse41
import Verif.Model.Avx2
import Verif.Proofs.Portable
import Verif.Proofs.Simd
import Verif.Proofs.Transposed
import Verif.Proofs.Sse41Compress
import Verif.Proofs.HashMany
import Verif.Proofs.HashMany4
import Verif.Proofs.HashManySse41
import Verif.Proofs.HashMany8
import Verif.Model.Platform
import Verif.Model.Lib
import Verif.Proofs.Tree
import Verif.Proofs.Lib
import Verif.Model.Api
import Verif.Proofs.Output
import Verif.Props.Ex
import Verif.Props.OneShot
import Verif.Props.Xof
import Verif.Props.Kernels
import Verif.Model.Hasher
import Verif.Model.World
import Verif.Proofs.Chunk
import Verif.Proofs.Hasher
import Verif.Proofs.World
import Verif.Props.Hasher
import Verif.Model.Reference
import Verif.Proofs.Reference
import Verif.Props.Reference
import Verif.Model.Python
import Verif.Proofs.Python
import Verif.Props.Python
import Verif.SpecText
import Verif.Model.Hash
import Verif.Model.Copy
import Verif.Model.Cli
import Verif.Proofs.Hash
import Verif.Proofs.Cli
import Verif.Props.Hash
import Verif.Props.Copy
import Verif.Props.Cli
import Verif.Model.Simd512
import Verif.Model.SimdNeon
import Verif.Model.C.Impl
import Verif.Model.C.Portable
import Verif.Model.C.Sse41
import Verif.Model.C.Avx2
import Verif.Model.C.Avx512
import Verif.Model.C.Neon
import Verif.SpecMany
import Verif.Proofs.C.Basic
import Verif.Proofs.C.Kernel
import Verif.Proofs.C.Sse41
import Verif.Proofs.C.Avx2
import Verif.Proofs.C.Neon
import Verif.Proofs.C.Avx512
import Verif.Props.C
import Verif.Model.C.Hasher
import Verif.Proofs.C.Chunk
import Verif.Proofs.C.Hasher
import Verif.Props.CHasher
import Verif.SpecCalls
import Verif.Model.Trace
import Verif.Proofs.Collide
import Verif.Proofs.Erase
import Verif.Proofs.Trace
import Verif.Proofs.TraceHasher
import Verif.Proofs.TraceApi
import Verif.Props.Trace
import Verif.Model.Rayon
import Verif.Proofs.Rayon
import Verif.Props.Rayon
import Verif.Spec64
import Verif.Model.Simd64
import Verif.Model.Portable64
import Verif.Model.C64.Impl
import Verif.Model.C64.Portable
import Verif.Model.C64.Sse41
import Verif.Model.C64.Avx2
import Verif.Model.C64.Avx512
import Verif.Model.C64.Neon
import Verif.Proofs.C64.Portable
import Verif.Proofs.C64.Transposed
import Verif.Proofs.C64.HashMany
import Verif.Proofs.C64.Basic
import Verif.Proofs.C64.Kernel
import Verif.Proofs.C64.Simd
import Verif.Proofs.C64.Sse41
import Verif.Proofs.C64.Avx2
import Verif.Proofs.C64.Neon
import Verif.Proofs.C64.Compress
import Verif.Proofs.C64.Avx512
import Verif.Props.C64
import Verif.Proofs.Inject
import Verif.Props.Distinct
import Verif.Proofs.Oblivious
import Verif.Props.Oblivious
import Verif.Model.Depth
import Verif.Proofs.Depth
import Verif.Props.Depth
import Verif.SpecBlake2
import Verif.Model.PythonTest
import Verif.Proofs.Blake2
import Verif.Props.Blake2
import Verif.Model.Stdout
import Verif.Model.CliIo
import Verif.Proofs.Stdout
import Verif.Proofs.CliIo
import Verif.Props.CliIo
import Verif.Model.Build
import Verif.Props.Build
import Verif.Model.Isa
import Verif.Proofs.EraseIsa
import Verif.Proofs.Isa
import Verif.Props.Isa
import Verif.SpecLanes
import Verif.Proofs.Lanes
import Verif.Props.Lanes
import Verif.SpecOrder
import Verif.Proofs.C.NeonOrder
import Verif.Proofs.C.OrderHasher
import Verif.Props.Order
import Verif.SpecLong
import Verif.Proofs.C.Long
import Verif.Props.CExports
import Verif.Proofs.Perf
import Verif.Props.Perf
import Verif.SpecCost
import Verif.Proofs.Copies
import Verif.Props.Cost
import Verif.Model.C.Trace
import Verif.Proofs.C.Ends
import Verif.Proofs.C.Erase
import Verif.Proofs.C.TraceChunk
import Verif.Proofs.C.TraceHasher
import Verif.Props.CTrace
import Verif.Model.PythonCompare
import Verif.Props.Agree
import Verif.SpecSpan
import Verif.Model.Par
import Verif.Proofs.Par
import Verif.Props.Par
import Verif.Proofs.C.Oblivious
import Verif.Props.CObl
import Verif.Model.RustTest
import Verif.Props.RustTest
import Verif.Props.CCost
import Verif.Model.C.Isa
import Verif.SpecCLanes
import Verif.Proofs.C.EraseIsa
import Verif.Proofs.C.Lanes
import Verif.Proofs.C.Copies
import Verif.Props.CLanes
import Verif.Model.UnitTest
import Verif.Props.UnitTest
import Verif.Props.UnitTestCli
import Verif.SpecExtract
import Verif.Proofs.Extract
import Verif.Props.Extract
import Verif.Model.Bench
import Verif.Props.Bench
import Verif.Model.TraceRef
import Verif.SpecCallsRef
import Verif.Proofs.TraceRef
import Verif.Proofs.TraceRefLog
import Verif.Proofs.TracePyLog
import Verif.Props.TraceRef
import Verif.Model.Release
import Verif.Proofs.RelHashMany
import Verif.Proofs.RelLe
import Verif.Proofs.RelHasher
import Verif.Proofs.RelRef
import Verif.Props.Release
import Verif.Proofs.C.HasherBig
import Verif.Props.CHasherBig
import Verif.SpecTable
import Verif.Proofs.C.Table
import Verif.Props.CTable
import Verif.Proofs.C.HasherExact
import Verif.Props.CHasherExact
import Verif.Proofs.C64.NeonOrder
import Verif.Props.Order64
import Verif.Props.HasherExact
import Verif.SpecSchedule
import Verif.Model.ParIsa
import Verif.Proofs.ParIsa
import Verif.Props.Schedule
import Verif.Model.Fmt
import Verif.Props.Fmt
import Verif.Model.CopyStep
import Verif.Props.CopyStep
import Verif.SpecParents
import Verif.Proofs.Parents
import Verif.Props.Parents
import Verif.Model.C.Pointer
import Verif.Proofs.C.Pointer
import Verif.Props.CPointer
import Verif.SpecOracle
import Verif.Proofs.Count
import Verif.Proofs.Oracle
import Verif.Props.Ideal
import Verif.Proofs.Prf
import Verif.Proofs.Keyed
import Verif.Proofs.KeyedCount
import Verif.Props.Secret
import Verif.SpecSim
import Verif.Proofs.Caught
import Verif.Proofs.Indiff
import Verif.Proofs.IndiffCount
import Verif.Proofs.Simulator
import Verif.Props.Indiff
import Verif.Proofs.Inserted
import Verif.Props.Prefix
import Verif.Props.Second
import Verif.Proofs.Users
import Verif.Props.Users
import Verif.Props.Derived
import Verif.Model.Decl
import Verif.Props.Decl
import Verif.Model.Steps
import Verif.Proofs.Steps
import Verif.Props.Steps
import Verif.Model.StepsLib
import Verif.Proofs.StepsLib
import Verif.Proofs.Operations
import Verif.Props.StepsLib
import Verif.Props.BuildRun
import Verif.StepsSpec
import Verif.Proofs.ExactSteps
import Verif.Proofs.VectorOps
import Verif.Props.StepsExact
import Verif.Props.Verify
import Verif.Model.StepsHash
import Verif.Props.StepsHash
import Verif.Props.Short
import Verif.Props.Guess
import Verif.Props.Paint
