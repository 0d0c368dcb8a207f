import Verif.Base
import Verif.Lemmas.BHError
import Verif.Lemmas.BSMachine
import Verif.Lemmas.BSMachine2
import Verif.Lemmas.Begins
import Verif.Lemmas.BeginsAgree
import Verif.Lemmas.Bench
import Verif.Lemmas.Buf
import Verif.Lemmas.BulirschStoer
import Verif.Lemmas.Butcher
import Verif.Lemmas.ButcherExact
import Verif.Lemmas.Circle
import Verif.Lemmas.Compressor
import Verif.Lemmas.Converge
import Verif.Lemmas.ConvergeRK
import Verif.Lemmas.ConvergeSchemes
import Verif.Lemmas.ConvergeSteps
import Verif.Lemmas.DataIO
import Verif.Lemmas.Decimal
import Verif.Lemmas.DenseKernel
import Verif.Lemmas.Determined
import Verif.Lemmas.Drift
import Verif.Lemmas.EngineAH
import Verif.Lemmas.EngineBH
import Verif.Lemmas.EngineBlock
import Verif.Lemmas.EngineSimple
import Verif.Lemmas.FactoryAgree
import Verif.Lemmas.Feagin10
import Verif.Lemmas.Feagin12
import Verif.Lemmas.Feagin14
import Verif.Lemmas.FloatForce
import Verif.Lemmas.Forgetful
import Verif.Lemmas.GpuBH
import Verif.Lemmas.GpuBHEngine
import Verif.Lemmas.GpuInit
import Verif.Lemmas.GpuKernel
import Verif.Lemmas.GpuMax
import Verif.Lemmas.GpuOps
import Verif.Lemmas.GpuRefresh
import Verif.Lemmas.GpuTree
import Verif.Lemmas.GpuWalk
import Verif.Lemmas.HeapRebuild
import Verif.Lemmas.HostOps
import Verif.Lemmas.Leapfrog
import Verif.Lemmas.Lifecycle
import Verif.Lemmas.Main
import Verif.Lemmas.Motion
import Verif.Lemmas.MultiDevice
import Verif.Lemmas.Neville
import Verif.Lemmas.NewtonLipschitz
import Verif.Lemmas.Oracle
import Verif.Lemmas.OrderAdams
import Verif.Lemmas.OrderApprox
import Verif.Lemmas.OrderCheck
import Verif.Lemmas.OrderPair
import Verif.Lemmas.OrderRK
import Verif.Lemmas.OrderSchemes
import Verif.Lemmas.OrderSteps
import Verif.Lemmas.Par
import Verif.Lemmas.ParEngine
import Verif.Lemmas.Prog
import Verif.Lemmas.RealVec
import Verif.Lemmas.RelErr
import Verif.Lemmas.Resume
import Verif.Lemmas.ResumeMain
import Verif.Lemmas.RoundCalls
import Verif.Lemmas.RoundCorr
import Verif.Lemmas.RoundCorrSteps
import Verif.Lemmas.RoundEngines
import Verif.Lemmas.RoundMulti
import Verif.Lemmas.RoundPair
import Verif.Lemmas.RoundSolvers
import Verif.Lemmas.RoundSteps
import Verif.Lemmas.Run
import Verif.Lemmas.Sharp
import Verif.Lemmas.SharpAdams
import Verif.Lemmas.SharpRK
import Verif.Lemmas.SharpTables
import Verif.Lemmas.Sim
import Verif.Lemmas.SimExample
import Verif.Lemmas.SimPrograms
import Verif.Lemmas.SimRun
import Verif.Lemmas.SmoothGravity
import Verif.Lemmas.SolverCalls
import Verif.Lemmas.SolverMachine
import Verif.Lemmas.SolverMachine2
import Verif.Lemmas.SolverOps
import Verif.Lemmas.SpaceHeap
import Verif.Lemmas.SpaceTree
import Verif.Lemmas.StreamCrash
import Verif.Lemmas.StreamExample
import Verif.Lemmas.StreamLoad
import Verif.Lemmas.StreamRead
import Verif.Lemmas.StreamSession
import Verif.Lemmas.StreamText
import Verif.Lemmas.StreamWrite
import Verif.Lemmas.Sums
import Verif.Lemmas.TallTrees
import Verif.Lemmas.Traverse
import Verif.Lemmas.Vec3Group
import Verif.Lemmas.VecNorm
import Verif.Lemmas.View
import Verif.Model.Bench
import Verif.Model.BulirschStoer
import Verif.Model.ButcherTables
import Verif.Model.Compressor
import Verif.Model.DataIO
import Verif.Model.Devices
import Verif.Model.EngineAH
import Verif.Model.EngineBH
import Verif.Model.EngineBlock
import Verif.Model.EngineSimple
import Verif.Model.Factory
import Verif.Model.FeaginTables
import Verif.Model.FloatClock
import Verif.Model.FrameTime
import Verif.Model.GpuBH
import Verif.Model.GpuInit
import Verif.Model.GpuKernel
import Verif.Model.GpuMax
import Verif.Model.GpuOps
import Verif.Model.HeapIndex
import Verif.Model.Lifecycle
import Verif.Model.Main
import Verif.Model.Mem
import Verif.Model.MultiDevice
import Verif.Model.Par
import Verif.Model.Player
import Verif.Model.PlayerControl
import Verif.Model.PlayerStream
import Verif.Model.RealScalar
import Verif.Model.Reduction
import Verif.Model.Run
import Verif.Model.Sim
import Verif.Model.SolverCalls
import Verif.Model.SolverOps
import Verif.Model.Solvers
import Verif.Model.SpaceHeap
import Verif.Model.SpaceTree
import Verif.Model.Statistics
import Verif.Model.Stream
import Verif.Model.StreamFaults
import Verif.Model.Summation
import Verif.Model.TextNumber
import Verif.Model.Texture
import Verif.Model.TreeOps
import Verif.Model.Universe
import Verif.Model.Vec3
import Verif.Model.Video
import Verif.Model.View
import Verif.Props.C01_Force
import Verif.Props.C02_DirectSum
import Verif.Props.C03_OpenMP
import Verif.Props.C04_Block
import Verif.Props.C05_AhmadCohen
import Verif.Props.C06_RoundTrip
import Verif.Props.C07_Fmadd
import Verif.Props.C08_Kahan
import Verif.Props.C09_MaxAbs
import Verif.Props.C10_Clamp
import Verif.Props.C11_Diagnostics
import Verif.Props.C12_LinearInvariants
import Verif.Props.C13_Clock
import Verif.Props.C14_AdamsRing
import Verif.Props.C15_AdamsOrder
import Verif.Props.C16_Butcher
import Verif.Props.C17_Tables
import Verif.Props.C18_Orders
import Verif.Props.C19_Adaptive
import Verif.Props.C20_ZeroSubdivisions
import Verif.Props.C21_Neville
import Verif.Props.C22_Berrut
import Verif.Props.C23_BulirschStoer
import Verif.Props.C24_Stetter
import Verif.Props.C25_Partition
import Verif.Props.C26_Summaries
import Verif.Props.C27_HeapBounds
import Verif.Props.C28_Accounting
import Verif.Props.C29_SelfAttraction
import Verif.Props.C30_DirectSum
import Verif.Props.C31_Stackless
import Verif.Props.C32_NextDown
import Verif.Props.C33_HeapVisitor
import Verif.Props.C33_Visitor
import Verif.Props.C34_Schedule
import Verif.Props.C35_RunLoop
import Verif.Props.C36_DumpSchedule
import Verif.Props.C37_StreamRoundTrip
import Verif.Props.C38_StreamParts
import Verif.Props.C39_StreamResume
import Verif.Props.C40_StreamCrash
import Verif.Props.C41_StreamReader
import Verif.Props.C42_WriterReuse
import Verif.Props.C43_ReaderReuse
import Verif.Props.C44_TextRoundTrip
import Verif.Props.C45_TextLoader
import Verif.Props.C46_Zeno
import Verif.Props.C47_Universe
import Verif.Props.C48_Args
import Verif.Props.C49_EngineFactory
import Verif.Props.C50_SolverFactory
import Verif.Props.C51_AllGather
import Verif.Props.C52_AllReduce
import Verif.Props.C53_PlayerColor
import Verif.Props.C54_IsEqual
import Verif.Props.C55_Buffers
import Verif.Props.C56_GpuRefresh
import Verif.Props.C57_Feagin
import Verif.Props.C58_Gradient
import Verif.Props.C59_HeapReuse
import Verif.Props.C60_Layouts
import Verif.Props.C62_StreamNames
import Verif.Props.C63_LoadInitial
import Verif.Props.C64_KahanError
import Verif.Props.C65_Implicit
import Verif.Props.C66_Lifecycle
import Verif.Props.C67_ResumedRun
import Verif.Props.C68_Options
import Verif.Props.C68_Program
import Verif.Props.C69_Interchangeable
import Verif.Props.C70_DenseKernel
import Verif.Props.C71_Devices
import Verif.Props.C72_GpuTree
import Verif.Props.C73_GpuMaxAbs
import Verif.Props.C74_SolversOnEngines
import Verif.Props.C75_Player
import Verif.Props.C76_Images
import Verif.Props.C77_View
import Verif.Props.C78_Converge
import Verif.Props.C79_ForceRounding
import Verif.Props.C80_BHError
import Verif.Props.C81_TreeSolvers
import Verif.Props.C82_Order
import Verif.Props.C83_Frames
import Verif.Props.C84_Sharp
import Verif.Props.C85_Rounded
import Verif.Props.C85_RoundedMulti
import Verif.Props.C86_BodiesInOut
import Verif.Props.C87_Corrected
import Verif.Props.C88_CentreMotion
import Verif.Props.C88_Statistics
import Verif.Props.C89_PlayerControl
import Verif.Props.C90_DiskFull
import Verif.Props.C91_Conservation
import Verif.Props.C92_Bench
import Verif.Props.C93_Video
import Verif.Props.C94_TextNumbers
import Verif.Props.C95_FrameTimes
import Verif.Props.C96_Textures
import Verif.Props.C97_FloatClock
import Verif.Spec.Decimal
import Verif.Spec.Factory
import Verif.Spec.FloatModel
import Verif.Spec.Frame
import Verif.Spec.Gravity
import Verif.Spec.Machine
import Verif.Spec.Motion
import Verif.Spec.OrderWithin
import Verif.Spec.Outcome
import Verif.Spec.Program
import Verif.Spec.Rounding
import Verif.Spec.Run
import Verif.Spec.RungeKutta
import Verif.Spec.SpaceHeap
import Verif.Spec.SpaceTree
import Verif.Spec.Stream
import Verif.Spec.TextData
