import Verif.Base
import Verif.Model.EngineBH
import Verif.Model.Stream

/-
The command line (/repo/nbody/nbody_arg_parser.cpp), the engine factory (/repo/nbody/nbody_engines.cpp) and
the solver factory (/repo/nbody/nbody_solvers.cpp).
-/

namespace NB

/-- `QVariantMap`.  Simplification: only lookup is modelled, not the order of the keys.
(/repo/nbody/nbody_engines.cpp:4, /repo/nbody/nbody_solvers.cpp:4,17,23.) -/
abbrev Params (V : Type) := String → Option V

/-- `param[k] = v` of `QVariantMap`, as in /repo/nbody/nbody_arg_parser.cpp:24 and
/repo/nbody/nbody_solvers.cpp:24. -/
def Params.insert {V : Type} (p : Params V) (k : String) (v : V) : Params V :=
  fun k' => if k' = k then some v else p k'

/-- /repo/nbody/nbody_arg_parser.cpp:12-24: one iteration of the loop (`splitOn` is `QString::split`, empty pieces kept).
Simplification: the argument is already decoded to characters. -/
def parseArgument (param : Params String) (arg : String) : Params String :=
  if "--".toList.isPrefixOf arg.toList then
    match splitOn '=' (arg.toList.drop "--".toList.length) with
    | [k, v] => param.insert (String.ofList k) (String.ofList v)
    | _ => param
  else param

/-- /repo/nbody/nbody_arg_parser.cpp:5-28, `nbody_parse_arguments`; `argv` has `argc` elements and the loop
starts at index 1. -/
def parseArguments (argv : List String) : Params String :=
  (argv.drop 1).foldl parseArgument (fun _ => none)

/-- The conversions of `QVariant` the factories call, and the decimal literals `m * 10^e` of the code.  No
laws are assumed.  `toUInt` is 32 bit, `toULongLong` 64 bit unsigned, `toInt` 32 bit signed; Qt returns 0 for
texts it cannot read, which is a possible value of these functions.
(Called at /repo/nbody/nbody_engines.cpp:6-12,23-25,40-43,59-64,88-95,105-109,157-159 and in /repo/nbody/nbody_solvers.cpp.) -/
structure Conv (V D : Type) where
  toStr : V → String
  toUInt : V → Nat
  toULongLong : V → Nat
  toInt : V → Int
  toDouble : V → D
  toBool : V → Bool
  dec : Nat → Int → D

/-- `param.value(k, d).conv()`, used throughout /repo/nbody/nbody_engines.cpp and
/repo/nbody/nbody_solvers.cpp.  The conversion of the default, a literal of the target type, is the literal. -/
def Params.get {V α : Type} (p : Params V) (k : String) (conv : V → α) (d : α) : α :=
  match p k with
  | some v => conv v
  | none => d

/-- /repo/nbody/nbody_engine_simple_bh.h:13-20, `e_tree_layout`. -/
inductive TreeLayout where
  | tree
  | heap
  | heapStackless
  | unknown
  deriving DecidableEq, Repr

/-- /repo/nbody/nbody_engine_simple_bh.cpp:95-109, `tree_layout_name`. -/
def treeLayoutName : TreeLayout → String
  | .tree => "tree"
  | .heap => "heap"
  | .heapStackless => "heap_stackless"
  | .unknown => ""

/-- /repo/nbody/nbody_engine_simple_bh.cpp:111-127, `tree_layout_from_str`. -/
def treeLayoutFromStr (name : String) : TreeLayout :=
  if name = "tree" then .tree
  else if name = "heap" then .heap
  else if name = "heap_stackless" then .heapStackless
  else .unknown

/-- The engine objects of /repo/nbody/nbody_engines.cpp:4-193, with their constructor arguments and the
settings made by the factory. -/
inductive EngineDesc (D : Type) where
  | ah (rate : Nat) (maxDist minForce : D)
  | block
  | cuda (devices : String) (blockSize : Int) (nccl : Bool)
  | cudaBh (devices : String) (blockSize : Int) (nccl : Bool) (ratio : D) (rate : Nat)
  | cudaBhTex (devices : String) (blockSize : Int) (nccl : Bool) (ratio : D) (rate : Nat) (tl : TreeLayout)
  | opencl (devices : String) (blockSize : Int) (verbose prof : Bool)
  | openclBh (devices : String) (blockSize : Int) (verbose prof : Bool) (ratio : D) (tt : TraverseType)
      (rate : Nat) (tl : TreeLayout)
  | openmp
  | simple
  | simpleBhTree (ratio : D) (tt : TraverseType) (rate : Nat)
  | simpleBhHeap (ratio : D) (tt : TraverseType) (rate : Nat)
  | simpleBhHeapStackless (ratio : D) (tt : TraverseType) (rate : Nat)
  deriving DecidableEq

/-- `type_name()` of the engine classes: /repo/nbody/nbody_engine_ah.cpp:11, nbody_engine_block.cpp:9,
nbody_engine_cuda.cpp:86, nbody_engine_cuda_bh.cpp:45, nbody_engine_cuda_bh_tex.cpp:41,
nbody_engine_opencl.cpp:536, nbody_engine_opencl_bh.cpp:17, nbody_engine_openmp.cpp:14,
nbody_engine_simple.cpp:18, nbody_engine_simple_bh.cpp:146,165,184. -/
def EngineDesc.typeName {D : Type} : EngineDesc D → String
  | .ah .. => "nbody_engine_ah"
  | .block => "nbody_engine_block"
  | .cuda .. => "nbody_engine_cuda"
  | .cudaBh .. => "nbody_engine_cuda_bh"
  | .cudaBhTex .. => "nbody_engine_cuda_bh_tex"
  | .opencl .. => "nbody_engine_opencl"
  | .openclBh .. => "nbody_engine_opencl_bh"
  | .openmp => "nbody_engine_openmp"
  | .simple => "nbody_engine_simple"
  | .simpleBhTree .. => "nbody_engine_simple_bh_tree"
  | .simpleBhHeap .. => "nbody_engine_simple_bh_heap"
  | .simpleBhHeapStackless .. => "nbody_engine_simple_bh_heap_stackless"

/-- How the library was built and what the machine offers: `HAVE_CUDA`, `HAVE_OPENCL`
(/repo/nbody/nbody_engines.cpp:20, 91), and whether `select_devices` returns 0 for a device list
(/repo/nbody/nbody_engine_cuda.cpp:576-616, /repo/nbody/nbody_engine_opencl.cpp).  Device selection itself is
not modelled here. -/
structure Build where
  haveCuda : Bool
  haveOpencl : Bool
  cudaSelect : String → Bool
  openclSelect : String → Bool

section
variable {V D : Type}

/-- The `traverse_type` decision of /repo/nbody/nbody_engines.cpp:121-133 and 165-177; `none` is
`return NULL`. -/
def traverseFromStr (s : String) : Option TraverseType :=
  if s = "cycle" then some .cycle
  else if s = "nested_tree" then some .nestedTree
  else none

/-- /repo/nbody/nbody_engines.cpp:4-193, `nbody_create_engine`; `none` is the null pointer.  Simplification:
the order in which parameters are read is irrelevant (reading has no effect), only the order of the tests is
kept. -/
def createEngine (b : Build) (c : Conv V D) (param : Params V) : Option (EngineDesc D) :=
  let type := param.get "engine" c.toStr ""
  if type = "ah" then
    some (.ah (param.get "full_recompute_rate" c.toUInt 1000) (param.get "max_dist" c.toDouble (c.dec 10 0))
      (param.get "min_force" c.toDouble (c.dec 1 (-4))))
  else if type = "block" then some .block
  else if b.haveCuda ∧ type = "cuda" then
    let devices := param.get "device" c.toStr "0"
    if b.cudaSelect devices then
      some (.cuda devices (param.get "block_size" c.toInt 64) (param.get "use_nccl" c.toBool false))
    else none
  else if b.haveCuda ∧ type = "cuda_bh" then
    let devices := param.get "device" c.toStr "0"
    if b.cudaSelect devices then
      some (.cudaBh devices (param.get "block_size" c.toInt 64) (param.get "use_nccl" c.toBool false)
        (param.get "distance_to_node_radius_ratio" c.toDouble (c.dec 10 0))
        (param.get "tree_build_rate" c.toULongLong 0))
    else none
  else if b.haveCuda ∧ type = "cuda_bh_tex" then
    let devices := param.get "device" c.toStr "0"
    let tl := treeLayoutFromStr (param.get "tree_layout" c.toStr "heap")
    if tl ≠ .heap ∧ tl ≠ .heapStackless then none
    else if b.cudaSelect devices then
      some (.cudaBhTex devices (param.get "block_size" c.toInt 64) (param.get "use_nccl" c.toBool false)
        (param.get "distance_to_node_radius_ratio" c.toDouble (c.dec 10 0))
        (param.get "tree_build_rate" c.toULongLong 0) tl)
    else none
  else if b.haveOpencl ∧ type = "opencl" then
    let devices := param.get "device" c.toStr "0:0"
    if b.openclSelect devices then
      some (.opencl devices (param.get "block_size" c.toInt 64) (param.get "verbose" c.toInt 0 != 0)
        (param.get "oclprof" c.toInt 0 != 0))
    else none
  else if b.haveOpencl ∧ type = "opencl_bh" then
    let devices := param.get "device" c.toStr "0:0"
    let tl := treeLayoutFromStr (param.get "tree_layout" c.toStr "heap")
    if tl ≠ .heap ∧ tl ≠ .heapStackless then none
    else
      match traverseFromStr (param.get "traverse_type" c.toStr "cycle") with
      | none => none
      | some tt =>
        if b.openclSelect devices then
          some (.openclBh devices (param.get "block_size" c.toInt 64) (param.get "verbose" c.toInt 0 != 0)
            (param.get "oclprof" c.toInt 0 != 0)
            (param.get "distance_to_node_radius_ratio" c.toDouble (c.dec 10 0)) tt
            (param.get "tree_build_rate" c.toULongLong 0) tl)
        else none
  else if type = "openmp" then some .openmp
  else if type = "simple" then some .simple
  else if type = "simple_bh" then
    match traverseFromStr (param.get "traverse_type" c.toStr "cycle") with
    | none => none
    | some tt =>
      let ratio := param.get "distance_to_node_radius_ratio" c.toDouble (c.dec 10 0)
      let rate := param.get "tree_build_rate" c.toULongLong 0
      match treeLayoutFromStr (param.get "tree_layout" c.toStr "tree") with
      | .unknown => none
      | .tree => some (.simpleBhTree ratio tt rate)
      | .heap => some (.simpleBhHeap ratio tt rate)
      | .heapStackless => some (.simpleBhHeapStackless ratio tt rate)
  else none

/-- The Butcher-table solvers of /repo/nbody/nbody_solvers.cpp:56-90. -/
inductive RKKind where
  | rkck | rkdp | rkdverk | rkf | rkfeagin10 | rkfeagin12 | rkfeagin14 | rkgl | rklc
  deriving DecidableEq, Repr

/-- Settings made by `create_butcher_solver`, /repo/nbody/nbody_solvers.cpp:3-15. -/
structure RKSettings (D : Type) where
  threshold : D
  maxRecursion : Nat
  refine : Nat
  subdivisions : Nat
  correction : Bool
  deriving DecidableEq

/-- The settings every solver has: `m_min_step`, `m_max_step`, `m_clamp_to_box`
(/repo/nbody/nbody_solver.h:15-17). -/
structure StepSettings (D : Type) where
  minStep : D
  maxStep : D
  clamp : Bool
  deriving DecidableEq

/-- The solver objects of /repo/nbody/nbody_solvers.cpp:17-110. -/
inductive SolverDesc (D : Type) where
  | adams (starter : SolverDesc D) (rank : Nat) (correction : Bool) (st : StepSettings D)
  | bs (maxLevel : Nat) (threshold : D) (st : StepSettings D)
  | euler (st : StepSettings D)
  | midpoint (st : StepSettings D)
  | midpointSt (st : StepSettings D)
  | rk4 (st : StepSettings D)
  | rk (kind : RKKind) (rs : RKSettings D) (st : StepSettings D)
  | trapeze (refine : Nat) (st : StepSettings D)
  deriving DecidableEq

/-- `type_name()` of the Butcher-table solvers: /repo/nbody/nbody_solver_rkck.cpp:83,
nbody_solver_rkdp.cpp:84, nbody_solver_rkdverk.cpp:85, nbody_solver_rkf.cpp:92,
nbody_solver_rkfeagin10.cpp:289, nbody_solver_rkfeagin12.cpp:470, nbody_solver_rkfeagin14.cpp:792,
nbody_solver_rkgl.cpp:76, nbody_solver_rklc.cpp:75. -/
def RKKind.typeName : RKKind → String
  | .rkck => "nbody_solver_rkck"
  | .rkdp => "nbody_solver_rkdp"
  | .rkdverk => "nbody_solver_rkdverk"
  | .rkf => "nbody_solver_rkf"
  | .rkfeagin10 => "nbody_solver_rkfeagin10"
  | .rkfeagin12 => "nbody_solver_rkfeagin12"
  | .rkfeagin14 => "nbody_solver_rkfeagin14"
  | .rkgl => "nbody_solver_rkgl"
  | .rklc => "nbody_solver_rklc"

/-- `type_name()` of the solvers: /repo/nbody/nbody_solver_adams.cpp:25, nbody_solver_bulirsch_stoer.cpp:60,
nbody_solver_euler.cpp:14, nbody_solver_midpoint.cpp:17, nbody_solver_midpoint_stetter.cpp:18,
nbody_solver_rk4.cpp:14, nbody_solver_trapeze.cpp:16. -/
def SolverDesc.typeName : SolverDesc D → String
  | .adams .. => "nbody_solver_adams"
  | .bs .. => "nbody_solver_bulirsch_stoer"
  | .euler .. => "nbody_solver_euler"
  | .midpoint .. => "nbody_solver_midpoint"
  | .midpointSt .. => "nbody_solver_midpoint_stetter"
  | .rk4 .. => "nbody_solver_rk4"
  | .rk k .. => k.typeName
  | .trapeze .. => "nbody_solver_trapeze"

/-- `get_min_step`, `get_max_step` and the clamp flag (/repo/nbody/nbody_solver.cpp:29-48). -/
def SolverDesc.step : SolverDesc D → StepSettings D
  | .adams _ _ _ st => st
  | .bs _ _ st => st
  | .euler st => st
  | .midpoint st => st
  | .midpointSt st => st
  | .rk4 st => st
  | .rk _ _ st => st
  | .trapeze _ st => st

/-- Conversion of `int` to `size_t` in the call of the constructor /repo/nbody/nbody_solvers.cpp:30 with the
parameter `size_t rank` of /repo/nbody/nbody_solver_adams.h:19. -/
def sizeOfInt (i : Int) : Nat := if 0 ≤ i then i.toNat else (2 ^ 64 + i).toNat

/-- The Butcher-table branches of /repo/nbody/nbody_solvers.cpp:56-90. -/
def rkKindFromStr (type : String) : Option RKKind :=
  if type = "rkck" then some .rkck
  else if type = "rkdp" then some .rkdp
  else if type = "rkdverk" then some .rkdverk
  else if type = "rkf" then some .rkf
  else if type = "rkfeagin10" then some .rkfeagin10
  else if type = "rkfeagin12" then some .rkfeagin12
  else if type = "rkfeagin14" then some .rkfeagin14
  else if type = "rkgl" then some .rkgl
  else if type = "rklc" then some .rklc
  else none

/-- /repo/nbody/nbody_solvers.cpp:3-15, `create_butcher_solver`. -/
def butcherSettings (c : Conv V D) (param : Params V) : RKSettings D where
  threshold := param.get "error_threshold" c.toDouble (c.dec 1 (-4))
  maxRecursion := param.get "max_recursion" c.toUInt 8
  refine := param.get "refine_steps_count" c.toUInt 1
  subdivisions := param.get "substep_subdivisions" c.toUInt 8
  correction := param.get "correction" c.toBool false

/-- /repo/nbody/nbody_solvers.cpp:102-107: the common tail of `nbody_create_solver`. -/
def stepSettings (c : Conv V D) (param : Params V) : StepSettings D where
  minStep := param.get "min_step" c.toDouble (c.dec 1 (-9))
  maxStep := param.get "max_step" c.toDouble (c.dec 1 (-2))
  clamp := param.get "clamp" c.toBool false

/-- /repo/nbody/nbody_solvers.cpp:17-110, `nbody_create_solver`; `none` is the null pointer.  The function
calls itself for the starter of `adams`; `depth` is the number of nested calls the machine's stack has room
for, and running out of it is `stackOverflow`.  `ofStr` is the conversion `QString → QVariant` of the default
`"euler"`. -/
def createSolver (c : Conv V D) (ofStr : String → V) : Nat → Params V → Res (Option (SolverDesc D))
  | 0, _ => .error .stackOverflow
  | depth + 1, param =>
    let type := param.get "solver" c.toStr ""
    let st := stepSettings c param
    if type = "adams" then
      let starterParam := param.insert "solver" ((param "starter_solver").getD (ofStr "euler"))
      match createSolver c ofStr depth starterParam with
      | .error u => .error u
      | .ok none => .ok none
      | .ok (some starter) =>
        .ok (some (.adams starter (sizeOfInt (param.get "rank" c.toInt 1))
          (param.get "correction" c.toBool false) st))
    else if type = "bs" then
      .ok (some (.bs (param.get "max_level" c.toUInt 8)
        (param.get "error_threshold" c.toDouble (c.dec 1 (-11))) st))
    else if type = "euler" then .ok (some (.euler st))
    else if type = "midpoint" then .ok (some (.midpoint st))
    else if type = "midpoint-st" then .ok (some (.midpointSt st))
    else if type = "rk4" then .ok (some (.rk4 st))
    else
      match rkKindFromStr type with
      | some k => .ok (some (.rk k (butcherSettings c param) st))
      | none =>
        if type = "trapeze" then
          .ok (some (.trapeze (param.get "refine_steps_count" c.toUInt 1) st))
        else .ok none

end

end NB
