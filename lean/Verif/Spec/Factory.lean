import Verif.Model.Factory

/-
What /repo/README.md documents about the engine and solver parameters: the aliases, and for each of them the
options with their defaults.  The tables here are written from the README (aliases, options) and the headers
(defaults), not from the branches of the factories.
-/

namespace NB.FactorySpec

/-- A value an engine or solver was configured with. -/
inductive Setting (D : Type) where
  | nat (n : Nat)
  | int (i : Int)
  | dbl (d : D)
  | str (s : String)
  | flag (b : Bool)

section
variable {V D : Type}

/-- Text option `o` with default `d`. -/
def text (c : Conv V D) (p : Params V) (o d : String) : String :=
  match p o with
  | some v => c.toStr v
  | none => d

/-- Options of the different kinds: name, and the value that should be in force given the parameters. -/
def optUInt (c : Conv V D) (o : String) (d : Nat) (p : Params V) : String × Setting D :=
  (o, .nat (match p o with | some v => c.toUInt v | none => d))
def optULL (c : Conv V D) (o : String) (d : Nat) (p : Params V) : String × Setting D :=
  (o, .nat (match p o with | some v => c.toULongLong v | none => d))
def optInt (c : Conv V D) (o : String) (d : Int) (p : Params V) : String × Setting D :=
  (o, .int (match p o with | some v => c.toInt v | none => d))
def optReal (c : Conv V D) (o : String) (d : D) (p : Params V) : String × Setting D :=
  (o, .dbl (match p o with | some v => c.toDouble v | none => d))
def optBool (c : Conv V D) (o : String) (p : Params V) : String × Setting D :=
  (o, .flag (match p o with | some v => c.toBool v | none => false))
def optText (c : Conv V D) (o d : String) (p : Params V) : String × Setting D :=
  (o, .str (text c p o d))
/-- an option that is off for 0 and on for every other whole number -/
def optSwitch (c : Conv V D) (o : String) (p : Params V) : String × Setting D :=
  (o, .flag (match p o with | some v => decide (c.toInt v ≠ 0) | none => false))

/-- The options documented for each engine alias. -/
def engineOptions (c : Conv V D) (alias : String) : List (Params V → String × Setting D) :=
  let ratio := optReal c "distance_to_node_radius_ratio" (c.dec 10 0)
  let rate := optULL c "tree_build_rate" 0
  let cuda := [optText c "device" "0", optInt c "block_size" 64, optBool c "use_nccl"]
  let ocl := [optText c "device" "0:0", optInt c "block_size" 64, optSwitch c "verbose", optSwitch c "oclprof"]
  match alias with
  | "ah" => [optUInt c "full_recompute_rate" 1000, optReal c "max_dist" (c.dec 10 0),
      optReal c "min_force" (c.dec 1 (-4))]
  | "simple_bh" => [optText c "tree_layout" "tree", optText c "traverse_type" "cycle", ratio, rate]
  | "cuda" => cuda
  | "cuda_bh" => cuda ++ [ratio, rate]
  | "cuda_bh_tex" => cuda ++ [ratio, rate, optText c "tree_layout" "heap"]
  | "opencl" => ocl
  | "opencl_bh" => ocl ++ [optText c "tree_layout" "heap", optText c "traverse_type" "cycle", ratio, rate]
  | _ => []

/-- The documented value of `traverse_type`. -/
def ttName : TraverseType → String
  | .cycle => "cycle"
  | .nestedTree => "nested_tree"

/-- The documented value of `tree_layout`. -/
def tlName : TreeLayout → String
  | .tree => "tree"
  | .heap => "heap"
  | .heapStackless => "heap_stackless"
  | .unknown => "?"

/-- What an engine was configured with, option by option. -/
def engineSettings : EngineDesc D → List (String × Setting D)
  | .ah rate md mf => [("full_recompute_rate", .nat rate), ("max_dist", .dbl md), ("min_force", .dbl mf)]
  | .block => []
  | .cuda dv bs nccl => [("device", .str dv), ("block_size", .int bs), ("use_nccl", .flag nccl)]
  | .cudaBh dv bs nccl r rate => [("device", .str dv), ("block_size", .int bs), ("use_nccl", .flag nccl),
      ("distance_to_node_radius_ratio", .dbl r), ("tree_build_rate", .nat rate)]
  | .cudaBhTex dv bs nccl r rate tl => [("device", .str dv), ("block_size", .int bs), ("use_nccl", .flag nccl),
      ("distance_to_node_radius_ratio", .dbl r), ("tree_build_rate", .nat rate), ("tree_layout", .str (tlName tl))]
  | .opencl dv bs vb pr => [("device", .str dv), ("block_size", .int bs), ("verbose", .flag vb),
      ("oclprof", .flag pr)]
  | .openclBh dv bs vb pr r tt rate tl => [("device", .str dv), ("block_size", .int bs), ("verbose", .flag vb),
      ("oclprof", .flag pr), ("tree_layout", .str (tlName tl)), ("traverse_type", .str (ttName tt)),
      ("distance_to_node_radius_ratio", .dbl r), ("tree_build_rate", .nat rate)]
  | .openmp => []
  | .simple => []
  | .simpleBhTree r tt rate => [("tree_layout", .str "tree"), ("traverse_type", .str (ttName tt)),
      ("distance_to_node_radius_ratio", .dbl r), ("tree_build_rate", .nat rate)]
  | .simpleBhHeap r tt rate => [("tree_layout", .str "heap"), ("traverse_type", .str (ttName tt)),
      ("distance_to_node_radius_ratio", .dbl r), ("tree_build_rate", .nat rate)]
  | .simpleBhHeapStackless r tt rate => [("tree_layout", .str "heap_stackless"),
      ("traverse_type", .str (ttName tt)), ("distance_to_node_radius_ratio", .dbl r),
      ("tree_build_rate", .nat rate)]

/-- When the documentation promises an engine: the alias is known and available in this build, the options
with a fixed set of values have one of them, and the devices can be selected. -/
def EngineAccepted (b : Build) (c : Conv V D) (p : Params V) : Prop :=
  let alias := text c p "engine" ""
  alias ∈ ["ah", "block", "openmp", "simple"] ∨
  (alias = "simple_bh" ∧ text c p "traverse_type" "cycle" ∈ ["cycle", "nested_tree"] ∧
    text c p "tree_layout" "tree" ∈ ["tree", "heap", "heap_stackless"]) ∨
  (b.haveCuda = true ∧ b.cudaSelect (text c p "device" "0") = true ∧
    (alias ∈ ["cuda", "cuda_bh"] ∨
      (alias = "cuda_bh_tex" ∧ text c p "tree_layout" "heap" ∈ ["heap", "heap_stackless"]))) ∨
  (b.haveOpencl = true ∧ b.openclSelect (text c p "device" "0:0") = true ∧
    (alias = "opencl" ∨
      (alias = "opencl_bh" ∧ text c p "traverse_type" "cycle" ∈ ["cycle", "nested_tree"] ∧
        text c p "tree_layout" "heap" ∈ ["heap", "heap_stackless"])))

/-- The solver aliases of README.md, without `rk_butcher`, which needs a table. -/
def solverAliases : List String :=
  ["adams", "bs", "euler", "midpoint", "midpoint-st", "rk4", "rkck", "rkdp", "rkdverk", "rkf", "rkfeagin10",
    "rkfeagin12", "rkfeagin14", "rkgl", "rklc", "trapeze"]

/-- The class a solver alias stands for. -/
def solverClass (alias : String) : String :=
  if alias = "bs" then "nbody_solver_bulirsch_stoer"
  else if alias = "midpoint-st" then "nbody_solver_midpoint_stetter"
  else "nbody_solver_" ++ alias

/-- The options documented for each solver alias; `starter_solver` is treated separately. -/
def solverOptions (c : Conv V D) (alias : String) : List (Params V → String × Setting D) :=
  let common := [optReal c "min_step" (c.dec 1 (-9)), optReal c "max_step" (c.dec 1 (-2)), optBool c "clamp"]
  if alias = "adams" then optInt c "rank" 1 :: optBool c "correction" :: common
  else if alias = "bs" then optUInt c "max_level" 8 :: optReal c "error_threshold" (c.dec 1 (-11)) :: common
  else if alias ∈ ["euler", "midpoint", "midpoint-st", "rk4"] then common
  else if alias = "trapeze" then optUInt c "refine_steps_count" 1 :: common
  else optReal c "error_threshold" (c.dec 1 (-4)) :: optUInt c "max_recursion" 8 ::
    optUInt c "refine_steps_count" 1 :: optUInt c "substep_subdivisions" 8 :: optBool c "correction" :: common

/-- Settings every solver has. -/
def stepList (st : StepSettings D) : List (String × Setting D) :=
  [("min_step", .dbl st.minStep), ("max_step", .dbl st.maxStep), ("clamp", .flag st.clamp)]

/-- What a solver was configured with, option by option. -/
def solverSettings : SolverDesc D → List (String × Setting D)
  | .adams _ rank corr st => ("rank", .int rank) :: ("correction", .flag corr) :: stepList st
  | .bs ml th st => ("max_level", .nat ml) :: ("error_threshold", .dbl th) :: stepList st
  | .euler st => stepList st
  | .midpoint st => stepList st
  | .midpointSt st => stepList st
  | .rk4 st => stepList st
  | .rk _ rs st => ("error_threshold", .dbl rs.threshold) :: ("max_recursion", .nat rs.maxRecursion) ::
      ("refine_steps_count", .nat rs.refine) :: ("substep_subdivisions", .nat rs.subdivisions) ::
      ("correction", .flag rs.correction) :: stepList st
  | .trapeze r st => ("refine_steps_count", .nat r) :: stepList st

end

end NB.FactorySpec
