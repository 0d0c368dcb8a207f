import Verif.Model.SolverCalls
import Verif.Model.EngineBH
import Verif.Model.GpuBH

/-
The operations of the Barnes–Hut engines as solvers use them.  These engines keep the tree between two evaluations.
-/

namespace NB

/-- What a Barnes–Hut engine keeps: the buffers, the tree (`m_tree` / `m_heap` and the device
buffers of the tree, /repo/nbody/nbody_engine_simple_bh.h:50,62,74, nbody_engine_opencl.cpp:153-168,
/repo/nbody/nbody_engine_cuda_bh.h:13-26), and,
for the model only, the number of evaluations so far. -/
structure TreeState (S T : Type) where
  mem : Mem S
  tree : T
  calls : Nat

section
variable {S : Type} [Add S] [Sub S] [Mul S] [Neg S] [Div S] [Zero S] [One S] [FOps S]

/-- `nbody_engine_simple_bh` (/repo/nbody/nbody_engine_simple_bh.h:29-82, nbody_engine_simple_bh.cpp:15-93,153-194): everything
but `fcompute` is that of the OpenMP engine.  `steps k` is what `get_step()` gives at the `k`-th evaluation. -/
def hostTreeOps {T : Type} (ix : SpaceIndex S T) (loop vloop : Loop S) (tt : TraverseType) (ratio : S) (rate : Nat)
    (steps : Nat → Nat) (n hm : Nat) (bot : S) (sched : Mem S → Red) : EngineOps S (TreeState S T) where
  call c s := match c with
    | .fcompute y f => do
      let r ← bhFcompute ix loop vloop tt ratio rate (steps s.calls) n hm y f s.tree s.mem
      .ok ⟨r.2, r.1, s.calls + 1⟩
    | c => do
      let m ← hostCall (fun _ _ m => .ok m) loop n c s.mem
      .ok { s with mem := m }
  maxabs h s := do
    let r ← (openmpOps (fun _ _ m => .ok m) loop n bot sched).maxabs h s.mem
    .ok (r.1, { s with mem := r.2 })

/-- `nbody_engine_opencl_bh` (/repo/nbody/nbody_engine_opencl_bh.cpp:22-27, nbody_engine_opencl.cpp:1080-1188),
`nbody_engine_cuda_bh` and `nbody_engine_cuda_bh_tex` (/repo/nbody/nbody_engine_cuda_bh.cpp:50-206,
nbody_engine_cuda_bh_tex.cpp:46-201): everything but `fcompute` is that of the dense engine `dense` on the same
devices. -/
def gpuTreeOps (e : GpuBH S) (loop : Loop S) (tex : Bool) (steps : Nat → Nat) (hm : Handle)
    (dense : EngineOps S (Mem S)) : EngineOps S (TreeState S (BHState S)) where
  call c s := match c with
    | .fcompute y f => do
      let r ← e.fcompute loop tex (steps s.calls) hm y f s.tree s.mem
      .ok ⟨r.2, r.1, s.calls + 1⟩
    | c => do
      let m ← dense.call c s.mem
      .ok { s with mem := m }
  maxabs h s := do
    let r ← dense.maxabs h s.mem
    .ok (r.1, { s with mem := r.2 })

end

end NB
