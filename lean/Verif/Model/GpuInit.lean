import Verif.Model.GpuOps

/-
How the engines get their bodies and give them back: `create_buffer`, `init` and `get_data` of `nbody_engine_opencl`
(/repo/nbody/nbody_engine_opencl.cpp:193-226,541-613,1190-1198) and `nbody_engine_cuda`
(/repo/nbody/nbody_engine_cuda.cpp:91-165,267-276, nbody_engine_cuda_memory.cpp:4-22); `create_buffer` of the engines on the
host (/repo/nbody/nbody_engine_simple.cpp:201-204,421-425).

Simplifications: sizes are in elements, not in bytes, and their products do not overflow `size_t`; the streams and the NCCL
communicators that the CUDA engine makes in `init` are left out (/repo/nbody/nbody_engine_cuda.cpp:93-106).
-/

namespace NB

variable {S : Type}

/-- /repo/nbody/nbody_engine_simple.cpp:201-204,421-425: `malloc`, hence arbitrary contents `junk`.  Simplification:
`malloc` does not fail (the code does not check). -/
def hostCreate (h : Handle) (size : Nat) (junk : Nat → S) (m : Mem S) : Mem S := m.set h (buf size junk)

/-- The buffers of a solver on the host (`create_buffers`, /repo/nbody/nbody_engine.cpp:21-36, with
/repo/nbody/nbody_engine_simple.cpp:201-204). -/
def hostCreateAll (size : Nat) (junk : Handle → Nat → S) (L : List Handle) (m : Mem S) : Mem S :=
  L.foldl (fun m h => hostCreate h size (junk h) m) m

/-- /repo/nbody/nbody_engine_opencl.cpp:567-575, /repo/nbody/nbody_engine_cuda.cpp:125-133: one body goes into the host
array `y`. -/
def packBody (count : Nat) (y : Handle) (vrt vel : List (Vec3 S)) (i : Nat) (m : Mem S) : Res (Mem S) := do
  let p ← rd vrt i
  let v ← rd vel i
  let r ← Prog.run (do
    Prog.put y i p.x
    Prog.put y (count + i) p.y
    Prog.put y (2 * count + i) p.z
    Prog.put y (3 * count + i) v.x
    Prog.put y (4 * count + i) v.y
    Prog.put y (5 * count + i) v.z) m
  pure r.2

namespace Gpu

/-- Elements allocated on each device for a buffer of `size`: `alloc_size()`
(/repo/nbody/nbody_engine_opencl.cpp:199-206,212-216) or the size itself (/repo/nbody/nbody_engine_cuda_memory.cpp:14). -/
def capacity (g : Gpu) (size : Nat) : Nat := if g.cuda then size else allocSize size

/-- `create_buffer` (/repo/nbody/nbody_engine_opencl.cpp:1190-1198, /repo/nbody/nbody_engine_cuda.cpp:267-276): a replica
on every device, with arbitrary contents `junk`.  `grants d` says whether device `d` has the memory; if not, OpenCL throws
(`cl::Buffer`, /repo/nbody/nbody_engine_opencl.cpp:204) and CUDA frees the replicas and returns a null pointer, which is
also what OpenCL without devices returns. -/
def createBuffer (g : Gpu) (h : Handle) (size : Nat) (grants : Nat → Bool) (junk : Nat → Nat → S) (m : Mem S) :
    Res (Option (Mem S)) :=
  if g.D = 0 then .ok none
  else if (List.range g.D).all grants || (g.cuda && size == 0) then
    .ok (some fun x => if x / g.D = h then some (buf (g.capacity size) (junk (x % g.D))) else m x)
  else if g.cuda then .ok none
  else .error .thrown

/-- The buffers of a solver, made one after another (`create_buffers`, /repo/nbody/nbody_engine.cpp:21-36, and the calls
of `create_buffer` in the first `advise` of the solvers; C55).  Simplification: in the code the solver makes each group of
buffers when it first needs it. -/
def createAll (g : Gpu) (size : Nat) (grants : Handle → Nat → Bool) (junk : Handle → Nat → Nat → S) (L : List Handle)
    (m : Mem S) : Res (Option (Mem S)) :=
  match L with
  | [] => .ok (some m)
  | h :: L => do
    match ← g.createBuffer h size (grants h) (junk h) m with
    | none => pure none
    | some m => createAll g size grants junk L m

/-- `init` (/repo/nbody/nbody_engine_opencl.cpp:541-581, /repo/nbody/nbody_engine_cuda.cpp:107-139).  `tm` is the array of
the masses of the `nbody_data`, `ty` the vector `ytmp`, which is zero at first and destroyed at the end.  The result is what
`init` returns, and the memory. -/
def init [Zero S] (g : Gpu) (loop : Loop S) (hm y tm ty : Handle) (vrt vel : List (Vec3 S)) (mass : List S)
    (grants : Handle → Nat → Bool) (junk : Handle → Nat → Nat → S) (m : Mem S) : Res (Bool × Mem S) :=
  if g.D = 0 then .ok (false, m)
  else do
    let a ← g.createBuffer hm g.n (grants hm) (junk hm) m
    let b ← g.createBuffer y (6 * g.n) (grants y) (junk y) (a.getD m)
    let m2 := b.getD (a.getD m)
    if a.isNone || b.isNone then pure (false, m2)
    else do
      let m3 ← forN g.n ((m2.set (rep g.D tm 0) mass).set (rep g.D ty 0) (buf (6 * g.n) fun _ => 0))
        (packBody g.n (rep g.D ty 0) vrt vel)
      let m4 ← mdWriteBuffer loop g.D hm tm g.n m3
      let m5 ← mdWriteBuffer loop g.D y ty (6 * g.n) m4
      pure (true, fun x => if x = rep g.D tm 0 ∨ x = rep g.D ty 0 then m2 x else m5 x)

/-- `get_data` (/repo/nbody/nbody_engine_opencl.cpp:583-613, /repo/nbody/nbody_engine_cuda.cpp:141-165): the body count of
the target is `count`, the vector `ytmp` has room for the bodies of the engine. -/
def getData [Zero S] (g : Gpu) (loop : Loop S) (y ty : Handle) (count : Nat) (m : Mem S) (vrt vel : List (Vec3 S)) :
    Res (List (Vec3 S) × List (Vec3 S)) :=
  if g.D = 0 then .ok (vrt, vel)
  else do
    let m1 ← mdReadBuffer loop g.D ty y (g.size y) (m.set (rep g.D ty 0) (buf (6 * g.n) fun _ => 0))
    engineGetData count (rep g.D ty 0) m1 vrt vel

end Gpu

end NB
