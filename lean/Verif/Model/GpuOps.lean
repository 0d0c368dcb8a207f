import Verif.Model.GpuKernel

/-
The buffer operations of the GPU engines (/repo/nbody/nbody_engine_opencl.cpp:715-740,1264-1508,
/repo/nbody/nbody_engine_cuda.cpp:249-265,327-527) and the kernels they launch
(/repo/nbody/nbody_engine_opencl.cl:511-590, /repo/nbody/nbody_engine_cuda_impl.cu:715-830).

The work items of one operation on all devices interleave arbitrarily (`loop`).  Device `d` works on the
slice `d` of its replica, except for `copy_buffer`, `fill_buffer` and `clamp`, which go over whole replicas.
Simplifications: offsets and counts do not overflow `int`; the debug messages are left out; CUDA errors end
the program (`cuda_check`, /repo/nbody/nbody_engine_cuda.cpp:8-15) and are the outcome `thrown`.
-/

namespace NB

/-- A GPU engine: the API it uses, `m_devices.size()` / `m_device_ids.size()`, the body count, `m_block_size`,
the host buffer used when the devices are in different contexts (OpenCL only,
/repo/nbody/nbody_engine_opencl.cpp:317-327), and `smemory::size() / sizeof(nbcoord_t)` of each buffer
(/repo/nbody/nbody_engine_opencl.cpp:207-210, /repo/nbody/nbody_engine_cuda_memory.cpp:33-36). -/
structure Gpu where
  cuda : Bool
  D : Nat
  n : Nat
  B : Nat
  host : Option Handle
  size : Handle → Nat

namespace Gpu

/-- Work items per group of the elementwise kernels: `m_block_size`
(/repo/nbody/nbody_engine_opencl.cpp:728,1318,1351,1392,1450) or `NBODY_DATA_BLOCK_SIZE`
(/repo/nbody/nbody_engine_cuda_impl.cu:742-743,758-759,782-783,800-801; /repo/nbody/nbtype.h:13). -/
def block (g : Gpu) : Nat := if g.cuda then 64 else g.B

/-- Number of groups of an elementwise kernel over `size` elements.
(NDRange /repo/nbody/nbody_engine_opencl.cpp:1317-1318,1350-1351; `grid` /repo/nbody/nbody_engine_cuda_impl.cu:742,758,782,800.) -/
def groups (g : Gpu) (size : Nat) : Res Nat :=
  if g.cuda then cudaGroups size 64 else openclGroups size g.B

/-- Number of elements an elementwise operation on the buffer `a` is meant for: `problem_size()`
(/repo/nbody/nbody_engine_opencl.cpp:1349,1390,1448) or the size of `a`
(/repo/nbody/nbody_engine_cuda.cpp:391,443,487). -/
def total (g : Gpu) (a : Handle) : Nat := if g.cuda then g.size a else 6 * g.n

/-- `smemory::alloc_size() / sizeof(nbcoord_t)` (/repo/nbody/nbody_engine_opencl.cpp:212-216). -/
def allocSize (size : Nat) : Nat := if size = 0 then 0 else 64 * (1 + (size - 1) / 64)

variable {S : Type}

/-- Is the buffer an `smemory`? (`dynamic_cast` at the start of every operation.)
(/repo/nbody/nbody_engine_opencl.cpp:717,1094-1095,1213,1241,1266-1267,1308,1334-1335,1369-1371,1411-1412,1441,1471; /repo/nbody/nbody_engine_cuda.cpp:205-206,251,285,309,329-330,359.) -/
def has (g : Gpu) (m : Mem S) (h : Handle) : Bool := m.has (rep g.D h 0)

/-- Launch of an elementwise kernel on all devices: `width` elements per device, work item `i` of device `d`
has index `d * width + i`
(/repo/nbody/nbody_engine_opencl.cpp:1349-1364, /repo/nbody/nbody_engine_cuda.cpp:391-401). -/
def elementwise (g : Gpu) (loop : Loop S) (width : Nat) (body : Nat → Nat → Prog S Unit) (m : Mem S) :
    Res (Mem S) := do
  let gd ← g.groups width
  let c := gd * g.block
  loop (g.D * c) (fun p => body (p / c) (p / c * width + p % c)) m

/-- /repo/nbody/nbody_engine_opencl.cpp:1332-1365, /repo/nbody/nbody_engine_cuda.cpp:376-402,
`fmadd_inplace`. -/
def fmaddInplace [Add S] [Mul S] (g : Gpu) (loop : Loop S) (a b : Handle) (c : S) (m : Mem S) : Res (Mem S) :=
  if !g.has m a then .ok m
  else if !g.has m b then .ok m
  else g.elementwise loop (g.total a / g.D) (fun d => fmaddInplaceBody (rep g.D a d) (rep g.D b d) c) m

/-- /repo/nbody/nbody_engine_opencl.cpp:1367-1406, /repo/nbody/nbody_engine_cuda.cpp:462-497, `fmadd`. -/
def fmadd [Add S] [Mul S] (g : Gpu) (loop : Loop S) (a b c : Handle) (d : S) (m : Mem S) : Res (Mem S) :=
  if !g.has m a then .ok m
  else if !g.has m b then .ok m
  else if !g.has m c then .ok m
  else g.elementwise loop (g.total a / g.D)
    (fun dev => fmaddBody (rep g.D a dev) (rep g.D b dev) (rep g.D c dev) d) m

/-- Kernel `fmadd_inplace_corr` (/repo/nbody/nbody_engine_opencl.cl:545-557,
/repo/nbody/nbody_engine_cuda_impl.cu:766-778). -/
def corrKernel [Add S] [Sub S] [Mul S] (a corr b : Handle) (c : S) (i : Nat) : Prog S Unit := do
  let bv ← Prog.get b i
  let term := bv * c
  let av ← Prog.get a i
  let cv ← Prog.get corr i
  let corrected := term - cv
  let new_sum := av + corrected
  Prog.put corr i ((new_sum - av) - corrected)
  Prog.put a i new_sum

/-- The loop /repo/nbody/nbody_engine_opencl.cpp:1435-1466: a launch and a wait per term; a buffer that is not
an `smemory` ends the operation when its turn comes. -/
def corrTerms [Add S] [Sub S] [Mul S] [Zero S] [FOps S] (g : Gpu) (loop : Loop S) (a corr : Handle) :
    List (Handle × S) → Mem S → Res (Mem S)
  | [], m => .ok m
  | (b, c) :: rest, m =>
    if FOps.eqb c 0 then corrTerms g loop a corr rest m
    else if !g.has m b then .ok m
    else do
      let m ← g.elementwise loop (6 * g.n / g.D)
        (fun d => corrKernel (rep g.D a d) (rep g.D corr d) (rep g.D b d) c) m
      corrTerms g loop a corr rest m

/-- What the launches of /repo/nbody/nbody_engine_cuda.cpp:447-458 do to one element: the launches of one
device run one after the other. -/
def corrChain [Add S] [Sub S] [Mul S] [Zero S] [FOps S] (D : Nat) (a corr : Handle) (d i : Nat) :
    List (Handle × S) → Prog S Unit
  | [] => pure ()
  | (b, c) :: rest => do
    (if FOps.eqb c 0 then pure ()
    else corrKernel (rep D a d) (rep D corr d) (rep D b d) c i : Prog S Unit)
    corrChain D a corr d i rest

/-- /repo/nbody/nbody_engine_opencl.cpp:1408-1467, /repo/nbody/nbody_engine_cuda.cpp:404-460, `fmaddn_corr`.
For CUDA the kernels of one device are run element by element, without the wait between them (more
interleavings than the code has). -/
def fmaddnCorr [Add S] [Sub S] [Mul S] [Zero S] [FOps S] (g : Gpu) (loop : Loop S) (a corr : Handle)
    (b : List Handle) (c : Option (List S)) (csize : Nat) (m : Mem S) : Res (Mem S) :=
  if !g.has m a then .ok m
  else if !g.has m corr then .ok m
  else match c with
  | none => .ok m
  | some c =>
    if csize > b.length then .ok m
    else if c.length < csize then .error .oob
    else if g.cuda then
      if !(b.take csize).all (g.has m) then .ok m
      else if (c.take csize).all (fun x => FOps.eqb x 0) then .ok m
      else g.elementwise loop (g.total a / g.D)
        (fun d i => corrChain g.D a corr d i ((b.zip c).take csize)) m
    else g.corrTerms loop a corr ((b.zip c).take csize) m

/-- /repo/nbody/nbody_engine_opencl.cpp:1264-1304, /repo/nbody/nbody_engine_cuda.cpp:327-355, `copy_buffer`.
OpenCL refuses to copy a buffer to itself (`CL_MEM_COPY_OVERLAP`). -/
def copyBuffer (g : Gpu) (loop : Loop S) (a b : Handle) (m : Mem S) : Res (Mem S) :=
  if !g.has m a then .ok m
  else if !g.has m b then .ok m
  else if g.size a ≠ g.size b then .ok m
  else match g.host with
  | none =>
    if !g.cuda ∧ a = b then .error .thrown
    else loop g.D (fun d => copyRect (rep g.D b d) (rep g.D a d) 0 (g.size a) 1 (g.size a)) m
  | some h => do
    let m ← mdReadBuffer loop g.D h b (g.size b) m
    mdWriteBuffer loop g.D a h (g.size a) m

/-- /repo/nbody/nbody_engine_opencl.cpp:1306-1330 (kernel `fill`, /repo/nbody/nbody_engine_opencl.cl:527-534),
/repo/nbody/nbody_engine_cuda.cpp:357-374 (`thrust::fill`), `fill_buffer`. -/
def fillBuffer (g : Gpu) (loop : Loop S) (a : Handle) (value : S) (m : Mem S) : Res (Mem S) :=
  if !g.has m a then .ok m
  else if g.cuda then
    loop (g.D * g.size a) (fun p => fillBody (rep g.D a (p / g.size a)) value (p % g.size a)) m
  else do
    let c := allocSize (g.size a)
    let _ ← openclGroups c g.B
    loop (g.D * c) (fun p => fillBody (rep g.D a (p / c)) value (p % c)) m

/-- /repo/nbody/nbody_engine_opencl.cpp:715-740, /repo/nbody/nbody_engine_cuda.cpp:249-265, `clamp`
(kernels /repo/nbody/nbody_engine_opencl.cl:511-525, /repo/nbody/nbody_engine_cuda_impl.cu:724-748): every
device clamps all bodies of its replica. -/
def clamp [Add S] [Sub S] [Mul S] [Neg S] [FOps S] (g : Gpu) (loop : Loop S) (y : Handle) (b : S) (m : Mem S) :
    Res (Mem S) :=
  if !g.has m y then .ok m
  else do
    let gd ← g.groups g.n
    let c := gd * g.block
    loop (g.D * c) (fun p => clampBody g.n (rep g.D y (p / c)) b (p % c)) m

/-- The loop /repo/nbody/nbody_engine.cpp:58-65 with the `fmadd_inplace` of the GPU engine. -/
def fmaddnInplaceTerms [Add S] [Mul S] [Zero S] [FOps S] (g : Gpu) (loop : Loop S) (a : Handle) :
    List (Handle × S) → Mem S → Res (Mem S)
  | [], m => .ok m
  | (b, c) :: rest, m => do
    let m ← (if FOps.eqb c 0 then .ok m else g.fmaddInplace loop a b c m : Res (Mem S))
    fmaddnInplaceTerms g loop a rest m

/-- /repo/nbody/nbody_engine.cpp:47-66, `fmaddn_inplace`, not overridden by the GPU engines. -/
def fmaddnInplace [Add S] [Mul S] [Zero S] [FOps S] (g : Gpu) (loop : Loop S)
    (a : Handle) (b : List Handle) (c : Option (List S)) (csize : Nat) (m : Mem S) : Res (Mem S) :=
  match c with
  | none => .ok m
  | some c =>
    if csize > b.length then .ok m
    else if c.length < csize then .error .oob
    else g.fmaddnInplaceTerms loop a ((b.zip c).take csize) m

/-- The loop /repo/nbody/nbody_engine.cpp:97-112 with the `fmadd` of the GPU engine. -/
def fmaddnTerms [Add S] [Mul S] [Zero S] [FOps S] (g : Gpu) (loop : Loop S) (a b : Handle) :
    Bool → List (Handle × S) → Mem S → Res (Mem S)
  | _, [], m => .ok m
  | init, (c, d) :: rest, m =>
    if FOps.eqb d 0 then fmaddnTerms g loop a b init rest m
    else do
      let m ← (if init then g.fmadd loop a a c d m else g.fmadd loop a b c d m : Res (Mem S))
      fmaddnTerms g loop a b true rest m

/-- /repo/nbody/nbody_engine.cpp:75-113, `fmaddn`, not overridden by the GPU engines. -/
def fmaddn [Add S] [Mul S] [Zero S] [FOps S] (g : Gpu) (loop : Loop S)
    (a : Handle) (b : Option Handle) (c : List Handle) (d : Option (List S)) (dsize : Nat) (m : Mem S) :
    Res (Mem S) :=
  match d with
  | none => .ok m
  | some d =>
    if dsize > c.length then .ok m
    else if d.length < dsize then .error .oob
    else match b with
    | none => do
      let m ← g.fillBuffer loop a 0 m
      g.fmaddnTerms loop a a true ((c.zip d).take dsize) m
    | some b => g.fmaddnTerms loop a b false ((c.zip d).take dsize) m

/-- `fcompute` of either engine (Model/GpuKernel.lean).
(/repo/nbody/nbody_engine_opencl.cpp:654-713, /repo/nbody/nbody_engine_cuda.cpp:200-247.) -/
def fcompute [Add S] [Sub S] [Mul S] [Div S] [Zero S] [FOps S] (g : Gpu)
    (launch : Launch S (DenseReg S)) (loop : Loop S) (hm y f hs : Handle) (m : Mem S) : Res (Mem S) :=
  if g.cuda then fcomputeCuda launch loop g.D g.n g.B hm y f hs m
  else fcomputeOpenCL launch loop g.host g.D g.n g.B hm y f hs m

end Gpu

/-- A call of an engine operation by a solver.
(The virtual functions of /repo/nbody/nbody_engine.h:33-60.) -/
inductive Call (S : Type) where
  | fcompute (y f : Handle)
  | clamp (y : Handle) (b : S)
  | copy (a b : Handle)
  | fill (a : Handle) (v : S)
  | fmaddInplace (a b : Handle) (c : S)
  | fmadd (a b c : Handle) (d : S)
  | fmaddnInplace (a : Handle) (b : List Handle) (c : List S) (csize : Nat)
  | fmaddn (a : Handle) (b : Option Handle) (c : List Handle) (d : List S) (dsize : Nat)
  | fmaddnCorr (a corr : Handle) (b : List Handle) (c : List S) (csize : Nat)

section
variable {S : Type} [Add S] [Sub S] [Mul S] [Neg S] [Div S] [Zero S] [One S] [FOps S]

/-- A call executed by a GPU engine; `hm` is `m_mass`, `hs` the first handle of the local memory of groups.
(The virtual functions of /repo/nbody/nbody_engine.h:33-60.) -/
def Gpu.call (g : Gpu) (launch : Launch S (DenseReg S)) (loop : Loop S) (hm hs : Handle) :
    Call S → Mem S → Res (Mem S)
  | .fcompute y f => g.fcompute launch loop hm y f hs
  | .clamp y b => g.clamp loop y b
  | .copy a b => g.copyBuffer loop a b
  | .fill a v => g.fillBuffer loop a v
  | .fmaddInplace a b c => g.fmaddInplace loop a b c
  | .fmadd a b c d => g.fmadd loop a b c d
  | .fmaddnInplace a b c k => g.fmaddnInplace loop a b (some c) k
  | .fmaddn a b c d k => g.fmaddn loop a b c (some d) k
  | .fmaddnCorr a corr b c k => g.fmaddnCorr loop a corr b (some c) k

/-- A call executed by a host engine with the `fcompute` `fc` (`nbody_engine_simple`,
`nbody_engine_openmp`; `nbody_engine_block`, `nbody_engine_ah` and the host tree engines inherit everything
else from these, /repo/nbody/nbody_engine_block.h:6, /repo/nbody/nbody_engine_ah.h:12,
/repo/nbody/nbody_engine_simple_bh.h:29). -/
def hostCall (fc : Handle → Handle → Mem S → Res (Mem S)) (loop : Loop S) (n : Nat) : Call S → Mem S → Res (Mem S)
  | .fcompute y f => fc y f
  | .clamp y b => NB.clamp loop n y b
  | .copy a b => NB.copyBuffer loop (6 * n) a b
  | .fill a v => NB.fillBuffer loop a v
  | .fmaddInplace a b c => NB.fmaddInplace loop (6 * n) a b c
  | .fmadd a b c d => NB.fmadd loop (6 * n) a b c d
  | .fmaddnInplace a b c k => NB.fmaddnInplace loop (6 * n) a b (some c) k
  | .fmaddn a b c d k => NB.fmaddn loop (6 * n) a b c (some d) k
  | .fmaddnCorr a corr b c k => NB.fmaddnCorr loop (6 * n) a corr b (some c) k

/-- Calls one after the other.
(E.g. the body of `advise`, /repo/nbody/nbody_solver_rk4.cpp:19-48.) -/
def runCalls {σ : Type} (step : Call S → σ → Res σ) : List (Call S) → σ → Res σ
  | [], s => .ok s
  | c :: cs, s => do
    let s ← step c s
    runCalls step cs s

end

end NB
