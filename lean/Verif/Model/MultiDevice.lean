import Verif.Model.EngineSimple
import Verif.Model.Par

/-
Model of the GPU engines' use of several devices: `nbody_engine_cuda`
(/repo/nbody/nbody_engine_cuda.cpp) and `nbody_engine_opencl` (/repo/nbody/nbody_engine_opencl.cpp).

Every `smemory` has one replica per device; operations work on one slice of each replica and the replicas
are brought together by `synchronize_y`, `synchronize_f` and `synchronize_sum`.

Simplifications.
* A replica is a list of elements (for the copies the element may be a byte).  Element counts do not
  overflow `int`/`size_t`, allocation does not fail.
* What is enqueued between two waits (`waitForEvents`, `stream_sync`, end of an `omp parallel` region) runs
  concurrently: it is a `loop` over all copies or work items, and the theorems quantify over all
  interleavings of their memory accesses (`IsParLoop`).
* `HAVE_NCCL` code (/repo/nbody/nbody_engine_cuda.cpp:625-641,681-701,738-754) is not modelled.
-/

namespace NB

/-- Replica of buffer `h` on device `d` of `D` devices: `smemory::data(dev_n)`
(/repo/nbody/nbody_engine_cuda_memory.cpp:38-46), `smemory::buffer(i)`
(/repo/nbody/nbody_engine_opencl.cpp:218-226).  Host arrays are kept as replica 0 of a handle of their
own. -/
def rep (D : Nat) (h : Handle) (d : Nat) : Handle := h * D + d

/-- /repo/nbody/nbody_engine_opencl.cpp:329-332, `is_power_of_two`. -/
def isPowerOfTwo (val : Nat) : Bool := decide (val > 0) && (Nat.land val (val - 1) == 0)

section
variable {S : Type}

/-- `enqueueCopyBufferRect` / `cudaMemcpy2DAsync` of `rows` rows of `w` elements with distance `pitch`,
from offset `off` of `src` to the same offset of `dst`
(/repo/nbody/nbody_engine_opencl.cpp:792-797, /repo/nbody/nbody_engine_cuda.cpp:715-722).
The plain copies (opencl.cpp:846-851, cuda.cpp:656-663) are the case of one row. -/
def copyRect (src dst : Handle) (off w rows pitch : Nat) : Prog S Unit :=
  forN rows () (fun r _ => forN w () (fun i _ => do
    let v ← Prog.get src (off + r * pitch + i)
    Prog.put dst (off + r * pitch + i) v))

/-- `for(size_t shift_n = 1; shift_n < device_count; shift_n *= 2)` continued from `shift`
(/repo/nbody/nbody_engine_opencl.cpp:776,830,904; /repo/nbody/nbody_engine_cuda.cpp:644,703,761). -/
def shiftLoop {σ : Type} (D : Nat) (body : Nat → σ → Res σ) (shift : Nat) (s : σ) : Res σ :=
  if _h : 0 < shift ∧ shift < D then do
    let s' ← body shift s
    shiftLoop D body (2 * shift) s'
  else .ok s
termination_by D - shift

/-- The two copies of one pair of devices (/repo/nbody/nbody_engine_opencl.cpp:783-798,837-852;
/repo/nbody/nbody_engine_cuda.cpp:650-664,709-723).  Copy number `p` of the pass belongs to group
`p / 2 / shift`, pair `p / 2 % shift` and direction `p % 2`. -/
def gatherCopy (D : Nat) (h : Handle) (w rows pitch shift p : Nat) : Prog S Unit :=
  let group := p / 2 / shift
  let k := p / 2 % shift
  let off1 := 2 * group * w
  let off2 := off1 + w
  let dev1 := group * (2 * shift) + k
  let dev2 := dev1 + shift
  if p % 2 = 0 then copyRect (rep D h dev1) (rep D h dev2) off1 w rows pitch
  else copyRect (rep D h dev2) (rep D h dev1) off2 w rows pitch

/-- One pass of the exchange (/repo/nbody/nbody_engine_opencl.cpp:777-802,831-856;
/repo/nbody/nbody_engine_cuda.cpp:645-668,704-727): all copies of the pass, then a wait.  The first
component of the state is the current `rect_row_size` / `device_data_size`, doubled at the end. -/
def gatherPass (loop : Loop S) (D : Nat) (h : Handle) (rows pitch shift : Nat)
    (s : Nat × Mem S) : Res (Nat × Mem S) := do
  let group_count := D / (2 * shift)
  let m ← loop (group_count * shift * 2) (gatherCopy D h s.1 rows pitch shift) s.2
  pure (2 * s.1, m)

/-- /repo/nbody/nbody_engine_cuda.cpp:618-670 (without NCCL) and the same-context branch of
/repo/nbody/nbody_engine_opencl.cpp:823-857, `synchronize_y`; `size` is `y->size()`.  One device returns
at once (cuda.cpp:621-624; opencl.cpp calls it for several devices only, line 681). -/
def synchronizeY (loop : Loop S) (D : Nat) (h : Handle) (size : Nat) (m : Mem S) : Res (Mem S) :=
  if D < 2 then .ok m
  else do
    let s ← shiftLoop D (gatherPass loop D h 1 size) 1 (size / D, m)
    pure s.2

/-- /repo/nbody/nbody_engine_cuda.cpp:672-729 (without NCCL) and the same-context branch of
/repo/nbody/nbody_engine_opencl.cpp:742-803, `synchronize_f`: six rows.  Called for several devices
only (cuda.cpp:243-246, opencl.cpp:709-713). -/
def synchronizeF (loop : Loop S) (D : Nat) (h : Handle) (size : Nat) (m : Mem S) : Res (Mem S) :=
  if D < 2 then .ok m
  else do
    let s ← shiftLoop D (gatherPass loop D h 6 (size / 6)) 1 (size / D / 6, m)
    pure s.2

/-- The read part of /repo/nbody/nbody_engine_opencl.cpp:806-818: device `d` fills its columns of the
host buffer. -/
def readColumns (D : Nat) (h host : Handle) (w rows pitch d : Nat) : Prog S Unit :=
  copyRect (rep D h d) (rep D host 0) (d * w) w rows pitch

/-- /repo/nbody/nbody_engine_opencl.cpp:1211-1236 and /repo/nbody/nbody_engine_cuda.cpp:283-305,
`read_buffer`: device `d` fills slice `d` of the host array. -/
def mdReadBuffer (loop : Loop S) (D : Nat) (host src : Handle) (size : Nat) (m : Mem S) : Res (Mem S) :=
  loop D (fun d => copyRect (rep D src d) (rep D host 0) (d * (size / D)) (size / D) 1 size) m

/-- /repo/nbody/nbody_engine_opencl.cpp:1239-1262 and /repo/nbody/nbody_engine_cuda.cpp:307-325,
`write_buffer`: the whole host array goes to every device. -/
def mdWriteBuffer (loop : Loop S) (D : Nat) (dst host : Handle) (size : Nat) (m : Mem S) : Res (Mem S) :=
  loop D (fun d => copyRect (rep D host 0) (rep D dst d) 0 size 1 size) m

/-- /repo/nbody/nbody_engine_opencl.cpp:804-821, `synchronize_f` for devices in different contexts; the
host buffer starts with arbitrary contents. -/
def synchronizeFHost (loop : Loop S) (D : Nat) (h host : Handle) (size : Nat) (m : Mem S) :
    Res (Mem S) := do
  let m ← loop D (readColumns D h host (size / D / 6) 6 (size / 6)) m
  mdWriteBuffer loop D h host size m

/-- /repo/nbody/nbody_engine_opencl.cpp:858-863, `synchronize_y` for devices in different contexts. -/
def synchronizeYHost (loop : Loop S) (D : Nat) (h host : Handle) (size : Nat) (m : Mem S) :
    Res (Mem S) := do
  let m ← mdReadBuffer loop D host h size m
  mdWriteBuffer loop D h host size m

/-- /repo/nbody/nbody_engine_opencl.cpp:906-918, /repo/nbody/nbody_engine_cuda.cpp:763-770: device `d`
sends its buffer to device `(d + shift) % D`. -/
def sumCopy (D : Nat) (f fsync : Handle) (size shift d : Nat) : Prog S Unit :=
  copyRect (rep D f d) (rep D fsync ((d + shift) % D)) 0 size 1 size

/-- Work item `p % size` of the `fmadd_inplace` kernel on device `p / size`
(/repo/nbody/nbody_engine_opencl.cpp:919-930, /repo/nbody/nbody_engine_cuda.cpp:771-780,
/repo/nbody/nbody_engine_opencl.cl:537-542). -/
def sumAdd [Add S] [Mul S] [One S] (D : Nat) (f fsync : Handle) (size p : Nat) : Prog S Unit :=
  fmaddInplaceBody (rep D f (p / size)) (rep D fsync (p / size)) 1 (p % size)

/-- One pass of /repo/nbody/nbody_engine_opencl.cpp:905-931, /repo/nbody/nbody_engine_cuda.cpp:762-781.
On CUDA the kernel runs `size / 64 * 64` work items, which is `size` for the buffers of the engine when
the body count is a multiple of 64. -/
def sumPass [Add S] [Mul S] [One S] (loop : Loop S) (D : Nat) (f fsync : Handle) (size shift : Nat)
    (m : Mem S) : Res (Mem S) := do
  let m ← loop D (sumCopy D f fsync size shift) m
  loop (D * size) (sumAdd D f fsync size) m

/-- /repo/nbody/nbody_engine_opencl.cpp:866-932 (same context),
/repo/nbody/nbody_engine_cuda.cpp:731-783 (without NCCL), `synchronize_sum`; `fsync` is `m_f_sync`. -/
def synchronizeSum [Add S] [Mul S] [One S] (loop : Loop S) (D : Nat) (f fsync : Handle) (size : Nat)
    (m : Mem S) : Res (Mem S) :=
  if D < 2 then .ok m
  else shiftLoop D (sumPass loop D f fsync size) 1 m

/-- Element `i` of the loop /repo/nbody/nbody_engine_opencl.cpp:950-956; host buffer `d` is handle
`rep D host d`. -/
def sumHostBody [Add S] (D : Nat) (host : Handle) (i : Nat) : Prog S Unit :=
  forN (D - 1) () (fun k _ => do
    let a ← Prog.get (rep D host 0) i
    let b ← Prog.get (rep D host (k + 1)) i
    Prog.put (rep D host 0) i (a + b))

/-- /repo/nbody/nbody_engine_opencl.cpp:933-958, `synchronize_sum` for devices in different contexts. -/
def synchronizeSumHost [Add S] (loop : Loop S) (D : Nat) (f host : Handle) (size : Nat) (m : Mem S) :
    Res (Mem S) := do
  let m ← loop D (fun d => copyRect (rep D f d) (rep D host d) 0 size 1 size) m
  let m ← loop size (sumHostBody D host) m
  mdWriteBuffer loop D f host size m

end

end NB
