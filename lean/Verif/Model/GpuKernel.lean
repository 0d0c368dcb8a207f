import Verif.Model.MultiDevice

/-
GPU kernels whose work items share local memory and meet at barriers, and the dense force kernel
(`ComputeBlockLocal`, /repo/nbody/nbody_engine_opencl.cl:4-92; `kfcompute`,
/repo/nbody/nbody_engine_cuda_impl.cu:37-113).

A kernel is cut into phases at its barriers (`barrier(CLK_LOCAL_MEM_FENCE)`, `__syncthreads()`).  Between
two barriers the work items of all groups on all devices interleave their memory accesses arbitrarily; a
group enters its next phase when all its work items have ended the current one; groups do not wait for each
other.  Private variables of a work item are carried from phase to phase as a value.

Simplifications: all work items run the same number of phases (true here, the loop bound is a kernel
argument); memory is sequentially consistent; a group can always go on (the hardware schedules every group
eventually); the offsets and counts do not overflow `int`.
-/

namespace NB

section Barrier
variable {S R : Type}

/-- A running kernel: memory, the phase of each group, and what is left to do of each work item in its
current phase.  Work item `i` belongs to group `i / B`.
No counterpart of its own in /repo: semantics of a launch, for /repo/nbody/nbody_engine_opencl.cpp:689-690 and /repo/nbody/nbody_engine_cuda_impl.cu:118-122. -/
structure BarState (S R : Type) where
  mem : Mem S
  phase : Nat → Nat
  todo : Nat → Prog S R

/-- What the work items do in each phase: phase number, work item, private variables.
Cut at the barriers. (`barrier` /repo/nbody/nbody_engine_opencl.cl:50,81, `__syncthreads` /repo/nbody/nbody_engine_cuda_impl.cu:72,103.) -/
abbrev Kernel (S R : Type) := Nat → Nat → R → Prog S R

/-- One step of a kernel with `G` groups of `B` work items and `P` phases: a memory access of one work
item, or a barrier of one group.
No counterpart of its own in /repo: semantics of barriers. (`barrier` /repo/nbody/nbody_engine_opencl.cl:50,81, `__syncthreads` /repo/nbody/nbody_engine_cuda_impl.cu:72,103.) -/
inductive BarStep (G B P : Nat) (kern : Kernel S R) : BarState S R → BarState S R → Prop where
  | read (m : Mem S) (ph : Nat → Nat) (t : Nat → Prog S R) (i : Nat) (hi : i < G * B) (h : Handle) (j : Nat)
      (k : S → Prog S R) (ht : t i = .read h j k) (v : S) (hv : m.cell h j = some v) :
      BarStep G B P kern ⟨m, ph, t⟩ ⟨m, ph, fun i' => if i' = i then k v else t i'⟩
  | write (m : Mem S) (ph : Nat → Nat) (t : Nat → Prog S R) (i : Nat) (hi : i < G * B) (h : Handle)
      (j : Nat) (v : S) (k : Prog S R) (ht : t i = .write h j v k) (w : S) (hw : m.cell h j = some w) :
      BarStep G B P kern ⟨m, ph, t⟩ ⟨m.setCell h j v, ph, fun i' => if i' = i then k else t i'⟩
  | barrier (m : Mem S) (ph : Nat → Nat) (t : Nat → Prog S R) (g : Nat) (hg : g < G) (r : Nat → R)
      (hr : ∀ l, l < B → t (g * B + l) = .ret (r (g * B + l))) (hp : ph g + 1 < P) :
      BarStep G B P kern ⟨m, ph, t⟩
        ⟨m, fun g' => if g' = g then ph g + 1 else ph g',
          fun i => if i / B = g then kern (ph g + 1) i (r i) else t i⟩

/-- Some work item is about to access memory outside its buffer.
No counterpart of its own in /repo: an access outside a buffer by a kernel of /repo/nbody/nbody_engine_opencl.cl or /repo/nbody/nbody_engine_cuda_impl.cu. -/
def BarState.Faulty (G B : Nat) (c : BarState S R) : Prop :=
  ∃ i, i < G * B ∧
    ((∃ h j k, c.todo i = .read h j k ∧ c.mem.cell h j = none) ∨
     (∃ h j v k, c.todo i = .write h j v k ∧ c.mem.cell h j = none))

/-- All groups have ended their last phase.
No counterpart of its own in /repo: end of a launch; the host waits for it (/repo/nbody/nbody_engine_opencl.cpp:689-700). -/
def BarState.Done (G B P : Nat) (c : BarState S R) : Prop :=
  (∀ g, g < G → ¬ c.phase g + 1 < P) ∧ ∀ i, i < G * B → ∃ r, c.todo i = .ret r

/-- Finite executions.
No counterpart of its own in /repo: semantics of a launch, /repo/nbody/nbody_engine_opencl.cpp:689-690. -/
inductive BarRun (G B P : Nat) (kern : Kernel S R) : BarState S R → BarState S R → Prop where
  | refl (c : BarState S R) : BarRun G B P kern c c
  | step {a b c : BarState S R} : BarRun G B P kern a b → BarStep G B P kern b c → BarRun G B P kern a c

/-- A kernel just launched.
(NDRange /repo/nbody/nbody_engine_opencl.cpp:689-690, `<<<grid, block>>>` /repo/nbody/nbody_engine_cuda_impl.cu:118-122.) -/
def BarState.start (kern : Kernel S R) (r0 : R) (m : Mem S) : BarState S R :=
  ⟨m, fun _ => 0, fun i => kern 0 i r0⟩

/-- How a kernel is run: groups, work items per group, phases, kernel, initial private variables.
(NDRange /repo/nbody/nbody_engine_opencl.cpp:689-690, `<<<grid, block>>>` /repo/nbody/nbody_engine_cuda_impl.cu:118-122.) -/
abbrev Launch (S R : Type) := Nat → Nat → Nat → Kernel S R → R → Mem S → Res (Mem S)

/-- `launch` is a possible implementation: whatever it returns is the outcome of some interleaving.
No counterpart of its own in /repo: what is assumed of the devices that run /repo/nbody/nbody_engine_opencl.cl and /repo/nbody/nbody_engine_cuda_impl.cu. -/
def IsLaunch (launch : Launch S R) : Prop :=
  ∀ G B P kern r0 m,
    (∀ m', launch G B P kern r0 m = .ok m' →
      ∃ c, BarRun G B P kern (BarState.start kern r0 m) c ∧ c.Done G B P ∧ c.mem = m') ∧
    (∀ e, launch G B P kern r0 m = .error e →
      ∃ c, BarRun G B P kern (BarState.start kern r0 m) c ∧ c.Faulty G B)

end Barrier

/-! ### The dense force kernel -/

/-- Private variables of the dense kernel: `x1, y1, z1`, `res_x, res_y, res_z`,
`local_res_x, local_res_y, local_res_z` (/repo/nbody/nbody_engine_opencl.cl:25-31,52-54;
/repo/nbody/nbody_engine_cuda_impl.cu:46-52,76-78). -/
structure DenseReg (S : Type) where
  pos : Vec3 S
  res : Vec3 S
  loc : Vec3 S

section Dense
variable {S : Type} [Add S] [Sub S] [Mul S] [Neg S] [Div S] [Zero S] [One S] [FOps S]

/-- /repo/nbody/nbody_engine_opencl.cl:25-31, /repo/nbody/nbody_engine_cuda_impl.cu:46-52. -/
def denseStart (n : Nat) (y : Handle) (n1 : Nat) : Prog S (DenseReg S) := do
  let x1 ← Prog.get y n1
  let y1 ← Prog.get y (n + n1)
  let z1 ← Prog.get y (2 * n + n1)
  pure ⟨⟨x1, y1, z1⟩, 0, 0⟩

/-- Copy of one body into local memory (/repo/nbody/nbody_engine_opencl.cl:41-47,
/repo/nbody/nbody_engine_cuda_impl.cu:63-69): work item `l` of the group, tile `t` of width `B`.  The four
local arrays are the handles `sh 0 … sh 3`. -/
def denseLoad (n B : Nat) (hm y : Handle) (sh : Nat → Handle) (t l : Nat) : Prog S Unit := do
  let n2 := t * B + l
  let x ← Prog.get y n2
  Prog.put (sh 0) l x
  let v ← Prog.get y (n + n2)
  Prog.put (sh 1) l v
  let z ← Prog.get y (2 * n + n2)
  Prog.put (sh 2) l z
  let w ← Prog.get hm n2
  Prog.put (sh 3) l w

omit [Neg S] [Zero S] [One S] in
/-- Interaction with one body (/repo/nbody/nbody_engine_opencl.cl:58-77,
/repo/nbody/nbody_engine_cuda_impl.cu:82-100): the new `local_res`. -/
def denseTerm (p q : Vec3 S) (m2 : S) (loc : Vec3 S) : Vec3 S :=
  let dx := p.x - q.x
  let dy := p.y - q.y
  let dz := p.z - q.z
  let r2 := dx * dx + dy * dy + dz * dz
  let r2 := if FOps.lt r2 FOps.minDist then FOps.minDist else r2
  let r := FOps.sqrt r2
  let coeff := m2 / (r * r2)
  ⟨loc.x - dx * coeff, loc.y - dy * coeff, loc.z - dz * coeff⟩

/-- The loop over the bodies of a tile (/repo/nbody/nbody_engine_opencl.cl:52-78,
/repo/nbody/nbody_engine_cuda_impl.cu:76-101). -/
def denseTile (B : Nat) (sh : Nat → Handle) (r : DenseReg S) : Prog S (DenseReg S) := do
  let loc ← forN B (0 : Vec3 S) (fun l loc => do
    let x2 ← Prog.get (sh 0) l
    let y2 ← Prog.get (sh 1) l
    let z2 ← Prog.get (sh 2) l
    let m2 ← Prog.get (sh 3) l
    pure (denseTerm r.pos ⟨x2, y2, z2⟩ m2 loc))
  pure { r with loc := loc }

omit [Add S] [Sub S] [Mul S] [Neg S] [Div S] [Zero S] [One S] [FOps S] in
/-- The derivatives of the positions (/repo/nbody/nbody_engine_opencl.cl:86-88;
/repo/nbody/nbody_engine_cuda_impl.cu:10-25, `kfcompute_xyz`). -/
def denseVel (n : Nat) (y f : Handle) (n1 : Nat) : Prog S Unit := do
  let vx ← Prog.get y (3 * n + n1)
  Prog.put f n1 vx
  let vy ← Prog.get y (4 * n + n1)
  Prog.put f (n + n1) vy
  let vz ← Prog.get y (5 * n + n1)
  Prog.put f (2 * n + n1) vz

omit [Add S] [Sub S] [Mul S] [Neg S] [Div S] [Zero S] [One S] [FOps S] in
/-- The accelerations (/repo/nbody/nbody_engine_opencl.cl:89-91,
/repo/nbody/nbody_engine_cuda_impl.cu:110-112). -/
def denseStore (n : Nat) (f : Handle) (n1 : Nat) (r : DenseReg S) : Prog S Unit := do
  Prog.put f (3 * n + n1) r.res.x
  Prog.put f (4 * n + n1) r.res.y
  Prog.put f (5 * n + n1) r.res.z

/-- Number of iterations of `for(int b2 = 0; b2 < points_count; b2 += B)`
(/repo/nbody/nbody_engine_opencl.cl:39, /repo/nbody/nbody_engine_cuda_impl.cu:61). -/
def tiles (n B : Nat) : Nat := (n + B - 1) / B

/-- The dense kernel by phases; `T` tiles.  Even phase `2t`: end of iteration `t-1` (`res += local_res`,
/repo/nbody/nbody_engine_opencl.cl:83-85), then the copies of iteration `t`, or the stores after the last
iteration.  Odd phase `2t+1`: the sum over tile `t`.  `vel` tells whether the kernel also writes the
derivatives of the positions (OpenCL) or not (CUDA). -/
def denseKernel (vel : Bool) (n B T : Nat) (hm y f : Handle) (sh : Nat → Handle) (l n1 p : Nat)
    (r : DenseReg S) : Prog S (DenseReg S) :=
  if p % 2 = 1 then denseTile B sh r
  else do
    let r ← (if p = 0 then denseStart n y n1 else pure { r with res := r.res + r.loc })
    (if p / 2 < T then denseLoad n B hm y sh (p / 2) l
     else do
      (if vel then denseVel n y f n1 else pure () : Prog S Unit)
      denseStore n f n1 r : Prog S Unit)
    pure r

omit [Add S] [Sub S] [Mul S] [Neg S] [Div S] [Zero S] [One S] [FOps S]

/-- Number of groups of `cl::EnqueueArgs(queue, cl::NDRange(size), cl::NDRange(B))`: OpenCL refuses a range
that is not a multiple of the group size, and exceptions are enabled
(/repo/nbody/nbody_engine_opencl.cpp:10,20-21). -/
def openclGroups (size B : Nat) : Res Nat :=
  if B = 0 ∨ size % B ≠ 0 then .error .thrown else .ok (size / B)

/-- Number of groups of `dim3 grid(count / B)` (/repo/nbody/nbody_engine_cuda_impl.cu:30,118,742,758,782,800):
an empty grid is an invalid configuration. -/
def cudaGroups (size B : Nat) : Res Nat :=
  if B = 0 then .error .divZero
  else if size / B = 0 then .error .thrown
  else .ok (size / B)

/-- Local memory array number `k` of group `g` (all devices counted together): handles from `hs` on.
Simplification: the arrays exist before the launch, with arbitrary contents.
(`__local` /repo/nbody/nbody_engine_opencl.cl:33-36, `__shared__` /repo/nbody/nbody_engine_cuda_impl.cu:54.) -/
def localMem (D : Nat) (hs : Handle) (g k : Nat) : Handle := rep D (hs + 4 * g + k) 0

/-- Body computed by work item `l` of group `g` when every device has `Gd` groups of `B`:
`get_global_id(0) + offset_n1` (/repo/nbody/nbody_engine_opencl.cl:10, nbody_engine_opencl.cpp:689-695;
nbody_engine_cuda_impl.cu:40, nbody_engine_cuda.cpp:230-236). -/
def gpuBody (D n B Gd g l : Nat) : Nat := g / Gd * (n / D) + (g % Gd * B + l)

/-- `synchronize_y` in either variant: `host` is the host buffer when the devices are in different contexts
(/repo/nbody/nbody_engine_opencl.cpp:823-864,679-683). -/
def syncY (loop : Loop S) (host : Option Handle) (D : Nat) (h : Handle) (size : Nat) (m : Mem S) :
    Res (Mem S) :=
  if D < 2 then .ok m
  else match host with
    | none => synchronizeY loop D h size m
    | some b => synchronizeYHost loop D h b size m

/-- `synchronize_f` in either variant (/repo/nbody/nbody_engine_opencl.cpp:742-822,708-712). -/
def syncF (loop : Loop S) (host : Option Handle) (D : Nat) (h : Handle) (size : Nat) (m : Mem S) :
    Res (Mem S) :=
  if D < 2 then .ok m
  else match host with
    | none => synchronizeF loop D h size m
    | some b => synchronizeFHost loop D h b size m

variable [Add S] [Sub S] [Mul S] [Div S] [Zero S] [FOps S]

/-- /repo/nbody/nbody_engine_opencl.cpp:654-713, `fcompute` for `n` bodies on `D` devices with group size
`B`; the launches on all devices run concurrently (they are waited for together, line 704). -/
def fcomputeOpenCL (launch : Launch S (DenseReg S)) (loop : Loop S) (host : Option Handle) (D n B : Nat)
    (hm y f hs : Handle) (m : Mem S) : Res (Mem S) :=
  if D = 0 then .ok m
  else if !m.has (rep D y 0) then .ok m
  else if !m.has (rep D f 0) then .ok m
  else do
    let m ← syncY loop host D y (6 * n) m
    let Gd ← openclGroups (n / D) B
    let m ← launch (D * Gd) B (2 * tiles n B + 1) (fun p i r =>
      let g := i / B
      let dev := g / Gd
      denseKernel true n B (tiles n B) (rep D hm dev) (rep D y dev) (rep D f dev) (localMem D hs g) (i % B)
        (gpuBody D n B Gd g (i % B)) p r) ⟨0, 0, 0⟩ m
    syncF loop host D f (6 * n) m

/-- /repo/nbody/nbody_engine_cuda.cpp:202-247, `fcompute`: the launches `kfcompute` and `kfcompute_xyz` of
all devices.  Groups `D * Gd …` are those of `kfcompute_xyz`; that the second launch of a device starts after
the first has ended is not used (more interleavings than the code has). -/
def fcomputeCuda (launch : Launch S (DenseReg S)) (loop : Loop S) (D n B : Nat)
    (hm y f hs : Handle) (m : Mem S) : Res (Mem S) :=
  if D = 0 then .error .divZero
  else if !m.has (rep D y 0) then .ok m
  else if !m.has (rep D f 0) then .ok m
  else do
    let m ← syncY loop none D y (6 * n) m
    let Gd ← cudaGroups (n / D) B
    let m ← launch (D * Gd + D * Gd) B (2 * tiles n B + 1) (fun p i r =>
      let g := i / B
      if g < D * Gd then
        let dev := g / Gd
        denseKernel false n B (tiles n B) (rep D hm dev) (rep D y dev) (rep D f dev) (localMem D hs g) (i % B)
          (gpuBody D n B Gd g (i % B)) p r
      else
        let g := g - D * Gd
        let dev := g / Gd
        if p = 0 then do
          denseVel n (rep D y dev) (rep D f dev) (gpuBody D n B Gd g (i % B))
          pure r
        else pure r) ⟨0, 0, 0⟩ m
    syncF loop none D f (6 * n) m

end Dense

end NB
