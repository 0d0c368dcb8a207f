import Verif.Model.GpuOps
import Verif.Model.SpaceHeap

/-
The Barnes–Hut engines on GPUs: `nbody_engine_opencl_bh`
(/repo/nbody/nbody_engine_opencl.cpp:961-1188, nbody_engine_opencl_bh.cpp:22-27), `nbody_engine_cuda_bh`
(/repo/nbody/nbody_engine_cuda_bh.cpp) and `nbody_engine_cuda_bh_tex`
(/repo/nbody/nbody_engine_cuda_bh_tex.cpp), with their kernels.

The host builds the heap and uploads it; between two builds the devices refresh their copies of the tree
themselves; every device then walks its copy for its share of the bodies.  The work items of one kernel on
all devices interleave arbitrarily (`loop`).

Simplifications.
* Fields and buffers of the device tree exist from the start, with arbitrary contents.
* Values a kernel reads several times from the same place (masses of children) are read once.
* `int` indices and counts do not overflow.
* On CUDA the devices do not wait for each other between the levels of the refresh; as each works on its
  own copy, the model lets them go level by level together, as OpenCL does.
* A texture (`cudaTextureObject_t`) reads the array it is bound to.
-/

namespace NB

/-- The values stored for a node on a device (/repo/nbody/nbody_engine_opencl.cpp:981-991,
/repo/nbody/nbody_engine_cuda_bh.cpp:100-110). -/
inductive NodeField where
  | cmx | cmy | cmz | crit | mass | minx | miny | minz | maxx | maxy | maxz
  deriving DecidableEq

/-- Where a column of node values is kept: value of node `idx` at `stride * idx + off` of buffer `h`.
(Buffers `m_dev_tree_cmx` and so on, /repo/nbody/nbody_engine_cuda_bh.h:15-26; packed as `tree_xyzr` for the texture kernels, /repo/nbody/nbody_engine_cuda_impl.cu:520-556.) -/
structure Col where
  h : Handle
  stride : Nat
  off : Nat

/-- The columns of the tree.
(/repo/nbody/nbody_engine_cuda_bh.h:15-26, /repo/nbody/nbody_engine_opencl.cpp:157-168.) -/
abbrev DevTree := NodeField → Col

/-- One buffer per column: OpenCL, and CUDA without textures (/repo/nbody/nbody_engine_opencl.cpp:979-993,
/repo/nbody/nbody_engine_cuda_bh.cpp:98-112). -/
def DevTree.plain (h : NodeField → Handle) : DevTree := fun F => ⟨h F, 1, 0⟩

/-- Mass centres and critical radii interleaved in one buffer (/repo/nbody/nbody_engine_cuda_bh_tex.cpp:94-121;
/repo/nbody/nbody_engine_cuda_impl.cu:522-540,644-693). -/
def DevTree.tex (xyzr : Handle) (h : NodeField → Handle) : DevTree
  | .cmx => ⟨xyzr, 4, 0⟩
  | .cmy => ⟨xyzr, 4, 1⟩
  | .cmz => ⟨xyzr, 4, 2⟩
  | .crit => ⟨xyzr, 4, 3⟩
  | F => ⟨h F, 1, 0⟩

section
variable {S : Type}

/-- Read of a node value on device `d`.
(Reads in the kernels, /repo/nbody/nbody_engine_opencl.cl:433-508.) -/
def DevTree.get (T : DevTree) (D d : Nat) (F : NodeField) (idx : Nat) : Prog S S :=
  Prog.get (rep D (T F).h d) ((T F).stride * idx + (T F).off)

/-- Write of a node value on device `d`.
(Writes in the kernels, /repo/nbody/nbody_engine_opencl.cl:433-508.) -/
def DevTree.put (T : DevTree) (D d : Nat) (F : NodeField) (idx : Nat) (v : S) : Prog S Unit :=
  Prog.put (rep D (T F).h d) ((T F).stride * idx + (T F).off) v

/-- Kernel `UpdateLeafBH` (/repo/nbody/nbody_engine_opencl.cl:433-453), `kupdate_leaf_bh`
(/repo/nbody/nbody_engine_cuda_impl.cu:477-497), `kupdate_leaf_bh_tex` (522-540): work item `i` of device `d`.
`bodyN` is `m_indites`; reading it out of bounds gives the number no body has, and then the read of `y` is
out of bounds. -/
def updateLeaf (T : DevTree) (D n : Nat) (bodyN : List Nat) (y : Handle) (d i : Nat) : Prog S Unit := do
  let tree_offset := n - 1 + heapRoot
  let idx := i + tree_offset
  let b := bodyN.getD idx noBody
  let x ← Prog.get (rep D y d) (0 * n + b)
  T.put D d .cmx idx x
  T.put D d .maxx idx x
  T.put D d .minx idx x
  let v ← Prog.get (rep D y d) (1 * n + b)
  T.put D d .cmy idx v
  T.put D d .maxy idx v
  T.put D d .miny idx v
  let z ← Prog.get (rep D y d) (2 * n + b)
  T.put D d .cmz idx z
  T.put D d .maxz idx z
  T.put D d .minz idx z

variable [Add S] [Sub S] [Mul S] [Neg S] [Div S] [Zero S] [One S] [FOps S]

omit [Neg S] [Zero S] [One S] in
/-- Kernel `UpdateNodeBH` (/repo/nbody/nbody_engine_opencl.cl:456-508), `kupdate_node_bh`
(/repo/nbody/nbody_engine_cuda_impl.cu:563-615), `kupdate_node_bh_tex` (644-693): work item `i` of device `d`. -/
def updateNode (T : DevTree) (D level_size : Nat) (ratio2 : S) (d i : Nat) : Prog S Unit :=
  let idx := i + level_size
  if 2 * level_size ≤ idx then pure ()
  else do
    let left := leftIdx idx
    let rght := rghtIdx idx
    let ml ← T.get D d .mass left
    let mr ← T.get D d .mass rght
    let mass := ml + mr
    let xl ← T.get D d .cmx left
    let xr ← T.get D d .cmx rght
    let yl ← T.get D d .cmy left
    let yr ← T.get D d .cmy rght
    let zl ← T.get D d .cmz left
    let zr ← T.get D d .cmz rght
    let mc : Vec3 S := ⟨(xl * ml + xr * mr) / mass, (yl * ml + yr * mr) / mass, (zl * ml + zr * mr) / mass⟩
    T.put D d .mass idx mass
    T.put D d .cmx idx mc.x
    T.put D d .cmy idx mc.y
    T.put D d .cmz idx mc.z
    let al ← T.get D d .minx left
    let ar ← T.get D d .minx rght
    let bl ← T.get D d .miny left
    let br ← T.get D d .miny rght
    let cl ← T.get D d .minz left
    let cr ← T.get D d .minz rght
    let bmin : Vec3 S := ⟨fmin al ar, fmin bl br, fmin cl cr⟩
    let pl ← T.get D d .maxx left
    let pr ← T.get D d .maxx rght
    let ql ← T.get D d .maxy left
    let qr ← T.get D d .maxy rght
    let rl ← T.get D d .maxz left
    let rr ← T.get D d .maxz rght
    let bmax : Vec3 S := ⟨fmax pl pr, fmax ql qr, fmax rl rr⟩
    T.put D d .minx idx bmin.x
    T.put D d .miny idx bmin.y
    T.put D d .minz idx bmin.z
    T.put D d .maxx idx bmax.x
    T.put D d .maxy idx bmax.y
    T.put D d .maxz idx bmax.z
    let r := (bmin - bmax).length / FOps.lit 2 + ((bmin + bmax).sdiv (FOps.lit 2) - mc).length
    T.put D d .crit idx (r * r * ratio2)

omit [Neg S] [One S] in
/-- What the traversal kernels do at a node (/repo/nbody/nbody_engine_opencl.cl:142-163,226-246,298-319,383-403;
/repo/nbody/nbody_engine_cuda_impl.cu:161-182,307-329,396-417): is it accepted, and the new sum. -/
def nodeStep (T : DevTree) (D d : Nat) (p : Vec3 S) (curr : Nat) (res : Vec3 S) : Prog S (Bool × Vec3 S) := do
  let x ← T.get D d .cmx curr
  let v ← T.get D d .cmy curr
  let z ← T.get D d .cmz curr
  let dx := p.x - x
  let dy := p.y - v
  let dz := p.z - z
  let r2 := dx * dx + dy * dy + dz * dz
  let cr ← T.get D d .crit curr
  if FOps.lt cr r2 then do
    let mass ← T.get D d .mass curr
    pure (true, denseTerm p ⟨x, v, z⟩ mass res)
  else pure (false, res)

omit [Add S] [Sub S] [Mul S] [Neg S] [Div S] [Zero S] [One S] [FOps S] in
/-- The children of a refused node go on the stack (/repo/nbody/nbody_engine_opencl.cl:166-175,322-331;
/repo/nbody/nbody_engine_cuda_impl.cu:185-194,332-341): the left one first, so the right one is visited first. -/
def gpuPush (size curr : Nat) (stack : List Nat) : Res (List Nat) := do
  let stack ← (if leftIdx curr < size then push (leftIdx curr) stack else .ok stack)
  if rghtIdx curr < size then push (rghtIdx curr) stack else .ok stack

omit [Add S] [Sub S] [Mul S] [Neg S] [Div S] [Zero S] [One S] [FOps S] in
/-- The loop with a stack (/repo/nbody/nbody_engine_opencl.cl:134-177,290-333;
/repo/nbody/nbody_engine_cuda_impl.cu:153-196,299-343).  The first argument bounds the iterations. -/
def gpuStackWalk {σ : Type} (size : Nat) (step : Nat → σ → Prog S (Bool × σ)) :
    Nat → List Nat → σ → Prog S (Res σ)
  | _, [], s => pure (.ok s)
  | 0, _ :: _, _ => pure (.error .noReturn)
  | fuel + 1, curr :: stack, s => do
    let r ← step curr s
    if r.1 then gpuStackWalk size step fuel stack r.2
    else match gpuPush size curr stack with
      | .error e => pure (.error e)
      | .ok stack => gpuStackWalk size step fuel stack r.2

omit [Add S] [Sub S] [Mul S] [Neg S] [Div S] [Zero S] [One S] [FOps S] in
/-- The stackless loop (/repo/nbody/nbody_engine_opencl.cl:223-254,380-411;
/repo/nbody/nbody_engine_cuda_impl.cu:393-425); `nd` is the variant of `next_down`. -/
def gpuStacklessWalk {σ : Type} (nd : Nat → Res Nat) (size : Nat) (step : Nat → σ → Prog S (Bool × σ)) :
    Nat → Nat → σ → Prog S (Res σ)
  | 0, _, _ => pure (.error .noReturn)
  | fuel + 1, curr, s => do
    let r ← step curr s
    match (if r.1 then nd curr else nextUp nd curr size) with
    | .error e => pure (.error e)
    | .ok next => if next = heapRoot then pure (.ok r.2) else gpuStacklessWalk nd size step fuel next r.2

/-- What an engine is set up with: the devices, the columns of its tree, the kernel variant
(`ett_cycle`, `etl_heap_stackless`, the `next_down` of the compiler), `m_distance_to_node_radius_ratio`,
`m_tree_build_rate`; the implementation of `std::nth_element`, `static_cast<nbcoord_t>(0.5)`, a bound for the
build recursion and for the iterations of a walk; host arrays for `y`, for the masses and for the sum, and
`m_f_sync`.
(/repo/nbody/nbody_engine_cuda_bh.h:10-26, /repo/nbody/nbody_engine_opencl.cpp:157-168,290-301.) -/
structure GpuBH (S : Type) where
  g : Gpu
  tree : DevTree
  cycle : Bool
  stackless : Bool
  nd : Nat → Res Nat
  ratio : S
  rate : Nat
  nth : NthElement
  half : S
  depth : Nat
  fuel : Nat
  hostY : Handle
  hostM : Handle
  fsync : Handle

/-- `m_heap`, and `m_indites` / `m_dev_indites` when the device buffers exist.
(/repo/nbody/nbody_engine_cuda_bh.h:13,26, /repo/nbody/nbody_engine_opencl.cpp:168.) -/
structure BHState (S : Type) where
  heap : List (Cell S)
  bodyN : Option (List Nat)

namespace GpuBH

/-- The walk of a work item at `p`.
(Kernels /repo/nbody/nbody_engine_cuda_impl.cu:126-223 and /repo/nbody/nbody_engine_opencl.cl:96-431.) -/
def walk (e : GpuBH S) (tree_size d : Nat) (p : Vec3 S) : Prog S (Res (Vec3 S)) :=
  if e.stackless then gpuStacklessWalk e.nd tree_size (nodeStep e.tree e.g.D d p) e.fuel heapRoot 0
  else gpuStackWalk tree_size (nodeStep e.tree e.g.D d p) e.fuel [heapRoot] 0

omit [Add S] [Sub S] [Mul S] [Neg S] [Div S] [One S] [FOps S] in
/-- The end of the traversal kernels (/repo/nbody/nbody_engine_opencl.cl:179-184,346-351;
/repo/nbody/nbody_engine_cuda_impl.cu:198-203,345-350,427-432): the result of body `n1`.  A walk that left defined behaviour
reads `f` out of bounds at `lenF`, its length. -/
def store (n : Nat) (y f : Handle) (lenF n1 : Nat) (res : Res (Vec3 S)) : Prog S Unit :=
  match res with
  | .error _ => do
    let _ ← Prog.get f lenF
    pure ()
  | .ok r => do
    denseVel n y f n1
    denseStore n f n1 ⟨0, r, 0⟩

/-- Kernels `ComputeHeapBH`, `ComputeHeapBHSL` (/repo/nbody/nbody_engine_opencl.cl:267-430), `kfcompute_heap_bh`,
`kfcompute_heap_bh_tex`, `kfcompute_heap_bh_stackless` (/repo/nbody/nbody_engine_cuda_impl.cu:130-204,278-351,372-433): work
item `i` of device `d` computes the body of leaf `offset + i`. -/
def heapItem (e : GpuBH S) (tree_size : Nat) (bodyN : List Nat) (y f : Handle) (lenF : Nat → Nat) (d i : Nat) :
    Prog S Unit := do
  let offset := d * (e.g.n / e.g.D)
  let tn1 := i + offset + (e.g.n - 1 + heapRoot)
  let n1 := bodyN.getD tn1 noBody
  let x ← e.tree.get e.g.D d .cmx tn1
  let v ← e.tree.get e.g.D d .cmy tn1
  let z ← e.tree.get e.g.D d .cmz tn1
  let res ← e.walk tree_size d ⟨x, v, z⟩
  store e.g.n (rep e.g.D y d) (rep e.g.D f d) (lenF d) n1 res

/-- Kernels `ComputeTreeBH`, `ComputeTreeBHSL` (/repo/nbody/nbody_engine_opencl.cl:101-262): work item `i` of
device `d` computes body `offset + i`. -/
def cycleItem (e : GpuBH S) (tree_size : Nat) (y f : Handle) (lenF : Nat → Nat) (d i : Nat) : Prog S Unit := do
  let n1 := i + d * (e.g.n / e.g.D)
  let x ← Prog.get (rep e.g.D y d) n1
  let v ← Prog.get (rep e.g.D y d) (e.g.n + n1)
  let z ← Prog.get (rep e.g.D y d) (2 * e.g.n + n1)
  let res ← e.walk tree_size d ⟨x, v, z⟩
  store e.g.n (rep e.g.D y d) (rep e.g.D f d) (lenF d) n1 res

omit [Add S] [Sub S] [Mul S] [Neg S] [Div S] [Zero S] [One S] [FOps S] in
/-- `write_buffer` of a host vector (/repo/nbody/nbody_engine_opencl.cpp:1239-1262,
/repo/nbody/nbody_engine_cuda.cpp:307-325): the elements `l` go to every device.  The buffer
has as many elements as the vector: it was created for the same body count. -/
def upload (loop : Loop S) (D : Nat) (h : Handle) (l : List S) (m : Mem S) : Res (Mem S) :=
  loop D (fun d => forN l.length () (fun i _ =>
    match l[i]? with
    | some v => Prog.put (rep D h d) i v
    | none => pure ())) m

omit [Add S] [Sub S] [Mul S] [Neg S] [Div S] [Zero S] [One S] [FOps S] in
/-- The uploads of /repo/nbody/nbody_engine_opencl.cpp:994-1015, /repo/nbody/nbody_engine_cuda_bh.cpp:114-131 and
/repo/nbody/nbody_engine_cuda_bh_tex.cpp:110-125: centres, radii and masses, not the boxes.  `tex` tells
whether centres and radii are interleaved. -/
def uploadTree (loop : Loop S) (D : Nat) (T : DevTree) (tex : Bool) (H : List (Cell S)) (m : Mem S) :
    Res (Mem S) :=
  if tex then do
    let m ← upload loop D (T .cmx).h (H.flatMap fun c => [c.d.mc.x, c.d.mc.y, c.d.mc.z, c.d.rsq]) m
    upload loop D (T .mass).h (H.map fun c => c.d.mass) m
  else do
    let m ← upload loop D (T .cmx).h (H.map fun c => c.d.mc.x) m
    let m ← upload loop D (T .cmy).h (H.map fun c => c.d.mc.y) m
    let m ← upload loop D (T .cmz).h (H.map fun c => c.d.mc.z) m
    let m ← upload loop D (T .mass).h (H.map fun c => c.d.mass) m
    upload loop D (T .crit).h (H.map fun c => c.d.rsq) m

/-- /repo/nbody/nbody_engine_opencl.cpp:961-1016, `rebuild_tree`; /repo/nbody/nbody_engine_cuda_bh.cpp:84-131;
/repo/nbody/nbody_engine_cuda_bh_tex.cpp:79-125.  `m_mass` is `hm`.  The device buffers exist from the start
in the model. -/
def rebuildTree (e : GpuBH S) (loop : Loop S) (tex : Bool) (hm y : Handle) (st : BHState S) (m : Mem S) :
    Res (BHState S × Mem S) := do
  let m ← mdReadBuffer loop e.g.D e.hostY y (6 * e.g.n) m
  let m ← mdReadBuffer loop e.g.D e.hostM hm e.g.n m
  match m (rep e.g.D e.hostY 0), m (rep e.g.D e.hostM 0) with
  | some ly, some lm => do
    let H ← heapBuild e.g.n (bodiesAt e.g.n ly lm) e.half e.ratio e.nth e.depth st.heap
    let m ← uploadTree loop e.g.D e.tree tex H m
    .ok (⟨H, some (H.map Cell.body)⟩, m)
  | _, _ => .error .null

/-- Work items of the kernel `UpdateNodeBH` on a device: `cl::NDRange(std::max(level_size, local_range[0]))`
(/repo/nbody/nbody_engine_opencl.cpp:1056), `grid(std::max(1, level_size / 64))` of blocks of 64
(/repo/nbody/nbody_engine_cuda_impl.cu:631-632,706-707). -/
def levelItems (g : Gpu) (level_size : Nat) : Res Nat :=
  if g.cuda then .ok (max 1 (level_size / 64) * 64)
  else do
    let gd ← openclGroups (max level_size g.B) g.B
    .ok (gd * g.B)

omit [Neg S] [Zero S] [One S] in
/-- The loop over the levels (/repo/nbody/nbody_engine_opencl.cpp:1049-1078,
/repo/nbody/nbody_engine_cuda_bh.cpp:154-173, /repo/nbody/nbody_engine_cuda_bh_tex.cpp:146-162). -/
def updateLevels (g : Gpu) (T : DevTree) (loop : Loop S) (ratio2 : S) (level_count : Nat) (m : Mem S) :
    Res (Mem S) :=
  if level_count = 0 then .ok m
  else do
    let c ← levelItems g (level_count / 2)
    let m ← loop (g.D * c) (fun p => updateNode T g.D (level_count / 2) ratio2 (p / c) (p % c)) m
    updateLevels g T loop ratio2 (level_count / 2) m
termination_by level_count
decreasing_by omega

omit [Neg S] [Zero S] [One S] in
/-- /repo/nbody/nbody_engine_opencl.cpp:1018-1079, `update_tree`; /repo/nbody/nbody_engine_cuda_bh.cpp:136-174;
/repo/nbody/nbody_engine_cuda_bh_tex.cpp:130-163. -/
def updateTree (g : Gpu) (T : DevTree) (loop : Loop S) (ratio : S) (bodyN : List Nat) (y : Handle)
    (m : Mem S) : Res (Mem S) := do
  let gd ← g.groups g.n
  let c := gd * g.block
  let m ← loop (g.D * c) (fun p => updateLeaf T g.D g.n bodyN y (p / c) (p % c)) m
  updateLevels g T loop (ratio * ratio) g.n m

/-- Groups of a traversal kernel on a device: `global_range(device_data_size)`
(/repo/nbody/nbody_engine_opencl.cpp:1117-1119), `grid(compute_points_count / block_size)`
(/repo/nbody/nbody_engine_cuda_impl.cu:218,362,443). -/
def walkGroups (g : Gpu) : Res Nat :=
  if g.cuda then cudaGroups (g.n / g.D) g.B else openclGroups (g.n / g.D) g.B

omit [Sub S] [Neg S] [Div S] [Zero S] [FOps S] in
/-- `synchronize_sum` in either variant (/repo/nbody/nbody_engine_opencl.cpp:866-959,1182-1186). -/
def syncSum (loop : Loop S) (host : Option Handle) (D : Nat) (f fsync : Handle) (size : Nat) (m : Mem S) :
    Res (Mem S) :=
  if D < 2 then .ok m
  else match host with
    | none => synchronizeSum loop D f fsync size m
    | some b => synchronizeSumHost loop D f b size m

/-- The traversal (/repo/nbody/nbody_engine_opencl.cpp:1134-1187, /repo/nbody/nbody_engine_cuda_bh.cpp:176-205,
/repo/nbody/nbody_engine_cuda_bh_tex.cpp:165-200). -/
def traverse (e : GpuBH S) (loop : Loop S) (tree_size : Nat) (bodyN : List Nat) (y f : Handle) (m : Mem S) :
    Res (Mem S) :=
  let lenF := fun d => ((m (rep e.g.D f d)).getD []).length
  if e.cycle then do
    let gd ← walkGroups e.g
    let c := gd * e.g.B
    let m ← loop (e.g.D * c) (fun p => e.cycleItem tree_size y f lenF (p / c) (p % c)) m
    syncF loop e.g.host e.g.D f (6 * e.g.n) m
  else do
    let m ← e.g.fillBuffer loop f 0 m
    let gd ← walkGroups e.g
    let c := gd * e.g.B
    let m ← loop (e.g.D * c) (fun p => e.heapItem tree_size bodyN y f lenF (p / c) (p % c)) m
    syncSum loop e.g.host e.g.D f e.fsync (6 * e.g.n) m

/-- `fcompute` of the GPU Barnes–Hut engines at step number `step`
(/repo/nbody/nbody_engine_opencl.cpp:1080-1188, /repo/nbody/nbody_engine_cuda_bh.cpp:50-206,
/repo/nbody/nbody_engine_cuda_bh_tex.cpp:46-201). -/
def fcompute (e : GpuBH S) (loop : Loop S) (tex : Bool) (step : Nat) (hm y f : Handle) (st : BHState S)
    (m : Mem S) : Res (BHState S × Mem S) :=
  if e.g.D = 0 then (if e.g.cuda then .error .divZero else .ok (st, m))
  else if !e.g.has m y then .ok (st, m)
  else if !e.g.has m f then .ok (st, m)
  else do
    let m ← syncY loop e.g.host e.g.D y (6 * e.g.n) m
    let r ←
      (match st.bodyN with
      | some bodyN =>
        if e.rate = 0 || st.heap.isEmpty || step % e.rate = 0 then e.rebuildTree loop tex hm y st m
        else do
          let m ← updateTree e.g e.tree loop e.ratio bodyN y m
          .ok (st, m)
      | none => e.rebuildTree loop tex hm y st m)
    match r.1.bodyN with
    | none => .error .null
    | some bodyN => do
      let m ← e.traverse loop r.1.heap.length bodyN y f r.2
      .ok (r.1, m)

end GpuBH

end

end NB
