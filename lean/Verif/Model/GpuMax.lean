import Verif.Model.GpuOps

/-
`fmaxabs` of the GPU engines (/repo/nbody/nbody_engine_opencl.cpp:1469-1508,
/repo/nbody/nbody_engine_cuda.cpp:499-530) and what they run on the devices
(/repo/nbody/nbody_engine_opencl.cl:566-589, /repo/nbody/nbody_engine_cuda_impl.cu:807-818).

Simplifications as in Model/GpuOps.lean.
-/

namespace NB

section
variable {S : Type} [FOps S]

/-- `max(x, y)` of OpenCL and `std::max(x, y)`: `y` if `x < y`, otherwise `x`
(/repo/nbody/nbody_engine_opencl.cl:584, /repo/nbody/nbody_engine_cuda_impl.cu:815). -/
def maxOf (x y : S) : S := if FOps.lt x y then y else x

/-- `*std::max_element(v.begin(), v.end())` (/repo/nbody/nbody_engine_opencl.cpp:1507,
/repo/nbody/nbody_engine_cuda.cpp:529); `v.end()` must not be dereferenced. -/
def maxElement : List S → Res S
  | [] => .error .oob
  | x :: xs => .ok (xs.foldl maxOf x)

/-- Work item `i` of device `d` in the kernel `fmaxabs` (/repo/nbody/nbody_engine_opencl.cl:566-589); `aoff`,
`alast` and `roff` as in /repo/nbody/nbody_engine_opencl.cpp:1481-1498. -/
def Gpu.maxItem (g : Gpu) (a out : Handle) (d i : Nat) : Prog S Unit :=
  let aoff := d * (6 * g.n / g.D)
  let alast := aoff + 6 * g.n / g.D
  let roff := d * (6 * g.n / g.B / g.D)
  let first := i * g.B + aoff
  if alast ≤ first then pure ()
  else do
    let v ← Prog.get (rep g.D a d) first
    let r ← forN g.B (FOps.abs v) (fun n r =>
      if first + n < alast then do
        let v ← Prog.get (rep g.D a d) (first + n)
        pure (maxOf r (FOps.abs v))
      else pure r)
    Prog.put (rep g.D out d) (i + roff) r

/-- The buffers that exist while `fmaxabs` runs (/repo/nbody/nbody_engine_opencl.cpp:1486,1503): `out`, on every
device, with arbitrary contents, and `host_buff`. -/
def Gpu.withOut (g : Gpu) (out hb : Handle) (junk zero : S) (m : Mem S) : Mem S := fun h =>
  if h / g.D = out then some (List.replicate (Gpu.allocSize (6 * g.n / g.B)) junk)
  else if h / g.D = hb then some (List.replicate (6 * g.n / g.B) zero)
  else m h

/-- `out` and `host_buff` are destroyed at the end of the function; what had been there before (nothing, in the
real program) is there again.
(/repo/nbody/nbody_engine_opencl.cpp:1486,1502-1508.) -/
def Gpu.withoutOut (g : Gpu) (out hb : Handle) (m m' : Mem S) : Mem S := fun h =>
  if h / g.D = out then m h else if h / g.D = hb then m h else m' h

/-- /repo/nbody/nbody_engine_opencl.cpp:1469-1508, `fmaxabs`: the new value of `result` (`none` when `a` is not
an `smemory` and `result` is left alone) and the buffers afterwards.  The global range is `rsize` on every
device, in groups of 4. -/
def Gpu.fmaxabsOpenCL [Zero S] (g : Gpu) (loop : Loop S) (out hb : Handle) (junk : S) (a : Handle) (m : Mem S) :
    Res (Option S × Mem S) :=
  if !g.has m a then .ok (none, m)
  else if g.B = 0 ∨ g.D = 0 then .error .divZero
  else do
    let rsize := 6 * g.n / g.B
    let _ ← openclGroups rsize 4
    let m1 := g.withOut out hb junk 0 m
    let m2 ← loop (g.D * rsize) (fun p => g.maxItem a out (p / rsize) (p % rsize)) m1
    let m3 ← mdReadBuffer loop g.D hb out rsize m2
    let r ← (match m3 (rep g.D hb 0) with
      | none => .error .null
      | some l => maxElement l : Res S)
    pure (some r, g.withoutOut out hb m m3)

/-- The order in which `thrust::minmax_element` compares elements.
(/repo/nbody/nbody_engine_cuda_impl.cu:812-813; the order is left open by Thrust.) -/
inductive MinMax where
  | leaf : Nat → MinMax
  | node : MinMax → MinMax → MinMax

/-- The elements looked at.
(/repo/nbody/nbody_engine_cuda_impl.cu:812-813.) -/
def MinMax.leaves : MinMax → List Nat
  | .leaf i => [i]
  | .node l r => l.leaves ++ r.leaves

/-- `thrust::minmax_element` on the elements from `off` on, in the order `t`: the smallest and the largest
element (/repo/nbody/nbody_engine_cuda_impl.cu:812-813). -/
def MinMax.eval (h : Handle) (off : Nat) : MinMax → Prog S (S × S)
  | .leaf i => do
    let v ← Prog.get h (off + i)
    pure (v, v)
  | .node l r => do
    let x ← MinMax.eval h off l
    let y ← MinMax.eval h off r
    pure (if FOps.lt y.1 x.1 then y.1 else x.1, maxOf x.2 y.2)

/-- /repo/nbody/nbody_engine_cuda.cpp:499-530 and /repo/nbody/nbody_engine_cuda_impl.cu:807-818, `fmaxabs`.  The
threads of the host, one per device, only read buffers and write their own element of `devmax`; they run one
after the other here.  An empty range makes `minmax_element` return its end, which is dereferenced. -/
def Gpu.fmaxabsCuda [Zero S] (g : Gpu) (t : Nat → MinMax) (a : Handle) (m : Mem S) : Res (Option S) :=
  if !g.has m a then .ok none
  else if g.size a = 0 then .ok (some 0)
  else if g.D = 0 then .error .divZero
  else if g.size a / g.D = 0 then .error .oob
  else do
    let devmax ← forN g.D ([] : List S) (fun d l => do
      let r ← ((t d).eval (rep g.D a d) (g.size a / g.D * d)).run m
      pure (l ++ [maxOf (FOps.abs r.1.1) (FOps.abs r.1.2)]))
    let r ← maxElement devmax
    pure (some r)

end

end NB
