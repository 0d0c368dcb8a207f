import Verif.Base

/-
The textures through which the kernels of `nbody_engine_cuda_bh_tex` read the tree: `smemory::tex`
(/repo/nbody/nbody_engine_cuda_memory.cpp:48-130) and `nb1Dfetch` (/repo/nbody/nbody_engine_cuda_impl.cu:233-273).
Device memory is a list of words of 32 bits.  Numbers are their bit patterns.  A fetch outside the texture and a fetch of
another type than the texture was made for are errors of the model (CUDA leaves the value open).  Not modelled: the limit
on the size of a texture, a failing `cudaCreateTextureObject`.
-/

namespace NB

/-- `nbcoord_t` as the templates distinguish it (/repo/nbody/nbody_engine_cuda_memory.cpp:48-97). -/
inductive CoordKind where
  | float
  | double
  | other
  deriving DecidableEq, Repr

/-- /repo/nbody/nbody_engine_cuda_memory.h:14, `enum evecsize`. -/
inductive VecSize where
  | evs1
  | evs4
  deriving DecidableEq, Repr

/-- /repo/nbody/nbody_engine_cuda_memory.cpp:48-97, `setup_texture_type`: the number of channels of 32 bits of an
element. -/
def setupTexture : CoordKind → VecSize → Option Nat
  | .float, .evs1 => some 1
  | .float, .evs4 => some 4
  | .double, .evs1 => some 2
  | .double, .evs4 => some 4
  | .other, _ => none

/-- `m_tex` of a buffer, for every device 0 or a texture (here its number of channels), and how many textures were ever
made for every device (/repo/nbody/nbody_engine_cuda_memory.cpp:4-8,127). -/
structure TexState where
  tex : List (Option Nat)
  made : List Nat

/-- /repo/nbody/nbody_engine_cuda_memory.cpp:4-8, the constructor: `m_tex(dev_ids.size(), 0)`. -/
def TexState.new (devices : Nat) : TexState := ⟨List.replicate devices none, List.replicate devices 0⟩

/-- /repo/nbody/nbody_engine_cuda_memory.cpp:99-130, `tex(dev_n, vec_size)`. -/
def TexState.get (kind : CoordKind) (dev : Nat) (v : VecSize) (s : TexState) : Res (Option Nat × TexState) := do
  match ← rd s.tex dev with
  | some c => pure (some c, s)
  | none =>
    match setupTexture kind v with
    | none => pure (none, s)
    | some c =>
      let n ← rd s.made dev
      pure (some c, ⟨s.tex.set dev (some c), s.made.set dev (n + 1)⟩)

/-- /repo/nbody/nbody_engine_cuda_memory.cpp:24-36, the destructor: how many textures of device `dev` are destroyed. -/
def TexState.destroyed (s : TexState) (dev : Nat) : Nat :=
  match s.tex[dev]? with
  | some (some _) => 1
  | _ => 0

/-- `tex1Dfetch` of `want` channels from a texture of `chan` channels over the memory `mem`
(called at /repo/nbody/nbody_engine_cuda_impl.cu:244,250-251,267,271). -/
def tex1D (mem : List UInt32) (chan want : Nat) (i : Nat) : Res (List UInt32) :=
  if chan ≠ want then .error .badArith
  else if mem.length < chan * (i + 1) then .error .oob
  else .ok ((mem.drop (chan * i)).take chan)

/-- `__hiloint2double` (called at /repo/nbody/nbody_engine_cuda_impl.cu:245,252-255). -/
def hiLo (hi lo : UInt32) : UInt64 := UInt64.ofNat (hi.toNat * 2 ^ 32 + lo.toNat)

/-- /repo/nbody/nbody_engine_cuda_impl.cu:242-246, `nb1Dfetch<double>::fetch`. -/
def fetchDouble (mem : List UInt32) (chan i : Nat) : Res UInt64 := do
  match ← tex1D mem chan 2 i with
  | [x, y] => pure (hiLo y x)
  | _ => .error .badArith

/-- /repo/nbody/nbody_engine_cuda_impl.cu:247-258, `nb1Dfetch<double>::fetch4`; `2 * i` is an `int`. -/
def fetchDouble4 (mem : List UInt32) (chan i : Nat) : Res (List UInt64) := do
  if 2 ^ 31 ≤ 2 * i + 1 then .error .badArith
  let ii := 2 * i
  let p1 ← tex1D mem chan 4 ii
  let p2 ← tex1D mem chan 4 (ii + 1)
  match p1, p2 with
  | [x1, y1, z1, w1], [x2, y2, z2, w2] => pure [hiLo y1 x1, hiLo w1 z1, hiLo y2 x2, hiLo w2 z2]
  | _, _ => .error .badArith

/-- /repo/nbody/nbody_engine_cuda_impl.cu:265-268, `nb1Dfetch<float>::fetch`. -/
def fetchFloat (mem : List UInt32) (chan i : Nat) : Res UInt32 := do
  match ← tex1D mem chan 1 i with
  | [x] => pure x
  | _ => .error .badArith

/-- /repo/nbody/nbody_engine_cuda_impl.cu:269-272, `nb1Dfetch<float>::fetch4`. -/
def fetchFloat4 (mem : List UInt32) (chan i : Nat) : Res (List UInt32) := tex1D mem chan 4 i

end NB
