import Verif.Base

/-
Model of the index arithmetic of the heap layout (/repo/nbody/nbody_space_heap_func_priv.h) and of the two
ways of walking a heap.  Indices are natural numbers; `size_t` and `int` do not overflow for the index
ranges of the theorems.
-/

namespace NB

/-- /repo/nbody/nbody_space_heap_func.h:8, `NBODY_HEAP_ROOT_INDEX`. -/
def heapRoot : Nat := 1

/-- /repo/nbody/nbody_space_heap_func_priv.h:4-7. -/
def leftIdx (idx : Nat) : Nat := idx <<< 1

/-- /repo/nbody/nbody_space_heap_func_priv.h:9-12. -/
def rghtIdx (idx : Nat) : Nat := (idx <<< 1) + 1

/-- /repo/nbody/nbody_space_heap_func_priv.h:14-17. -/
def parentIdx (idx : Nat) : Nat := idx >>> 1

/-- /repo/nbody/nbody_space_heap_func_priv.h:24-27. -/
def isRight (idx : Nat) : Bool := idx &&& 1 != 0

/-- /repo/nbody/nbody_space_heap_func_priv.h:29-32. -/
def left2right (idx : Nat) : Nat := idx + 1

theorem isRight_eq (idx : Nat) : isRight idx = decide (idx % 2 = 1) := by
  unfold isRight
  rw [Nat.and_one_is_mod]
  rcases Nat.mod_two_eq_zero_or_one idx with h | h <;> simp [h]

/-- /repo/nbody/nbody_space_heap_func_priv.h:44-56, the portable variant of `next_down`. -/
def nextDownLoop (idx : Nat) : Nat :=
  if isRight idx then
    if parentIdx idx = heapRoot then heapRoot else nextDownLoop (parentIdx idx)
  else left2right idx
termination_by idx
decreasing_by
  have h : isRight idx = true := by assumption
  rw [isRight_eq] at h
  have h : idx % 2 = 1 := by simpa using h
  simp only [parentIdx, Nat.shiftRight_eq_div_pow]
  omega

/-- `~x` of an unsigned (or two's complement) number of `w` bits.
(`~` at /repo/nbody/nbody_space_heap_func_priv.h:38-42.) -/
def bitNot (w x : Nat) : Nat := 2 ^ w - 1 - x % 2 ^ w

/-- Number of trailing zero bits of a nonzero number; the search goes from bit `i` up to bit `i + n`.
(Used for /repo/nbody/nbody_space_heap_func_priv.h:38-42.) -/
def ctzFrom (x : Nat) : Nat → Nat → Nat
  | 0, i => i
  | n + 1, i => if x.testBit i then i else ctzFrom x n (i + 1)

/-- `__builtin_ctz`: the argument is converted to a 32-bit `unsigned int`; undefined for zero.
(Called at /repo/nbody/nbody_space_heap_func_priv.h:40.) -/
def builtinCtz (x : Nat) : Res Nat :=
  if x % 2 ^ 32 = 0 then .error .badArith else .ok (ctzFrom x 32 0)

/-- /repo/nbody/nbody_space_heap_func_priv.h:39-40, the variant of GCC and Clang on the host, where `index_t`
is the 64-bit `size_t`. -/
def nextDownCtz (idx : Nat) : Res Nat := do
  let n ← builtinCtz (bitNot 64 idx)
  .ok (left2right (idx >>> n))

/-- CUDA's `__ffs` of a 32-bit `int`: one plus the position of the lowest set bit, zero for zero.
(Called at /repo/nbody/nbody_space_heap_func_priv.h:38.) -/
def cudaFfs (x : Nat) : Nat :=
  if x % 2 ^ 32 = 0 then 0 else ctzFrom x 32 0 + 1

/-- /repo/nbody/nbody_space_heap_func_priv.h:37-38, the CUDA variant; `index_t` is `int` in the CUDA kernels
(/repo/nbody/nbody_engine_cuda_impl.cu:418-422).  Shifting by `-1` is undefined. -/
def nextDownFfs (idx : Nat) : Res Nat :=
  let n := cudaFfs (bitNot 32 idx)
  if n = 0 then .error .badArith else .ok (left2right (idx >>> (n - 1)))

/-- OpenCL 2.0 `ctz` of a 32-bit `int`: 32 for zero.
(Called at /repo/nbody/nbody_space_heap_func_priv.h:42.) -/
def openclCtz (x : Nat) : Nat :=
  if x % 2 ^ 32 = 0 then 32 else ctzFrom x 32 0

/-- /repo/nbody/nbody_space_heap_func_priv.h:41-42, the OpenCL 2.0 variant; `index_t` is `int`
(/repo/nbody/nbody_engine_opencl.cpp:237).  OpenCL takes shift amounts modulo the width. -/
def nextDownOpencl (idx : Nat) : Nat := left2right (idx >>> (openclCtz (bitNot 32 idx) % 32))

/-- /repo/nbody/nbody_space_heap_func_priv.h:64-72, `next_up`; `nd` is the variant of `next_down`. -/
def nextUp (nd : Nat → Res Nat) (idx tree_size : Nat) : Res Nat :=
  if leftIdx idx < tree_size then .ok (leftIdx idx) else nd idx

/-- `MAX_STACK_SIZE`, /repo/nbody/nbody_space_tree.h:10. -/
def heapStackSize : Nat := 64

/-- `*stack++ = idx` on a stack array of `MAX_STACK_SIZE` entries.
(/repo/nbody/nbody_space_heap.cpp:68, /repo/nbody/nbody_space_tree.cpp:143, /repo/nbody/nbody_space_tree.h:10,54, /repo/nbody/nbody_engine_opencl.cl:96,134,290, /repo/nbody/nbody_engine_cuda_impl.cu:126,153,299.) -/
def push (idx : Nat) (stack : List Nat) : Res (List Nat) :=
  if stack.length < heapStackSize then .ok (idx :: stack) else .error .stackOverflow

/-- The loop of the stack-based walk (/repo/nbody/nbody_space_heap.cpp:73-95).  `step curr s` is what happens
at a node before the decision to descend: it returns whether the node is accepted and the new state; `size`
is the array size.  The first argument bounds the number of iterations. -/
def stackWalk {σ : Type} (size : Nat) (step : Nat → σ → Res (Bool × σ)) : Nat → List Nat → σ → Res σ
  | _, [], s => .ok s
  | 0, _ :: _, _ => .error .noReturn
  | fuel + 1, curr :: stack, s => do
    let (accepted, s') ← step curr s
    if accepted then stackWalk size step fuel stack s'
    else do
      let stack ← (if rghtIdx curr < size then push (rghtIdx curr) stack else .ok stack)
      let stack ← (if leftIdx curr < size then push (leftIdx curr) stack else .ok stack)
      stackWalk size step fuel stack s'

/-- The `do … while` loop of the stackless walk (/repo/nbody/nbody_space_heap_stackless.cpp:10-25), on the
same terms. -/
def stacklessWalk {σ : Type} (nd : Nat → Res Nat) (size : Nat) (step : Nat → σ → Res (Bool × σ)) :
    Nat → Nat → σ → Res σ
  | 0, _, _ => .error .noReturn
  | fuel + 1, curr, s => do
    let (accepted, s') ← step curr s
    let next ← (if accepted then nd curr else nextUp nd curr size)
    if next = heapRoot then .ok s' else stacklessWalk nd size step fuel next s'

end NB
