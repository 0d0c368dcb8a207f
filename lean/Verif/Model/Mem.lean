import Verif.Base

/-
Engine buffers and straight-line programs over them.

A `smemory` object (/repo/nbody/nbody_engine_simple.h:9-19) is a malloc'ed array of bytes; the code always
views it as an array of `nbcoord_t`.  The model keeps the array as a list of scalars, and a `Mem`
maps handles (the pointers `memory*`) to such arrays.  A handle that is mapped to `none` stands for a
null pointer or a `memory` object of another engine, for which `dynamic_cast<smemory*>` gives NULL.
Simplifications: sizes are counted in elements, not bytes; `malloc` does not fail; a buffer never
written to holds arbitrary values (not a separate "indeterminate" value).
-/

namespace NB

/-- A `memory*`.
(/repo/nbody/nbody_engine.h:23-31, /repo/nbody/nbody_engine_simple.h:9-19.) -/
abbrev Handle := Nat

/-- All live buffers (/repo/nbody/nbody_engine_simple.h:9-19, nbody_engine_simple.cpp:421-445). -/
abbrev Mem (S : Type _) := Handle → Option (List S)

/-- Straight-line code over shared buffers: a program either returns, reads one element, writes one
element, or hits undefined behaviour.  Each `read`/`write` node is one memory access of the compiled
loop body; the continuation of a read may depend on the value read.
No counterpart of its own in /repo: bodies of the loops of /repo/nbody/nbody_engine_openmp.cpp, split at memory accesses. -/
inductive Prog (S : Type) (α : Type) : Type where
  | ret : α → Prog S α
  | read : Handle → Nat → (S → Prog S α) → Prog S α
  | write : Handle → Nat → S → Prog S α → Prog S α

namespace Prog

variable {S : Type} {α β : Type}

/-- Sequential composition.
No counterpart of its own in /repo: `;` of C++, for /repo/nbody/nbody_engine_openmp.cpp. -/
def bind : Prog S α → (α → Prog S β) → Prog S β
  | ret a, f => f a
  | read h i k, f => read h i (fun v => bind (k v) f)
  | write h i v k, f => write h i v (bind k f)

instance : Monad (Prog S) where
  pure := ret
  bind := bind

/-- `h[i]` as a program.
(E.g. /repo/nbody/nbody_engine_openmp.cpp:127-131.) -/
def get (h : Handle) (i : Nat) : Prog S S := read h i ret

/-- `h[i] = v` as a program.
(E.g. /repo/nbody/nbody_engine_openmp.cpp:127-160.) -/
def put (h : Handle) (i : Nat) (v : S) : Prog S Unit := write h i v (ret ())

/-- One element of one buffer, if it is in range.
(/repo/nbody/nbody_engine.h:23-31, /repo/nbody/nbody_engine_simple.h:9-19.) -/
def _root_.NB.Mem.cell (m : Mem S) (h : Handle) (i : Nat) : Option S :=
  (m h).bind (fun l => l[i]?)

/-- Overwrite one element of one buffer (no effect when out of range).
(/repo/nbody/nbody_engine.h:23-31, /repo/nbody/nbody_engine_simple.h:9-19.) -/
def _root_.NB.Mem.setCell (m : Mem S) (h : Handle) (i : Nat) (v : S) : Mem S :=
  fun h' => if h' = h then (m h).map (fun l => l.set i v) else m h'

/-- Uninterrupted execution of a program.
No counterpart of its own in /repo: execution by one thread, as in /repo/nbody/nbody_engine_simple.cpp. -/
def run : Prog S α → Mem S → Res (α × Mem S)
  | ret a, m => .ok (a, m)
  | read h i k, m =>
    match m.cell h i with
    | some v => run (k v) m
    | none => .error .oob
  | write h i v k, m =>
    match m.cell h i with
    | some _ => run k (m.setCell h i v)
    | none => .error .oob

end Prog

/-- `for (size_t i = 0; i < n; ++i) body(i);` executed by one thread.
(Loops of /repo/nbody/nbody_engine_simple.cpp.) -/
def seqFor {S : Type} (n : Nat) (body : Nat → Prog S Unit) (m : Mem S) : Res (Mem S) :=
  forN n m (fun i m => do
    let r ← (body i).run m
    pure r.2)

/-- Is the handle a live `smemory` (result of `dynamic_cast<smemory*>` is not NULL)?
(E.g. /repo/nbody/nbody_engine_simple.cpp:119-131.) -/
def Mem.has {S : Type} (m : Mem S) (h : Handle) : Bool := (m h).isSome

/-- The memory in which buffer `h` has contents `l` and everything else is as in `m`.
(/repo/nbody/nbody_engine.h:23-31, /repo/nbody/nbody_engine_simple.h:9-19.) -/
def Mem.set {S : Type} (m : Mem S) (h : Handle) (l : List S) : Mem S :=
  fun h' => if h' = h then some l else m h'

end NB
