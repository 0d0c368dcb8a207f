/-
Base vocabulary of the model: undefined behaviour as an outcome, counted loops, and the
scalar operations the code uses.  Nothing in this file models a particular piece of the repository,
except where a comment says so.
-/

namespace NB

/-- The ways in which a modelled C++ execution leaves defined behaviour.
No counterpart of its own in /repo: what the C++ standard leaves undefined, e.g. the array accesses of /repo/nbody/nbody_engine_simple.cpp:153-172. -/
inductive UB where
  /-- read or write outside an array -/
  | oob
  /-- integer division or remainder by zero -/
  | divZero
  /-- use of a null or uninitialised object -/
  | null
  /-- fixed-size stack array exceeded -/
  | stackOverflow
  /-- integer operation outside its domain (shift by a bad amount, count of trailing zeros of zero) -/
  | badArith
  /-- release of an object that is not allocated -/
  | badFree
  /-- not undefined behaviour, but no result either: a loop exceeded the number of iterations given to the
  model; the theorems state how many are enough, or that no number is -/
  | noReturn
  /-- not undefined behaviour, but no result either: the GPU runtime refuses a call and the engine throws or
  aborts -/
  | thrown
  deriving DecidableEq, Repr

/-- Outcome of a modelled call: a value or undefined behaviour.
No counterpart of its own in /repo: outcome of any call, e.g. of /repo/nbody/nbody_engine.h:33-60. -/
abbrev Res (α : Type _) := Except UB α

/-- `b[i]` for an array whose extent is the length of `b`.
(Every array read, e.g. /repo/nbody/nbody_engine_simple.cpp:154,162-163.) -/
def rd {α : Type _} (b : List α) (i : Nat) : Res α :=
  match b[i]? with
  | some x => .ok x
  | none => .error .oob

/-- `b[i] = x` for an array whose extent is the length of `b`.
(Every array write, e.g. /repo/nbody/nbody_engine_simple.cpp:166-171.) -/
def wr {α : Type _} (b : List α) (i : Nat) (x : α) : Res (List α) :=
  if i < b.length then .ok (b.set i x) else .error .oob

/-- `for (size_t i = 0; i < n; ++i) s = f(i, s);` in any monad.
(Every counting loop, e.g. /repo/nbody/nbody_engine.cpp:25-34.) -/
def forN {m : Type _ → Type _} [Monad m] {σ : Type _} : Nat → σ → (Nat → σ → m σ) → m σ
  | 0, s, _ => pure s
  | n + 1, s, f => do
    let s' ← forN n s f
    f n s'

/-- `for (size_t i = 0; i < n; ++i) s = f(i, s);` when the body has no effect.
(Every counting loop, e.g. /repo/nbody/summation.h:29-32.) -/
def foldN {σ : Type _} : Nat → σ → (Nat → σ → σ) → σ
  | 0, s, _ => s
  | n + 1, s, f => f n (foldN n s f)

/-- The array `g 0, …, g (n-1)`.
(Contents of a buffer, /repo/nbody/nbody_engine_simple.h:9-19.) -/
def buf {α : Type _} (n : Nat) (g : Nat → α) : List α := (List.range n).map g

/-- Operations of `nbcoord_t` (/repo/nbody/nbtype.h:19-26) which are not ring operations, together
with the constant `nbody::MinDistance` (/repo/nbody/nbtype.h:79).  No laws are assumed: theorems that
only use this class hold for IEEE doubles bit for bit. -/
class FOps (S : Type _) where
  /-- `sqrt` -/
  sqrt : S → S
  /-- `fabs` -/
  abs : S → S
  /-- `a < b` -/
  lt : S → S → Bool
  /-- `a == b` -/
  eqb : S → S → Bool
  /-- conversion of an integer literal -/
  lit : Nat → S
  /-- `nbody::MinDistance` -/
  minDist : S

end NB
