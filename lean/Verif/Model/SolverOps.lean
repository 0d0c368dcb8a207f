import Verif.Model.EngineSimple
import Mathlib.Algebra.Module.Basic
import Mathlib.Algebra.Field.Basic

/-
The solvers' view of an engine, in exact arithmetic.

A solver sees an engine through `fcompute`, the buffer operations and the clock.  Here a buffer is a
value of a vector space `V` over a field `K` (for the host engines `V` is the space of lists of
`problem_size()` numbers; C07 proves that the buffer loops compute the formulas below).
Simplifications:
* the buffers of a solver are created by that solver, so they are distinct from each other and from the
  engine's `y`; a buffer is therefore kept as a value in the solver's state, and a buffer that is always
  overwritten before it is read is a local value;
* arithmetic is exact;
* `fcompute` is an arbitrary function `F` of the number of `fcompute` calls made so far, of the time
  argument and of the state, so engines with an internal schedule (tree rebuilds, Ahmad-Cohen) are
  covered for each given run.
-/

namespace NB

/-- /repo/nbody/nbody_engine.h and nbody_data.h: what a solver can observe and change of an engine: the state `y`, the
time `m_data->m_time`, the step counter `m_data->m_step` and the number of derivative evaluations
`m_compute_count`. -/
@[ext] structure Eng (V K : Type) where
  y : V
  time : K
  step : ℕ
  cc : ℕ

section
variable {V K : Type}

/-- /repo/nbody/nbody_data.cpp:177-181, `advise_time` (through nbody_engine_simple.cpp:91-94). -/
def Eng.adviseTime [Add K] (dt : K) (e : Eng V K) : Eng V K :=
  { e with time := e.time + dt, step := e.step + 1 }

/-- A call of `fcompute(t, x, …)`: the value stored into the output buffer, and the engine with one more
derivative evaluation counted (/repo/nbody/nbody_engine.cpp:119-122). -/
def Eng.fc (F : ℕ → K → V → V) (e : Eng V K) (t : K) (x : V) : V × Eng V K :=
  (F e.cc t x, { e with cc := e.cc + 1 })

variable [Field K] [DecidableEq K] [AddCommGroup V] [Module K V]

omit [DecidableEq K] in
/-- `fmadd(a, b, c, d)`: the new contents of `a` (/repo/nbody/nbody_engine_simple.cpp:308-339);
`fmadd_inplace(a, b, c)` is `vfmadd a b c` (282-306). -/
def vfmadd (b c : V) (d : K) : V := b + d • c

/-- /repo/nbody/nbody_engine.cpp:47-66, `fmaddn_inplace(a, b, c, n)` with `n ≤ b.size()`. -/
def vfmaddnInplace (n : ℕ) (a : V) (b : ℕ → V) (c : ℕ → K) : V :=
  foldN n a (fun i a => if c i = 0 then a else vfmadd a (b i) (c i))

/-- The loop /repo/nbody/nbody_engine.cpp:97-112: `(a, a_initiated)` after `n` terms. -/
def vfmaddnLoop (n : ℕ) (a : V) (b : V) (ini : Bool) (c : ℕ → V) (d : ℕ → K) : V × Bool :=
  foldN n (a, ini) (fun i s =>
    if d i = 0 then s
    else if s.2 then (vfmadd s.1 (c i) (d i), true)
    else (vfmadd b (c i) (d i), true))

/-- /repo/nbody/nbody_engine.cpp:75-113, `fmaddn(a, b, c, d, n)` with `n ≤ c.size()`; `a` is the old
contents of the target, which survives when `b` is given and all coefficients are zero. -/
def vfmaddn (n : ℕ) (a : V) (b : Option V) (c : ℕ → V) (d : ℕ → K) : V :=
  match b with
  | none => (vfmaddnLoop n 0 0 true c d).1
  | some b => (vfmaddnLoop n a b false c d).1

/-- /repo/nbody/nbody_engine_simple.cpp:341-394, `fmaddn_corr(a, corr, b, c, n)`: new `(a, corr)`. -/
def vfmaddnCorr (n : ℕ) (a corr : V) (b : ℕ → V) (c : ℕ → K) : V × V :=
  foldN n (a, corr) (fun i s => if c i = 0 then s else summationK s.1 (c i • b i) s.2)

end

end NB
