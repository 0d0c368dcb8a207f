import Verif.Base
import Mathlib.Algebra.Order.Field.Basic

/-
Model of `nbody_solver::run` (/repo/nbody/nbody_solver.cpp:55-105).
-/

namespace NB

/-- What `run` uses of the solver, the engine, the data object and the stream.  `σ` is the joint state of
engine, solver and clock, `φ` what `get_data` stores into the data object, `ω` the state of the stream.
Simplifications: `advise`, `clamp` and `get_data` have defined behaviour (that is the subject of C04-C34);
`print_statistics` and the check visitors do not change the simulation.
(/repo/nbody/nbody_solver.cpp:55-105.) -/
structure RunEnv (σ φ ω K : Type) where
  /-- `data->get_time()` -/
  time : σ → K
  /-- `m_engine->clamp(m_engine->get_y(), data->get_box_size())` -/
  clamp : σ → σ
  /-- `advise(dt)` -/
  advise : K → σ → σ
  /-- `m_engine->get_data(data)` -/
  getData : σ → φ
  /-- `stream->write(data)`; `true` when it returns 0 -/
  write : φ → ω → Bool × ω

/-- The arguments of `run` and the members it reads (`get_max_step()`, `m_clamp_to_box`).
(/repo/nbody/nbody_solver.h:13-16,31.) -/
structure RunConf (K : Type) where
  dt : K
  maxTime : K
  dumpDt : K
  checkDt : K
  hasStream : Bool
  clampToBox : Bool

/-- The local variables of `run` and the objects it changes; `checks` are the states for which
`print_statistics` and the visitors have been called.
(/repo/nbody/nbody_solver.cpp:55-77.) -/
structure RunSt (σ φ ω K : Type) where
  s : σ
  stream : ω
  lastCheck : K
  lastDump : K
  checks : List φ

section
variable {σ φ ω K : Type} [Zero K] [Add K] [Sub K] [Mul K] [LT K] [LE K] [DecidableLT K] [DecidableLE K] [OfScientific K]

/-- /repo/nbody/nbody_solver.cpp:75-101, the body of the loop; `false` stands for `return -1`.  The
arithmetic is any (the laws of an ordered field are assumed where a theorem needs them). -/
def runBody (E : RunEnv σ φ ω K) (c : RunConf K) (r : RunSt σ φ ω K) : Bool × RunSt σ φ ω K :=
  let s := if c.clampToBox then E.clamp r.s else r.s
  let s := E.advise c.dt s
  let t := E.time s
  let r := { r with s := s }
  let r :=
    if 0 < c.checkDt ∧ r.lastCheck + c.checkDt - c.dt * 0.1 ≤ t then
      { r with checks := r.checks ++ [E.getData s], lastCheck := t }
    else r
  if c.hasStream ∧ 0 < c.dumpDt ∧ r.lastDump + c.dumpDt - c.dt * 0.1 ≤ t then
    let w := E.write (E.getData s) r.stream
    if w.1 then (true, { r with stream := w.2, lastDump := t })
    else (false, { r with stream := w.2 })
  else (true, r)

/-- /repo/nbody/nbody_solver.cpp:73-104, the loop; `fuel` bounds the number of iterations. -/
def runLoop (E : RunEnv σ φ ω K) (c : RunConf K) : ℕ → RunSt σ φ ω K → Res (ℤ × RunSt σ φ ω K)
  | fuel, r =>
    if E.time r.s < c.maxTime then
      match fuel with
      | 0 => .error .noReturn
      | fuel + 1 =>
        let b := runBody E c r
        if b.1 then runLoop E c fuel b.2 else .ok (-1, b.2)
    else .ok (0, r)

/-- /repo/nbody/nbody_solver.cpp:55-105, `run`: the return value and the final state. -/
def solverRun (E : RunEnv σ φ ω K) (c : RunConf K) (fuel : ℕ) (s : σ) (stream : ω) :
    Res (ℤ × RunSt σ φ ω K) :=
  let t := E.time s
  let r : RunSt σ φ ω K := ⟨s, stream, t, t, []⟩
  if c.hasStream ∧ 0 < c.dumpDt ∧ t ≤ 0 then
    let w := E.write (E.getData s) stream
    if w.1 then runLoop E c fuel { r with stream := w.2, lastDump := t }
    else .ok (-1, { r with stream := w.2 })
  else runLoop E c fuel r

end

end NB
