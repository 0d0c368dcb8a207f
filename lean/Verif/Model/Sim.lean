import Verif.Model.Main
import Verif.Model.SolverCalls
import Verif.Spec.Program

/-
The program with its simulation: the solver of the factory, with the calls it makes, on an engine given by what its
calls mean for the buffers (Spec/Machine.lean; C69, C70 and C74 prove that the engines do this).
-/

namespace NB

/-- Members of a solver besides its buffers: `m_step` of Adams, `!m_k.empty()` of the Butcher solvers, the flags of
the Stetter solver (its own, or the internal one of Bulirsch-Stoer), and whether the tables of the extrapolator have
changed places.
(/repo/nbody/nbody_solver_adams.h:11-16, /repo/nbody/nbody_solver_rk_butcher.h:9-21, /repo/nbody/nbody_solver_midpoint_stetter.h:17-21, /repo/nbody/nbody_solver_bulirsch_stoer.h:15-20.) -/
structure Members where
  step : Nat
  allocated : Bool
  stetter : StetterFlags
  swapped : Bool

/-- A new solver.
(Constructors of /repo/nbody/nbody_solver_adams.cpp, /repo/nbody/nbody_solver_rk_butcher.cpp, /repo/nbody/nbody_solver_midpoint_stetter.cpp, /repo/nbody/nbody_solver_bulirsch_stoer.cpp.) -/
def Members.new : Members := ⟨0, false, ⟨false, false, false⟩, false⟩

/-- What the simulation takes from outside.  `deriv e step mass y m` is what `fcompute` of the engine `e` stores for the
state `y`, and what the engine remembers afterwards (the trees of the Barnes-Hut engines, the neighbour lists of
Ahmad-Cohen), when it remembered `m` and the step counter was `step`; `nrm` is its `fmaxabs`, `table` the Butcher
tables in the arithmetic, `layout l` the buffers of the solver at nesting level `l` (0 is the solver itself, 1 the starter
of an Adams solver, …), `junk` what memory holds before it is written.
(`fcompute` of /repo/nbody/nbody_engine.h:33-60 and what is outside the program.) -/
structure SimEnv (S D ε : Type) where
  toCoord : D → S
  deriv : EngineDesc D → Nat → List S → List S → ε → List S × ε
  fresh : ε
  nrm : List S → S
  table : RKKind → BT S
  layout : Nat → Slot → Handle
  junk : Handle → Nat → S

section
variable {S C D ε : Type} [Add S] [Sub S] [Mul S] [Neg S] [Div S] [Zero S] [FOps S]

open Act

/-- /repo/nbody/nbody_solver_adams.cpp:32-38: the row of the table. -/
def adamsRow (rank : Nat) : Option (List S) :=
  let q (a b : Nat) : S := FOps.lit a / FOps.lit b
  let m (a b : Nat) : S := -FOps.lit a / FOps.lit b
  if rank = 1 then some [FOps.lit 1]
  else if rank = 2 then some [q 3 2, m 1 2]
  else if rank = 3 then some [q 23 12, m 4 3, q 5 12]
  else if rank = 4 then some [q 55 24, m 59 24, q 37 24, m 3 8]
  else if rank = 5 then some [q 1901 720, m 1387 360, q 109 30, m 637 360, q 251 720]
  else none

/-- Settings of a Butcher solver (/repo/nbody/nbody_solvers.cpp:3-15, 102-107). -/
def rkConf (X : SimEnv S D ε) (rs : RKSettings D) (st : StepSettings D) : RKConf S where
  maxRecursion := rs.maxRecursion
  subdivisions := rs.subdivisions
  threshold := X.toCoord rs.threshold
  refine := rs.refine
  correction := rs.correction
  minStep := X.toCoord st.minStep

/-- `advise` of the solvers /repo/nbody/nbody_solver_*.cpp at nesting level `l`: the members afterwards, and how often
`advise_time` has been called.  Simplifications: the buffers can be created; an Adams solver whose rank has no row,
where the code reads outside its table (C14), does nothing. -/
def SolverDesc.calls (X : SimEnv S D ε) : SolverDesc D → Nat → S → (Nat → Members) → Act S ((Nat → Members) × Nat)
  | .adams starter rank correction _, l, dt, m =>
    match adamsRow rank with
    | none => pure (m, 0)
    | some al => do
      (if correction && (m l).step == 0 then op (.fill (X.layout l .ycorr) 0) else pure () : Act S Unit)
      let r ← adamsCalls (X.layout l) al correction (starter.calls X (l + 1) dt m) (m, 1) dt (m l).step
      pure (upd r.2.1 l { m l with step := r.1 }, r.2.2)
  | .bs maxLevel threshold _, l, dt, m => do
    let steps := match initSteps maxLevel true with
      | .ok s => s
      | .error _ => []
    let r ← bsCalls (X.layout l) maxLevel (X.toCoord threshold) steps dt ⟨(m l).stetter, (m l).swapped⟩
    pure (upd m l { m l with stetter := r.1.internal, swapped := r.1.swapped }, r.2 + 1)
  | .euler _, l, dt, m => do
    eulerCalls (X.layout l) dt
    pure (m, 1)
  | .midpoint _, l, dt, m => do
    midpointCalls (X.layout l) dt
    pure (m, 1)
  | .midpointSt _, l, dt, m => do
    let fl ← stetterCalls (X.layout l) dt (m l).stetter
    pure (upd m l { m l with stetter := fl }, 1)
  | .rk4 _, l, dt, m => do
    rk4Calls (X.layout l) dt
    pure (m, 1)
  | .rk kind rs st, l, dt, m => do
    rkCalls (X.layout l) (X.table kind) (rkConf X rs st) dt (m l).allocated
    pure (upd m l { m l with allocated := true }, 1)
  | .trapeze refine _, l, dt, m => do
    trapezeCalls (X.layout l) refine dt
    pure (m, 1)

/-- Engine, solver and data object during a run.
(The objects of `run`, /repo/nbody/nbody_solver.cpp:55-105.) -/
structure SimSt (S C D ε : Type) where
  engine : EngineDesc D
  solver : SolverDesc D
  data : DataObj S C
  members : Nat → Members
  bufs : Spec.Buffers S
  memory : ε

/-- /repo/nbody/nbody_engine_simple.cpp:32-53, what `init` stores into the state buffer: all `x`, all `y`, all `z`, then
the velocities likewise. -/
def packState (d : DataObj S C) : Nat → S := fun j =>
  let v := if j / d.count < 3 then d.vrt else d.vel
  match v[j % d.count]? with
  | none => 0
  | some r => if j / d.count % 3 = 0 then r.x else if j / d.count % 3 = 1 then r.y else r.z

/-- /repo/nbody/nbody_engine_simple.cpp:58-79, `get_data`: one of the two vectors of every body; `first` is 0 for
positions and 3 for velocities. -/
def unpackState (count first : Nat) (y : Nat → S) : List (Vec3 S) :=
  (List.range count).map fun i => ⟨y (first * count + i), y ((first + 1) * count + i), y ((first + 2) * count + i)⟩

variable (X : SimEnv S D ε)

/-- A call on an engine with a memory: only `fcompute` uses it (/repo/nbody/nbody_engine.h:45-86). -/
def callMem (deriv : (Nat → S) → ε → (Nat → S) × ε) (n : Nat) (V : Spec.Buffers S) (m : ε) :
    Call S → Spec.Buffers S × ε
  | .fcompute y f => (Spec.put V f (deriv (V y) m).1, (deriv (V y) m).2)
  | c => (Spec.call (fun _ _ => 0) n V c, m)

/-- A program on an engine with a memory.
No counterpart of its own in /repo: calls of /repo/nbody/nbody_engine.h:33-60 on the memory of the engine. -/
def evalMem {α : Type} (deriv : (Nat → S) → ε → (Nat → S) × ε) (nrm : (Nat → S) → S) (n : Nat) :
    Act S α → Spec.Buffers S → ε → α × Spec.Buffers S × ε
  | .ret a, V, m => (a, V, m)
  | .call c k, V, m => evalMem deriv nrm n k (callMem deriv n V m c).1 (callMem deriv n V m c).2
  | .norm h k, V, m => evalMem deriv nrm n (k (nrm (V h))) V m

/-- `fcompute` of the engine on the `6 * count` numbers of a buffer (/repo/nbody/nbody_engine.h:45).  Simplification: the
step counter is that at the beginning of `advise` (the inner steps of Bulirsch-Stoer count as well). -/
def SimEnv.fcompute (z : SimSt S C D ε) (y : Nat → S) (m : ε) : (Nat → S) × ε :=
  let r := X.deriv z.engine z.data.step z.data.mass ((List.range (6 * z.data.count)).map y) m
  (fun j => r.1.getD j 0, r.2)

/-- `fmaxabs` of the engine (/repo/nbody/nbody_engine.h:86). -/
def SimEnv.fmaxabs (z : SimSt S C D ε) (y : Nat → S) : S := X.nrm ((List.range (6 * z.data.count)).map y)

/-- /repo/test/main/main.cpp:66-108: the objects before `run`.  Simplification: `init` succeeds. -/
def SimEnv.start (e : EngineDesc D) (s : SolverDesc D) (d : DataObj S C) : SimSt S C D ε where
  engine := e
  solver := s
  data := d
  members := fun _ => Members.new
  bufs := Spec.put X.junk (X.layout 0 .y) (packState d)
  memory := X.fresh

/-- `advise(dt)`: the calls of the solver, and `advise_time` of the data object
(/repo/nbody/nbody_data.cpp:177-181; every solver leaves the time one `dt` later, C13; the step counter counts the
calls of `advise_time`, inner ones of Bulirsch-Stoer included). -/
def SimEnv.advise (dt : S) (z : SimSt S C D ε) : SimSt S C D ε :=
  let r := evalMem (X.fcompute z) (X.fmaxabs z) z.data.count (z.solver.calls X 0 dt z.members) z.bufs z.memory
  { z with members := r.1.1, bufs := r.2.1, memory := r.2.2,
           data := { z.data with time := z.data.time + dt, step := wrap64 (z.data.step + r.1.2) } }

/-- `m_engine->clamp(m_engine->get_y(), data->get_box_size())` (/repo/nbody/nbody_solver.cpp:77). -/
def SimEnv.clamp (z : SimSt S C D ε) : SimSt S C D ε :=
  { z with bufs := Spec.call (fun _ _ => 0) z.data.count z.bufs
             (.clamp (X.layout 0 .y) (FOps.lit z.data.box)) }

/-- `m_engine->get_data(data)`, and the data object as the stream sees it.
(Called at /repo/nbody/nbody_solver.cpp:64-65,95-96.) -/
def SimEnv.getData (z : SimSt S C D ε) : Snap S C where
  count := z.data.count
  vrt := unpackState z.data.count 0 (z.bufs (X.layout 0 .y))
  vel := unpackState z.data.count 3 (z.bufs (X.layout 0 .y))
  mass := z.data.mass
  color := z.data.color
  time := z.data.time
  step := z.data.step
  box := z.data.box

/-- The program with this simulation; `M` gives everything else.
(/repo/test/main/main.cpp.) -/
def MainEnv.withSim {K σ : Type} (M : MainEnv S C D K σ) : MainEnv S C D S (SimSt S C D ε) where
  build := M.build
  conv := M.conv
  depth := M.depth
  text := M.text
  black := M.black
  white := M.white
  green := M.green
  color1 := M.color1
  color2 := M.color2
  si := M.si
  adk := M.adk
  toSize := M.toSize
  pow3 := M.pow3
  draws := M.draws
  toCoord := X.toCoord
  toClock := X.toCoord
  start := fun e s d => some (X.start e s d)
  time := fun z => z.data.time
  clamp := X.clamp
  advise := X.advise
  getData := X.getData

end

end NB
