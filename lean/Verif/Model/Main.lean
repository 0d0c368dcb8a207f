import Verif.Model.Factory
import Verif.Model.Universe
import Verif.Model.Run

/-
The program itself: `main` of /repo/test/main/main.cpp.

Simplifications: file operations succeed except that a file to be read may be missing; console output (`verbose`,
the check list, `print_statistics`) is left out; engine and solver are given by what `run` uses of them.
-/

namespace NB

/-- Everything `main` takes from outside: the build and its factories, number formats, the constants of
`nbody_data`, and the simulation.  `S` are the numbers of a data object, `K` those of the clock and the run loop (in
the code both are `nbcoord_t`), `D` is `double`, `σ` the joint state of engine, solver and data object.
(What /repo/test/main/main.cpp calls.) -/
structure MainEnv (S C D K σ : Type) where
  build : Build
  conv : Conv String D
  /-- nested calls of `nbody_create_solver` the stack has room for -/
  depth : Nat
  text : TextOps S
  black : C
  white : C
  green : C
  color1 : C
  color2 : C
  si : S
  adk : S
  toSize : S → Res Nat
  pow3 : S → S
  draws : List (Vec3 S)
  /-- `double` to `nbcoord_t` -/
  toCoord : D → S
  toClock : D → K
  /-- `nbody_create_engine`'s and `nbody_create_solver`'s objects, `engine->init(&data)` and `set_engine`; `none` when
  `init` fails -/
  start : EngineDesc D → SolverDesc D → DataObj S C → Option σ
  time : σ → K
  clamp : σ → σ
  advise : K → σ → σ
  /-- the data object after `engine->get_data(&data)`, as the stream sees it -/
  getData : σ → Snap S C

/-- /repo/nbody/nbody_data.cpp:18-33, a new data object. -/
def emptyData (S C : Type) [Zero S] : DataObj S C := ⟨0, 0, 0, 0, [], [], [], [], []⟩

section
variable {S C D K σ : Type} [Raw S] [Raw C]

/-- `stream->write(data)` (/repo/nbody/nbody_solver.cpp:65, 94) on the files. -/
def streamWrite (T : TextOps S) (d : Snap S C) (w : Writer × Files) : Bool × (Writer × Files) :=
  match w.1.write T d with
  | none => (false, w)
  | some (ops, w') => (true, (w', applyOps ops w.2))

/-- What `solver->run` uses (/repo/test/main/main.cpp:123). -/
def MainEnv.runEnv (M : MainEnv S C D K σ) : RunEnv σ (Snap S C) (Writer × Files) K where
  time := M.time
  clamp := M.clamp
  advise := M.advise
  getData := M.getData
  write := streamWrite M.text

/-- /repo/test/main/main.cpp:19-21, 123: the arguments of `run`, and the settings of the solver it reads. -/
def MainEnv.runConf (M : MainEnv S C D K σ) (param : Params String) (s : SolverDesc D) : RunConf K where
  dt := M.toClock s.step.maxStep
  maxTime := M.toClock (param.get "max_time" M.conv.toDouble (M.conv.dec 1 0))
  dumpDt := M.toClock (param.get "dump_step" M.conv.toDouble (M.conv.dec 1 (-2)))
  checkDt := M.toClock (param.get "check_step" M.conv.toDouble (M.conv.dec 1 (-1)))
  hasStream := true
  clampToBox := s.step.clamp

/-- Conversion of `size_t` to the parameter `qint64 max_part_size` (/repo/nbody/nbody_data_stream.h). -/
def partSize (n : Nat) : Int := if n < 2 ^ 63 then (n : Int) else (n : Int) - 2 ^ 64

variable [Zero S]

/-- What `read` leaves in a data object that was resized for it (/repo/test/main/main.cpp:44-45,
/repo/nbody/nbody_data_stream_reader.cpp:290-349). -/
def readInto (black : C) (n : Nat) (o : ReadOut S C) : DataObj S C :=
  let d := (emptyData S C).resize black n
  { d with vrt := o.vrt, vel := o.vel, time := o.time, step := o.step,
           color := o.color.getD d.color, mass := o.mass.getD d.mass }

/-- /repo/test/main/main.cpp:31-50, resuming: the data object and the number of the last part; `none` for
`return -1`. -/
def MainEnv.resumeData (M : MainEnv S C D K σ) (fs : Files) (name : FName) : Res (Option (DataObj S C × Nat)) :=
  let q := (Reader.new : Reader S).load M.text fs name
  if q.1 = false then .ok none
  else
    let s := q.2.seek fs (wrap64 (q.2.frameCount + (2 ^ 64 - 1)))
    if s.1 = false then .ok none
    else
      match s.2.read C fs s.2.bodyCount with
      | .error u => .error u
      | .ok (none, _) => .ok none
      | .ok (some o, r) => .ok (some (readInto M.black s.2.bodyCount o, r.lastFileN))

variable [One S] [Add S] [Sub S] [Mul S] [Neg S] [Div S] [FOps S]

/-- /repo/test/main/main.cpp:53-64, the start of a run that is not resumed.  A file that cannot be opened is refused
by all loaders.  When the model's list of random triples ends before the generator does, the model has no result. -/
def MainEnv.freshData (M : MainEnv S C D K σ) (fs : Files) (param : Params String) : Res (Option (DataObj S C)) :=
  let initial := param.get "initial_state" M.conv.toStr ""
  if initial ≠ "" then
    match fs.txt initial.toList with
    | none => .ok none
    | some t =>
      match (emptyData S C).loadInitial M.text M.black M.white M.si M.adk M.toSize t
          (param.get "initial_type" M.conv.toStr "Zeno").toList with
      | .error u => .error u
      | .ok (false, _) => .ok none
      | .ok (true, d) => .ok (some d)
  else
    let box := M.toCoord (param.get "box_size" M.conv.toDouble (M.conv.dec 100 0))
    match (emptyData S C).makeUniverse M.pow3 M.toSize M.green M.color1 M.color2 M.draws
        (param.get "stars_count" M.conv.toUInt (M.conv.toUInt "64")) box box box with
    | none => .error .noReturn
    | some (.error u) => .error u
    | some (.ok d) => .ok (some d)

/-- /repo/test/main/main.cpp:22-64: the data object, the name of the output, and the last part when resuming. -/
def MainEnv.initialData (M : MainEnv S C D K σ) (fs : Files) (param : Params String) :
    Res (Option (DataObj S C × FName × Option Nat)) :=
  let resume := param.get "resume" M.conv.toStr ""
  if resume ≠ "" then
    match M.resumeData fs resume.toList with
    | .error u => .error u
    | .ok none => .ok none
    | .ok (some (d, n)) => .ok (some (d, resume.toList, some n))
  else
    match M.freshData fs param with
    | .error u => .error u
    | .ok none => .ok none
    | .ok (some d) =>
      .ok (some (d, (param.get "output" M.conv.toStr "/tmp/nbody/main-stream").toList, none))

variable [Zero K] [Add K] [Sub K] [Mul K] [LT K] [LE K] [DecidableLT K] [DecidableLE K] [OfScientific K]

/-- /repo/test/main/main.cpp:13-124 after the command line has been read: the exit code and the files afterwards.
`fuel` bounds the number of steps. -/
def MainEnv.mainWith (M : MainEnv S C D K σ) (param : Params String) (fuel : Nat) (fs : Files) :
    Res (ℤ × Files) :=
  match M.initialData fs param with
  | .error u => .error u
  | .ok none => .ok (-1, fs)
  | .ok (some (d, name, part)) =>
    match createEngine M.build M.conv param with
    | none => .ok (-1, fs)
    | some e =>
      match createSolver M.conv id M.depth param with
      | .error u => .error u
      | .ok none => .ok (-1, fs)
      | .ok (some s) =>
        match M.start e s d with
        | none => .ok (-1, fs)
        | some s0 =>
          let o := Writer.new.open name
            (partSize (param.get "max_part_size" M.conv.toULongLong (2 ^ 30))) part fs
          match solverRun M.runEnv (M.runConf param s) fuel s0 (o.2, applyOps o.1 fs) with
          | .error u => .error u
          | .ok (z, q) => .ok (z, q.stream.2)

/-- /repo/test/main/main.cpp:13-124, `main`. -/
def MainEnv.main (M : MainEnv S C D K σ) (argv : List String) (fuel : Nat) (fs : Files) : Res (ℤ × Files) :=
  M.mainWith (parseArguments argv) fuel fs

end

end NB
