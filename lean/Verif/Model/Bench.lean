import Verif.Model.Player
import Verif.Model.Run
import Verif.Model.Factory

/-
Model of the benchmark program and of the comparison of the solar system with its ephemeris
(/repo/test/bench/bench.h, /repo/test/solar/main.cpp).  Arithmetic is exact, except that the mean over no bodies is
not a number.
-/

namespace NB

/-- /repo/test/bench/bench.h:17-22, the body of the loop of `compare_data`: the running total and maximum. -/
noncomputable def compareStep (a b : List (Vec3 ℝ)) (n : ℕ) (s : ℝ × ℝ) : Res (ℝ × ℝ) := do
  let x ← rd a n
  let y ← rd b n
  let diff := (x - y).length
  pure (s.1 + diff, max s.2 diff)

/-- /repo/test/bench/bench.h:10-24, `compare_data`. -/
noncomputable def compareData (a b : List (Vec3 ℝ)) (count : ℕ) : Res (Quo × ℝ) := do
  let s ← forN count (0, 0) (compareStep a b)
  pure (quo s.1 count, s.2)

/-- The entries `T` and `dR` of a `QVariantMap` of the table, /repo/test/solar/main.cpp:241-243,332-334. -/
structure TableCell where
  T : ℝ
  dR : Quo

/-- `push` of the two visitors, /repo/test/solar/main.cpp:239-245,330-336: appends to row `n`. -/
def pushCell (result : List (List TableCell)) (n : ℕ) (c : TableCell) : Res (List (List TableCell)) := do
  let row ← rd result n
  wr result n (row ++ [c])

/-- /repo/test/solar/main.cpp:206-219, the members of `nbody_step_visitor_comparator`; of `m_expected_data` the
positions, of `m_params` the entry `name`. -/
structure Comparator where
  expected : List (Vec3 ℝ) := []
  result : List (List TableCell) := []
  variable' : List ℝ := []
  params : List String := []
  minDr : ℝ := 1e30
  minDrTime : ℝ := 0

/-- /repo/test/solar/main.cpp:226-238, `load_init` on a fresh object.  `loaded` is the outcome of `load_initial` and
the positions the data object holds after it. -/
noncomputable def Comparator.loadInit (loaded : Bool × List (Vec3 ℝ)) : Bool × Comparator :=
  let count := loaded.2.length
  (loaded.1, { expected := loaded.2
               result := List.replicate (count + 1) []
               params := (List.range count).map toString ++ ["mean"] })

/-- /repo/test/solar/main.cpp:255-260: the column of a visit. -/
noncomputable def Comparator.record (t : ℝ) (vert : List (Vec3 ℝ)) (mean : Quo) (c : Comparator) : Res Comparator := do
  let result ← forN vert.length c.result fun i result => do
    let x ← rd vert i
    let y ← rd c.expected i
    pushCell result i ⟨t, .num (x.distance y)⟩
  let result ← pushCell result vert.length ⟨t, mean⟩
  pure { c with result := result, variable' := c.variable' ++ [t] }

open Classical in
/-- /repo/test/solar/main.cpp:262-266; a comparison with a NaN is false. -/
noncomputable def Comparator.keepMin (t : ℝ) (mean : Quo) (c : Comparator) : Comparator :=
  match mean with
  | .num x => if x < c.minDr then { c with minDr := x, minDrTime := t } else c
  | .inf => c
  | .nan => c

open Classical in
/-- /repo/test/solar/main.cpp:246-267, `visit`; `vert` are the positions of the data object, `time` its time. -/
noncomputable def Comparator.visit (time : ℝ) (vert : List (Vec3 ℝ)) (c : Comparator) : Res Comparator := do
  let dr ← compareData vert c.expected vert.length
  let c ← if 3002 < time / 365 then c.record (time / 365) vert dr.1 else pure c
  pure (c.keepMin (time / 365) dr.1)

/-- The visits of a run, /repo/nbody/nbody_solver.cpp:86-89: every check calls `visit` with the data object, whose
time and positions are the elements of the list. -/
noncomputable def Comparator.visits (l : List (ℝ × List (Vec3 ℝ))) (c : Comparator) : Res Comparator :=
  l.foldlM (fun c v => c.visit v.1 v.2) c

/-- /repo/test/solar/main.cpp:318-326, the members of `nbody_step_visitor_orbit_dump`. -/
structure OrbitDump where
  result : List (List TableCell) := []
  variable' : List ℝ := []
  params : List String := []

/-- /repo/test/solar/main.cpp:337-356, `visit`. -/
noncomputable def OrbitDump.visit (time : ℝ) (vert : List (Vec3 ℝ)) (c : OrbitDump) : Res OrbitDump := do
  let t := time / 365
  let count := vert.length
  let c : OrbitDump :=
    if c.result.isEmpty then
      { c with result := List.replicate count [], params := (List.range count).map toString }
    else c
  let result ← forN count c.result fun i result => do
    let x ← rd vert i
    pushCell result i ⟨t, .num x.length⟩
  pure { c with result := result, variable' := c.variable' ++ [t] }

/-- The visits of a run, /repo/nbody/nbody_solver.cpp:86-89. -/
noncomputable def OrbitDump.visits (l : List (ℝ × List (Vec3 ℝ))) (c : OrbitDump) : Res OrbitDump :=
  l.foldlM (fun c v => c.visit v.1 v.2) c

/-- /repo/test/bench/bench.h:162-190 and 242-273: the name and the cells of every row, as both formats print them.
Simplification: the header, the styles and the formatting of the numbers are left out. -/
def printTable {γ : Type} (params : List String) (variableSize : ℕ) (result : List (List γ)) :
    Res (List (String × List γ)) :=
  (List.range result.length).mapM fun i => do
    let name ← rd params i
    let row ← rd result i
    let cells ← (List.range variableSize).mapM fun j => rd row j
    pure (name, cells)

/-- /repo/test/bench/bench.h:343-354, one run of the inner loop: `none` is `return -1`.  The state holds `max_time`,
which the loop overwrites, and the table.  `run` is the function of bench.h:50-142, whose result is `isEmpty` when it
fails. -/
def benchCell {V D R : Type} (run : Params V → D → R) (isEmpty : R → Bool) (toDouble : V → D)
    (params : List (Params V)) (vars : List V) (field : String) (i j : ℕ)
    (s : Bool × D × List (List R)) : Res (Bool × D × List (List R)) := do
  if s.1 then do
    let p ← rd params i
    let v ← rd vars j
    let maxTime := if field = "max_time" then toDouble v else s.2.1
    let r := run (p.insert field v) maxTime
    let row ← rd s.2.2 i
    let row ← wr row j r
    let result ← wr s.2.2 i row
    pure (!isEmpty r, maxTime, result)
  else pure s

/-- /repo/test/bench/bench.h:308-359, `run_bench`: the return value and the table.  Simplification: the parameters
it prints first are left out; the loops after a failure are passed through without effect. -/
def runBench {V D R : Type} (run : Params V → D → R) (isEmpty : R → Bool) (toDouble : V → D)
    (params : List (Params V)) (vars : List V) (field : String) (maxTime : D) (result : List (List R)) :
    Res (ℤ × List (List R)) := do
  let s ← forN params.length (true, maxTime, result) fun i s =>
    forN vars.length s fun j s => benchCell run isEmpty toDouble params vars field i j s
  pure (if s.1 then 0 else -1, s.2.2)

/-- What the data object holds after /repo/test/bench/bench.h:41-42: `get_data` is called by the first
`print_statistics` and then at every check (/repo/nbody/nbody_data.cpp:60-64, /repo/nbody/nbody_solver.cpp:84), since
there is no stream.  `φ` is the contents of the data object other than its time. -/
def benchRun {σ φ K : Type} [Zero K] [Add K] [Sub K] [Mul K] [LT K] [LE K] [DecidableLT K] [DecidableLE K]
    [OfScientific K] (E : RunEnv σ φ Unit K) (clampToBox : Bool) (dt maxTime checkStep : K) (fuel : ℕ) (s : σ) :
    Res (σ × φ) := do
  let first := E.getData s
  let r ← solverRun E ⟨dt, maxTime, 0, checkStep, false, clampToBox⟩ fuel s ()
  pure (r.2.s, r.2.checks.getLastD first)

/-- /repo/test/bench/bench.h:92-93: `check_step` is `max_time` unless it is given. -/
def benchCheckStep {K : Type} (given : Option K) (maxTime : K) : K := given.getD maxTime

/-- /repo/test/bench/bench.h:126-140: the entries `dR`, `dR_max`, `dV`, `dV_max`; `none` when they are not set. -/
noncomputable def benchCompare (vert vel expVert expVel : List (Vec3 ℝ)) : Res (Option (Quo × ℝ × Quo × ℝ)) :=
  let count := vert.length
  if expVert.length = count then do
    let dr ← compareData vert expVert count
    let dv ← compareData vel expVel count
    pure (some (dr.1, dr.2, dv.1, dv.2))
  else pure none

end NB
