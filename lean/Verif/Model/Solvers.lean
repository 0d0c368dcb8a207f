import Verif.Model.SolverOps
import Verif.Model.EngineBlock
import Mathlib.Order.Basic
import Mathlib.Order.Defs.LinearOrder

/-
Model of the time stepping schemes (/repo/nbody/nbody_solver_*.cpp), see Model/SolverOps.lean for the
view of the engine.
-/

namespace NB

section
variable {V K : Type} [Field K] [DecidableEq K] [AddCommGroup V] [Module K V]

/-- /repo/nbody/nbody_solver_euler.cpp:19-32, `advise`. -/
def eulerAdvise (F : ℕ → K → V → V) (dt : K) (e : Eng V K) : Eng V K :=
  let (dy, e) := e.fc F e.time e.y
  let e := { e with y := vfmadd e.y dy dt }
  e.adviseTime dt

/-- /repo/nbody/nbody_solver_midpoint.cpp:22-40, `advise`. -/
def midpointAdvise (F : ℕ → K → V → V) (dt : K) (e : Eng V K) : Eng V K :=
  let t := e.time
  let (k1, e) := e.fc F t e.y
  let tmp := vfmadd e.y k1 (dt / 2)
  let (k2, e) := e.fc F (t + dt / 2) tmp
  let e := { e with y := vfmadd e.y k2 dt }
  e.adviseTime dt

/-- /repo/nbody/nbody_solver_rk4.cpp:19-48, `advise`. -/
def rk4Advise (F : ℕ → K → V → V) (dt : K) (e : Eng V K) : Eng V K :=
  let t := e.time
  let (k0, e) := e.fc F t e.y
  let tmp := vfmadd e.y k0 (dt / 2)
  let (k1, e) := e.fc F (t + dt / 2) tmp
  let tmp := vfmadd e.y k1 (dt / 2)
  let (k2, e) := e.fc F (t + dt / 2) tmp
  let tmp := vfmadd e.y k2 dt
  let (k3, e) := e.fc F (t + dt) tmp
  let k : ℕ → V := fun i => if i = 0 then k0 else if i = 1 then k1 else if i = 2 then k2 else k3
  let coeff : ℕ → K := fun i =>
    if i = 0 then dt / 6 else if i = 1 then dt / 3 else if i = 2 then dt / 3 else dt / 6
  let e := { e with y := vfmaddnInplace 4 e.y k coeff }
  e.adviseTime dt

/-- The loop /repo/nbody/nbody_solver_trapeze.cpp:41-54: iteration `s` on (predictor, engine). -/
def trapezeIter (F : ℕ → K → V → V) (refine : ℕ) (t dt : K) (f0 : V) (s : ℕ) (st : V × Eng V K) :
    V × Eng V K :=
  let pred := st.1
  let (f1, e) := st.2.fc F t pred
  let f : ℕ → V := fun i => if i = 0 then f0 else f1
  let coeff : ℕ → K := fun _ => dt / 2
  if s = refine then (pred, { e with y := vfmaddnInplace 2 e.y f coeff })
  else (vfmaddn 2 pred (some e.y) f coeff, e)

/-- /repo/nbody/nbody_solver_trapeze.cpp:26-56, `advise`; `refine` is `m_refine_steps_count`. -/
def trapezeAdvise (F : ℕ → K → V → V) (refine : ℕ) (dt : K) (e : Eng V K) : Eng V K :=
  let t := e.time
  let (f0, e) := e.fc F t e.y
  let pred := vfmadd e.y f0 dt
  let st := foldN (refine + 1) (pred, e) (trapezeIter F refine t dt f0)
  st.2.adviseTime dt

/-- /repo/nbody/nbody_solver_stormer.cpp:13-57, `advise`: the body is commented out. -/
def stormerAdvise (_F : ℕ → K → V → V) (_dt : K) (e : Eng V K) : Eng V K := e

/-- Members of `nbody_solver_midpoint_stetter` that survive a call (/repo/nbody/nbody_solver_midpoint_stetter.h):
`allocated` is `!m_fu.empty()`. -/
structure Stetter (V : Type) where
  allocated : Bool
  initiated : Bool
  u : V
  v : V
  fu0 : V
  fu1 : V

/-- /repo/nbody/nbody_solver_midpoint_stetter.cpp:3-8: the constructor (buffer contents irrelevant). -/
def Stetter.new : Stetter V := ⟨false, false, 0, 0, 0, 0⟩

/-- /repo/nbody/nbody_solver_midpoint_stetter.cpp:73-76, `reset`. -/
def Stetter.reset (s : Stetter V) : Stetter V := { s with initiated := false }

/-- /repo/nbody/nbody_solver_midpoint_stetter.cpp:23-71, `advise`. -/
def stetterAdvise (F : ℕ → K → V → V) (dt : K) (s : Stetter V) (e : Eng V K) : Stetter V × Eng V K :=
  let t := e.time
  let firstRun := !s.allocated || !s.initiated
  let s := { s with allocated := true }
  let s := if firstRun then { s with u := e.y, v := e.y, initiated := true } else s
  let (fu0, e) := if firstRun then e.fc F t s.u else (s.fu0, e)
  let tmp := vfmadd s.v fu0 (dt / 2)
  let (du, e) := e.fc F (t + dt / 2) tmp
  let u := vfmadd s.u du dt
  let (fu1, e) := e.fc F (t + dt) u
  let fu : ℕ → V := fun i => if i = 0 then fu0 else fu1
  let v := vfmaddnInplace 2 s.v fu (fun _ => dt / 2)
  let uv : ℕ → V := fun i => if i = 0 then u else v
  let e := { e with y := vfmaddn 2 e.y none uv (fun _ => (1 : K) / 2) }
  -- std::swap(m_fu[1], m_fu[0])
  ({ s with u := u, v := v, fu0 := fu1, fu1 := fu0 }, e.adviseTime dt)

/-! ### Adams-Bashforth -/

/-- /repo/nbody/nbody_solver_adams.cpp:32-38: `ar[rank]`, `none` for the null entry and for indices
outside the array. -/
def adamsTable (rank : ℕ) : Option (List K) :=
  if rank = 1 then some [1]
  else if rank = 2 then some [3 / 2, -1 / 2]
  else if rank = 3 then some [23 / 12, -4 / 3, 5 / 12]
  else if rank = 4 then some [55 / 24, -59 / 24, 37 / 24, -3 / 8]
  else if rank = 5 then some [1901 / 720, -1387 / 360, 109 / 30, -637 / 360, 251 / 720]
  else none

/-- Members of `nbody_solver_adams` that survive a call; `σ` is the starter's own state.
(/repo/nbody/nbody_solver_adams.h:11-16.) -/
structure Adams (V σ : Type) where
  f : ℕ → V
  corr : V
  mstep : ℕ
  starter : σ

/-- The loop /repo/nbody/nbody_solver_adams.cpp:62-65 filling `coeff`. -/
def adamsCoeff (rank fnum : ℕ) (a : ℕ → K) (dt : K) : ℕ → K :=
  foldN rank (fun _ => 0) (fun n coeff => upd coeff ((rank + fnum - n) % rank) (a n * dt))

/-- /repo/nbody/nbody_solver_adams.cpp:30-84, `advise`.  `starter` is the starter's `advise`.
Reading `ar[m_rank]` outside the array and dereferencing its null entry, and `m_step % 0`, are
undefined.  `a` is only read at `n < rank`, the length of the row.  Simplification: `fill_buffer(m_corr_data, 0)` of the first call is the initial value of
`corr`. -/
def adamsAdvise {σ : Type} (F : ℕ → K → V → V) (starter : K → σ × Eng V K → Res (σ × Eng V K))
    (rank : ℕ) (correction : Bool) (dt : K) (s : Adams V σ) (e : Eng V K) :
    Res (Adams V σ × Eng V K) :=
  if rank = 0 then .error .divZero
  else if 5 < rank then .error .oob
  else
    match adamsTable (K := K) rank with
    | none => .error .null
    | some al => do
      let t := e.time
      let fnum := s.mstep % rank
      let (fv, e) := e.fc F t e.y
      let f := upd s.f fnum fv
      if rank < s.mstep then
        let coeff := adamsCoeff rank fnum (fun n => al.getD n 0) dt
        if correction then
          let r := vfmaddnCorr rank e.y s.corr f coeff
          let e := { e with y := r.1 }
          pure ({ s with f := f, corr := r.2, mstep := s.mstep + 1 }, e.adviseTime dt)
        else
          let e := { e with y := vfmaddnInplace rank e.y f coeff }
          pure ({ s with f := f, mstep := s.mstep + 1 }, e.adviseTime dt)
      else do
        let r ← starter dt (s.starter, e)
        pure ({ s with f := f, starter := r.1, mstep := s.mstep + 1 }, r.2)

/-- /repo/nbody/nbody_solver_adams.cpp:94-101, `reset` (the starter is not reset). -/
def Adams.reset {σ : Type} (s : Adams V σ) : Adams V σ := { s with corr := 0, mstep := 0 }

end

/-! ### Butcher tables and the adaptive Runge-Kutta solver -/

/-- /repo/nbody/nbody_butcher_table.h:7-20.  The arrays are functions of the index; C17 proves that for
every table of the repository the solver's loops stay inside the arrays. -/
structure BT (K : Type) where
  steps : ℕ
  a : ℕ → ℕ → K
  b1 : ℕ → K
  b2 : ℕ → K
  c : ℕ → K
  implicit : Bool
  embedded : Bool

/-- Settings of `nbody_solver_rk_butcher` (/repo/nbody/nbody_solver_rk_butcher.h:18-22) and `m_min_step`.
Simplification: they do not change after the first `advise`. -/
structure RKConf (K : Type) where
  maxRecursion : ℕ
  subdivisions : ℕ
  threshold : K
  refine : ℕ
  correction : Bool
  minStep : K

/-- Members of `nbody_solver_rk_butcher` that survive a call: `m_k`, `m_t`, the corrections, and whether
the buffers have been created.  `m_y_stack[level]` is overwritten before each use.
(/repo/nbody/nbody_solver_rk_butcher.h:9-21.) -/
structure RKState (V : Type) where
  allocated : Bool
  k : ℕ → V
  tbuf : V
  ycorr : V
  tcorr : V

section
variable {V K : Type} [Field K] [LinearOrder K] [AddCommGroup V] [Module K V]

/-- /repo/nbody/nbody_solver_rk_butcher.cpp:136-160: stage `i` of `sub_step_explicit`; the second
component counts derivative evaluations. -/
def rkStageExplicit (F : ℕ → K → V → V) (bt : BT K) (cf : RKConf K) (y : V) (t dt : K) (i : ℕ)
    (s : RKState V × ℕ) : RKState V × ℕ :=
  if i = 0 then ({ s.1 with k := upd s.1.k i (F s.2 (t + bt.c i * dt) y) }, s.2 + 1)
  else
    let coeff : ℕ → K := fun n => dt * bt.a i n
    let r : RKState V :=
      if cf.correction then
        let p := vfmaddnCorr i y s.1.ycorr s.1.k coeff
        { s.1 with tbuf := p.1, tcorr := p.2 }
      else { s.1 with tbuf := vfmaddn i s.1.tbuf (some y) s.1.k coeff }
    ({ r with k := upd r.k i (F s.2 (t + bt.c i * dt) r.tbuf) }, s.2 + 1)

/-- /repo/nbody/nbody_solver_rk_butcher.cpp:130-161, `sub_step_explicit`. -/
def rkExplicit (F : ℕ → K → V → V) (bt : BT K) (cf : RKConf K) (y : V) (t dt : K)
    (s : RKState V × ℕ) : RKState V × ℕ :=
  foldN bt.steps s (rkStageExplicit F bt cf y t dt)

/-- /repo/nbody/nbody_solver_rk_butcher.cpp:104-113, first approach of the stages. -/
def rkFirstApproach (F : ℕ → K → V → V) (bt : BT K) (y : V) (t dt : K) (s : RKState V × ℕ) :
    RKState V × ℕ :=
  let tmpk := F s.2 t y
  foldN bt.steps (s.1, s.2 + 1) (fun i s =>
    let tb := vfmadd y tmpk (dt * bt.c i)
    ({ s.1 with tbuf := tb, k := upd s.1.k i (F s.2 (t + bt.c i * dt) tb) }, s.2 + 1))

/-- /repo/nbody/nbody_solver_rk_butcher.cpp:116-127, one sweep of the fixed-point iteration. -/
def rkRefine (F : ℕ → K → V → V) (bt : BT K) (y : V) (t dt : K) (s : RKState V × ℕ) : RKState V × ℕ :=
  foldN bt.steps s (fun i s =>
    let tb := vfmaddn bt.steps s.1.tbuf (some y) s.1.k (fun n => dt * bt.a i n)
    ({ s.1 with tbuf := tb, k := upd s.1.k i (F s.2 (t + bt.c i * dt) tb) }, s.2 + 1))

/-- /repo/nbody/nbody_solver_rk_butcher.cpp:97-128, `sub_step_implicit`. -/
def rkImplicit (F : ℕ → K → V → V) (bt : BT K) (cf : RKConf K) (first : Bool) (y : V) (t dt : K)
    (s : RKState V × ℕ) : RKState V × ℕ :=
  let s := if first then rkFirstApproach F bt y t dt s else s
  foldN cf.refine s (fun _ s => rkRefine F bt y t dt s)

/-- /repo/nbody/nbody_solver_rk_butcher.cpp:196-203: the stages of one substep. -/
def rkStages (F : ℕ → K → V → V) (bt : BT K) (cf : RKConf K) (first : Bool) (y : V) (t dt : K)
    (s : RKState V × ℕ) : RKState V × ℕ :=
  if bt.implicit then rkImplicit F bt cf first y t dt s else rkExplicit F bt cf y t dt s

/-- /repo/nbody/nbody_solver_rk_butcher.cpp:205-215: the error estimate; `nrm` is `fmaxabs`
(/repo/nbody/nbody_engine_simple.cpp:396-419).  Returns the new `m_t` and `max_error`. -/
def rkError (nrm : V → K) (bt : BT K) (r : RKState V) : V × K :=
  if bt.embedded then
    let tb := vfmaddn bt.steps r.tbuf none r.k (fun n => bt.b2 n - bt.b1 n)
    (tb, nrm tb)
  else (r.tbuf, 0)

/-- /repo/nbody/nbody_solver_rk_butcher.cpp:234-245: `y` is advanced with the weights `b2`; returns the
new `y` and the new `m_ycorr_data`. -/
def rkAdvance (bt : BT K) (cf : RKConf K) (dt : K) (r : RKState V) (y : V) : V × V :=
  let coeff : ℕ → K := fun n => bt.b2 n * dt
  if cf.correction then vfmaddnCorr bt.steps y r.ycorr r.k coeff
  else (vfmaddnInplace bt.steps y r.k coeff, r.ycorr)

/-- What the loop of `sub_step` carries: the solver's buffers, the number of derivative evaluations,
the time and the state buffer it advances.
(/repo/nbody/nbody_solver_rk_butcher.cpp:163-248.) -/
structure SubSt (V K : Type) where
  r : RKState V
  cc : ℕ
  t : K
  y : V

/-- /repo/nbody/nbody_solver_rk_butcher.cpp:163-248, `sub_step`.  `fuel` is
`m_max_recursion - recursion_level`. -/
def rkSubStep (F : ℕ → K → V → V) (nrm : V → K) (bt : BT K) (cf : RKConf K) :
    ℕ → ℕ → K → SubSt V K → SubSt V K
  | fuel, count, dt, s =>
    let first := !s.r.allocated
    let s := { s with r := { s.r with allocated := true } }
    foldN count s (fun _ s =>
      let st := rkStages F bt cf first s.y s.t dt (s.r, s.cc)
      let er := rkError nrm bt st.1
      let r := { st.1 with tbuf := er.1 }
      match fuel with
      | 0 =>
        let p := rkAdvance bt cf dt r s.y
        { r := { r with ycorr := p.2 }, cc := st.2, t := s.t + dt, y := p.1 }
      | fuel' + 1 =>
        if (bt.embedded && decide (cf.minStep < dt)) && decide (cf.threshold < er.2) then
          let q := rkSubStep F nrm bt cf fuel' cf.subdivisions (dt / (cf.subdivisions : K))
            { r := r, cc := st.2, t := s.t, y := s.y }
          { q with t := s.t + dt }
        else
          let p := rkAdvance bt cf dt r s.y
          { r := { r with ycorr := p.2 }, cc := st.2, t := s.t + dt, y := p.1 })

/-- /repo/nbody/nbody_solver_rk_butcher.cpp:60-68, `advise`. -/
def rkAdvise (F : ℕ → K → V → V) (nrm : V → K) (bt : BT K) (cf : RKConf K) (dt : K)
    (r : RKState V) (e : Eng V K) : RKState V × Eng V K :=
  let q := rkSubStep F nrm bt cf cf.maxRecursion 1 dt { r := r, cc := e.cc, t := e.time, y := e.y }
  (q.r, ({ e with y := q.y, cc := q.cc } : Eng V K).adviseTime dt)

/-- The state right after construction (/repo/nbody/nbody_solver_rk_butcher.cpp:4-17 and the creation of
the zeroed correction buffers, 185-191). -/
def RKState.new : RKState V := ⟨false, fun _ => 0, 0, 0, 0⟩

/-- /repo/nbody/nbody_solver_rk_butcher.cpp:80-90, `reset`. -/
def RKState.reset (r : RKState V) : RKState V := { r with ycorr := 0, tcorr := 0 }

end

end NB
