import Verif.Model.GpuMax
import Verif.Model.BulirschStoer
import Verif.Model.Reduction

/-
What the solvers ask of an engine: the `advise` functions of /repo/nbody/nbody_solver_*.cpp as sequences of calls
on buffers.  Model/Solvers.lean models the same functions by the values they compute.

Simplifications: the buffers have been created; the clock (`get_time`, `advise_time`, C13) is left out, because
`fcompute` of every engine ignores its time argument (`Q_UNUSED(t)`: /repo/nbody/nbody_engine_simple.cpp:118,
/repo/nbody/nbody_engine_openmp.cpp:21, /repo/nbody/nbody_engine_block.cpp:16,
/repo/nbody/nbody_engine_opencl.cpp:662, /repo/nbody/nbody_engine_cuda.cpp:204).
-/

namespace NB

/-- A program of calls; `norm h k` is `fmaxabs(h, r)` with `r` given to the rest.
(The calls of /repo/nbody/nbody_engine.h:33-60 in the solvers.) -/
inductive Act (S : Type) (α : Type) : Type where
  | ret : α → Act S α
  | call : Call S → Act S α → Act S α
  | norm : Handle → (S → Act S α) → Act S α

namespace Act

variable {S α β : Type}

/-- Sequential composition.
No counterpart of its own in /repo: `;` of C++, for the bodies of `advise` in /repo/nbody/nbody_solver_rk4.cpp:19-48 and so on. -/
def bind : Act S α → (α → Act S β) → Act S β
  | ret a, f => f a
  | call c k, f => call c (bind k f)
  | norm h k, f => norm h (fun r => bind (k r) f)

instance : Monad (Act S) where
  pure := ret
  bind := bind

/-- One call.
(The functions of /repo/nbody/nbody_engine.h:33-60.) -/
def op (c : Call S) : Act S Unit := call c (ret ())

/-- `fmaxabs` (/repo/nbody/nbody_engine.h:86). -/
def maxabs (h : Handle) : Act S S := norm h ret

end Act

/-- An engine as solvers see it, with its own state `σ` (the buffers): /repo/nbody/nbody_engine.h:58-86. -/
structure EngineOps (S σ : Type) where
  call : Call S → σ → Res σ
  maxabs : Handle → σ → Res (Option S × σ)

/-- A program run on an engine.  The result variable of `fmaxabs` is zero before the call
(/repo/nbody/nbody_solver_rk_butcher.cpp:205). -/
def Act.run {S α σ : Type} [Zero S] (E : EngineOps S σ) : Act S α → σ → Res (α × σ)
  | .ret a, s => .ok (a, s)
  | .call c k, s => do
    let s ← E.call c s
    Act.run E k s
  | .norm h k, s => do
    let r ← E.maxabs h s
    Act.run E (k (r.1.getD 0)) r.2

/-- The buffers a solver works with: the state of the engine (`get_y()`), the arrays `m_k`, `m_f`, `m_fu`, the
array `m_y_stack` or `m_uv`, and the single buffers; for Bulirsch-Stoer also `m_y0` and the buffers of the
extrapolator, `m_table`, `m_table_prev` and `m_diff`.
(/repo/nbody/nbody_solver_adams.h:11-16, /repo/nbody/nbody_solver_rk_butcher.h:9-21, /repo/nbody/nbody_solver_midpoint_stetter.h:17-21, /repo/nbody/nbody_solver_bulirsch_stoer.h:15-20.) -/
inductive Slot where
  | y
  | k (i : Nat)
  | stack (i : Nat)
  | t
  | tmpk
  | ycorr
  | tcorr
  | y0
  | table (i : Nat)
  | prev (i : Nat)
  | diff
  deriving DecidableEq

section
variable {S : Type} [Add S] [Sub S] [Mul S] [Div S] [Zero S] [FOps S]

open Act

/-- The first `n` buffers of the array `m_k`.
(/repo/nbody/nbody_solver_rk_butcher.h:9-21.) -/
def kbufs (h : Slot → Handle) (n : Nat) : List Handle := (List.range n).map fun i => h (.k i)

/-- /repo/nbody/nbody_solver_euler.cpp:19-32, `advise`. -/
def eulerCalls (h : Slot → Handle) (dt : S) : Act S Unit := do
  op (.fcompute (h .y) (h (.k 0)))
  op (.fmaddInplace (h .y) (h (.k 0)) dt)

/-- /repo/nbody/nbody_solver_midpoint.cpp:22-40, `advise`. -/
def midpointCalls (h : Slot → Handle) (dt : S) : Act S Unit := do
  op (.fcompute (h .y) (h (.k 0)))
  op (.fmadd (h .t) (h .y) (h (.k 0)) (dt / FOps.lit 2))
  op (.fcompute (h .t) (h (.k 1)))
  op (.fmaddInplace (h .y) (h (.k 1)) dt)

/-- /repo/nbody/nbody_solver_rk4.cpp:19-48, `advise`. -/
def rk4Calls (h : Slot → Handle) (dt : S) : Act S Unit := do
  op (.fcompute (h .y) (h (.k 0)))
  op (.fmadd (h .t) (h .y) (h (.k 0)) (dt / FOps.lit 2))
  op (.fcompute (h .t) (h (.k 1)))
  op (.fmadd (h .t) (h .y) (h (.k 1)) (dt / FOps.lit 2))
  op (.fcompute (h .t) (h (.k 2)))
  op (.fmadd (h .t) (h .y) (h (.k 2)) dt)
  op (.fcompute (h .t) (h (.k 3)))
  op (.fmaddnInplace (h .y) (kbufs h 4)
    [dt / FOps.lit 6, dt / FOps.lit 3, dt / FOps.lit 3, dt / FOps.lit 6] 4)

/-- /repo/nbody/nbody_solver_trapeze.cpp:26-56, `advise`; `refine` is `m_refine_steps_count`. -/
def trapezeCalls (h : Slot → Handle) (refine : Nat) (dt : S) : Act S Unit := do
  op (.fcompute (h .y) (h (.k 0)))
  op (.fmadd (h .t) (h .y) (h (.k 0)) dt)
  forN (refine + 1) () (fun s _ => do
    op (.fcompute (h .t) (h (.k 1)))
    (if s = refine then op (.fmaddnInplace (h .y) (kbufs h 2) [dt / FOps.lit 2, dt / FOps.lit 2] 2)
    else op (.fmaddn (h .t) (some (h .y)) (kbufs h 2) [dt / FOps.lit 2, dt / FOps.lit 2] 2) : Act S Unit))

/-- Members of `nbody_solver_midpoint_stetter` besides the buffers: `allocated` is `!m_fu.empty()`; `swapped` says
that `m_fu[0]` and `m_fu[1]` have changed places.
(/repo/nbody/nbody_solver_midpoint_stetter.h:17-21.) -/
structure StetterFlags where
  allocated : Bool
  initiated : Bool
  swapped : Bool

/-- `m_fu[i]`.
(/repo/nbody/nbody_solver_midpoint_stetter.h:17-21.) -/
def stetterFu (h : Slot → Handle) (s : StetterFlags) (i : Nat) : Handle :=
  h (.k (if s.swapped then 1 - i else i))

/-- /repo/nbody/nbody_solver_midpoint_stetter.cpp:23-71, `advise`; `m_uv` is the array `stack`, `m_du` is
`tmpk`. -/
def stetterCalls (h : Slot → Handle) (dt : S) (s : StetterFlags) : Act S StetterFlags := do
  let first := !s.allocated || !s.initiated
  (if first then do
    op (.copy (h (.stack 0)) (h .y))
    op (.copy (h (.stack 1)) (h .y))
    op (.fcompute (h (.stack 0)) (stetterFu h s 0))
  else pure () : Act S Unit)
  op (.fmadd (h .t) (h (.stack 1)) (stetterFu h s 0) (dt / FOps.lit 2))
  op (.fcompute (h .t) (h .tmpk))
  op (.fmaddInplace (h (.stack 0)) (h .tmpk) dt)
  op (.fcompute (h (.stack 0)) (stetterFu h s 1))
  op (.fmaddnInplace (h (.stack 1)) [stetterFu h s 0, stetterFu h s 1] [dt / FOps.lit 2, dt / FOps.lit 2] 2)
  op (.fmaddn (h .y) none [h (.stack 0), h (.stack 1)]
    [FOps.lit 1 / FOps.lit 2, FOps.lit 1 / FOps.lit 2] 2)
  pure ⟨true, true, !s.swapped⟩

/-- /repo/nbody/nbody_solver_midpoint_stetter.cpp:73-76, `reset`. -/
def StetterFlags.reset (s : StetterFlags) : StetterFlags := { s with initiated := false }

/-- /repo/nbody/nbody_solver_adams.cpp:30-84, `advise`, for a row `al` of the table (32-38; `m_rank` is its
length), when the buffers exist.  `step` is `m_step`; the starter is any program, with members `keep` of its own. -/
def adamsCalls {α : Type} (h : Slot → Handle) (al : List S) (correction : Bool) (starter : Act S α) (keep : α) (dt : S)
    (step : Nat) : Act S (Nat × α) := do
  let rank := al.length
  let fnum := step % rank
  op (.fcompute (h .y) (h (.k fnum)))
  let r ← (if rank < step then do
    let coeff := foldN rank (fun _ => (0 : S)) (fun n coeff => upd coeff ((rank + fnum - n) % rank) (al.getD n 0 * dt))
    (if correction then op (.fmaddnCorr (h .y) (h .ycorr) (kbufs h rank) (buf rank coeff) rank)
    else op (.fmaddnInplace (h .y) (kbufs h rank) (buf rank coeff) rank))
    pure keep
  else starter : Act S α)
  pure (step + 1, r)

/-! ### Runge-Kutta with a Butcher table -/

/-- /repo/nbody/nbody_solver_rk_butcher.cpp:136-160: stage `i` of `sub_step_explicit`. -/
def rkStageCalls (h : Slot → Handle) (bt : BT S) (cf : RKConf S) (y : Handle) (dt : S) (i : Nat) : Act S Unit :=
  if i = 0 then op (.fcompute y (h (.k i)))
  else do
    let coeff := buf i fun n => dt * bt.a i n
    (if cf.correction then do
      op (.copy (h .tcorr) (h .ycorr))
      op (.copy (h .t) y)
      op (.fmaddnCorr (h .t) (h .tcorr) (kbufs h bt.steps) coeff i)
    else op (.fmaddn (h .t) (some y) (kbufs h bt.steps) coeff i) : Act S Unit)
    op (.fcompute (h .t) (h (.k i)))

/-- /repo/nbody/nbody_solver_rk_butcher.cpp:130-161, `sub_step_explicit`. -/
def rkExplicitCalls (h : Slot → Handle) (bt : BT S) (cf : RKConf S) (y : Handle) (dt : S) : Act S Unit :=
  forN bt.steps () (fun i _ => rkStageCalls h bt cf y dt i)

/-- /repo/nbody/nbody_solver_rk_butcher.cpp:104-113, first approach of the stages. -/
def rkFirstCalls (h : Slot → Handle) (bt : BT S) (y : Handle) (dt : S) : Act S Unit := do
  op (.fcompute y (h .tmpk))
  forN bt.steps () (fun i _ => do
    op (.fmadd (h .t) y (h .tmpk) (dt * bt.c i))
    op (.fcompute (h .t) (h (.k i))))

/-- /repo/nbody/nbody_solver_rk_butcher.cpp:116-127, one sweep of the iteration. -/
def rkRefineCalls (h : Slot → Handle) (bt : BT S) (y : Handle) (dt : S) : Act S Unit :=
  forN bt.steps () (fun i _ => do
    op (.fmaddn (h .t) (some y) (kbufs h bt.steps) (buf bt.steps fun n => dt * bt.a i n) bt.steps)
    op (.fcompute (h .t) (h (.k i))))

/-- /repo/nbody/nbody_solver_rk_butcher.cpp:97-128, `sub_step_implicit`. -/
def rkImplicitCalls (h : Slot → Handle) (bt : BT S) (cf : RKConf S) (first : Bool) (y : Handle) (dt : S) :
    Act S Unit := do
  (if first then rkFirstCalls h bt y dt else pure () : Act S Unit)
  forN cf.refine () (fun _ _ => rkRefineCalls h bt y dt)

/-- /repo/nbody/nbody_solver_rk_butcher.cpp:205-215: the error estimate. -/
def rkErrorCalls (h : Slot → Handle) (bt : BT S) : Act S S :=
  if bt.embedded then do
    op (.fmaddn (h .t) none (kbufs h bt.steps) (buf bt.steps fun n => bt.b2 n - bt.b1 n) bt.steps)
    maxabs (h .t)
  else pure 0

/-- /repo/nbody/nbody_solver_rk_butcher.cpp:234-245. -/
def rkAdvanceCalls (h : Slot → Handle) (bt : BT S) (cf : RKConf S) (y : Handle) (dt : S) : Act S Unit :=
  if cf.correction then
    op (.fmaddnCorr y (h .ycorr) (kbufs h bt.steps) (buf bt.steps fun n => bt.b2 n * dt) bt.steps)
  else op (.fmaddnInplace y (kbufs h bt.steps) (buf bt.steps fun n => bt.b2 n * dt) bt.steps)

/-- /repo/nbody/nbody_solver_rk_butcher.cpp:193-247: the loop of `sub_step`.  `fuel` is
`m_max_recursion - recursion_level`; `first` is `need_first_approach_k`, which is false in every recursive call
because `m_k` is not empty there. -/
def rkLoopCalls (h : Slot → Handle) (bt : BT S) (cf : RKConf S) :
    Nat → Bool → Nat → S → Handle → Act S Unit
  | fuel, first, count, dt, y =>
    forN count () (fun _ _ => do
      (if bt.implicit then rkImplicitCalls h bt cf first y dt else rkExplicitCalls h bt cf y dt : Act S Unit)
      let err ← rkErrorCalls h bt
      match fuel with
      | 0 => rkAdvanceCalls h bt cf y dt
      | fuel' + 1 =>
        if (bt.embedded && FOps.lt cf.minStep dt) && FOps.lt cf.threshold err then do
          let cur := h (.stack (cf.maxRecursion - (fuel' + 1)))
          op (.copy cur y)
          rkLoopCalls h bt cf fuel' false cf.subdivisions (dt / FOps.lit cf.subdivisions) cur
          op (.copy y cur)
        else rkAdvanceCalls h bt cf y dt)

/-- /repo/nbody/nbody_solver_rk_butcher.cpp:60-68,163-248, `advise`; `allocated` is `!m_k.empty()`. -/
def rkCalls (h : Slot → Handle) (bt : BT S) (cf : RKConf S) (dt : S) (allocated : Bool) : Act S Unit := do
  (if !allocated && cf.correction then do
    op (.fill (h .ycorr) 0)
    op (.fill (h .tcorr) 0)
  else pure () : Act S Unit)
  rkLoopCalls h bt cf cf.maxRecursion (!allocated) 1 dt (h .y)

end

/-! ### Bulirsch-Stoer -/

section
variable {S : Type} [Add S] [Sub S] [Mul S] [Neg S] [Div S] [Zero S] [FOps S]

open Act

/-- Members of `nbody_solver_bulirsch_stoer` and its parts besides the buffers; `swapped` says that `m_table` and
`m_table_prev` have changed places.
(/repo/nbody/nbody_solver_bulirsch_stoer.h:15-20, /repo/nbody/nbody_extrapolator.h:33-46.) -/
structure BSFlags where
  internal : StetterFlags
  swapped : Bool

/-- `m_table[j]`.
(/repo/nbody/nbody_extrapolator.h:33-70.) -/
def bsTable (h : Slot → Handle) (swapped : Bool) (j : Nat) : Handle := h (if swapped then .prev j else .table j)

/-- `m_table_prev[j]`.
(/repo/nbody/nbody_extrapolator.h:49-70.) -/
def bsPrev (h : Slot → Handle) (swapped : Bool) (j : Nat) : Handle := h (if swapped then .table j else .prev j)

/-- /repo/nbody/nbody_extrapolator.cpp:122-164, `update_table(k, y)` with the flag after the swap; `ss` are the counts
after the constructor.  C23 proves that the indices are in range. -/
def nevilleCalls (h : Slot → Handle) (ss : List Nat) (swapped : Bool) (k : Nat) : Act S Unit := do
  op (.copy (bsTable h swapped 0) (h .y))
  forN k () (fun j _ => do
    let step1 : S := FOps.lit (ss.getD k 0)
    let step2 : S := FOps.lit (ss.getD (k - j - 1) 0)
    let diff := step1 - step2
    op (.fmaddn (bsTable h swapped (j + 1)) none [bsTable h swapped j, bsPrev h swapped j]
      [step1 / diff, -step2 / diff] 2))

/-- /repo/nbody/nbody_solver_bulirsch_stoer.cpp:65-83, `compute_substep`. -/
def bsSubstepCalls (h : Slot → Handle) (steps : List Nat) (dt : S) (level : Nat) (s : BSFlags) : Act S BSFlags := do
  op (.copy (h .y) (h .y0))
  let cnt := steps.getD level 0
  let fl ← forN cnt s.internal.reset (fun _ fl => stetterCalls h (dt / FOps.lit cnt) fl)
  nevilleCalls h (extrSteps 2 steps) (!s.swapped) level
  pure ⟨fl, !s.swapped⟩

/-- The loop /repo/nbody/nbody_solver_bulirsch_stoer.cpp:101-117 from `level` on, with `rest` levels left.  The number
counts the calls of `m_internal->advise`, each of which advances the step counter. -/
def bsLevelCalls (h : Slot → Handle) (maxLevel : Nat) (threshold : S) (steps : List Nat) (dt : S) :
    Nat → Nat → BSFlags × Nat → Act S (BSFlags × Nat)
  | 0, _, s => pure s
  | rest + 1, level, s => do
    let fl ← bsSubstepCalls h steps dt level s.1
    let s' := (fl, s.2 + steps.getD level 0)
    if level < 2 then bsLevelCalls h maxLevel threshold steps dt rest (level + 1) s'
    else do
      op (.fmadd (h .diff) (bsTable h fl.swapped level) (bsTable h fl.swapped (level - 1)) (-FOps.lit 1))
      let maxdiff ← maxabs (h .diff)
      if FOps.lt maxdiff threshold || level == maxLevel - 1 then do
        op (.copy (h .y) (bsTable h fl.swapped level))
        pure s'
      else bsLevelCalls h maxLevel threshold steps dt rest (level + 1) s'

/-- /repo/nbody/nbody_solver_bulirsch_stoer.cpp:85-122, `advise`, when the parts exist. -/
def bsCalls (h : Slot → Handle) (maxLevel : Nat) (threshold : S) (steps : List Nat) (dt : S) (s : BSFlags) :
    Act S (BSFlags × Nat) := do
  op (.copy (h .y0) (h .y))
  bsLevelCalls h maxLevel threshold steps dt maxLevel 0 (s, 0)

end

/-! ### Engines -/

section
variable {S : Type} [Add S] [Sub S] [Mul S] [Neg S] [Div S] [Zero S] [One S] [FOps S]

/-- `nbody_engine_simple` and the engines that inherit its `fmaxabs`
(/repo/nbody/nbody_engine_simple.cpp:396-419). -/
def simpleOps (fc : Handle → Handle → Mem S → Res (Mem S)) (loop : Loop S) (n : Nat) : EngineOps S (Mem S) where
  call := hostCall fc loop n
  maxabs h m := do
    let r ← fmaxabs (6 * n) h m
    pure (r, m)

/-- `nbody_engine_openmp` and the engines that inherit its `fmaxabs`
(/repo/nbody/nbody_engine_openmp.cpp:271-297; `nbody_engine_block`, `nbody_engine_ah`,
`nbody_engine_simple_bh`).  The evaluation of the reduction may be another one in every state. -/
def openmpOps (fc : Handle → Handle → Mem S → Res (Mem S)) (loop : Loop S) (n : Nat) (bot : S)
    (sched : Mem S → Red) : EngineOps S (Mem S) where
  call := hostCall fc loop n
  maxabs h m := match m h with
    | none => .ok (none, m)
    | some l => do
      let r ← fmaxabsOmp bot (sched m) l
      pure (some r, m)

/-- `nbody_engine_opencl`: Model/GpuOps.lean and Model/GpuMax.lean.  Where `fmaxabs` creates its temporary
buffers does not matter.
(/repo/nbody/nbody_engine_opencl.cpp.) -/
def openclOps (g : Gpu) (launch : Launch S (DenseReg S)) (loop : Loop S) (hm hs out hb : Handle) (junk : S) :
    EngineOps S (Mem S) where
  call := g.call launch loop hm hs
  maxabs := g.fmaxabsOpenCL loop out hb junk

/-- `nbody_engine_cuda`: Model/GpuOps.lean and Model/GpuMax.lean.
(/repo/nbody/nbody_engine_cuda.cpp.) -/
def cudaOps (g : Gpu) (launch : Launch S (DenseReg S)) (loop : Loop S) (hm hs : Handle)
    (order : Mem S → Nat → MinMax) : EngineOps S (Mem S) where
  call := g.call launch loop hm hs
  maxabs h m := do
    let r ← g.fmaxabsCuda (order m) h m
    pure (r, m)

end

end NB
