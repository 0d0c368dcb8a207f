import Verif.Model.Factory

/-
Creation and release of the buffers a solver uses (/repo/nbody/nbody_engine.cpp:21-45 and the constructors,
`advise` and destructors of the solvers).  Only the objects are modelled here, not the numbers in them.
-/

namespace NB

/-- The buffers of an engine: how many times `create_buffer` was called, and the buffers not yet released.
The buffer created by call number `n` is called `n`.
(/repo/nbody/nbody_engine.h:23-31, `create_buffer` and `free_buffer` of /repo/nbody/nbody_engine_simple.cpp:201-209.) -/
structure Heap where
  calls : Nat
  live : List Nat

/-- `create_buffer` of an engine (/repo/nbody/nbody_engine.h:63, /repo/nbody/nbody_engine_simple.cpp:201-204
and the GPU engines); `fails n` tells whether call number `n` returns the null pointer, `none`.  The CPU engines
never return null. -/
def createBuffer (fails : Nat → Bool) (h : Heap) : Option Nat × Heap :=
  if fails h.calls then (none, { h with calls := h.calls + 1 })
  else (some h.calls, ⟨h.calls + 1, h.calls :: h.live⟩)

/-- `free_buffer`, `delete m` (/repo/nbody/nbody_engine_simple.cpp:206-209): nothing for the null pointer,
undefined for a buffer which is not allocated. -/
def freeBuffer (b : Option Nat) (h : Heap) : Res Heap :=
  match b with
  | none => .ok h
  | some n => if n ∈ h.live then .ok { h with live := h.live.erase n } else .error .badFree

/-- /repo/nbody/nbody_engine.cpp:38-45, `free_buffers`. -/
def freeBuffers : List Nat → Heap → Res Heap
  | [], h => .ok h
  | m :: ms, h =>
    match freeBuffer (some m) h with
    | .error u => .error u
    | .ok h' => freeBuffers ms h'

/-- The loop of /repo/nbody/nbody_engine.cpp:25-34: `n` buffers still to create, `mema` those created. -/
def createBuffersLoop (fails : Nat → Bool) : Nat → List Nat → Heap → Res (List Nat × Heap)
  | 0, mema, h => .ok (mema, h)
  | n + 1, mema, h =>
    match createBuffer fails h with
    | (none, h') =>
      match freeBuffers mema h' with
      | .error u => .error u
      | .ok h'' => .ok ([], h'')
    | (some m, h') => createBuffersLoop fails n (mema ++ [m]) h'

/-- /repo/nbody/nbody_engine.cpp:21-36, `create_buffers`. -/
def createBuffers (fails : Nat → Bool) (count : Nat) (h : Heap) : Res (List Nat × Heap) :=
  createBuffersLoop fails count [] h

/-- /repo/nbody/nbody_solver_midpoint_stetter.h: engine set, `m_tmp m_du m_fu m_uv`. -/
structure StetterObj where
  eng : Bool
  tmp : Option Nat
  du : Option Nat
  fu : List Nat
  uv : List Nat

/-- A solver object: whether `m_engine` is set (/repo/nbody/nbody_solver.h:14), and its buffer members.
* `euler`: /repo/nbody/nbody_solver_euler.h, `m_dy`
* `midpoint`: /repo/nbody/nbody_solver_midpoint.h, `m_k1 m_k2 m_tmp`
* `stetter`: see `StetterObj`
* `rk4`: /repo/nbody/nbody_solver_rk4.h, `m_k m_tmp`
* `trapeze`: /repo/nbody/nbody_solver_trapeze.h, `m_f m_predictor`
* `butcher`: /repo/nbody/nbody_solver_rk_butcher.h:10-22, with the number of stages, `m_max_recursion` and
  `m_correction`
* `bs`: /repo/nbody/nbody_solver_bulirsch_stoer.h, with `m_max_level`, `m_y0`, the Neville extrapolator
  (`m_table m_table_prev m_diff`, /repo/nbody/nbody_extrapolator.h) and `m_internal`
* `adams`: /repo/nbody/nbody_solver_adams.h:11-16 -/
inductive SolverObj where
  | euler (eng : Bool) (dy : Option Nat)
  | midpoint (eng : Bool) (k1 k2 tmp : Option Nat)
  | stetter (s : StetterObj)
  | rk4 (eng : Bool) (k : List Nat) (tmp : Option Nat)
  | trapeze (eng : Bool) (f : List Nat) (predictor : Option Nat)
  | butcher (eng : Bool) (steps maxRec : Nat) (corr : Bool) (k : List Nat) (t tmpk ycorr tcorr : Option Nat)
      (ystack : List Nat)
  | bs (eng : Bool) (levels : Nat) (y0 : Option Nat) (ext : Option (List Nat × List Nat × Option Nat))
      (internal : Option StetterObj)
  | adams (eng : Bool) (rank mstep : Nat) (corr : Bool) (starter : SolverObj) (f : List Nat)
      (corrData : Option Nat)

/-- Stage counts of the Butcher tables: `get_steps` in /repo/nbody/nbody_solver_rkck.cpp,
nbody_solver_rkdp.cpp, nbody_solver_rkdverk.cpp, nbody_solver_rkf.cpp, nbody_solver_rkfeagin10.cpp,
nbody_solver_rkfeagin12.cpp, nbody_solver_rkfeagin14.cpp, nbody_solver_rkgl.cpp, nbody_solver_rklc.cpp. -/
def RKKind.steps : RKKind → Nat
  | .rkck => 6
  | .rkdp => 7
  | .rkdverk => 8
  | .rkf => 13
  | .rkfeagin10 => 17
  | .rkfeagin12 => 25
  | .rkfeagin14 => 35
  | .rkgl => 3
  | .rklc => 3

/-- The object the factory's `new` expressions create (/repo/nbody/nbody_solvers.cpp:17-110): no engine, no
buffers.  Constructors: /repo/nbody/nbody_solver.cpp:6-12 and those of the solvers. -/
def SolverDesc.newObj {D : Type} : SolverDesc D → SolverObj
  | .adams s rank corr _ => .adams false rank 0 corr s.newObj [] none
  | .bs ml _ _ => .bs false ml none none none
  | .euler _ => .euler false none
  | .midpoint _ => .midpoint false none none none
  | .midpointSt _ => .stetter ⟨false, none, none, [], []⟩
  | .rk4 _ => .rk4 false [] none
  | .rk k rs _ => .butcher false k.steps rs.maxRecursion rs.correction [] none none none none []
  | .trapeze _ _ => .trapeze false [] none

/-- /repo/nbody/nbody_solver.cpp:18-22, `set_engine`: only the object itself, not its parts. -/
def SolverObj.setEngine : SolverObj → SolverObj
  | .euler _ dy => .euler true dy
  | .midpoint _ a b c => .midpoint true a b c
  | .stetter s => .stetter { s with eng := true }
  | .rk4 _ a b => .rk4 true a b
  | .trapeze _ a b => .trapeze true a b
  | .butcher _ s m c k t tk yc tc ys => .butcher true s m c k t tk yc tc ys
  | .bs _ l y e i => .bs true l y e i
  | .adams _ r m c s f cd => .adams true r m c s f cd

/-- Whether `m_engine` is not null.
(`m_engine`, /repo/nbody/nbody_solver.h:13.) -/
def SolverObj.attached : SolverObj → Bool
  | .euler e .. => e
  | .midpoint e .. => e
  | .stetter s => s.eng
  | .rk4 e .. => e
  | .trapeze e .. => e
  | .butcher e .. => e
  | .bs e .. => e
  | .adams e .. => e

/-- The buffers created by the first `advise` of the Stetter solver,
/repo/nbody/nbody_solver_midpoint_stetter.cpp:28-36.  A use of an element of an empty array (`m_uv[0]`,
`m_fu[0]`) is undefined. -/
def stetterAdviseObj (fails : Nat → Bool) (s : StetterObj) (h : Heap) : Res (StetterObj × Heap) :=
  if s.eng then
    if s.fu = [] then do
      let (tmp, h) := createBuffer fails h
      let (du, h) := createBuffer fails h
      let (fu, h) ← createBuffers fails 2 h
      let (uv, h) ← createBuffers fails 2 h
      if fu = [] ∨ uv = [] then .error .oob else .ok (⟨s.eng, tmp, du, fu, uv⟩, h)
    else .ok (s, h)
  else .error .null

/-- The buffers created by the first `advise` of a solver without parts:
/repo/nbody/nbody_solver_euler.cpp:23-26, nbody_solver_midpoint.cpp:24-29, nbody_solver_rk4.cpp:25-29, nbody_solver_trapeze.cpp:32-36,
nbody_solver_rk_butcher.cpp:178-192.  A use of an element of an empty array is undefined: `m_k[0]`,
`m_f[0]`, `m_k[i]` (for tables with at least one stage).  Using a null buffer is defined (the engines test for
it), so nothing happens here. -/
def SolverObj.adviseBasic (fails : Nat → Bool) : SolverObj → Heap → Res (SolverObj × Heap)
  | .euler e dy, h =>
    if e then
      match dy with
      | some _ => .ok (.euler e dy, h)
      | none => let (d, h) := createBuffer fails h; .ok (.euler e d, h)
    else .error .null
  | .midpoint e k1 k2 tmp, h =>
    if e then
      match k1 with
      | some _ => .ok (.midpoint e k1 k2 tmp, h)
      | none =>
        let (a, h) := createBuffer fails h
        let (b, h) := createBuffer fails h
        let (c, h) := createBuffer fails h
        .ok (.midpoint e a b c, h)
    else .error .null
  | .stetter s, h => do
    let (s, h) ← stetterAdviseObj fails s h
    .ok (.stetter s, h)
  | .rk4 e k tmp, h =>
    if e then
      if k = [] then do
        let (k, h) ← createBuffers fails 4 h
        let (tmp, h) := createBuffer fails h
        if k = [] then .error .oob else .ok (.rk4 e k tmp, h)
      else .ok (.rk4 e k tmp, h)
    else .error .null
  | .trapeze e f pr, h =>
    if e then
      if f = [] then do
        let (f, h) ← createBuffers fails 2 h
        let (pr, h) := createBuffer fails h
        if f = [] then .error .oob else .ok (.trapeze e f pr, h)
      else .ok (.trapeze e f pr, h)
    else .error .null
  | .butcher e steps mr corr k t tmpk yc tc ys, h =>
    if e then
      if k = [] then do
        let (k, h) ← createBuffers fails steps h
        let (t, h) := createBuffer fails h
        let (tmpk, h) := createBuffer fails h
        let (ys, h) ← createBuffers fails mr h
        let (yc, tc, h) :=
          if corr then
            let (yc, h) := createBuffer fails h
            let (tc, h) := createBuffer fails h
            (yc, tc, h)
          else (yc, tc, h)
        if k = [] then .error .oob else .ok (.butcher e steps mr corr k t tmpk yc tc ys, h)
      else .ok (.butcher e steps mr corr k t tmpk yc tc ys, h)
    else .error .null
  | o, h => .ok (o, h)

/-- /repo/nbody/nbody_solver_bulirsch_stoer.cpp:84-121, `advise`, with the extrapolator's constructor
/repo/nbody/nbody_extrapolator.cpp:105-113 and the internal solver, which is advised as soon as there is a
level: several times, but only the first call creates buffers.  `m_internal->reset()` (line 76) does not touch
buffers. -/
def bsAdviseObj (fails : Nat → Bool) (e : Bool) (levels : Nat) (y0 : Option Nat)
    (ext : Option (List Nat × List Nat × Option Nat)) (internal : Option StetterObj) (h : Heap) :
    Res (SolverObj × Heap) :=
  if e then do
    let (y0, ext, internal, h) ←
      (match y0 with
      | some _ => .ok (y0, ext, internal, h)
      | none => do
        let (y0, h) := createBuffer fails h
        let (tb, h) ← createBuffers fails levels h
        let (tp, h) ← createBuffers fails levels h
        let (df, h) := createBuffer fails h
        .ok (y0, some (tb, tp, df), some ⟨true, none, none, [], []⟩, h) :
        Res (Option Nat × Option (List Nat × List Nat × Option Nat) × Option StetterObj × Heap))
    if levels = 0 then .ok (.bs e levels y0 ext internal, h)
    else
      match ext, internal with
      | some (tb, _, _), some i => do
        if tb = [] then .error .oob
        else do
          let (i, h) ← stetterAdviseObj fails i h
          .ok (.bs e levels y0 ext (some i), h)
      | _, _ => .error .null
  else .error .null

/-- `advise` of every solver, as far as buffers are concerned, after `set_engine` if `att`.  `adams`:
/repo/nbody/nbody_solver_adams.cpp:30-84; the starter is given its engine in the first step, and advised only in
the first `m_rank + 1` steps. -/
def SolverObj.adviseAs (fails : Nat → Bool) : SolverObj → Bool → Heap → Res (SolverObj × Heap)
  | .bs e levels y0 ext internal, att, h => bsAdviseObj fails (e || att) levels y0 ext internal h
  | .adams e rank mstep corr starter f cd, att, h =>
    if e || att then
      if rank = 0 then .error .divZero
      else if 5 < rank then .error .oob
      else do
        let first := decide (f = [])
        let (f, cd, h) ←
          (if first then do
            let (f, h) ← createBuffers fails rank h
            let (cd, h) := if corr then createBuffer fails h else (cd, h)
            .ok (f, cd, h)
          else .ok (f, cd, h) : Res (List Nat × Option Nat × Heap))
        if f = [] then .error .oob
        else if rank < mstep then
          .ok (.adams (e || att) rank (mstep + 1) corr (if first then starter.setEngine else starter) f cd, h)
        else do
          let (starter, h) ← starter.adviseAs fails first h
          .ok (.adams (e || att) rank (mstep + 1) corr starter f cd, h)
    else .error .null
  | .euler e a, att, h => SolverObj.adviseBasic fails (.euler (e || att) a) h
  | .midpoint e a b c, att, h => SolverObj.adviseBasic fails (.midpoint (e || att) a b c) h
  | .stetter s, att, h => SolverObj.adviseBasic fails (.stetter { s with eng := s.eng || att }) h
  | .rk4 e a b, att, h => SolverObj.adviseBasic fails (.rk4 (e || att) a b) h
  | .trapeze e a b, att, h => SolverObj.adviseBasic fails (.trapeze (e || att) a b) h
  | .butcher e s m c k t tk yc tc ys, att, h =>
    SolverObj.adviseBasic fails (.butcher (e || att) s m c k t tk yc tc ys) h

/-- `advise`.
(/repo/nbody/nbody_solver.h:34.) -/
def SolverObj.advise (fails : Nat → Bool) (o : SolverObj) (h : Heap) : Res (SolverObj × Heap) :=
  o.adviseAs fails false h

/-- Releasing a list of members in order, each a single buffer or an array.
(`free_buffer`, `free_buffers`, /repo/nbody/nbody_engine.cpp:21-45, in the destructors of the solvers.) -/
def freeMembers : List (Option Nat ⊕ List Nat) → Heap → Res Heap
  | [], h => .ok h
  | m :: ms, h =>
    match (match m with
      | .inl b => freeBuffer b h
      | .inr bs => freeBuffers bs h) with
    | .error u => .error u
    | .ok h' => freeMembers ms h'

/-- A destructor without parts: it calls `free_buffer` and `free_buffers`, virtual functions of the engine,
which is undefined without an engine.
(E.g. /repo/nbody/nbody_solver_rk_butcher.cpp, /repo/nbody/nbody_solver_adams.cpp, destructors.) -/
def destroyMembers (e : Bool) (ms : List (Option Nat ⊕ List Nat)) (h : Heap) : Res Heap :=
  if e then freeMembers ms h else .error .null

/-- /repo/nbody/nbody_solver_midpoint_stetter.cpp:10-16. -/
def StetterObj.destroy (s : StetterObj) (h : Heap) : Res Heap :=
  destroyMembers s.eng [.inr s.fu, .inr s.uv, .inl s.tmp, .inl s.du] h

/-- `delete m_extrapolator`, /repo/nbody/nbody_extrapolator.cpp:115-120.  The extrapolator has its own engine
pointer, set by its constructor. -/
def destroyExtrapolator : Option (List Nat × List Nat × Option Nat) → Heap → Res Heap
  | none, h => .ok h
  | some (tb, tp, df), h => freeMembers [.inr tb, .inr tp, .inl df] h

/-- The destructors: /repo/nbody/nbody_solver_euler.cpp:9-12, nbody_solver_midpoint.cpp:10-15,
nbody_solver_rk4.cpp:8-12, nbody_solver_trapeze.cpp:10-14,
nbody_solver_rk_butcher.cpp:19-28, nbody_solver_bulirsch_stoer.cpp:53-58,
nbody_solver_adams.cpp:18-23. -/
def SolverObj.destroy : SolverObj → Heap → Res Heap
  | .euler e dy, h => destroyMembers e [.inl dy] h
  | .midpoint e a b c, h => destroyMembers e [.inl a, .inl b, .inl c] h
  | .stetter s, h => s.destroy h
  | .rk4 e k tmp, h => destroyMembers e [.inr k, .inl tmp] h
  | .trapeze e f pr, h => destroyMembers e [.inr f, .inl pr] h
  | .butcher e _ _ _ k t tmpk yc tc ys, h =>
    destroyMembers e [.inr k, .inl t, .inl tmpk, .inl yc, .inl tc, .inr ys] h
  | .bs e _ y0 ext internal, h => do
    let h ← destroyMembers e [.inl y0] h
    let h ← destroyExtrapolator ext h
    match internal with
    | none => .ok h
    | some i => i.destroy h
  | .adams e _ _ _ starter f cd, h => do
    let h ← starter.destroy h
    destroyMembers e [.inr f, .inl cd] h

end NB
