import Verif.Model.Solvers

/-
Model of the extrapolators (/repo/nbody/nbody_extrapolator.cpp) and of the Bulirsch-Stoer solver
(/repo/nbody/nbody_solver_bulirsch_stoer.cpp), in exact arithmetic, on the solver's view of an engine
(Model/SolverOps.lean).  A table is a list of vectors and every access to it is checked.
-/

namespace NB

/-! ### Substep sequences -/

/-- /repo/nbody/nbody_solver_bulirsch_stoer.cpp:7-38, `init_steps`; `bs` is
`type == ebssub_bulirsch_stoer`. -/
def initSteps (n : ℕ) (bs : Bool) : Res (List ℕ) :=
  if n = 0 then .ok []
  else if bs then
    let steps := [2]
    let steps := if 1 < n then steps ++ [4] else steps
    let steps := if 2 < n then steps ++ [6] else steps
    forN (n - 3) steps (fun i steps => do
      let j := i + 3
      let x ← rd steps (j - 2)
      pure (steps ++ [2 * x]))
  else .ok (foldN n [] (fun j steps => steps ++ [2 * (j + 1)]))

/-- /repo/nbody/nbody_extrapolator.cpp:5-18: the constructor raises the substep counts to the power
`order` (`std::pow` on doubles, taken as exact). -/
def extrSteps (order : ℕ) (ss : List ℕ) : List ℕ :=
  if order ≠ 1 then ss.map (fun s => s ^ order) else ss

section
variable {V K : Type} [Field K] [LinearOrder K] [AddCommGroup V] [Module K V]

/-! ### Neville -/

/-- /repo/nbody/nbody_extrapolator.h: `m_table` and `m_table_prev` of `nbody_extrapolator_neville`. -/
structure Neville (V : Type) where
  table : List V
  prev : List V

/-- Body of the loop /repo/nbody/nbody_extrapolator.cpp:154-163. -/
def nevilleBody (ss : List ℕ) (k : ℕ) (prev : List V) (j : ℕ) (table : List V) : Res (List V) := do
  let step1 ← rd ss k
  let step2 ← rd ss (k - j - 1)
  let diff : K := (step1 : K) - (step2 : K)
  let d : ℕ → K := fun i => if i = 0 then (step1 : K) / diff else -(step2 : K) / diff
  let c0 ← rd table j
  let c1 ← rd prev j
  let old ← rd table (j + 1)
  wr table (j + 1) (vfmaddn 2 old none (fun i => if i = 0 then c0 else c1) d)

variable (K) in
/-- /repo/nbody/nbody_extrapolator.cpp:122-164, `update_table(k, y)`; `ss` are the counts after the
constructor. -/
def nevilleUpdate (ss : List ℕ) (k : ℕ) (y : V) (s : Neville V) : Res (Neville V) := do
  let prev := s.table
  let table := s.prev
  let table ← wr table 0 y
  if k = 0 then pure ⟨table, prev⟩
  else do
    let table ← forN k table (nevilleBody (K := K) ss k prev)
    pure ⟨table, prev⟩

/-- /repo/nbody/nbody_extrapolator.cpp:166-176, `estimate_error(level)`; `big` is
`numeric_limits::max()`, `nrm` is `fmaxabs`. -/
def nevilleError (nrm : V → K) (big : K) (s : Neville V) (level : ℕ) : Res K :=
  if level = 0 then .ok big
  else do
    let a ← rd s.table level
    let b ← rd s.table (level - 1)
    pure (nrm (vfmadd a b (-1 : K)))

/-- /repo/nbody/nbody_extrapolator.cpp:178-181, `extrapolate`: the new contents of `ext_y`. -/
def nevilleExtrapolate (s : Neville V) (level : ℕ) : Res V := rd s.table level

/-! ### Berrut -/

variable (K) in
/-- /repo/nbody/nbody_extrapolator.cpp:89-103, `weights(level)`. -/
def berrutWeights (ss : List ℕ) (level : ℕ) : Res (List K) := do
  let w ← forN level ([] : List K) (fun n w => do
    let s ← rd ss n
    pure (w ++ [(-1) ^ (n + 1) * (s : K)]))
  let sum := w.foldl (· + ·) 0
  pure (w.map (· / sum))

/-- /repo/nbody/nbody_extrapolator.cpp:49-52, `update_table`. -/
def berrutUpdate (level : ℕ) (y : V) (table : List V) : Res (List V) := wr table level y

/-- `fmaddn_inplace(a, b, c, n)` on a table (/repo/nbody/nbody_engine.cpp:47-66): the call refuses
`n > b.size()` and reads `b[i]`, `c[i]` for `i < n`. -/
def tableSum (a : V) (table : List V) (w : List K) (n : ℕ) : Res V :=
  if table.length < n then .ok a
  else forN n a (fun i a => do
    let c ← rd w i
    let b ← rd table i
    pure (if c = 0 then a else vfmadd a b c))

/-- /repo/nbody/nbody_extrapolator.cpp:54-76, `estimate_error(level)`. -/
def berrutError (nrm : V → K) (big : K) (ss : List ℕ) (table : List V) (level : ℕ) : Res K :=
  if level = 0 then .ok big
  else do
    let w0 ← berrutWeights K ss (level - 1)
    let w1 ← berrutWeights K ss level
    let w1 ← forN w0.length w1 (fun n w1 => do
      let a ← rd w1 n
      let b ← rd w0 n
      wr w1 n (a - b))
    let diff ← tableSum 0 table w1 level
    pure (nrm diff)

variable (K) in
/-- /repo/nbody/nbody_extrapolator.cpp:78-87, `extrapolate(level, ext_y)`. -/
def berrutExtrapolate (ss : List ℕ) (table : List V) (level : ℕ) : Res V := do
  let w ← berrutWeights K ss level
  if level = 0 then pure 0
  else tableSum 0 table w level

/-! ### Bulirsch-Stoer -/

/-- /repo/nbody/nbody_solver_bulirsch_stoer.h:15-20: the inner Stetter solver and the extrapolator;
`m_y0` is a local value of `advise`.  `steps` is `m_sub_steps_count`. -/
structure BSState (V : Type) where
  internal : Stetter V
  ext : Neville V

/-- Settings of the solver (/repo/nbody/nbody_solver_bulirsch_stoer.h:16-18); `big` is
`numeric_limits<nbcoord_t>::max()`. -/
structure BSConf (K : Type) where
  maxLevel : ℕ
  threshold : K
  steps : List ℕ
  big : K

/-- /repo/nbody/nbody_solver_bulirsch_stoer.cpp:65-83, `compute_substep`. -/
def bsSubstep (F : ℕ → K → V → V) (cf : BSConf K) (dt t0 : K) (y0 : V) (level : ℕ)
    (s : BSState V × Eng V K) : Res (BSState V × Eng V K) := do
  let e := { s.2 with y := y0, time := t0 }
  let n ← rd cf.steps level
  let h := dt / (n : K)
  let q := foldN n (s.1.internal.reset, e) (fun _ q => stetterAdvise F h q.1 q.2)
  let ext ← nevilleUpdate K (extrSteps 2 cf.steps) level q.2.y s.1.ext
  pure (⟨q.1, ext⟩, q.2)

/-- The loop /repo/nbody/nbody_solver_bulirsch_stoer.cpp:101-117 from `level` on, with `rest` levels
left (`level + rest = m_max_level`). -/
def bsLevels (F : ℕ → K → V → V) (nrm : V → K) (cf : BSConf K) (dt t0 : K) (y0 : V) :
    ℕ → ℕ → BSState V × Eng V K → Res (BSState V × Eng V K)
  | 0, _, s => .ok s
  | rest + 1, level, s => do
    let s ← bsSubstep F cf dt t0 y0 level s
    if level < 2 then bsLevels F nrm cf dt t0 y0 rest (level + 1) s
    else do
      let maxdiff ← nevilleError nrm cf.big s.1.ext level
      if maxdiff < cf.threshold ∨ level = cf.maxLevel - 1 then do
        let y ← nevilleExtrapolate s.1.ext level
        pure (s.1, { s.2 with y := y })
      else bsLevels F nrm cf dt t0 y0 rest (level + 1) s

/-- /repo/nbody/nbody_solver_bulirsch_stoer.cpp:85-122, `advise`. -/
def bsAdvise (F : ℕ → K → V → V) (nrm : V → K) (cf : BSConf K) (dt : K) (b : BSState V) (e : Eng V K) :
    Res (BSState V × Eng V K) := do
  let t0 := e.time
  let y0 := e.y
  let s ← bsLevels F nrm cf dt t0 y0 cf.maxLevel 0 (b, e)
  pure (s.1, ({ s.2 with time := t0 } : Eng V K).adviseTime dt)

end

end NB
