import Verif.Model.Summation
import Verif.Model.Player

/-
The line `nbody_data::print_statistics` prints (/repo/nbody/nbody_data.cpp:57-144).  Arithmetic is exact, except that a quotient may be infinite or not
a number.
-/

namespace NB

/-- `fabs(100.0 * a / b)` of /repo/nbody/nbody_data.cpp:349-364 where `a` and `b` are the numbers the code forms. -/
noncomputable def percent (a b : ℝ) : Quo := quo |100 * a| |b|

open Classical in
/-- /repo/nbody/nbody_data.cpp:132, `((last - initial) / m_time).length()`.  By zero, the sum of the squares of the three quotients is infinite if none of
them is not a number. -/
noncomputable def centreVelocity (last initial : Vec3 ℝ) (time : ℝ) : Quo :=
  let d := last - initial
  if time = 0 then (if d.x ≠ 0 ∧ d.y ≠ 0 ∧ d.z ≠ 0 then .inf else .nan) else .num (d.sdiv time).length

/-- What `print_statistics` prints (/repo/nbody/nbody_data.cpp:105-140); the letters that are not asked for have no value.  Simplification: the numbers
themselves instead of their digits, and without the two times per step measured by the clock on the wall (lines 141-145). -/
structure StatLine where
  step : ℕ
  time : ℝ
  computeCount : ℕ
  sinceLast : ℕ
  dP : Option Quo
  dL : Option Quo
  vcm : Option Quo
  dE : Option Quo

/-- The members of `nbody_data` the function reads and changes (/repo/nbody/nbody_data.h:15-40). -/
structure StatObj where
  count : ℕ
  bodies : BodyData ℝ
  time : ℝ
  step : ℕ
  checkList : List Char
  stat : StatState ℝ
  prevComputeCount : ℕ

/-- /repo/nbody/nbody_data.cpp:57-148, `print_statistics`, after `get_data` has stored the state of the engine into the object; `compute` is
`get_compute_count()` of the engine, 0 for a null pointer.  `compute_count - m_prev_compute_count` is a difference of `size_t`.
/repo/nbody/nbody_data.cpp:309-364 are the functions for the errors. -/
noncomputable def printStatistics (compute : ℕ) (d : StatObj) : Res (StatLine × StatObj) := do
  let P := decide ('P' ∈ d.checkList)
  let L := decide ('L' ∈ d.checkList)
  let E := decide ('E' ∈ d.checkList)
  let V := decide ('V' ∈ d.checkList)
  let cur ← diagnostics P L E V d.count d.bodies
  let st := statUpdate P L E V cur d.stat
  let energy (x : Diagnostics ℝ) := x.kinetic + x.potential
  pure
    ({ step := d.step
       time := d.time
       computeCount := compute
       sinceLast := (compute + (2 ^ 64 - d.prevComputeCount)) % 2 ^ 64
       dP := if P then some (percent (st.last.impulce - st.initial.impulce).length st.initial.impulce.length) else none
       dL := if L then some (percent (st.last.impulceMoment - st.initial.impulceMoment).length st.initial.impulceMoment.length) else none
       vcm := if V then some (centreVelocity st.last.massCenter st.initial.massCenter d.time) else none
       dE := if E then some (percent (energy st.last - energy st.initial) (energy st.initial)) else none },
     { d with stat := st, prevComputeCount := compute })

/-- The reports of a run (/repo/nbody/nbody_solver.cpp:83-85): every report sees the state of the engine at its time, the object keeps what the function
remembers.  An entry is the number of computations, the bodies, the time and the step. -/
noncomputable def reports : StatObj → List (ℕ × BodyData ℝ × ℝ × ℕ) → Res (List StatLine × StatObj)
  | d, [] => .ok ([], d)
  | d, (c, b, t, s) :: l => do
    let r ← printStatistics c { d with bodies := b, time := t, step := s }
    let q ← reports r.2 l
    pure (r.1 :: q.1, q.2)

end NB
