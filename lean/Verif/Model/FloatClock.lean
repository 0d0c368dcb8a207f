import Verif.Model.Run

/-
Model of the clock of a run in the arithmetic of the machine (/repo/nbody/nbody_data.cpp:177-181).
-/

namespace NB

/-- /repo/nbody/nbody_data.cpp:177-181, `advise_time`: `m_time += dt`, where `fl` is the rounding of the result to
`nbcoord_t` (/repo/nbody/nbtype.h:19-26).  The counter `m_step` is left out. -/
def adviseTime (fl : ℚ → ℚ) (dt t : ℚ) : ℚ := fl (t + dt)

/-- `clamp` leaves the clock alone and `advise(dt)` ends in one `advise_time(dt)`
(/repo/nbody/nbody_engine_simple.cpp:91-94, /repo/nbody/nbody_solver_euler.cpp:31, nbody_solver_rk4.cpp:47,
nbody_solver_rk_butcher.cpp:67, nbody_solver_trapeze.cpp:55, nbody_solver_midpoint.cpp:39). -/
structure FloatClock {σ φ ω : Type} (E : RunEnv σ φ ω ℚ) (fl : ℚ → ℚ) (dt : ℚ) : Prop where
  clamp : ∀ s, E.time (E.clamp s) = E.time s
  advise : ∀ s, E.time (E.advise dt s) = adviseTime fl dt (E.time s)

end NB
