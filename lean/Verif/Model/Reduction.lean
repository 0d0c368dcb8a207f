import Verif.Base

/-
Model of `#pragma omp parallel for reduction(max : result)`
(/repo/nbody/nbody_engine_openmp.cpp:271-297) and of the sums of /repo/nbody/summation.h.
-/

namespace NB

/-- One possible evaluation of an OpenMP reduction: every thread starts from a private copy holding the
identity of the reduction and runs some list of iterations in some order; the private copies and the
original variable are combined pairwise in an unspecified order.
(`reduction(max: ...)`, /repo/nbody/nbody_engine_openmp.cpp:287.) -/
inductive Red where
  /-- the original value of the variable -/
  | orig : Red
  /-- the private copy of one thread that ran these iterations in this order -/
  | thread : List Nat → Red
  /-- combination of two partial results -/
  | comb : Red → Red → Red

namespace Red

/-- All iterations, in the order of the evaluation.
(`reduction(max: ...)`, /repo/nbody/nbody_engine_openmp.cpp:287.) -/
def iters : Red → List Nat
  | orig => []
  | thread l => l
  | comb a b => a.iters ++ b.iters

/-- How often the original value is used.
(`reduction(max: ...)`, /repo/nbody/nbody_engine_openmp.cpp:287.) -/
def origs : Red → Nat
  | orig => 1
  | thread _ => 0
  | comb a b => a.origs + b.origs

/-- An evaluation of a loop with `n` iterations: every iteration is run exactly once and the original
value takes part exactly once.
(`reduction(max: ...)`, /repo/nbody/nbody_engine_openmp.cpp:287.) -/
def Valid (n : Nat) (t : Red) : Prop := t.iters.Perm (List.range n) ∧ t.origs = 1

end Red

section
variable {S : Type} [FOps S]

/-- /repo/nbody/nbody_engine_openmp.cpp:291-295, the loop body of `fmaxabs` on a (private) `result`. -/
def maxabsBody (a : List S) (n : Nat) (result : S) : Res S := do
  let v ← rd a n
  let v := FOps.abs v
  pure (if FOps.lt result v then v else result)

/-- Value of an evaluation of the reduction: `bot` is the identity of `max` (the smallest finite value
of the type), `r0` the original value.
(`reduction(max: ...)`, /repo/nbody/nbody_engine_openmp.cpp:287.) -/
def Red.eval (a : List S) (bot r0 : S) : Red → Res S
  | .orig => .ok r0
  | .thread its => its.foldlM (fun r n => maxabsBody a n r) bot
  | .comb s t => do
    let x ← Red.eval a bot r0 s
    let y ← Red.eval a bot r0 t
    pure (if FOps.lt x y then y else x)

/-- /repo/nbody/nbody_engine_openmp.cpp:271-297, `fmaxabs` on the buffer `a` of `smemory`, for the
evaluation `t` of the reduction. -/
def fmaxabsOmp (bot : S) (t : Red) (a : List S) : Res S := do
  let a0 ← rd a 0
  t.eval a bot (FOps.abs a0)

end

end NB
