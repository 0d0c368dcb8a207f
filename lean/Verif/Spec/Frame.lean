import Verif.Model.Vec3
import Mathlib.Data.Real.Basic

/-
What it means that recorded bodies are near given positions and velocities.
-/

namespace Spec

open NB

/-- The lists `vrt` and `vel` give `n` bodies, each within `d` of the positions `q` and the velocities `v` in every
coordinate. -/
def BodiesNear (n : ℕ) (vrt vel : List (Vec3 ℝ)) (q v : ℕ → Fin 3 → ℝ) (d : ℝ) : Prop :=
  vrt.length = n ∧ vel.length = n ∧ ∀ i, i < n → ∃ a b, vrt[i]? = some a ∧ vel[i]? = some b ∧
    (|a.x - q i 0| ≤ d ∧ |a.y - q i 1| ≤ d ∧ |a.z - q i 2| ≤ d) ∧
    (|b.x - v i 0| ≤ d ∧ |b.y - v i 1| ≤ d ∧ |b.z - v i 2| ≤ d)

end Spec
