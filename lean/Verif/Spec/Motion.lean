import Verif.Spec.Gravity
import Mathlib.Analysis.Calculus.Deriv.Basic

/-
What it means that bodies move under gravity, stated with Mathlib notions only.
-/

namespace Spec

open Set

/-- `n` bodies of masses `m`, at time `t` at the positions `q t` with the velocities `v t`, move under (softened)
gravity from time 0 to time `T`. -/
structure Motion (eps : ℝ) (n : ℕ) (m : ℕ → ℝ) (T : ℝ) (q v : ℝ → ℕ → Fin 3 → ℝ) : Prop where
  velocity : ∀ t ∈ Icc (0 : ℝ) T, ∀ i, i < n → ∀ k,
    HasDerivWithinAt (fun s => q s i k) (v t i k) (Icc 0 T) t
  acceleration : ∀ t ∈ Icc (0 : ℝ) T, ∀ i, i < n → ∀ k,
    HasDerivWithinAt (fun s => v s i k) (accel eps n (q t) m i k) (Icc 0 T) t

/-- The state `Y` of `n` bodies, in the layout of the library, is within `d` of the positions `q` and the velocities
`v`, in every coordinate. -/
def Near (n : ℕ) (Y : ℕ → ℝ) (q v : ℕ → Fin 3 → ℝ) (d : ℝ) : Prop :=
  ∀ i, i < n → ∀ k : Fin 3, |Y (k * n + i) - q i k| ≤ d ∧ |Y ((3 + k) * n + i) - v i k| ≤ d

end Spec
