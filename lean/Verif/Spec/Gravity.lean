import Mathlib.Analysis.Real.Sqrt
import Mathlib.Algebra.BigOperators.Group.Finset.Basic
import Mathlib.Data.Finset.Range

/-
Textbook Newtonian gravity with G = 1 in coordinates, stated with Mathlib notions only (no definition of
the model is used).  `eps` is the bound below which the squared distance is not allowed to fall.
-/

namespace Spec

/-- squared distance between two points of ℝ³ -/
def dist2 (p q : Fin 3 → ℝ) : ℝ := (p 0 - q 0) ^ 2 + (p 1 - q 1) ^ 2 + (p 2 - q 2) ^ 2

/-- Force exerted on a mass `m1` at `p` by a mass `m2` at `q`:
`- m1 m2 (p - q) / ρ³` where `ρ² = max(|p-q|², eps)`. -/
noncomputable def newton (eps : ℝ) (p q : Fin 3 → ℝ) (m1 m2 : ℝ) (k : Fin 3) : ℝ :=
  -(m1 * m2) * (p k - q k) / Real.sqrt (max (dist2 p q) eps) ^ 3

/-- Acceleration of body `i` among `n` bodies at positions `r` with masses `m`. -/
noncomputable def accel (eps : ℝ) (n : ℕ) (r : ℕ → Fin 3 → ℝ) (m : ℕ → ℝ) (i : ℕ) (k : Fin 3) : ℝ :=
  ∑ j ∈ (Finset.range n).erase i,
    -(m j) * (r i k - r j k) / Real.sqrt (max (dist2 (r i) (r j)) eps) ^ 3

end Spec

namespace Spec

/-- Potential energy of a pair with cutoff: `- m1 m2 / |p-q|`, and 0 for pairs closer than the cutoff. -/
noncomputable def pairPotential (eps : ℝ) (p q : Fin 3 → ℝ) (m1 m2 : ℝ) : ℝ :=
  if dist2 p q < eps then 0 else -(m1 * m2) / Real.sqrt (dist2 p q)

/-- Potential energy of `n` bodies: the sum over unordered pairs `j < i`. -/
noncomputable def potential (eps : ℝ) (n : ℕ) (r : ℕ → Fin 3 → ℝ) (m : ℕ → ℝ) : ℝ :=
  ∑ i ∈ Finset.range n, ∑ j ∈ Finset.range i, pairPotential eps (r i) (r j) (m i) (m j)

end Spec
