import Verif.Spec.RungeKutta
import Mathlib.Algebra.Order.Field.Basic
import Mathlib.Algebra.Order.Group.Abs

/-
The order of a scheme whose coefficients are decimal approximations.
-/

namespace NB.Spec

open Finset

/-- Every order condition up to order `p` holds within `ε`: `|∑ᵢ bᵢ Φᵢ(t) - 1 / γ(t)| ≤ ε`. -/
def HasOrderWithin {K : Type} [Field K] [LinearOrder K] (ε : K) (s : ℕ) (a : ℕ → ℕ → K) (b : ℕ → K) (p : ℕ) : Prop :=
  ∀ t : RTree, t.order ≤ p → |∑ i ∈ range s, b i * t.phi s a i - 1 / (t.gamma : K)| ≤ ε

end NB.Spec
