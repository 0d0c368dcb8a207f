import Mathlib.Algebra.BigOperators.Group.Finset.Basic
import Mathlib.Algebra.Module.Basic
import Mathlib.Algebra.Field.Basic

/-
What a Runge-Kutta scheme is, independently of the repository: the stage equations, and Butcher's order
conditions over rooted trees.
-/

namespace NB.Spec

open Finset

/-- One step of the explicit Runge-Kutta scheme with `s` stages and coefficients `a`, `b`, `c` for
`y' = f(t, y)` from `(t, y)` with step `h` gives `y'`.  `f n` is the right hand side at its `n`-th
evaluation; stage `i` is evaluation `n₀ + i`. -/
def ERKStep {V K : Type} [Field K] [AddCommGroup V] [Module K V] (f : ℕ → K → V → V) (n₀ s : ℕ)
    (a : ℕ → ℕ → K) (b c : ℕ → K) (t h : K) (y y' : V) : Prop :=
  ∃ k : ℕ → V,
    (∀ i, i < s → k i = f (n₀ + i) (t + c i * h) (y + h • ∑ j ∈ range i, a i j • k j)) ∧
    y' = y + h • ∑ i ∈ range s, b i • k i

/-- `k` solves the stage equations of the implicit Runge-Kutta scheme with `s` stages for the autonomous or
non-autonomous equation `y' = f(t, y)`. -/
def IRKStages {V K : Type} [Field K] [AddCommGroup V] [Module K V] (f : K → V → V) (s : ℕ) (a : ℕ → ℕ → K)
    (c : ℕ → K) (t h : K) (y : V) (k : ℕ → V) : Prop :=
  ∀ i, i < s → k i = f (t + c i * h) (y + h • ∑ j ∈ range s, a i j • k j)

/-- Rooted trees (children in a list; the functions below do not depend on their order). -/
inductive RTree where
  | node : List RTree → RTree

mutual
/-- Number of vertices. -/
def RTree.order : RTree → ℕ
  | .node ts => RTree.orders ts + 1
/-- Number of vertices of a forest. -/
def RTree.orders : List RTree → ℕ
  | [] => 0
  | t :: ts => t.order + RTree.orders ts
end

mutual
/-- Density: the product over all vertices of the size of the subtree above the vertex. -/
def RTree.gamma : RTree → ℕ
  | .node ts => (RTree.orders ts + 1) * RTree.gammas ts
/-- Product of the densities of a forest. -/
def RTree.gammas : List RTree → ℕ
  | [] => 1
  | t :: ts => t.gamma * RTree.gammas ts
end

mutual
/-- Elementary weights of the internal stages: `Φᵢ(t) = ∏_{children u} ∑ⱼ aᵢⱼ Φⱼ(u)`. -/
def RTree.phi {K : Type} [CommSemiring K] (s : ℕ) (a : ℕ → ℕ → K) : RTree → ℕ → K
  | .node ts, i => RTree.phis s a ts i
/-- The product over a forest. -/
def RTree.phis {K : Type} [CommSemiring K] (s : ℕ) (a : ℕ → ℕ → K) : List RTree → ℕ → K
  | [], _ => 1
  | t :: ts, i => (∑ j ∈ range s, a i j * RTree.phi s a t j) * RTree.phis s a ts i
end

/-- The order condition of a tree: `∑ᵢ bᵢ Φᵢ(t) = 1 / γ(t)`. -/
def OrderCond {K : Type} [Field K] (s : ℕ) (a : ℕ → ℕ → K) (b : ℕ → K) (t : RTree) : Prop :=
  ∑ i ∈ range s, b i * t.phi s a i = 1 / (t.gamma : K)

/-- The scheme satisfies every order condition up to order `p`. -/
def HasOrder {K : Type} [Field K] (s : ℕ) (a : ℕ → ℕ → K) (b : ℕ → K) (p : ℕ) : Prop :=
  ∀ t : RTree, t.order ≤ p → OrderCond s a b t

end NB.Spec
