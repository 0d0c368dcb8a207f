import Verif.Model.SpaceTree
import Mathlib.Data.List.Perm.Basic

/-
Vocabulary of the statements about space trees.
-/

namespace NB.Spec

/-- `std::nth_element` only reorders. -/
def Reorders (nth : NthElement) : Prop := ∀ path dim l, (nth path dim l).Perm l

/-- The postcondition of `std::nth_element(first, first + length/2, last, less)` where `less` compares
coordinate `dim`: nothing from the median on is less than anything before it. -/
def Partitions {S : Type} (lt : S → S → Bool) (coord : Nat → Nat → S) (nth : NthElement) : Prop :=
  ∀ path dim l, ∀ a ∈ (nth path dim l).take (l.length / 2), ∀ b ∈ (nth path dim l).drop (l.length / 2),
    lt (coord dim b) (coord dim a) = false

/-- `At t p s`: the subtree of `t` at position `p` (`false` is left) is `s`. -/
inductive At {S : Type} : STree S → List Bool → STree S → Prop
  | here (t) : At t [] t
  | left {l r d p s} : At l p s → At (.node l r d) (false :: p) s
  | right {l r d p s} : At r p s → At (.node l r d) (true :: p) s

/-- Which body is in which leaf, and nothing else. -/
inductive Layout where
  | leaf (body : Nat)
  | node (l r : Layout)
  deriving DecidableEq

/-- The layout of a tree. -/
def layout {S : Type} : STree S → Layout
  | .leaf b _ => .leaf b
  | .node l r _ => .node (layout l) (layout r)

end NB.Spec
