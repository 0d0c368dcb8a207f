import Verif.Spec.SpaceTree
import Verif.Model.SpaceHeap

/-
Vocabulary of the statements about the heap layout.
-/

namespace NB.Spec

/-- The heap `H` stores the tree `t` at node `idx`: the children of node `i` are the nodes `2 i` and
`2 i + 1`, and inner nodes have no body number. -/
def Stores {S : Type} (H : List (Cell S)) : Nat → STree S → Prop
  | idx, .leaf b d => H[idx]? = some ⟨d, b⟩
  | idx, .node l r d => H[idx]? = some ⟨d, noBody⟩ ∧ Stores H (2 * idx) l ∧ Stores H (2 * idx + 1) r

/-- All leaves of the tree are at depth `k`. -/
def Perfect {S : Type} : Nat → STree S → Prop
  | 0, .leaf _ _ => True
  | 0, .node _ _ _ => False
  | _ + 1, .leaf _ _ => False
  | k + 1, .node l r _ => Perfect k l ∧ Perfect k r

/-- Every leaf carries the position and the mass of its body. -/
def Carries {S : Type} (B : Bodies S) : STree S → Prop
  | .leaf b d => d.mc = B.pos b ∧ d.mass = B.mass b
  | .node l r _ => Carries B l ∧ Carries B r

end NB.Spec
