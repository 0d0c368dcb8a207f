import Verif.Model.Vec3

/-
Model of the pointer space tree (/repo/nbody/nbody_space_tree.h, nbody_space_tree.cpp).

Simplifications: the arrays `rx`, `ry`, `rz`, `mass` are functions of the body index (C25 proves that only
indices below the body count occur); the OpenMP tasks for the two halves, which work on disjoint parts of
the index array and of the tree, run one after the other; `new` does not fail.
-/

namespace NB

/-- What a node stores besides its children and body number (/repo/nbody/nbody_space_tree.h:20-24). -/
structure NodeData (S : Type) where
  mc : Vec3 S
  mass : S
  rsq : S
  bmin : Vec3 S
  bmax : Vec3 S

/-- /repo/nbody/nbody_space_tree.h:15-36, `node`.  A leaf has a body number and no children, an inner node
has two children and `m_body_n == TREE_NO_BODY`; these are the only nodes `build` makes. -/
inductive STree (S : Type) where
  | leaf (body : Nat) (d : NodeData S)
  | node (l r : STree S) (d : NodeData S)

namespace STree
variable {S : Type}

/-- The stored data of the root node.
(/repo/nbody/nbody_space_tree.h:15-36.) -/
def data : STree S → NodeData S
  | leaf _ d => d
  | node _ _ d => d

/-- The body numbers in the leaves, from left to right.
(/repo/nbody/nbody_space_tree.h:15-36.) -/
def bodies : STree S → List Nat
  | leaf b _ => [b]
  | node l r _ => l.bodies ++ r.bodies

/-- Number of nodes.
(Tree of /repo/nbody/nbody_space_tree.h:15-36.) -/
def size : STree S → Nat
  | leaf _ _ => 1
  | node l r _ => l.size + r.size + 1

/-- Length of the longest path.
(Tree of /repo/nbody/nbody_space_tree.h:15-36.) -/
def height : STree S → Nat
  | leaf _ _ => 0
  | node l r _ => max l.height r.height + 1

end STree

/-- The arguments `rx, ry, rz, mass` of `build` and `rebuild`.
(/repo/nbody/nbody_space_tree.h:45-49.) -/
structure Bodies (S : Type) where
  rx : Nat → S
  ry : Nat → S
  rz : Nat → S
  mass : Nat → S

/-- The position of a body.
(/repo/nbody/nbody_space_tree.h:45-49.) -/
def Bodies.pos {S : Type} (B : Bodies S) (i : Nat) : Vec3 S := ⟨B.rx i, B.ry i, B.rz i⟩

section
variable {S : Type} [FOps S]

/-- `std::min(a, b)`.
(Called at /repo/nbody/nbody_space_heap.cpp:125-130, /repo/nbody/nbody_space_tree.cpp:38-40.) -/
def fmin (a b : S) : S := if FOps.lt b a then b else a

/-- `std::max(a, b)`.
(Called at /repo/nbody/nbody_space_heap.cpp:125-130, /repo/nbody/nbody_space_tree.cpp:38-40.) -/
def fmax (a b : S) : S := if FOps.lt a b then b else a

variable [Add S] [Sub S] [Mul S] [Div S] [Zero S]

/-- /repo/nbody/nbody_space_tree.cpp:33-47, `node::update`: the data of a node from that of its children;
`half` is `static_cast<nbcoord_t>(0.5)`. -/
def updateData (half ratio2 : S) (l r : NodeData S) : NodeData S :=
  let mass := l.mass + r.mass
  let mc := (l.mc.smul l.mass + r.mc.smul r.mass).sdiv mass
  let bmin : Vec3 S := ⟨fmin l.bmin.x r.bmin.x, fmin l.bmin.y r.bmin.y, fmin l.bmin.z r.bmin.z⟩
  let bmax : Vec3 S := ⟨fmax l.bmax.x r.bmax.x, fmax l.bmax.y r.bmax.y, fmax l.bmax.z r.bmax.z⟩
  let r := (bmax - bmin).length * half + ((bmax + bmin).sdiv (FOps.lit 2) - mc).length
  { mc := mc, mass := mass, rsq := r * r * ratio2, bmin := bmin, bmax := bmax }

/-- An implementation of `std::nth_element` on index arrays: from the position in the tree at which it is
called, the comparison dimension and the array, the reordered array.  The median position is
`length / 2`.
(Called at /repo/nbody/nbody_space_heap.cpp:159-165.) -/
abbrev NthElement := List Bool → Nat → List Nat → List Nat

/-- /repo/nbody/nbody_space_tree.cpp:49-106, `node::build`.  `fuel` bounds the recursion depth: running out
of it is reported as stack overflow; C25 proves that a depth of 65 is enough for any non-empty array that
fits in memory, and that with an empty array no depth is enough. -/
def STree.build (B : Bodies S) (half ratio2 : S) (nth : NthElement) :
    Nat → List Bool → Nat → List Nat → Res (STree S)
  | 0, _, _, _ => .error .stackOverflow
  | _ + 1, _, _, [i] =>
    -- `node()` sets m_radius_sqr to 0 (18-25)
    .ok (.leaf i { mc := B.pos i, mass := B.mass i, rsq := 0, bmin := B.pos i, bmax := B.pos i })
  | fuel + 1, path, dim, ids => do
    let left_size := ids.length / 2
    let ids' := nth path dim ids
    let next_dimension := (dim + 1) % 3
    let l ← STree.build B half ratio2 nth fuel (path ++ [false]) next_dimension (ids'.take left_size)
    let r ← STree.build B half ratio2 nth fuel (path ++ [true]) next_dimension (ids'.drop left_size)
    .ok (.node l r (updateData half ratio2 l.data r.data))

/-- /repo/nbody/nbody_space_tree.cpp:172-188, `nbody_space_tree::build`. -/
def spaceTreeBuild (count : Nat) (B : Bodies S) (half ratio : S) (nth : NthElement) (fuel : Nat) :
    Res (STree S) :=
  STree.build B half (ratio * ratio) nth fuel [] 0 (List.range count)

/-- /repo/nbody/nbody_space_tree.cpp:108-135, `node::rebuild` (`count` only selects the parallel
variant). -/
def STree.rebuild (B : Bodies S) (half ratio2 : S) : STree S → STree S
  | .leaf b d => .leaf b { d with mc := B.pos b, bmin := B.pos b, bmax := B.pos b }
  | .node l r _ =>
    let l := STree.rebuild B half ratio2 l
    let r := STree.rebuild B half ratio2 r
    .node l r (updateData half ratio2 l.data r.data)

/-- /repo/nbody/nbody_space_tree.cpp:190-197, `nbody_space_tree::rebuild`. -/
def spaceTreeRebuild (B : Bodies S) (half ratio : S) (t : STree S) : STree S :=
  STree.rebuild B half (ratio * ratio) t

end

/-- /repo/nbody/nbody_space_tree.h:10. -/
def maxStackSize : Nat := 64

section
variable {S : Type} [Add S] [Sub S] [Mul S] [Neg S] [Div S] [One S] [Zero S] [FOps S]

/-- The test `distance_sqr > curr->m_radius_sqr` (/repo/nbody/nbody_space_tree.cpp:151-153). -/
def accepts (v1 : Vec3 S) (d : NodeData S) : Bool := FOps.lt d.rsq (v1 - d.mc).norm

/-- Weight of a stack: decreases in every iteration.
No counterpart of its own in /repo: shows that the walk of /repo/nbody/nbody_space_tree.h:54 ends. -/
def stackSize (st : List (STree S)) : Nat := (st.map STree.size).sum

omit [Add S] [Sub S] [Mul S] [Neg S] [Div S] [One S] [Zero S] [FOps S] in
theorem STree.size_pos (t : STree S) : 0 < t.size := by
  cases t <;> simp [STree.size]

/-- The loop /repo/nbody/nbody_space_tree.cpp:143-168; the head of the list is the top of the stack.
Writing beyond `stack_data` is undefined: after the pop the stack holds `stack.length` entries, `m_right`
goes to that position and `m_left` to the next one. -/
def traverseLoop (v1 : Vec3 S) (mass1 : S) : List (STree S) → Vec3 S → Res (Vec3 S)
  | [], total => .ok total
  | curr :: stack, total =>
    if accepts v1 curr.data then
      traverseLoop v1 mass1 stack (total + force v1 curr.data.mc mass1 curr.data.mass)
    else
      match curr with
      | .leaf _ _ => traverseLoop v1 mass1 stack total
      | .node l r _ =>
        if maxStackSize ≤ stack.length + 1 then .error .stackOverflow
        else traverseLoop v1 mass1 (l :: r :: stack) total
termination_by st => stackSize st
decreasing_by
  all_goals simp only [stackSize, List.map_cons, List.sum_cons, STree.size]
  all_goals first
    | (have := STree.size_pos curr; omega)
    | omega

/-- /repo/nbody/nbody_space_tree.cpp:137-170, `traverse(data, v1, mass1)` on a non-empty tree. -/
def spaceTreeTraverse (t : STree S) (v1 : Vec3 S) (mass1 : S) : Res (Vec3 S) :=
  traverseLoop v1 mass1 [t] 0

/-- /repo/nbody/nbody_space_tree.h:11, `TREE_NO_BODY`: the largest `size_t`. -/
def noBody : Nat := 2 ^ 64 - 1

/-- The loop /repo/nbody/nbody_space_tree.h:58-77: the arguments with which the visitor is called, in
order.  An inner node has the body number `TREE_NO_BODY`. -/
def visitLoop : List (STree S) → List (Nat × Vec3 S × S) → Res (List (Nat × Vec3 S × S))
  | [], acc => .ok acc
  | curr :: stack, acc =>
    if FOps.lt 0 curr.data.rsq then
      match curr with
      | .leaf _ _ => visitLoop stack acc
      | .node l r _ =>
        if maxStackSize ≤ stack.length + 1 then .error .stackOverflow
        else visitLoop (r :: l :: stack) acc
    else
      match curr with
      | .leaf b d => visitLoop stack (acc ++ [(b, d.mc, d.mass)])
      | .node _ _ d => visitLoop stack (acc ++ [(noBody, d.mc, d.mass)])
termination_by st => stackSize st
decreasing_by
  all_goals simp only [stackSize, List.map_cons, List.sum_cons, STree.size]
  all_goals first
    | (have := STree.size_pos curr; omega)
    | omega

/-- /repo/nbody/nbody_space_tree.h:51-78, `traverse(visit)`. -/
def spaceTreeVisit (t : STree S) : Res (List (Nat × Vec3 S × S)) := visitLoop [t] []

end

end NB
