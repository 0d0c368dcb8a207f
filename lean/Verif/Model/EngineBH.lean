import Verif.Model.EngineSimple
import Verif.Model.SpaceTree

/-
Model of the Barnes–Hut engines on the CPU (/repo/nbody/nbody_engine_simple_bh.cpp).
-/

namespace NB

/-- /repo/nbody/nbody_engine_simple_bh.h:8-12. -/
inductive TraverseType where
  | cycle
  | nestedTree
  deriving DecidableEq

/-- What the template argument `T` of `space_subdivided_fcompute` offers
(/repo/nbody/nbody_engine_simple_bh.cpp:15-17): the operations of `nbody_space_tree`, `nbody_space_heap` and
`nbody_space_heap_stackless` used by it.  The visitor traversal is given by the list of the visitor's
arguments. -/
structure SpaceIndex (S T : Type) where
  isEmpty : T → Bool
  build : T → Nat → Bodies S → S → Res T
  rebuild : T → Nat → Bodies S → S → Res T
  traverse : T → Vec3 S → S → Res (Vec3 S)
  visits : T → Res (List (Nat × Vec3 S × S))

section
variable {S : Type} [Add S] [Sub S] [Mul S] [Neg S] [Div S] [Zero S] [One S] [FOps S]

/-- `nbody_space_tree` as used by the engine (/repo/nbody/nbody_space_tree.h:37-81): `m_root` may be null.
`rebuild` of a tree that holds a body number not below `count` reads beyond the coordinate planes it is
given; the model reports this as a bad access. -/
def treeIndex (half : S) (nth : NthElement) (fuel : Nat) : SpaceIndex S (Option (STree S)) where
  isEmpty t := t.isNone
  build _ count B ratio := do
    let t ← spaceTreeBuild count B half ratio nth fuel
    .ok (some t)
  rebuild t count B ratio :=
    match t with
    | none => .error .null
    | some t =>
      if t.bodies.all (· < count) then .ok (some (spaceTreeRebuild B half ratio t)) else .error .oob
  traverse t v1 mass1 :=
    match t with
    | none => .error .null
    | some t => spaceTreeTraverse t v1 mass1
  visits t :=
    match t with
    | none => .error .null
    | some t => spaceTreeVisit t

omit [Add S] [Sub S] [Mul S] [Neg S] [One S] [Zero S] [FOps S] in
/-- `update_f` (/repo/nbody/nbody_engine_simple_bh.cpp:62-70). -/
def bhUpdateF (count : Nat) (y f : Handle) (body1 : Nat) (total : Vec3 S) (mass1 : S) : Prog S Unit := do
  let vx ← Prog.get y (3 * count + body1)
  Prog.put f body1 vx
  let vy ← Prog.get y (4 * count + body1)
  Prog.put f (count + body1) vy
  let vz ← Prog.get y (5 * count + body1)
  Prog.put f (2 * count + body1) vz
  Prog.put f (3 * count + body1) (total.x / mass1)
  Prog.put f (4 * count + body1) (total.y / mass1)
  Prog.put f (5 * count + body1) (total.z / mass1)

/-- Body of the loop /repo/nbody/nbody_engine_simple_bh.cpp:81-87.  `trav` is `tree.traverse`; if it leaves
defined behaviour, so does the iteration: the model makes it read element `lenF` of `f`, one past its
end. -/
def bhCycleBody (count : Nat) (hm y f : Handle) (lenF : Nat) (trav : Vec3 S → S → Res (Vec3 S))
    (body1 : Nat) : Prog S Unit := do
  let x1 ← Prog.get y body1
  let y1 ← Prog.get y (count + body1)
  let z1 ← Prog.get y (2 * count + body1)
  let mass1 ← Prog.get hm body1
  match trav ⟨x1, y1, z1⟩ mass1 with
  | .error _ => do
    let _ ← Prog.get f lenF
    pure ()
  | .ok total => bhUpdateF count y f body1 total mass1

/-- `node_visitor` (/repo/nbody/nbody_engine_simple_bh.cpp:72-76) called with the arguments `a`. -/
def bhVisitBody (count : Nat) (hm y f : Handle) (lenF : Nat) (trav : Vec3 S → S → Res (Vec3 S))
    (a : Nat × Vec3 S × S) : Prog S Unit :=
  match trav a.2.1 a.2.2 with
  | .error _ => do
    let _ ← Prog.get f lenF
    pure ()
  | .ok total => do
    let mass1 ← Prog.get hm a.1
    bhUpdateF count y f a.1 total mass1

omit [Add S] [Sub S] [Mul S] [Neg S] [Div S] [One S] [FOps S] in
/-- The pointers `rx, ry, rz, mass` (/repo/nbody/nbody_engine_simple_bh.cpp:37-51) into buffers with contents
`ly` and `lm`. -/
def bodiesAt (count : Nat) (ly lm : List S) : Bodies S where
  rx i := ly.getD i 0
  ry i := ly.getD (count + i) 0
  rz i := ly.getD (2 * count + i) 0
  mass i := lm.getD i 0

/-- /repo/nbody/nbody_engine_simple_bh.cpp:15-93, `space_subdivided_fcompute`.  `loop` runs the `parallel
for` of 80-87, `vloop` the visitor traversal (one call after the other for `nbody_space_tree`, a `parallel
for` for the heaps, /repo/nbody/nbody_space_heap.h:35-40). -/
def bhFcompute {T : Type} (ix : SpaceIndex S T) (loop vloop : Loop S) (tt : TraverseType) (ratio : S)
    (rate step count : Nat) (hm y f : Handle) (tree : T) (m : Mem S) : Res (T × Mem S) :=
  match m y with
  | none => .ok (tree, m)
  | some ly =>
    match m f with
    | none => .ok (tree, m)
    | some lf =>
      match m hm with
      | none => .error .null
      | some lm => do
        let B := bodiesAt count ly lm
        let tree' ←
          (if rate = 0 || ix.isEmpty tree || step % rate = 0 then ix.build tree count B ratio
          else ix.rebuild tree count B ratio)
        let m' ←
          (match tt with
          | .cycle => loop count (bhCycleBody count hm y f lf.length (ix.traverse tree')) m
          | .nestedTree => do
            let vs ← ix.visits tree'
            vloop vs.length (fun i =>
              match vs[i]? with
              | none => pure ()
              | some a => bhVisitBody count hm y f lf.length (ix.traverse tree') a) m)
        .ok (tree', m')

end

end NB
