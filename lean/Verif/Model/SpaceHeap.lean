import Verif.Model.SpaceTree
import Verif.Model.HeapIndex
import Verif.Model.EngineBH

/-
Model of the heap layout (/repo/nbody/nbody_space_heap.h, nbody_space_heap.cpp,
nbody_space_heap_stackless.cpp).

Simplifications: the six arrays `m_mass_center`, `m_mass`, `m_radius_sqr`, `m_box_min`, `m_box_max` and
`m_body_n`, which always have the same size, are one array of cells; the OpenMP tasks of `build_p` run one
after the other (their cells are disjoint, C27).  The `parallel for` loops run in an arbitrary order.
-/

namespace NB

/-- The entries of the six arrays at one index (/repo/nbody/nbody_space_heap.h:12-17). -/
structure Cell (S : Type) where
  d : NodeData S
  body : Nat

section
variable {S : Type} [Add S] [Sub S] [Mul S] [Neg S] [Div S] [Zero S] [One S] [FOps S]

/-- `resize` of the arrays and `std::fill` of `m_body_n` (/repo/nbody/nbody_space_heap.cpp:23-30): what is
already there stays, new entries are zero, all body numbers become `TREE_NO_BODY`. -/
def heapResize (size : Nat) (H : List (Cell S)) : List (Cell S) :=
  (List.range size).map fun i =>
    match H[i]? with
    | some c => ⟨c.d, noBody⟩
    | none => ⟨⟨⟨0, 0, 0⟩, 0, 0, ⟨0, 0, 0⟩, ⟨0, 0, 0⟩⟩, noBody⟩

/-- /repo/nbody/nbody_space_heap.cpp:119-134, `update`. -/
def heapUpdate (half ratio2 : S) (idx left rght : Nat) (H : List (Cell S)) : Res (List (Cell S)) := do
  let l ← rd H left
  let r ← rd H rght
  let c ← rd H idx
  wr H idx ⟨updateData half ratio2 l.d r.d, c.body⟩

/-- /repo/nbody/nbody_space_heap.cpp:136-191, `build_p`.  A leaf does not write `m_radius_sqr`.  `fuel`
bounds the recursion depth. -/
def heapBuildP (B : Bodies S) (half ratio2 : S) (nth : NthElement) :
    Nat → List Bool → Nat → List Nat → Nat → List (Cell S) → Res (List (Cell S))
  | 0, _, _, _, _, _ => .error .stackOverflow
  | _ + 1, _, _, [i], idx, H => do
    let c ← rd H idx
    wr H idx ⟨⟨B.pos i, B.mass i, c.d.rsq, B.pos i, B.pos i⟩, i⟩
  | fuel + 1, path, dim, ids, idx, H => do
    let left_size := ids.length / 2
    let ids' := nth path dim ids
    let next_dimension := (dim + 1) % 3
    let left := leftIdx idx
    let rght := rghtIdx idx
    let H ← heapBuildP B half ratio2 nth fuel (path ++ [false]) next_dimension (ids'.take left_size) left H
    let H ← heapBuildP B half ratio2 nth fuel (path ++ [true]) next_dimension (ids'.drop left_size) rght H
    heapUpdate half ratio2 idx left rght H

/-- /repo/nbody/nbody_space_heap.cpp:13-37, `build`, on a heap that may have been used before.  The size
`2 * count - 1 + NBODY_HEAP_ROOT_INDEX` is `2 * count`, also for `count = 0` (unsigned wrap-around). -/
def heapBuild (count : Nat) (B : Bodies S) (half ratio : S) (nth : NthElement) (fuel : Nat)
    (H : List (Cell S)) : Res (List (Cell S)) :=
  heapBuildP B half (ratio * ratio) nth fuel [] 0 (List.range count) heapRoot (heapResize (2 * count) H)

omit [Add S] [Sub S] [Mul S] [Neg S] [Div S] [Zero S] [One S] [FOps S] in
/-- A `parallel for` over the indices from `lo` to `hi`, run in the order `ord` gives.
(`omp parallel for`, /repo/nbody/nbody_space_heap.cpp:44,54.) -/
def heapFor (ord : List Nat → List Nat) (lo hi : Nat) (body : Nat → List (Cell S) → Res (List (Cell S)))
    (H : List (Cell S)) : Res (List (Cell S)) :=
  (ord (List.range' lo (hi - lo))).foldlM (fun H idx => body idx H) H

/-- Body of the loop /repo/nbody/nbody_space_heap.cpp:45-51.  The arrays `rx`, `ry`, `rz` have `count`
entries. -/
def heapRefreshLeaf (count : Nat) (B : Bodies S) (idx : Nat) (H : List (Cell S)) : Res (List (Cell S)) := do
  let c ← rd H idx
  if c.body < count then
    wr H idx ⟨{ c.d with mc := B.pos c.body, bmin := B.pos c.body, bmax := B.pos c.body }, c.body⟩
  else .error .oob

/-- The loop over the levels /repo/nbody/nbody_space_heap.cpp:52-61. -/
def heapLevels (half ratio2 : S) (ord : List Nat → List Nat) (level_count : Nat) (H : List (Cell S)) :
    Res (List (Cell S)) :=
  if level_count = 0 then .ok H
  else do
    let H ← heapFor ord (level_count / 2) level_count
      (fun idx => heapUpdate half ratio2 idx (leftIdx idx) (rghtIdx idx)) H
    heapLevels half ratio2 ord (level_count / 2) H
termination_by level_count
decreasing_by omega

/-- /repo/nbody/nbody_space_heap.cpp:39-62, `rebuild`. -/
def heapRebuild (ord : List Nat → List Nat) (count : Nat) (B : Bodies S) (half ratio : S)
    (H : List (Cell S)) : Res (List (Cell S)) := do
  let H ← heapFor ord count (count * 2) (heapRefreshLeaf count B) H
  heapLevels half (ratio * ratio) ord count H

/-- What `traverse` does at a node (/repo/nbody/nbody_space_heap.cpp:76-81 and
/repo/nbody/nbody_space_heap_stackless.cpp:13-17). -/
def heapStep (H : List (Cell S)) (v1 : Vec3 S) (mass1 : S) (curr : Nat) (total : Vec3 S) :
    Res (Bool × Vec3 S) := do
  let c ← rd H curr
  if accepts v1 c.d then .ok (true, total + force v1 c.d.mc mass1 c.d.mass) else .ok (false, total)

/-- /repo/nbody/nbody_space_heap.cpp:64-97, `traverse(data, v1, mass1)`. -/
def heapTraverse (fuel : Nat) (H : List (Cell S)) (v1 : Vec3 S) (mass1 : S) : Res (Vec3 S) :=
  stackWalk H.length (heapStep H v1 mass1) fuel [heapRoot] 0

/-- /repo/nbody/nbody_space_heap_stackless.cpp:3-28, `traverse(data, v1, mass1)`. -/
def heapStacklessTraverse (nd : Nat → Res Nat) (fuel : Nat) (H : List (Cell S)) (v1 : Vec3 S) (mass1 : S) :
    Res (Vec3 S) :=
  stacklessWalk nd H.length (heapStep H v1 mass1) fuel heapRoot 0

omit [Add S] [Sub S] [Mul S] [Neg S] [Div S] [Zero S] [One S] [FOps S] in
/-- /repo/nbody/nbody_space_heap.h:31-41, `traverse(visit)`: the arguments with which the visitor is called
(the calls run in parallel). -/
def heapVisits (H : List (Cell S)) : List (Nat × Vec3 S × S) :=
  (H.drop (H.length / 2)).map fun c => (c.body, c.d.mc, c.d.mass)

/-- `nbody_space_heap` as used by the engine (/repo/nbody/nbody_engine_simple_bh.h:62, nbody_engine_simple_bh.cpp:174). -/
def heapIndex (half : S) (nth : NthElement) (ord : List Nat → List Nat) (depth fuel : Nat) :
    SpaceIndex S (List (Cell S)) where
  isEmpty H := H.isEmpty
  build H count B ratio := heapBuild count B half ratio nth depth H
  rebuild H count B ratio := heapRebuild ord count B half ratio H
  traverse H v1 mass1 := heapTraverse fuel H v1 mass1
  visits H := .ok (heapVisits H)

/-- `nbody_space_heap_stackless` as used by the engine (/repo/nbody/nbody_engine_simple_bh.h:74,
nbody_engine_simple_bh.cpp:193). -/
def heapStacklessIndex (nd : Nat → Res Nat) (half : S) (nth : NthElement) (ord : List Nat → List Nat)
    (depth fuel : Nat) : SpaceIndex S (List (Cell S)) where
  isEmpty H := H.isEmpty
  build H count B ratio := heapBuild count B half ratio nth depth H
  rebuild H count B ratio := heapRebuild ord count B half ratio H
  traverse H v1 mass1 := heapStacklessTraverse nd fuel H v1 mass1
  visits H := .ok (heapVisits H)

end

end NB
