import Verif.Model.EngineSimple

/-
Model of `nbody_engine_block::fcompute` (/repo/nbody/nbody_engine_block.cpp:14-126).
-/

namespace NB

/-- /repo/nbody/nbtype.h:77, `NBODY_DATA_BLOCK_SIZE`. -/
def blockSize : Nat := 64

/-- `a[i] = v` for a local array of `block` elements.  Simplification: the arrays `x1`, `y1`, `z1`, … of
/repo/nbody/nbody_engine_block.cpp:54-59,74-77 are functions on indices; every index used is a loop
variable below `block`, the declared extent. -/
def upd {α : Type _} (a : Nat → α) (i : Nat) (v : α) : Nat → α := fun j => if j = i then v else a j

section
variable {S : Type} [Add S] [Sub S] [Mul S] [Neg S] [Div S] [Zero S] [FOps S]

/-- /repo/nbody/nbody_engine_block.cpp:93-110, one step of the innermost loop: the new value of
`total_force[b1]`. -/
def blockTerm (total p1 p2 : Vec3 S) (m2 : S) : Vec3 S :=
  let d := p1 - p2
  let r2 := d.x * d.x + d.y * d.y + d.z * d.z
  let r2 := if FOps.lt r2 (FOps.minDist : S) then FOps.minDist else r2
  let r := FOps.sqrt r2
  let coeff := m2 / (r * r2)
  total - d.smul coeff

/-- Body of the parallel loop /repo/nbody/nbody_engine_block.cpp:52-125, iteration `k1` (`n1 = k1*block`);
`blocks` is the number of iterations of the loops over `n1` and `n2`. -/
def blockBody (block blocks count : Nat) (hm y f : Handle) (k1 : Nat) : Prog S Unit := do
  let n1 := k1 * block
  let p1 ← forN block (fun (_ : Nat) => (0 : Vec3 S)) (fun b1 p => do
    let x ← Prog.get y (b1 + n1)
    let yy ← Prog.get y (count + (b1 + n1))
    let z ← Prog.get y (2 * count + (b1 + n1))
    pure (upd p b1 ⟨x, yy, z⟩))
  let total ← forN blocks (fun (_ : Nat) => (0 : Vec3 S)) (fun k2 total => do
    let n2 := k2 * block
    let pm2 ← forN block (fun (_ : Nat) => ((0 : Vec3 S), (0 : S))) (fun b2 p => do
      let x ← Prog.get y (b2 + n2)
      let yy ← Prog.get y (count + (b2 + n2))
      let z ← Prog.get y (2 * count + (b2 + n2))
      let m ← Prog.get hm (n2 + b2)
      pure (upd p b2 (⟨x, yy, z⟩, m)))
    pure (foldN block total (fun b1 total =>
      foldN block total (fun b2 total =>
        upd total b1 (blockTerm (total b1) (p1 b1) (pm2 b2).1 (pm2 b2).2)))))
  forN block () (fun b1 _ => do
    let vx ← Prog.get y (3 * count + (b1 + n1))
    Prog.put f (b1 + n1) vx
    let vy ← Prog.get y (4 * count + (b1 + n1))
    Prog.put f (count + (b1 + n1)) vy
    let vz ← Prog.get y (5 * count + (b1 + n1))
    Prog.put f (2 * count + (b1 + n1)) vz
    Prog.put f (3 * count + (b1 + n1)) (total b1).x
    Prog.put f (4 * count + (b1 + n1)) (total b1).y
    Prog.put f (5 * count + (b1 + n1)) (total b1).z)

/-- /repo/nbody/nbody_engine_block.cpp:14-126, `fcompute`.  The loops `for(n = 0; n < count; n += block)`
have `⌈count/block⌉` iterations. -/
def blockFcompute (loop : Loop S) (block count : Nat) (hm y f : Handle) (m : Mem S) : Res (Mem S) :=
  if !m.has y then .ok m
  else if !m.has f then .ok m
  else
    let blocks := (count + (block - 1)) / block
    loop blocks (blockBody block blocks count hm y f) m

end

end NB
