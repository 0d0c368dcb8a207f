import Verif.Model.EngineSimple

/-
Model of `nbody_engine_ah` (/repo/nbody/nbody_engine_ah.cpp).
Simplification: the two `omp parallel for` loops are executed in index order.  Iteration `body1` writes
only its own elements of `f`, `m_univerce_force` and `m_adjacent_body`; the race-freedom argument for
the accesses to `f`, `y` and the masses is the one of the simple engine (C03).
-/

namespace NB

/-- /repo/nbody/nbody_engine_ah.h: the members `m_univerce_force` and `m_adjacent_body`. -/
structure AHState (S : Type) where
  univ : List (Vec3 S)
  adj : List (List Nat)

section
variable {S : Type} [Add S] [Sub S] [Mul S] [Neg S] [Div S] [Zero S] [One S] [FOps S]

/-- The constructor's squared thresholds /repo/nbody/nbody_engine_ah.cpp:3-9 and the recompute rate. -/
structure AHParams (S : Type) where
  rate : Nat
  maxDistSqr : S
  minForceSqr : S

omit [Add S] [Sub S] [Neg S] [Div S] [Zero S] [One S] [FOps S] in
/-- /repo/nbody/nbody_engine_ah.cpp:3-9, the constructor. -/
def AHParams.make (rate : Nat) (maxDist minForce : S) : AHParams S :=
  ⟨rate, maxDist * maxDist, minForce * minForce⟩

omit [One S] [Neg S] [Div S] [Zero S] in
/-- /repo/nbody/nbody_engine_ah.cpp:95-96, the test that makes `body2` a neighbour of `body1`. -/
def ahNear (p : AHParams S) (v1 v2 f : Vec3 S) : Bool :=
  FOps.lt (v1 - v2).norm p.maxDistSqr || FOps.lt p.minForceSqr f.norm

/-- /repo/nbody/nbody_engine_ah.cpp:106-111,152-157: the derivative of one body is written. -/
def ahWrite (count : Nat) (hm y f : Handle) (body1 : Nat) (total : Vec3 S) : Prog S Unit := do
  let vx ← Prog.get y (3 * count + body1)
  Prog.put f body1 vx
  let vy ← Prog.get y (4 * count + body1)
  Prog.put f (count + body1) vy
  let vz ← Prog.get y (5 * count + body1)
  Prog.put f (2 * count + body1) vz
  let m ← Prog.get hm body1
  Prog.put f (3 * count + body1) (total.x / m)
  Prog.put f (4 * count + body1) (total.y / m)
  Prog.put f (5 * count + body1) (total.z / m)

/-- The body of the loop /repo/nbody/nbody_engine_ah.cpp:80-113; returns the new
`m_univerce_force[body1]` and the new `m_adjacent_body[body1]` (which was emptied in line 76). -/
def ahFullBody (p : AHParams S) (count : Nat) (hm y f : Handle) (body1 : Nat) :
    Prog S (Vec3 S × List Nat) := do
  let x1 ← Prog.get y body1
  let y1 ← Prog.get y (count + body1)
  let z1 ← Prog.get y (2 * count + body1)
  let v1 : Vec3 S := ⟨x1, y1, z1⟩
  let r ← forN count (((0 : Vec3 S), ([] : List Nat)), (0 : Vec3 S)) (fun body2 r =>
    if body1 = body2 then pure r
    else do
      let x2 ← Prog.get y body2
      let y2 ← Prog.get y (count + body2)
      let z2 ← Prog.get y (2 * count + body2)
      let m1 ← Prog.get hm body1
      let m2 ← Prog.get hm body2
      let v2 : Vec3 S := ⟨x2, y2, z2⟩
      let fc := force v1 v2 m1 m2
      if ahNear p v1 v2 fc then pure ((r.1.1, r.1.2 ++ [body2]), r.2 + fc)
      else pure ((r.1.1 + fc, r.1.2), r.2 + fc))
  ahWrite count hm y f body1 r.2
  pure r.1

/-- /repo/nbody/nbody_engine_ah.cpp:43-115, `fcompute_full`.  The vectors are resized to `count` and
cleared first, so their previous contents play no role. -/
def ahFull (p : AHParams S) (count : Nat) (hm y f : Handle) (m : Mem S) : Res (AHState S × Mem S) :=
  forN count ((⟨List.replicate count 0, List.replicate count []⟩ : AHState S), m) (fun body1 s => do
    let r ← (ahFullBody p count hm y f body1).run s.2
    let univ ← wr s.1.univ body1 r.1.1
    let adj ← wr s.1.adj body1 r.1.2
    pure (⟨univ, adj⟩, r.2))

/-- /repo/nbody/nbody_engine_ah.cpp:143-149, the loop over the neighbours of `body1`. -/
def ahSparseSum (count : Nat) (hm y : Handle) (body1 : Nat) (v1 : Vec3 S) :
    List Nat → Vec3 S → Prog S (Vec3 S)
  | [], total => pure total
  | body2 :: rest, total => do
    let x2 ← Prog.get y body2
    let y2 ← Prog.get y (count + body2)
    let z2 ← Prog.get y (2 * count + body2)
    let m1 ← Prog.get hm body1
    let m2 ← Prog.get hm body2
    ahSparseSum count hm y body1 v1 rest (total + force v1 ⟨x2, y2, z2⟩ m1 m2)

/-- The body of the loop /repo/nbody/nbody_engine_ah.cpp:138-158 once `m_univerce_force[body1]` (`u`)
and `m_adjacent_body[body1]` (`l`) have been read. -/
def ahSparseBody (count : Nat) (hm y f : Handle) (u : Vec3 S) (l : List Nat) (body1 : Nat) :
    Prog S Unit := do
  let x1 ← Prog.get y body1
  let y1 ← Prog.get y (count + body1)
  let z1 ← Prog.get y (2 * count + body1)
  let total ← ahSparseSum count hm y body1 ⟨x1, y1, z1⟩ l u
  ahWrite count hm y f body1 total

/-- /repo/nbody/nbody_engine_ah.cpp:117-160, `fcompute_sparse`. -/
def ahSparse (count : Nat) (hm y f : Handle) (st : AHState S) (m : Mem S) : Res (Mem S) :=
  forN count m (fun body1 m => do
    let u ← rd st.univ body1
    let l ← rd st.adj body1
    let r ← (ahSparseBody count hm y f u l body1).run m
    pure r.2)

/-- /repo/nbody/nbody_engine_ah.cpp:16-41, `fcompute`; `step` is `m_data->get_step()`. -/
def ahFcompute (p : AHParams S) (step count : Nat) (hm y f : Handle) (st : AHState S) (m : Mem S) :
    Res (AHState S × Mem S) :=
  if !m.has y then .ok (st, m)
  else if !m.has f then .ok (st, m)
  else if p.rate = 0 then .error .divZero
  else if step % p.rate = 0 then ahFull p count hm y f m
  else do
    let m' ← ahSparse count hm y f st m
    pure (st, m')

end

end NB
