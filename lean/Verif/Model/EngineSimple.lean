import Verif.Model.Mem
import Verif.Model.Vec3

/-
Model of `nbody_engine_simple` (/repo/nbody/nbody_engine_simple.cpp) and of the generic buffer
arithmetic of `nbody_engine` (/repo/nbody/nbody_engine.cpp).  Loop bodies are `Prog`s so that the same
bodies can be run sequentially (this file) or in parallel (Model/Par.lean).  `advise_compute_count`
and the debug messages are left out here.
-/

namespace NB

section Bodies
variable {S : Type} [Add S] [Sub S] [Mul S] [Neg S] [Div S] [Zero S] [One S] [FOps S]

/-- Body of the loop /repo/nbody/nbody_engine_simple.cpp:152-172 (and
/repo/nbody/nbody_engine_openmp.cpp:56-76).  `hm` is `m_mass`, planes are `rx`, `ry = rx + count`, … -/
def fcomputeBody (count : Nat) (hm y f : Handle) (body1 : Nat) : Prog S Unit := do
  let x1 ← Prog.get y body1
  let y1 ← Prog.get y (count + body1)
  let z1 ← Prog.get y (2 * count + body1)
  let v1 : Vec3 S := ⟨x1, y1, z1⟩
  let total ← forN count (0 : Vec3 S) (fun body2 total =>
    if body1 = body2 then pure total
    else do
      let x2 ← Prog.get y body2
      let y2 ← Prog.get y (count + body2)
      let z2 ← Prog.get y (2 * count + body2)
      let m1 ← Prog.get hm body1
      let m2 ← Prog.get hm body2
      pure (total + force v1 ⟨x2, y2, z2⟩ m1 m2))
  let vx ← Prog.get y (3 * count + body1)
  Prog.put f body1 vx
  let vy ← Prog.get y (4 * count + body1)
  Prog.put f (count + body1) vy
  let vz ← Prog.get y (5 * count + body1)
  Prog.put f (2 * count + body1) vz
  let m ← Prog.get hm body1
  Prog.put f (3 * count + body1) (total.x / m)
  Prog.put f (4 * count + body1) (total.y / m)
  Prog.put f (5 * count + body1) (total.z / m)

omit [Mul S] [Div S] [Zero S] [One S] in
/-- The two statements /repo/nbody/nbody_engine_simple.cpp:192-193 for one coordinate at index `i`:
the second test reads the already updated value. -/
def clampCoord (y : Handle) (b diam : S) (i : Nat) : Prog S Unit := do
  let v ← Prog.get y i
  (if FOps.lt b v then do
    let w ← Prog.get y i
    Prog.put y i (w - diam)
  else pure () : Prog S Unit)
  let v ← Prog.get y i
  (if FOps.lt v (-b) then do
    let w ← Prog.get y i
    Prog.put y i (w + diam)
  else pure () : Prog S Unit)

/-- Body of the loop /repo/nbody/nbody_engine_simple.cpp:190-198 (openmp.cpp:95-103). -/
def clampBody (count : Nat) (y : Handle) (b : S) (body_n : Nat) : Prog S Unit := do
  let diam := (FOps.lit 2 : S) * b
  clampCoord y b diam body_n
  clampCoord y b diam (count + body_n)
  clampCoord y b diam (2 * count + body_n)

omit [Add S] [Sub S] [Mul S] [Neg S] [Div S] [Zero S] [One S] [FOps S]

/-- /repo/nbody/nbody_engine_simple.cpp:257-260 (openmp.cpp:128-131). -/
def copyBody (a b : Handle) (i : Nat) : Prog S Unit := do
  let v ← Prog.get b i
  Prog.put a i v

/-- /repo/nbody/nbody_engine_simple.cpp:276-279 (openmp.cpp:148-151). -/
def fillBody (a : Handle) (value : S) (i : Nat) : Prog S Unit :=
  Prog.put a i value

/-- /repo/nbody/nbody_engine_simple.cpp:302-305 (openmp.cpp:174-177). -/
def fmaddInplaceBody [Add S] [Mul S] (a b : Handle) (c : S) (i : Nat) : Prog S Unit := do
  let av ← Prog.get a i
  let bv ← Prog.get b i
  Prog.put a i (av + bv * c)

/-- /repo/nbody/nbody_engine_simple.cpp:335-338 (openmp.cpp:208-211). -/
def fmaddBody [Add S] [Mul S] (a b c : Handle) (d : S) (i : Nat) : Prog S Unit := do
  let bv ← Prog.get b i
  let cv ← Prog.get c i
  Prog.put a i (bv + cv * d)

/-- /repo/nbody/summation.h:7-14, `summation_k`: returns the new sum and the new correction. -/
def summationK {W : Type _} [Add W] [Sub W] (a b correction : W) : W × W :=
  let corrected := b - correction
  let new_sum := a + corrected
  (new_sum, (new_sum - a) - corrected)

/-- The inner loop /repo/nbody/nbody_engine_simple.cpp:384-392 (openmp.cpp:259-267): `bc` lists the
pairs `(b[k], c[k])` for `k < csize`. -/
def fmaddnCorrTerms [Add S] [Sub S] [Mul S] [Zero S] [FOps S] (a corr : Handle) (i : Nat) :
    List (Handle × S) → Prog S Unit
  | [] => pure ()
  | (b, c) :: rest => do
    (if FOps.eqb c 0 then pure ()
    else do
      let bv ← Prog.get b i
      let term := bv * c
      let av ← Prog.get a i
      let cv ← Prog.get corr i
      let r := summationK av term cv
      Prog.put corr i r.2
      Prog.put a i r.1 : Prog S Unit)
    fmaddnCorrTerms a corr i rest

end Bodies

section Ops
variable {S : Type}

/-- How a loop over independent iterations is executed: number of iterations, body, memory.
(`#pragma omp parallel for`, /repo/nbody/nbody_engine_openmp.cpp:55,94,127,147,173,207,256; a plain `for` in /repo/nbody/nbody_engine_simple.cpp.) -/
abbrev Loop (S : Type) := Nat → (Nat → Prog S Unit) → Mem S → Res (Mem S)

variable (loop : Loop S)

/-- /repo/nbody/nbody_engine_simple.cpp:116-173, `fcompute`, for body count `count`. -/
def fcompute [Add S] [Sub S] [Mul S] [Neg S] [Div S] [Zero S] [One S] [FOps S]
    (count : Nat) (hm y f : Handle) (m : Mem S) : Res (Mem S) :=
  if !m.has y then .ok m
  else if !m.has f then .ok m
  else loop count (fcomputeBody count hm y f) m

/-- /repo/nbody/nbody_engine_simple.cpp:175-199, `clamp`. -/
def clamp [Add S] [Sub S] [Mul S] [Neg S] [FOps S]
    (count : Nat) (y : Handle) (b : S) (m : Mem S) : Res (Mem S) :=
  if !m.has y then .ok m
  else loop count (clampBody count y b) m

/-- /repo/nbody/nbody_engine_simple.cpp:237-261, `copy_buffer`; `n` is `problem_size()`. -/
def copyBuffer (n : Nat) (a b : Handle) (m : Mem S) : Res (Mem S) :=
  if !m.has a then .ok m
  else if !m.has b then .ok m
  else loop n (copyBody a b) m

/-- /repo/nbody/nbody_engine_simple.cpp:263-280, `fill_buffer`: the whole buffer, whatever its
size. -/
def fillBuffer (a : Handle) (value : S) (m : Mem S) : Res (Mem S) :=
  match m a with
  | none => .ok m
  | some l => loop l.length (fillBody a value) m

/-- /repo/nbody/nbody_engine_simple.cpp:282-306, `fmadd_inplace`. -/
def fmaddInplace [Add S] [Mul S] (n : Nat) (a b : Handle) (c : S) (m : Mem S) : Res (Mem S) :=
  if !m.has a then .ok m
  else if !m.has b then .ok m
  else loop n (fmaddInplaceBody a b c) m

/-- /repo/nbody/nbody_engine_simple.cpp:308-339, `fmadd`. -/
def fmadd [Add S] [Mul S] (n : Nat) (a b c : Handle) (d : S) (m : Mem S) : Res (Mem S) :=
  if !m.has a then .ok m
  else if !m.has b then .ok m
  else if !m.has c then .ok m
  else loop n (fmaddBody a b c d) m

/-- /repo/nbody/nbody_engine_simple.cpp:341-394, `fmaddn_corr`.  A null coefficient array is `none`;
otherwise the array is a list whose first `csize` entries are read (shorter lists are out of bounds). -/
def fmaddnCorr [Add S] [Sub S] [Mul S] [Zero S] [FOps S]
    (n : Nat) (a corr : Handle) (b : List Handle) (c : Option (List S)) (csize : Nat) (m : Mem S) :
    Res (Mem S) :=
  if !m.has a then .ok m
  else if !m.has corr then .ok m
  else match c with
  | none => .ok m
  | some c =>
    if csize > b.length then .ok m
    else if !b.all m.has then .ok m
    else if c.length < csize ∧ 0 < n then .error .oob
    else loop n (fun i => fmaddnCorrTerms a corr i ((b.zip c).take csize)) m

/-- The loop /repo/nbody/nbody_engine.cpp:58-65. -/
def fmaddnInplaceTerms [Add S] [Mul S] [Zero S] [FOps S] (n : Nat) (a : Handle) :
    List (Handle × S) → Mem S → Res (Mem S)
  | [], m => .ok m
  | (b, c) :: rest, m => do
    let m ← (if FOps.eqb c 0 then .ok m else fmaddInplace loop n a b c m : Res (Mem S))
    fmaddnInplaceTerms n a rest m

/-- /repo/nbody/nbody_engine.cpp:47-66, `fmaddn_inplace`. -/
def fmaddnInplace [Add S] [Mul S] [Zero S] [FOps S]
    (n : Nat) (a : Handle) (b : List Handle) (c : Option (List S)) (csize : Nat) (m : Mem S) :
    Res (Mem S) :=
  match c with
  | none => .ok m
  | some c =>
    if csize > b.length then .ok m
    else if c.length < csize then .error .oob
    else fmaddnInplaceTerms loop n a ((b.zip c).take csize) m

/-- The loop /repo/nbody/nbody_engine.cpp:97-112; the flag is `a_initiated`.  `b` is only used while
the flag is false, and then it is not null. -/
def fmaddnTerms [Add S] [Mul S] [Zero S] [FOps S] (n : Nat) (a b : Handle) :
    Bool → List (Handle × S) → Mem S → Res (Mem S)
  | _, [], m => .ok m
  | init, (c, d) :: rest, m =>
    if FOps.eqb d 0 then fmaddnTerms n a b init rest m
    else do
      let m ← (if init then fmadd loop n a a c d m else fmadd loop n a b c d m : Res (Mem S))
      fmaddnTerms n a b true rest m

/-- /repo/nbody/nbody_engine.cpp:75-113, `fmaddn`; `b = none` is a null pointer. -/
def fmaddn [Add S] [Mul S] [Zero S] [FOps S]
    (n : Nat) (a : Handle) (b : Option Handle) (c : List Handle) (d : Option (List S)) (dsize : Nat)
    (m : Mem S) : Res (Mem S) :=
  match d with
  | none => .ok m
  | some d =>
    if dsize > c.length then .ok m
    else if d.length < dsize then .error .oob
    else match b with
    | none => do
      let m ← fillBuffer loop a 0 m
      fmaddnTerms loop n a a true ((c.zip d).take dsize) m
    | some b => fmaddnTerms loop n a b false ((c.zip d).take dsize) m

/-- /repo/nbody/nbody_engine_simple.cpp:396-419, `fmaxabs`: the new value of `result` (`none` when
the buffer is not an `smemory` and `result` is left alone). -/
def fmaxabs [FOps S] (n : Nat) (a : Handle) (m : Mem S) : Res (Option S) :=
  match m a with
  | none => .ok none
  | some l => do
    let a0 ← rd l 0
    let r ← forN n (FOps.abs a0) (fun k result => do
      let v ← rd l k
      let v := FOps.abs v
      pure (if FOps.lt result v then v else result))
    pure (some r)

end Ops

/-! ### State transfer between `nbody_data` and the engine -/

section InitGet
variable {S : Type}

/-- Body of /repo/nbody/nbody_engine_simple.cpp:44-53: the arrays of `nbody_data` are `vrt`, `vel`,
`mass`; `y` and `hm` are the freshly created buffers. -/
def initBody (count : Nat) (hm y : Handle) (vrt vel : List (Vec3 S)) (mass : List S)
    (i : Nat) (m : Mem S) : Res (Mem S) := do
  let p ← rd vrt i
  let v ← rd vel i
  let w ← rd mass i
  let r ← Prog.run (do
    Prog.put y i p.x
    Prog.put y (count + i) p.y
    Prog.put y (2 * count + i) p.z
    Prog.put y (3 * count + i) v.x
    Prog.put y (4 * count + i) v.y
    Prog.put y (5 * count + i) v.z
    Prog.put hm i w) m
  pure r.2

/-- /repo/nbody/nbody_engine_simple.cpp:23-56, `init`: `create_buffer` gives `hm` a buffer of `count`
and `y` a buffer of `6 * count` elements with arbitrary contents `g`, `g'`. -/
def engineInit (count : Nat) (hm y : Handle) (vrt vel : List (Vec3 S)) (mass : List S)
    (g g' : List S) (m : Mem S) : Res (Mem S) :=
  let m : Mem S := fun h => if h = hm then some g else if h = y then some g' else m h
  forN count m (initBody count hm y vrt vel mass)

/-- /repo/nbody/nbody_engine_simple.cpp:58-79, `get_data`: the arrays of the target `nbody_data`
are overwritten for indices below the engine's body count. -/
def engineGetData (count : Nat) (y : Handle) (m : Mem S) (vrt vel : List (Vec3 S)) :
    Res (List (Vec3 S) × List (Vec3 S)) :=
  forN count (vrt, vel) (fun i s => do
    let r ← Prog.run (do
      let px ← Prog.get y i
      let py ← Prog.get y (count + i)
      let pz ← Prog.get y (2 * count + i)
      let ux ← Prog.get y (3 * count + i)
      let uy ← Prog.get y (4 * count + i)
      let uz ← Prog.get y (5 * count + i)
      pure ((⟨px, py, pz⟩ : Vec3 S), (⟨ux, uy, uz⟩ : Vec3 S))) m
    let vrt ← wr s.1 i r.1.1
    let vel ← wr s.2 i r.1.2
    pure (vrt, vel))

end InitGet

end NB
