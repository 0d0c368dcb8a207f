import Verif.Base

/-
Model of `vertex3<T>` (/repo/nbody/vertex.h) for `T = nbcoord_t`.
-/

namespace NB

/-- /repo/nbody/vertex.h:6-11, `struct vertex3`. -/
@[ext] structure Vec3 (S : Type _) where
  x : S
  y : S
  z : S
  deriving DecidableEq

namespace Vec3

variable {S : Type _}

/-- /repo/nbody/vertex.h:12, the default constructor. -/
instance [Zero S] : Zero (Vec3 S) := ⟨⟨0, 0, 0⟩⟩

/-- /repo/nbody/vertex.h:55-65, `operator+` and `operator+=`. -/
instance [Add S] : Add (Vec3 S) := ⟨fun a b => ⟨a.x + b.x, a.y + b.y, a.z + b.z⟩⟩

/-- /repo/nbody/vertex.h:69-79, `operator-` and `operator-=`. -/
instance [Sub S] : Sub (Vec3 S) := ⟨fun a b => ⟨a.x - b.x, a.y - b.y, a.z - b.z⟩⟩

/-- /repo/nbody/vertex.h:119-122, unary minus. -/
instance [Neg S] : Neg (Vec3 S) := ⟨fun a => ⟨-a.x, -a.y, -a.z⟩⟩

/-- /repo/nbody/vertex.h:83-93, `operator*(T)` and `operator*=(T)`: the vector is the left factor. -/
def smul [Mul S] (v : Vec3 S) (a : S) : Vec3 S := ⟨v.x * a, v.y * a, v.z * a⟩

/-- /repo/nbody/vertex.h:97-108, `operator/(T)` and `operator/=(T)`. -/
def sdiv [Div S] (v : Vec3 S) (a : S) : Vec3 S := ⟨v.x / a, v.y / a, v.z / a⟩

/-- /repo/nbody/vertex.h:126-129, scalar product. -/
def dot [Add S] [Mul S] (v w : Vec3 S) : S := v.x * w.x + v.y * w.y + v.z * w.z

/-- /repo/nbody/vertex.h:133-138, vector product. -/
def cross [Sub S] [Mul S] (v w : Vec3 S) : Vec3 S :=
  ⟨v.y * w.z - v.z * w.y, v.z * w.x - v.x * w.z, v.x * w.y - v.y * w.x⟩

/-- /repo/nbody/vertex.h:151-154, `norm()` (the *squared* length). -/
def norm [Add S] [Mul S] (v : Vec3 S) : S := v.x * v.x + v.y * v.y + v.z * v.z

/-- /repo/nbody/vertex.h:155-158, `length()`. -/
def length [Add S] [Mul S] [FOps S] (v : Vec3 S) : S := FOps.sqrt (v.dot v)

/-- /repo/nbody/vertex.h:146-150, `distance()`. -/
def distance [Add S] [Sub S] [Mul S] [FOps S] (v w : Vec3 S) : S := (v - w).length

/-- /repo/nbody/vertex.h:142-145, `normalize()` (the value stored into `*this`). -/
def normalized [Add S] [Mul S] [Div S] [FOps S] (v : Vec3 S) : Vec3 S := v.sdiv v.length

/-- /repo/nbody/vertex.h:159-162, `mirror()`. -/
def mirror [Add S] [Sub S] [Mul S] [FOps S] (v w : Vec3 S) : Vec3 S :=
  w + (v - w).smul (FOps.lit 2)

end Vec3

section
variable {S : Type _} [Add S] [Sub S] [Mul S] [Neg S] [Div S] [One S] [FOps S]

/-- /repo/nbody/nbody_data.cpp:35-44, `nbody_data::force`.  `GravityConst` is `1_f`
(nbody_data.cpp:14-16). -/
def force (v1 v2 : Vec3 S) (mass1 mass2 : S) : Vec3 S :=
  let dr := v1 - v2
  let r2 := dr.norm
  let r2 := if FOps.lt r2 (FOps.minDist : S) then FOps.minDist else r2
  dr.smul ((-(1 : S) * mass1 * mass2) / (r2 * FOps.sqrt r2))

variable [Zero S]

/-- /repo/nbody/nbody_data.cpp:46-55, `nbody_data::potential_energy` (checked array accesses). -/
def potentialEnergy (mass : List S) (vertites : List (Vec3 S)) (body1 body2 : Nat) : Res S := do
  let p1 ← rd vertites body1
  let p2 ← rd vertites body2
  let r2 := (p1 - p2).norm
  if FOps.lt r2 (FOps.minDist : S) then
    pure 0
  else do
    let m1 ← rd mass body1
    let m2 ← rd mass body2
    pure (-((1 : S) * m1 * m2) / FOps.sqrt r2)
end

end NB
