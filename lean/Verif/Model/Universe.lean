import Verif.Model.DataIO

/-
Model of the generator of initial states (/repo/nbody/nbody_data.cpp:258-324).

Simplifications: `std::mt19937_64` with its default seed and `std::uniform_real_distribution` are replaced by an
arbitrary list of triples, the successive values of `r`; when the list ends before the loop does the model has no
result.  The constants 0.999, 0.3, 0.5 and 1e-7 are quotients of integers; `pow(x, 3.0)` is a parameter.
Memory is not exhausted.
-/

namespace NB

/-- `size_t` arithmetic is modulo 2^64.
(Arithmetic of `make_universe`, /repo/nbody/nbody_data.cpp:305-324.) -/
def wrap64 (n : Nat) : Nat := n % 2 ^ 64

/-- /repo/nbody/nbody_data.cpp:258-261, `round_up`. -/
def roundUp (n factor : Nat) : Nat := wrap64 (factor * (1 + wrap64 (n + (2 ^ 64 - 1)) / factor))

/-- /repo/nbody/nbody_data.cpp:269, the number of stars of a galaxy, without the black hole. -/
def starCount (count : Nat) : Nat := wrap64 (roundUp count 64 + (2 ^ 64 - 1))

section
variable {S C : Type} [Zero S] [One S] [Add S] [Sub S] [Mul S] [Neg S] [Div S] [FOps S]

/-- /repo/nbody/nbody_data.cpp:291-299, the velocity of a star at `r` relative to its galaxy. -/
def starVel (center r : Vec3 S) (starMass effective : S) : Vec3 S :=
  let up : Vec3 S := ⟨0, 0, 1⟩
  let right : Vec3 S := ⟨1, 0, 0⟩
  let v := (r - center).cross up
  let v := if FOps.lt v.length (1 / FOps.lit 10000000) then (r - center).cross right else v
  let v := v.normalized
  v.smul (FOps.sqrt ((force r center starMass effective).length * (r - center).length / starMass))

/-- /repo/nbody/nbody_data.cpp:289-290, the position of a star: flattened and moved to its galaxy. -/
def starPos (center r : Vec3 S) : Vec3 S := ⟨r.x, r.y, r.z * (FOps.lit 3 / FOps.lit 10)⟩ + center

/-- /repo/nbody/nbody_data.cpp:276, the mass of the black hole. -/
def holeMass (total : S) : S := total * (FOps.lit 999 / FOps.lit 1000)

/-- /repo/nbody/nbody_data.cpp:277, the mass of a star. -/
def starMass (total : S) (stars : Nat) : S := (total - holeMass total) / FOps.lit stars

/-- /repo/nbody/nbody_data.cpp:278, 298. -/
def effectiveMass (pow3 : S → S) (radius total : S) (stars : Nat) (rlen : S) : S :=
  pow3 (rlen / radius) * (FOps.lit stars * starMass total stars) + holeMass total

/-- /repo/nbody/nbody_data.cpp:281-301, the loop over the stars; the second number counts the stars still to be made
(`--n; continue` for a triple outside the sphere). -/
def addStars (pow3 : S → S) (center velosity : Vec3 S) (radius total : S) (stars : Nat) (color : C) :
    List (Vec3 S) → Nat → DataObj S C → Option (DataObj S C)
  | _, 0, d => some d
  | [], _ + 1, _ => none
  | r :: draws, k + 1, d =>
    let rlen := r.length
    if FOps.lt radius rlen then addStars pow3 center velosity radius total stars color draws (k + 1) d
    else
      let p := starPos center r
      let v := starVel center p (starMass total stars) (effectiveMass pow3 radius total stars rlen)
      addStars pow3 center velosity radius total stars color draws k
        (d.addBody p (v + velosity) (starMass total stars) color 0)

/-- /repo/nbody/nbody_data.cpp:263-303, `add_galaxy`. -/
def DataObj.addGalaxy (pow3 : S → S) (green : C) (draws : List (Vec3 S)) (center velosity : Vec3 S)
    (radius total : S) (count : Nat) (color : C) (d : DataObj S C) : Option (DataObj S C) :=
  let stars := starCount count
  addStars pow3 center velosity radius total stars color draws stars
    (d.addBody center velosity (holeMass total) green 0)

/-- /repo/nbody/nbody_data.cpp:305-324, `make_universe`.  Both galaxies start from the default seed, so they see the
same triples. -/
def DataObj.makeUniverse (pow3 : S → S) (toSize : S → Res Nat) (green color1 color2 : C) (draws : List (Vec3 S))
    (n : Nat) (sx sy sz : S) (d : DataObj S C) : Option (Res (DataObj S C)) := do
  let half : S := FOps.lit 5 / FOps.lit 10
  let d := d.clear
  let radius := sx * half
  let mass : S := FOps.lit 1000
  let center : Vec3 S := ⟨sx * half, sy * half, sz * half⟩
  let base : Vec3 S := ⟨radius, 0, 0⟩
  let velosity : Vec3 S :=
    ⟨0, FOps.sqrt ((force 0 base mass mass).length * base.length / (FOps.lit 2 * mass)), 0⟩
  let d ← d.addGalaxy pow3 green draws (center - base) (velosity.sdiv (FOps.lit 3)) radius mass n color1
  let d ← d.addGalaxy pow3 green draws (center + base) ((-velosity).sdiv (FOps.lit 3)) radius mass n color2
  some (do
    let b ← toSize (stdMax (stdMax 1 sx) (stdMax sy sz))
    pure { d with box := b })

end

end NB
