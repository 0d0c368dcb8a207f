import Verif.Model.EngineSimple

/-
Model of /repo/nbody/summation.h (range sums) and /repo/nbody/summation_proxy.h, and of the part of
`nbody_data::print_statistics` that computes the diagnostics.
-/

namespace NB

/-- /repo/nbody/summation.h:19-34, Kahan sum over `[begin, end)` of a container given by its (checked)
`operator[]`; the result also carries the final correction.  The sum starts with element `begin`. -/
def summationRange {W : Type _} [Add W] [Sub W] [Zero W] (container : Nat → Res W) (start stop : Nat)
    (correction : W) : Res (W × W) :=
  if start = stop then .ok (0, correction)
  else do
    let s ← container start
    forN (stop - (start + 1)) (s, correction) (fun k st => do
      let b ← container (start + 1 + k)
      pure (summationK st.1 b st.2))

/-- /repo/nbody/summation.h:39-45, `summation`. -/
def summation {W : Type _} [Add W] [Sub W] [Zero W] (container : Nat → Res W) (size : Nat) : Res W := do
  let r ← summationRange container 0 size 0
  pure r.1

/-- The arrays of `nbody_data` (/repo/nbody/nbody_data.h) the diagnostics read. -/
structure BodyData (S : Type) where
  vrt : List (Vec3 S)
  vel : List (Vec3 S)
  mass : List S

section
variable {S : Type} [Add S] [Sub S] [Mul S] [Neg S] [Div S] [Zero S] [One S] [FOps S]

/-- /repo/nbody/summation_proxy.h:6-19. -/
def impulceProxy (d : BodyData S) (n : Nat) : Res (Vec3 S) := do
  let v ← rd d.vel n
  let m ← rd d.mass n
  pure (v.smul m)

/-- /repo/nbody/summation_proxy.h:21-34. -/
def massCenterProxy (d : BodyData S) (n : Nat) : Res (Vec3 S) := do
  let p ← rd d.vrt n
  let m ← rd d.mass n
  pure (p.smul m)

/-- /repo/nbody/summation_proxy.h:36-51. -/
def impulceMomentProxy (d : BodyData S) (n : Nat) : Res (Vec3 S) := do
  let p ← rd d.vrt n
  let v ← rd d.vel n
  let m ← rd d.mass n
  pure (p.cross (v.smul m))

/-- /repo/nbody/summation_proxy.h:53-66. -/
def kineticEnergyProxy (d : BodyData S) (n : Nat) : Res S := do
  let v ← rd d.vel n
  let m ← rd d.mass n
  pure (v.norm * m)

/-- /repo/nbody/summation_proxy.h:68-87; `count` is `data->get_count()`. -/
def potentialEnergyProxy (count : Nat) (d : BodyData S) (n : Nat) : Res S :=
  if count = 0 then .error .divZero
  else
    let n1 := n / count
    let n2 := n % count
    if n1 = n2 then .ok 0 else potentialEnergy d.mass d.vrt n1 n2

/-- What one call of `print_statistics` computes.
(/repo/nbody/nbody_data.h:22-32.) -/
structure Diagnostics (S : Type) where
  impulce : Vec3 S
  impulceMoment : Vec3 S
  massCenter : Vec3 S
  kinetic : S
  potential : S

/-- /repo/nbody/nbody_data.cpp:67-93, the sums of `print_statistics`; the flags say which letters the
check list contains.  Quantities that are not requested stay 0.  (`/= 2` divides by the converted
literal.) -/
def diagnostics (P L E V : Bool) (count : Nat) (d : BodyData S) : Res (Diagnostics S) := do
  let p ← (if P then summation (impulceProxy d) count else .ok 0 : Res (Vec3 S))
  let l ← (if L then summation (impulceMomentProxy d) count else .ok 0 : Res (Vec3 S))
  let ke ← (if E then summation (kineticEnergyProxy d) count else .ok 0 : Res S)
  let pe ← (if E then summation (potentialEnergyProxy count d) (count * count) else .ok 0 : Res S)
  let mc ← (if V then do
      let tm ← summation (rd d.mass) count
      let mc ← summation (massCenterProxy d) count
      pure (mc.sdiv tm)
    else .ok 0 : Res (Vec3 S))
  pure { impulce := p, impulceMoment := l, massCenter := mc,
         kinetic := if E then ke / FOps.lit 2 else ke,
         potential := if E then pe / FOps.lit 2 else pe }

end

/-- The fields of `nbody_data` that `print_statistics` updates (/repo/nbody/nbody_data.h). -/
structure StatState (S : Type) where
  initialComputed : Bool
  initial : Diagnostics S
  last : Diagnostics S

/-- /repo/nbody/nbody_data.cpp:95-103 and the `m_last_*` assignments of lines 119-139: the initial values
are stored by the first call only; the last values are stored for the requested letters only.
Simplification: the printed line and the timers are left out. -/
def statUpdate {S : Type} (P L E V : Bool) (cur : Diagnostics S) (st : StatState S) : StatState S :=
  { initialComputed := true
    initial := if st.initialComputed then st.initial else cur
    last :=
      { impulce := if P then cur.impulce else st.last.impulce
        impulceMoment := if L then cur.impulceMoment else st.last.impulceMoment
        massCenter := if V then cur.massCenter else st.last.massCenter
        kinetic := if E then cur.kinetic else st.last.kinetic
        potential := if E then cur.potential else st.last.potential } }

end NB
