import Verif.Model.Vec3
import Verif.Model.RealScalar
import Mathlib.Algebra.Order.Floor.Semiring

/-
The colours of the player (/repo/player/wgt_nbody_view.cpp).  Arithmetic is exact, except that the quotients the
code forms may be infinite or not a number.
-/

namespace NB

/-- /repo/nbody/vertex.h:165-175 `vertex4` for /repo/nbody/nbtype.h:31 `nbcolor_t`. -/
@[ext] structure Color where
  x : ℝ
  y : ℝ
  z : ℝ
  w : ℝ

/-- /repo/nbody/vertex.h:213-216, `operator+`. -/
noncomputable def Color.add (a b : Color) : Color := ⟨a.x + b.x, a.y + b.y, a.z + b.z, a.w + b.w⟩

/-- /repo/nbody/vertex.h:244-247, `operator*`. -/
noncomputable def Color.smul (c : Color) (a : ℝ) : Color := ⟨c.x * a, c.y * a, c.z * a, c.w * a⟩

/-- Quotient of two numbers in floating point, without rounding and without the sign of zero.
(Division at /repo/player/wgt_nbody_view.cpp:156.) -/
inductive Quo where
  | nan
  | inf
  | num (x : ℝ)

open Classical in
/-- `a / b` for `0 ≤ a`, `0 ≤ b`.
(Division at /repo/player/wgt_nbody_view.cpp:156.) -/
noncomputable def quo (a b : ℝ) : Quo :=
  if b = 0 then (if a = 0 then .nan else .inf) else .num (a / b)

/-- /repo/player/wgt_nbody_view.cpp:129-135, the table. -/
noncomputable def lut : List Color := [⟨0.3, 0.3, 1, 1⟩, ⟨0, 1, 0, 1⟩, ⟨1, 1, 0, 1⟩, ⟨1, 0, 0, 1⟩]

open Classical in
/-- /repo/player/wgt_nbody_view.cpp:127-150, `get_color`.  The conversion of a NaN to `size_t` is undefined. -/
noncomputable def getColor : Quo → Res Color
  | .nan => .error .badArith
  | .inf => rd lut (lut.length - 1)
  | .num x =>
    if x ≤ 0 then rd lut 0
    else if 1 ≤ x then rd lut (lut.length - 1)
    else do
      let x := x * lut.length
      let i := ⌈x⌉₊
      let w := (i : ℝ) - x
      let a ← rd lut (i - 1)
      let b ← rd lut i
      pure ((a.smul w).add (b.smul (1 - w)))

/-- /repo/player/wgt_nbody_view.cpp:152-158, `compute_color_from_velosity`; the colours as a list. -/
noncomputable def computeColors (vel : List (Vec3 ℝ)) (maxVelosity : ℝ) : Res (List Color) :=
  vel.mapM fun v => getColor (quo v.length maxVelosity)

/-- The loop body /repo/player/wgt_nbody_view.cpp:244-250 of `get_box`; `std::min(a, b)` is `b < a ? b : a`. -/
noncomputable def boxStep (b : Vec3 ℝ × Vec3 ℝ) (v : Vec3 ℝ) : Vec3 ℝ × Vec3 ℝ :=
  (⟨min b.1.x v.x, min b.1.y v.y, min b.1.z v.z⟩, ⟨max b.2.x v.x, max b.2.y v.y, max b.2.z v.z⟩)

/-- /repo/player/wgt_nbody_view.cpp:238-254, `get_box`: the corners. -/
noncomputable def getBox (vrt : List (Vec3 ℝ)) : Vec3 ℝ × Vec3 ℝ :=
  vrt.foldl boxStep (⟨1e30, 1e30, 1e30⟩, ⟨-1e30, -1e30, -1e30⟩)

/-- /repo/player/wgt_nbody_view.cpp:190-196: the colours of a frame, with the velocity box set up (265) from the
velocities `first` of the frame shown first. -/
noncomputable def frameColors (first vel : List (Vec3 ℝ)) : Res (List Color) :=
  computeColors vel ((getBox first).2 - (getBox first).1).length

end NB
