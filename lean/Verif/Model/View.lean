import Verif.Model.Player
import Mathlib.Analysis.SpecialFunctions.Trigonometric.Basic

/-
The view of the player (/repo/player/wgt_nbody_view.cpp): the box it shows, its four panes, what is drawn in them.

Simplifications: exact arithmetic; device pixel ratio 1; the end of the animation of the split point instead of its
course; a body is drawn if its centre is not clipped, whatever its size on the screen and its colour (C53).
-/

namespace NB

/-- /repo/player/wgt_nbody_view.h:13-16, `m_box_min`, `m_box_max`, `m_vel_min`, `m_vel_max`. -/
@[ext] structure ViewBox where
  boxMin : Vec3 ℝ
  boxMax : Vec3 ℝ
  velMin : Vec3 ℝ
  velMax : Vec3 ℝ

/-- /repo/player/wgt_nbody_view.cpp:26-40 and /repo/nbody/vertex.h:12, the members of a new view. -/
noncomputable def ViewBox.start : ViewBox := ⟨0, 0, 0, 0⟩

open Classical in
/-- /repo/player/wgt_nbody_view.cpp:257-270, `setup_view_box` for the positions and velocities of a frame. -/
noncomputable def setupViewBox (b : ViewBox) (vrt vel : List (Vec3 ℝ)) : ViewBox :=
  if b.boxMin ≠ b.boxMax ∨ vrt.length = 0 then b
  else
    let p := getBox vrt
    let q := getBox vel
    let margin := (p.2 - p.1).smul 0.5
    ⟨p.1 - margin, p.2 + margin, q.1, q.2⟩

/-- /repo/player/wgt_nbody_view.cpp:316-320, the box after some frames have been painted. -/
noncomputable def paintFrames (b : ViewBox) (frames : List (List (Vec3 ℝ) × List (Vec3 ℝ))) : ViewBox :=
  frames.foldl (fun b f => setupViewBox b f.1 f.2) b

/-- /repo/player/wgt_nbody_view.cpp:160-163, the arguments of the inner `paintGL`: rectangle (from the lower left
corner), camera and upward direction. -/
structure Pane where
  x : ℕ
  y : ℕ
  width : ℕ
  height : ℕ
  camera : Vec3 ℝ
  up : Vec3 ℝ

/-- /repo/player/wgt_nbody_view.cpp:173, 325, the point looked at. -/
noncomputable def ViewBox.center (b : ViewBox) : Vec3 ℝ := (b.boxMax + b.boxMin).smul 0.5

/-- /repo/player/wgt_nbody_view.cpp:326, the distance of the cameras. -/
noncomputable def ViewBox.dist (b : ViewBox) (scale : ℝ) : ℝ := (b.boxMax - b.boxMin).length * scale

/-- /repo/player/wgt_nbody_player_control.cpp:56-58, 150-153, the scale for a value of the spin box. -/
noncomputable def viewScale (percent : ℝ) : ℝ := 100 / percent

/-- /repo/player/wgt_nbody_view.cpp:325-333, the four panes. -/
noncomputable def panes (b : ViewBox) (scale : ℝ) (split : ℝ × ℝ) (width height : ℕ) : List Pane :=
  let center := b.center
  let dist := b.dist scale
  let x := ⌊width * split.1⌋₊
  let y := ⌊height * split.2⌋₊
  [⟨x, y, width - x, height - y, center - ⟨0, dist, dist⟩, ⟨0, 0, 1⟩⟩,
   ⟨0, 0, x, y, center - ⟨0, 0, dist⟩, ⟨0, 1, 0⟩⟩,
   ⟨x, 0, width - x, y, center + ⟨dist, 0, 0⟩, ⟨0, 1, 0⟩⟩,
   ⟨0, y, x, height - y, center - ⟨0, dist, 0⟩, ⟨0, 0, -1⟩⟩]

/-- Clip coordinates.
(What the matrices of /repo/player/wgt_nbody_view.cpp produce.) -/
structure Clip where
  x : ℝ
  y : ℝ
  z : ℝ
  w : ℝ

/-- /repo/player/wgt_nbody_view.cpp:272-288, `setup_projection`: what the matrices of `gluPerspective` and
`gluLookAt` (by their manual pages) make of a point. -/
noncomputable def project (width height : ℕ) (center camera up p : Vec3 ℝ) : Clip :=
  let aspect : ℝ := height / width
  let near : ℝ := 1
  let far : ℝ := 1000
  -- gluLookAt
  let f := (center - camera).normalized
  let s := (f.cross up).normalized
  let u := s.cross f
  let e := p - camera
  let X := s.dot e
  let Y := u.dot e
  let Z := -(f.dot e)
  -- gluPerspective
  let cot := Real.cos (Real.pi / 6) / Real.sin (Real.pi / 6)
  ⟨cot / (1 / aspect) * X, cot * Y, (far + near) / (near - far) * Z + 2 * far * near / (near - far), -Z⟩

/-- Clipping in OpenGL (a point is kept if no clip coordinate is larger than `w`), for
/repo/player/wgt_nbody_view.cpp:202. -/
def Clip.inside (c : Clip) : Prop := |c.x| ≤ c.w ∧ |c.y| ≤ c.w ∧ |c.z| ≤ c.w

/-- /repo/player/wgt_nbody_view.cpp:160-205, whether a body is drawn in a pane (without stereo). -/
def Pane.draws (b : ViewBox) (q : Pane) (p : Vec3 ℝ) : Prop :=
  (project q.width q.height b.center q.camera q.up p).inside

/-- /repo/player/wgt_nbody_view.cpp:208-219, the cameras of the two stereo images. -/
noncomputable def stereoCameras (center camera up : Vec3 ℝ) (stereoBase : ℤ) : Vec3 ℝ × Vec3 ℝ :=
  let ray := center - camera
  let base := ray.cross up
  let base := base.smul (ray.length / base.length)
  let base := base.smul (stereoBase / 1000)
  (camera + base, camera - base)

open Classical in
/-- /repo/player/wgt_nbody_view.cpp:368-396, `mouseDoubleClickEvent` at a pixel (from the upper left corner): where
the split point goes. -/
noncomputable def doubleClick (split : ℝ × ℝ) (width height : ℕ) (px py : ℕ) : ℝ × ℝ :=
  let sx := width / 2
  let sy := height / 2
  if split = (0.5, 0.5) then
    if sx < px ∧ sy < py then (0, 1)
    else if sx < px ∧ py < sy then (0, 0)
    else if px < sx ∧ sy < py then (1, 1)
    else if px < sx ∧ py < sy then (1, 0)
    else split
  else (0.5, 0.5)

end NB
