import Verif.Model.PlayerStream

/-
The buttons of the player (/repo/player/wgt_nbody_player_control.cpp): the animation that moves the slider and the actions that are enabled.

The behaviour of Qt is taken from its documentation and sources: `QAbstractAnimation::start` does nothing while running, sets the current time to 0
(and the property to its value there) if the animation was stopped and goes on at the current time if it was paused; `pause` does nothing while stopped;
`setCurrentTime` cuts the time to the duration, sets the property unless the animation is stopped, and stops at the end of the duration; `stop` emits
`finished` if the current time is the duration.  An action that is not enabled cannot be triggered.
-/

namespace NB

/-- `QAbstractAnimation::State`.
(Qt; of `m_animation`, /repo/player/wgt_nbody_player_control.cpp:77-82.) -/
inductive AnimState where
  | stopped
  | paused
  | running
  deriving DecidableEq

/-- The members of `wgt_nbody_player_control` (/repo/player/wgt_nbody_player_control.h:20-40) the buttons use: the last value of the slider, its value, the
animation's state and current time in milliseconds, and which of the actions are enabled.  `moved` are the values the slider was set to, in order. -/
structure Control where
  last : Nat
  value : Nat
  anim : AnimState
  time : Nat
  startOn : Bool
  pauseOn : Bool
  stopOn : Bool
  moved : List Nat

/-- /repo/player/wgt_nbody_player_control.cpp:77, `setDuration(5000)`. -/
def animDuration : Nat := 5000

/-- `QSlider::setValue`: cut to the range; a signal only for a new value.
(Qt; called at /repo/player/wgt_nbody_player_control.cpp:175,182,189.) -/
def Control.setValue (c : Control) (k : Nat) : Control :=
  if min k c.last = c.value then c else { c with value := min k c.last, moved := c.moved ++ [min k c.last] }

/-- /repo/player/wgt_nbody_player_control.cpp:192-197, `on_finished`. -/
def Control.onFinished (c : Control) : Control := { c with startOn := true, stopOn := false, pauseOn := false }

/-- `QAbstractAnimation::stop` with the signal `finished` connected to `on_finished` (/repo/player/wgt_nbody_player_control.cpp:88-89). -/
def Control.animStop (c : Control) : Control :=
  if c.anim = .stopped then c
  else if c.time = animDuration then Control.onFinished { c with anim := .stopped } else { c with anim := .stopped }

/-- /repo/player/wgt_nbody_player_control.cpp:77-82, the value of the property at a current time: linear between the first and the last value, cut to a
whole number.  Simplification: without the rounding of the product. -/
def Control.valueAt (c : Control) (t : Nat) : Nat := c.last * t / animDuration

/-- `QAbstractAnimation::setCurrentTime`.
(Qt; called at /repo/player/wgt_nbody_player_control.cpp:174,181,188.) -/
def Control.setCurrentTime (c : Control) (t : Nat) : Control :=
  let c := { c with time := min t animDuration }
  let c := if c.anim = .stopped then c else c.setValue (c.valueAt c.time)
  if c.time = animDuration then c.animStop else c

/-- `QAbstractAnimation::start`.
(Qt; called at /repo/player/wgt_nbody_player_control.cpp:157.) -/
def Control.animStart (c : Control) : Control :=
  match c.anim with
  | .running => c
  | .paused => { c with anim := .running }
  | .stopped => Control.setCurrentTime { c with anim := .running, time := 0 } 0

/-- `QAbstractAnimation::pause`.
(Qt; called at /repo/player/wgt_nbody_player_control.cpp:167.) -/
def Control.animPause (c : Control) : Control := if c.anim = .stopped then c else { c with anim := .paused }

/-- /repo/player/wgt_nbody_player_control.cpp:14-111, the constructor for a stream of so many frames: the range of the slider is from 0 to the number of
frames less one, which `QSlider` takes as 0 if it is negative.  `static_cast<int>` takes the number modulo 2^32, and the subtraction overflows at -2^31. -/
def Control.new (frames : Nat) : Res Control :=
  let k := frames % 2 ^ 32
  if k = 2 ^ 31 then .error .badArith
  else .ok (Control.onFinished ⟨if k < 2 ^ 31 then k - 1 else 0, 0, .stopped, 0, true, true, true, []⟩)

/-- What happens to the control: one of the five buttons, a passing of time in milliseconds that the timer of the animation notices, the user moving the
slider.
(Connections /repo/player/wgt_nbody_player_control.cpp:84-88,101-105.) -/
inductive CtlEvent where
  | start
  | pause
  | backward
  | stop
  | forward
  | tick (ms : Nat)
  | slide (k : Nat)

/-- /repo/player/wgt_nbody_player_control.cpp:155-197, the slots; lines 101-105, their connections. -/
def Control.step (c : Control) : CtlEvent → Control
  | .start => if c.startOn then { c.animStart with startOn := false, stopOn := true, pauseOn := true } else c
  | .pause => if c.pauseOn then { c.animPause with pauseOn := false, startOn := true } else c
  | .backward => (c.setCurrentTime 0).setValue 0
  | .stop => if c.stopOn then ((c.animStop.setCurrentTime 0).setValue 0).onFinished else c
  | .forward => (c.setCurrentTime animDuration).setValue c.last
  | .tick ms => if c.anim = .running then c.setCurrentTime (c.time + ms) else c
  | .slide k => c.setValue k

/-- A history of events.
(The event loop, /repo/player/main.cpp.) -/
def Control.run (c : Control) (l : List CtlEvent) : Control := l.foldl Control.step c

end NB
