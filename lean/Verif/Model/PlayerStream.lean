import Verif.Model.Stream

/-
The player (/repo/player/wgt_nbody_player.cpp, wgt_nbody_player_control.cpp): which frame it shows and what a
recording consists of.

Simplifications: painting is any function of the state of the view and of the data object; `print_statistics` in
the recording loop, the settings of the view and the text of the progress dialog are left out; a second recording
is not started while one runs; a colour or mass file too short for the stream leaves the target as it was.  Qt's
behaviour is taken from its documentation and from QAbstractSlider: a slider with tracking that is dragged emits
`sliderMoved` while its value is still the old one and `valueChanged` afterwards, and emits nothing when the
position does not change.
-/

namespace NB

section
variable {S C V I : Type} [Raw S] [Raw C]

/-- Memory of an array after fewer bytes than it has were read into it.
(/repo/nbody/nbody_data_stream_reader.cpp:83,100,313,319.) -/
def overlay (n : Nat) (b : List UInt8) (old : List (Vec3 S)) : List (Vec3 S) :=
  decVecs n (b ++ (encVecs old).drop b.length)

/-- /repo/nbody/nbody_data_stream_reader.cpp:297-301, 309-324, the target of a `read` that returns -1. -/
def Reader.shortRead (fs : Files) (r : Reader S) (d : Snap S C) : Snap S C :=
  if d.count ≠ r.bodyCount then d
  else
    match r.file with
    | none => d
    | some (name, pos) =>
      let sz := 3 * Raw.size S * d.count
      let b1 := fileRead fs name pos sz
      if b1.length ≠ sz then { d with vrt := overlay d.count b1 d.vrt }
      else { d with vrt := decVecs d.count b1, vel := overlay d.count (fileRead fs name (pos + sz) sz) d.vel }

/-- /repo/nbody/nbody_data_stream_reader.cpp:290-349, `read` together with what it does to the data object; the
flag tells whether it returns 0. -/
def Reader.readInto (fs : Files) (r : Reader S) (d : Snap S C) : Res (Bool × Snap S C × Reader S) :=
  match r.read C fs d.count with
  | .error e => .error e
  | .ok (some o, r') =>
    .ok (true, { d with vrt := o.vrt, vel := o.vel, time := o.time, step := o.step,
                        color := o.color.getD d.color, mass := o.mass.getD d.mass }, r')
  | .ok (none, r') => .ok (false, r.shortRead fs d, r')

/-- /repo/player/wgt_nbody_player.h, the members that matter: `m_stream`, `m_data`, the value of
`m_control->m_timeline`, and the view. -/
structure Player (S C V : Type) where
  reader : Reader S
  data : Snap S C
  slider : Nat
  view : V

/-- /repo/player/wgt_nbody_player.cpp:26-30, `m_data` after `resize` (/repo/nbody/nbody_data.cpp:17-32, 155-164):
zeros. -/
def blankData [Zero S] [Zero C] (n : Nat) : Snap S C :=
  ⟨n, List.replicate n ⟨0, 0, 0⟩, List.replicate n ⟨0, 0, 0⟩, List.replicate n 0, List.replicate n 0, 0, 0, 0⟩

/-- /repo/player/wgt_nbody_player.cpp:18-53 and /repo/player/wgt_nbody_player_control.cpp:70, the constructors for
a loaded stream: the slider stands at 0. -/
def Player.start [Zero S] [Zero C] (r : Reader S) (v : V) : Player S C V := ⟨r, blankData r.bodyCount, 0, v⟩

/-- /repo/player/wgt_nbody_player.cpp:60-73, `on_update_data`; the view is repainted some time later. -/
def Player.update (fs : Files) (p : Player S C V) : Res (Player S C V) :=
  let s := p.reader.seek fs p.slider
  if s.1 = false then .ok { p with reader := s.2 }
  else
    match s.2.readInto fs p.data with
    | .error e => .error e
    | .ok (_, d, r) => .ok { p with data := d, reader := r }

/-- What the event loop may deliver: the slider is set (keys, buttons, the animation), the slider is dragged, the
view is painted.
(Connections /repo/player/wgt_nbody_player_control.cpp:84-88,101-105.) -/
inductive UiEvent where
  | set (k : Nat)
  | drag (k : Nat)
  | repaint

/-- /repo/player/wgt_nbody_player_control.cpp:70, the range of the slider. -/
def Player.bound (p : Player S C V) (k : Nat) : Nat := min k (p.reader.frameCount - 1)

/-- /repo/player/wgt_nbody_player_control.cpp:84-87 and wgt_nbody_player.cpp:35-36, both signals of the slider lead
to `on_update_data`. -/
def Player.ui (paint : V → Snap S C → V × Option I) (fs : Files) (p : Player S C V) :
    UiEvent → Res (Player S C V)
  | .set k => if p.bound k = p.slider then .ok p else Player.update fs { p with slider := p.bound k }
  | .drag k =>
    if p.bound k = p.slider then .ok p
    else
      match p.update fs with
      | .error e => .error e
      | .ok q => Player.update fs { q with slider := p.bound k }
  | .repaint => .ok { p with view := (paint p.view p.data).1 }

/-- Several events.
(The event loop, /repo/player/main.cpp.) -/
def Player.uis (paint : V → Snap S C → V × Option I) (fs : Files) : List UiEvent → Player S C V → Res (Player S C V)
  | [], p => .ok p
  | e :: es, p =>
    match p.ui paint fs e with
    | .error e => .error e
    | .ok p => Player.uis paint fs es p

/-- /repo/player/wgt_nbody_player.cpp:134-173, the recording loop over the frame numbers that are left.  `script k`
tells whether the user has cancelled by frame `k` and which events line 172 delivers.  The result has the calls
of `push_frame`. -/
def Player.recordLoop (paint : V → Snap S C → V × Option I) (fs : Files) (script : Nat → Bool × List UiEvent) :
    List Nat → Player S C V → Res (List (Nat × I) × Player S C V)
  | [], p => .ok ([], p)
  | k :: ks, p =>
    let s := p.reader.seek fs k
    if s.1 = false then .ok ([], { p with reader := s.2 })
    else
      match s.2.readInto fs p.data with
      | .error e => .error e
      | .ok (false, d, r) => .ok ([], { p with data := d, reader := r })
      | .ok (true, d, r) =>
        match paint p.view d with
        | (v, none) => .ok ([], { p with data := d, reader := r, view := v })
        | (v, some img) =>
          if (script k).1 then .ok ([(k, img)], { p with data := d, reader := r, view := v })
          else
            match Player.uis paint fs (script k).2 { p with data := d, reader := r, view := v } with
            | .error e => .error e
            | .ok p =>
              match Player.recordLoop paint fs script ks p with
              | .error e => .error e
              | .ok (out, p) => .ok ((k, img) :: out, p)

/-- /repo/player/wgt_nbody_player.cpp:104-178, `on_start_record` once a destination has been chosen. -/
def Player.record (paint : V → Snap S C → V × Option I) (fs : Files) (script : Nat → Bool × List UiEvent)
    (p : Player S C V) : Res (List (Nat × I) × Player S C V) :=
  match Player.recordLoop paint fs script (List.range p.reader.frameCount) p with
  | .error e => .error e
  | .ok (out, p) =>
    match p.update fs with
    | .error e => .error e
    | .ok p => .ok (out, p)

/-- What the user does.
(Menu and slider of /repo/player/wgt_nbody_player.cpp.) -/
inductive UserEvent where
  | ui (e : UiEvent)
  | record (script : Nat → Bool × List UiEvent)

/-- A whole session; the result has the recordings.
(The event loop, /repo/player/main.cpp.) -/
def Player.session (paint : V → Snap S C → V × Option I) (fs : Files) :
    List UserEvent → Player S C V → Res (List (List (Nat × I)) × Player S C V)
  | [], p => .ok ([], p)
  | .ui e :: es, p =>
    match p.ui paint fs e with
    | .error e => .error e
    | .ok p => Player.session paint fs es p
  | .record script :: es, p =>
    match p.record paint fs script with
    | .error e => .error e
    | .ok (out, p) =>
      match Player.session paint fs es p with
      | .error e => .error e
      | .ok (outs, p) => .ok (out :: outs, p)

end

end NB
