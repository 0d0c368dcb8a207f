import Verif.Base

/-
Recording a video (/repo/player/nbody_frame_compressor_opencv.cpp, /repo/player/wgt_nbody_player.cpp:86-123).
OpenCV and Qt are represented by the documented effect of the calls used; the encoder is not modelled, so a video is
the list of the images given to it.
-/

namespace NB

/-- The two compressors, /repo/player/wgt_nbody_player.cpp:95,99. -/
inductive CompressorKind where
  | opencv
  | image
  deriving DecidableEq, Repr

/-- `QString::endsWith(".avi", Qt::CaseInsensitive)`, /repo/player/wgt_nbody_player.cpp:91.  No character other than
the two cases of a letter folds to `a`, `v` or `i`, so the case of ASCII is enough. -/
def endsWithAvi (s : List Char) : Bool := (s.reverse.take 4).map Char.toLower == ['i', 'v', 'a', '.']

/-- /repo/player/wgt_nbody_player.cpp:86-102, `create_compresser`: the compressor, if any, and `out` afterwards. -/
def createCompresser (selected : String) (filters : List String) (out : List Char) :
    Res (Option CompressorKind × List Char) := do
  let f0 ← rd filters 0
  if selected = f0 then
    pure (some .opencv, if endsWithAvi out then out else out ++ ['.', 'a', 'v', 'i'])
  else do
    let f1 ← rd filters 1
    if selected = f1 then pure (some .image, out) else pure (none, out)

/-- /repo/player/wgt_nbody_player.cpp:106-117: the compressor and the name of the recording; `none` when the dialog is
cancelled or no compressor is made. -/
def startRecord (selected : String) (out : List Char) : Res (Option (CompressorKind × List Char)) :=
  if out.isEmpty then pure none
  else do
    let r ← createCompresser selected ["Avi (*.avi)", "PNG frames (*.png)"] out
    pure (r.1.map fun k => (k, r.2))

/-- A pixel of an image in 24 bits, red, green and blue (/repo/player/nbody_frame_compressor_opencv.cpp:43). -/
structure Rgb (β : Type) where
  r : β
  g : β
  b : β
  deriving DecidableEq, Repr

/-- An image of `w` times `h` pixels, `px x y` in column `x` of line `y`.
(`QImage`, /repo/player/nbody_frame_compressor_opencv.cpp:29.) -/
structure Picture (β : Type) where
  w : Nat
  h : Nat
  px : Nat → Nat → Rgb β

/-- The length of a line of a `QImage` of 24 bits per pixel: a multiple of 4 bytes
(/repo/player/nbody_frame_compressor_opencv.cpp:43, `Format_RGB888`). -/
def bytesPerLine (w : Nat) : Nat := (w * 24 + 31) / 32 * 4

/-- `frame.convertToFormat(QImage::Format_RGB888).rgbSwapped().bits()`,
/repo/player/nbody_frame_compressor_opencv.cpp:43-44: line after line, blue, green, red, then up to three bytes `pad`
nobody sets. -/
def rgbBits {β : Type} (p : Picture β) (pad : Nat → Nat → β) : List β :=
  (List.range p.h).flatMap fun y =>
    ((List.range p.w).flatMap fun x => [(p.px x y).b, (p.px x y).g, (p.px x y).r]) ++
      (List.range (bytesPerLine p.w - 3 * p.w)).map (pad y)

/-- Pixel `(x, y)` of `cv::Mat(size, CV_8UC3, data)`, /repo/player/nbody_frame_compressor_opencv.cpp:44: three bytes per
pixel, blue first, and no gap between the lines since no `step` is given. -/
def matPixel {β : Type} (data : List β) (w x y : Nat) : Res (Rgb β) := do
  let b ← rd data (y * (3 * w) + 3 * x)
  let g ← rd data (y * (3 * w) + 3 * x + 1)
  let r ← rd data (y * (3 * w) + 3 * x + 2)
  pure ⟨r, g, b⟩

/-- The image given to the encoder, /repo/player/nbody_frame_compressor_opencv.cpp:43-46: line after line. -/
def videoImage {β : Type} (p : Picture β) (pad : Nat → Nat → β) : Res (List (List (Rgb β))) :=
  (List.range p.h).mapM fun y => (List.range p.w).mapM fun x => matPixel (rgbBits p pad) p.w x y

/-- `cv::VideoWriter` and the name, /repo/player/nbody_frame_compressor_opencv.cpp:8-12; `answers` says which of the
coming calls of `open` succeed. -/
structure Video (β : Type) where
  opened : Bool := false
  images : List (List (List (Rgb β))) := []
  answers : List Bool := []

/-- /repo/player/nbody_frame_compressor_opencv.cpp:29-47, `push_frame`.  After the last answer `open` succeeds. -/
def Video.push {β : Type} (p : Picture β) (pad : Nat → Nat → β) (v : Video β) : Res (Video β) := do
  let ok := v.opened || v.answers.headD true
  let answers := if v.opened then v.answers else v.answers.tail
  if ok then do
    let img ← videoImage p pad
    pure ⟨true, v.images ++ [img], answers⟩
  else pure ⟨false, v.images, answers⟩

/-- The frames of a recording pushed one after the other, /repo/player/wgt_nbody_player.cpp:161. -/
def Video.pushAll {β : Type} (l : List (Picture β × (Nat → Nat → β))) (v : Video β) : Res (Video β) :=
  l.foldlM (fun v p => v.push p.1 p.2) v

/-- /repo/player/wgt_nbody_view.cpp:116, 290-314: the size of the images that are recorded. -/
def renderSize : Nat × Nat := (1920, 1080)

end NB
