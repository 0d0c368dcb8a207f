import Verif.Model.Stream

/-
Writing the images of a recording (/repo/player/nbody_frame_compressor_image.cpp).

Simplifications: images are saved successfully as soon as their directory exists; `QString::arg` is modelled from
Qt's source for ASCII digits.
-/

namespace NB

/-- /repo/player/nbody_frame_compressor_image.cpp:37 (`QString::arg`), a piece of a template: a character, or a place
marker with its number and its text. -/
inductive Seg where
  | lit (c : Char)
  | mark (k : Nat) (text : List Char)

/-- /repo/player/nbody_frame_compressor_image.cpp:37 (`QString::arg`), the digit a character stands for. -/
def digitOf (c : Char) : Option Nat := if c.isDigit then some (c.toNat - '0'.toNat) else none

/-- /repo/player/nbody_frame_compressor_image.cpp:37 (`QString::arg`), one or two digits at the front of a text: their
value, the digits, the rest. -/
def takeNum : List Char → Option (Nat × List Char × List Char)
  | [] => none
  | a :: t =>
    match digitOf a with
    | none => none
    | some x =>
      match t with
      | [] => some (x, [a], [])
      | b :: t =>
        match digitOf b with
        | some y => some (10 * x + y, [a, b], t)
        | none => some (x, [a], b :: t)

/-- /repo/player/nbody_frame_compressor_image.cpp:37 (`QString::arg`), a place marker at the front of a text: `%`,
perhaps `L`, one or two digits. -/
def markAt : List Char → Option (Nat × List Char × List Char)
  | [] => none
  | c :: t =>
    if c = '%' then
      if t.head? = some 'L' then (takeNum t.tail).map fun q => (q.1, '%' :: 'L' :: q.2.1, q.2.2)
      else (takeNum t).map fun q => (q.1, '%' :: q.2.1, q.2.2)
    else none

/-- /repo/player/nbody_frame_compressor_image.cpp:37 (`QString::arg`), the pieces of a template; the number bounds the
length of the text. -/
def segsFuel : Nat → List Char → List Seg
  | 0, _ => []
  | _ + 1, [] => []
  | n + 1, c :: t =>
    match markAt (c :: t) with
    | some (k, m, r) => .mark k m :: segsFuel n r
    | none => .lit c :: segsFuel n t

/-- /repo/player/nbody_frame_compressor_image.cpp:37 (`QString::arg`), the pieces of a template. -/
def segs (t : List Char) : List Seg := segsFuel t.length t

/-- /repo/player/nbody_frame_compressor_image.cpp:37 (`QString::arg`), the least number of a place marker. -/
def leastMark : List Seg → Option Nat
  | [] => none
  | .lit _ :: r => leastMark r
  | .mark k _ :: r =>
    match leastMark r with
    | none => some k
    | some j => some (min k j)

/-- /repo/player/nbody_frame_compressor_image.cpp:37 (`QString::arg`), the text of a piece when the markers `k` are
replaced by `v`; a marker with `L` gets the same text, not the locale's. -/
def Seg.render (k : Option Nat) (v : List Char) : Seg → List Char
  | .lit c => [c]
  | .mark j t => if k = some j then v else t

/-- /repo/player/nbody_frame_compressor_image.cpp:37 (`QString::arg`), all place markers with the least number are
replaced. -/
def qArg (tmpl v : List Char) : List Char := (segs tmpl).flatMap (Seg.render (leastMark (segs tmpl)) v)

/-- /repo/player/nbody_frame_compressor_image.cpp:37, a number with field width 8 and fill character 0. -/
def pad8 (n : Nat) : List Char := List.replicate (8 - (Nat.toDigits 10 n).length) '0' ++ Nat.toDigits 10 n

/-- /repo/player/nbody_frame_compressor_image.cpp:25, 37, the name of the image of a frame. -/
def frameName (d : FName) (n : Nat) : FName := qArg (d ++ ['/', '%', '1', '.', 'p', 'n', 'g']) (pad8 n)

/-- /repo/player/nbody_frame_compressor_image.h, the compressor while a recording runs: the images still to be pushed,
`m_results` with the flag whether the job has finished, and the images saved so far in the order in which the thread
pool saved them. -/
structure Comp (J : Type) where
  rest : List J
  queue : List (J × Bool)
  saved : List J

/-- /repo/player/nbody_frame_compressor_image.cpp:10-13, 35-57. A thread of the pool finishes a job; `push_frame`
starts one, which it does only after the `wait_results` of the previous call has returned; `wait_results` removes a
finished job while there are more than `max` of them, in the destructor while there are any. -/
inductive Comp.Step {J : Type} (max : Nat) : Comp J → Comp J → Prop
  | finish (rest : List J) (a : List (J × Bool)) (j : J) (b : List (J × Bool)) (saved : List J) :
    Comp.Step max ⟨rest, a ++ (j, false) :: b, saved⟩ ⟨rest, a ++ (j, true) :: b, saved ++ [j]⟩
  | push (j : J) (rest : List J) (queue : List (J × Bool)) (saved : List J) (h : queue.length ≤ max) :
    Comp.Step max ⟨j :: rest, queue, saved⟩ ⟨rest, queue ++ [(j, false)], saved⟩
  | erase (rest : List J) (a : List (J × Bool)) (j : J) (b : List (J × Bool)) (saved : List J)
    (h : max < (a ++ (j, true) :: b).length ∨ rest = []) :
    Comp.Step max ⟨rest, a ++ (j, true) :: b, saved⟩ ⟨rest, a ++ b, saved⟩

/-- /repo/player/nbody_frame_compressor_image.cpp:10-13, 35-57, any number of steps. -/
inductive Comp.Steps {J : Type} (max : Nat) : Nat → Comp J → Comp J → Prop
  | none (c : Comp J) : Comp.Steps max 0 c c
  | more {k : Nat} {a b c : Comp J} (h : Comp.Steps max k a b) (s : Comp.Step max b c) : Comp.Steps max (k + 1) a c

/-- /repo/player/nbody_frame_compressor_image.cpp:30-33, the directory after the images have been saved one after the
other. -/
def saveAll {I : Type} (disk : FName → Option I) : List (FName × I) → FName → Option I
  | [] => disk
  | (f, i) :: r => saveAll (fun g => if g = f then some i else disk g) r

end NB
