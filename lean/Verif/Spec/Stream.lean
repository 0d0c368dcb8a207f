import Verif.Model.Stream

/-
What a stream on disk is supposed to contain.
-/

namespace NB.StreamSpec

section
variable {S C : Type} [Raw S] [Raw C]

/-- A snapshot of `n` bodies. -/
structure Fits (n : Nat) (d : Snap S C) : Prop where
  count : d.count = n
  vrt : d.vrt.length = n
  vel : d.vel.length = n
  mass : d.mass.length = n
  color : d.color.length = n
  step : d.step ≤ sizeMax

/-- Bytes of one frame of `n` bodies: six coordinates per body. -/
def frameSize (S : Type) [Raw S] (n : Nat) : Nat := 6 * Raw.size S * n

/-- Positions, then velocities. -/
def frameBytes (d : Snap S C) : List UInt8 := encVecs d.vrt ++ encVecs d.vel

/-- Numbers are printed without separators and line breaks, and can be read back; `rnd` is the value after
the round trip through text. -/
structure TextGood (T : TextOps S) (rnd : S → S) : Prop where
  noTab : ∀ x, '\t' ∉ T.fmt x
  noBreak : ∀ x, '\n' ∉ T.fmt x
  back : ∀ x, T.parse (T.fmt x) = some (rnd x)

/-- The box size is `b` and positive. -/
structure BoxGood (box b : Nat) : Prop where
  value : box = b
  pos : 0 < b
  bound : b ≤ sizeMax

/-- Index line of a frame that lies in part `l.1` at offset `l.2`, without the line break. -/
def entry (T : TextOps S) (d : Snap S C) (l : Nat × Nat) : List Char :=
  Nat.toDigits 10 d.step ++ '\t' :: (T.fmt d.time ++ '\t' :: (Nat.toDigits 10 l.1 ++ '\t' :: Nat.toDigits 10 l.2))

/-- Text of the index lines. -/
def entries (T : TextOps S) (ds : List (Snap S C)) (locs : List (Nat × Nat)) : List Char :=
  (List.zipWith (entry T) ds locs).flatMap (· ++ ['\n'])

/-- The bytes of the frame `d` are found at `l`. -/
def FrameAt (fs : Files) (base : FName) (d : Snap S C) (l : Nat × Nat) : Prop :=
  ∃ pre post, fs.bin (datName base l.1) = some (pre ++ frameBytes d ++ post) ∧ pre.length = l.2

/-- Part number and offset are representable. -/
def LocOk (l : Nat × Nat) : Prop := l.1 < sizeMax ∧ l.2 ≤ 9223372036854775807

/-- The files hold the stream `base` with the frames `ds` at `locs`; header, colours and masses are those of
`h`. -/
structure Holds (T : TextOps S) (fs : Files) (base : FName) (h : Snap S C) (ds : List (Snap S C))
    (locs : List (Nat × Nat)) : Prop where
  len : locs.length = ds.length
  idx : fs.txt (idxName base) = some (headerText h ++ entries T ds locs)
  frame : ∀ (k : Nat) (d : Snap S C) (l : Nat × Nat), ds[k]? = some d → locs[k]? = some l → FrameAt fs base d l
  loc : ∀ l ∈ locs, LocOk l
  col : fs.bin (colName base) = some (encList h.color)
  mass : fs.bin (massName base) = some (encList h.mass)

/-- The same, with `tail` at the end of the index. -/
structure HoldsTail (T : TextOps S) (fs : Files) (base : FName) (h : Snap S C) (ds : List (Snap S C))
    (locs : List (Nat × Nat)) (tail : List Char) : Prop where
  len : locs.length = ds.length
  idx : fs.txt (idxName base) = some (headerText h ++ entries T ds locs ++ tail)
  frame : ∀ (k : Nat) (d : Snap S C) (l : Nat × Nat), ds[k]? = some d → locs[k]? = some l → FrameAt fs base d l
  loc : ∀ l ∈ locs, LocOk l
  col : fs.bin (colName base) = some (encList h.color)
  mass : fs.bin (massName base) = some (encList h.mass)

/-- Nothing follows the last frame in its part. -/
def LastAtEnd (fs : Files) (base : FName) (ds : List (Snap S C)) (locs : List (Nat × Nat)) : Prop :=
  ∀ d l, ds.getLast? = some d → locs.getLast? = some l →
    ∃ pre, fs.bin (datName base l.1) = some (pre ++ frameBytes d) ∧ pre.length = l.2

end

/-! ### What a client of the reader sees -/

/-- Calls of a client; `read n` reads into an object with `n` bodies. -/
inductive Call where
  | seek (k : Nat)
  | read (n : Nat)

/-- Answers: 0, -1, or 0 with data. -/
inductive Answer (S C : Type) where
  | done
  | failed
  | data (o : ReadOut S C)

/-- Position of a reader: the current frame, whether it has been consumed, and whether colours and masses
are still to be delivered. -/
structure Cursor where
  frame : Nat
  spent : Bool
  first : Bool

section
variable {S C : Type}

/-- The contents of a frame as a client gets them. -/
def content (rnd : S → S) (h d : Snap S C) (first : Bool) : ReadOut S C :=
  ⟨d.vrt, d.vel, rnd d.time, d.step, if first then some h.color else none, if first then some h.mass else none⟩

/-- How the reader answers a call, in terms of the frames `ds` of a stream of `n` bodies. -/
def answer (rnd : S → S) (h : Snap S C) (n : Nat) (ds : List (Snap S C)) (c : Cursor) :
    Call → Answer S C × Cursor
  | .seek k =>
    if k = c.frame then (.done, c)
    else if k < ds.length then (.done, ⟨k, false, c.first⟩)
    else (.failed, c)
  | .read m =>
    if m ≠ n then (.failed, c)
    else if c.spent then (.failed, c)
    else
      match ds[c.frame]? with
      | none => (.failed, c)
      | some d =>
        (.data (content rnd h d c.first),
          if c.frame + 1 < ds.length then ⟨c.frame + 1, false, false⟩ else ⟨c.frame, true, false⟩)

/-- Answers to a sequence of calls. -/
def answers (rnd : S → S) (h : Snap S C) (n : Nat) (ds : List (Snap S C)) :
    Cursor → List Call → List (Answer S C)
  | _, [] => []
  | c, q :: qs => (answer rnd h n ds c q).1 :: answers rnd h n ds (answer rnd h n ds c q).2 qs

/-- What reading a whole stream gives: every frame in order, colours and masses with the first. -/
def readBack (rnd : S → S) (h : Snap S C) : List (Snap S C) → List (Answer S C)
  | [] => []
  | d :: ds => .data (content rnd h d true) :: ds.map (fun d => .data (content rnd h d false))

variable [Raw S] [Raw C]

/-- A client making one call. -/
def readerCall (fs : Files) (r : Reader S) : Call → Res (Answer S C × Reader S)
  | .seek k => .ok (if (r.seek fs k).1 then .done else .failed, (r.seek fs k).2)
  | .read n =>
    match r.read C fs n with
    | .error e => .error e
    | .ok (none, r) => .ok (.failed, r)
    | .ok (some o, r) => .ok (.data o, r)

/-- A client making a sequence of calls. -/
def readerCalls (fs : Files) : List Call → Reader S → Res (List (Answer S C) × Reader S)
  | [], r => .ok ([], r)
  | q :: qs, r =>
    match readerCall (C := C) fs r q with
    | .error e => .error e
    | .ok (a, r) =>
      match readerCalls fs qs r with
      | .error e => .error e
      | .ok (as, r) => .ok (a :: as, r)

/-- Calls of a client of the writer. -/
inductive WCall (S C : Type) where
  | openNew (name : FName) (maxPart : Int)
  | openAppend (name : FName) (maxPart : Int) (lastFile : Nat)
  | close
  | write (d : Snap S C)

/-- A client of the writer making one call; the flag tells whether it succeeded. -/
def writerCall (T : TextOps S) (w : Writer) (fs : Files) : WCall S C → Bool × Writer × Files
  | .openNew name m => (true, (w.open name m none fs).2, applyOps (w.open name m none fs).1 fs)
  | .openAppend name m k => (true, (w.open name m (some k) fs).2, applyOps (w.open name m (some k) fs).1 fs)
  | .close => (true, w.close, fs)
  | .write d =>
    match w.write T d with
    | none => (false, w, fs)
    | some (ops, w) => (true, w, applyOps ops fs)

/-- A client of the writer making a sequence of calls, with the flags of the calls. -/
def writerCalls (T : TextOps S) : List (WCall S C) → Writer → Files → List (WCall S C × Bool) × Writer × Files
  | [], w, fs => ([], w, fs)
  | q :: qs, w, fs =>
    let a := writerCall T w fs q
    let b := writerCalls T qs a.2.1 a.2.2
    ((q, a.1) :: b.1, b.2)

/-- A call that took over an existing stream or wrote a frame. -/
def Wrote1 : WCall S C × Bool → Prop
  | (.openAppend _ _ _, _) => True
  | (.write _, ok) => ok = true
  | _ => False

end

end NB.StreamSpec
