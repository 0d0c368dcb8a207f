import Verif.Model.Stream

/-
The writer of a stream (/repo/nbody/nbody_data_stream.cpp) on a disk that may be full: how far the operating system takes the bytes of a block, and whether a
file can be opened, is decided anew at every call.  In between are the buffers of `QFile` and `QTextStream`, modelled from Qt's sources:

* `QFileDevice::writeData` collects up to 16384 bytes; a block that does not fit any more makes it flush first (-1 if that fails), a block of more than 16384
  bytes goes to the operating system at once, and the number of bytes taken is returned (-1 for none);
* `QFileDevice::flush` gives the buffer to the operating system, keeps what is not taken, and returns whether all was taken; closing a file flushes;
* `QTextStream` collects characters; `flush` writes them to its file and flushes that; if something goes wrong its status is `WriteFailed` from then on,
  and no later `flush` writes anything.  A file that is closed makes the text stream on it flush.

Simplifications: what the buffer of a `QFile` holds is one block; the buffer of `QTextStream` (16384 characters too) does not overflow by the few lines
of one call of `write`; removing a file or its disk while it is open is not modelled.
-/

namespace NB

/-- Outside /repo: what the operating system answers to its `k`-th call: how many bytes of a block it takes, whether a file can be opened. -/
structure Disk where
  takes : Nat → Nat → Nat
  opens : Nat → Bool

/-- Outside /repo: the files and the number of calls so far. -/
structure World where
  fs : Files
  calls : Nat

/-- Files of bytes (`m_data`, /repo/nbody/nbody_data_stream.cpp:15) and of characters (`m_idx`, 16). -/
class FileKind (β : Type) where
  put : FName → List β → FileOp

instance : FileKind UInt8 := ⟨FileOp.append⟩
instance : FileKind Char := ⟨FileOp.appendTxt⟩

/-- Outside /repo: Qt's `QFILE_WRITEBUFFER_SIZE`. -/
def fileChunk : Nat := 16384

/-- An open `QFile` (/repo/nbody/nbody_data_stream.cpp:15,16): its name, `pos()`, and what its buffer holds. -/
structure BFile (β : Type) where
  name : FName
  pos : Nat
  buf : List β

section
variable {β : Type} [FileKind β]

/-- Outside /repo, used by Qt: `write(2)` until the block is taken or nothing more is taken. -/
def sysWrite (D : Disk) (W : World) (n : FName) (b : List β) : Nat × World :=
  let k := min (D.takes W.calls b.length) b.length
  (k, ⟨(FileKind.put n (b.take k)).apply W.fs, W.calls + 1⟩)

/-- `QFile::open` (/repo/nbody/nbody_data_stream.cpp:35,51,67,81) with `open(2)`; `op` is what it does to the files. -/
def sysOpen (D : Disk) (W : World) (op : FileOp) : Bool × World :=
  if D.opens W.calls then (true, ⟨op.apply W.fs, W.calls + 1⟩) else (false, ⟨W.fs, W.calls + 1⟩)

/-- `QFileDevice::flush` (/repo/nbody/nbody_data_stream.cpp:152). -/
def BFile.flush (D : Disk) (f : BFile β) (W : World) : Bool × BFile β × World :=
  if f.buf.length = 0 then (true, f, W)
  else
    let r := sysWrite D W f.name f.buf
    (r.1 == f.buf.length, { f with buf := f.buf.drop r.1 }, r.2)

/-- `QFileDevice::writeData` (/repo/nbody/nbody_data_stream.cpp:73,87,139,145) and the position `QIODevice::write` keeps; `none` is -1. -/
def BFile.write (D : Disk) (f : BFile β) (b : List β) (W : World) : Option Nat × BFile β × World :=
  let r := if fileChunk < f.buf.length + b.length then f.flush D W else (true, f, W)
  if r.1 = false then (none, r.2)
  else if fileChunk < b.length then
    let s := sysWrite D r.2.2 r.2.1.name b
    if s.1 = 0 then (none, r.2.1, s.2) else (some s.1, { r.2.1 with pos := r.2.1.pos + s.1 }, s.2)
  else (some b.length, { r.2.1 with pos := r.2.1.pos + b.length, buf := r.2.1.buf ++ b }, r.2.2)

end

/-- A `QTextStream` (/repo/nbody/nbody_data_stream.cpp:14): whether its status is `Ok`, and the characters not yet written. -/
structure TStream where
  ok : Bool
  buf : List Char

/-- `QTextStream::flush` (/repo/nbody/nbody_data_stream.cpp:159). -/
def TStream.flush (D : Disk) (t : TStream) (f : BFile Char) (W : World) : TStream × BFile Char × World :=
  if t.ok = false ∨ t.buf.length = 0 then (t, f, W)
  else
    let r := f.write D t.buf W
    match r.1 with
    | none => (⟨false, []⟩, r.2)
    | some k =>
      let s := r.2.1.flush D r.2.2
      (⟨s.1 && k == t.buf.length, []⟩, s.2)

/-- /repo/nbody/nbody_data_stream.cpp:10-25, the members of the writer with their buffers. -/
structure BWriter where
  fileN : Nat
  maxPart : Int
  base : FName
  data : Option (BFile UInt8)
  idx : Option (BFile Char)
  text : TStream
  headerWritten : Bool

/-- /repo/nbody/nbody_data_stream.cpp:20-25, the constructor. -/
def BWriter.new : BWriter := ⟨0, 1024 * 1024 * 1024, [], none, none, ⟨true, []⟩, false⟩

/-- /repo/nbody/nbody_data_stream.cpp:164-196,27-57, `open` of a new stream by a new writer (`append_to` is null). -/
def BWriter.open (D : Disk) (w : BWriter) (name : FName) (maxPart : Int) (W : World) : Bool × BWriter × World :=
  let w := { w with base := name, maxPart := maxPart, fileN := 0 }
  let r := sysOpen D W (.create (datName name 0))
  if r.1 = false then (false, w, r.2)
  else
    let w := { w with data := some ⟨datName name 0, 0, []⟩ }
    let s := sysOpen D r.2 (.createTxt (idxName name))
    if s.1 = false then (false, w, s.2)
    else (true, { w with idx := some ⟨idxName name, 0, []⟩, text := ⟨true, []⟩ }, s.2)

/-- /repo/nbody/nbody_data_stream.cpp:66-77 and 78-91: a local `QFile` that gets one block; its destructor closes it. -/
def writeWhole (D : Disk) (n : FName) (b : List UInt8) (W : World) : Bool × World :=
  let o := sysOpen D W (.create n)
  if o.1 = false then (false, o.2)
  else
    let r := BFile.write D ⟨n, 0, []⟩ b o.2
    (r.1 == some b.length, (r.2.1.flush D r.2.2).2.2)

section
variable {S C : Type} [Raw S] [Raw C]

/-- /repo/nbody/nbody_data_stream.cpp:60-95, `write_header`. -/
def BWriter.header (D : Disk) (w : BWriter) (d : Snap S C) (W : World) : Bool × BWriter × World :=
  let w := { w with text := ⟨w.text.ok, w.text.buf ++ headerText d⟩ }
  let c := writeWhole D (colName w.base) (encList d.color) W
  if c.1 = false then (false, w, c.2)
  else
    let m := writeWhole D (massName w.base) (encList d.mass) c.2
    if m.1 = false then (false, w, m.2) else (true, { w with headerWritten := true }, m.2)

/-- `m_data.pos()` (/repo/nbody/nbody_data_stream.cpp:127,137), 0 if it is not open. -/
def BWriter.dataPos (w : BWriter) : Nat :=
  match w.data with
  | some f => f.pos
  | none => 0

/-- /repo/nbody/nbody_data_stream.cpp:127-135,27-41, the next part. -/
def BWriter.part (D : Disk) (w : BWriter) (W : World) : Bool × BWriter × World :=
  if 0 < w.maxPart ∧ w.maxPart ≤ (w.dataPos : Int) then
    let W := match w.data with
      | some f => (f.flush D W).2.2
      | none => W
    let n := datName w.base (w.fileN + 1)
    let o := sysOpen D W (.create n)
    (o.1, { w with fileN := w.fileN + 1, data := if o.1 then some ⟨n, 0, []⟩ else none }, o.2)
  else (true, w, W)

/-- /repo/nbody/nbody_data_stream.cpp:138-152, positions and velocities; the result of `m_data.flush()` is not looked at. -/
def BWriter.frame (D : Disk) (w : BWriter) (d : Snap S C) (W : World) : Bool × BWriter × World :=
  match w.data with
  | none => (false, w, W)
  | some f =>
    let r := f.write D (encVecs d.vrt) W
    if r.1 = some (encVecs d.vrt).length then
      let s := r.2.1.write D (encVecs d.vel) r.2.2
      if s.1 = some (encVecs d.vel).length then
        let t := s.2.1.flush D s.2.2
        (true, { w with data := some t.2.1 }, t.2.2)
      else (false, { w with data := some s.2.1 }, s.2.2)
    else (false, { w with data := some r.2.1 }, r.2.2)

/-- /repo/nbody/nbody_data_stream.cpp:154-159, the index line; nothing is checked. -/
def BWriter.line (D : Disk) (T : TextOps S) (w : BWriter) (d : Snap S C) (fpos : Nat) (W : World) : BWriter × World :=
  match w.idx with
  | none => (w, W)
  | some f =>
    let r := TStream.flush D ⟨w.text.ok, w.text.buf ++ frameLine T d.step d.time w.fileN fpos⟩ f W
    ({ w with text := r.1, idx := some r.2.1 }, r.2.2)

/-- /repo/nbody/nbody_data_stream.cpp:107-162, `write`; whether it returns 0. -/
def BWriter.write (D : Disk) (T : TextOps S) (w : BWriter) (d : Snap S C) (W : World) : Bool × BWriter × World :=
  if w.idx.isNone then (false, w, W)
  else
    let h := if w.headerWritten then (true, w, W) else w.header D d W
    if h.1 = false then h
    else
      let p := h.2.1.part D h.2.2
      if p.1 = false then p
      else
        let r := p.2.1.frame D d p.2.2
        if r.1 = false then r
        else
          let l := r.2.1.line D T d p.2.1.dataPos r.2.2
          (true, l.1, l.2)

/-- Several calls of `write` (/repo/nbody/nbody_solver.cpp:64-77), whatever they return. -/
def BWriter.writes (D : Disk) (T : TextOps S) : BWriter → List (Snap S C) → World → List Bool × BWriter × World
  | w, [], W => ([], w, W)
  | w, d :: ds, W =>
    let r := w.write D T d W
    let s := BWriter.writes D T r.2.1 ds r.2.2
    (r.1 :: s.1, s.2)

end

/-- /repo/nbody/nbody_data_stream.cpp:198-204, `close`, and what the destructor (102-105) does to the files: each file is flushed; the index file makes the
text stream on it flush. -/
def BWriter.close (D : Disk) (w : BWriter) (W : World) : World :=
  let W := match w.idx with
    | none => W
    | some f =>
      let r := f.flush D W
      (w.text.flush D r.2.1 r.2.2).2.2
  match w.data with
  | none => W
  | some f => (f.flush D W).2.2

end NB
