import Verif.Model.Vec3

/-
Model of the snapshot stream (/repo/nbody/nbody_data_stream.cpp, nbody_data_stream_reader.cpp) down to the
characters of the index file and the bytes of the data files.

Simplifications: file operations succeed (a disk that may be full is the subject of StreamFaults.lean); carriage
returns do not occur in the index file; arrays of a data object have as many entries as its body count; the
contents of the target arrays after a failed `read` are not described.  Qt's behaviour is taken from its
documentation: a file opened for appending is positioned at its end, seeking beyond the end of a file
succeeds and seeking to a negative position does not, reading returns the bytes that are there.
-/

namespace NB

/-- A file name.
(/repo/nbody/nbody_data_stream.cpp:10-25.) -/
abbrev FName := List Char

/-- Raw memory of one `nbcoord_t` or one `nbcolor_t`, as written by
`write(reinterpret_cast<const char*>(…), sz)` and read back.
(`write` /repo/nbody/nbody_data_stream.cpp:107-162, `read` /repo/nbody/nbody_data_stream_reader.cpp:83,100,313,319.) -/
class Raw (S : Type) where
  /-- `sizeof` -/
  size : Nat
  enc : S → List UInt8
  dec : List UInt8 → S
  size_pos : 0 < size
  enc_length : ∀ x, (enc x).length = size
  dec_enc : ∀ x, dec (enc x) = x

/-- How `QTextStream` prints an `nbcoord_t` and how `QString::toDouble` reads one.
(/repo/nbody/nbody_data_stream.cpp:107-162, /repo/nbody/nbody_data_stream_reader.cpp:134-155.) -/
structure TextOps (S : Type) where
  fmt : S → List Char
  parse : List Char → Option S

/-- The files: index files are text, the others are bytes (their names end differently).
(/repo/nbody/nbody_data_stream.cpp:10-25.) -/
structure Files where
  txt : FName → Option (List Char)
  bin : FName → Option (List UInt8)

/-- /repo/nbody/nbody_data_stream.cpp:206-209. -/
def idxName (base : FName) : FName := base ++ ['.', 'i', 'd', 'x']

/-- /repo/nbody/nbody_data_stream.cpp:211-214. -/
def datName (base : FName) (n : Nat) : FName := base ++ Nat.toDigits 10 n ++ ['.', 'd', 'a', 't']

/-- /repo/nbody/nbody_data_stream.cpp:216-219. -/
def colName (base : FName) : FName := base ++ ['.', 'c', 'o', 'l']

/-- /repo/nbody/nbody_data_stream.cpp:221-224. -/
def massName (base : FName) : FName := base ++ ['.', 'm', 'a', 's', 's']

/-- The contents of an `nbody_data` as far as streams use them; all lists have `count` entries.
(/repo/nbody/nbody_data.h:14-20.) -/
structure Snap (S C : Type) where
  count : Nat
  vrt : List (Vec3 S)
  vel : List (Vec3 S)
  mass : List S
  color : List C
  time : S
  step : Nat
  box : Nat

section
variable {S C : Type} [Raw S] [Raw C]

/-- Memory of an `nbvertex_t`: three coordinates one after the other.
(/repo/nbody/vertex.h:11.) -/
def encVec (v : Vec3 S) : List UInt8 := Raw.enc v.x ++ Raw.enc v.y ++ Raw.enc v.z

/-- Memory of an array of `nbvertex_t`.
(/repo/nbody/nbody_data.h:16,18, /repo/nbody/nbody_data_stream.cpp:107-162.) -/
def encVecs (l : List (Vec3 S)) : List UInt8 := l.flatMap encVec

/-- The first `n` vertices in a block of bytes.
(/repo/nbody/nbody_data_stream_reader.cpp:313,319.) -/
def decVecs : Nat → List UInt8 → List (Vec3 S)
  | 0, _ => []
  | n + 1, b =>
    let w := Raw.size S
    ⟨Raw.dec (b.take w), Raw.dec ((b.drop w).take w), Raw.dec ((b.drop (2 * w)).take w)⟩ ::
      decVecs n (b.drop (3 * w))

/-- Memory of an array.
(/repo/nbody/nbody_data.h:17,19,20.) -/
def encList {α : Type} [Raw α] (l : List α) : List UInt8 := l.flatMap Raw.enc

/-- The first `n` elements in a block of bytes.
(/repo/nbody/nbody_data_stream_reader.cpp:83,100.) -/
def decList {α : Type} [Raw α] : Nat → List UInt8 → List α
  | 0, _ => []
  | n + 1, b => Raw.dec (b.take (Raw.size α)) :: decList n (b.drop (Raw.size α))

end

/-- Elementary changes of files, in the order in which they reach the operating system.
(Calls of `QFile` and `QTextStream` at /repo/nbody/nbody_data_stream.cpp:107-162.) -/
inductive FileOp where
  /-- open with `WriteOnly`: empty the file -/
  | create (n : FName)
  /-- open with `Append`: create the file if it does not exist -/
  | touch (n : FName)
  | append (n : FName) (b : List UInt8)
  | createTxt (n : FName)
  | touchTxt (n : FName)
  | appendTxt (n : FName) (t : List Char)

/-- The effect of one change.
(Calls of `QFile` and `QTextStream` at /repo/nbody/nbody_data_stream.cpp:107-162.) -/
def FileOp.apply : FileOp → Files → Files
  | create n, fs => { fs with bin := fun m => if m = n then some [] else fs.bin m }
  | touch n, fs => { fs with bin := fun m => if m = n then some ((fs.bin n).getD []) else fs.bin m }
  | append n b, fs => { fs with bin := fun m => if m = n then (fs.bin n).map (· ++ b) else fs.bin m }
  | createTxt n, fs => { fs with txt := fun m => if m = n then some [] else fs.txt m }
  | touchTxt n, fs => { fs with txt := fun m => if m = n then some ((fs.txt n).getD []) else fs.txt m }
  | appendTxt n t, fs => { fs with txt := fun m => if m = n then (fs.txt n).map (· ++ t) else fs.txt m }

/-- Several changes.
(/repo/nbody/nbody_data_stream.cpp:107-162.) -/
def applyOps (ops : List FileOp) (fs : Files) : Files := ops.foldl (fun fs o => o.apply fs) fs

/-! ### The writer -/

/-- /repo/nbody/nbody_data_stream.cpp:10-25.  `dataFile` is the open data file with its position, `idxFile`
the open index file. -/
structure Writer where
  fileN : Nat
  maxPart : Int
  base : FName
  dataFile : Option (FName × Nat)
  idxFile : Option FName
  headerWritten : Bool

/-- /repo/nbody/nbody_data_stream.cpp:20-25, the constructor. -/
def Writer.new : Writer := ⟨0, 1024 * 1024 * 1024, [], none, none, false⟩

/-- /repo/nbody/nbody_data_stream.cpp:164-196, `open`; `appendTo` is `append_to->get_last_file_n()` if a
reader is given.  Position of a file opened with `Append`: 46-51 of Qt's documentation, its size. -/
def Writer.open (w : Writer) (name : FName) (maxPart : Int) (appendTo : Option Nat) (fs : Files) :
    List FileOp × Writer :=
  match appendTo with
  | some n =>
    ([.touch (datName name n), .touchTxt (idxName name)],
      { w with base := name, maxPart := maxPart, fileN := n, headerWritten := true,
               dataFile := some (datName name n, ((fs.bin (datName name n)).getD []).length),
               idxFile := some (idxName name) })
  | none =>
    ([.create (datName name 0), .createTxt (idxName name)],
      { w with base := name, maxPart := maxPart, fileN := 0,
               dataFile := some (datName name 0, 0), idxFile := some (idxName name) })

/-- /repo/nbody/nbody_data_stream.cpp:198-204, `close`. -/
def Writer.close (w : Writer) : Writer :=
  { w with base := [], fileN := 0, idxFile := none, dataFile := none }

section
variable {S C : Type} [Raw S] [Raw C]

/-- /repo/nbody/nbody_data_stream.cpp:62-64, the header lines. -/
def headerText (d : Snap S C) : List Char :=
  ['#', 'c', 'o', 'o', 'r', 'd', '_', 's', 'i', 'z', 'e', ' '] ++ Nat.toDigits 10 (Raw.size S) ++ ['\n'] ++
  ['#', 'b', 'o', 'd', 'y', '_', 'c', 'o', 'u', 'n', 't', ' '] ++ Nat.toDigits 10 d.count ++ ['\n'] ++
  ['#', 'b', 'o', 'x', '_', 's', 'i', 'z', 'e', ' '] ++ Nat.toDigits 10 d.box ++ ['\n']

/-- /repo/nbody/nbody_data_stream.cpp:154-157, the index line of a frame. -/
def frameLine (T : TextOps S) (step : Nat) (time : S) (fileN fpos : Nat) : List Char :=
  Nat.toDigits 10 step ++ ['\t'] ++ T.fmt time ++ ['\t'] ++ Nat.toDigits 10 fileN ++ ['\t'] ++
  Nat.toDigits 10 fpos ++ ['\n']

/-- /repo/nbody/nbody_data_stream.cpp:107-162, `write`: the changes of files in the order in which they
leave the process (the header lines stay in the buffer of `m_idx_stream` until line 159), and the writer
afterwards; `none` when -1 is returned. -/
def Writer.write (T : TextOps S) (w : Writer) (d : Snap S C) : Option (List FileOp × Writer) :=
  match w.idxFile, w.dataFile with
  | some idx, some (dn, pos) =>
    let hdrOps := if w.headerWritten then [] else
      [.create (colName w.base), .append (colName w.base) (encList d.color),
       .create (massName w.base), .append (massName w.base) (encList d.mass)]
    let hdr := if w.headerWritten then [] else headerText d
    let next := decide (0 < w.maxPart ∧ w.maxPart ≤ (pos : Int))
    let fileN := if next then w.fileN + 1 else w.fileN
    let dn := if next then datName w.base fileN else dn
    let fpos := if next then 0 else pos
    let partOps := if next then [FileOp.create dn] else []
    let b1 := encVecs d.vrt
    let b2 := encVecs d.vel
    some (hdrOps ++ partOps ++ [.append dn b1, .append dn b2,
        .appendTxt idx (hdr ++ frameLine T d.step d.time fileN fpos)],
      { w with fileN := fileN, dataFile := some (dn, fpos + b1.length + b2.length), headerWritten := true })
  | _, _ => none

/-- Writing several frames; `none` if one of the calls fails.
(`write`, /repo/nbody/nbody_data_stream.cpp:107-162, called by /repo/nbody/nbody_solver.cpp:64-65,95-96.) -/
def Writer.writeAll (T : TextOps S) : Writer → List (Snap S C) → Files → Option (Writer × Files)
  | w, [], fs => some (w, fs)
  | w, d :: ds, fs =>
    match w.write T d with
    | none => none
    | some (ops, w) => Writer.writeAll T w ds (applyOps ops fs)

end

section
variable {S C : Type} [Raw S] [Raw C]

/-- All changes of files made by several calls of `write`.
(`write`, /repo/nbody/nbody_data_stream.cpp:107-162, called by /repo/nbody/nbody_solver.cpp:64-65,95-96.) -/
def Writer.writeOps (T : TextOps S) : Writer → List (Snap S C) → Option (List FileOp)
  | _, [] => some []
  | w, d :: ds =>
    match w.write T d with
    | none => none
    | some (ops, w) =>
      match Writer.writeOps T w ds with
      | none => none
      | some rest => some (ops ++ rest)

end

/-- A change of which only the first `k` bytes or characters got through.
No counterpart of its own in /repo: a change made by /repo/nbody/nbody_data_stream.cpp:107-162 interrupted. -/
def FileOp.cut (k : Nat) : FileOp → FileOp
  | append n b => append n (b.take k)
  | appendTxt n t => appendTxt n (t.take k)
  | o => o

/-- The process dies while making changes: some of them are done, possibly the next one in part.
No counterpart of its own in /repo: the process ends during /repo/nbody/nbody_data_stream.cpp:107-162. -/
def Crashed (ops : List FileOp) (fs fs' : Files) : Prop :=
  (∃ pre post, ops = pre ++ post ∧ fs' = applyOps pre fs) ∨
  (∃ pre o post k, ops = pre ++ o :: post ∧ fs' = (o.cut k).apply (applyOps pre fs))

/-! ### The reader -/

/-- `QString::split(sep)`.
(Called at /repo/nbody/nbody_data_stream_reader.cpp:47,135.) -/
def splitOn (sep : Char) : List Char → List (List Char)
  | [] => [[]]
  | c :: r =>
    if c = sep then [] :: splitOn sep r
    else
      match splitOn sep r with
      | [] => [[c]]
      | p :: ps => (c :: p) :: ps

/-- The results of `QTextStream::readLine` until `atEnd()`: a line break ends a line, the last line may lack
it.
(Called at /repo/nbody/nbody_data_stream_reader.cpp:134.) -/
def textLines (t : List Char) : List (List Char) :=
  if (splitOn '\n' t).getLast? = some [] then (splitOn '\n' t).dropLast else splitOn '\n' t

/-- `QChar::isSpace` on ASCII.
(Qt; used by the conversions at /repo/nbody/nbody_data_stream_reader.cpp:54,152-155.) -/
def isSpace (c : Char) : Bool :=
  c = ' ' || c = '\t' || c = '\n' || c = '\r' || c = Char.ofNat 11 || c = Char.ofNat 12

/-- `QString::trimmed`.
(Qt; used by the conversions at /repo/nbody/nbody_data_stream_reader.cpp:54,152-155.) -/
def trimSpace (t : List Char) : List Char :=
  (((t.dropWhile isSpace).reverse).dropWhile isSpace).reverse

/-- A non-empty sequence of decimal digits.
(Qt; used by the conversions at /repo/nbody/nbody_data_stream_reader.cpp:54,152-155.) -/
def digitsVal (t : List Char) : Option Nat :=
  if t ≠ [] ∧ (∀ c ∈ t, c.isDigit = true) then some (Nat.ofDigitChars 10 t 0) else none

/-- The greatest `size_t`, `std::numeric_limits<size_t>::max()` on 64-bit machines.
(/repo/nbody/nbody_data_stream_reader.cpp:35-36,195-196.) -/
def sizeMax : Nat := 18446744073709551615

/-- A leading plus sign is skipped.
(Qt; used by the conversions at /repo/nbody/nbody_data_stream_reader.cpp:54,152-155.) -/
def dropPlus : List Char → List Char
  | '+' :: r => r
  | r => r

/-- `QString::toULongLong`: blanks at both ends are ignored, a plus sign is allowed.
(Called at /repo/nbody/nbody_data_stream_reader.cpp:54,152,154.) -/
def toULongLong (t : List Char) : Option Nat :=
  match digitsVal (dropPlus (trimSpace t)) with
  | some n => if n ≤ sizeMax then some n else none
  | none => none

/-- `QString::toLongLong`.
(Called at /repo/nbody/nbody_data_stream_reader.cpp:155.) -/
def toLongLong (t : List Char) : Option Int :=
  match trimSpace t with
  | '-' :: r =>
    match digitsVal r with
    | some n => if n ≤ 9223372036854775808 then some (-(n : Int)) else none
    | none => none
  | r =>
    match digitsVal (dropPlus r) with
    | some n => if n ≤ 9223372036854775807 then some (n : Int) else none
    | none => none

/-- /repo/nbody/nbody_data_stream_reader.cpp:13-20; `frame` is the position in the list. -/
structure Item (S : Type) where
  step : Nat
  time : S
  fileN : Nat
  filePos : Int

/-- /repo/nbody/nbody_data_stream_reader.cpp:22-33 without the two maps, which are never read; `file` is the
open data file with its position. -/
structure Reader (S : Type) where
  frames : List (Item S)
  base : FName
  file : Option (FName × Nat)
  fileN : Nat
  current : Nat
  coordSize : Nat
  bodyCount : Nat
  boxSize : Nat
  colorsRead : Bool
  massesRead : Bool

/-- What a successful `read` puts into the target: positions, velocities, time and step always, colours and
masses when they are read.
(/repo/nbody/nbody_data_stream_reader.cpp:309-327.) -/
structure ReadOut (S C : Type) where
  vrt : List (Vec3 S)
  vel : List (Vec3 S)
  time : S
  step : Nat
  color : Option (List C)
  mass : Option (List S)

section
variable {S C : Type}

/-- /repo/nbody/nbody_data_stream_reader.cpp:34-43, the constructor. -/
def Reader.new : Reader S := ⟨[], [], none, sizeMax, sizeMax, 0, 0, 0, false, false⟩

/-- /repo/nbody/nbody_data_stream_reader.cpp:45-72, `parse_header_line`. -/
def Reader.headerLine (r : Reader S) (line : List Char) : Reader S :=
  match splitOn ' ' line with
  | [key, val] =>
    match toULongLong val with
    | some v =>
      if key = ['#', 'c', 'o', 'o', 'r', 'd', '_', 's', 'i', 'z', 'e'] then { r with coordSize := v }
      else if key = ['#', 'b', 'o', 'd', 'y', '_', 'c', 'o', 'u', 'n', 't'] then { r with bodyCount := v }
      else if key = ['#', 'b', 'o', 'x', '_', 's', 'i', 'z', 'e'] then { r with boxSize := v }
      else r
    | none => r
  | _ => r

/-- /repo/nbody/nbody_data_stream_reader.cpp:135, 142-161, a line of the index as an item; `none` when -1 is
returned. -/
def parseItem (T : TextOps S) (line : List Char) : Option (Item S) :=
  match splitOn '\t' line with
  | [a, b, c, e] =>
    match toULongLong a, T.parse b, toULongLong c, toLongLong e with
    | some step, some time, some fileN, some pos => some ⟨step, time, fileN, pos⟩
    | _, _, _, _ => none
  | _ => none

/-- /repo/nbody/nbody_data_stream_reader.cpp:132-166, the loop over the lines; `false` when -1 is
returned. -/
def Reader.loadLines (T : TextOps S) : List (List Char) → Reader S → Bool × Reader S
  | [], r => (true, r)
  | line :: ls, r =>
    if line.head? = some '#' then Reader.loadLines T ls (r.headerLine line)
    else
      match parseItem T line with
      | none => (false, r)
      | some i => Reader.loadLines T ls { r with frames := r.frames ++ [i] }

/-- /repo/nbody/nbody_data_stream_reader.cpp:188-197, `close`. -/
def Reader.close (r : Reader S) : Reader S :=
  { r with frames := [], base := [], file := none, fileN := sizeMax, current := sizeMax }

/-- /repo/nbody/nbody_data_stream_reader.cpp:199-202. -/
def Reader.frameCount (r : Reader S) : Nat := r.frames.length

/-- /repo/nbody/nbody_data_stream_reader.cpp:204-211. -/
def Reader.stepsCount (r : Reader S) : Nat :=
  match r.frames.getLast? with
  | none => 0
  | some i => i.step

/-- /repo/nbody/nbody_data_stream_reader.cpp:213-220. -/
def Reader.maxTime [Zero S] (r : Reader S) : S :=
  match r.frames.getLast? with
  | none => 0
  | some i => i.time

/-- /repo/nbody/nbody_data_stream_reader.cpp:281-288. -/
def Reader.lastFileN (r : Reader S) : Nat :=
  match r.frames.getLast? with
  | none => 0
  | some i => i.fileN

/-- /repo/nbody/nbody_data_stream_reader.cpp:222-259, `seek`. -/
def Reader.seek (fs : Files) (r : Reader S) (frame : Nat) : Bool × Reader S :=
  if frame = r.current then (true, r)
  else
    match r.frames[frame]? with
    | none => (false, r)
    | some i =>
      let opened : Option FName :=
        match r.file with
        | some (n, _) =>
          if r.fileN ≠ i.fileN then
            (match fs.bin (datName r.base i.fileN) with
             | some _ => some (datName r.base i.fileN)
             | none => none)
          else some n
        | none =>
          (match fs.bin (datName r.base i.fileN) with
           | some _ => some (datName r.base i.fileN)
           | none => none)
      match opened with
      | none => (false, { r with file := none })
      | some n =>
        if i.filePos < 0 then (false, { r with file := none })
        else (true, { r with file := some (n, i.filePos.toNat), current := frame })

variable [Raw S] [Raw C]

/-- /repo/nbody/nbody_data_stream_reader.cpp:118-186, `load`. -/
def Reader.load (T : TextOps S) (fs : Files) (r : Reader S) (base : FName) : Bool × Reader S :=
  let r := r.close
  match fs.txt (idxName base) with
  | none => (false, r)
  | some t =>
    let q := Reader.loadLines T (textLines t) r
    if q.1 = false then q
    else if q.2.bodyCount = 0 ∨ q.2.coordSize = 0 ∨ q.2.boxSize = 0 then (false, q.2)
    else if q.2.coordSize ≠ Raw.size S then (false, q.2)
    else ({ q.2 with base := base }).seek fs 0

/-- `QFile::read` of `sz` bytes of an open file at a position: the bytes that are there.
(Called at /repo/nbody/nbody_data_stream_reader.cpp:83,100,313,319.) -/
def fileRead (fs : Files) (n : FName) (pos sz : Nat) : List UInt8 :=
  match fs.bin n with
  | none => []
  | some b => (b.drop pos).take sz

/-- /repo/nbody/nbody_data_stream_reader.cpp:74-106, `read_colors` and `read_masses`: `none` when -1 is
returned. -/
def readArray {α : Type} [Raw α] (fs : Files) (n : FName) (count : Nat) : Option (List α) :=
  match fs.bin n with
  | none => none
  | some b =>
    if (b.take (Raw.size α * count)).length = Raw.size α * count then some (decList count b) else none

/-- /repo/nbody/nbody_data_stream_reader.cpp:328-335, going on to the next frame if there is one. -/
def Reader.advance (fs : Files) (r : Reader S) : Reader S :=
  if r.current < r.frames.length - 1 then (r.seek fs (r.current + 1)).2 else r

/-- /repo/nbody/nbody_data_stream_reader.cpp:337-345, colours and masses unless they were read before. -/
def Reader.readOnce (C : Type) [Raw C] (fs : Files) (r : Reader S) (n : Nat) :
    Option (List C) × Option (List S) × Reader S :=
  let col : Option (List C) := if r.colorsRead then none else readArray fs (colName r.base) n
  let mass : Option (List S) := if r.massesRead then none else readArray fs (massName r.base) n
  (col, mass, { r with colorsRead := r.colorsRead || col.isSome, massesRead := r.massesRead || mass.isSome })

/-- /repo/nbody/nbody_data_stream_reader.cpp:290-349, `read` into an object with `n` bodies; no output when -1
is returned.  Line 303 cannot fail (`seek` to the current frame returns at once). -/
def Reader.read (C : Type) [Raw C] (fs : Files) (r : Reader S) (n : Nat) :
    Res (Option (ReadOut S C) × Reader S) :=
  if n ≠ r.bodyCount then .ok (none, r)
  else
    match r.frames[r.current]? with
    | none => .error .oob
    | some fr =>
      match r.file with
      | none => .ok (none, r)
      | some (name, pos) =>
        let sz := 3 * Raw.size S * n
        let b1 := fileRead fs name pos sz
        if b1.length ≠ sz then .ok (none, { r with file := some (name, pos + b1.length) })
        else
          let b2 := fileRead fs name (pos + sz) sz
          if b2.length ≠ sz then .ok (none, { r with file := some (name, pos + sz + b2.length) })
          else
            let q := (Reader.advance fs { r with file := some (name, pos + sz + sz) }).readOnce C fs n
            .ok (some ⟨decVecs n b1, decVecs n b2, fr.time, fr.step, q.1, q.2.1⟩, q.2.2)

/-- /repo/test/main/main.cpp:31-50, 111-122, resuming a stream as far as its files are concerned: a new
reader loads it, a new writer opens it for appending, the run writes the frames `ds`.  `none` when one of the
calls fails. -/
def resumeSession (T : TextOps S) (base : FName) (maxPart : Int) (ds : List (Snap S C)) (fs : Files) :
    Option Files :=
  match (Reader.new : Reader S).load T fs base with
  | (false, _) => none
  | (true, r) =>
    let o := Writer.new.open base maxPart (some r.lastFileN) fs
    match o.2.writeAll T ds (applyOps o.1 fs) with
    | none => none
    | some (_, fs) => some fs

/-- Several sessions, one after the other.
(Repeated runs of /repo/test/main/main.cpp.) -/
def resumeSessions (T : TextOps S) (base : FName) : List (Int × List (Snap S C)) → Files → Option Files
  | [], fs => some fs
  | (m, ds) :: ss, fs =>
    match resumeSession T base m ds fs with
    | none => none
    | some fs => resumeSessions T base ss fs

end

end NB
