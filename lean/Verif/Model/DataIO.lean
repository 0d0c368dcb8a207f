import Verif.Model.Stream

/-
Model of the text files of `nbody_data` (/repo/nbody/nbody_data.cpp:407-674).

Simplifications: files can be opened; text is a list of characters without carriage returns; number formatting
and parsing are parameters (`TextOps`); memory is not exhausted.
-/

namespace NB

/-- /repo/nbody/nbody_data.h:14-22, the members of `nbody_data` that hold its contents. -/
structure DataObj (S C : Type) where
  count : Nat
  time : S
  step : Nat
  box : Nat
  vrt : List (Vec3 S)
  color : List C
  vel : List (Vec3 S)
  mass : List S
  radius : List S

section
variable {S C : Type}

/-- /repo/nbody/nbody_data.cpp:407-415, `clear`: time, step and box size stay. -/
def DataObj.clear (d : DataObj S C) : DataObj S C :=
  { d with vrt := [], vel := [], mass := [], color := [], radius := [], count := 0 }

/-- /repo/nbody/nbody_data.cpp:166-175, `add_body`. -/
def DataObj.addBody (d : DataObj S C) (r v : Vec3 S) (m : S) (c : C) (radius : S) : DataObj S C :=
  { d with vrt := d.vrt ++ [r], vel := d.vel ++ [v], mass := d.mass ++ [m], color := d.color ++ [c],
           radius := d.radius ++ [radius], count := d.count + 1 }

/-- `std::vector::resize`: cut or filled with value-initialised elements.
(Called at /repo/nbody/nbody_data.cpp:155-162.) -/
def resizeList {α : Type} (z : α) (n : Nat) (l : List α) : List α := l.take n ++ List.replicate (n - l.length) z

/-- /repo/nbody/nbody_data.cpp:155-164, `resize`; `black` is a value-initialised colour. -/
def DataObj.resize [Zero S] (black : C) (d : DataObj S C) (n : Nat) : DataObj S C :=
  { d with vrt := resizeList 0 n d.vrt, vel := resizeList 0 n d.vel, mass := resizeList 0 n d.mass,
           color := resizeList black n d.color, radius := resizeList 0 n d.radius, count := n }

/-- /repo/nbody/nbody_data.cpp:431-436, the line of body `n`. -/
def saveLine (T : TextOps S) (d : DataObj S C) (n : Nat) : Res (List Char) := do
  let r ← rd d.vrt n
  let v ← rd d.vel n
  let m ← rd d.mass n
  let q ← rd d.radius n
  pure (T.fmt r.x ++ [' '] ++ T.fmt r.y ++ [' '] ++ T.fmt r.z ++ [' '] ++
    T.fmt v.x ++ [' '] ++ T.fmt v.y ++ [' '] ++ T.fmt v.z ++ [' '] ++ T.fmt m ++ [' '] ++ T.fmt q ++ ['\n'])

/-- /repo/nbody/nbody_data.cpp:417-440, `save`: the text of the file. -/
def DataObj.save (T : TextOps S) (d : DataObj S C) : Res (List Char) :=
  forN d.count [] (fun n t => do
    let l ← saveLine T d n
    pure (t ++ l))

/-- The part of a line before the first `//` (the whole line if there is none),
/repo/nbody/nbody_data.cpp:461-465. -/
def cutComment : List Char → List Char
  | [] => []
  | '/' :: '/' :: _ => []
  | c :: r => c :: cutComment r

/-- `QString::split(sep, SkipEmptyParts)`.
(Called at /repo/nbody/nbody_data.cpp:471,585,603.) -/
def splitSkip (sep : Char) (t : List Char) : List (List Char) := (splitOn sep t).filter (· ≠ [])

/-- `toDouble(&ok)` on the first `k` columns in turn; `none` when one of them fails.
(/repo/nbody/nbody_data.cpp:485,498.) -/
def parseCols (T : TextOps S) (cols : List (List Char)) : Option (List S) :=
  cols.mapM T.parse

/-- What /repo/nbody/nbody_data.cpp:458-509 does with one line. -/
inductive LineResult (S : Type) where
  /-- `continue` -/
  | skip
  /-- `return false` -/
  | fail
  /-- `add_body` with these eight numbers -/
  | body (r v : Vec3 S) (m radius : S)

/-- /repo/nbody/nbody_data.cpp:458-509, one line. -/
def readLine [Zero S] (T : TextOps S) (line : List Char) : LineResult S :=
  let line := trimSpace (cutComment line)
  if line = [] then .skip
  else
    let cols := splitSkip ' ' line
    if cols.length < 7 then .fail
    else
      match parseCols T (cols.take 7) with
      | some [x, y, z, vx, vy, vz, m] =>
        match cols[7]? with
        | none => .body ⟨x, y, z⟩ ⟨vx, vy, vz⟩ m 0
        | some q =>
          match T.parse q with
          | none => .fail
          | some q => .body ⟨x, y, z⟩ ⟨vx, vy, vz⟩ m q
      | _ => .fail

/-- /repo/nbody/nbody_data.cpp:457-511, the loop over the lines. -/
def DataObj.loadLines [Zero S] [Mul S] (T : TextOps S) (white : C) (factor : S) :
    List (List Char) → DataObj S C → Bool × DataObj S C
  | [], d => (true, d)
  | l :: ls, d =>
    match readLine T l with
    | .skip => DataObj.loadLines T white factor ls d
    | .fail => (false, d)
    | .body r v m q => DataObj.loadLines T white factor ls (d.addBody r v (m * factor) white q)

/-- /repo/nbody/nbody_data.cpp:442-512, `load` of a file with the text `t`. -/
def DataObj.load [Zero S] [Mul S] (T : TextOps S) (white : C) (factor : S) (t : List Char) (d : DataObj S C) :
    Bool × DataObj S C :=
  DataObj.loadLines T white factor (textLines t) d.clear

/-- `toDouble()` without `ok`: 0 when the text is not a number.
(Called at /repo/nbody/nbody_data.cpp:576,591-593,609-611.) -/
def toDouble0 [Zero S] (T : TextOps S) (t : List Char) : S := (T.parse t).getD 0

/-- /repo/nbody/nbody_data.cpp:562-571, the masses: the `i`-th of the remaining lines is the mass of body
`i`. -/
def zenoMasses [Zero S] (T : TextOps S) : Nat → Nat → List (List Char) → DataObj S C →
    Res (Bool × List (List Char) × DataObj S C)
  | 0, _, ls, d => .ok (true, ls, d)
  | _ + 1, _, [], d => .ok (false, [], d)
  | k + 1, i, l :: ls, d => do
    let m ← wr d.mass i (toDouble0 T l)
    zenoMasses T k (i + 1) ls { d with mass := m }

/-- /repo/nbody/nbody_data.cpp:579-588, 597-606, a line with three columns. -/
def zenoVec [Zero S] (T : TextOps S) (l : List Char) : Option (Vec3 S) :=
  match splitSkip ' ' l with
  | [a, b, c] => some ⟨toDouble0 T a, toDouble0 T b, toDouble0 T c⟩
  | _ => none

/-- /repo/nbody/nbody_data.cpp:572-607, an array of vectors. -/
def zenoVecs [Zero S] (T : TextOps S) : Nat → Nat → List (List Char) → List (Vec3 S) →
    Res (Bool × List (List Char) × List (Vec3 S))
  | 0, _, ls, a => .ok (true, ls, a)
  | _ + 1, _, [], a => .ok (false, [], a)
  | k + 1, i, l :: ls, a =>
    match zenoVec T l with
    | none => .ok (false, ls, a)
    | some v => do
      let a ← wr a i v
      zenoVecs T k (i + 1) ls a

/-- /repo/nbody/nbody_data.cpp:562-615, the arrays. -/
def zenoBody [Zero S] (T : TextOps S) (white : C) (count : Nat) (ls : List (List Char)) (d : DataObj S C) :
    Res (Bool × DataObj S C) := do
  let (ok, ls, d) ← zenoMasses T count 0 ls d
  if ok = false then pure (false, d)
  else do
    let (ok, ls, vrt) ← zenoVecs T count 0 ls d.vrt
    let d := { d with vrt := vrt }
    if ok = false then pure (false, d)
    else do
      let (ok, _, vel) ← zenoVecs T count 0 ls d.vel
      let d := { d with vel := vel }
      if ok = false then pure (false, d)
      else pure (true, { d with color := d.color.map (fun _ => white), box := 1 })

/-- /repo/nbody/nbody_data.cpp:514-616, `load_zeno_ascii` of a file with the text `t`. -/
def DataObj.loadZeno [Zero S] (T : TextOps S) (black white : C) (t : List Char) (d : DataObj S C) :
    Res (Bool × DataObj S C) :=
  let d := d.clear
  match textLines t with
  | [] => .ok (false, d)
  | lc :: ls =>
    match toULongLong lc with
    | none => .ok (false, d)
    | some count =>
      match ls with
      | [] => .ok (false, d)
      | ld :: ls =>
        match toULongLong ld with
        | none => .ok (false, d)
        | some dim =>
          if dim ≠ 3 then .ok (false, d)
          else
            match ls with
            | [] => .ok (false, d)
            | sk :: ls =>
              if sk = [] then .ok (false, d)
              else zenoBody T white count ls (d.resize black count)

/-- `QString::compare(…, Qt::CaseInsensitive) == 0` on ASCII.
(Called at /repo/nbody/nbody_data.cpp:621-633.) -/
def sameWord (a b : List Char) : Bool := a.map Char.toLower == b.map Char.toLower

/-- `std::max(a, b)`: the first argument unless it is less than the second.
(Called at /repo/nbody/nbody_data.cpp:323,651-656.) -/
def stdMax [FOps S] (a b : S) : S := if FOps.lt a b then b else a

/-- /repo/nbody/nbody_data.cpp:648-656, the size of the box; `toSize` is the conversion to `size_t`, undefined
behaviour when the value does not fit. -/
def boxOf [One S] [FOps S] (toSize : S → Res Nat) (vrt : List (Vec3 S)) : Res Nat :=
  let r := vrt.foldl (fun (r : Vec3 S) v => ⟨stdMax v.x r.x, stdMax v.y r.y, stdMax v.z r.z⟩) ⟨1, 1, 1⟩
  toSize (stdMax r.x (stdMax r.y r.z))

/-- /repo/nbody/nbody_data.cpp:618-659, `load_initial`; `si` and `adk` are the mass factors of `get_mass_factor`
(661-674). -/
def DataObj.loadInitial [Zero S] [One S] [Mul S] [FOps S] (T : TextOps S) (black white : C) (si adk : S)
    (toSize : S → Res Nat) (t type : List Char) (d : DataObj S C) : Res (Bool × DataObj S C) := do
  let (ret, d) ←
    if sameWord type ['Z', 'e', 'n', 'o'] then d.loadZeno T black white t
    else if sameWord type ['G', '1'] then pure (d.load T white 1 t)
    else if sameWord type ['S', 'I'] then pure (d.load T white si t)
    else if sameWord type ['A', 'D', 'K'] then pure (d.load T white adk t)
    else pure (false, d)
  if ret = false then pure (false, d)
  else do
    let b ← boxOf toSize d.vrt
    pure (true, { d with box := b })

/-- /repo/nbody/nbody_data.cpp:392-399, whether `fabs(a - b) > eps`. -/
def isFar [Sub S] [FOps S] (eps a b : S) : Bool := FOps.lt eps (FOps.abs (a - b))

/-- /repo/nbody/nbody_data.cpp:392-402, body `n` of both states.  The code stops at the first difference; the model
reads all eight numbers, which makes no difference to the result for arrays of one length. -/
def sameBody [Sub S] [FOps S] (d o : DataObj S C) (eps : S) (n : Nat) : Res Bool := do
  let m ← rd d.mass n
  let m' ← rd o.mass n
  let q ← rd d.radius n
  let q' ← rd o.radius n
  let r ← rd d.vrt n
  let r' ← rd o.vrt n
  let v ← rd d.vel n
  let v' ← rd o.vel n
  pure (!(isFar eps m m' || isFar eps q q' || isFar eps r.x r'.x || isFar eps r.y r'.y || isFar eps r.z r'.z ||
    isFar eps v.x v'.x || isFar eps v.y v'.y || isFar eps v.z v'.z))

/-- /repo/nbody/nbody_data.cpp:383-405, `is_equal`. -/
def DataObj.isEqual [Sub S] [FOps S] (d o : DataObj S C) (eps : S) : Res Bool :=
  if d.count ≠ o.count then .ok false
  else forN d.count true (fun n eq => if eq = false then pure false else sameBody d o eps n)

end

end NB
