import Verif.Lemmas.Begins
import Verif.Lemmas.Resume
import Verif.Lemmas.StreamExample
import Verif.Model.Sim

/-
A small program to try the theorems on: one body on a spring, with 64-bit integers for numbers.
-/

namespace NB.SimExample

open StreamExample StreamSpec

/-- Numbers of the example: integers modulo a prime, so that sums, differences, products and quotients are exact, stored in
two bytes and printed in decimal.  A result that differs here differs in exact arithmetic too. -/
structure Num where
  v : Fin 65521
deriving DecidableEq

def Num.of (n : ℕ) : Num := ⟨⟨n % 65521, Nat.mod_lt _ (by decide)⟩⟩

/-- The integer of smallest size. -/
def Num.int (a : Num) : ℤ := if a.v.val ≤ 32760 then a.v.val else a.v.val - 65521

/-- Powers. -/
def Num.pow (a : ℕ) : ℕ → ℕ → ℕ
  | 0, _ => 1
  | k + 1, n => let h := Num.pow a k (n / 2); if n % 2 = 0 then h * h % 65521 else h * h % 65521 * a % 65521

instance : Zero Num := ⟨.of 0⟩
instance : One Num := ⟨.of 1⟩
instance (n : ℕ) : OfNat Num (n + 2) := ⟨.of (n + 2)⟩
instance : Add Num := ⟨fun a b => .of (a.v + b.v)⟩
instance : Neg Num := ⟨fun a => .of (65521 - a.v)⟩
instance : Sub Num := ⟨fun a b => .of (a.v + (65521 - b.v))⟩
instance : Mul Num := ⟨fun a b => .of (a.v * b.v)⟩
instance : Div Num := ⟨fun a b => .of (a.v * Num.pow b.v 16 65519)⟩
instance : LT Num := ⟨fun a b => a.int < b.int⟩
instance : LE Num := ⟨fun a b => a.int ≤ b.int⟩
instance : DecidableLT Num := fun a b => inferInstanceAs (Decidable (a.int < b.int))
instance : DecidableLE Num := fun a b => inferInstanceAs (Decidable (a.int ≤ b.int))

/-- Quotients are exact. -/
example : (3 / 2 : Num) * 2 = 3 ∧ (23 / 12 : Num) * 12 = 23 := by decide +kernel

instance : FOps Num where
  sqrt x := x
  abs x := if x < 0 then -x else x
  lt a b := decide (a < b)
  eqb a b := decide (a = b)
  lit n := .of n
  minDist := 0

lemma Num.of_val (x : Num) : Num.of x.v = x := by
  obtain ⟨v, hv⟩ := x
  simp only [Num.of, Nat.mod_eq_of_lt hv]

lemma add_zero' (x : Num) : x + FOps.lit 2 * FOps.lit 0 = x := by
  have e : (FOps.lit 2 * FOps.lit 0 : Num) = .of 0 := by decide +kernel
  rw [e]
  exact Num.of_val x

lemma sub_zero' (x : Num) : x - FOps.lit 2 * FOps.lit 0 = x := by
  have e : (FOps.lit 2 * FOps.lit 0 : Num) = .of 0 := by decide +kernel
  rw [e]
  have := x.v.isLt
  obtain ⟨v, hv⟩ := x
  show Num.of (v + (65521 - 0)) = _
  simp only [Num.of, Nat.sub_zero, Nat.add_mod_right, Nat.mod_eq_of_lt hv]

/-- A decimal fraction is rounded down. -/
instance : OfScientific Num where
  ofScientific m s e := if s then .of (m / 10 ^ e) else .of (m * 10 ^ e)

instance : Raw Num where
  size := 2
  enc x := encNat 2 x.v
  dec b := .of (decNat b)
  size_pos := by decide
  enc_length _ := encNat_length _ _
  dec_enc x := by
    rw [decNat_encNat 2 _ (by have := x.v.isLt; omega)]
    obtain ⟨v, hv⟩ := x
    simp only [Num.of, Nat.mod_eq_of_lt hv]

/-- Text that keeps multiples of `m`. -/
def text (m : ℕ) : TextOps Num where
  fmt x := Nat.toDigits 10 (x.v / m * m)
  parse t := (toULongLong t).map Num.of

/-- What survives printing. -/
def rnd (m : ℕ) (x : Num) : Num := .of (x.v / m * m)

lemma text_good (m : ℕ) : TextGood (text m) (rnd m) where
  noTab x := notMem_digits (by decide)
  noBreak x := notMem_digits (by decide)
  back x := by
    have h : x.v / m * m ≤ sizeMax := by
      have := x.v.isLt
      have := Nat.div_mul_le_self x.v m
      unfold sizeMax; omega
    simp [text, rnd, toULongLong_toDigits h]

/-- Numbers of the command line. -/
def num (t : String) : ℕ := ((toULongLong t.toList)).getD 0

def conv : Conv String ℕ where
  toStr x := x
  toUInt := num
  toULongLong := num
  toInt x := num x
  toDouble := num
  toBool x := x == "1"
  dec m e := m * 10 ^ e.toNat

/-- Buffers of the solvers. -/
def layout (l : ℕ) : Slot → ℕ
  | .y => 0
  | .k i => 1 + 20 * i + 1000 * l
  | .stack i => 2 + 20 * i + 1000 * l
  | .t => 3 + 1000 * l
  | .tmpk => 4 + 1000 * l
  | .ycorr => 5 + 1000 * l
  | .tcorr => 6 + 1000 * l
  | .y0 => 7 + 1000 * l
  | .table i => 8 + 20 * i + 1000 * l
  | .prev i => 9 + 20 * i + 1000 * l
  | .diff => 10 + 1000 * l

lemma layout_inj : Function.Injective (layout 0) := by
  intro a b h
  cases a <;> cases b <;> simp only [layout] at h <;> first | rfl | (congr 1; omega)

/-- A spring: `v` and `-x`. -/
def spring : List Num → List Num
  | [x, y, z, vx, vy, vz] => [vx, vy, vz, -x, -y, -z]
  | _ => []

def sim : SimEnv Num ℕ Unit where
  toCoord n := Num.of n
  deriv _ _ _ y m := (spring y, m)
  fresh := ()
  nrm y := y.headD 0
  table _ := ⟨1, fun _ _ => 0, fun _ => 1, fun _ => 1, fun _ => 0, false, false⟩
  layout := layout
  junk _ _ := 77

def base (T : TextOps Num) : MainEnv Num UInt8 ℕ Num Unit where
  build := ⟨false, false, fun _ => false, fun _ => false⟩
  conv := conv
  depth := 8
  text := T
  black := 0
  white := 9
  green := 1
  color1 := 2
  color2 := 3
  si := 1
  adk := 1
  toSize x := .ok x.v.val
  pow3 x := x
  draws := []
  toCoord n := Num.of n
  toClock n := Num.of n
  start _ _ _ := none
  time _ := 0
  clamp z := z
  advise _ z := z
  getData _ := ⟨0, [], [], [], [], 0, 0, 0⟩

/-- The files before: an initial state. -/
def files : Files where
  txt := fun n => if n = "start".toList then some "3 0 1 0 2 5 7\n".toList else none
  bin := fun _ => none

def args (more : List String) : Params String :=
  parseArguments (["nbody", "--initial_state=start", "--initial_type=g1", "--engine=simple", "--solver=midpoint",
    "--max_step=2", "--dump_step=4"] ++ more)

def prog := (base (text 1)).withSim sim

def d0 : DataObj Num UInt8 := ⟨1, 0, 0, 3, [⟨3, 0, 1⟩], [9], [⟨0, 2, 5⟩], [7], [0]⟩

deriving instance DecidableEq for Vec3
deriving instance DecidableEq for DataObj
deriving instance DecidableEq for Snap
deriving instance DecidableEq for ReadOut

def solver : SolverDesc ℕ := .midpoint ⟨1, 2, false⟩

def p1 := args ["--max_time=9", "--output=a"]
def p2 := parseArguments ["nbody", "--resume=a", "--engine=simple", "--solver=midpoint", "--max_step=2", "--dump_step=4",
  "--max_time=17", "--max_part_size=1"]
def p3 := args ["--max_time=17", "--output=b"]

/-- No options. -/
def noParams : Params String := fun _ => none

lemma p1_eq : p1 = ((((((((noParams.insert "initial_state" "start").insert "initial_type" "g1").insert
    "engine" "simple").insert "solver" "midpoint").insert "max_step" "2").insert "dump_step" "4").insert "max_time"
    "9").insert "output" "a") := by rfl
lemma p2_eq : p2 = (((((((noParams.insert "resume" "a").insert "engine" "simple").insert "solver"
    "midpoint").insert "max_step" "2").insert "dump_step" "4").insert "max_time" "17").insert "max_part_size" "1") := by rfl
lemma p3_eq : p3 = ((((((((noParams.insert "initial_state" "start").insert "initial_type" "g1").insert
    "engine" "simple").insert "solver" "midpoint").insert "max_step" "2").insert "dump_step" "4").insert "max_time"
    "17").insert "output" "b") := by rfl

open C68 in
lemma begins1 : Begins prog p1 files ['a'] none d0 .simple solver (sim.start .simple solver d0) :=
  ⟨by rfl, by decide +kernel, by rfl, rfl⟩

/-- A frame of that simulation. -/
def frame (t : ℕ) (x y z vx vy vz : Num) : Snap Num UInt8 :=
  ⟨1, [⟨x, y, z⟩], [⟨vx, vy, vz⟩], [7], [9], Num.of t, t / 2, 3⟩

def frames1 : List (Snap Num UInt8) :=
  [frame 0 3 0 1 0 2 5, frame 4 (-9) (-8) (-23) 12 (-6) (-11), frame 8 (-21) 48 113 (-72) (-14) (-59)]

def frames2 : List (Snap Num UInt8) :=
  [frame 12 351 (-88) (-103) 132 234 629, frame 16 (-1581) (-672) (-2207) 1008 (-1054) (-2299)]

lemma fits1 : ∀ x ∈ frames1, Fits 1 x := by
  intro x hx
  simp only [frames1, List.mem_cons, List.not_mem_nil, or_false] at hx
  rcases hx with rfl | rfl | rfl <;> exact ⟨rfl, rfl, rfl, rfl, rfl, by decide⟩

/-- What the resumed run starts with. -/
def resumed : DataObj Num UInt8 := readInto 0 1
  (content (rnd 1) (frame 0 3 0 1 0 2 5) (frame 8 (-21) 48 113 (-72) (-14) (-59)) true)

/-- The same frames dumped by a resumed run, whose box size is 0. -/
def frames2' : List (Snap Num UInt8) := frames2.map fun x => { x with box := 0 }

lemma fits2' : ∀ x ∈ frames2', Fits 1 x := by
  intro x hx
  simp only [frames2', frames2, List.map_cons, List.map_nil, List.mem_cons, List.not_mem_nil, or_false] at hx
  rcases hx with rfl | rfl <;> exact ⟨rfl, rfl, rfl, rfl, rfl, by decide⟩

/-- The frames of a run. -/
def framesOf (M : MainEnv Num UInt8 ℕ Num (SimSt Num UInt8 ℕ Unit)) (p : Params String) (s : SolverDesc ℕ)
    (s0 : SimSt Num UInt8 ℕ Unit) : Option (List (Snap Num UInt8)) :=
  match solverRun M.runEnv.record (M.runConf p s) 20 s0 [] with
  | .ok (0, q) => some q.stream
  | _ => none

lemma offers_of {M : MainEnv Num UInt8 ℕ Num (SimSt Num UInt8 ℕ Unit)} {p : Params String} {s : SolverDesc ℕ}
    {s0 : SimSt Num UInt8 ℕ Unit} {L : List (Snap Num UInt8)} (h : framesOf M p s s0 = some L) :
    ∃ s1, Offers M.runEnv (M.runConf p s) s0 L s1 := by
  unfold framesOf at h
  split at h
  · rename_i q hq
    exact ⟨q.s, 20, q, hq, Option.some.inj h, rfl⟩
  · cases h

lemma run1 : framesOf prog p1 solver (sim.start .simple solver d0) = some frames1 := by decide +kernel
lemma run3 : framesOf prog p3 solver (sim.start .simple solver d0) = some (frames1 ++ frames2) := by decide +kernel

lemma run2 : framesOf prog p2 solver (sim.start .simple solver resumed) = some frames2' := by decide +kernel

/-! ### Other options -/

/-- Command lines: a run to `t`, a run that resumes it until 17, and a run until 17, with the options `o`. -/
def line1 (o : List String) (t : String) : List String :=
  ["nbody", "--initial_state=start", "--initial_type=g1"] ++ o ++ [t, "--output=a"]
def line2 (o : List String) : List String := ["nbody", "--resume=a"] ++ o ++ ["--max_time=17"]
def line3 (o : List String) : List String :=
  ["nbody", "--initial_state=start", "--initial_type=g1"] ++ o ++ ["--max_time=17", "--output=b"]

/-- The program whose texts keep multiples of `m`. -/
def progT (m : ℕ) := (base (text m)).withSim sim

lemma parse_agree {p q : Params String} {k : String} (h : p k = q k) (a : String) :
    parseArgument p a k = parseArgument q a k := by
  unfold parseArgument
  by_cases hp : "--".toList.isPrefixOf a.toList = true
  · simp only [hp, if_true]
    generalize splitOn '=' (a.toList.drop "--".toList.length) = w
    rcases w with _ | ⟨x, _ | ⟨y, _ | ⟨z, w⟩⟩⟩
    · exact h
    · exact h
    · simp only [Params.insert]
      by_cases hk : k = String.ofList x
      · simp [hk]
      · simp [hk, h]
    · exact h
  · simp only [hp]
    exact h

lemma parseAll_agree {p q : Params String} {k : String} (h : p k = q k) (o : List String) :
    o.foldl parseArgument p k = o.foldl parseArgument q k := by
  induction o generalizing p q with
  | nil => exact h
  | cons a o ih => exact ih (parse_agree h a)

/-- What the resumed run starts with. -/
def start2 (m : ℕ) (s : SolverDesc ℕ) (f : Snap Num UInt8) (L : List (Snap Num UInt8)) : SimSt Num UInt8 ℕ Unit :=
  sim.start .simple s (readInto 0 1 (content (rnd m) f ((f :: L).getLast?.getD f) true))

/-- All parts of a frame have the size they should have. -/
def fits (x : Snap Num UInt8) : Bool :=
  x.count == 1 && x.vrt.length == 1 && x.vel.length == 1 && x.mass.length == 1 && x.color.length == 1 &&
    decide (x.step ≤ sizeMax)

lemma fits_iff {x : Snap Num UInt8} (h : fits x = true) : Fits 1 x := by
  simp only [fits, Bool.and_eq_true, beq_iff_eq, decide_eq_true_eq] at h
  obtain ⟨⟨⟨⟨⟨h1, h2⟩, h3⟩, h4⟩, h5⟩, h6⟩ := h
  exact ⟨h1, h2, h3, h4, h5, h6⟩

/-- The content of answers. -/
def contents (m : ℕ) (f : Snap Num UInt8) : List (Snap Num UInt8) → List (ReadOut Num UInt8)
  | [] => []
  | d :: ds => content (rnd m) f d true :: ds.map fun d => content (rnd m) f d false

/-- The three runs end, and the frames differ. -/
def check (m : ℕ) (o : List String) (t : String) (s : SolverDesc ℕ) : Bool :=
  match framesOf (progT m) (parseArguments (line1 o t)) s (sim.start .simple s d0),
      framesOf (progT m) (parseArguments (line3 o)) s (sim.start .simple s d0) with
  | some (f :: L1), some (f' :: L3) =>
    match framesOf (progT m) (parseArguments (line2 o)) s (start2 m s f L1) with
    | some L2 => decide (f = f') && (f :: L1 ++ L2 ++ L3).all fits && decide (f.box = 3) &&
        decide ((f :: L1 ++ L2 ++ L3).length ≤ 100) &&
        !decide (contents m f (f :: L1 ++ L2) = contents m f (f :: L3))
    | none => false
  | _, _ => false

end NB.SimExample
