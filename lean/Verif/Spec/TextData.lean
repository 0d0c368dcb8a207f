import Verif.Model.Vec3
import Mathlib.Data.List.Basic

/-
The language of the initial-state text files, as the message of the loader describes it: one body per line,
`X Y Z Vx Vy Vz Mass <Radius> <Some other data>`, comments begin with `//`.
-/

namespace NB.TextSpec

/-- The characters that count as blank. -/
def Blank (c : Char) : Prop :=
  c = ' ' ∨ c = '\t' ∨ c = '\n' ∨ c = '\r' ∨ c = Char.ofNat 11 ∨ c = Char.ofNat 12

/-- The lines of a text: every line is ended by a line break, which the last line may lack. -/
def Lines (t : List Char) (ls : List (List Char)) : Prop :=
  (∀ l ∈ ls, '\n' ∉ l) ∧
  (t = ls.flatMap (· ++ ['\n']) ∨
    ∃ init last, ls = init ++ [last] ∧ last ≠ [] ∧ t = init.flatMap (· ++ ['\n']) ++ last)

/-- `pre` is the part of a line that precedes its first `//`. -/
def BeforeComment (line pre : List Char) : Prop :=
  (pre = line ∧ ¬ ['/', '/'] <:+: line) ∨
  ∃ post, line = pre ++ '/' :: '/' :: post ∧ ¬ ['/', '/'] <:+: pre ++ ['/']

/-- `core` is `t` without the blanks at both ends. -/
def Trimmed (t core : List Char) : Prop :=
  ∃ a b, t = a ++ core ++ b ∧ (∀ c ∈ a, Blank c) ∧ (∀ c ∈ b, Blank c) ∧
    (∀ c, core.head? = some c → ¬ Blank c) ∧ (∀ c, core.getLast? = some c → ¬ Blank c)

/-- `t` consists of the columns `cs`, separated by spaces. -/
inductive Columns : List Char → List (List Char) → Prop
  | nil (k : Nat) : Columns (List.replicate k ' ') []
  | cons (k : Nat) (f rest : List Char) (cs : List (List Char)) : f ≠ [] → ' ' ∉ f →
      (rest = [] ∨ rest.head? = some ' ') → Columns rest cs →
      Columns (List.replicate k ' ' ++ (f ++ rest)) (f :: cs)

/-- A body as a line describes it. -/
structure BodyLine (S : Type) where
  pos : Vec3 S
  vel : Vec3 S
  mass : S
  radius : S

/-- The numbers of a line: seven, and the radius if there is an eighth column. -/
inductive Numbers {S : Type} [Zero S] (parse : List Char → Option S) : List (List Char) → BodyLine S → Prop
  | seven (a b c d e f g : List Char) (x y z vx vy vz m : S) : parse a = some x → parse b = some y →
      parse c = some z → parse d = some vx → parse e = some vy → parse f = some vz → parse g = some m →
      Numbers parse [a, b, c, d, e, f, g] ⟨⟨x, y, z⟩, ⟨vx, vy, vz⟩, m, 0⟩
  | more (a b c d e f g h : List Char) (rest : List (List Char)) (x y z vx vy vz m q : S) : parse a = some x →
      parse b = some y → parse c = some z → parse d = some vx → parse e = some vy → parse f = some vz →
      parse g = some m → parse h = some q →
      Numbers parse (a :: b :: c :: d :: e :: f :: g :: h :: rest) ⟨⟨x, y, z⟩, ⟨vx, vy, vz⟩, m, q⟩

/-- What a line stands for: nothing, or a body. -/
inductive Means {S : Type} [Zero S] (parse : List Char → Option S) : List Char → Option (BodyLine S) → Prop
  | blank (line pre : List Char) : BeforeComment line pre → (∀ c ∈ pre, Blank c) → Means parse line none
  | body (line pre core : List Char) (cs : List (List Char)) (b : BodyLine S) : BeforeComment line pre →
      Trimmed pre core → core ≠ [] → Columns core cs → Numbers parse cs b → Means parse line (some b)

end NB.TextSpec

namespace NB.TextSpec

/-- What the round trip needs from printing and reading numbers: a printed number is not empty, has no blanks and
no slashes, and is read back as a number (`rnd` of the printed one). -/
structure Formats {S : Type} (fmt : S → List Char) (parse : List Char → Option S) (rnd : S → S) : Prop where
  ne : ∀ x : S, fmt x ≠ []
  clean : ∀ x : S, ∀ c ∈ fmt x, ¬ Blank c ∧ c ≠ '/'
  back : ∀ x : S, parse (fmt x) = some (rnd x)

/-- What a number reader that ignores errors returns. -/
def Value {S : Type} [Zero S] (parse : List Char → Option S) (t : List Char) (x : S) : Prop :=
  parse t = some x ∨ parse t = none ∧ x = 0

/-- A line with the three components of a vector. -/
def VecLine {S : Type} [Zero S] (parse : List Char → Option S) (t : List Char) (v : Vec3 S) : Prop :=
  ∃ a b c, Columns t [a, b, c] ∧ Value parse a v.x ∧ Value parse b v.y ∧ Value parse c v.z

/-- A Zeno file: the number of bodies, the dimension, a line that is skipped, then all masses, all positions and
all velocities, one line each. -/
structure Zeno {S : Type} [Zero S] (whole : List Char → Option Nat) (parse : List Char → Option S)
    (t : List Char) (count : Nat) (ms : List S) (ps vs : List (Vec3 S)) : Prop where
  file : ∃ lc ld sk ml pl vl rest, Lines t (lc :: ld :: sk :: (ml ++ (pl ++ (vl ++ rest)))) ∧
    whole lc = some count ∧ whole ld = some 3 ∧ sk ≠ [] ∧
    List.Forall₂ (Value parse) ml ms ∧ List.Forall₂ (VecLine parse) pl ps ∧ List.Forall₂ (VecLine parse) vl vs
  masses : ms.length = count
  positions : ps.length = count
  velocities : vs.length = count

end NB.TextSpec
