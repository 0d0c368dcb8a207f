import Verif.Model.Stream
import Verif.Spec.Decimal

/-
The numbers in the text form of a state: what `save` asks of the printer of numbers and `load` of the reader.
The printer is that of QTextStream for `float` and `double` (a `float` is converted to `double` first) and
`quadmath_snprintf` for `__float128`; the reader is `QString::toDouble` for every number type.  They are not part of
/repo: the model names the requests, and the properties hold for every printer and reader that round correctly.
Infinities, not-a-numbers and the sign of zero are not modelled.
-/

namespace NB

open Dec

/-- A number in scientific notation with a sign in front, `±d.ddd…e±dd`.
(The form set at /repo/nbody/nbody_data.cpp:428-430 and by the format of /repo/nbody/nbtype_quad.h:59.) -/
structure Numeral where
  neg : Bool
  lead : Fin 10
  frac : List (Fin 10)
  eneg : Bool
  exp : List (Fin 10)

/-- A digit as a character. (Form of the numbers of /repo/nbody/nbody_data.cpp:428-437.) -/
def digChar (i : Fin 10) : Char := Char.ofNat (48 + i.val)

/-- A sign, always written for the number (`ForceSign`, /repo/nbody/nbody_data.cpp:430; `+` in the format of
/repo/nbody/nbtype_quad.h:59). -/
def signChar (b : Bool) : Char := if b then '-' else '+'

/-- The characters of a number (/repo/nbody/nbody_data.cpp:428-430, /repo/nbody/nbtype_quad.h:59). -/
def Numeral.text (n : Numeral) : List Char :=
  signChar n.neg :: digChar n.lead :: '.' :: (n.frac.map digChar ++ 'e' :: signChar n.eneg :: n.exp.map digChar)

/-- The natural number that digits stand for. (Form of the numbers of /repo/nbody/nbody_data.cpp:428-437.) -/
def numVal (ds : List (Fin 10)) : Nat := ds.foldl (fun a i => 10 * a + i.val) 0

/-- The number that a text in scientific notation stands for.
(Form of the numbers of /repo/nbody/nbody_data.cpp:428-437.) -/
def Numeral.value (n : Numeral) : Rat :=
  (if n.neg then -1 else 1) * (numVal (n.lead :: n.frac) : Rat) *
    (10 : Rat) ^ ((if n.eneg then -1 else 1) * (numVal n.exp : Int) - (n.frac.length : Int))

/-- Digits after the point, `s.setRealNumberPrecision(16)`: /repo/nbody/nbody_data.cpp:428. -/
def savePrecision : Nat := 16

/-- Digits after the point of a `__float128`: `.20` of the format of /repo/nbody/nbtype_quad.h:59; the precision of the
stream becomes the least width there. -/
def quadPrecision : Nat := 20

/-- `double`, what `toDouble` answers (/repo/nbody/nbody_data.cpp:483,497). -/
def IsDouble : Rat → Prop := IsFloat 53 (-1074) 971

/-- The values of a coordinate type (`nbcoord_t` of /repo/nbody/nbtype.h): `float` is `Coord 24 (-149) 104`, `double`
is `Coord 53 (-1074) 971`, `__float128` is `Coord 113 (-16494) 16271`. -/
def Coord (p : Nat) (lo hi : Int) : Type := { x : Rat // IsFloat p lo hi x }

/-- A printer that writes the nearest decimal number with `prec` digits after the point
(`s << x` at /repo/nbody/nbody_data.cpp:434-436). -/
def PrintsNearest (prec : Nat) (print : Rat → List Char) : Prop :=
  ∀ x, ∃ n : Numeral, print x = n.text ∧ n.frac.length = prec ∧ IsNearest (IsDecimal (prec + 1)) x n.value

/-- A reader of `double` that rounds to nearest whatever neither overflows nor underflows, and answers nothing but
finite doubles (`columns[n].toDouble(&ok)` at /repo/nbody/nbody_data.cpp:483,497). -/
def ReadsNearest (toDouble : List Char → Option Rat) : Prop :=
  (∀ n : Numeral, InRange 53 (-1074) 971 n.value →
    ∃ y, toDouble n.text = some y ∧ IsNearest IsDouble n.value y) ∧
  ∀ t y, toDouble t = some y → IsDouble y

/-- Printing and reading of coordinates: `s << x`, and `rvm[n] = columns[n].toDouble(&ok)` with the conversion `conv`
of a double to the coordinate type (/repo/nbody/nbody_data.cpp:434-436, 483, 497). -/
def coordText {p : Nat} {lo hi : Int} (print : Rat → List Char) (toDouble : List Char → Option Rat)
    (conv : Rat → Coord p lo hi) : TextOps (Coord p lo hi) where
  fmt x := print x.1
  parse t := (toDouble t).map conv

end NB
