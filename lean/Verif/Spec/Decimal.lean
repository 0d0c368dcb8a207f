import Mathlib.Algebra.Order.Field.Rat
import Mathlib.Algebra.Order.Group.Unbundled.Abs

/-
Binary and decimal numbers of a fixed number of digits, and what it is to round to them: arithmetic only, nothing of
the program.
-/

namespace NB.Dec

/-- The binary numbers of `p` bits whose last bit has an exponent between `lo` and `hi`, zero and the denormal ones
among them: the finite values of a binary floating-point type. -/
def IsFloat (p : ℕ) (lo hi : ℤ) (x : ℚ) : Prop :=
  ∃ m e : ℤ, |m| < 2 ^ p ∧ lo ≤ e ∧ e ≤ hi ∧ x = m * (2 : ℚ) ^ e

/-- The decimal numbers of `d` digits. -/
def IsDecimal (d : ℕ) (x : ℚ) : Prop := ∃ m e : ℤ, |m| < 10 ^ d ∧ x = m * (10 : ℚ) ^ e

/-- `y` is one of the numbers of `P` that are nearest to `x`. -/
def IsNearest (P : ℚ → Prop) (x y : ℚ) : Prop := P y ∧ ∀ u, P u → |y - x| ≤ |u - x|

/-- `x` rounds to a finite number of the type, and not to zero unless it is zero. -/
def InRange (p : ℕ) (lo hi : ℤ) (x : ℚ) : Prop :=
  x = 0 ∨ (2 : ℚ) ^ lo < 2 * |x| ∧ |x| < ((2 : ℚ) ^ p - 1 / 2) * (2 : ℚ) ^ hi

end NB.Dec
