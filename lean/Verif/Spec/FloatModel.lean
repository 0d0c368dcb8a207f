import Verif.Base
import Verif.Spec.Rounding
import Mathlib.Analysis.Real.Sqrt

/-
Rounded arithmetic with all the operations the force loops use, independently of the repository, and the
classical error constant `γ`.
-/

namespace NB.Spec

/-- The standard model of floating-point arithmetic.  `val` is the real number a machine number stands for;
every operation returns the exact result up to the relative error `u`, comparison is exact, changing the sign and
the constants 0 and 1 are exact, the constant `1e-8` is rounded.  IEEE double satisfies it with `u = 2⁻⁵³` for all
operations that neither overflow nor underflow (and where the compiler does not contract products and sums,
which would leave out roundings). -/
structure FloatModel {S : Type} [Add S] [Sub S] [Mul S] [Neg S] [Div S] [Zero S] [One S] [FOps S]
    (val : S → ℝ) (u : ℝ) : Prop where
  add : ∀ a b, |val (a + b) - (val a + val b)| ≤ u * |val a + val b|
  sub : ∀ a b, |val (a - b) - (val a - val b)| ≤ u * |val a - val b|
  mul : ∀ a b, |val (a * b) - val a * val b| ≤ u * |val a * val b|
  div : ∀ a b, val b ≠ 0 → |val (a / b) - val a / val b| ≤ u * |val a / val b|
  sqrt : ∀ a, 0 ≤ val a → |val (FOps.sqrt a) - Real.sqrt (val a)| ≤ u * Real.sqrt (val a)
  neg : ∀ a, val (-a) = -val a
  zero : val 0 = 0
  one : val 1 = 1
  lt : ∀ a b, FOps.lt a b = true ↔ val a < val b
  minDist : |val FOps.minDist - 1e-8| ≤ u * 1e-8

/-- `γ(K) = K u / (1 - K u)`, the classical bound for `K` roundings in a row. -/
noncomputable def gamma (u : ℝ) (K : ℕ) : ℝ := K * u / (1 - K * u)

noncomputable instance (p : ℕ) : Div (Bin p) := ⟨fun a b => ⟨roundBits p (a.val / b.val)⟩⟩
noncomputable instance (p : ℕ) : Neg (Bin p) := ⟨fun a => ⟨-a.val⟩⟩
noncomputable instance (p : ℕ) : One (Bin p) := ⟨⟨1⟩⟩

open Classical in
noncomputable instance (p : ℕ) : FOps (Bin p) where
  sqrt a := ⟨roundBits p (Real.sqrt a.val)⟩
  abs a := ⟨|a.val|⟩
  lt a b := decide (a.val < b.val)
  eqb a b := decide (a.val = b.val)
  lit n := ⟨roundBits p n⟩
  minDist := ⟨roundBits p 1e-8⟩

/-- Binary arithmetic with `p` bits is a case of the model, with `u = 2⁻ᵖ`. -/
theorem Bin.floatModel (p : ℕ) : FloatModel (S := Bin p) Bin.val (2⁻¹ ^ p) where
  add _ _ := roundBits_error p _
  sub _ _ := roundBits_error p _
  mul _ _ := roundBits_error p _
  div _ _ _ := roundBits_error p _
  sqrt a _ := by
    have := roundBits_error p (Real.sqrt a.val)
    rwa [abs_of_nonneg (Real.sqrt_nonneg a.val)] at this
  neg _ := rfl
  zero := rfl
  one := rfl
  lt a b := by
    show decide (a.val < b.val) = true ↔ _
    simp
  minDist := by
    have := roundBits_error p (1e-8 : ℝ)
    rwa [abs_of_nonneg (show (0 : ℝ) ≤ 1e-8 by norm_num)] at this

end NB.Spec
