import Mathlib.Algebra.Order.Round
import Mathlib.Data.Int.Log
import Mathlib.Data.Real.Archimedean
import Mathlib.Tactic.Linarith
import Mathlib.Tactic.Ring
import Mathlib.Tactic.NormNum
import Mathlib.Tactic.Positivity
import Mathlib.Tactic.FieldSimp

/-
Rounded addition and subtraction, independently of the repository: the standard model of floating-point
arithmetic, and binary arithmetic with a `p` bit significand as an instance of it.
-/

namespace NB.Spec

/-- The standard model for sums and differences: `val` is the real number a machine number stands for, and
the result of an operation is the exact one up to the relative error `u`.  IEEE double satisfies it with
`u = 2⁻⁵³` as long as no operation overflows (sums cannot underflow). -/
structure StdModel {S : Type} [Add S] [Sub S] (val : S → ℝ) (u : ℝ) : Prop where
  add : ∀ a b, |val (a + b) - (val a + val b)| ≤ u * |val a + val b|
  sub : ∀ a b, |val (a - b) - (val a - val b)| ≤ u * |val a - val b|

/-- Rounding to the nearest number with a `p` bit significand; the exponent is not bounded. -/
noncomputable def roundBits (p : ℕ) (x : ℝ) : ℝ :=
  (round (x * 2 ^ ((p : ℤ) - 1 - Int.log 2 |x|)) : ℝ) * 2 ^ (Int.log 2 |x| - ((p : ℤ) - 1))

theorem roundBits_error (p : ℕ) (x : ℝ) : |roundBits p x - x| ≤ 2⁻¹ ^ p * |x| := by
  by_cases hx : x = 0
  · subst hx; simp [roundBits]
  have hpos : 0 < |x| := abs_pos.2 hx
  set e := Int.log 2 |x| with he
  have hle : (2 : ℝ) ^ e ≤ |x| := by
    have := Int.zpow_log_le_self (b := 2) (by norm_num) hpos
    simpa using this
  set q : ℝ := 2 ^ ((p : ℤ) - 1 - e) with hq
  have hqpos : 0 < q := zpow_pos (by norm_num) _
  have hinv : (2 : ℝ) ^ (e - ((p : ℤ) - 1)) = q⁻¹ := by
    rw [hq, ← zpow_neg]; congr 1; ring
  have h1 : roundBits p x - x = ((round (x * q) : ℝ) - x * q) * q⁻¹ := by
    unfold roundBits
    rw [← he, ← hq, hinv, sub_mul, mul_assoc x q, mul_inv_cancel₀ hqpos.ne', mul_one]
  have h2 : |(round (x * q) : ℝ) - x * q| ≤ 1 / 2 := by
    rw [abs_sub_comm]; exact abs_sub_round _
  have h3 : (1 / 2 : ℝ) * q⁻¹ = 2⁻¹ ^ p * 2 ^ e := by
    rw [← hinv]
    have : (2 : ℝ)⁻¹ ^ p = 2 ^ (-(p : ℤ)) := by rw [zpow_neg, zpow_natCast, inv_pow]
    rw [this, ← zpow_add₀ (by norm_num), show (1 / 2 : ℝ) = 2 ^ (-1 : ℤ) by norm_num, ← zpow_add₀ (by norm_num)]
    congr 1; ring
  rw [h1, abs_mul, abs_of_pos (inv_pos.2 hqpos)]
  calc |(round (x * q) : ℝ) - x * q| * q⁻¹ ≤ 1 / 2 * q⁻¹ :=
        mul_le_mul_of_nonneg_right h2 (inv_nonneg.2 hqpos.le)
    _ = 2⁻¹ ^ p * 2 ^ e := h3
    _ ≤ 2⁻¹ ^ p * |x| := mul_le_mul_of_nonneg_left hle (by positivity)

/-- Binary floating-point numbers with `p` bits (unbounded exponent, ties upwards). -/
@[ext] structure Bin (p : ℕ) where
  val : ℝ

noncomputable instance (p : ℕ) : Add (Bin p) := ⟨fun a b => ⟨roundBits p (a.val + b.val)⟩⟩
noncomputable instance (p : ℕ) : Sub (Bin p) := ⟨fun a b => ⟨roundBits p (a.val - b.val)⟩⟩
noncomputable instance (p : ℕ) : Mul (Bin p) := ⟨fun a b => ⟨roundBits p (a.val * b.val)⟩⟩
instance (p : ℕ) : Zero (Bin p) := ⟨⟨0⟩⟩

theorem Bin.stdModel (p : ℕ) : StdModel (S := Bin p) Bin.val (2⁻¹ ^ p) :=
  ⟨fun _ _ => roundBits_error p _, fun _ _ => roundBits_error p _⟩

theorem Bin.mul_error {p : ℕ} (a b : Bin p) :
    |(a * b).val - a.val * b.val| ≤ 2⁻¹ ^ p * |a.val * b.val| := roundBits_error p _

end NB.Spec
