import Verif.Base
import Mathlib.Analysis.Real.Sqrt

/-
The exact-arithmetic instance of the scalar operations.  `nbody::MinDistance` is `1e-8`
(/repo/nbody/nbtype.h:79); the compiled constant is the double nearest to it.
-/

namespace NB

noncomputable instance : FOps ℝ where
  sqrt := Real.sqrt
  abs := fun x => |x|
  lt := fun a b => decide (a < b)
  eqb := fun a b => decide (a = b)
  lit := fun n => (n : ℝ)
  minDist := 1e-8

@[simp] theorem real_sqrt (x : ℝ) : FOps.sqrt x = Real.sqrt x := rfl
@[simp] theorem real_abs (x : ℝ) : FOps.abs x = |x| := rfl
@[simp] theorem real_lt (a b : ℝ) : FOps.lt a b = decide (a < b) := rfl
@[simp] theorem real_eqb (a b : ℝ) : FOps.eqb a b = decide (a = b) := rfl
@[simp] theorem real_lit (n : Nat) : (FOps.lit n : ℝ) = (n : ℝ) := rfl
theorem real_minDist : (FOps.minDist : ℝ) = 1e-8 := rfl
theorem real_minDist_pos : (0 : ℝ) < FOps.minDist := by rw [real_minDist]; norm_num

end NB
