import Verif.Model.RealScalar
import Verif.Model.Vec3
import Verif.Spec.Gravity
import Mathlib.Tactic.Ring
import Mathlib.Tactic.Linarith
import Mathlib.Tactic.FieldSimp
import Mathlib.Tactic.Positivity
import Mathlib.Tactic.FinCases
import Mathlib.Tactic.GCongr

namespace NB

/-! ### Coordinates of vector expressions -/

section
variable {S : Type _}
@[simp] theorem Vec3.zero_x [Zero S] : (0 : Vec3 S).x = 0 := rfl
@[simp] theorem Vec3.zero_y [Zero S] : (0 : Vec3 S).y = 0 := rfl
@[simp] theorem Vec3.zero_z [Zero S] : (0 : Vec3 S).z = 0 := rfl
@[simp] theorem Vec3.add_x [Add S] (a b : Vec3 S) : (a + b).x = a.x + b.x := rfl
@[simp] theorem Vec3.add_y [Add S] (a b : Vec3 S) : (a + b).y = a.y + b.y := rfl
@[simp] theorem Vec3.add_z [Add S] (a b : Vec3 S) : (a + b).z = a.z + b.z := rfl
@[simp] theorem Vec3.sub_x [Sub S] (a b : Vec3 S) : (a - b).x = a.x - b.x := rfl
@[simp] theorem Vec3.sub_y [Sub S] (a b : Vec3 S) : (a - b).y = a.y - b.y := rfl
@[simp] theorem Vec3.sub_z [Sub S] (a b : Vec3 S) : (a - b).z = a.z - b.z := rfl
@[simp] theorem Vec3.neg_x [Neg S] (a : Vec3 S) : (-a).x = -a.x := rfl
@[simp] theorem Vec3.neg_y [Neg S] (a : Vec3 S) : (-a).y = -a.y := rfl
@[simp] theorem Vec3.neg_z [Neg S] (a : Vec3 S) : (-a).z = -a.z := rfl
@[simp] theorem Vec3.smul_x [Mul S] (v : Vec3 S) (a : S) : (v.smul a).x = v.x * a := rfl
@[simp] theorem Vec3.smul_y [Mul S] (v : Vec3 S) (a : S) : (v.smul a).y = v.y * a := rfl
@[simp] theorem Vec3.smul_z [Mul S] (v : Vec3 S) (a : S) : (v.smul a).z = v.z * a := rfl
@[simp] theorem Vec3.sdiv_x [Div S] (v : Vec3 S) (a : S) : (v.sdiv a).x = v.x / a := rfl
@[simp] theorem Vec3.sdiv_y [Div S] (v : Vec3 S) (a : S) : (v.sdiv a).y = v.y / a := rfl
@[simp] theorem Vec3.sdiv_z [Div S] (v : Vec3 S) (a : S) : (v.sdiv a).z = v.z / a := rfl
end

/-- Coordinates as a function. -/
def Vec3.coord {S : Type _} (v : Vec3 S) : Fin 3 → S := ![v.x, v.y, v.z]

@[simp] theorem Vec3.coord_zero {S : Type _} (v : Vec3 S) : v.coord 0 = v.x := rfl
@[simp] theorem Vec3.coord_one {S : Type _} (v : Vec3 S) : v.coord 1 = v.y := rfl
@[simp] theorem Vec3.coord_two {S : Type _} (v : Vec3 S) : v.coord 2 = v.z := rfl

/-- The softened squared distance used by the code. -/
noncomputable def soft (r2 : ℝ) : ℝ := max r2 1e-8

theorem soft_pos (r2 : ℝ) : 0 < soft r2 := lt_of_lt_of_le (by norm_num) (le_max_right _ _)

theorem soft_eq (r2 : ℝ) : (if FOps.lt r2 (FOps.minDist : ℝ) then FOps.minDist else r2) = soft r2 := by
  simp only [real_lt, decide_eq_true_eq, real_minDist, soft]
  split
  · rw [max_eq_right (le_of_lt ‹_›)]
  · rw [max_eq_left (not_lt.1 ‹_›)]

theorem soft_mul_sqrt (r2 : ℝ) : soft r2 * Real.sqrt (soft r2) = Real.sqrt (soft r2) ^ 3 := by
  have h := Real.mul_self_sqrt (le_of_lt (soft_pos r2))
  calc soft r2 * Real.sqrt (soft r2)
      = (Real.sqrt (soft r2) * Real.sqrt (soft r2)) * Real.sqrt (soft r2) := by rw [h]
    _ = _ := by ring

theorem force_def (p q : Vec3 ℝ) (m1 m2 : ℝ) :
    force p q m1 m2 = (p - q).smul (-(m1 * m2) / Real.sqrt (soft (p - q).norm) ^ 3) := by
  unfold force
  simp only [soft_eq, real_sqrt, soft_mul_sqrt]
  congr 2
  ring

theorem norm_eq_dist2 (p q : Vec3 ℝ) : (p - q).norm = Spec.dist2 p.coord q.coord := by
  simp only [Vec3.norm, Spec.dist2, Vec3.sub_x, Vec3.sub_y, Vec3.sub_z, Vec3.coord_zero,
    Vec3.coord_one, Vec3.coord_two]
  ring

theorem force_coord (p q : Vec3 ℝ) (m1 m2 : ℝ) (k : Fin 3) :
    (force p q m1 m2).coord k = Spec.newton 1e-8 p.coord q.coord m1 m2 k := by
  rw [force_def, Spec.newton, norm_eq_dist2]
  show _ = -(m1 * m2) * (p.coord k - q.coord k) / Real.sqrt (soft (Spec.dist2 p.coord q.coord)) ^ 3
  fin_cases k <;> simp [Vec3.coord] <;> ring

end NB
