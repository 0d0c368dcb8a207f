import Verif.Lemmas.RealVec

namespace NB

theorem Vec3.norm_nonneg (a : Vec3 ℝ) : 0 ≤ a.norm := by
  unfold Vec3.norm; nlinarith [mul_self_nonneg a.x, mul_self_nonneg a.y, mul_self_nonneg a.z]

theorem Vec3.length_eq (a : Vec3 ℝ) : a.length = Real.sqrt a.norm := rfl

theorem Vec3.length_nonneg (a : Vec3 ℝ) : 0 ≤ a.length := Real.sqrt_nonneg _

theorem Vec3.length_sq (a : Vec3 ℝ) : a.length * a.length = a.norm :=
  Real.mul_self_sqrt a.norm_nonneg

theorem Vec3.dot_le (a b : Vec3 ℝ) : a.dot b ≤ a.length * b.length := by
  have h : a.dot b ^ 2 ≤ (a.length * b.length) ^ 2 := by
    have e : (a.length * b.length) ^ 2 = a.norm * b.norm := by
      rw [← Vec3.length_sq a, ← Vec3.length_sq b]; ring
    rw [e]
    unfold Vec3.dot Vec3.norm
    nlinarith [sq_nonneg (a.x * b.y - a.y * b.x), sq_nonneg (a.y * b.z - a.z * b.y),
      sq_nonneg (a.z * b.x - a.x * b.z)]
  exact le_of_sq_le_sq h (mul_nonneg a.length_nonneg b.length_nonneg)
where
  le_of_sq_le_sq {x y : ℝ} (h : x ^ 2 ≤ y ^ 2) (hy : 0 ≤ y) : x ≤ y := by
    by_contra hc
    push Not at hc
    nlinarith

/-- Triangle inequality. -/
theorem Vec3.length_add_le (a b : Vec3 ℝ) : (a + b).length ≤ a.length + b.length := by
  by_contra hc
  push Not at hc
  have h1 : (a + b).norm = a.norm + 2 * a.dot b + b.norm := by
    unfold Vec3.norm Vec3.dot; simp only [Vec3.add_x, Vec3.add_y, Vec3.add_z]; ring
  have h2 := Vec3.dot_le a b
  have h3 := Vec3.length_sq (a + b)
  have h4 := Vec3.length_sq a
  have h5 := Vec3.length_sq b
  have h6 := a.length_nonneg
  have h7 := b.length_nonneg
  nlinarith

theorem Vec3.length_le_of_norm_le {a : Vec3 ℝ} {x : ℝ} (hx : 0 ≤ x) (h : a.norm ≤ x * x) : a.length ≤ x := by
  rw [Vec3.length_eq]
  exact Real.sqrt_le_iff.2 ⟨hx, by rw [pow_two]; exact h⟩

end NB
