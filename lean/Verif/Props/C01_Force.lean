import Verif.Lemmas.RealVec

/-
C01: the pair force obeys Newton's third law and is softened.  Exact arithmetic (ℝ): rounding, overflow
and NaN are not represented.
-/

namespace NB.C01

/-- The code's force is Newton's law with softened distance: `-m1 m2 (p-q)/ρ³`,
`ρ² = max(|p-q|², 1e-8)`, in every coordinate. -/
theorem force_is_softened_newton (p q : Vec3 ℝ) (m1 m2 : ℝ) (k : Fin 3) :
    (force p q m1 m2).coord k = Spec.newton 1e-8 p.coord q.coord m1 m2 k :=
  force_coord p q m1 m2 k

/-- Above the softening length (squared distance at least 1e-8) it is exactly Newton's inverse square
law: in each coordinate `F·|p-q|³ = -m1 m2 (p-q)`. -/
theorem force_is_newton_at_distance (p q : Vec3 ℝ) (m1 m2 : ℝ)
    (h : 1e-8 ≤ Spec.dist2 p.coord q.coord) (k : Fin 3) :
    (force p q m1 m2).coord k * Real.sqrt (Spec.dist2 p.coord q.coord) ^ 3
      = -(m1 * m2) * (p.coord k - q.coord k) := by
  rw [force_coord, Spec.newton, max_eq_left h]
  have hpos : 0 < Real.sqrt (Spec.dist2 p.coord q.coord) :=
    Real.sqrt_pos.2 (lt_of_lt_of_le (by norm_num) h)
  field_simp

example : (1e-8 : ℝ) ≤ Spec.dist2 (⟨0, 0, 0⟩ : Vec3 ℝ).coord (⟨3, 4, 0⟩ : Vec3 ℝ).coord := by
  simp [Spec.dist2]; norm_num

/-- Newton's third law: the two forces of a pair are exactly opposite. -/
theorem force_third_law (p q : Vec3 ℝ) (m1 m2 : ℝ) :
    force p q m1 m2 = -force q p m2 m1 := by
  have hn : (p - q).norm = (q - p).norm := by
    simp only [Vec3.norm, Vec3.sub_x, Vec3.sub_y, Vec3.sub_z]; ring
  rw [force_def, force_def, hn]
  ext <;> simp <;> ring

/-- The force is central and attractive: a non-negative multiple of the direction towards the other
body. -/
theorem force_central_attractive (p q : Vec3 ℝ) (m1 m2 : ℝ) (h1 : 0 ≤ m1) (h2 : 0 ≤ m2) :
    ∃ k : ℝ, 0 ≤ k ∧ force p q m1 m2 = (q - p).smul k ∧ (0 < m1 → 0 < m2 → 0 < k) := by
  refine ⟨m1 * m2 / Real.sqrt (soft (p - q).norm) ^ 3, by positivity, ?_, ?_⟩
  · rw [force_def]; ext <;> simp <;> ring
  · intro h1 h2
    have := Real.sqrt_pos.2 (soft_pos (p - q).norm)
    positivity

/-- Coincident bodies exert no force on each other (no division by zero). -/
theorem force_coincident (p : Vec3 ℝ) (m1 m2 : ℝ) : force p p m1 m2 = 0 := by
  rw [force_def]; ext <;> simp

/-- Moving both bodies by the same vector does not change the force. -/
theorem force_translation (p q d : Vec3 ℝ) (m1 m2 : ℝ) :
    force (p + d) (q + d) m1 m2 = force p q m1 m2 := by
  have h : (p + d) - (q + d) = p - q := by ext <;> simp
  rw [force_def, force_def, h]

/-- The magnitude of the force never exceeds `m1 m2 / MinDistance`, however close the bodies are. -/
theorem force_bounded (p q : Vec3 ℝ) (m1 m2 : ℝ) (h1 : 0 ≤ m1) (h2 : 0 ≤ m2) :
    (force p q m1 m2).length ≤ m1 * m2 / 1e-8 := by
  set s := Real.sqrt (soft (p - q).norm) with hs
  have hspos : 0 < s := Real.sqrt_pos.2 (soft_pos _)
  have hsq : s ^ 2 = soft (p - q).norm := Real.sq_sqrt (le_of_lt (soft_pos _))
  have hnorm : (p - q).norm ≤ s ^ 2 := by rw [hsq]; exact le_max_left _ _
  have heps : (1e-8 : ℝ) ≤ s ^ 2 := by rw [hsq]; exact le_max_right _ _
  have hlen : (force p q m1 m2).length ≤ m1 * m2 / s ^ 2 := by
    have e : (force p q m1 m2).dot (force p q m1 m2) = (p - q).norm * (m1 * m2 / s ^ 3) ^ 2 := by
      rw [force_def, ← hs]; simp only [Vec3.dot, Vec3.norm, Vec3.smul_x, Vec3.smul_y, Vec3.smul_z]; ring
    unfold Vec3.length
    rw [e, real_sqrt]
    have h3 : (p - q).norm * (m1 * m2 / s ^ 3) ^ 2 ≤ (m1 * m2 / s ^ 2) ^ 2 := by
      calc (p - q).norm * (m1 * m2 / s ^ 3) ^ 2 ≤ s ^ 2 * (m1 * m2 / s ^ 3) ^ 2 := by gcongr
        _ = (m1 * m2 / s ^ 2) ^ 2 := by field_simp
    exact le_trans (Real.sqrt_le_sqrt h3) (by rw [Real.sqrt_sq (by positivity)])
  refine le_trans hlen ?_
  gcongr

/-- Inside the softening radius the force is linear in the displacement. -/
theorem force_soft_core (p q : Vec3 ℝ) (m1 m2 : ℝ) (h : Spec.dist2 p.coord q.coord ≤ 1e-8) (k : Fin 3) :
    (force p q m1 m2).coord k = -(m1 * m2) * 1e12 * (p.coord k - q.coord k) := by
  rw [force_coord, Spec.newton, max_eq_right h]
  have : Real.sqrt (1e-8 : ℝ) = 1e-4 := by
    rw [show (1e-8 : ℝ) = 1e-4 ^ 2 by norm_num, Real.sqrt_sq (by norm_num)]
  rw [this]; ring

example : Spec.dist2 (⟨0, 0, 0⟩ : Vec3 ℝ).coord (⟨0, 1e-5, 0⟩ : Vec3 ℝ).coord ≤ 1e-8 := by
  simp [Spec.dist2]; norm_num

/-- A concrete value: masses 1 and 2, distance 5. -/
example : force (⟨0, 0, 0⟩ : Vec3 ℝ) ⟨3, 4, 0⟩ 1 2 = ⟨6 / 125, 8 / 125, 0⟩ := by
  have hd : (1e-8 : ℝ) ≤ 25 := by norm_num
  have h5 : Real.sqrt 25 = 5 := by
    rw [show (25 : ℝ) = 5 ^ 2 by norm_num, Real.sqrt_sq (by norm_num)]
  have hn : ((⟨0, 0, 0⟩ : Vec3 ℝ) - ⟨3, 4, 0⟩).norm = 25 := by
    simp [Vec3.norm]; norm_num
  rw [force_def, hn]
  simp only [soft, max_eq_left hd, h5]
  ext <;> simp <;> norm_num

end NB.C01
