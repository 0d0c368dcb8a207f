import Verif.Model.View
import Verif.Props.C53_PlayerColor
import Mathlib.Tactic.Linarith
import Mathlib.Tactic.LinearCombination
import Mathlib.Tactic.Positivity
import Mathlib.Tactic.FieldSimp

/-
Helper lemmas for the view of the player.
-/

namespace NB

lemma v_length_nonneg (a : Vec3 ℝ) : 0 ≤ a.length := Real.sqrt_nonneg _

lemma v_length_sq (a : Vec3 ℝ) : a.length * a.length = a.dot a := by
  unfold Vec3.length
  rw [real_sqrt]
  refine Real.mul_self_sqrt ?_
  unfold Vec3.dot
  nlinarith [mul_self_nonneg a.x, mul_self_nonneg a.y, mul_self_nonneg a.z]

lemma v_length_pos {a : Vec3 ℝ} (h : a.dot a ≠ 0) : 0 < a.length := by
  refine lt_of_le_of_ne (v_length_nonneg a) fun e => h ?_
  rw [← v_length_sq, ← e, mul_zero]

/-- The product with a unit vector. -/
lemma v_dot_unit {u r : Vec3 ℝ} (hu : u.dot u = 1) : |u.dot r| ≤ r.length := by
  refine abs_le_of_sq_le_sq ?_ (v_length_nonneg r)
  rw [sq, sq, v_length_sq]
  have h1 : u.dot r * u.dot r + (u.cross r).dot (u.cross r) = u.dot u * r.dot r := by
    unfold Vec3.dot Vec3.cross; ring
  have h2 : 0 ≤ (u.cross r).dot (u.cross r) := by
    rw [← v_length_sq]; exact mul_self_nonneg _
  rw [hu, one_mul] at h1
  linarith

lemma v_unit {a : Vec3 ℝ} (h : a.dot a ≠ 0) : a.normalized.dot a.normalized = 1 := by
  have hp := v_length_pos h
  have : a.normalized.dot a.normalized = a.dot a / (a.length * a.length) := by
    unfold Vec3.normalized Vec3.sdiv Vec3.dot
    field_simp
  rw [this, v_length_sq, div_self h]

lemma cot30 : Real.cos (Real.pi / 6) / Real.sin (Real.pi / 6) = Real.sqrt 3 := by
  rw [Real.cos_pi_div_six, Real.sin_pi_div_six]
  field_simp

/-- What it takes to be drawn, for any camera that does not look along its upward direction: there are three
perpendicular unit vectors, forward, sideward and upward, and the point is in the pyramid they span. -/
lemma inside_iff (width height : ℕ) (hw : 0 < width) (hh : 0 < height) (center camera up p : Vec3 ℝ)
    (hD : (center - camera).dot (center - camera) ≠ 0)
    (hc : (((center - camera).normalized).cross up).dot (((center - camera).normalized).cross up) ≠ 0) :
    ∃ f s u : Vec3 ℝ, f.dot f = 1 ∧ s.dot s = 1 ∧ u.dot u = 1 ∧
      f = (center - camera).normalized ∧ s = (f.cross up).normalized ∧
      ((project width height center camera up p).inside ↔
        1 ≤ (center - camera).length + f.dot (p - center) ∧ (center - camera).length + f.dot (p - center) ≤ 1000 ∧
        Real.sqrt 3 * (height / width) * |s.dot (p - center)| ≤ (center - camera).length + f.dot (p - center) ∧
        Real.sqrt 3 * |u.dot (p - center)| ≤ (center - camera).length + f.dot (p - center)) := by
  have hDp := v_length_pos hD
  generalize hfdef : (center - camera).normalized = f at hc
  generalize hsdef : (f.cross up).normalized = s
  have hff : f.dot f = 1 := by rw [← hfdef]; exact v_unit hD
  have hss : s.dot s = 1 := by rw [← hsdef]; exact v_unit hc
  have hcp := v_length_pos hc
  have hsf : s.dot f = 0 := by
    rw [← hsdef]
    have : (f.cross up).normalized.dot f = (f.cross up).dot f / (f.cross up).length := by
      unfold Vec3.normalized Vec3.sdiv Vec3.dot
      field_simp
    rw [this]
    have : (f.cross up).dot f = 0 := by unfold Vec3.cross Vec3.dot; ring
    rw [this, zero_div]
  have huu : (s.cross f).dot (s.cross f) = 1 := by
    have : (s.cross f).dot (s.cross f) = s.dot s * f.dot f - s.dot f * s.dot f := by
      unfold Vec3.cross Vec3.dot; ring
    rw [this, hss, hff, hsf]; ring
  have huf : (s.cross f).dot f = 0 := by unfold Vec3.cross Vec3.dot; ring
  -- the ray is along the forward direction
  have hray : center - camera = f.smul (center - camera).length := by
    rw [← hfdef]
    unfold Vec3.normalized Vec3.sdiv Vec3.smul
    ext <;> field_simp
  have hsplit : ∀ a : Vec3 ℝ, a.dot (p - camera) = a.dot f * (center - camera).length + a.dot (p - center) := by
    intro a
    have h1 : a.dot (p - camera) = a.dot (center - camera) + a.dot (p - center) := by
      show a.x * (p.x - camera.x) + a.y * (p.y - camera.y) + a.z * (p.z - camera.z) =
        (a.x * (center.x - camera.x) + a.y * (center.y - camera.y) + a.z * (center.z - camera.z)) +
        (a.x * (p.x - center.x) + a.y * (p.y - center.y) + a.z * (p.z - center.z))
      ring
    have h2 : a.dot (center - camera) = a.dot f * (center - camera).length := by
      conv_lhs => rw [hray]
      unfold Vec3.smul Vec3.dot
      ring
    rw [h1, h2]
  refine ⟨f, s, s.cross f, hff, hss, huu, rfl, hsdef.symm, ?_⟩
  have e1 : f.dot (p - camera) = (center - camera).length + f.dot (p - center) := by rw [hsplit, hff, one_mul]
  have e2 : s.dot (p - camera) = s.dot (p - center) := by rw [hsplit, hsf]; ring
  have e3 : (s.cross f).dot (p - camera) = (s.cross f).dot (p - center) := by rw [hsplit, huf]; ring
  unfold Clip.inside project
  simp only [hfdef, hsdef, cot30, e1, e2, e3, neg_neg]
  generalize (center - camera).length + f.dot (p - center) = d
  generalize s.dot (p - center) = X
  generalize (s.cross f).dot (p - center) = Y
  have hw' : (0 : ℝ) < width := by exact_mod_cast hw
  have hh' : (0 : ℝ) < height := by exact_mod_cast hh
  have h3 : (0 : ℝ) ≤ Real.sqrt 3 := Real.sqrt_nonneg 3
  have hX : |Real.sqrt 3 / (1 / ((height : ℝ) / width)) * X| = Real.sqrt 3 * (height / width) * |X| := by
    rw [abs_mul, abs_of_nonneg (by positivity)]
    congr 1
    field_simp
  have hY : |Real.sqrt 3 * Y| = Real.sqrt 3 * |Y| := by rw [abs_mul, abs_of_nonneg h3]
  rw [hX, hY]
  have hZ : |(1000 + 1 : ℝ) / (1 - 1000) * -d + 2 * 1000 * 1 / (1 - 1000)| ≤ d ↔ 1 ≤ d ∧ d ≤ 1000 := by
    rw [abs_le]
    constructor
    · rintro ⟨h1, h2⟩; constructor <;> linarith
    · rintro ⟨h1, h2⟩; constructor <;> linarith
  rw [hZ]
  tauto

lemma v_length_mono {a b : Vec3 ℝ} (hx : |a.x| ≤ b.x) (hy : |a.y| ≤ b.y) (hz : |a.z| ≤ b.z) : a.length ≤ b.length := by
  unfold Vec3.length
  rw [real_sqrt, real_sqrt]
  refine Real.sqrt_le_sqrt ?_
  unfold Vec3.dot
  have h1 := mul_self_le_mul_self (abs_nonneg _) hx
  have h2 := mul_self_le_mul_self (abs_nonneg _) hy
  have h3 := mul_self_le_mul_self (abs_nonneg _) hz
  rw [abs_mul_abs_self] at h1 h2 h3
  linarith

lemma v_length_smul {a : Vec3 ℝ} {k : ℝ} (hk : 0 ≤ k) : (a.smul k).length = a.length * k := by
  unfold Vec3.length
  rw [real_sqrt, real_sqrt]
  have : (a.smul k).dot (a.smul k) = a.dot a * (k * k) := by unfold Vec3.smul Vec3.dot; ring
  rw [this, Real.sqrt_mul (by rw [← v_length_sq]; exact mul_self_nonneg _), Real.sqrt_mul_self hk]

/-- Bodies of the frame the box was made from are near its centre. -/
lemma near_center (b : ViewBox) (hb : b.boxMin = b.boxMax) (vrt vel : List (Vec3 ℝ))
    (hbound : ∀ v ∈ vrt, ∀ k, |v.coord k| ≤ 1e30) (p : Vec3 ℝ) (hp : p ∈ vrt) :
    (p - (setupViewBox b vrt vel).center).length ≤
      ((setupViewBox b vrt vel).boxMax - (setupViewBox b vrt vel).boxMin).length * (1 / 4) := by
  have hne : vrt ≠ [] := List.ne_nil_of_mem hp
  have hcond : ¬ (b.boxMin ≠ b.boxMax ∨ vrt.length = 0) := by
    rintro (h | h)
    · exact h hb
    · exact hne (List.length_eq_zero_iff.1 h)
  unfold setupViewBox
  rw [if_neg hcond, ← v_length_smul (by norm_num)]
  have hx := ((C53.box_is_bounding_box vrt hne hbound 0).1 p hp)
  have hy := ((C53.box_is_bounding_box vrt hne hbound 1).1 p hp)
  have hz := ((C53.box_is_bounding_box vrt hne hbound 2).1 p hp)
  generalize getBox vrt = q at hx hy hz ⊢
  obtain ⟨lo, hi⟩ := q
  obtain ⟨x0, y0, z0⟩ := lo
  obtain ⟨x1, y1, z1⟩ := hi
  obtain ⟨x, y, z⟩ := p
  change x0 ≤ x ∧ x ≤ x1 at hx
  change y0 ≤ y ∧ y ≤ y1 at hy
  change z0 ≤ z ∧ z ≤ z1 at hz
  refine v_length_mono ?_ ?_ ?_
  · show |x - ((x1 + (x1 - x0) * 0.5) + (x0 - (x1 - x0) * 0.5)) * 0.5| ≤
      ((x1 + (x1 - x0) * 0.5) - (x0 - (x1 - x0) * 0.5)) * (1 / 4)
    rw [abs_le]; constructor <;> linarith [hx.1, hx.2]
  · show |y - ((y1 + (y1 - y0) * 0.5) + (y0 - (y1 - y0) * 0.5)) * 0.5| ≤
      ((y1 + (y1 - y0) * 0.5) - (y0 - (y1 - y0) * 0.5)) * (1 / 4)
    rw [abs_le]; constructor <;> linarith [hy.1, hy.2]
  · show |z - ((z1 + (z1 - z0) * 0.5) + (z0 - (z1 - z0) * 0.5)) * 0.5| ≤
      ((z1 + (z1 - z0) * 0.5) - (z0 - (z1 - z0) * 0.5)) * (1 / 4)
    rw [abs_le]; constructor <;> linarith [hz.1, hz.2]

/-- The cameras of the panes: their distance, and that they do not look along their upward direction. -/
lemma pane_camera (b : ViewBox) (scale : ℝ) (hd : 0 < b.dist scale) (split : ℝ × ℝ) (width height : ℕ) (q : Pane)
    (hq : q ∈ panes b scale split width height) :
    (b.center - q.camera).dot (b.center - q.camera) ≠ 0 ∧
    (((b.center - q.camera).normalized).cross q.up).dot (((b.center - q.camera).normalized).cross q.up) ≠ 0 ∧
    ((b.center - q.camera).length = b.dist scale ∨ (b.center - q.camera).length = Real.sqrt 2 * b.dist scale) := by
  generalize hdd : b.dist scale = d at hd
  have hnorm : ∀ (ray up : Vec3 ℝ), (ray.cross up).dot (ray.cross up) ≠ 0 → ray.dot ray ≠ 0 →
      (ray.normalized.cross up).dot (ray.normalized.cross up) ≠ 0 := by
    intro ray up h hr
    have hp := v_length_pos hr
    have : (ray.normalized.cross up).dot (ray.normalized.cross up) =
        (ray.cross up).dot (ray.cross up) / (ray.length * ray.length) := by
      unfold Vec3.normalized Vec3.sdiv Vec3.cross Vec3.dot
      field_simp
    rw [this]
    exact div_ne_zero h (mul_pos hp hp).ne'
  have hd2 : d * d ≠ 0 := (mul_pos hd hd).ne'
  simp only [panes, hdd, List.mem_cons, List.not_mem_nil, or_false] at hq
  have hlen : ∀ (ray : Vec3 ℝ), ray.dot ray = d * d → ray.length = d := by
    intro ray h
    unfold Vec3.length
    rw [h, real_sqrt, Real.sqrt_mul_self hd.le]
  rcases hq with rfl | rfl | rfl | rfl
  · have e : b.center - (b.center - ⟨0, d, d⟩) = ⟨0, d, d⟩ := by
      show (⟨_ - (_ - _), _ - (_ - _), _ - (_ - _)⟩ : Vec3 ℝ) = _
      simp
    rw [e]
    have h1 : (⟨0, d, d⟩ : Vec3 ℝ).dot ⟨0, d, d⟩ = 2 * (d * d) := by simp only [Vec3.dot]; ring
    refine ⟨by rw [h1]; positivity, hnorm _ _ ?_ (by rw [h1]; positivity), Or.inr ?_⟩
    · simp only [Vec3.dot, Vec3.cross]; ring_nf; positivity
    · unfold Vec3.length
      rw [h1, real_sqrt, Real.sqrt_mul (by norm_num), Real.sqrt_mul_self hd.le]
  · have e : b.center - (b.center - ⟨0, 0, d⟩) = ⟨0, 0, d⟩ := by
      show (⟨_ - (_ - _), _ - (_ - _), _ - (_ - _)⟩ : Vec3 ℝ) = _
      simp
    rw [e]
    have h1 : (⟨0, 0, d⟩ : Vec3 ℝ).dot ⟨0, 0, d⟩ = d * d := by simp only [Vec3.dot]; ring
    refine ⟨by rw [h1]; exact hd2, hnorm _ _ ?_ (by rw [h1]; exact hd2), Or.inl (hlen _ h1)⟩
    simp only [Vec3.dot, Vec3.cross]; ring_nf; positivity
  · have e : b.center - (b.center + ⟨d, 0, 0⟩) = ⟨-d, 0, 0⟩ := by
      show (⟨_ - (_ + _), _ - (_ + _), _ - (_ + _)⟩ : Vec3 ℝ) = _
      simp
    rw [e]
    have h1 : (⟨-d, 0, 0⟩ : Vec3 ℝ).dot ⟨-d, 0, 0⟩ = d * d := by simp only [Vec3.dot]; ring
    refine ⟨by rw [h1]; exact hd2, hnorm _ _ ?_ (by rw [h1]; exact hd2), Or.inl (hlen _ h1)⟩
    simp only [Vec3.dot, Vec3.cross]; ring_nf; positivity
  · have e : b.center - (b.center - ⟨0, d, 0⟩) = ⟨0, d, 0⟩ := by
      show (⟨_ - (_ - _), _ - (_ - _), _ - (_ - _)⟩ : Vec3 ℝ) = _
      simp
    rw [e]
    have h1 : (⟨0, d, 0⟩ : Vec3 ℝ).dot ⟨0, d, 0⟩ = d * d := by simp only [Vec3.dot]; ring
    refine ⟨by rw [h1]; exact hd2, hnorm _ _ ?_ (by rw [h1]; exact hd2), Or.inl (hlen _ h1)⟩
    simp only [Vec3.dot, Vec3.cross]; ring_nf; positivity

end NB
