import Verif.Props.C30_DirectSum
import Mathlib.Tactic.Module

/-
How far the attraction of a far node is from the sum of the attractions of its bodies.
-/

namespace NB.BHError
open NB NB.Spec

/-! ### Lengths -/

lemma length_smul (v : Vec3 ℝ) (a : ℝ) : (v.smul a).length = |a| * v.length := by
  rw [Vec3.length_eq, Vec3.length_eq, show (v.smul a).norm = a ^ 2 * v.norm by
    unfold Vec3.norm; simp only [Vec3.smul_x, Vec3.smul_y, Vec3.smul_z]; ring,
    Real.sqrt_mul (sq_nonneg a), Real.sqrt_sq_eq_abs]

lemma length_neg (v : Vec3 ℝ) : (-v).length = v.length := by
  rw [Vec3.length_eq, Vec3.length_eq]
  congr 1
  unfold Vec3.norm
  simp

lemma length_sub_comm (v w : Vec3 ℝ) : (v - w).length = (w - v).length := by
  rw [← length_neg]
  congr 1
  ext <;> simp

lemma length_sub_le (v w : Vec3 ℝ) : (v - w).length ≤ v.length + w.length := by
  have := Vec3.length_add_le v (-w)
  rw [length_neg] at this
  rwa [show v - w = v + -w by ext <;> simp [sub_eq_add_neg]]

lemma length_tri (v w : Vec3 ℝ) : v.length ≤ w.length + (v - w).length := by
  have := Vec3.length_add_le w (v - w)
  rwa [show w + (v - w) = v by ext <;> simp] at this

lemma length_zero : (0 : Vec3 ℝ).length = 0 := by
  rw [Vec3.length_eq]
  simp [Vec3.norm]

lemma abs_dot_le (v w : Vec3 ℝ) : |v.dot w| ≤ v.length * w.length := by
  refine abs_le.2 ⟨?_, Vec3.dot_le v w⟩
  have := Vec3.dot_le (-v) w
  rw [length_neg] at this
  have e : (-v).dot w = -(v.dot w) := by unfold Vec3.dot; simp; ring
  linarith

/-- The softened distance. -/
noncomputable def rad (x : Vec3 ℝ) : ℝ := Real.sqrt (soft x.norm)

lemma rad_eq (x : Vec3 ℝ) : rad x = max x.length (1 / 10000) := by
  unfold rad soft
  rw [Monotone.map_max (f := Real.sqrt) fun x y h => Real.sqrt_le_sqrt h, Vec3.length_eq,
    show (1e-8 : ℝ) = (1 / 10000) ^ 2 by norm_num, Real.sqrt_sq (by norm_num)]

lemma rad_pos (x : Vec3 ℝ) : 0 < rad x := Real.sqrt_pos.2 (soft_pos _)

lemma rad_sq (x : Vec3 ℝ) : rad x ^ 2 = soft x.norm := Real.sq_sqrt (soft_pos _).le

lemma length_le_rad (x : Vec3 ℝ) : x.length ≤ rad x := by rw [rad_eq]; exact le_max_left _ _

lemma rad_le (x y : Vec3 ℝ) : rad x ≤ rad y + (x - y).length := by
  have h := length_tri x y
  have h0 := (x - y).length_nonneg
  rw [rad_eq, rad_eq]
  refine max_le (h.trans ?_) ?_
  · have := le_max_left y.length (1 / 10000); linarith
  · have := le_max_right y.length (1 / 10000); linarith

lemma abs_rad_sub (x y : Vec3 ℝ) : |rad x - rad y| ≤ (x - y).length := by
  have h1 := rad_le x y
  have h2 := rad_le y x
  rw [length_sub_comm] at h2
  exact abs_le.2 ⟨by linarith, by linarith⟩

/-! ### The attraction per unit of mass -/

/-- `x / ρ³`. -/
noncomputable def kern (x : Vec3 ℝ) : Vec3 ℝ := x.smul (1 / rad x ^ 3)

lemma force_kern (v p : Vec3 ℝ) (m1 m2 : ℝ) : force v p m1 m2 = (kern (v - p)).smul (-(m1 * m2)) := by
  rw [force_def]
  unfold kern rad
  ext <;> simp <;> ring

lemma kern_le (x : Vec3 ℝ) : (kern x).length ≤ 1 / rad x ^ 2 := by
  have h := rad_pos x
  unfold kern
  rw [length_smul, abs_of_pos (by positivity)]
  calc 1 / rad x ^ 3 * x.length ≤ 1 / rad x ^ 3 * rad x := by gcongr; exact length_le_rad x
    _ = 1 / rad x ^ 2 := by field_simp

lemma kern_sub_le (x y : Vec3 ℝ) : (kern x - kern y).length ≤
    (x - y).length / rad x ^ 3 * (2 + rad x / rad y + (rad x / rad y) ^ 2) := by
  have ha := rad_pos x
  have hb := rad_pos y
  set a := rad x with hadef
  set b := rad y with hbdef
  have e : kern x - kern y = (x - y).smul (1 / a ^ 3) + y.smul (1 / a ^ 3 - 1 / b ^ 3) := by
    unfold kern
    rw [← hadef, ← hbdef]
    ext <;> simp <;> ring
  have e2 : 1 / a ^ 3 - 1 / b ^ 3 = (b - a) * ((a ^ 2 + a * b + b ^ 2) / (a ^ 3 * b ^ 3)) := by
    field_simp; ring
  rw [e]
  refine (Vec3.length_add_le _ _).trans ?_
  rw [length_smul, length_smul, abs_of_pos (by positivity : (0:ℝ) < 1 / a ^ 3), e2, abs_mul,
    abs_of_pos (by positivity : 0 < (a ^ 2 + a * b + b ^ 2) / (a ^ 3 * b ^ 3))]
  have h1 : |b - a| ≤ (x - y).length := by rw [abs_sub_comm]; exact abs_rad_sub x y
  have h2 : y.length ≤ b := length_le_rad y
  have h0 := (x - y).length_nonneg
  calc 1 / a ^ 3 * (x - y).length + |b - a| * ((a ^ 2 + a * b + b ^ 2) / (a ^ 3 * b ^ 3)) * y.length
      ≤ 1 / a ^ 3 * (x - y).length + (x - y).length * ((a ^ 2 + a * b + b ^ 2) / (a ^ 3 * b ^ 3)) * b := by
        gcongr; exact y.length_nonneg
    _ = _ := by field_simp; ring

/-- First order: a body nearer to the centre than the `ratio`-th part of the distance. -/
lemma first_order {x y : Vec3 ℝ} {ratio : ℝ} (hr : 1 ≤ ratio) (h : (x - y).length * ratio ≤ y.length) :
    (kern x - kern y).length ≤ 16 / ratio / rad x ^ 2 := by
  have ha := rad_pos x
  have hb := rad_pos y
  have h0 := (x - y).length_nonneg
  have hη : (x - y).length ≤ y.length := by nlinarith
  have hab : rad x ≤ 2 * rad y := by
    have := rad_le x y
    have := length_le_rad y
    linarith
  have hq : rad x / rad y ≤ 2 := by rw [div_le_iff₀ hb]; exact hab
  have hr0 : 0 < ratio := by linarith
  rcases le_or_gt 2 ratio with h2 | h2
  · have hD : y.length ≤ 2 * rad x := by
      have h3 := length_tri y x
      rw [length_sub_comm] at h3
      have := length_le_rad x
      nlinarith
    have hη2 : (x - y).length ≤ 2 * rad x / ratio := by
      rw [le_div_iff₀ hr0]; linarith
    calc (kern x - kern y).length ≤ (x - y).length / rad x ^ 3 * (2 + rad x / rad y + (rad x / rad y) ^ 2) := kern_sub_le x y
      _ ≤ 2 * rad x / ratio / rad x ^ 3 * (2 + 2 + 2 ^ 2) := by gcongr
      _ = 16 / ratio / rad x ^ 2 := by field_simp; norm_num
  · have h1 := kern_le x
    have h3 := kern_le y
    have h4 : 1 / rad y ^ 2 ≤ 4 / rad x ^ 2 := by
      rw [div_le_div_iff₀ (by positivity) (by positivity)]
      nlinarith
    have h5 : 5 / rad x ^ 2 ≤ 16 / ratio / rad x ^ 2 := by
      gcongr
      rw [le_div_iff₀ hr0]
      linarith
    calc (kern x - kern y).length ≤ (kern x).length + (kern y).length := length_sub_le _ _
      _ ≤ 1 / rad x ^ 2 + 4 / rad x ^ 2 := by linarith
      _ = 5 / rad x ^ 2 := by ring
      _ ≤ _ := h5

/-- The linear part of the change of the attraction when the distance changes by `h`, away from the softening. -/
noncomputable def lin (y h : Vec3 ℝ) : Vec3 ℝ :=
  h.smul (1 / y.length ^ 3) - y.smul (3 * y.dot h / y.length ^ 5)

lemma kern_far {x : Vec3 ℝ} (h : 1 / 10000 ≤ x.length) : rad x = x.length := by
  rw [rad_eq, max_eq_left h]

/-- Second order, away from the softening. -/
lemma second_order {x y : Vec3 ℝ} {ratio : ℝ} (hr : 1 ≤ ratio) (h : (x - y).length * ratio ≤ y.length)
    (hx : 1 / 10000 ≤ x.length) (hy : 1 / 10000 ≤ y.length) :
    (kern x - kern y - lin y (x - y)).length ≤ 53 / ratio ^ 2 / rad x ^ 2 := by
  have ea := kern_far hx
  have eb := kern_far hy
  have ha := rad_pos x
  have hb := rad_pos y
  have hab := abs_rad_sub x y
  have hη0 := (x - y).length_nonneg
  have hηd : (x - y).length ≤ y.length := by nlinarith
  have hq : x.length ≤ 2 * y.length := by have := length_tri x y; linarith
  have hnx := Vec3.length_sq x
  have hny := Vec3.length_sq y
  have hnh := Vec3.length_sq (x - y)
  have hdot := abs_dot_le y (x - y)
  have hxh : x.norm = y.norm + 2 * y.dot (x - y) + (x - y).norm := by
    unfold Vec3.norm Vec3.dot; simp only [Vec3.sub_x, Vec3.sub_y, Vec3.sub_z]; ring
  unfold kern lin
  rw [ea, eb] at *
  set a := x.length with hadef
  set d := y.length with hddef
  set η := (x - y).length with hη
  set s := y.dot (x - y) with hs
  have hsq : a ^ 2 = d ^ 2 + 2 * s + η ^ 2 := by
    rw [← hnx, ← hny, ← hnh] at hxh; linarith [hxh]
  -- the exact remainder
  have e : x.smul (1 / a ^ 3) - y.smul (1 / d ^ 3) - ((x - y).smul (1 / d ^ 3) - y.smul (3 * s / d ^ 5)) =
      x.smul ((a - d) ^ 2 * ((3 * a ^ 3 + 6 * a ^ 2 * d + 4 * a * d ^ 2 + 2 * d ^ 3) / (2 * a ^ 3 * d ^ 5))) +
      (-((x - y).smul (3 * s / d ^ 5)) + -(x.smul (3 / 2 * η ^ 2 / d ^ 5))) := by
    have hE : 1 / a ^ 3 - 1 / d ^ 3 + 3 / 2 * (a ^ 2 - d ^ 2) / d ^ 5 =
        (a - d) ^ 2 * ((3 * a ^ 3 + 6 * a ^ 2 * d + 4 * a * d ^ 2 + 2 * d ^ 3) / (2 * a ^ 3 * d ^ 5)) := by
      field_simp; ring
    rw [← hE, hsq]
    ext <;> simp <;> ring
  rw [e]
  have hcoef : 0 ≤ (3 * a ^ 3 + 6 * a ^ 2 * d + 4 * a * d ^ 2 + 2 * d ^ 3) / (2 * a ^ 3 * d ^ 5) := by positivity
  have hsqle : (a - d) ^ 2 ≤ η ^ 2 := by
    rw [← sq_abs]
    exact pow_le_pow_left₀ (abs_nonneg _) hab 2
  have hr0 : 0 < ratio := by linarith
  have hη2 : η ^ 2 ≤ d ^ 2 / ratio ^ 2 := by
    rw [le_div_iff₀ (by positivity), ← mul_pow]
    exact pow_le_pow_left₀ (by positivity) h 2
  calc _ ≤ (x.smul ((a - d) ^ 2 * ((3 * a ^ 3 + 6 * a ^ 2 * d + 4 * a * d ^ 2 + 2 * d ^ 3) / (2 * a ^ 3 * d ^ 5)))).length
          + (((x - y).smul (3 * s / d ^ 5)).length + (x.smul (3 / 2 * η ^ 2 / d ^ 5)).length) := by
        refine (Vec3.length_add_le _ _).trans ?_
        have := Vec3.length_add_le (-((x - y).smul (3 * s / d ^ 5))) (-(x.smul (3 / 2 * η ^ 2 / d ^ 5)))
        rw [length_neg, length_neg] at this
        linarith
    _ = (a - d) ^ 2 * ((3 * a ^ 3 + 6 * a ^ 2 * d + 4 * a * d ^ 2 + 2 * d ^ 3) / (2 * a ^ 3 * d ^ 5)) * a
          + (3 * |s| / d ^ 5 * η + 3 / 2 * η ^ 2 / d ^ 5 * a) := by
        rw [length_smul, length_smul, length_smul, abs_of_nonneg (mul_nonneg (sq_nonneg (a - d)) hcoef), abs_div,
          abs_mul, abs_of_pos (by positivity : 0 < d ^ 5), abs_of_pos (by norm_num : (0:ℝ) < 3),
          abs_of_nonneg (by positivity : 0 ≤ 3 / 2 * η ^ 2 / d ^ 5), ← hadef, ← hη]
    _ ≤ η ^ 2 * ((3 * a ^ 3 + 6 * a ^ 2 * d + 4 * a * d ^ 2 + 2 * d ^ 3) / (2 * a ^ 3 * d ^ 5)) * a
          + (3 * (d * η) / d ^ 5 * η + 3 / 2 * η ^ 2 / d ^ 5 * a) := by gcongr
    _ = η ^ 2 / d ^ 2 * ((3 * (a / d) ^ 3 + 6 * (a / d) ^ 2 + 2 * (a / d) + 1) / a ^ 2) := by field_simp; ring
    _ ≤ d ^ 2 / ratio ^ 2 / d ^ 2 * ((3 * 2 ^ 3 + 6 * 2 ^ 2 + 2 * 2 + 1) / a ^ 2) := by
        have hq' : a / d ≤ 2 := by rw [div_le_iff₀ hb]; exact hq
        gcongr
    _ = 53 / ratio ^ 2 / a ^ 2 := by field_simp; norm_num

/-! ### Nodes and trees -/

lemma length_sum_le {α : Type} (g : α → Vec3 ℝ) (w : α → ℝ) (l : List α) (h : ∀ a ∈ l, (g a).length ≤ w a) :
    (l.map g).sum.length ≤ (l.map w).sum := by
  induction l with
  | nil => simp [length_zero]
  | cons a l ih =>
    rw [List.map_cons, List.sum_cons, List.map_cons, List.sum_cons]
    have h1 := Vec3.length_add_le (g a) (l.map g).sum
    have h2 := h a (by simp)
    have h3 := ih fun b hb => h b (by simp [hb])
    linarith

lemma direct_sub (B : Bodies ℝ) (v mc : Vec3 ℝ) (m1 : ℝ) (bs : List ℕ) :
    C30.direct B v m1 bs - force v mc m1 (bs.map B.mass).sum =
      (bs.map fun b => (kern (v - B.pos b) - kern (v - mc)).smul (-(m1 * B.mass b))).sum := by
  induction bs with
  | nil => simp [C30.direct, C30.force_zero_mass]
  | cons b bs ih =>
    simp only [List.map_cons, List.sum_cons]
    rw [← ih, C30.force_add_mass, force_kern v mc m1 (B.mass b)]
    simp only [C30.direct, List.map_cons, List.sum_cons]
    rw [force_kern v (B.pos b)]
    ext <;> simp <;> ring

lemma lin_sum (B : Bodies ℝ) (y mc : Vec3 ℝ) (m1 : ℝ) (bs : List ℕ) :
    (bs.map fun b => (lin y (mc - B.pos b)).smul (-(m1 * B.mass b))).sum =
      (lin y (bs.map fun b => (mc - B.pos b).smul (B.mass b)).sum).smul (-m1) := by
  induction bs with
  | nil => ext <;> simp [lin, Vec3.dot]
  | cons b bs ih =>
    rw [List.map_cons, List.sum_cons, ih, List.map_cons, List.sum_cons]
    generalize (bs.map fun b => (mc - B.pos b).smul (B.mass b)).sum = S
    ext <;> simp [lin, Vec3.dot] <;> ring

lemma moment_coord (B : Bodies ℝ) (mc : Vec3 ℝ) (bs : List ℕ) (k : Fin 3) :
    ((bs.map fun b => (mc - B.pos b).smul (B.mass b)).sum).coord k =
      (bs.map B.mass).sum * mc.coord k - (bs.map fun b => B.mass b * (B.pos b).coord k).sum := by
  induction bs with
  | nil => fin_cases k <;> simp
  | cons b bs ih =>
    simp only [List.map_cons, List.sum_cons]
    have e : ∀ u w : Vec3 ℝ, (u + w).coord k = u.coord k + w.coord k := by intro u w; fin_cases k <;> rfl
    rw [e, ih]
    fin_cases k <;> simp <;> ring

/-- About the centre of mass the first moments vanish. -/
lemma moment_zero {B : Bodies ℝ} {ratio : ℝ} {bs : List ℕ} {d : NodeData ℝ} (h : C26.Summarises B ratio bs d) :
    (bs.map fun b => (d.mc - B.pos b).smul (B.mass b)).sum = 0 := by
  have : ∀ k, ((bs.map fun b => (d.mc - B.pos b).smul (B.mass b)).sum).coord k = 0 := by
    intro k
    rw [moment_coord, ← h.centre k, ← h.mass, sub_self]
  exact Vec3.ext (this 0) (this 1) (this 2)

/-- The bodies of an accepted node are nearer to its centre than the `ratio`-th part of its distance. -/
lemma accepted_near {B : Bodies ℝ} {ratio : ℝ} {bs : List ℕ} {d : NodeData ℝ}
    (h : C26.Summarises B ratio bs d) {v : Vec3 ℝ} (ha : accepts v d = true) {b : ℕ} (hb : b ∈ bs) :
    (v - B.pos b - (v - d.mc)).length * ratio < (v - d.mc).length := by
  simp only [accepts, real_lt, decide_eq_true_eq] at ha
  have h1 := h.radius b hb
  rw [← norm_eq_dist2, ← Vec3.length_sq] at h1
  rw [← Vec3.length_sq] at ha
  have e : (v - B.pos b - (v - d.mc)).length = (B.pos b - d.mc).length := by
    rw [length_sub_comm (B.pos b)]
    congr 1
    ext <;> simp
  rw [e]
  refine lt_of_mul_self_lt_mul_self₀ (Vec3.length_nonneg _) ?_
  calc _ = (B.pos b - d.mc).length * (B.pos b - d.mc).length * (ratio * ratio) := by ring
    _ < _ := lt_of_le_of_lt h1 ha

/-- No body of an accepted node is at the query point. -/
lemma accepted_ne {B : Bodies ℝ} {ratio : ℝ} {bs : List ℕ} {d : NodeData ℝ} (hr : 1 ≤ ratio)
    (h : C26.Summarises B ratio bs d) {v : Vec3 ℝ} (ha : accepts v d = true) {b : ℕ} (hb : b ∈ bs) : B.pos b ≠ v := by
  intro e
  have h1 := accepted_near h ha hb
  rw [e, show v - v - (v - d.mc) = -(v - d.mc) by ext <;> simp, length_neg] at h1
  have := (v - d.mc).length_nonneg
  nlinarith

/-- The weight of a body: what it attracts with, times `c`; nothing if it is at the query point. -/
noncomputable def weight (B : Bodies ℝ) (v : Vec3 ℝ) (c : ℝ) (b : ℕ) : ℝ :=
  open Classical in if B.pos b = v then 0 else c * (B.mass b / soft (v - B.pos b).norm)

lemma weight_nonneg (B : Bodies ℝ) (v : Vec3 ℝ) {c : ℝ} (hc : 0 ≤ c) {b : ℕ} (hb : 0 ≤ B.mass b) :
    0 ≤ weight B v c b := by
  unfold weight
  split
  · exact le_rfl
  · have := soft_pos (v - B.pos b).norm; positivity

lemma node_first {B : Bodies ℝ} {ratio : ℝ} {bs : List ℕ} {d : NodeData ℝ} (hr : 1 ≤ ratio)
    (h : C26.Summarises B ratio bs d) (hpos : ∀ b ∈ bs, 0 ≤ B.mass b) {v : Vec3 ℝ} {m1 : ℝ} (hm : 0 ≤ m1)
    (ha : accepts v d = true) :
    (force v d.mc m1 d.mass - C30.direct B v m1 bs).length ≤ (bs.map (weight B v (m1 * (16 / ratio)))).sum := by
  rw [length_sub_comm, h.mass, direct_sub]
  refine length_sum_le _ _ _ fun b hb => ?_
  have h0 := hpos b hb
  have h1 := first_order hr (accepted_near h ha hb).le
  rw [rad_sq] at h1
  rw [length_smul, abs_neg, abs_of_nonneg (by positivity), weight, if_neg (accepted_ne hr h ha hb)]
  calc m1 * B.mass b * (kern (v - B.pos b) - kern (v - d.mc)).length
      ≤ m1 * B.mass b * (16 / ratio / soft (v - B.pos b).norm) := by gcongr
    _ = _ := by ring

lemma node_second {B : Bodies ℝ} {ratio : ℝ} {bs : List ℕ} {d : NodeData ℝ} (hr : 1 ≤ ratio)
    (h : C26.Summarises B ratio bs d) (hpos : ∀ b ∈ bs, 0 ≤ B.mass b) {v : Vec3 ℝ} {m1 : ℝ} (hm : 0 ≤ m1)
    (ha : accepts v d = true) (hfar : ∀ b ∈ bs, B.pos b ≠ v → 1 / 5000 ≤ (v - B.pos b).length) :
    (force v d.mc m1 d.mass - C30.direct B v m1 bs).length ≤ (bs.map (weight B v (m1 * (53 / ratio ^ 2)))).sum := by
  have e : (bs.map fun b => (kern (v - B.pos b) - kern (v - d.mc)).smul (-(m1 * B.mass b))).sum =
      (bs.map fun b => (kern (v - B.pos b) - kern (v - d.mc) - lin (v - d.mc) (d.mc - B.pos b)).smul
        (-(m1 * B.mass b))).sum := by
    have e1 : (bs.map fun b => (kern (v - B.pos b) - kern (v - d.mc) - lin (v - d.mc) (d.mc - B.pos b)).smul
        (-(m1 * B.mass b))).sum = (bs.map fun b => (kern (v - B.pos b) - kern (v - d.mc)).smul (-(m1 * B.mass b))).sum
        - (bs.map fun b => (lin (v - d.mc) (d.mc - B.pos b)).smul (-(m1 * B.mass b))).sum := by
      clear hfar hpos h
      induction bs with
      | nil => simp
      | cons b bs ih =>
        simp only [List.map_cons, List.sum_cons]
        rw [ih]
        ext <;> simp <;> ring
    have e2 : (lin (v - d.mc) 0).smul (-m1) = 0 := by ext <;> simp [lin, Vec3.dot]
    rw [e1, lin_sum, moment_zero h, e2, sub_zero]
  rw [length_sub_comm, h.mass, direct_sub, e]
  refine length_sum_le _ _ _ fun b hb => ?_
  have h0 := hpos b hb
  have hne := accepted_ne hr h ha hb
  have hx := hfar b hb hne
  have hn := (accepted_near h ha hb).le
  have hy : 1 / 10000 ≤ (v - d.mc).length := by
    have h1 := length_tri (v - B.pos b) (v - d.mc)
    have h2 := (v - B.pos b - (v - d.mc)).length_nonneg
    nlinarith
  have h1 := second_order hr hn (by linarith) hy
  rw [rad_sq, show v - B.pos b - (v - d.mc) = d.mc - B.pos b by ext <;> simp] at h1
  rw [length_smul, abs_neg, abs_of_nonneg (by positivity), weight, if_neg hne]
  calc m1 * B.mass b * (kern (v - B.pos b) - kern (v - d.mc) - lin (v - d.mc) (d.mc - B.pos b)).length
      ≤ m1 * B.mass b * (53 / ratio ^ 2 / soft (v - B.pos b).norm) := by gcongr
    _ = _ := by ring

lemma at_bodies {t s : STree ℝ} {p : List Bool} (h : At t p s) : ∀ b ∈ s.bodies, b ∈ t.bodies := by
  induction h with
  | here => exact fun b hb => hb
  | left _ ih => exact fun b hb => by simp [STree.bodies, ih b hb]
  | right _ ih => exact fun b hb => by simp [STree.bodies, ih b hb]

/-- From the nodes to the tree. -/
lemma tree_error {B : Bodies ℝ} {ratio : ℝ} {t : STree ℝ} (h : C26.Faithful B ratio t) (v : Vec3 ℝ) (m1 : ℝ)
    {w : ℕ → ℝ} (hw : ∀ b ∈ t.bodies, 0 ≤ w b)
    (hnode : ∀ p s, At t p s → accepts v s.data = true →
      (force v s.data.mc m1 s.data.mass - C30.direct B v m1 s.bodies).length ≤ (s.bodies.map w).sum) :
    (((acceptedNodes v t).map fun a => force v a.data.mc m1 a.data.mass).sum - C30.direct B v m1 t.bodies).length ≤
      (t.bodies.map w).sum := by
  induction t with
  | leaf b d =>
    simp only [acceptedNodes]
    split
    · next ha =>
      have := hnode _ _ (At.here _) ha
      simpa using this
    · next ha =>
      obtain ⟨e, hr⟩ := C28.leaf_at (h _ _ (At.here _))
      simp only [STree.data] at e hr
      simp only [accepts, real_lt, decide_eq_true_eq, not_lt] at ha
      have := C28.eq_of_norm_le (ha.trans hr)
      rw [e] at this
      have h0 := hw b (by simp [STree.bodies])
      simpa [C30.direct, STree.bodies, this, C30.force_self, length_zero] using h0
  | node l r d hl hr =>
    simp only [acceptedNodes]
    split
    · next ha =>
      have := hnode _ _ (At.here _) ha
      simpa using this
    · have h1 := hl (fun p s hs => h _ _ (At.left hs)) (fun b hb => hw b (by simp [STree.bodies, hb]))
        fun p s hs => hnode _ s (At.left hs)
      have h2 := hr (fun p s hs => h _ _ (At.right hs)) (fun b hb => hw b (by simp [STree.bodies, hb]))
        fun p s hs => hnode _ s (At.right hs)
      rw [List.map_append, List.sum_append, STree.bodies, C30.direct_append, List.map_append, List.sum_append]
      refine le_trans (le_of_eq ?_) ((Vec3.length_add_le _ _).trans (add_le_add h1 h2))
      congr 1
      ext <;> simp <;> ring

/-- First order for the whole walk. -/
lemma walk_first {B : Bodies ℝ} {ratio : ℝ} (hr : 1 ≤ ratio) {t : STree ℝ} (h : C26.Faithful B ratio t)
    (hpos : ∀ b ∈ t.bodies, 0 ≤ B.mass b) (v : Vec3 ℝ) {m1 : ℝ} (hm : 0 ≤ m1) :
    ((acceptedNodes v t).foldl (addForce v m1) 0 - C30.direct B v m1 t.bodies).length ≤
      (t.bodies.map (weight B v (m1 * (16 / ratio)))).sum := by
  have hr0 : 0 < ratio := by linarith
  rw [C30.foldl_sum, zero_add]
  refine tree_error h v m1 (fun b hb => weight_nonneg B v (by positivity) (hpos b hb)) fun p s hs ha =>
    node_first hr (h p s hs) (fun b hb => hpos b ?_) hm ha
  exact at_bodies hs b hb

/-- Second order for the whole walk. -/
lemma walk_second {B : Bodies ℝ} {ratio : ℝ} (hr : 1 ≤ ratio) {t : STree ℝ} (h : C26.Faithful B ratio t)
    (hpos : ∀ b ∈ t.bodies, 0 ≤ B.mass b) (v : Vec3 ℝ) {m1 : ℝ} (hm : 0 ≤ m1)
    (hfar : ∀ b ∈ t.bodies, B.pos b ≠ v → 1 / 5000 ≤ (v - B.pos b).length) :
    ((acceptedNodes v t).foldl (addForce v m1) 0 - C30.direct B v m1 t.bodies).length ≤
      (t.bodies.map (weight B v (m1 * (53 / ratio ^ 2)))).sum := by
  have hr0 : 0 < ratio := by linarith
  rw [C30.foldl_sum, zero_add]
  refine tree_error h v m1 (fun b hb => weight_nonneg B v (by positivity) (hpos b hb)) fun p s hs ha =>
    node_second hr (h p s hs) (fun b hb => hpos b (at_bodies hs b hb)) hm ha
      fun b hb => hfar b (at_bodies hs b hb)

end NB.BHError
