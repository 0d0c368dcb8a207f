import Verif.Spec.FloatModel
import Mathlib.Algebra.Order.Ring.Pow
import Mathlib.Tactic.GCongr

/-
Counting roundings.  `Rel u k x y`: `y` differs from `x` by a factor between `(1-u)^k` and `(1-u)^(-k)`.
-/

namespace NB

/-- `y` is `x` after `k` roundings. -/
def Rel (u : ℝ) (k : ℕ) (x y : ℝ) : Prop :=
  ∃ θ : ℝ, (1 - u) ^ k ≤ θ ∧ θ * (1 - u) ^ k ≤ 1 ∧ y = x * θ

namespace Rel

variable {u : ℝ} {k l : ℕ} {x y x' y' : ℝ}

lemma refl (u : ℝ) (x : ℝ) : Rel u 0 x x := ⟨1, by simp, by simp, by simp⟩

lemma pow_pos' (hu : u < 1) (k : ℕ) : 0 < (1 - u) ^ k := pow_pos (by linarith) k

lemma pow_le' (h0 : 0 ≤ u) (hu : u < 1) (k : ℕ) : (1 - u) ^ k ≤ 1 := pow_le_one₀ (by linarith) (by linarith)

lemma mono (h0 : 0 ≤ u) (hu : u < 1) (hkl : k ≤ l) (h : Rel u k x y) : Rel u l x y := by
  obtain ⟨θ, h1, h2, h3⟩ := h
  have hp : (1 - u) ^ l ≤ (1 - u) ^ k := pow_le_pow_of_le_one (by linarith) (by linarith) hkl
  have hθ : 0 < θ := (pow_pos' hu k).trans_le h1
  exact ⟨θ, hp.trans h1, (mul_le_mul_of_nonneg_left hp hθ.le).trans h2, h3⟩

lemma mul (hu : u < 1) (h : Rel u k x y) (h' : Rel u l x' y') : Rel u (k + l) (x * x') (y * y') := by
  obtain ⟨θ, h1, h2, h3⟩ := h
  obtain ⟨η, g1, g2, g3⟩ := h'
  have hk := pow_pos' hu k
  have hl := pow_pos' hu l
  have hθ : 0 < θ := hk.trans_le h1
  have hη : 0 < η := hl.trans_le g1
  refine ⟨θ * η, ?_, ?_, by rw [h3, g3]; ring⟩
  · rw [pow_add]; exact mul_le_mul h1 g1 hl.le hθ.le
  · rw [pow_add, show θ * η * ((1 - u) ^ k * (1 - u) ^ l) = (θ * (1 - u) ^ k) * (η * (1 - u) ^ l) by ring]
    exact mul_le_one₀ h2 (by positivity) g2

lemma inv (hu : u < 1) (h : Rel u k x y) : Rel u k x⁻¹ y⁻¹ := by
  obtain ⟨θ, h1, h2, h3⟩ := h
  have hk := pow_pos' hu k
  have hθ : 0 < θ := hk.trans_le h1
  refine ⟨θ⁻¹, ?_, ?_, by rw [h3, mul_inv]⟩
  · rw [le_inv_comm₀ hk hθ, ← one_div, le_div_iff₀ hk]; exact h2
  · rw [inv_mul_le_iff₀ hθ, mul_one]; exact h1

lemma div (hu : u < 1) (h : Rel u k x y) (h' : Rel u l x' y') : Rel u (k + l) (x / x') (y / y') := by
  rw [div_eq_mul_inv, div_eq_mul_inv]; exact h.mul hu (h'.inv hu)

lemma neg (h : Rel u k x y) : Rel u k (-x) (-y) := by
  obtain ⟨θ, h1, h2, h3⟩ := h
  exact ⟨θ, h1, h2, by rw [h3]; ring⟩

/-- One more rounding. -/
lemma round {z : ℝ} (hu : u < 1) (h0 : 0 ≤ u) (h : Rel u k x y) (hz : |z - y| ≤ u * |y|) : Rel u (k + 1) x z := by
  have : Rel u 1 y z := by
    by_cases hy : y = 0
    · subst hy
      have : z = 0 := by simpa using hz
      exact ⟨1, by simp; linarith, by simp; linarith, by simp [this]⟩
    have hy' : 0 < |y| := abs_pos.2 hy
    have hq : |z / y - 1| ≤ u := by
      rw [show z / y - 1 = (z - y) / y by field_simp, abs_div, div_le_iff₀ hy']; exact hz
    rw [abs_le] at hq
    refine ⟨z / y, by rw [pow_one]; linarith, ?_, by field_simp⟩
    rw [pow_one]
    have : z / y ≤ 1 + u := by linarith
    calc z / y * (1 - u) ≤ (1 + u) * (1 - u) := mul_le_mul_of_nonneg_right this (by linarith)
      _ ≤ 1 := by nlinarith
  have h2 := h
  obtain ⟨θ, h1, h2, h3⟩ := h
  obtain ⟨η, g1, g2, g3⟩ := this
  have hk := pow_pos' hu k
  have hl := pow_pos' hu 1
  have hθ : 0 < θ := hk.trans_le h1
  have hη : 0 < η := hl.trans_le g1
  refine ⟨θ * η, ?_, ?_, by rw [g3, h3]; ring⟩
  · rw [pow_add]; exact mul_le_mul h1 g1 hl.le hθ.le
  · rw [pow_add, show θ * η * ((1 - u) ^ k * (1 - u) ^ 1) = (θ * (1 - u) ^ k) * (η * (1 - u) ^ 1) by ring]
    exact mul_le_one₀ h2 (by positivity) g2

/-- For numbers that are not negative: two inequalities. -/
lemma iff_of_nonneg (h0 : 0 ≤ u) (hu : u < 1) (hx : 0 ≤ x) :
    Rel u k x y ↔ (1 - u) ^ k * x ≤ y ∧ y * (1 - u) ^ k ≤ x := by
  have hk := pow_pos' hu k
  constructor
  · rintro ⟨θ, h1, h2, rfl⟩
    refine ⟨by rw [mul_comm x]; exact mul_le_mul_of_nonneg_right h1 hx, ?_⟩
    calc x * θ * (1 - u) ^ k = x * (θ * (1 - u) ^ k) := by ring
      _ ≤ x * 1 := mul_le_mul_of_nonneg_left h2 hx
      _ = x := mul_one x
  · rintro ⟨h1, h2⟩
    rcases hx.eq_or_lt with rfl | hx
    · have hy : y = 0 := by
        apply le_antisymm
        · by_contra hc
          push Not at hc
          have := mul_pos hc hk
          linarith
        · simpa using h1
      exact ⟨1, pow_le' h0 hu k, by simpa using pow_le' h0 hu k, by simp [hy]⟩
    · refine ⟨y / x, ?_, ?_, by field_simp⟩
      · rw [le_div_iff₀ hx]; exact h1
      · rw [div_mul_eq_mul_div, div_le_one hx]; exact h2

lemma nonneg (hu : u < 1) (hx : 0 ≤ x) (h : Rel u k x y) : 0 ≤ y := by
  obtain ⟨θ, h1, _, rfl⟩ := h
  exact mul_nonneg hx ((pow_pos' hu k).le.trans h1)

lemma ne_zero (hu : u < 1) (hx : x ≠ 0) (h : Rel u k x y) : y ≠ 0 := by
  obtain ⟨θ, h1, _, rfl⟩ := h
  exact mul_ne_zero hx ((pow_pos' hu k).trans_le h1).ne'

lemma add (h0 : 0 ≤ u) (hu : u < 1) (hx : 0 ≤ x) (hx' : 0 ≤ x') (h : Rel u k x y) (h' : Rel u k x' y') :
    Rel u k (x + x') (y + y') := by
  rw [iff_of_nonneg h0 hu hx] at h
  rw [iff_of_nonneg h0 hu hx'] at h'
  rw [iff_of_nonneg h0 hu (add_nonneg hx hx')]
  constructor
  · rw [mul_add]; linarith [h.1, h'.1]
  · rw [add_mul]; linarith [h.2, h'.2]

lemma max (h0 : 0 ≤ u) (hu : u < 1) (hx : 0 ≤ x) (hx' : 0 ≤ x') (h : Rel u k x y) (h' : Rel u k x' y') :
    Rel u k (max x x') (max y y') := by
  rw [iff_of_nonneg h0 hu hx] at h
  rw [iff_of_nonneg h0 hu hx'] at h'
  rw [iff_of_nonneg h0 hu (hx.trans (le_max_left _ _))]
  constructor
  · rw [mul_max_of_nonneg _ _ (pow_pos' hu k).le]; exact max_le_max h.1 h'.1
  · rw [max_mul_of_nonneg _ _ (pow_pos' hu k).le]; exact max_le_max h.2 h'.2

lemma sqrt (h0 : 0 ≤ u) (hu : u < 1) (hx : 0 ≤ x) (h : Rel u (2 * k) x y) :
    Rel u k (Real.sqrt x) (Real.sqrt y) := by
  have hy := h.nonneg hu hx
  have hk := pow_pos' hu k
  rw [iff_of_nonneg h0 hu hx] at h
  rw [iff_of_nonneg h0 hu (Real.sqrt_nonneg x)]
  have hp : (1 - u) ^ (2 * k) = ((1 - u) ^ k) ^ 2 := by rw [mul_comm, pow_mul]
  rw [hp] at h
  constructor
  · rw [show (1 - u) ^ k * Real.sqrt x = Real.sqrt (((1 - u) ^ k) ^ 2 * x) by
      rw [Real.sqrt_mul (by positivity), Real.sqrt_sq hk.le]]
    exact Real.sqrt_le_sqrt h.1
  · rw [show Real.sqrt y * (1 - u) ^ k = Real.sqrt (y * ((1 - u) ^ k) ^ 2) by
      rw [Real.sqrt_mul hy, Real.sqrt_sq hk.le]]
    exact Real.sqrt_le_sqrt h.2

/-- The absolute error. -/
lemma abs_le (h0 : 0 ≤ u) (hu : u < 1) (h : Rel u k x y) : |y - x| ≤ (((1 - u) ^ k)⁻¹ - 1) * |x| := by
  obtain ⟨θ, h1, h2, rfl⟩ := h
  have hk := pow_pos' hu k
  have hk1 := pow_le' h0 hu k
  rw [show x * θ - x = (θ - 1) * x by ring, abs_mul]
  refine mul_le_mul_of_nonneg_right ?_ (abs_nonneg x)
  have h3 : θ ≤ ((1 - u) ^ k)⁻¹ := by rw [← one_div, le_div_iff₀ hk]; exact h2
  have h4 : 1 - (1 - u) ^ k ≤ ((1 - u) ^ k)⁻¹ - 1 := by
    set w := (1 - u) ^ k
    have : w⁻¹ - 1 - (1 - w) = (1 - w) ^ 2 * w⁻¹ := by field_simp
    have h5 : 0 ≤ (1 - w) ^ 2 * w⁻¹ := by positivity
    linarith
  rw [_root_.abs_le]
  constructor <;> linarith

end Rel

/-- The error of a sum of terms of total size `A` after at most `k` roundings in a row. -/
def Err (u : ℝ) (k : ℕ) (x y A : ℝ) : Prop := |x| ≤ A ∧ |y - x| ≤ (((1 - u) ^ k)⁻¹ - 1) * A

namespace Err

variable {u : ℝ} {k l : ℕ} {x y x' y' A A' : ℝ}

lemma zero (u : ℝ) : Err u 0 0 0 0 := by simp [Err]

lemma of_rel (h0 : 0 ≤ u) (hu : u < 1) (h : Rel u k x y) : Err u k x y |x| := ⟨le_rfl, h.abs_le h0 hu⟩

lemma nonneg (h : Err u k x y A) : 0 ≤ A := (abs_nonneg x).trans h.1

lemma mono (h0 : 0 ≤ u) (hu : u < 1) (hkl : k ≤ l) (h : Err u k x y A) : Err u l x y A := by
  refine ⟨h.1, h.2.trans (mul_le_mul_of_nonneg_right ?_ h.nonneg)⟩
  have hp : (1 - u) ^ l ≤ (1 - u) ^ k := pow_le_pow_of_le_one (by linarith) (by linarith) hkl
  have := inv_anti₀ (Rel.pow_pos' hu l) hp
  linarith

lemma neg (h : Err u k x y A) : Err u k (-x) (-y) A :=
  ⟨by rw [abs_neg]; exact h.1, by rw [show -y - -x = -(y - x) by ring, abs_neg]; exact h.2⟩

lemma add (h : Err u k x y A) (h' : Err u k x' y' A') : Err u k (x + x') (y + y') (A + A') := by
  refine ⟨(abs_add_le _ _).trans (add_le_add h.1 h'.1), ?_⟩
  rw [show y + y' - (x + x') = (y - x) + (y' - x') by ring, mul_add]
  exact (abs_add_le _ _).trans (add_le_add h.2 h'.2)

lemma sub (h : Err u k x y A) (h' : Err u k x' y' A') : Err u k (x - x') (y - y') (A + A') := by
  rw [sub_eq_add_neg, sub_eq_add_neg]; exact h.add h'.neg

lemma round {z : ℝ} (h0 : 0 ≤ u) (hu : u < 1) (h : Err u k x y A) (hz : |z - y| ≤ u * |y|) :
    Err u (k + 1) x z A := by
  refine ⟨h.1, ?_⟩
  have hA := h.nonneg
  have hk := Rel.pow_pos' hu k
  have hk1 : 1 ≤ ((1 - u) ^ k)⁻¹ := (one_le_inv₀ hk).2 (Rel.pow_le' h0 hu k)
  have hy : |y| ≤ ((1 - u) ^ k)⁻¹ * A := by
    have h1 : |y| ≤ |y - x| + |x| := by
      have := abs_add_le (y - x) x
      rwa [sub_add_cancel] at this
    calc |y| ≤ (((1 - u) ^ k)⁻¹ - 1) * A + A := h1.trans (add_le_add h.2 h.1)
      _ = _ := by ring
  have hu1 : 1 + u ≤ (1 - u)⁻¹ := by
    rw [← one_div, le_div_iff₀ (by linarith)]; nlinarith
  calc |z - x| ≤ |z - y| + |y - x| := by
        have := abs_add_le (z - y) (y - x)
        rwa [sub_add_sub_cancel] at this
    _ ≤ u * (((1 - u) ^ k)⁻¹ * A) + (((1 - u) ^ k)⁻¹ - 1) * A :=
        add_le_add (hz.trans (mul_le_mul_of_nonneg_left hy h0)) h.2
    _ = ((1 + u) * ((1 - u) ^ k)⁻¹ - 1) * A := by ring
    _ ≤ ((1 - u)⁻¹ * ((1 - u) ^ k)⁻¹ - 1) * A := by
        refine mul_le_mul_of_nonneg_right ?_ hA
        have := mul_le_mul_of_nonneg_right hu1 (show 0 ≤ ((1 - u) ^ k)⁻¹ by positivity)
        linarith
    _ = (((1 - u) ^ (k + 1))⁻¹ - 1) * A := by rw [pow_succ, mul_inv, mul_comm (1 - u)⁻¹]

/-- Division of a sum by an exact number. -/
lemma div_const (h : Err u k x y A) (c : ℝ) : Err u k (x / c) (y / c) (A / |c|) := by
  refine ⟨by rw [abs_div]; exact div_le_div_of_nonneg_right h.1 (abs_nonneg c), ?_⟩
  rw [show y / c - x / c = (y - x) / c by ring, abs_div, mul_div_assoc']
  exact div_le_div_of_nonneg_right h.2 (abs_nonneg c)

/-- The classical constant. -/
lemma gamma_le (h : Err u k x y A) (hk : k * u < 1) : |y - x| ≤ Spec.gamma u k * A := by
  refine h.2.trans (mul_le_mul_of_nonneg_right ?_ h.nonneg)
  unfold Spec.gamma
  have hd : 0 < 1 - k * u := by linarith
  by_cases h2 : u ≤ 2
  · have hb : 1 - k * u ≤ (1 - u) ^ k := by
      have := one_add_mul_le_pow (show (-2 : ℝ) ≤ -u by linarith) k
      calc 1 - k * u = 1 + k * -u := by ring
        _ ≤ (1 + -u) ^ k := this
        _ = (1 - u) ^ k := by rw [← sub_eq_add_neg]
    calc ((1 - u) ^ k)⁻¹ - 1 ≤ (1 - k * u)⁻¹ - 1 := by
          have := inv_anti₀ hd hb
          linarith
      _ = k * u / (1 - k * u) := by field_simp; ring
  · have hk0 : k = 0 := by
      by_contra hne
      have : (1 : ℝ) ≤ k := by exact_mod_cast Nat.one_le_iff_ne_zero.2 hne
      nlinarith
    subst hk0; simp

end Err

end NB
