import Verif.Props.C69_Interchangeable
import Mathlib.Topology.MetricSpace.Lipschitz
import Mathlib.Analysis.Normed.Group.Constructions
import Mathlib.Analysis.Normed.Group.Real
import Mathlib.Analysis.Normed.Ring.Lemmas

/-
Softened gravity is Lipschitz: the derivative of the state of `n` bodies, and a bound on the accelerations.
-/

namespace NB

open Finset

private lemma frac_lip_of_le {w w' R R' δ s : ℝ} (hδ : 0 < δ) (hR : δ ≤ R) (hRR : R ≤ R') (hw : |w| ≤ R)
    (h1 : |w - w'| ≤ s) (h2 : R' - R ≤ s) : |w / R ^ 3 - w' / R' ^ 3| ≤ 4 * s / δ ^ 3 := by
  have hR0 : 0 < R := hδ.trans_le hR
  have hR0' : 0 < R' := hR0.trans_le hRR
  have hs : 0 ≤ s := (abs_nonneg _).trans h1
  have e : w / R ^ 3 - w' / R' ^ 3 = (w - w') / R' ^ 3 + w * ((R' ^ 3 - R ^ 3) / (R ^ 3 * R' ^ 3)) := by
    field_simp; ring
  have a1 : |(w - w') / R' ^ 3| ≤ s / δ ^ 3 := by
    rw [abs_div, abs_of_pos (pow_pos hR0' 3)]
    gcongr
    exact hR.trans hRR
  have a2 : |w * ((R' ^ 3 - R ^ 3) / (R ^ 3 * R' ^ 3))| ≤ 3 * s / δ ^ 3 := by
    have hq : 0 ≤ R' ^ 3 - R ^ 3 := by
      have : R ^ 3 ≤ R' ^ 3 := by gcongr
      linarith
    rw [abs_mul, abs_of_nonneg (div_nonneg hq (by positivity))]
    have b1 : R' ^ 3 - R ^ 3 ≤ s * (3 * R' ^ 2) := by
      have : R' ^ 3 - R ^ 3 = (R' - R) * (R' ^ 2 + R' * R + R ^ 2) := by ring
      rw [this]
      have c1 : R' * R ≤ R' ^ 2 := by nlinarith
      have c2 : R ^ 2 ≤ R' ^ 2 := by gcongr
      exact mul_le_mul h2 (by linarith) (by positivity) hs
    calc |w| * ((R' ^ 3 - R ^ 3) / (R ^ 3 * R' ^ 3)) ≤ R * (s * (3 * R' ^ 2) / (R ^ 3 * R' ^ 3)) := by gcongr
      _ = 3 * s / (R ^ 2 * R') := by field_simp
      _ ≤ 3 * s / (δ ^ 2 * δ) := by gcongr; exact hR.trans hRR
      _ = 3 * s / δ ^ 3 := by ring
  rw [e]
  calc _ ≤ s / δ ^ 3 + 3 * s / δ ^ 3 := (abs_add_le _ _).trans (add_le_add a1 a2)
    _ = _ := by ring

lemma frac_lip {w w' R R' δ s : ℝ} (hδ : 0 < δ) (hR : δ ≤ R) (hR' : δ ≤ R') (hw : |w| ≤ R) (hw' : |w'| ≤ R')
    (h1 : |w - w'| ≤ s) (h2 : |R - R'| ≤ s) : |w / R ^ 3 - w' / R' ^ 3| ≤ 4 * s / δ ^ 3 := by
  rcases le_total R R' with h | h
  · exact frac_lip_of_le hδ hR h hw h1 (by rw [abs_sub_comm] at h2; exact (le_abs_self _).trans h2)
  · rw [abs_sub_comm]
    exact frac_lip_of_le hδ hR' h hw' (by rwa [abs_sub_comm]) ((le_abs_self _).trans h2)

lemma sqrt_sumsq_le {a b c a' b' c' s : ℝ} (h : |a - a'| + |b - b'| + |c - c'| ≤ s) :
    Real.sqrt (a ^ 2 + b ^ 2 + c ^ 2) ≤ Real.sqrt (a' ^ 2 + b' ^ 2 + c' ^ 2) + s := by
  set N := Real.sqrt (a' ^ 2 + b' ^ 2 + c' ^ 2) with hN
  have hN0 : 0 ≤ N := Real.sqrt_nonneg _
  have hN2 : N ^ 2 = a' ^ 2 + b' ^ 2 + c' ^ 2 := Real.sq_sqrt (by positivity)
  have hs : 0 ≤ s := by have := abs_nonneg (a - a'); have := abs_nonneg (b - b'); have := abs_nonneg (c - c'); linarith
  have le1 : ∀ z, z ^ 2 ≤ N ^ 2 → |z| ≤ N := fun z hz => abs_le_of_sq_le_sq hz hN0
  have ha := le1 a' (by nlinarith [sq_nonneg b', sq_nonneg c'])
  have hb := le1 b' (by nlinarith [sq_nonneg a', sq_nonneg c'])
  have hc := le1 c' (by nlinarith [sq_nonneg a', sq_nonneg b'])
  refine Real.sqrt_le_iff.2 ⟨by linarith, ?_⟩
  have x1 : a' * (a - a') ≤ N * |a - a'| := by
    calc _ ≤ |a' * (a - a')| := le_abs_self _
      _ = |a'| * |a - a'| := abs_mul _ _
      _ ≤ _ := mul_le_mul_of_nonneg_right ha (abs_nonneg _)
  have x2 : b' * (b - b') ≤ N * |b - b'| := by
    calc _ ≤ |b' * (b - b')| := le_abs_self _
      _ = |b'| * |b - b'| := abs_mul _ _
      _ ≤ _ := mul_le_mul_of_nonneg_right hb (abs_nonneg _)
  have x3 : c' * (c - c') ≤ N * |c - c'| := by
    calc _ ≤ |c' * (c - c')| := le_abs_self _
      _ = |c'| * |c - c'| := abs_mul _ _
      _ ≤ _ := mul_le_mul_of_nonneg_right hc (abs_nonneg _)
  have y1 : (a - a') ^ 2 + (b - b') ^ 2 + (c - c') ^ 2 ≤ s ^ 2 := by
    have e1 := sq_abs (a - a')
    have e2 := sq_abs (b - b')
    have e3 := sq_abs (c - c')
    have p1 := abs_nonneg (a - a'); have p2 := abs_nonneg (b - b'); have p3 := abs_nonneg (c - c')
    calc _ = |a - a'| ^ 2 + |b - b'| ^ 2 + |c - c'| ^ 2 := by rw [e1, e2, e3]
      _ ≤ (|a - a'| + |b - b'| + |c - c'|) ^ 2 := by nlinarith [mul_nonneg p1 p2, mul_nonneg p1 p3, mul_nonneg p2 p3]
      _ ≤ s ^ 2 := by gcongr
  have z : N * (|a - a'| + |b - b'| + |c - c'|) ≤ N * s := mul_le_mul_of_nonneg_left h hN0
  nlinarith

section
variable (eps : ℝ) (p q p' q' : Fin 3 → ℝ)

/-- The softened distance. -/
noncomputable def softDist (eps : ℝ) (p q : Fin 3 → ℝ) : ℝ := Real.sqrt (max (Spec.dist2 p q) eps)

lemma softDist_ge : Real.sqrt eps ≤ softDist eps p q := Real.sqrt_le_sqrt (le_max_right _ _)

lemma coord_le_softDist (k : Fin 3) : |p k - q k| ≤ softDist eps p q := by
  refine Real.abs_le_sqrt (le_trans ?_ (le_max_left _ _))
  unfold Spec.dist2
  fin_cases k
  · show (p 0 - q 0) ^ 2 ≤ _
    nlinarith [sq_nonneg (p 1 - q 1), sq_nonneg (p 2 - q 2)]
  · show (p 1 - q 1) ^ 2 ≤ _
    nlinarith [sq_nonneg (p 0 - q 0), sq_nonneg (p 2 - q 2)]
  · show (p 2 - q 2) ^ 2 ≤ _
    nlinarith [sq_nonneg (p 1 - q 1), sq_nonneg (p 0 - q 0)]

variable {p q p' q'} in
lemma softDist_le {d : ℝ} (hp : ∀ k, |p k - p' k| ≤ d) (hq : ∀ k, |q k - q' k| ≤ d) :
    softDist eps p q ≤ softDist eps p' q' + 6 * d := by
  have hd : 0 ≤ d := (abs_nonneg _).trans (hp 0)
  have hm : ∀ a b : ℝ, Real.sqrt (max a b) = max (Real.sqrt a) (Real.sqrt b) := fun a b =>
    Monotone.map_max fun x y h => Real.sqrt_le_sqrt h
  have hk : ∀ k, |p k - q k - (p' k - q' k)| ≤ 2 * d := by
    intro k
    have e : p k - q k - (p' k - q' k) = (p k - p' k) - (q k - q' k) := by ring
    rw [e]
    refine (abs_sub _ _).trans ?_
    linarith [hp k, hq k]
  unfold softDist
  rw [hm, hm]
  have := sqrt_sumsq_le (a := p 0 - q 0) (b := p 1 - q 1) (c := p 2 - q 2) (a' := p' 0 - q' 0) (b' := p' 1 - q' 1)
    (c' := p' 2 - q' 2) (s := 6 * d) (by linarith [hk 0, hk 1, hk 2])
  refine max_le (this.trans ?_) ((le_max_right _ _).trans (le_add_of_nonneg_right (by linarith)))
  unfold Spec.dist2
  linarith [le_max_left (Real.sqrt ((p' 0 - q' 0) ^ 2 + (p' 1 - q' 1) ^ 2 + (p' 2 - q' 2) ^ 2)) (Real.sqrt eps)]

variable {eps p q p' q'} in
lemma pull_lip (he : 0 < eps) {d : ℝ} (hp : ∀ k, |p k - p' k| ≤ d) (hq : ∀ k, |q k - q' k| ≤ d) (k : Fin 3) :
    |(p k - q k) / softDist eps p q ^ 3 - (p' k - q' k) / softDist eps p' q' ^ 3| ≤
      24 / Real.sqrt eps ^ 3 * d := by
  have hd : 0 ≤ d := (abs_nonneg _).trans (hp 0)
  have h := frac_lip (Real.sqrt_pos.2 he) (softDist_ge eps p q) (softDist_ge eps p' q') (coord_le_softDist eps p q k)
    (coord_le_softDist eps p' q' k) (s := 6 * d) ?_ ?_
  · calc _ ≤ _ := h
      _ = _ := by ring
  · have e : p k - q k - (p' k - q' k) = (p k - p' k) - (q k - q' k) := by ring
    rw [e]
    refine (abs_sub _ _).trans ?_
    linarith [hp k, hq k]
  · rw [abs_le]
    have h1 := softDist_le eps hp hq
    have h2 := softDist_le eps (p := p') (q := q') (p' := p) (q' := q) (fun k => by rw [abs_sub_comm]; exact hp k)
      (fun k => by rw [abs_sub_comm]; exact hq k)
    constructor <;> linarith

variable {eps} in
lemma pull_bound (he : 0 < eps) (k : Fin 3) : |(p k - q k) / softDist eps p q ^ 3| ≤ 1 / eps := by
  have h1 := coord_le_softDist eps p q k
  have h2 := softDist_ge eps p q
  have hs := Real.sqrt_pos.2 he
  have h3 : 0 < softDist eps p q := hs.trans_le h2
  rw [abs_div, abs_of_pos (pow_pos h3 3)]
  calc |p k - q k| / softDist eps p q ^ 3 ≤ softDist eps p q / softDist eps p q ^ 3 := by gcongr
    _ = 1 / softDist eps p q ^ 2 := by field_simp
    _ ≤ 1 / Real.sqrt eps ^ 2 := by gcongr
    _ = 1 / eps := by rw [Real.sq_sqrt he.le]

end

/-- The masses together. -/
noncomputable def totalAbs (n : ℕ) (M : ℕ → ℝ) : ℝ := ∑ j ∈ range n, |M j|

lemma totalAbs_nonneg (n : ℕ) (M : ℕ → ℝ) : 0 ≤ totalAbs n M := sum_nonneg fun _ _ => abs_nonneg _

lemma accel_eq (eps : ℝ) (n : ℕ) (r : ℕ → Fin 3 → ℝ) (m : ℕ → ℝ) (i : ℕ) (k : Fin 3) :
    Spec.accel eps n r m i k = ∑ j ∈ (range n).erase i, -(m j) * ((r i k - r j k) / softDist eps (r i) (r j) ^ 3) :=
  sum_congr rfl fun j _ => by rw [mul_div_assoc]; rfl

lemma accel_lip {eps : ℝ} (he : 0 < eps) {n : ℕ} {r r' : ℕ → Fin 3 → ℝ} (m : ℕ → ℝ) {d : ℝ}
    (hr : ∀ i, i < n → ∀ k, |r i k - r' i k| ≤ d) {i : ℕ} (hi : i < n) (k : Fin 3) :
    |Spec.accel eps n r m i k - Spec.accel eps n r' m i k| ≤ totalAbs n m * (24 / Real.sqrt eps ^ 3) * d := by
  have hd : 0 ≤ d := (abs_nonneg _).trans (hr i hi k)
  rw [accel_eq, accel_eq, ← sum_sub_distrib]
  refine (abs_sum_le_sum_abs _ _).trans ?_
  have : totalAbs n m * (24 / Real.sqrt eps ^ 3) * d = ∑ j ∈ range n, |m j| * (24 / Real.sqrt eps ^ 3 * d) := by
    rw [totalAbs, ← sum_mul]; ring
  rw [this]
  refine (sum_le_sum fun j hj => ?_).trans (sum_le_sum_of_subset_of_nonneg (erase_subset _ _) fun j _ _ => by positivity)
  have hj' : j < n := mem_range.1 (mem_of_mem_erase hj)
  rw [← mul_sub, abs_mul, abs_neg]
  exact mul_le_mul_of_nonneg_left (pull_lip he (hr i hi) (hr j hj') k) (abs_nonneg _)

lemma accel_bound {eps : ℝ} (he : 0 < eps) (n : ℕ) (r : ℕ → Fin 3 → ℝ) (m : ℕ → ℝ) (i : ℕ) (k : Fin 3) :
    |Spec.accel eps n r m i k| ≤ totalAbs n m / eps := by
  rw [accel_eq]
  refine (abs_sum_le_sum_abs _ _).trans ?_
  have : totalAbs n m / eps = ∑ j ∈ range n, |m j| * (1 / eps) := by rw [totalAbs, ← sum_mul]; ring
  rw [this]
  refine (sum_le_sum fun j _ => ?_).trans (sum_le_sum_of_subset_of_nonneg (erase_subset _ _) fun j _ _ => by positivity)
  rw [abs_mul, abs_neg]
  exact mul_le_mul_of_nonneg_left (pull_bound _ _ he k) (abs_nonneg _)

/-! ### The state as a point of a finite dimensional space -/

/-- The first `N` numbers. -/
def firstN (N : ℕ) : (ℕ → ℝ) →ₗ[ℝ] (Fin N → ℝ) where
  toFun y i := y i
  map_add' _ _ := rfl
  map_smul' _ _ := rfl

@[simp] lemma firstN_apply (N : ℕ) (y : ℕ → ℝ) (i : Fin N) : firstN N y i = y i := rfl

/-- A point followed by zeros. -/
def padded {N : ℕ} (z : Fin N → ℝ) (i : ℕ) : ℝ := if h : i < N then z ⟨i, h⟩ else 0

@[simp] lemma firstN_padded {N : ℕ} (z : Fin N → ℝ) : firstN N (padded z) = z := by
  funext i
  simp [padded]

lemma newtonDeriv_congr {n : ℕ} (M : ℕ → ℝ) {Y Y' : ℕ → ℝ} (h : ∀ i, i < 6 * n → Y i = Y' i) {j : ℕ}
    (hj : j < 6 * n) : C69.newtonDeriv n M Y j = C69.newtonDeriv n M Y' j := by
  have hp : ∀ i, i < n → C02.pos n Y i = C02.pos n Y' i := by
    intro i hi
    funext k
    unfold C02.pos
    fin_cases k <;> exact h _ (by omega)
  have ha : ∀ i k, i < n → Spec.accel 1e-8 n (C02.pos n Y) M i k = Spec.accel 1e-8 n (C02.pos n Y') M i k := by
    intro i k hi
    unfold Spec.accel
    refine sum_congr rfl fun j hj => ?_
    rw [hp i hi, hp j (mem_range.1 (mem_of_mem_erase hj))]
  unfold C69.newtonDeriv
  split_ifs
  · exact h _ (by omega)
  all_goals exact ha _ _ (by omega)

/-- The derivative of the state, on points. -/
noncomputable def gravity (n : ℕ) (M : ℕ → ℝ) (z : Fin (6 * n) → ℝ) : Fin (6 * n) → ℝ :=
  firstN (6 * n) (C69.newtonDeriv n M (padded z))

lemma gravity_firstN (n : ℕ) (M Y : ℕ → ℝ) :
    firstN (6 * n) (C69.newtonDeriv n M Y) = gravity n M (firstN (6 * n) Y) := by
  funext i
  exact newtonDeriv_congr M (fun j hj => by simp [padded, hj]) i.2

/-- The Lipschitz constant. -/
noncomputable def gravityLip (n : ℕ) (M : ℕ → ℝ) : ℝ := 1 + totalAbs n M * (24 / Real.sqrt 1e-8 ^ 3)

lemma gravityLip_nonneg (n : ℕ) (M : ℕ → ℝ) : 0 ≤ gravityLip n M := by
  have := totalAbs_nonneg n M
  unfold gravityLip
  positivity

lemma gravity_lip (n : ℕ) (M : ℕ → ℝ) (z z' : Fin (6 * n) → ℝ) :
    ‖gravity n M z - gravity n M z'‖ ≤ gravityLip n M * ‖z - z'‖ := by
  have hd := norm_nonneg (z - z')
  have hc : ∀ i, i < 6 * n → |padded z i - padded z' i| ≤ ‖z - z'‖ := by
    intro i hi
    have := norm_le_pi_norm (z - z') ⟨i, hi⟩
    simpa [padded, hi] using this
  have hr : ∀ i, i < n → ∀ k, |C02.pos n (padded z) i k - C02.pos n (padded z') i k| ≤ ‖z - z'‖ := by
    intro i hi k
    unfold C02.pos
    fin_cases k <;> exact hc _ (by omega)
  have hT := totalAbs_nonneg n M
  have hL : totalAbs n M * (24 / Real.sqrt 1e-8 ^ 3) * ‖z - z'‖ ≤ gravityLip n M * ‖z - z'‖ := by
    refine mul_le_mul_of_nonneg_right ?_ hd
    unfold gravityLip
    linarith
  have h1 : ‖z - z'‖ ≤ gravityLip n M * ‖z - z'‖ := by
    refine le_mul_of_one_le_left hd ?_
    unfold gravityLip
    have : 0 ≤ totalAbs n M * (24 / Real.sqrt 1e-8 ^ 3) := by positivity
    linarith
  refine (pi_norm_le_iff_of_nonneg (mul_nonneg (gravityLip_nonneg n M) hd)).2 fun j => ?_
  have hj := j.2
  rw [Real.norm_eq_abs]
  show |C69.newtonDeriv n M (padded z) j - C69.newtonDeriv n M (padded z') j| ≤ _
  unfold C69.newtonDeriv
  split_ifs
  · exact (hc _ (by omega)).trans h1
  all_goals exact (accel_lip (by norm_num) M hr (by omega) _).trans hL

end NB
