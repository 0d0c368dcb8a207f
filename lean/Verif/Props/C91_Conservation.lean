import Verif.Props.C58_Gradient
import Verif.Props.C83_Frames
import Verif.Props.C88_Statistics

/-
C91: how far the reported momentum, angular momentum and energy of a run can be from those at its start.  Exact arithmetic.
-/

namespace NB.C91

open Finset Set

/-! ### Specification -/

/-- Total momentum of bodies with velocities `v`. -/
noncomputable def momentum (n : ℕ) (w : ℕ → ℝ) (v : ℕ → Fin 3 → ℝ) (k : Fin 3) : ℝ := ∑ i ∈ range n, w i * v i k

/-- Total angular momentum. -/
noncomputable def angular (n : ℕ) (w : ℕ → ℝ) (q v : ℕ → Fin 3 → ℝ) (k : Fin 3) : ℝ :=
  ∑ i ∈ range n, w i * (q i (k + 1) * v i (k + 2) - q i (k + 2) * v i (k + 1))

/-- Total energy. -/
noncomputable def energy (n : ℕ) (w : ℕ → ℝ) (q v : ℕ → Fin 3 → ℝ) : ℝ :=
  ∑ i ∈ range n, w i * (v i 0 ^ 2 + v i 1 ^ 2 + v i 2 ^ 2) / 2 + Spec.potential 1e-8 n q w

/-- All pairs stay farther apart than the cutoff. -/
def Far (n : ℕ) (T : ℝ) (q : ℝ → ℕ → Fin 3 → ℝ) : Prop :=
  ∀ t ∈ Icc 0 T, ∀ i, i < n → ∀ j, j < i → 1e-8 < Spec.dist2 (q t i) (q t j)

/-! ### The exact motion -/

lemma steady {f : ℝ → ℝ} {T t : ℝ} (hc : ContinuousOn f (Icc 0 T)) (hd : ∀ s ∈ Ioo 0 T, HasDerivAt f 0 s) (ht : t ∈ Icc 0 T) : f t = f 0 := by
  rcases eq_or_lt_of_le ht.1 with rfl | h0
  · rfl
  · obtain ⟨c, hc1, hc2⟩ := exists_hasDerivAt_eq_slope f (fun _ => 0) h0 (hc.mono (Icc_subset_Icc_right ht.2))
      (fun s hs => hd s ⟨hs.1, hs.2.trans_le ht.2⟩)
    have : t - 0 ≠ 0 := by linarith
    field_simp at hc2
    linarith

section
variable {n : ℕ} {M : ℕ → ℝ} {T : ℝ} {q v : ℝ → ℕ → Fin 3 → ℝ}

/-- Vectors of the model. -/
def vec (u : Fin 3 → ℝ) : Vec3 ℝ := ⟨u 0, u 1, u 2⟩

lemma vec_coord (u : Fin 3 → ℝ) : (vec u).coord = u := by
  funext k; fin_cases k <;> rfl

lemma motion_inside (hq : Spec.Motion 1e-8 n M T q v) {t : ℝ} (ht : t ∈ Ioo 0 T) :
    C58.Motion n (fun s i => vec (q s i)) (fun s i => vec (v s i)) M t := by
  have hn : Icc 0 T ∈ nhds t := Icc_mem_nhds ht.1 ht.2
  refine ⟨fun i hi k => ?_, fun i hi k => ?_⟩
  · simp only [vec_coord]
    exact (hq.velocity t ⟨ht.1.le, ht.2.le⟩ i hi k).hasDerivAt hn
  · simp only [vec_coord]
    exact (hq.acceleration t ⟨ht.1.le, ht.2.le⟩ i hi k).hasDerivAt hn

lemma cont_q (hq : Spec.Motion 1e-8 n M T q v) {i : ℕ} (hi : i < n) (k : Fin 3) : ContinuousOn (fun s => q s i k) (Icc 0 T) :=
  fun t ht => (hq.velocity t ht i hi k).continuousWithinAt

lemma cont_v (hq : Spec.Motion 1e-8 n M T q v) {i : ℕ} (hi : i < n) (k : Fin 3) : ContinuousOn (fun s => v s i k) (Icc 0 T) :=
  fun t ht => (hq.acceleration t ht i hi k).continuousWithinAt

lemma cont_dist2 (hq : Spec.Motion 1e-8 n M T q v) {i j : ℕ} (hi : i < n) (hj : j < n) :
    ContinuousOn (fun s => Spec.dist2 (q s i) (q s j)) (Icc 0 T) := by
  unfold Spec.dist2
  have h := fun k => ((cont_q hq hi k).sub (cont_q hq hj k)).pow 2
  exact ((h 0).add (h 1)).add (h 2)

lemma momentum_steady (hq : Spec.Motion 1e-8 n M T q v) {t : ℝ} (ht : t ∈ Icc 0 T) (k : Fin 3) :
    momentum n M (v t) k = momentum n M (v 0) k := by
  refine steady (f := fun s => momentum n M (v s) k) ?_ (fun s hs => ?_) ht
  · exact continuousOn_finsetSum _ fun i hi => continuousOn_const.mul (cont_v hq (mem_range.1 hi) k)
  · have := C58.momentum_deriv (motion_inside hq hs) k
    simp only [vec_coord] at this
    exact this

lemma angular_steady (hq : Spec.Motion 1e-8 n M T q v) {t : ℝ} (ht : t ∈ Icc 0 T) (k : Fin 3) :
    angular n M (q t) (v t) k = angular n M (q 0) (v 0) k := by
  refine steady (f := fun s => angular n M (q s) (v s) k) ?_ (fun s hs => ?_) ht
  · refine continuousOn_finsetSum _ fun i hi => continuousOn_const.mul ?_
    have h1 := fun k => cont_q hq (mem_range.1 hi) k
    have h2 := fun k => cont_v hq (mem_range.1 hi) k
    exact ((h1 _).mul (h2 _)).sub ((h1 _).mul (h2 _))
  · have := C58.angular_deriv (motion_inside hq hs) (k + 1) (k + 2)
    simp only [vec_coord] at this
    exact this

lemma energy_steady (hq : Spec.Motion 1e-8 n M T q v) (hfar : Far n T q) {t : ℝ} (ht : t ∈ Icc 0 T) :
    energy n M (q t) (v t) = energy n M (q 0) (v 0) := by
  refine steady (f := fun s => energy n M (q s) (v s)) ?_ (fun s hs => ?_) ht
  · refine ContinuousOn.add ?_ ?_
    · refine continuousOn_finsetSum _ fun i hi => ?_
      have h2 := fun k => (cont_v hq (mem_range.1 hi) k).pow 2
      exact (continuousOn_const.mul (((h2 0).add (h2 1)).add (h2 2))).div_const 2
    · unfold Spec.potential
      refine continuousOn_finsetSum _ fun i hi => continuousOn_finsetSum _ fun j hj => ?_
      have hi := mem_range.1 hi
      have hj := mem_range.1 hj
      have hd := cont_dist2 hq hi (hj.trans hi)
      have h1 : ContinuousOn (fun s => -(M i * M j) / Real.sqrt (Spec.dist2 (q s i) (q s j))) (Icc 0 T) :=
        continuousOn_const.div hd.sqrt fun s hs => by
          have := hfar s hs i hi j hj
          exact (Real.sqrt_pos.2 (by linarith)).ne'
      refine h1.congr fun s hs => ?_
      have := hfar s hs i hi j hj
      unfold Spec.pairPotential
      rw [if_neg (by linarith)]
  · have := C58.energy_deriv (motion_inside hq hs) (fun i j hi hj => by
      rw [vec_coord, vec_coord]; exact hfar s ⟨hs.1.le, hs.2.le⟩ i hi j hj)
    simp only [vec_coord] at this
    exact this

/-- A bounded motion. -/
lemma bounded (hq : Spec.Motion 1e-8 n M T q v) : ∃ B : ℝ, 0 ≤ B ∧ ∀ t ∈ Icc 0 T, ∀ i, i < n → ∀ k, |q t i k| ≤ B ∧ |v t i k| ≤ B := by
  have h : ∀ i : ℕ, ∃ B : ℝ, 0 ≤ B ∧ (i < n → ∀ t ∈ Icc 0 T, ∀ k, |q t i k| ≤ B ∧ |v t i k| ≤ B) := by
    intro i
    by_cases hi : i < n
    · have hb : ∀ k, ∃ B : ℝ, ∀ t ∈ Icc 0 T, |q t i k| ≤ B ∧ |v t i k| ≤ B := by
        intro k
        obtain ⟨a, ha⟩ := isCompact_Icc.exists_bound_of_continuousOn (cont_q hq hi k)
        obtain ⟨b, hb⟩ := isCompact_Icc.exists_bound_of_continuousOn (cont_v hq hi k)
        exact ⟨max a b, fun t ht => ⟨(ha t ht).trans (le_max_left _ _), (hb t ht).trans (le_max_right _ _)⟩⟩
      choose b hb using hb
      refine ⟨|b 0| + |b 1| + |b 2|, by positivity, fun _ t ht k => ?_⟩
      have h0 := le_abs_self (b 0)
      have h1 := le_abs_self (b 1)
      have h2 := le_abs_self (b 2)
      have a0 := abs_nonneg (b 0)
      have a1 := abs_nonneg (b 1)
      have a2 := abs_nonneg (b 2)
      have := hb k t ht
      fin_cases k <;> exact ⟨this.1.trans (by simp only [Fin.zero_eta, Fin.mk_one, Fin.reduceFinMk]; linarith), this.2.trans (by simp only [Fin.zero_eta, Fin.mk_one, Fin.reduceFinMk]; linarith)⟩
    · exact ⟨0, le_rfl, fun h => absurd h hi⟩
  choose B hB hb using h
  refine ⟨∑ i ∈ range n, B i, sum_nonneg fun i _ => hB i, fun t ht i hi k => ?_⟩
  have h1 : B i ≤ ∑ i ∈ range n, B i := single_le_sum (f := B) (fun i _ => hB i) (mem_range.2 hi)
  exact ⟨(hb i hi t ht k).1.trans h1, (hb i hi t ht k).2.trans h1⟩

/-- Pairs stay apart by more than the cutoff, uniformly. -/
lemma apart_uniform (hq : Spec.Motion 1e-8 n M T q v) (hT : 0 ≤ T) (hfar : Far n T q) :
    ∃ g : ℝ, 0 < g ∧ ∀ t ∈ Icc 0 T, ∀ i, i < n → ∀ j, j < i → 1e-8 + g ≤ Spec.dist2 (q t i) (q t j) := by
  have h : ∀ i j : ℕ, ∃ g : ℝ, 0 < g ∧ (i < n → j < i → ∀ t ∈ Icc 0 T, 1e-8 + g ≤ Spec.dist2 (q t i) (q t j)) := by
    intro i j
    by_cases hi : i < n ∧ j < i
    · obtain ⟨t₀, ht₀, hm⟩ := isCompact_Icc.exists_isMinOn (nonempty_Icc.2 hT) (cont_dist2 hq hi.1 (hi.2.trans hi.1))
      have := hfar t₀ ht₀ i hi.1 j hi.2
      exact ⟨_, sub_pos.2 this, fun _ _ t ht => by have := hm ht; simp only [mem_ofPred_eq] at this; linarith⟩
    · exact ⟨1, one_pos, fun h1 h2 => absurd ⟨h1, h2⟩ hi⟩
  choose g hg h using h
  have hfin : ∀ s : Finset (ℕ × ℕ), ∃ m : ℝ, 0 < m ∧ ∀ x ∈ s, m ≤ g x.1 x.2 := by
    intro s
    induction s using Finset.induction_on with
    | empty => exact ⟨1, one_pos, by simp⟩
    | insert x s _ ih =>
      obtain ⟨m, hm, h⟩ := ih
      refine ⟨min m (g x.1 x.2), lt_min hm (hg _ _), fun y hy => ?_⟩
      rcases mem_insert.1 hy with rfl | hy
      · exact min_le_right _ _
      · exact (min_le_left _ _).trans (h y hy)
  obtain ⟨m, hm, hle⟩ := hfin (range n ×ˢ range n)
  refine ⟨m, hm, fun t ht i hi j hj => ?_⟩
  have := hle (i, j) (by simp only [mem_product, Finset.mem_range]; omega)
  have := h i j hi hj t ht
  simp only at *
  linarith

end

/-! ### Quantities of nearby states -/

section
variable {n : ℕ} {w : ℕ → ℝ} {q v q' v' : ℕ → Fin 3 → ℝ} {B e : ℝ}

/-- Two states differ by at most `e` in every coordinate. -/
def Close (n : ℕ) (q v q' v' : ℕ → Fin 3 → ℝ) (e : ℝ) : Prop := ∀ i, i < n → ∀ k, |q' i k - q i k| ≤ e ∧ |v' i k - v i k| ≤ e

lemma mul_close {a b a' b' : ℝ} (ha : |a| ≤ B) (hb : |b| ≤ B) (h1 : |a' - a| ≤ e) (h2 : |b' - b| ≤ e) (he : e ≤ 1) :
    |a' * b' - a * b| ≤ (2 * B + 1) * e := by
  have e0 : 0 ≤ e := (abs_nonneg _).trans h1
  have h : a' * b' - a * b = (a' - a) * (b' - b) + a * (b' - b) + b * (a' - a) := by ring
  rw [h]
  refine (abs_add_three _ _ _).trans ?_
  rw [abs_mul, abs_mul, abs_mul]
  have k1 : |a' - a| * |b' - b| ≤ e * 1 := mul_le_mul h1 (h2.trans he) (abs_nonneg _) e0
  have k2 : |a| * |b' - b| ≤ B * e := mul_le_mul ha h2 (abs_nonneg _) ((abs_nonneg _).trans ha)
  have k3 : |b| * |a' - a| ≤ B * e := mul_le_mul hb h1 (abs_nonneg _) ((abs_nonneg _).trans hb)
  linarith

lemma sum_close {f g c : ℕ → ℝ} (h : ∀ i, i < n → |f i - g i| ≤ c i * e) : |∑ i ∈ range n, f i - ∑ i ∈ range n, g i| ≤ (∑ i ∈ range n, c i) * e := by
  rw [← sum_sub_distrib, sum_mul]
  exact (abs_sum_le_sum_abs _ _).trans (sum_le_sum fun i hi => h i (mem_range.1 hi))

lemma momentum_close (h : Close n q v q' v' e) (k : Fin 3) : |momentum n w v' k - momentum n w v k| ≤ (∑ i ∈ range n, |w i|) * e :=
  sum_close fun i hi => by
    rw [← mul_sub, abs_mul]
    exact mul_le_mul_of_nonneg_left (h i hi k).2 (abs_nonneg _)

lemma angular_close (hB : ∀ i, i < n → ∀ k, |q i k| ≤ B ∧ |v i k| ≤ B) (h : Close n q v q' v' e) (he : e ≤ 1) (k : Fin 3) :
    |angular n w q' v' k - angular n w q v k| ≤ (∑ i ∈ range n, |w i| * (2 * (2 * B + 1))) * e :=
  sum_close fun i hi => by
    rw [← mul_sub, abs_mul, mul_assoc]
    refine mul_le_mul_of_nonneg_left ?_ (abs_nonneg _)
    have h1 := mul_close (hB i hi (k + 1)).1 (hB i hi (k + 2)).2 (h i hi (k + 1)).1 (h i hi (k + 2)).2 he
    have h2 := mul_close (hB i hi (k + 2)).1 (hB i hi (k + 1)).2 (h i hi (k + 2)).1 (h i hi (k + 1)).2 he
    have : q' i (k + 1) * v' i (k + 2) - q' i (k + 2) * v' i (k + 1) - (q i (k + 1) * v i (k + 2) - q i (k + 2) * v i (k + 1)) =
        (q' i (k + 1) * v' i (k + 2) - q i (k + 1) * v i (k + 2)) - (q' i (k + 2) * v' i (k + 1) - q i (k + 2) * v i (k + 1)) := by ring
    rw [this]
    refine (abs_sub _ _).trans ?_
    linarith

lemma dist2_close (hB : ∀ i, i < n → ∀ k, |q i k| ≤ B) (h : Close n q v q' v' e) (he : e ≤ 1 / 2) {i j : ℕ} (hi : i < n) (hj : j < n) :
    |Spec.dist2 (q' i) (q' j) - Spec.dist2 (q i) (q j)| ≤ 6 * (4 * B + 1) * e := by
  have hd : ∀ k, |(q' i k - q' j k) * (q' i k - q' j k) - (q i k - q j k) * (q i k - q j k)| ≤ (2 * (2 * B) + 1) * (2 * e) := by
    intro k
    have h1 : |q i k - q j k| ≤ 2 * B := (abs_sub _ _).trans (by have := hB i hi k; have := hB j hj k; linarith)
    have h2 : |q' i k - q' j k - (q i k - q j k)| ≤ 2 * e := by
      have : q' i k - q' j k - (q i k - q j k) = (q' i k - q i k) - (q' j k - q j k) := by ring
      rw [this]
      exact (abs_sub _ _).trans (by have := (h i hi k).1; have := (h j hj k).1; linarith)
    exact mul_close h1 h1 h2 h2 (by linarith)
  unfold Spec.dist2
  have : (q' i 0 - q' j 0) ^ 2 + (q' i 1 - q' j 1) ^ 2 + (q' i 2 - q' j 2) ^ 2 - ((q i 0 - q j 0) ^ 2 + (q i 1 - q j 1) ^ 2 + (q i 2 - q j 2) ^ 2) =
      ((q' i 0 - q' j 0) * (q' i 0 - q' j 0) - (q i 0 - q j 0) * (q i 0 - q j 0)) +
      ((q' i 1 - q' j 1) * (q' i 1 - q' j 1) - (q i 1 - q j 1) * (q i 1 - q j 1)) +
      ((q' i 2 - q' j 2) * (q' i 2 - q' j 2) - (q i 2 - q j 2) * (q i 2 - q j 2)) := by ring
  rw [this]
  refine (abs_add_three _ _ _).trans ?_
  linarith [hd 0, hd 1, hd 2]

lemma inv_sqrt_close {a b : ℝ} (ha : 1e-8 ≤ a) (hb : 1e-8 ≤ b) : |1 / Real.sqrt a - 1 / Real.sqrt b| ≤ 1e12 * |a - b| := by
  have h4 : Real.sqrt 1e-8 = 1e-4 := by rw [show (1e-8 : ℝ) = 1e-4 ^ 2 by norm_num]; exact Real.sqrt_sq (by norm_num)
  have sa : 1e-4 ≤ Real.sqrt a := by rw [← h4]; exact Real.sqrt_le_sqrt ha
  have sb : 1e-4 ≤ Real.sqrt b := by rw [← h4]; exact Real.sqrt_le_sqrt hb
  have a0 : 0 ≤ a := by linarith
  have b0 : 0 ≤ b := by linarith
  set x := Real.sqrt a with hx
  set y := Real.sqrt b with hy
  have hxx : a = x ^ 2 := (Real.sq_sqrt a0).symm
  have hyy : b = y ^ 2 := (Real.sq_sqrt b0).symm
  have x0 : 0 < x := by linarith
  have y0 : 0 < y := by linarith
  have h1 : 1 / x - 1 / y = (y - x) / (x * y) := by field_simp
  have h2 : |a - b| = |y - x| * (x + y) := by
    rw [hxx, hyy, show x ^ 2 - y ^ 2 = -((y - x) * (x + y)) by ring, abs_neg, abs_mul, abs_of_pos (by linarith : 0 < x + y)]
  rw [h1, h2, abs_div, abs_of_pos (mul_pos x0 y0), div_le_iff₀ (mul_pos x0 y0)]
  have h3 : (1 : ℝ) ≤ 1e12 * (x + y) * (x * y) := by
    have hxy : (1e-8 : ℝ) ≤ x * y := by nlinarith
    nlinarith
  nlinarith [abs_nonneg (y - x)]

/-- The constant for the energy. -/
noncomputable def energyConst (n : ℕ) (w : ℕ → ℝ) (B : ℝ) : ℝ :=
  ∑ i ∈ range n, |w i| * (3 * (2 * B + 1)) / 2 + ∑ i ∈ range n, ∑ j ∈ range i, |w i * w j| * (1e12 * (6 * (4 * B + 1)))

lemma energy_close (hB : ∀ i, i < n → ∀ k, |q i k| ≤ B ∧ |v i k| ≤ B) (h : Close n q v q' v' e) (he : e ≤ 1 / 2) {g : ℝ}
    (hg : ∀ i, i < n → ∀ j, j < i → 1e-8 + g ≤ Spec.dist2 (q i) (q j)) (hge : 6 * (4 * B + 1) * e ≤ g) (g0 : 0 ≤ g) :
    |energy n w q' v' - energy n w q v| ≤ energyConst n w B * e := by
  have hk : |∑ i ∈ range n, w i * (v' i 0 ^ 2 + v' i 1 ^ 2 + v' i 2 ^ 2) / 2 - ∑ i ∈ range n, w i * (v i 0 ^ 2 + v i 1 ^ 2 + v i 2 ^ 2) / 2| ≤
      (∑ i ∈ range n, |w i| * (3 * (2 * B + 1)) / 2) * e := by
    refine sum_close fun i hi => ?_
    have h1 := fun k => mul_close (hB i hi k).2 (hB i hi k).2 (h i hi k).2 (h i hi k).2 (by linarith)
    have : w i * (v' i 0 ^ 2 + v' i 1 ^ 2 + v' i 2 ^ 2) / 2 - w i * (v i 0 ^ 2 + v i 1 ^ 2 + v i 2 ^ 2) / 2 =
        w i * ((v' i 0 * v' i 0 - v i 0 * v i 0) + (v' i 1 * v' i 1 - v i 1 * v i 1) + (v' i 2 * v' i 2 - v i 2 * v i 2)) / 2 := by ring
    rw [this, abs_div, abs_mul, abs_two]
    have h2 := abs_add_three (v' i 0 * v' i 0 - v i 0 * v i 0) (v' i 1 * v' i 1 - v i 1 * v i 1) (v' i 2 * v' i 2 - v i 2 * v i 2)
    have h3 : |w i| * |(v' i 0 * v' i 0 - v i 0 * v i 0) + (v' i 1 * v' i 1 - v i 1 * v i 1) + (v' i 2 * v' i 2 - v i 2 * v i 2)| ≤
        |w i| * (3 * ((2 * B + 1) * e)) :=
      mul_le_mul_of_nonneg_left (h2.trans (by linarith [h1 0, h1 1, h1 2])) (abs_nonneg _)
    have h4 : |w i| * (3 * (2 * B + 1)) / 2 * e = |w i| * (3 * ((2 * B + 1) * e)) / 2 := by ring
    rw [h4]
    exact div_le_div_of_nonneg_right h3 (by norm_num)
  have hp : |Spec.potential 1e-8 n q' w - Spec.potential 1e-8 n q w| ≤
      (∑ i ∈ range n, ∑ j ∈ range i, |w i * w j| * (1e12 * (6 * (4 * B + 1)))) * e := by
    refine sum_close fun i hi => sum_close (n := i) fun j hj => ?_
    have hd := dist2_close (fun i hi k => (hB i hi k).1) h he hi (hj.trans hi)
    have h1 := hg i hi j hj
    have h2 : 1e-8 ≤ Spec.dist2 (q' i) (q' j) := by have := (abs_le.1 hd).1; linarith
    unfold Spec.pairPotential
    rw [if_neg (by linarith), if_neg (by linarith)]
    have h3 := inv_sqrt_close h2 (by linarith : 1e-8 ≤ Spec.dist2 (q i) (q j))
    have : -(w i * w j) / Real.sqrt (Spec.dist2 (q' i) (q' j)) - -(w i * w j) / Real.sqrt (Spec.dist2 (q i) (q j)) =
        -(w i * w j) * (1 / Real.sqrt (Spec.dist2 (q' i) (q' j)) - 1 / Real.sqrt (Spec.dist2 (q i) (q j))) := by ring
    rw [this, abs_mul, abs_neg, mul_assoc]
    refine mul_le_mul_of_nonneg_left (h3.trans ?_) (abs_nonneg _)
    linarith
  unfold energy energyConst
  have : ∀ a b c d : ℝ, a + b - (c + d) = (a - c) + (b - d) := fun a b c d => by ring
  rw [this]
  refine (abs_add_le _ _).trans ?_
  rw [add_mul]
  exact add_le_add hk hp

end

/-! ### Runs -/

section
open _root_.Spec (BodiesNear)
open C74 (Apart)
open C83 (recording Desc Applies Gravitates)

variable {C D ε : Type}

/-- The coordinates of a list of vectors. -/
def coords (l : List (Vec3 ℝ)) (i : ℕ) (k : Fin 3) : ℝ := (l.getD i ⟨0, 0, 0⟩).coord k

lemma near_close {n : ℕ} {vrt vel : List (Vec3 ℝ)} {q v : ℕ → Fin 3 → ℝ} {e : ℝ} (h : BodiesNear n vrt vel q v e) :
    Close n q v (coords vrt) (coords vel) e := by
  intro i hi k
  obtain ⟨a, b, h1, h2, ⟨x, y, z⟩, x', y', z'⟩ := h.2.2 i hi
  unfold coords
  rw [List.getD_eq_getElem?_getD, h1, List.getD_eq_getElem?_getD, h2]
  fin_cases k
  · exact ⟨x, x'⟩
  · exact ⟨y, y'⟩
  · exact ⟨z, z'⟩

/-- **What is conserved, is conserved up to the error of the solver.**  For a motion whose pairs stay above the cutoff there are `K`, `δ₀` and `ξ` such that a
run of a solver of order `r` with steps `dt ≤ δ₀` that starts within `ρ` of the motion, on an engine that is off by `θ`, with
`y = ρ + dt ^ r + η + θ ≤ ξ`, gets to its end, and in every frame of its stream, at every check and at the end the momentum, the angular momentum and the energy
of the bodies are within `K y` of those at the start of the motion. -/
theorem conserved_near {X : SimEnv ℝ D ε} {n : ℕ} {M : ℕ → ℝ} (hn : 0 < n) (hX : Function.Injective (X.layout 0))
    (hA : Apart (X.layout 0) (X.layout 1)) {s : SolverDesc D} {p r : ℕ} {η : ℝ} (hs : Desc X n s p η) {T : ℝ} (hT : 0 ≤ T)
    {q v : ℝ → ℕ → Fin 3 → ℝ} (hq : _root_.Spec.Motion 1e-8 n M T q v) (hfar : Far n T q) (hr : Applies n T q p η r) :
    ∃ K δ₀ ξ : ℝ, 0 ≤ K ∧ 0 < δ₀ ∧ 0 < ξ ∧ ∀ (e : EngineDesc D) (d : DataObj ℝ C) (θ ρ : ℝ), Gravitates X e d.mass θ → d.count = n →
      d.mass.length = n → (∀ i, i < n → d.mass.getD i 0 = M i) → BodiesNear n d.vrt d.vel (q 0) (v 0) ρ →
      ∀ c : RunConf ℝ, 0 < c.dt → c.dt ≤ δ₀ → ρ + c.dt ^ r + η + θ ≤ ξ → c.maxTime + c.dt ≤ d.time + T →
      (c.clampToBox = true → ∀ t ∈ Set.Icc 0 T, ∀ i, i < n → ∀ k, |q t i k| + K * (ρ + c.dt ^ r + η + θ) ≤ d.box) →
      ∀ fuel, RunSpec.steps d.time c.maxTime c.dt ≤ fuel →
      ∃ x, solverRun (recording X) c fuel (X.start e s d) [] = .ok (0, x) ∧
        ∀ f ∈ x.stream ++ x.checks ++ [X.getData x.s], f.vrt.length = n ∧ f.vel.length = n ∧ f.mass = d.mass ∧
          (∀ k, |momentum n M (coords f.vel) k - momentum n M (v 0) k| ≤ K * (ρ + c.dt ^ r + η + θ)) ∧
          (∀ k, |angular n M (coords f.vrt) (coords f.vel) k - angular n M (q 0) (v 0) k| ≤ K * (ρ + c.dt ^ r + η + θ)) ∧
          |energy n M (coords f.vrt) (coords f.vel) - energy n M (q 0) (v 0)| ≤ K * (ρ + c.dt ^ r + η + θ) := by
  obtain ⟨K, δ₀, hK, hδ₀, key⟩ := C83.frames_near (C := C) hn hX hA hs hT hq hr
  obtain ⟨B, hB, hb⟩ := bounded hq
  obtain ⟨g, hg, hgd⟩ := apart_uniform hq hT hfar
  have c1 : 0 ≤ ∑ i ∈ range n, |M i| := sum_nonneg fun _ _ => abs_nonneg _
  have c2 : 0 ≤ ∑ i ∈ range n, |M i| * (2 * (2 * B + 1)) := sum_nonneg fun _ _ => by positivity
  have c3 : 0 ≤ energyConst n M B := add_nonneg (sum_nonneg fun _ _ => by positivity) (sum_nonneg fun _ _ => sum_nonneg fun _ _ => by positivity)
  set k1 := ∑ i ∈ range n, |M i| with hk1
  set k2 := ∑ i ∈ range n, |M i| * (2 * (2 * B + 1)) with hk2
  set k3 := energyConst n M B with hk3
  have hB6 : 0 < 6 * (4 * B + 1) := by positivity
  refine ⟨(1 + k1 + k2 + k3) * K, δ₀, min (1 / 2) (g / (6 * (4 * B + 1))) / (K + 1), by positivity, hδ₀, by positivity,
    fun e d θ ρ hE hc hm hM hbd c hdt hdt' hξ hmax hbox fuel hfuel => ?_⟩
  obtain ⟨y, hy⟩ : ∃ y, y = ρ + c.dt ^ r + η + θ := ⟨_, rfl⟩
  rw [← hy] at hξ hbox ⊢
  have hξ' : K * y ≤ min (1 / 2) (g / (6 * (4 * B + 1))) := by
    have hm0 : 0 ≤ min (1 / 2) (g / (6 * (4 * B + 1))) := by positivity
    calc K * y ≤ K * (min (1 / 2) (g / (6 * (4 * B + 1))) / (K + 1)) := mul_le_mul_of_nonneg_left hξ hK
      _ = K / (K + 1) * min (1 / 2) (g / (6 * (4 * B + 1))) := by ring
      _ ≤ 1 * min (1 / 2) (g / (6 * (4 * B + 1))) := mul_le_mul_of_nonneg_right ((div_le_one (by linarith)).2 (by linarith)) hm0
      _ = _ := one_mul _
  have he1 : K * y ≤ 1 / 2 := hξ'.trans (min_le_left _ _)
  have he2 : 6 * (4 * B + 1) * (K * y) ≤ g := by
    have := hξ'.trans (min_le_right _ _)
    rw [le_div_iff₀ hB6] at this
    linarith
  have hKy : 0 ≤ K * y ∨ K * y < 0 := le_or_gt _ _
  rcases hKy with hKy | hKy
  swap
  · -- no state is at a negative distance
    exfalso
    have hρ : 0 ≤ ρ := by
      obtain ⟨a, b, -, -, h1, -⟩ := hbd.2.2 0 hn
      exact (abs_nonneg _).trans h1.1
    obtain ⟨x, -, -, -, hx⟩ := key e d θ ρ hE hc hm hM hbd { c with clampToBox := false } hdt hdt' hmax (fun h => by cases h) fuel hfuel
    obtain ⟨-, -, -, -, -, hx⟩ := hx _ (List.mem_append_right _ (List.mem_singleton.2 rfl))
    obtain ⟨a, b, -, -, h1, -⟩ := hx.2.2 0 hn
    have : 0 ≤ K * (ρ + c.dt ^ r + η + θ) := (abs_nonneg _).trans h1.1
    rw [← hy] at this
    linarith
  have hmono : K * y ≤ (1 + k1 + k2 + k3) * K * y := by nlinarith [mul_nonneg (add_nonneg (add_nonneg c1 c2) c3) hKy]
  obtain ⟨x, hx1, -, -, hx⟩ := key e d θ ρ hE hc hm hM hbd c hdt hdt' hmax (fun h t ht i hi k => by
    rw [← hy]; exact (add_le_add_right hmono _).trans (hbox h t ht i hi k)) fuel hfuel
  refine ⟨x, hx1, fun f hf => ?_⟩
  obtain ⟨-, f2, -, f4, f5, f6⟩ := hx f hf
  rw [← hy] at f6
  have ht : f.time - d.time ∈ Icc 0 T := ⟨f4, f5⟩
  have hcl := near_close f6
  have hbt := hb _ ht
  refine ⟨f6.1, f6.2.1, f2, fun k => ?_, fun k => ?_, ?_⟩
  · have := momentum_close (w := M) hcl k
    rw [momentum_steady hq ht k] at this
    refine this.trans ?_
    rw [← hk1]
    nlinarith [mul_nonneg c1 hKy, mul_nonneg c2 hKy, mul_nonneg c3 hKy]
  · have := angular_close (w := M) hbt hcl (by linarith) k
    rw [angular_steady hq ht k] at this
    refine this.trans ?_
    rw [← hk2]
    nlinarith [mul_nonneg c1 hKy, mul_nonneg c2 hKy, mul_nonneg c3 hKy]
  · have := energy_close (w := M) hbt hcl he1 (hgd _ ht) he2 hg.le
    rw [energy_steady hq hfar ht] at this
    refine this.trans ?_
    rw [← hk3]
    nlinarith [mul_nonneg c1 hKy, mul_nonneg c2 hKy, mul_nonneg c3 hKy]

/-! ### The printed lines -/

/-- What a report sees of a frame; `k` is the count of computations. -/
def view (f : Snap ℝ C) (k : ℕ) : C88.Snap := ⟨fun i => f.vrt.getD i ⟨0, 0, 0⟩, fun i => f.vel.getD i ⟨0, 0, 0⟩, f.time, f.step, k⟩

/-- What `print_statistics` is called with at the checks. -/
def checkEntry (a : Snap ℝ C × ℕ) : ℕ × BodyData ℝ × ℝ × ℕ := (a.2, ⟨a.1.vrt, a.1.vel, a.1.mass⟩, a.1.time, a.1.step)

lemma buf_getD {α : Type} {l : List α} {n : ℕ} (z : α) {g : ℕ → α} (h : l.length = n) (hg : ∀ i, i < n → l.getD i z = g i) : buf n g = l := by
  apply List.ext_getElem
  · simp [buf, h]
  · intro i h1 h2
    have := hg i (by omega)
    rw [List.getD_eq_getElem _ _ h2] at this
    simp [buf, this]

lemma entry_view {n : ℕ} {M : ℕ → ℝ} {f : Snap ℝ C} (k : ℕ) (h1 : f.vrt.length = n) (h2 : f.vel.length = n) (h3 : f.mass.length = n)
    (h4 : ∀ i, i < n → f.mass.getD i 0 = M i) : C88.entry n M (view f k) = checkEntry (f, k) := by
  unfold C88.entry checkEntry view C11.bodies
  rw [buf_getD ⟨0, 0, 0⟩ h1 (fun _ _ => rfl), buf_getD ⟨0, 0, 0⟩ h2 (fun _ _ => rfl), buf_getD 0 h3 h4]

lemma len_le {u : Fin 3 → ℝ} {a : ℝ} (h : ∀ k, |u k| ≤ a) : C88.len u ≤ 3 * a := by
  have ha : 0 ≤ a := (abs_nonneg _).trans (h 0)
  unfold C88.len
  rw [show 3 * a = Real.sqrt ((3 * a) ^ 2) from (Real.sqrt_sq (by positivity)).symm]
  refine Real.sqrt_le_sqrt ?_
  have := fun k => sq_le_sq' (by have := (abs_le.1 (h k)).1; linarith : -a ≤ u k) (abs_le.1 (h k)).2
  nlinarith [this 0, this 1, this 2, sq_nonneg a]

lemma comp_le_len (u : Fin 3 → ℝ) (k : Fin 3) : |u k| ≤ C88.len u := by
  unfold C88.len
  refine Real.abs_le_sqrt ?_
  fin_cases k <;> simp <;> nlinarith [sq_nonneg (u 0), sq_nonneg (u 1), sq_nonneg (u 2)]

lemma away (u : Fin 3 → ℝ) : ∃ c : ℝ, 0 < c ∧ (u ≠ 0 → ∀ u' : Fin 3 → ℝ, (∀ k, |u' k - u k| ≤ c) → c ≤ C88.len u') := by
  by_cases hu : u = 0
  · exact ⟨1, one_pos, fun h => absurd hu h⟩
  · obtain ⟨k, hk⟩ := Function.ne_iff.1 hu
    have hk : 0 < |u k| := abs_pos.2 hk
    refine ⟨|u k| / 2, by positivity, fun _ u' h => le_trans ?_ (comp_le_len u' k)⟩
    have h1 := h k
    have h2 := abs_sub_abs_le_abs_sub (u k) (u' k)
    rw [abs_sub_comm] at h2
    linarith

lemma away_real (a : ℝ) : ∃ c : ℝ, 0 < c ∧ (a ≠ 0 → ∀ a' : ℝ, |a' - a| ≤ c → c ≤ |a'|) := by
  by_cases ha : a = 0
  · exact ⟨1, one_pos, fun h => absurd ha h⟩
  · have hk : 0 < |a| := abs_pos.2 ha
    refine ⟨|a| / 2, by positivity, fun _ a' h => ?_⟩
    have h2 := abs_sub_abs_le_abs_sub a a'
    rw [abs_sub_comm] at h2
    linarith

lemma percent_le {a b A c : ℝ} {r : Quo} (h : C88.Percent a b r) (ha0 : 0 ≤ a) (ha : a ≤ A) (hc : 0 < c) (hb : c ≤ b) :
    ∃ z, r = .num z ∧ 0 ≤ z ∧ z ≤ 100 * A / c := by
  have hb0 : 0 < b := hc.trans_le hb
  cases r with
  | nan => exact absurd h.1 hb0.ne'
  | inf => exact absurd h.1 hb0.ne'
  | num z =>
    have hz : z = 100 * a / b := by rw [eq_div_iff hb0.ne']; exact h.2
    refine ⟨z, rfl, by rw [hz]; positivity, ?_⟩
    rw [hz]
    exact div_le_div₀ (by linarith) (by linarith) hc hb

lemma momentum_view {n : ℕ} {M : ℕ → ℝ} (f : Snap ℝ C) (k : ℕ) : C88.P n M (view f k) = momentum n M (coords f.vel) := rfl
lemma angular_view {n : ℕ} {M : ℕ → ℝ} (f : Snap ℝ C) (k : ℕ) : C88.L n M (view f k) = angular n M (coords f.vrt) (coords f.vel) := rfl
lemma energy_view {n : ℕ} {M : ℕ → ℝ} (f : Snap ℝ C) (k : ℕ) : C88.energy n M (view f k) = energy n M (coords f.vrt) (coords f.vel) := rfl

/-- **The printed deviations are of the order of the solver.**  In the run of `conserved_near`, with the reports made at its checks by a data object that has not
reported yet and whatever the counts of computations are: for the letters asked for, of the quantities that are not zero at the start, every line gives a number
of percent, at most `K y`. -/
theorem printed_deviations {X : SimEnv ℝ D ε} {n : ℕ} {M : ℕ → ℝ} (hn : 0 < n) (hX : Function.Injective (X.layout 0))
    (hA : Apart (X.layout 0) (X.layout 1)) {s : SolverDesc D} {p r : ℕ} {η : ℝ} (hs : Desc X n s p η) {T : ℝ} (hT : 0 ≤ T)
    {q v : ℝ → ℕ → Fin 3 → ℝ} (hq : _root_.Spec.Motion 1e-8 n M T q v) (hfar : Far n T q) (hr : Applies n T q p η r)
    (hw : ∑ i ∈ range n, M i ≠ 0) :
    ∃ K δ₀ ξ : ℝ, 0 ≤ K ∧ 0 < δ₀ ∧ 0 < ξ ∧ ∀ (e : EngineDesc D) (d : DataObj ℝ C) (θ ρ : ℝ), Gravitates X e d.mass θ → d.count = n →
      d.mass.length = n → (∀ i, i < n → d.mass.getD i 0 = M i) → BodiesNear n d.vrt d.vel (q 0) (v 0) ρ →
      ∀ c : RunConf ℝ, 0 < c.dt → c.dt ≤ δ₀ → ρ + c.dt ^ r + η + θ ≤ ξ → c.maxTime + c.dt ≤ d.time + T →
      (c.clampToBox = true → ∀ t ∈ Set.Icc 0 T, ∀ i, i < n → ∀ k, |q t i k| + K * (ρ + c.dt ^ r + η + θ) ≤ d.box) →
      ∀ fuel, RunSpec.steps d.time c.maxTime c.dt ≤ fuel →
      ∃ x, solverRun (recording X) c fuel (X.start e s d) [] = .ok (0, x) ∧
        ∀ (o : StatObj) (counts : List ℕ), o.count = n → o.stat.initialComputed = false → counts.length = x.checks.length →
        ∃ ls o', reports o ((x.checks.zip counts).map checkEntry) = .ok (ls, o') ∧ ls.length = x.checks.length ∧ ∀ l ∈ ls,
          ('P' ∈ o.checkList → momentum n M (v 0) ≠ 0 → ∃ z, l.dP = some (.num z) ∧ 0 ≤ z ∧ z ≤ K * (ρ + c.dt ^ r + η + θ)) ∧
          ('L' ∈ o.checkList → angular n M (q 0) (v 0) ≠ 0 → ∃ z, l.dL = some (.num z) ∧ 0 ≤ z ∧ z ≤ K * (ρ + c.dt ^ r + η + θ)) ∧
          ('E' ∈ o.checkList → energy n M (q 0) (v 0) ≠ 0 → ∃ z, l.dE = some (.num z) ∧ 0 ≤ z ∧ z ≤ K * (ρ + c.dt ^ r + η + θ)) := by
  obtain ⟨K, δ₀, ξ, hK, hδ₀, hξ, key⟩ := conserved_near (C := C) hn hX hA hs hT hq hfar hr
  obtain ⟨cP, hcP, awP⟩ := away (momentum n M (v 0))
  obtain ⟨cL, hcL, awL⟩ := away (angular n M (q 0) (v 0))
  obtain ⟨cE, hcE, awE⟩ := away_real (energy n M (q 0) (v 0))
  set K' := K + 600 * K / cP + 600 * K / cL + 200 * K / cE with hK'
  have a1 : 0 ≤ 600 * K / cP := by positivity
  have a2 : 0 ≤ 600 * K / cL := by positivity
  have a3 : 0 ≤ 200 * K / cE := by positivity
  refine ⟨K', δ₀, min ξ (min cP (min cL cE) / (K + 1)), by positivity, hδ₀, by positivity,
    fun e d θ ρ hE hc hm hM hbd c hdt hdt' hle hmax hbox fuel hfuel => ?_⟩
  obtain ⟨y, hy⟩ : ∃ y, y = ρ + c.dt ^ r + η + θ := ⟨_, rfl⟩
  rw [← hy] at hle hbox ⊢
  have hle2 : K * y ≤ min cP (min cL cE) := by
    have hm0 : 0 ≤ min cP (min cL cE) := by positivity
    calc K * y ≤ K * (min cP (min cL cE) / (K + 1)) := mul_le_mul_of_nonneg_left (hle.trans (min_le_right _ _)) hK
      _ = K / (K + 1) * min cP (min cL cE) := by ring
      _ ≤ 1 * min cP (min cL cE) := mul_le_mul_of_nonneg_right ((div_le_one (by linarith)).2 (by linarith)) hm0
      _ = _ := one_mul _
  have hy0 : 0 ≤ K * y := by
    obtain ⟨x, -, hx⟩ := key e d θ ρ hE hc hm hM hbd { c with clampToBox := false } hdt hdt' (by rw [← hy]; exact hle.trans (min_le_left _ _)) hmax
      (fun h => by cases h) fuel hfuel
    obtain ⟨-, -, -, -, -, hx⟩ := hx _ (List.mem_append_right _ (List.mem_singleton.2 rfl))
    rw [hy]
    exact (abs_nonneg _).trans hx
  have s1 : 600 * K / cP * y = 100 * (3 * (2 * (K * y))) / cP := by ring
  have s2 : 600 * K / cL * y = 100 * (3 * (2 * (K * y))) / cL := by ring
  have s3 : 200 * K / cE * y = 100 * (2 * (K * y)) / cE := by ring
  have b1 : 0 ≤ 600 * K / cP * y := by rw [s1]; positivity
  have b2 : 0 ≤ 600 * K / cL * y := by rw [s2]; positivity
  have b3 : 0 ≤ 200 * K / cE * y := by rw [s3]; positivity
  have hKy : K' * y = K * y + 600 * K / cP * y + 600 * K / cL * y + 200 * K / cE * y := by rw [hK']; ring
  obtain ⟨x, hx1, hx⟩ := key e d θ ρ hE hc hm hM hbd c hdt hdt' (by rw [← hy]; exact hle.trans (min_le_left _ _)) hmax
    (fun h t ht i hi k => by rw [← hy]; exact (add_le_add_right (by linarith : K * y ≤ K' * y) _).trans (hbox h t ht i hi k)) fuel hfuel
  rw [← hy] at hx
  refine ⟨x, hx1, fun o counts ho hnew hlen => ?_⟩
  have hchk : ∀ f ∈ x.checks, _ := fun f hf => hx f (List.mem_append_left _ (List.mem_append_right _ hf))
  have hent : (x.checks.zip counts).map checkEntry = ((x.checks.zip counts).map fun a => view a.1 a.2).map (C88.entry n M) := by
    rw [List.map_map]
    refine List.map_congr_left fun a ha => ?_
    obtain ⟨h1, h2, h3, -⟩ := hchk a.1 (List.of_mem_zip ha).1
    exact (entry_view a.2 h1 h2 (by rw [h3]; exact hm) (by rw [h3]; exact hM)).symm
  rw [hent]
  cases hz : x.checks.zip counts with
  | nil =>
    refine ⟨[], o, rfl, ?_, by simp⟩
    have := congrArg List.length hz
    simp only [List.length_zip, List.length_nil] at this
    simp only [List.length_nil]
    omega
  | cons a rest =>
    obtain ⟨ls, o', hl1, hl2⟩ := C88.lines_of_reports hw o ho hnew (view a.1 a.2) (rest.map fun a => view a.1 a.2)
    refine ⟨ls, o', by simpa using hl1, ?_, fun l hl => ?_⟩
    · have h1 := hl2.length_eq
      have h2 := congrArg List.length hz
      simp only [List.length_zip, List.length_cons, List.length_map] at h1 h2
      omega
    · obtain ⟨i, hi, rfl⟩ := List.mem_iff_getElem.1 hl
      have hi' : i < (view a.1 a.2 :: rest.map fun a => view a.1 a.2).length := by rw [hl2.length_eq]; exact hi
      have hline := List.forall₂_iff_get.1 hl2 |>.2 i hi' hi
      simp only [List.get_eq_getElem] at hline
      obtain ⟨b, hb, hbv⟩ : ∃ b ∈ x.checks.zip counts, (view a.1 a.2 :: rest.map fun a => view a.1 a.2)[i] = view b.1 b.2 := by
        have h1 : ∀ u ∈ (view a.1 a.2 :: rest.map fun a => view a.1 a.2), ∃ b ∈ x.checks.zip counts, u = view b.1 b.2 := by
          intro u hu
          rw [hz]
          rcases List.mem_cons.1 hu with rfl | hu
          · exact ⟨a, List.mem_cons_self, rfl⟩
          · obtain ⟨b, hb, rfl⟩ := List.mem_map.1 hu
            exact ⟨b, List.mem_cons_of_mem _ hb, rfl⟩
        exact h1 _ (List.getElem_mem hi')
      rw [hbv] at hline
      obtain ⟨-, -, -, fP, fL, fE⟩ := hchk a.1 (List.of_mem_zip (hz ▸ List.mem_cons_self : a ∈ x.checks.zip counts)).1
      obtain ⟨-, -, -, gP, gL, gE⟩ := hchk b.1 (List.of_mem_zip hb).1
      have tri : ∀ {u u' u0 : ℝ}, |u - u0| ≤ K * y → |u' - u0| ≤ K * y → |u' - u| ≤ 2 * (K * y) := by
        intro u u' u0 h1 h2
        have : u' - u = (u' - u0) - (u - u0) := by ring
        rw [this]
        exact (abs_sub _ _).trans (by linarith)
      refine ⟨fun hc h0 => ?_, fun hc h0 => ?_, fun hc h0 => ?_⟩
      · obtain ⟨z, hz1, hz2⟩ := hline.dP hc
        rw [momentum_view, momentum_view] at hz2
        obtain ⟨z', rfl, k1, k2⟩ := percent_le hz2 (C88.len_nonneg _) (len_le fun k => tri (fP k) (gP k)) hcP
          (awP h0 _ fun k => (fP k).trans (hle2.trans (min_le_left _ _)))
        exact ⟨z', hz1, k1, k2.trans (by rw [← s1]; linarith)⟩
      · obtain ⟨z, hz1, hz2⟩ := hline.dL hc
        rw [angular_view, angular_view] at hz2
        obtain ⟨z', rfl, k1, k2⟩ := percent_le hz2 (C88.len_nonneg _) (len_le fun k => tri (fL k) (gL k)) hcL
          (awL h0 _ fun k => (fL k).trans (hle2.trans ((min_le_right _ _).trans (min_le_left _ _))))
        exact ⟨z', hz1, k1, k2.trans (by rw [← s2]; linarith)⟩
      · obtain ⟨z, hz1, hz2⟩ := hline.dE hc
        rw [energy_view, energy_view] at hz2
        obtain ⟨z', rfl, k1, k2⟩ := percent_le hz2 (abs_nonneg _) (tri fE gE) hcE
          (awE h0 _ (fE.trans (hle2.trans ((min_le_right _ _).trans (min_le_right _ _)))))
        exact ⟨z', hz1, k1, k2.trans (by rw [← s3]; linarith)⟩

end

/-! ### A case -/

/-- The two bodies of C78 stay at the distance 2. -/
lemma orbit_far (T : ℝ) : Far 2 T C78.orbitPos := by
  intro t _ i hi j hj
  have h1 := Real.sin_sq_add_cos_sq t
  have : _root_.Spec.dist2 (C78.orbitPos t i) (C78.orbitPos t j) = 4 := by
    unfold _root_.Spec.dist2 C78.orbitPos
    interval_cases i <;> interval_cases j <;> simp <;> nlinarith
  rw [this]
  norm_num

/-- Their energy: kinetic 4, potential -8. -/
lemma orbit_energy : energy 2 (fun _ => 4) (C78.orbitPos 0) (C78.orbitVel 0) = -4 := by
  have h : Real.sqrt 4 = 2 := by rw [show (4 : ℝ) = 2 ^ 2 by norm_num]; exact Real.sqrt_sq (by norm_num)
  simp [energy, _root_.Spec.potential, _root_.Spec.pairPotential, _root_.Spec.dist2, C78.orbitPos, C78.orbitVel, sum_range_succ]
  norm_num [h]

/-- Their year with Adams of rank 5 started by rkdp, a report every tenth: every line says that the energy changed by at most `K dt ^ 5` percent. -/
example (correction : Bool) (e : EngineDesc ℝ) (rs : RKSettings ℝ) (hsub : 0 < rs.subdivisions) (st : StepSettings ℝ) (stat : StatState ℝ)
    (hst : stat.initialComputed = false) :
    ∃ K δ₀ : ℝ, 0 < δ₀ ∧ ∀ dt, 0 < dt → dt ≤ δ₀ → ∃ fuel₀, ∀ fuel, fuel₀ ≤ fuel →
      ∃ x, solverRun (C83.recording C83.sim) ⟨dt, 2 * Real.pi, 0, 1 / 10, false, false⟩ fuel
        (C83.sim.start e (.adams (.rk .rkdp rs st) 5 correction st) C83.two) [] = .ok (0, x) ∧
        ∃ ls o', reports ⟨2, ⟨[], [], []⟩, 0, 0, ['E'], stat, 0⟩ ((x.checks.zip (x.checks.map fun _ => 7)).map checkEntry) = .ok (ls, o') ∧
          ls.length = x.checks.length ∧ ∀ l ∈ ls, ∃ z, l.dE = some (.num z) ∧ 0 ≤ z ∧ z ≤ K * dt ^ 5 := by
  have hd : C83.Desc C83.sim 2 (.adams (.rk .rkdp rs st) 5 correction st) 5 0 :=
    .adams 5 (by norm_num) le_rfl correction st (.rk .rkdp rs st (C82.explicit_tables _ hsub).2.2.1) le_rfl le_rfl
  obtain ⟨K, δ₀, ξ, hK, hδ₀, hξ, key⟩ := printed_deviations (C := Unit) (by norm_num) (X := C83.sim) (n := 2) (M := fun _ => 4) (r := 5)
    C82.even_injective C82.even_odd hd (T := 2 * Real.pi + 1) (by positivity) (C78.orbit _) (orbit_far _) (.inl ⟨rfl, C82.orbit_off _⟩)
    (by simp)
  refine ⟨K, min δ₀ (min 1 ξ), by positivity, fun dt hdt hdt' => ⟨RunSpec.steps 0 (2 * Real.pi) dt, fun fuel hfuel => ?_⟩⟩
  have h1 : dt ≤ 1 := hdt'.trans ((min_le_right _ _).trans (min_le_left _ _))
  have h2 : dt ≤ ξ := hdt'.trans ((min_le_right _ _).trans (min_le_right _ _))
  have h3 : dt ^ 5 ≤ dt := pow_le_of_le_one hdt.le h1 (by norm_num)
  obtain ⟨x, hx, h⟩ := key e C83.two 0 0 (C83.sim_gravitates e (by simp [C83.two])) rfl rfl
    (fun i hi => by interval_cases i <;> rfl) C83.two_begin ⟨dt, 2 * Real.pi, 0, 1 / 10, false, false⟩ hdt
    (hdt'.trans (min_le_left _ _)) (by show (0 : ℝ) + dt ^ 5 + 0 + 0 ≤ ξ; linarith)
    (by show 2 * Real.pi + dt ≤ (0 : ℝ) + _; linarith) (fun h => by cases h) fuel hfuel
  refine ⟨x, hx, ?_⟩
  obtain ⟨ls, o', hl1, hl2, hl3⟩ := h ⟨2, ⟨[], [], []⟩, 0, 0, ['E'], stat, 0⟩ (x.checks.map fun _ => 7) rfl hst (by simp)
  refine ⟨ls, o', hl1, hl2, fun l hl => ?_⟩
  obtain ⟨z, z1, z2, z3⟩ := (hl3 l hl).2.2 (by simp) (by rw [orbit_energy]; norm_num)
  exact ⟨z, z1, z2, by simpa using z3⟩

end NB.C91
