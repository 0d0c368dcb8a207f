import Verif.Spec.Motion
import Verif.Lemmas.Converge
import Verif.Lemmas.NewtonLipschitz
import Mathlib.Analysis.ODE.ExistUnique

/-
Newton's equations as one equation for the state, and its solutions: they exist and are unique.
-/

namespace NB

open Set

/-- Positions and velocities in the layout of the library. -/
def packed (n : ℕ) (q v : ℕ → Fin 3 → ℝ) (j : ℕ) : ℝ :=
  if j / n < 3 then q (j % n) (Fin.ofNat 3 (j / n)) else v (j % n) (Fin.ofNat 3 (j / n - 3))

lemma packed_pos {n : ℕ} (q v : ℕ → Fin 3 → ℝ) {i : ℕ} (hi : i < n) (k : Fin 3) :
    packed n q v (k * n + i) = q i k := by
  have h1 : ((k : ℕ) * n + i) / n = k := by
    rw [Nat.mul_comm, Nat.mul_add_div (by omega), Nat.div_eq_of_lt hi, Nat.add_zero]
  have h2 : ((k : ℕ) * n + i) % n = i := by
    rw [Nat.mul_comm, Nat.mul_add_mod, Nat.mod_eq_of_lt hi]
  unfold packed
  rw [h1, h2, if_pos k.2]
  congr 1
  ext
  simp

lemma packed_vel {n : ℕ} (q v : ℕ → Fin 3 → ℝ) {i : ℕ} (hi : i < n) (k : Fin 3) :
    packed n q v ((3 + k) * n + i) = v i k := by
  have h1 : ((3 + (k : ℕ)) * n + i) / n = 3 + k := by
    rw [Nat.mul_comm, Nat.mul_add_div (by omega), Nat.div_eq_of_lt hi, Nat.add_zero]
  have h2 : ((3 + (k : ℕ)) * n + i) % n = i := by
    rw [Nat.mul_comm, Nat.mul_add_mod, Nat.mod_eq_of_lt hi]
  unfold packed
  rw [h1, h2, if_neg (by omega)]
  congr 1
  ext
  simp

/-- Every coordinate of the state is a position or a velocity. -/
lemma coordinate {n : ℕ} {j : ℕ} (hj : j < 6 * n) :
    (∃ i k, i < n ∧ j = ((k : Fin 3) : ℕ) * n + i) ∨ (∃ i k, i < n ∧ j = (3 + ((k : Fin 3) : ℕ)) * n + i) := by
  have hn : 0 < n := by omega
  have hm := Nat.mod_lt j hn
  have hd : j / n < 6 := Nat.div_lt_of_lt_mul (by rw [Nat.mul_comm]; exact hj)
  have he := Nat.div_add_mod j n
  by_cases h : j / n < 3
  · exact Or.inl ⟨j % n, ⟨j / n, h⟩, hm, by rw [Nat.mul_comm]; exact he.symm⟩
  · refine Or.inr ⟨j % n, ⟨j / n - 3, by omega⟩, hm, ?_⟩
    show j = (3 + (j / n - 3)) * n + j % n
    rw [show 3 + (j / n - 3) = j / n by omega, Nat.mul_comm]
    exact he.symm

lemma pos_eq {n : ℕ} (Y : ℕ → ℝ) (i : ℕ) (k : Fin 3) : C02.pos n Y i k = Y (k * n + i) := by
  unfold C02.pos
  fin_cases k
  · show Y i = Y (0 * n + i)
    rw [Nat.zero_mul, Nat.zero_add]
  · show Y (n + i) = Y (1 * n + i)
    rw [Nat.one_mul]
  · rfl

lemma newtonDeriv_pos {n : ℕ} (M Y : ℕ → ℝ) {i : ℕ} (hi : i < n) (k : Fin 3) :
    C69.newtonDeriv n M Y (k * n + i) = Y ((3 + k) * n + i) := by
  unfold C69.newtonDeriv
  have h3 : (k : ℕ) * n + i < 3 * n := by
    have : (k : ℕ) * n ≤ 2 * n := Nat.mul_le_mul_right n (by omega)
    omega
  rw [if_pos h3]
  congr 1
  ring

lemma newtonDeriv_vel {n : ℕ} (M Y : ℕ → ℝ) {i : ℕ} (hi : i < n) (k : Fin 3) :
    C69.newtonDeriv n M Y ((3 + k) * n + i) = Spec.accel 1e-8 n (C02.pos n Y) M i k := by
  have key : ∀ j, j = 3 * n + i ∧ k = 0 ∨ j = 4 * n + i ∧ k = 1 ∨ j = 5 * n + i ∧ k = 2 →
      C69.newtonDeriv n M Y j = Spec.accel 1e-8 n (C02.pos n Y) M i k := by
    unfold C69.newtonDeriv
    rintro j (⟨e, rfl⟩ | ⟨e, rfl⟩ | ⟨e, rfl⟩)
    · rw [if_neg (by omega), if_pos (by omega), show j - 3 * n = i by omega]
    · rw [if_neg (by omega), if_neg (by omega), if_pos (by omega), show j - 4 * n = i by omega]
    · rw [if_neg (by omega), if_neg (by omega), if_neg (by omega), show j - 5 * n = i by omega]
  apply key
  fin_cases k
  · exact Or.inl ⟨rfl, rfl⟩
  · exact Or.inr (Or.inl ⟨rfl, rfl⟩)
  · exact Or.inr (Or.inr ⟨rfl, rfl⟩)

/-- The state of a motion. -/
def stateOf (n : ℕ) (q v : ℝ → ℕ → Fin 3 → ℝ) (t : ℝ) : Fin (6 * n) → ℝ := firstN (6 * n) (packed n (q t) (v t))

lemma accel_congr {eps : ℝ} {n : ℕ} {r r' : ℕ → Fin 3 → ℝ} (m : ℕ → ℝ) (h : ∀ i, i < n → ∀ k, r i k = r' i k) {i : ℕ}
    (hi : i < n) (k : Fin 3) : Spec.accel eps n r m i k = Spec.accel eps n r' m i k := by
  have hp : ∀ i, i < n → r i = r' i := fun i hi => funext (h i hi)
  unfold Spec.accel
  refine Finset.sum_congr rfl fun j hj => ?_
  rw [hp i hi, hp j (Finset.mem_range.1 (Finset.mem_of_mem_erase hj))]

lemma motion_solves {n : ℕ} {M : ℕ → ℝ} {T : ℝ} {q v : ℝ → ℕ → Fin 3 → ℝ} (h : Spec.Motion 1e-8 n M T q v) :
    Solves (gravity n M) T (stateOf n q v) := by
  intro t ht
  rw [hasDerivWithinAt_pi]
  intro j
  show HasDerivWithinAt (fun s => packed n (q s) (v s) j) (gravity n M (firstN (6 * n) (packed n (q t) (v t))) j) _ _
  rw [← gravity_firstN]
  show HasDerivWithinAt (fun s => packed n (q s) (v s) j) (C69.newtonDeriv n M (packed n (q t) (v t)) j) _ _
  rcases coordinate j.2 with ⟨i, k, hi, e⟩ | ⟨i, k, hi, e⟩
  · rw [e, newtonDeriv_pos M _ hi, packed_vel _ _ hi]
    simp only [packed_pos _ _ hi]
    exact h.velocity t ht i hi k
  · rw [e, newtonDeriv_vel M _ hi]
    simp only [packed_vel _ _ hi]
    rw [accel_congr (r' := q t) M (fun i hi k => by rw [pos_eq, packed_pos _ _ hi]) hi]
    exact h.acceleration t ht i hi k

/-- Positions and velocities of a state. -/
def statePos (n : ℕ) (z : Fin (6 * n) → ℝ) (i : ℕ) (k : Fin 3) : ℝ := padded z (k * n + i)
def stateVel (n : ℕ) (z : Fin (6 * n) → ℝ) (i : ℕ) (k : Fin 3) : ℝ := padded z ((3 + k) * n + i)

lemma solves_motion {n : ℕ} {M : ℕ → ℝ} {T : ℝ} {x : ℝ → Fin (6 * n) → ℝ} (h : Solves (gravity n M) T x) :
    Spec.Motion 1e-8 n M T (fun t => statePos n (x t)) (fun t => stateVel n (x t)) := by
  have hlt : ∀ i, i < n → ∀ k : Fin 3, (k : ℕ) * n + i < 6 * n ∧ (3 + (k : ℕ)) * n + i < 6 * n := by
    intro i hi k
    have h1 : (k : ℕ) * n ≤ 2 * n := Nat.mul_le_mul_right n (by omega)
    have h2 : (3 + (k : ℕ)) * n ≤ 5 * n := Nat.mul_le_mul_right n (by omega)
    omega
  constructor
  · intro t ht i hi k
    have h1 := (hasDerivWithinAt_pi.1 (h t ht)) ⟨k * n + i, (hlt i hi k).1⟩
    have h2 : gravity n M (x t) ⟨k * n + i, (hlt i hi k).1⟩ = stateVel n (x t) i k := by
      show C69.newtonDeriv n M (padded (x t)) (k * n + i) = _
      rw [newtonDeriv_pos M _ hi]
      rfl
    rw [h2] at h1
    refine h1.congr_of_mem (fun s _ => ?_) ht
    show padded (x s) (k * n + i) = _
    rw [padded, dif_pos (hlt i hi k).1]
  · intro t ht i hi k
    have h1 := (hasDerivWithinAt_pi.1 (h t ht)) ⟨(3 + k) * n + i, (hlt i hi k).2⟩
    have h2 : gravity n M (x t) ⟨(3 + k) * n + i, (hlt i hi k).2⟩ = Spec.accel 1e-8 n (statePos n (x t)) M i k := by
      show C69.newtonDeriv n M (padded (x t)) ((3 + k) * n + i) = _
      rw [newtonDeriv_vel M _ hi]
      exact accel_congr M (fun i _ k => pos_eq _ _ _) hi k
    rw [h2] at h1
    refine h1.congr_of_mem (fun s _ => ?_) ht
    show padded (x s) ((3 + k) * n + i) = _
    rw [padded, dif_pos (hlt i hi k).2]

/-! ### Solutions exist -/

/-- The velocities cut off at `R`. -/
def cutOff (n : ℕ) (R : ℝ) (z : Fin (6 * n) → ℝ) (j : Fin (6 * n)) : ℝ :=
  if (j : ℕ) < 3 * n then z j else max (-R) (min R (z j))

lemma cutOff_lip (n : ℕ) (R : ℝ) (z z' : Fin (6 * n) → ℝ) : ‖cutOff n R z - cutOff n R z'‖ ≤ ‖z - z'‖ := by
  refine (pi_norm_le_iff_of_nonneg (norm_nonneg _)).2 fun j => ?_
  have h := norm_le_pi_norm (z - z') j
  rw [Real.norm_eq_abs, Pi.sub_apply] at h ⊢
  unfold cutOff
  split_ifs
  · exact h
  · refine le_trans ?_ h
    refine (abs_max_sub_max_le_max _ _ _ _).trans ?_
    rw [sub_self, abs_zero]
    refine max_le (abs_nonneg _) ((abs_min_sub_min_le_max _ _ _ _).trans ?_)
    rw [sub_self, abs_zero]
    exact max_le (abs_nonneg _) le_rfl

lemma cutOff_bound {n : ℕ} (M : ℕ → ℝ) {R : ℝ} (hR : 0 ≤ R) (z : Fin (6 * n) → ℝ) :
    ‖gravity n M (cutOff n R z)‖ ≤ R + totalAbs n M / 1e-8 := by
  have hA : 0 ≤ totalAbs n M / 1e-8 := div_nonneg (totalAbs_nonneg n M) (by norm_num)
  refine (pi_norm_le_iff_of_nonneg (by positivity)).2 fun j => ?_
  rw [Real.norm_eq_abs]
  show |C69.newtonDeriv n M (padded (cutOff n R z)) j| ≤ _
  rcases coordinate j.2 with ⟨i, k, hi, e⟩ | ⟨i, k, hi, e⟩
  · rw [e, newtonDeriv_pos M _ hi]
    have h1 : (3 + (k : ℕ)) * n + i < 6 * n := by
      have h2 : (3 + (k : ℕ)) * n ≤ 5 * n := Nat.mul_le_mul_right n (by omega)
      omega
    rw [padded, dif_pos h1, cutOff]
    have h3 : ¬ (3 + (k : ℕ)) * n + i < 3 * n := by
      have h2 : 3 * n ≤ (3 + (k : ℕ)) * n := Nat.mul_le_mul_right n (by omega)
      omega
    rw [if_neg h3]
    have : |max (-R) (min R (z ⟨(3 + (k : ℕ)) * n + i, h1⟩))| ≤ R :=
      abs_le.2 ⟨le_max_left _ _, max_le (by linarith) (min_le_left _ _)⟩
    linarith
  · rw [e, newtonDeriv_vel M _ hi]
    exact (accel_bound (by norm_num) _ _ _ _ _).trans (by linarith)

lemma exists_solution (n : ℕ) (M : ℕ → ℝ) {T : ℝ} (hT : 0 ≤ T) (z : Fin (6 * n) → ℝ) :
    ∃ x : ℝ → Fin (6 * n) → ℝ, x 0 = z ∧ Solves (gravity n M) T x := by
  set A := totalAbs n M / 1e-8 with hA
  have hA0 : 0 ≤ A := div_nonneg (totalAbs_nonneg n M) (by norm_num)
  set R := ‖z‖ + A * T with hRdef
  have hR : 0 ≤ R := by positivity
  have hpl : IsPicardLindelof (fun _ : ℝ => fun y => gravity n M (cutOff n R y)) (tmin := 0) (tmax := T)
      ⟨0, le_rfl, hT⟩ z ⟨(R + A) * T, by positivity⟩ 0 ⟨R + A, by positivity⟩
      ⟨gravityLip n M, gravityLip_nonneg n M⟩ := by
    refine ⟨fun t _ => LipschitzOnWith.of_dist_le_mul fun a _ b _ => ?_, fun a _ => continuousOn_const,
      fun t _ a _ => cutOff_bound M hR a, ?_⟩
    · rw [dist_eq_norm, dist_eq_norm]
      exact (gravity_lip n M _ _).trans (mul_le_mul_of_nonneg_left (cutOff_lip n R a b) (gravityLip_nonneg n M))
    · show (R + A) * max (T - 0) (0 - 0) ≤ (R + A) * T - 0
      rw [sub_zero, sub_zero, sub_zero, max_eq_left hT]
  obtain ⟨x, h0, hx⟩ := hpl.exists_eq_forall_mem_Icc_hasDerivWithinAt₀
  refine ⟨x, h0, fun t ht => ?_⟩
  have h0' : x 0 = z := h0
  have hcut : ∀ t ∈ Icc (0 : ℝ) T, cutOff n R (x t) = x t := by
    intro t ht
    funext j
    unfold cutOff
    split_ifs with hj
    · rfl
    · have hder : ∀ s ∈ Icc (0 : ℝ) T, HasDerivWithinAt (fun s => x s j) (gravity n M (cutOff n R (x s)) j) (Icc 0 T) s :=
        fun s hs => (hasDerivWithinAt_pi.1 (hx s hs)) j
      have hb : ∀ s ∈ Icc (0 : ℝ) T, ‖gravity n M (cutOff n R (x s)) j‖ ≤ A := by
        intro s _
        rw [Real.norm_eq_abs]
        show |C69.newtonDeriv n M (padded (cutOff n R (x s))) j| ≤ _
        rcases coordinate j.2 with ⟨i, k, hi, e⟩ | ⟨i, k, hi, e⟩
        · exfalso
          have : (k : ℕ) * n ≤ 2 * n := Nat.mul_le_mul_right n (by omega)
          omega
        · rw [e, newtonDeriv_vel M _ hi]
          exact accel_bound (by norm_num) _ _ _ _ _
      have h1 := (convex_Icc (0 : ℝ) T).norm_image_sub_le_of_norm_hasDerivWithin_le hder hb ⟨le_rfl, hT⟩ ht
      rw [h0', sub_zero, Real.norm_eq_abs, Real.norm_eq_abs, abs_of_nonneg ht.1] at h1
      have h2 : A * t ≤ A * T := mul_le_mul_of_nonneg_left ht.2 hA0
      have h3 := norm_le_pi_norm z j
      rw [Real.norm_eq_abs] at h3
      have h4 : |x t j| ≤ R := by
        have : |x t j| ≤ |x t j - z j| + |z j| := by simpa using abs_add_le (x t j - z j) (z j)
        linarith
      rw [abs_le] at h4
      rw [min_eq_right h4.2, max_eq_right h4.1]
  have := hx t ht
  simp only [hcut t ht] at this
  exact this

lemma solution_unique {n : ℕ} {M : ℕ → ℝ} {T : ℝ} {x x' : ℝ → Fin (6 * n) → ℝ} (h : Solves (gravity n M) T x)
    (h' : Solves (gravity n M) T x') (h0 : x 0 = x' 0) : ∀ t ∈ Icc (0 : ℝ) T, x t = x' t := by
  have key : ∀ x : ℝ → Fin (6 * n) → ℝ, Solves (gravity n M) T x → ∀ t ∈ Ico (0 : ℝ) T,
      HasDerivWithinAt x (gravity n M (x t)) (Ici t) t := by
    intro x hx t ht
    refine (hx t ⟨ht.1, ht.2.le⟩).mono_of_mem_nhdsWithin ?_
    exact Filter.mem_of_superset (Icc_mem_nhdsGE ht.2) fun s hs => ⟨ht.1.trans hs.1, hs.2⟩
  refine ODE_solution_unique_of_mem_Icc_right (v := fun _ => gravity n M) (s := fun _ => univ)
    (K := ⟨gravityLip n M, gravityLip_nonneg n M⟩) (fun t _ => LipschitzOnWith.of_dist_le_mul fun a _ b _ => ?_)
    (fun t ht => (h t ht).continuousWithinAt) (key x h) (fun _ _ => mem_univ _)
    (fun t ht => (h' t ht).continuousWithinAt) (key x' h') (fun _ _ => mem_univ _) h0
  rw [dist_eq_norm, dist_eq_norm]
  exact gravity_lip n M _ _

end NB
