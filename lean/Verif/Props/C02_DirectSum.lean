import Verif.Lemmas.EngineSimple
import Verif.Lemmas.RealVec
import Verif.Lemmas.Sums

/-
C02: the direct-sum engine computes the textbook accelerations and exerts no net force or torque.
Exact arithmetic (ℝ).  The state buffer holds `6*n` numbers `Y`, the mass buffer `n` numbers `M`;
the derivative buffer `f` is any other buffer of `6*n` elements.
-/

namespace NB.C02

/-- Position of body `i` in the state buffer. -/
def pos (n : ℕ) (Y : ℕ → ℝ) (i : ℕ) : Fin 3 → ℝ := ![Y i, Y (n + i), Y (2 * n + i)]

lemma total_x (n : ℕ) (s : Vec3 ℝ) (P : ℕ → Prop) [DecidablePred P] (g : ℕ → Vec3 ℝ) :
    (foldN n s (fun j t => if P j then t else t + g j)).x
      = foldN n s.x (fun j t => if P j then t else t + (g j).x) := by
  induction n with
  | zero => rfl
  | succ n ih => simp only [foldN]; split <;> simp [ih]

lemma total_y (n : ℕ) (s : Vec3 ℝ) (P : ℕ → Prop) [DecidablePred P] (g : ℕ → Vec3 ℝ) :
    (foldN n s (fun j t => if P j then t else t + g j)).y
      = foldN n s.y (fun j t => if P j then t else t + (g j).y) := by
  induction n with
  | zero => rfl
  | succ n ih => simp only [foldN]; split <;> simp [ih]

lemma total_z (n : ℕ) (s : Vec3 ℝ) (P : ℕ → Prop) [DecidablePred P] (g : ℕ → Vec3 ℝ) :
    (foldN n s (fun j t => if P j then t else t + g j)).z
      = foldN n s.z (fun j t => if P j then t else t + (g j).z) := by
  induction n with
  | zero => rfl
  | succ n ih => simp only [foldN]; split <;> simp [ih]

lemma totalForce_coord (n : ℕ) (Y M : ℕ → ℝ) (i : ℕ) (k : Fin 3) :
    (totalForce n Y M i).coord k =
      ∑ j ∈ (Finset.range n).erase i, Spec.newton 1e-8 (pos n Y i) (pos n Y j) (M i) (M j) k := by
  have h : ∀ j, (force (posOf n Y i) (posOf n Y j) (M i) (M j)).coord k =
      Spec.newton 1e-8 (pos n Y i) (pos n Y j) (M i) (M j) k := fun j => force_coord _ _ _ _ k
  rw [← Finset.sum_congr rfl (fun j _ => h j), ← foldN_sum_erase]
  unfold totalForce
  fin_cases k
  · exact total_x n 0 (fun j => i = j) _
  · exact total_y n 0 (fun j => i = j) _
  · exact total_z n 0 (fun j => i = j) _

lemma newton_div (eps : ℝ) (p q : Fin 3 → ℝ) (m1 m2 : ℝ) (h : m1 ≠ 0) (k : Fin 3) :
    Spec.newton eps p q m1 m2 k / m1 =
      -m2 * (p k - q k) / Real.sqrt (max (Spec.dist2 p q) eps) ^ 3 := by
  unfold Spec.newton
  field_simp

lemma accel_mul (eps : ℝ) (n : ℕ) (r : ℕ → Fin 3 → ℝ) (m : ℕ → ℝ) (i : ℕ) (k : Fin 3) :
    m i * Spec.accel eps n r m i k =
      ∑ j ∈ (Finset.range n).erase i, Spec.newton eps (r i) (r j) (m i) (m j) k := by
  unfold Spec.accel Spec.newton
  rw [Finset.mul_sum]
  apply Finset.sum_congr rfl
  intro j _
  ring

lemma dist2_comm (p q : Fin 3 → ℝ) : Spec.dist2 p q = Spec.dist2 q p := by
  unfold Spec.dist2; ring

/-- The derivative computed by the simple engine: `fcompute` succeeds, writes only the buffer `f`, its
position part is the velocity part of the state and its velocity part is the textbook acceleration. -/
theorem fcompute_is_newton {n : ℕ} {hm y f : Handle} (hyf : y ≠ f) (hmf : hm ≠ f) {Y M : ℕ → ℝ}
    {m : Mem ℝ} (hy : m y = some (buf (6 * n) Y)) (hM : m hm = some (buf n M))
    (hf : m.shape f = some (6 * n)) (hmass : ∀ i, i < n → M i ≠ 0) :
    ∃ F : ℕ → ℝ, fcompute seqFor n hm y f m = .ok (m.set f (buf (6 * n) F)) ∧
      (∀ i, i < 3 * n → F i = Y (3 * n + i)) ∧
      (∀ i, i < n →
        F (3 * n + i) = Spec.accel 1e-8 n (pos n Y) M i 0 ∧
        F (4 * n + i) = Spec.accel 1e-8 n (pos n Y) M i 1 ∧
        F (5 * n + i) = Spec.accel 1e-8 n (pos n Y) M i 2) := by
  refine ⟨derivVal n Y M, fcompute_eq hyf hmf hy hM hf, ?_, ?_⟩
  · intro i hi; simp [derivVal, hi]
  · intro i hi
    have hk : ∀ k : Fin 3, (totalForce n Y M i).coord k / M i = Spec.accel 1e-8 n (pos n Y) M i k := by
      intro k
      rw [totalForce_coord, Finset.sum_div]
      unfold Spec.accel
      exact Finset.sum_congr rfl fun j _ => newton_div _ _ _ _ _ (hmass i hi) k
    refine ⟨?_, ?_, ?_⟩
    · rw [← hk 0]
      have a : ¬ (3 * n + i < 3 * n) := by omega
      have b : 3 * n + i < 4 * n := by omega
      simp [derivVal, a, b]
    · rw [← hk 1]
      have a : ¬ (4 * n + i < 3 * n) := by omega
      have b : ¬ (4 * n + i < 4 * n) := by omega
      have c : 4 * n + i < 5 * n := by omega
      simp [derivVal, a, b, c]
    · rw [← hk 2]
      have a : ¬ (5 * n + i < 3 * n) := by omega
      have b : ¬ (5 * n + i < 4 * n) := by omega
      have c : ¬ (5 * n + i < 5 * n) := by omega
      simp [derivVal, a, b, c]

/-- Textbook statement: the accelerations of a self-gravitating system carry no net force. -/
theorem accel_no_net_force (eps : ℝ) (n : ℕ) (r : ℕ → Fin 3 → ℝ) (m : ℕ → ℝ) (k : Fin 3) :
    ∑ i ∈ Finset.range n, m i * Spec.accel eps n r m i k = 0 := by
  simp only [accel_mul]
  apply sum_antisymm
  intro i j
  unfold Spec.newton
  rw [dist2_comm]
  ring

/-- Textbook statement: no net torque (`k`, `l` two coordinates; the torque component is
`r_k F_l - r_l F_k`). -/
theorem accel_no_net_torque (eps : ℝ) (n : ℕ) (r : ℕ → Fin 3 → ℝ) (m : ℕ → ℝ) (k l : Fin 3) :
    ∑ i ∈ Finset.range n,
      m i * (r i k * Spec.accel eps n r m i l - r i l * Spec.accel eps n r m i k) = 0 := by
  have : ∀ i, m i * (r i k * Spec.accel eps n r m i l - r i l * Spec.accel eps n r m i k) =
      ∑ j ∈ (Finset.range n).erase i, (r i k * Spec.newton eps (r i) (r j) (m i) (m j) l
        - r i l * Spec.newton eps (r i) (r j) (m i) (m j) k) := by
    intro i
    rw [Finset.sum_sub_distrib, ← Finset.mul_sum, ← Finset.mul_sum, ← accel_mul, ← accel_mul]
    ring
  simp only [this]
  apply sum_antisymm
  intro i j
  unfold Spec.newton
  rw [dist2_comm]
  ring

/-- The engine's derivative exerts no net force and no net torque: `Σ mᵢ aᵢ = 0` and
`Σ mᵢ (rᵢ × aᵢ) = 0`, all components. -/
theorem fcompute_no_net_force_torque {n : ℕ} {hm y f : Handle} (hyf : y ≠ f) (hmf : hm ≠ f)
    {Y M : ℕ → ℝ} {m : Mem ℝ} (hy : m y = some (buf (6 * n) Y)) (hM : m hm = some (buf n M))
    (hf : m.shape f = some (6 * n)) (hmass : ∀ i, i < n → M i ≠ 0) :
    ∃ F : ℕ → ℝ, fcompute seqFor n hm y f m = .ok (m.set f (buf (6 * n) F)) ∧
      (∑ i ∈ Finset.range n, M i * F (3 * n + i) = 0) ∧
      (∑ i ∈ Finset.range n, M i * F (4 * n + i) = 0) ∧
      (∑ i ∈ Finset.range n, M i * F (5 * n + i) = 0) ∧
      (∑ i ∈ Finset.range n, M i * (Y (n + i) * F (5 * n + i) - Y (2 * n + i) * F (4 * n + i)) = 0) ∧
      (∑ i ∈ Finset.range n, M i * (Y (2 * n + i) * F (3 * n + i) - Y i * F (5 * n + i)) = 0) ∧
      (∑ i ∈ Finset.range n, M i * (Y i * F (4 * n + i) - Y (n + i) * F (3 * n + i)) = 0) := by
  obtain ⟨F, hF, _, hacc⟩ := fcompute_is_newton hyf hmf hy hM hf hmass
  refine ⟨F, hF, ?_, ?_, ?_, ?_, ?_, ?_⟩
  · rw [← accel_no_net_force 1e-8 n (pos n Y) M 0]
    exact Finset.sum_congr rfl fun i hi => by rw [(hacc i (Finset.mem_range.1 hi)).1]
  · rw [← accel_no_net_force 1e-8 n (pos n Y) M 1]
    exact Finset.sum_congr rfl fun i hi => by rw [(hacc i (Finset.mem_range.1 hi)).2.1]
  · rw [← accel_no_net_force 1e-8 n (pos n Y) M 2]
    exact Finset.sum_congr rfl fun i hi => by rw [(hacc i (Finset.mem_range.1 hi)).2.2]
  · rw [← accel_no_net_torque 1e-8 n (pos n Y) M 1 2]
    exact Finset.sum_congr rfl fun i hi => by
      rw [(hacc i (Finset.mem_range.1 hi)).2.1, (hacc i (Finset.mem_range.1 hi)).2.2]; rfl
  · rw [← accel_no_net_torque 1e-8 n (pos n Y) M 2 0]
    exact Finset.sum_congr rfl fun i hi => by
      rw [(hacc i (Finset.mem_range.1 hi)).1, (hacc i (Finset.mem_range.1 hi)).2.2]; rfl
  · rw [← accel_no_net_torque 1e-8 n (pos n Y) M 0 1]
    exact Finset.sum_congr rfl fun i hi => by
      rw [(hacc i (Finset.mem_range.1 hi)).1, (hacc i (Finset.mem_range.1 hi)).2.1]; rfl

/-- Three bodies with different masses in a concrete memory meet all hypotheses. -/
example : ∃ m : Mem ℝ, m 0 = some (buf 3 (fun i => (i : ℝ) + 1)) ∧
    m 1 = some (buf (6 * 3) (fun i => ((i * i : ℕ) : ℝ))) ∧ m.shape 2 = some (6 * 3) ∧
    (1 : Handle) ≠ 2 ∧ (0 : Handle) ≠ 2 ∧ ∀ i : ℕ, i < 3 → ((i : ℝ) + 1) ≠ 0 := by
  refine ⟨fun h => if h = 0 then some (buf 3 (fun i => (i : ℝ) + 1))
    else if h = 1 then some (buf (6 * 3) (fun i => ((i * i : ℕ) : ℝ)))
    else some (buf (6 * 3) (fun _ => 0)), by simp, by simp, by simp [Mem.shape], by decide, by decide, ?_⟩
  intro i _
  exact Nat.cast_add_one_ne_zero i

end NB.C02
