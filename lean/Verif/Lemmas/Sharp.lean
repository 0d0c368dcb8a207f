import Verif.Lemmas.Circle
import Verif.Lemmas.OrderSchemes

/-
How far a solver is from the motion of the two bodies of Lemmas/Circle.lean at least.
-/

namespace NB

open Finset Complex
open C74 (runScheme plain)

/-- The derivative of the two bodies. -/
noncomputable def twinRhs : Rhs := Spec.still fun _ => C69.newtonDeriv 2 twinMass

/-- The two bodies are not far from the orbit. -/
def Inside (y : ℕ → ℝ) : Prop := ∀ j, j < 12 → |y j| ≤ 1.5e-5

/-- Steps of the scheme near the orbit are off by `κ h^{p+1}` of the difference of the bodies, `κ` not being 0, up to the next
order (the first step may be off by any multiple of `h^{p+1}`). -/
def Drifts {σ : Type} (adv : Rhs → ℝ → σ × Eng (ℕ → ℝ) ℝ → Res (σ × Eng (ℕ → ℝ) ℝ)) (I : σ → Prop) (p : ℕ) : Prop :=
  ∃ (κ : ℂ) (C δ : ℝ), κ ≠ 0 ∧ 0 ≤ C ∧ 0 < δ ∧ ∀ (h : ℝ) (N : ℕ) (z : ℕ → σ × Eng (ℕ → ℝ) ℝ), 0 < h → h ≤ δ → I (z 0).1 →
    (∀ k, k < N → adv twinRhs h (z k) = .ok (z (k + 1))) → (∀ k, k ≤ N → Inside (z k).2.y) →
    (0 < N → ‖rel (z 1).2.y - turn h * rel (z 0).2.y‖ ≤ C * h ^ (p + 1)) ∧
    ∀ k, 0 < k → k < N → ‖rel (z (k + 1)).2.y - (turn h + κ * h ^ (p + 1)) * rel (z k).2.y‖ ≤ C * h ^ (p + 2)

/-- The states a run goes through. -/
lemma run_states {σ : Type} {adv : ℝ → σ × Eng (ℕ → ℝ) ℝ → Res (σ × Eng (ℕ → ℝ) ℝ)} {h : ℝ} (N : ℕ) :
    ∀ {x q : σ × Eng (ℕ → ℝ) ℝ}, runScheme adv (List.replicate N h) x = .ok q →
    ∃ z : ℕ → σ × Eng (ℕ → ℝ) ℝ, z 0 = x ∧ z N = q ∧ (∀ k, k < N → adv h (z k) = .ok (z (k + 1))) ∧
      ∀ k, k ≤ N → runScheme adv (List.replicate k h) x = .ok (z k) := by
  induction N with
  | zero =>
    intro x q hq
    obtain rfl : x = q := Except.ok.inj hq
    exact ⟨fun _ => x, rfl, rfl, fun k hk => absurd hk (by omega), fun k hk => by
      obtain rfl : k = 0 := by omega
      rfl⟩
  | succ N ih =>
    intro x q hq
    have hq' : (adv h x).bind (fun x => runScheme adv (List.replicate N h) x) = .ok q := hq
    cases hx : adv h x with
    | error u => rw [hx] at hq'; cases hq'
    | ok x' =>
      rw [hx] at hq'
      obtain ⟨z, z0, zN, h1, h2⟩ := ih hq'
      refine ⟨fun k => if k = 0 then x else z (k - 1), rfl, by simpa using zN, fun k hk => ?_, fun k hk => ?_⟩
      · rcases Nat.eq_zero_or_pos k with rfl | h0
        · simp [hx, z0]
        · simp only [show k ≠ 0 by omega, if_false, show k + 1 ≠ 0 by omega, Nat.add_sub_cancel]
          have := h1 (k - 1) (by omega)
          rwa [show k - 1 + 1 = k by omega] at this
      · rcases Nat.eq_zero_or_pos k with rfl | h0
        · rfl
        · simp only [show k ≠ 0 by omega, if_false]
          have := h2 (k - 1) (by omega)
          obtain ⟨k, rfl⟩ : ∃ m, k = m + 1 := ⟨k - 1, by omega⟩
          show (adv h x).bind _ = _
          rw [hx]
          exact this

lemma twin_within : Within (firstN (6 * 2)) (gravity 2 twinMass) 0 twinRhs := fun _ _ y => by
  show ‖firstN (6 * 2) (C69.newtonDeriv 2 twinMass y) - _‖ ≤ 0
  rw [gravity_firstN, sub_self, norm_zero]

/-- Near the orbit, the scheme is off by at least a multiple of `h^p` at the time `T` - from the orbit followed from where it
started, as far as the difference of the bodies is concerned.  That it is off by at most a multiple of `h^{p₀}` is known. -/
def RelFar {σ : Type} (adv : Rhs → ℝ → σ × Eng (ℕ → ℝ) ℝ → Res (σ × Eng (ℕ → ℝ) ℝ)) (I : σ → Prop) (p₀ p : ℕ) (T : ℝ) : Prop :=
  ∃ b : ℝ, 0 < b ∧ ∀ Q : ℝ, 0 ≤ Q → ∃ (D δ : ℝ) (N₁ : ℕ), 0 ≤ D ∧ 0 < δ ∧ ∀ (h : ℝ) (N : ℕ) (z : ℕ → σ × Eng (ℕ → ℝ) ℝ), 0 < h → h ≤ δ →
    N₁ ≤ N → N * h = T → I (z 0).1 → (∀ k, k < N → adv twinRhs h (z k) = .ok (z (k + 1))) → (∀ k, k ≤ N → Inside (z k).2.y) →
    rel (z 0).2.y = 2e-5 → (∀ k, k ≤ N → ‖rel (z k).2.y - turn (k * h) * 2e-5‖ ≤ Q * h ^ p₀) →
    b * h ^ p - D * h ^ (p + 1) ≤ ‖rel (z N).2.y - turn T * 2e-5‖

lemma Drifts.relFar {σ : Type} {adv : Rhs → ℝ → σ × Eng (ℕ → ℝ) ℝ → Res (σ × Eng (ℕ → ℝ) ℝ)} {I : σ → Prop} {p p₀ : ℕ}
    (hp : 1 ≤ p) (hd : Drifts adv I p) {T : ℝ} (hT : 0 < T) : RelFar adv I p₀ p T := by
  obtain ⟨κ, C, δ, hκ, hC, hδ, hd⟩ := hd
  obtain ⟨D, hD, hdrift⟩ := drift hp hT.le hC (B := 1e-4) (by norm_num) κ
  have hκ0 : 0 < ‖κ‖ := norm_pos_iff.2 hκ
  refine ⟨T * ‖κ‖ * 2e-5, by positivity, fun Q hQ => ⟨D, min 1 δ, 0, hD, by positivity, ?_⟩⟩
  intro h N z h0 hle _ hNh hI hz hin hst _
  have hrel : ∀ k, k ≤ N → ‖rel (z k).2.y‖ ≤ 1e-4 := by
    intro k hk
    have := rel_near (y := (z k).2.y) (z := 0) (d := 1.5e-5) (by
      rw [map_zero, sub_zero]
      exact (pi_norm_le_iff_of_nonneg (by norm_num)).2 fun j => hin k hk j j.2)
    rw [map_zero, sub_zero] at this
    exact this.trans (by norm_num)
  obtain ⟨hf, hn⟩ := hd h N z h0 (hle.trans (min_le_right _ _)) hI hz hin
  have hfar := hdrift N h (fun k => rel (z k).2.y) h0.le (hle.trans (min_le_left _ _)) hNh.le hrel hf hn
  have e2 : ‖(2e-5 : ℂ)‖ = 2e-5 := by
    rw [show (2e-5 : ℂ) = ((2e-5 : ℝ) : ℂ) by push_cast; rfl, norm_real, Real.norm_eq_abs, abs_of_pos (by norm_num)]
  simp only [turn_pow, hNh, hst, e2] at hfar
  exact hfar

/-- **A scheme that drifts is off by a multiple of `h^p`.** -/
lemma relFar_far {σ : Type} {adv : Rhs → ℝ → σ × Eng (ℕ → ℝ) ℝ → Res (σ × Eng (ℕ → ℝ) ℝ)} {I : σ → Prop} {p p₀ : ℕ}
    {S : List ℝ → Prop} (hS : ∀ N d, S (List.replicate N d)) (hp₀ : 1 ≤ p₀)
    (ho : SchemeOrder (firstN (6 * 2)) (gravity 2 twinMass) p₀ 0 S adv I) {T : ℝ} (hT : 0 < T) (hd : RelFar adv I p₀ p T) :
    ∃ (c : ℝ) (N₀ : ℕ), 0 < c ∧ ∀ N, N₀ ≤ N → ∀ s e q, I s → firstN (6 * 2) e.y = stateOf 2 twinPos twinVel 0 →
      runScheme (adv twinRhs) (List.replicate N (T / N)) (s, e) = .ok q →
      c / N ^ p < ‖firstN (6 * 2) q.2.y - stateOf 2 twinPos twinVel T‖ := by
  obtain ⟨C₁, δ₁, hC₁, hδ₁, ho⟩ := ho T _ _ hT.le (motion_solves (twin_motion T)) (motion_smooth (twin_motion T) fun t _ => twin_off t)
  obtain ⟨K, hK0, hd⟩ := hd
  obtain ⟨D, δ, N₂, hD, hδ, hd⟩ := hd (4 * C₁) (by positivity)
  -- how small the step has to be
  obtain ⟨η, hη, hη1, hηδ, hηδ₁, hηC, hηD⟩ : ∃ η : ℝ, 0 < η ∧ η ≤ 1 ∧ η ≤ δ ∧ η ≤ δ₁ ∧ C₁ * η ≤ 5e-6 ∧ D * η ≤ K / 2 := by
    refine ⟨min (min 1 δ) (min δ₁ (min (5e-6 / (C₁ + 1)) (K / 2 / (D + 1)))), by positivity, ?_, ?_, ?_, ?_, ?_⟩
    · exact (min_le_left _ _).trans (min_le_left _ _)
    · exact (min_le_left _ _).trans (min_le_right _ _)
    · exact (min_le_right _ _).trans (min_le_left _ _)
    · have h1 : min (min 1 δ) (min δ₁ (min (5e-6 / (C₁ + 1)) (K / 2 / (D + 1)))) ≤ 5e-6 / (C₁ + 1) :=
        (min_le_right _ _).trans ((min_le_right _ _).trans (min_le_left _ _))
      calc _ ≤ C₁ * (5e-6 / (C₁ + 1)) := mul_le_mul_of_nonneg_left h1 hC₁
        _ = 5e-6 * (C₁ / (C₁ + 1)) := by ring
        _ ≤ 5e-6 * 1 := mul_le_mul_of_nonneg_left ((div_le_one (by positivity)).2 (by linarith)) (by norm_num)
        _ = 5e-6 := mul_one _
    · have h1 : min (min 1 δ) (min δ₁ (min (5e-6 / (C₁ + 1)) (K / 2 / (D + 1)))) ≤ K / 2 / (D + 1) :=
        (min_le_right _ _).trans ((min_le_right _ _).trans (min_le_right _ _))
      calc _ ≤ D * (K / 2 / (D + 1)) := mul_le_mul_of_nonneg_left h1 hD
        _ = K / 2 * (D / (D + 1)) := by ring
        _ ≤ K / 2 * 1 := mul_le_mul_of_nonneg_left ((div_le_one (by positivity)).2 (by linarith)) (by positivity)
        _ = K / 2 := mul_one _
  obtain ⟨N₁, hN₁⟩ := exists_nat_gt (T / η)
  refine ⟨K / 16 * T ^ p, max N₂ (max 1 N₁), by positivity, fun N hN s e q hI he hq => ?_⟩
  have hN1 : 1 ≤ N := (le_max_left _ _).trans ((le_max_right _ _).trans hN)
  have hN0 : (0 : ℝ) < N := by exact_mod_cast hN1
  obtain ⟨h, hh⟩ : ∃ h : ℝ, h = T / N := ⟨_, rfl⟩
  rw [← hh] at hq
  have h0 : 0 < h := by rw [hh]; positivity
  have hle : h ≤ η := by
    rw [hh, div_le_iff₀ hN0, mul_comm, ← div_le_iff₀ hη]
    exact hN₁.le.trans (by exact_mod_cast (le_max_right _ _).trans ((le_max_right _ _).trans hN))
  have hNh : N * h = T := by rw [hh]; field_simp
  obtain ⟨z, z0, zN, hz1, hz2⟩ := run_states N hq
  have hsum : ∀ k : ℕ, (List.replicate k h).sum = k * h := fun k => by rw [List.sum_replicate, nsmul_eq_mul]
  -- the states are near the orbit
  have hbound : ∀ k, k ≤ N → ‖firstN (6 * 2) (z k).2.y - stateOf 2 twinPos twinVel (k * h)‖ ≤ C₁ * h ^ p₀ := by
    intro k hk
    have h1 := ho twinRhs 0 le_rfl twin_within (List.replicate k h) h h0.le (hle.trans hηδ₁)
      (fun d hd => by rw [List.eq_of_mem_replicate hd]; exact ⟨h0, le_rfl⟩) (hS k h)
      (by rw [hsum, ← hNh]; exact mul_le_mul_of_nonneg_right (by exact_mod_cast hk) h0.le) s e (z k) hI (hz2 k hk)
    rw [hsum, he, sub_self, norm_zero] at h1
    exact h1.trans (le_of_eq (by ring))
  have hnear : ∀ k, k ≤ N → ‖firstN (6 * 2) (z k).2.y - stateOf 2 twinPos twinVel (k * h)‖ ≤ 5e-6 := by
    intro k hk
    refine (hbound k hk).trans ?_
    have h2 : h ^ p₀ ≤ η := by
      calc h ^ p₀ ≤ h ^ 1 := pow_le_pow_of_le_one h0.le (hle.trans hη1) hp₀
        _ = h := pow_one h
        _ ≤ η := hle
    exact (mul_le_mul_of_nonneg_left h2 hC₁).trans hηC
  have hin : ∀ k, k ≤ N → Inside (z k).2.y := by
    intro k hk j hj
    have h1 := (norm_le_pi_norm _ (⟨j, hj⟩ : Fin (6 * 2))).trans (hnear k hk)
    rw [Real.norm_eq_abs] at h1
    have h2 := twin_abs (k * h) ⟨j, hj⟩
    have h3 : (z k).2.y j = ((firstN (6 * 2) (z k).2.y - stateOf 2 twinPos twinVel (k * h)) ⟨j, hj⟩) +
        stateOf 2 twinPos twinVel (k * h) ⟨j, hj⟩ := by
      show _ = ((z k).2.y j - _) + _
      ring
    rw [h3]
    refine (abs_add_le _ _).trans ((add_le_add h1 h2).trans (by norm_num))
  have hst : rel e.y = 2e-5 := by
    have h1 := rel_near (y := e.y) (z := packed 2 (twinPos 0) (twinVel 0)) (d := 0) (by
      rw [he]
      show ‖stateOf 2 twinPos twinVel 0 - stateOf 2 twinPos twinVel 0‖ ≤ 0
      rw [sub_self, norm_zero])
    rw [mul_zero, norm_le_zero_iff, sub_eq_zero] at h1
    rw [h1, rel_twin, turn]
    simp
  have hrel : ∀ k, k ≤ N → ‖rel (z k).2.y - turn (k * h) * 2e-5‖ ≤ 4 * C₁ * h ^ p₀ := by
    intro k hk
    have h1 := rel_near (y := (z k).2.y) (z := packed 2 (twinPos (k * h)) (twinVel (k * h))) (d := C₁ * h ^ p₀) (hbound k hk)
    rw [rel_twin, mul_comm] at h1
    push_cast at h1 ⊢
    exact h1.trans (le_of_eq (by ring))
  have hfar := hd h N z h0 (hle.trans hηδ) ((le_max_left _ _).trans hN) hNh (by rw [z0]; exact hI) hz1 hin (by rw [z0]; exact hst) hrel
  rw [zN] at hfar
  have e1 : turn T * 2e-5 = rel (packed 2 (twinPos T) (twinVel T)) := by rw [rel_twin]; ring
  rw [e1] at hfar
  have h3 := rel_near (y := q.2.y) (z := packed 2 (twinPos T) (twinVel T)) (d := _) le_rfl
  have h4 := hfar.trans h3
  have h5 : D * h ^ (p + 1) ≤ K / 2 * h ^ p := by
    calc D * h ^ (p + 1) = D * h * h ^ p := by rw [pow_succ]; ring
      _ ≤ D * η * h ^ p := by gcongr
      _ ≤ _ := mul_le_mul_of_nonneg_right hηD (by positivity)
  have h6 : K / 16 * T ^ p / N ^ p = K / 16 * h ^ p := by rw [hh, div_pow]; ring
  have h7 : 0 < K * h ^ p := by positivity
  rw [h6]
  have e3 : stateOf 2 twinPos twinVel T = firstN (6 * 2) (packed 2 (twinPos T) (twinVel T)) := rfl
  rw [e3]
  linarith

end NB
