import Verif.Lemmas.OrderPair
import Verif.Props.C15_AdamsOrder

/-
The order of the Adams-Bashforth solver with equal steps: the rank, or one more than the order of the starter if that
is less (the starter does a fixed number of steps).
-/

namespace NB

open Finset Polynomial
open _root_.NB.Spec (RTree)
open C74 (runScheme plain)

section
variable {E : Type} [NormedAddCommGroup E] [NormedSpace ℝ E]
variable {f : E → E} {L : ℝ} {P : Coeffs E} {T : ℝ} {x : ℝ → E}

/-- The row is exact on the expansion of the solution. -/
lemma adams_series {al : List ℝ} {p : ℕ} (hex : C15.ExactUpTo ℝ al p) (y : E) (h : ℝ) (m : ℕ) :
    series P p (fun τ => 1 / (τ.gamma : ℝ)) y (((m : ℝ) + 1) * h) - series P p (fun τ => 1 / (τ.gamma : ℝ)) y ((m : ℝ) * h) =
      h • ∑ n ∈ range al.length, al.getD n 0 •
        seriesDer P p (fun τ => 1 / (τ.gamma : ℝ)) y (((m : ℝ) - (n : ℝ)) * h) := by
  unfold series seriesDer
  rw [add_sub_add_left_eq_sub, ← sum_sub_distrib, smul_sum]
  simp only [smul_sum]
  rw [sum_comm]
  refine sum_congr rfl fun τ hτ => ?_
  have hτ' := mem_treesUpTo.1 hτ
  have := hex (X ^ τ.order) (by rw [natDegree_X_pow]; exact hτ') (m * h) h
  simp only [eval_pow, eval_X, derivative_X_pow, eval_mul, eval_C] at this
  simp only [smul_smul, ← sum_smul, ← sub_smul, ← sub_mul]
  congr 1
  have e : ((m : ℝ) + 1) * h = m * h + h := by ring
  rw [e, this, mul_sum, sum_mul]
  refine sum_congr rfl fun n _ => ?_
  rw [← order_mul_gamma, sub_mul]
  ring

/-- **The truncation error of the row.** -/
lemma adams_truncation (hL : 0 ≤ L) (hf : ∀ a b, ‖f a - f b‖ ≤ L * ‖a - b‖) (hx : Solves f T x)
    (hJ : Jet f (x '' Set.Icc 0 T) P) {al : List ℝ} (h1 : 1 ≤ al.length) (hex : C15.ExactUpTo ℝ al al.length) :
    ∃ C δ : ℝ, 0 ≤ C ∧ 0 < δ ∧ ∀ t h, 0 ≤ h → h ≤ δ → ((al.length : ℝ) - 1) * h ≤ t → t + h ≤ T →
      ‖x (t + h) - x t - h • ∑ n ∈ range al.length, al.getD n 0 • f (x (t - n * h))‖ ≤ C * h ^ (al.length + 1) := by
  obtain ⟨r, hr⟩ : ∃ r, al.length = r + 1 := ⟨al.length - 1, by omega⟩
  rw [hr] at hex ⊢
  obtain ⟨C₁, δ₁, hC₁, hδ₁, h₁⟩ := solution_near_series hx hJ (r + 1)
  obtain ⟨C₂, δ₂, hC₂, hδ₂, h₂⟩ := series_value hJ (show 1 ≤ r + 1 by omega) (fun τ => 1 / (τ.gamma : ℝ))
  obtain ⟨R, hR⟩ : ∃ R : ℝ, R = (r : ℝ) + 1 := ⟨_, rfl⟩
  have hR1 : 1 ≤ R := by rw [hR]; have : (0 : ℝ) ≤ r := by positivity
                         linarith
  have hR0 : 0 < R := by linarith
  obtain ⟨α, hα⟩ : ∃ α, α = ∑ n ∈ range (r + 1), |al.getD n 0| := ⟨_, rfl⟩
  have hα0 : 0 ≤ α := hα ▸ sum_nonneg fun n _ => abs_nonneg _
  obtain ⟨δ, hδ⟩ : ∃ δ, δ = min 1 (min δ₁ δ₂) / R := ⟨_, rfl⟩
  have hδ0 : 0 < δ := by rw [hδ]; exact div_pos (lt_min one_pos (lt_min hδ₁ hδ₂)) hR0
  have hδR : R * δ = min 1 (min δ₁ δ₂) := by rw [hδ]; field_simp
  obtain ⟨G, hG⟩ : ∃ G, G = C₂ * R ^ (r + 1) + L * (C₁ * R ^ (r + 2)) := ⟨_, rfl⟩
  have hG0 : 0 ≤ G := by rw [hG]; positivity
  refine ⟨2 * (C₁ * R ^ (r + 2)) + α * G, δ, by positivity, hδ0, ?_⟩
  intro t h hh hhδ htl htT
  push_cast at htl
  rw [add_sub_cancel_right] at htl
  -- the beginning of the window
  obtain ⟨t', ht'⟩ : ∃ t', t' = t - (r : ℝ) * h := ⟨_, rfl⟩
  have ht'0 : 0 ≤ t' := by rw [ht']; linarith
  have hmem : x t' ∈ x '' Set.Icc 0 T := Set.mem_image_of_mem x ⟨ht'0, by
    have : 0 ≤ (r : ℝ) * h := by positivity
    rw [ht']; linarith⟩
  have hwin : ∀ j : ℝ, 0 ≤ j → j ≤ R → 0 ≤ j * h ∧ j * h ≤ R * h ∧ j * h ≤ 1 ∧ j * h ≤ δ₁ ∧ j * h ≤ δ₂ ∧ t' + j * h ≤ T := by
    intro j hj hjR
    have a1 : j * h ≤ R * h := mul_le_mul_of_nonneg_right hjR hh
    have a2 : R * h ≤ min 1 (min δ₁ δ₂) := hδR ▸ mul_le_mul_of_nonneg_left hhδ hR0.le
    refine ⟨by positivity, a1, (a1.trans a2).trans (min_le_left _ _),
      (a1.trans a2).trans ((min_le_right _ _).trans (min_le_left _ _)),
      (a1.trans a2).trans ((min_le_right _ _).trans (min_le_right _ _)), ?_⟩
    have : R * h = (r : ℝ) * h + h := by rw [hR]; ring
    rw [ht']; linarith
  have hRh : R * h ≤ 1 := (hwin R hR0.le le_rfl).2.2.1
  have hval : ∀ j : ℝ, 0 ≤ j → j ≤ R →
      ‖series P (r + 1) (fun τ => 1 / (τ.gamma : ℝ)) (x t') (j * h) - x (t' + j * h)‖ ≤ C₁ * R ^ (r + 2) * h ^ (r + 2) := by
    intro j hj hjR
    obtain ⟨a0, a1, -, a2, -, a3⟩ := hwin j hj hjR
    refine (h₁ t' (j * h) ht'0 a0 a2 a3 _ fun τ _ => rfl).trans ?_
    rw [mul_assoc, ← mul_pow]
    exact mul_le_mul_of_nonneg_left (pow_le_pow_left₀ a0 a1 _) hC₁
  have hpow : h ^ (r + 2) ≤ h ^ (r + 1) * 1 := by
    rw [pow_succ]
    refine mul_le_mul_of_nonneg_left ?_ (by positivity)
    have : h ≤ R * h := le_mul_of_one_le_left hh hR1
    linarith
  have hder : ∀ j : ℝ, 0 ≤ j → j ≤ R →
      ‖seriesDer P (r + 1) (fun τ => 1 / (τ.gamma : ℝ)) (x t') (j * h) - f (x (t' + j * h))‖ ≤ G * h ^ (r + 1) := by
    intro j hj hjR
    obtain ⟨a0, a1, -, -, a2, -⟩ := hwin j hj hjR
    have b1 := h₂ (x t') hmem (j * h) a0 a2
    have b2 := (hf _ _).trans (mul_le_mul_of_nonneg_left (hval j hj hjR) hL)
    refine (norm_sub_le_norm_sub_add_norm_sub _ _ _).trans ((add_le_add b1 b2).trans ?_)
    have b3 : C₂ * (j * h) ^ (r + 1) ≤ C₂ * R ^ (r + 1) * h ^ (r + 1) := by
      rw [mul_assoc, ← mul_pow]
      exact mul_le_mul_of_nonneg_left (pow_le_pow_left₀ a0 a1 _) hC₂
    have b4 : L * (C₁ * R ^ (r + 2) * h ^ (r + 2)) ≤ L * (C₁ * R ^ (r + 2)) * h ^ (r + 1) := by
      rw [mul_assoc L]
      refine mul_le_mul_of_nonneg_left (mul_le_mul_of_nonneg_left ?_ (by positivity)) hL
      linarith
    rw [hG, add_mul]
    exact add_le_add b3 b4
  have key := adams_series (P := P) hex (x t') h r
  rw [hr] at key
  have ez : x (t + h) - x t - h • ∑ n ∈ range (r + 1), al.getD n 0 • f (x (t - n * h)) =
      (series P (r + 1) (fun τ => 1 / (τ.gamma : ℝ)) (x t') ((r : ℝ) * h) - x (t' + (r : ℝ) * h)) -
      (series P (r + 1) (fun τ => 1 / (τ.gamma : ℝ)) (x t') (((r : ℝ) + 1) * h) - x (t' + ((r : ℝ) + 1) * h)) +
      h • ∑ n ∈ range (r + 1), al.getD n 0 •
        (seriesDer P (r + 1) (fun τ => 1 / (τ.gamma : ℝ)) (x t') (((r : ℝ) - (n : ℝ)) * h) -
          f (x (t' + ((r : ℝ) - (n : ℝ)) * h))) := by
    have e1 : t' + (r : ℝ) * h = t := by rw [ht']; ring
    have e2 : t' + ((r : ℝ) + 1) * h = t + h := by rw [ht']; ring
    have e3 : ∀ n : ℕ, t' + ((r : ℝ) - (n : ℝ)) * h = t - n * h := fun n => by rw [ht']; ring
    simp only [e1, e2, e3, smul_sub, sum_sub_distrib]
    rw [← key]
    abel
  rw [ez]
  have r0 : (0 : ℝ) ≤ r := by positivity
  have c1 := hval r r0 (by rw [hR]; linarith)
  have c2 := hval ((r : ℝ) + 1) (by positivity) hR.ge
  have c3 : ‖h • ∑ n ∈ range (r + 1), al.getD n 0 •
        (seriesDer P (r + 1) (fun τ => 1 / (τ.gamma : ℝ)) (x t') (((r : ℝ) - (n : ℝ)) * h) -
          f (x (t' + ((r : ℝ) - (n : ℝ)) * h)))‖ ≤ h * (α * (G * h ^ (r + 1))) := by
    rw [norm_smul, Real.norm_of_nonneg hh]
    refine mul_le_mul_of_nonneg_left ((norm_sum_le _ _).trans ?_) hh
    rw [hα, sum_mul]
    refine sum_le_sum fun n hn => ?_
    rw [norm_smul, Real.norm_eq_abs]
    have hn' : (n : ℝ) ≤ r := by exact_mod_cast Nat.lt_succ_iff.1 (mem_range.1 hn)
    have hn0 : (0 : ℝ) ≤ n := by positivity
    exact mul_le_mul_of_nonneg_left (hder _ (by linarith) (by rw [hR]; linarith)) (abs_nonneg _)
  refine (norm_add_le _ _).trans ((add_le_add ((norm_sub_le _ _).trans (add_le_add c1 c2)) c3).trans (le_of_eq ?_))
  ring

end

section
variable {E : Type} [NormedAddCommGroup E] [NormedSpace ℝ E]
variable {π : (ℕ → ℝ) →ₗ[ℝ] E} {f : E → E} {L : ℝ}

/-- Steps of equal length. -/
def Equal (dts : List ℝ) : Prop := ∃ h, ∀ d ∈ dts, d = h

lemma adams_order (hL : 0 ≤ L) (hf : ∀ a b, ‖f a - f b‖ ≤ L * ‖a - b‖) {rank : ℕ}
    {al : List ℝ} (hal : adamsTable (K := ℝ) rank = some al) (correction : Bool) {σ : Type}
    {adv : Rhs → ℝ → σ × Eng (ℕ → ℝ) ℝ → Res (σ × Eng (ℕ → ℝ) ℝ)} {I : σ → Prop} {p₀ : ℕ} {η : ℝ} (hη : 0 ≤ η)
    (hst : LooseOrder π f p₀ η adv I) {p : ℕ} (hpr : p ≤ rank) (hp : p ≤ p₀ + 1) :
    SchemeOrder π f p η Equal (fun F dt x => adamsAdvise F (adv F) rank correction dt x.1 x.2)
      (fun s => s.mstep = 0 ∧ s.corr = 0 ∧ I s.starter) := by
  intro T x P hT hx hJ
  obtain ⟨hr1, hr5⟩ : 1 ≤ rank ∧ rank ≤ 5 := by
    unfold adamsTable at hal
    split_ifs at hal <;> omega
  obtain ⟨al', hal', hlen, hex, -⟩ := C15.adams_order (K := ℝ) rank hr1 hr5
  rw [hal] at hal'
  cases hal'
  rw [← hlen] at hex
  obtain ⟨C₁, δ₁, hC₁, hδ₁, htr⟩ := adams_truncation hL hf hx hJ (by omega) hex
  rw [hlen] at htr
  obtain ⟨C₂, δ₀, hC₂, hδ₀, hstart⟩ := hst T x P hT hx hJ
  obtain ⟨α, hα⟩ : ∃ α, α = ∑ n ∈ range rank, |al.getD n 0| := ⟨_, rfl⟩
  have hα0 : 0 ≤ α := hα ▸ sum_nonneg fun n _ => abs_nonneg _
  obtain ⟨c, hc⟩ : ∃ c, c = α * (L + 1) + C₁ := ⟨_, rfl⟩
  have hc0 : 0 ≤ c := by rw [hc]; positivity
  obtain ⟨M, hM⟩ : ∃ M, M = 1 + C₂ * (rank + 1) := ⟨_, rfl⟩
  have hM1 : 1 ≤ M := by rw [hM]; have : 0 ≤ C₂ * ((rank : ℝ) + 1) := by positivity
                         linarith
  refine ⟨M * Real.exp (c * T), min 1 (min δ₀ δ₁), by positivity, lt_min one_pos (lt_min hδ₀ hδ₁), ?_⟩
  intro F θ hθ hF dts δ hδ hδ' hd ⟨h, hEq⟩ hS s e q hI hq
  have hδ1 : δ ≤ 1 := hδ'.trans (min_le_left _ _)
  have hδδ₀ : δ ≤ δ₀ := hδ'.trans ((min_le_right _ _).trans (min_le_left _ _))
  have hδδ₁ : δ ≤ δ₁ := hδ'.trans ((min_le_right _ _).trans (min_le_right _ _))
  obtain ⟨g, hg⟩ : ∃ g, g = δ ^ p + η + θ := ⟨_, rfl⟩
  have hpow0 : 0 ≤ δ ^ p := by positivity
  have hg0 : 0 ≤ g := by rw [hg]; positivity
  have e9 : ‖π e.y - x 0‖ + δ ^ p + η + θ = ‖π e.y - x 0‖ + g := by rw [hg]; ring
  rw [e9]
  rcases dts.eq_nil_or_concat with rfl | ⟨l0, d0, hl0⟩
  · cases hq
    simp only [List.sum_nil]
    have g1 : 1 ≤ M * Real.exp (c * T) := by
      have a2 : 1 ≤ Real.exp (c * T) := Real.one_le_exp (by positivity)
      nlinarith
    have g2 : ‖π e.y - x 0‖ ≤ ‖π e.y - x 0‖ + g := by linarith
    exact g2.trans (le_mul_of_one_le_left (by positivity) g1)
  have hd0 : d0 ∈ dts := by rw [hl0]; simp
  have hh : 0 < h := hEq d0 hd0 ▸ (hd d0 hd0).1
  have hhδ : h ≤ δ := hEq d0 hd0 ▸ (hd d0 hd0).2
  clear hl0
  obtain ⟨st, h0, h1, h2⟩ := scheme_states dts _ _ hq
  have hget : ∀ k, k < dts.length → dts.getD k 0 = h := by
    intro k hk
    have e : dts.getD k 0 = dts[k] := by simp [List.getD_eq_getElem?_getD, hk]
    rw [e]
    exact hEq _ (List.getElem_mem hk)
  have hsum : dts.sum = dts.length * h := by
    rw [List.eq_replicate_of_mem hEq, List.sum_replicate, nsmul_eq_mul, List.length_replicate]
  have hrun : ∀ k, k ≤ dts.length → C14.Run F (adv F) rank correction
      (fun k => dts.getD k 0) k st := fun k hk =>
    ⟨by rw [h0]; exact ⟨hI.1, hI.2.1⟩, fun j hj => h2 j (by omega)⟩
  have ht : ∀ k, k < dts.length → (k : ℝ) * h + h ≤ T := by
    intro k hk
    have : (k : ℝ) + 1 ≤ dts.length := by exact_mod_cast hk
    nlinarith
  have ht' : ∀ k, k ≤ dts.length → (k : ℝ) * h ≤ T := by
    intro k hk
    have : (k : ℝ) ≤ dts.length := by exact_mod_cast hk
    nlinarith
  have fin := growth (e := fun k => ‖π (st k).2.y - x (k * h)‖ + g) (d := fun k => dts.getD k 0) (M := M) (c := c) (m := rank)
    (N := dts.length) (fun k => by positivity) hM1 hc0 (fun k hk => by rw [hget k hk]; exact hh.le)
    (fun k hk hkr => by
      have hsk : ((List.range k).map fun k => dts.getD k 0).sum = k * h := by
        rw [sum_map_range, sum_congr rfl fun j hj => hget j (by have := mem_range.1 hj; omega)]
        simp
      have g1 := hstart F θ hθ hF ((List.range k).map fun k => dts.getD k 0) h hh.le (hhδ.trans hδδ₀) (fun d hd'' => by
        obtain ⟨j, hj, rfl⟩ := List.mem_map.1 hd''
        rw [hget j (by have := List.mem_range.1 hj; omega)]
        exact ⟨hh, le_rfl⟩) (by rw [hsk]; exact ht' k hk) _ _ _ (by rw [h0]; exact hI.2.2) (adams_starts (hrun _ le_rfl) k hk hkr)
      rw [hsk] at g1
      show ‖π (st k).2.y - x (k * h)‖ + g ≤ M * (‖π (st 0).2.y - x ((0 : ℕ) * h)‖ + g)
      rw [Nat.cast_zero, zero_mul]
      have g5 : ‖π (st k).2.y - x (k * h)‖ ≤
          ‖(π (st k).2.y - x (k * h)) - (π (st 0).2.y - x 0)‖ + ‖π (st 0).2.y - x 0‖ := by
        simpa using norm_add_le ((π (st k).2.y - x (k * h)) - (π (st 0).2.y - x 0)) (π (st 0).2.y - x 0)
      obtain ⟨u, hu⟩ : ∃ u, u = ‖π (st 0).2.y - x 0‖ := ⟨_, rfl⟩
      have hu0 : 0 ≤ u := hu ▸ norm_nonneg _
      simp only at g1
      rw [← hu] at g1 g5 ⊢
      have g6 : (u + (h ^ p₀ + η + θ)) * h ≤ u + g := by
        have a1 : h ≤ 1 := hhδ.trans hδ1
        have a2 : h ^ p₀ * h ≤ δ ^ p := by
          rw [← pow_succ]
          exact (pow_le_pow_left₀ hh.le hhδ _).trans (pow_le_pow_of_le_one hδ hδ1 hp)
        have a3 : u * h ≤ u := mul_le_of_le_one_right hu0 a1
        have a4 : θ * h ≤ θ := mul_le_of_le_one_right hθ a1
        have a5 : η * h ≤ η := mul_le_of_le_one_right hη a1
        rw [hg]
        nlinarith
      have g7 : C₂ * (u + (h ^ p₀ + η + θ)) * (k * h) ≤ C₂ * (rank + 1) * (u + g) := by
        have a1 : (k : ℝ) ≤ rank + 1 := by exact_mod_cast hkr
        have a2 : C₂ * (u + (h ^ p₀ + η + θ)) * (k * h) = C₂ * k * ((u + (h ^ p₀ + η + θ)) * h) := by ring
        rw [a2]
        have a3 : 0 ≤ u + g := by positivity
        gcongr
      rw [hM]
      linarith)
    (fun k hk hkr B hB => by
      obtain ⟨al', e1, -, e2⟩ := C14.adams_step_formula (hrun (k + 1) hk) hkr
      rw [hal] at e1
      cases e1
      rw [hget k hk] at e2
      have hkr' : ((rank : ℝ) - 1) * h ≤ k * h := mul_le_mul_of_nonneg_right (by
        have : (rank : ℝ) ≤ k := by exact_mod_cast hkr.le
        linarith) hh.le
      have g1 := htr (k * h) h hh.le (hhδ.trans hδδ₁) hkr' (ht k hk)
      have e3 : ((k + 1 : ℕ) : ℝ) * h = k * h + h := by push_cast; ring
      show ‖π (st (k + 1)).2.y - x (((k + 1 : ℕ) : ℝ) * h)‖ + g ≤ (1 + c * dts.getD k 0) * B
      rw [hget k hk]
      have hBk := hB k le_rfl
      have hBg : g ≤ B := by have := norm_nonneg (π (st k).2.y - x (k * h)); linarith
      have hB0 : 0 ≤ B := hg0.trans hBg
      have g3 : C₁ * h ^ (rank + 1) ≤ C₁ * B * h := by
        rw [pow_succ, ← mul_assoc]
        refine mul_le_mul_of_nonneg_right (mul_le_mul_of_nonneg_left ?_ hC₁) hh.le
        have a1 : h ^ rank ≤ δ ^ p := (pow_le_pow_left₀ hh.le hhδ _).trans (pow_le_pow_of_le_one hδ hδ1 hpr)
        have a2 : δ ^ p ≤ g := by rw [hg]; linarith
        linarith
      have key := adams_error (π := π) (x := x) (t := k * h) (fun n => f (x (k * h - n * h))) e2 hh.le (A := B - g)
        (R := (L + 1) * B) (B := C₁ * B * h) (by linarith) (fun n hn' => by
          have e5 : (k : ℝ) * h - n * h = ((k - n : ℕ) : ℝ) * h := by
            rw [Nat.cast_sub (by omega)]; ring
          rw [e5]
          have b1 : ‖π (C14.derivAt F st (k - n)) - f (π (st (k - n)).2.y)‖ ≤ θ := hF _ _ _
          have b2 := hf (π (st (k - n)).2.y) (x (((k - n : ℕ) : ℝ) * h))
          have b3 := hB (k - n) (by omega)
          have b4 : θ ≤ g := by rw [hg]; linarith
          have b5 : L * ‖π (st (k - n)).2.y - x (((k - n : ℕ) : ℝ) * h)‖ ≤ L * B :=
            mul_le_mul_of_nonneg_left (by linarith) hL
          refine (norm_sub_le_norm_sub_add_norm_sub _ (f (π (st (k - n)).2.y)) _).trans ?_
          linarith) (g1.trans g3)
      rw [← hα] at key
      rw [e3]
      have g6 : (1 + c * h) * B = B + h * (α * ((L + 1) * B)) + C₁ * B * h := by rw [hc]; ring
      linarith)
  rw [sum_getD] at fin
  simp only [h0, h1, Nat.cast_zero, zero_mul] at fin
  have fin1 : ‖π q.2.y - x dts.sum‖ + g ≤ M * Real.exp (c * dts.sum) * (‖π e.y - x 0‖ + g) := by rw [hsum] at fin ⊢; exact fin
  have hexp : Real.exp (c * dts.sum) ≤ Real.exp (c * T) := Real.exp_le_exp.2 (mul_le_mul_of_nonneg_left hS hc0)
  have fin2 : M * Real.exp (c * dts.sum) * (‖π e.y - x 0‖ + g) ≤ M * Real.exp (c * T) * (‖π e.y - x 0‖ + g) := by gcongr
  linarith

end

end NB
