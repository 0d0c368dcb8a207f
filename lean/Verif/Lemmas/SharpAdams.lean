import Verif.Lemmas.SharpRK
import Verif.Lemmas.OrderAdams

/-
How far the Adams-Bashforth solver is at least: both the row and the steps of the starter are felt.
-/

namespace NB

open Finset Complex Polynomial
open C74 (runScheme plain)

lemma turn_expand (p : ℕ) : ∃ C : ℝ, 0 ≤ C ∧ ∀ x : ℝ, |x| ≤ 1 →
    ‖turn x - ∑ j ∈ range (p + 1), (x * I) ^ j / (j.factorial : ℂ)‖ ≤ C * |x| ^ (p + 1) := by
  refine ⟨(p + 1).succ * ((p + 1).factorial * (p + 1 : ℕ) : ℝ)⁻¹, by positivity, fun x h1 => ?_⟩
  have e : ‖(x * I : ℂ)‖ = |x| := by rw [norm_mul, norm_I, mul_one, norm_real, Real.norm_eq_abs]
  have := Complex.exp_bound (x := x * I) (by rw [e]; exact h1) (n := p + 1) (by omega)
  rw [e, mul_comm (|x| ^ (p + 1))] at this
  exact_mod_cast this

lemma turn_add (x y : ℝ) : turn (x + y) = turn x * turn y := by
  unfold turn
  rw [← Complex.exp_add]
  push_cast
  ring_nf

lemma turn_zero : turn 0 = 1 := by unfold turn; simp

/-- What the row misses of one step around the circle. -/
noncomputable def rowDefect (r : ℕ) (al : ℕ → ℝ) (h : ℝ) : ℂ := turn h - 1 - h * I * ∑ n ∈ range r, al n * turn (-(n * h))

/-- The first term of what the row misses. -/
noncomputable def rowConst (r : ℕ) (al : ℕ → ℝ) : ℝ :=
  (1 - (r + 1 : ℕ) * ∑ n ∈ range r, al n * (-(n : ℝ)) ^ r) / ((r + 1).factorial : ℝ)

lemma row_defect {r : ℕ} {al : ℕ → ℝ}
    (hex : ∀ j, j < r → ((j + 1 : ℕ) : ℝ) * ∑ n ∈ range r, al n * (-(n : ℝ)) ^ j = 1) :
    ∃ R δ : ℝ, 0 ≤ R ∧ 0 < δ ∧ ∀ h, 0 ≤ h → h ≤ δ → ‖rowDefect r al h - rowConst r al * (h * I) ^ (r + 1)‖ ≤ R * h ^ (r + 2) := by
  obtain ⟨C₁, hC₁, h₁⟩ := turn_expand (r + 1)
  obtain ⟨C₂, hC₂, h₂⟩ := turn_expand r
  obtain ⟨α, hα⟩ : ∃ α, α = ∑ n ∈ range r, |al n| := ⟨_, rfl⟩
  have hα0 : 0 ≤ α := hα ▸ sum_nonneg fun n _ => abs_nonneg _
  refine ⟨C₁ + α * (C₂ * (r + 1 : ℝ) ^ (r + 1)), 1 / (r + 1), by positivity, by positivity, fun h h0 hle => ?_⟩
  have hr0 : (0 : ℝ) ≤ r := Nat.cast_nonneg r
  have hle' : (r + 1) * h ≤ 1 := by rw [le_div_iff₀ (by positivity)] at hle; linarith
  have hh1 : h ≤ 1 := by nlinarith
  have g1 := h₁ h (by rw [abs_of_nonneg h0]; exact hh1)
  rw [abs_of_nonneg h0] at g1
  have g2 : ∀ n, n < r → ‖turn (-(n * h)) - ∑ j ∈ range (r + 1), (((-(n * h) : ℝ) : ℂ) * I) ^ j / (j.factorial : ℂ)‖ ≤
      C₂ * (r + 1 : ℝ) ^ (r + 1) * h ^ (r + 1) := by
    intro n hn
    have hn' : (n : ℝ) ≤ r + 1 := by exact_mod_cast (by omega : n ≤ r + 1)
    have hn0 : (0 : ℝ) ≤ n := Nat.cast_nonneg n
    have a1 : |(-(n * h) : ℝ)| = n * h := by rw [abs_neg, abs_of_nonneg (by positivity)]
    have a2 : (n : ℝ) * h ≤ (r + 1) * h := mul_le_mul_of_nonneg_right hn' h0
    have := h₂ (-(n * h)) (by rw [a1]; linarith)
    rw [a1] at this
    refine this.trans ?_
    rw [mul_assoc, ← mul_pow]
    exact mul_le_mul_of_nonneg_left (pow_le_pow_left₀ (by positivity) a2 _) hC₂
  -- the polynomial parts agree up to the first term
  have key : ∑ j ∈ range (r + 2), ((h : ℂ) * I) ^ j / (j.factorial : ℂ) - 1 -
      h * I * ∑ n ∈ range r, al n * ∑ j ∈ range (r + 1), (((-(n * h) : ℝ) : ℂ) * I) ^ j / (j.factorial : ℂ) =
      rowConst r al * (h * I) ^ (r + 1) := by
    have e1 : (h * I : ℂ) * ∑ n ∈ range r, al n * ∑ j ∈ range (r + 1), (((-(n * h) : ℝ) : ℂ) * I) ^ j / (j.factorial : ℂ) =
        ∑ j ∈ range (r + 1), (h * I : ℂ) ^ (j + 1) / ((j + 1).factorial : ℂ) *
          (((j + 1 : ℕ) : ℝ) * ∑ n ∈ range r, al n * (-(n : ℝ)) ^ j : ℝ) := by
      simp only [mul_sum]
      rw [sum_comm]
      refine sum_congr rfl fun j _ => ?_
      push_cast
      simp only [mul_sum]
      refine sum_congr rfl fun n _ => ?_
      have hf : ((j + 1).factorial : ℂ) = (j + 1) * j.factorial := by rw [Nat.factorial_succ]; push_cast; ring
      have hj : (j.factorial : ℂ) ≠ 0 := by exact_mod_cast j.factorial_ne_zero
      have hj1 : ((j : ℂ) + 1) ≠ 0 := by exact_mod_cast (Nat.succ_ne_zero j)
      rw [hf]
      have e2 : (-((n : ℂ) * h) * I) ^ j = (-(n : ℂ)) ^ j * (h * I) ^ j := by rw [← mul_pow]; congr 1; ring
      rw [e2, pow_succ]
      field_simp
    rw [e1, sum_range_succ', Nat.factorial_zero, pow_zero]
    have e3 : ∑ j ∈ range (r + 1), (h * I : ℂ) ^ (j + 1) / ((j + 1).factorial : ℂ) + 1 / ((1 : ℕ) : ℂ) - 1 -
        ∑ j ∈ range (r + 1), (h * I : ℂ) ^ (j + 1) / ((j + 1).factorial : ℂ) *
          (((j + 1 : ℕ) : ℝ) * ∑ n ∈ range r, al n * (-(n : ℝ)) ^ j : ℝ) =
        ∑ j ∈ range (r + 1), (h * I : ℂ) ^ (j + 1) / ((j + 1).factorial : ℂ) *
          ((1 - ((j + 1 : ℕ) : ℝ) * ∑ n ∈ range r, al n * (-(n : ℝ)) ^ j : ℝ) : ℂ) := by
      simp only [ofReal_sub, ofReal_one, mul_sub, mul_one, sum_sub_distrib]
      push_cast
      ring
    rw [e3, sum_range_succ, sum_eq_zero, zero_add]
    · unfold rowConst
      push_cast
      ring
    · intro j hj
      rw [hex j (mem_range.1 hj), sub_self, ofReal_zero, mul_zero]
  have ez : rowDefect r al h - rowConst r al * (h * I) ^ (r + 1) =
      (turn h - ∑ j ∈ range (r + 2), ((h : ℂ) * I) ^ j / (j.factorial : ℂ)) -
      h * I * ∑ n ∈ range r, al n * (turn (-(n * h)) - ∑ j ∈ range (r + 1), (((-(n * h) : ℝ) : ℂ) * I) ^ j / (j.factorial : ℂ)) := by
    rw [← key, rowDefect]
    simp only [mul_sub, sum_sub_distrib]
    ring
  rw [ez]
  have g3 : ‖(h * I : ℂ) * ∑ n ∈ range r, al n * (turn (-(n * h)) - ∑ j ∈ range (r + 1), (((-(n * h) : ℝ) : ℂ) * I) ^ j / (j.factorial : ℂ))‖ ≤
      h * (α * (C₂ * (r + 1 : ℝ) ^ (r + 1) * h ^ (r + 1))) := by
    rw [norm_mul, norm_mul, norm_I, mul_one, norm_real, Real.norm_eq_abs, abs_of_nonneg h0]
    refine mul_le_mul_of_nonneg_left ((norm_sum_le _ _).trans ?_) h0
    rw [hα, sum_mul]
    refine sum_le_sum fun n hn => ?_
    rw [norm_mul, norm_real, Real.norm_eq_abs]
    exact mul_le_mul_of_nonneg_left (g2 n (mem_range.1 hn)) (abs_nonneg _)
  refine (norm_sub_le _ _).trans ((add_le_add g1 g3).trans (le_of_eq ?_))
  ring

lemma turn_near (h : ℝ) : ‖turn h - 1‖ ≤ |h| := by
  have := Real.norm_exp_I_mul_ofReal_sub_one_le (x := h)
  unfold turn
  rw [mul_comm]
  simpa using this

/-- **The distance after `N` steps**, `r + 1` of which are made by the starter. -/
lemma multistep_drift {r p₀ P : ℕ} (hPr : P ≤ r) (hPp : P ≤ p₀ + 1) (hP : 1 ≤ P) {al : ℕ → ℝ}
    (hex : ∀ j, j < r → ((j + 1 : ℕ) : ℝ) * ∑ n ∈ range r, al n * (-(n : ℝ)) ^ j = 1) {T C Q W : ℝ} (hT : 0 ≤ T) (hC : 0 ≤ C)
    (hQ : 0 ≤ Q) (hW : 0 ≤ W) (k₀ : ℝ) :
    ∃ D δ : ℝ, 0 ≤ D ∧ 0 < δ ∧ ∀ (N : ℕ) (h : ℝ) (w : ℕ → ℂ), 0 < h → h ≤ δ → r + 1 ≤ N → N * h = T → ‖w 0‖ ≤ W →
      (∀ k, k ≤ N → ‖w k - turn (k * h) * w 0‖ ≤ Q * h ^ P) →
      (∀ k, k ≤ r → ‖w (k + 1) - (turn h + k₀ * I ^ (p₀ + 1) * h ^ (p₀ + 1)) * w k‖ ≤ C * h ^ (p₀ + 2)) →
      (∀ k, r < k → k < N → w (k + 1) = w k + h * I * ∑ n ∈ range r, al n * w (k - n)) →
      ‖(w N - turn T * w 0) -
        turn T * (w 0 * ((r + 1 : ℕ) * (k₀ * I ^ (p₀ + 1) * h ^ (p₀ + 1)) - T * (rowConst r al * I ^ (r + 1) * h ^ r)))‖ ≤ D * h ^ (P + 1) := by
  obtain ⟨R, δ, hR, hδ, hrow⟩ := row_defect hex
  obtain ⟨c, hc⟩ : ∃ c, c = rowConst r al := ⟨_, rfl⟩
  rw [← hc] at hrow ⊢
  obtain ⟨α, hα⟩ : ∃ α, α = ∑ n ∈ range r, |al n| := ⟨_, rfl⟩
  have hα0 : 0 ≤ α := hα ▸ sum_nonneg fun n _ => abs_nonneg _
  obtain ⟨S₁, hS₁⟩ : ∃ S, S = C + |k₀| * (W + Q) := ⟨_, rfl⟩
  obtain ⟨S₂, hS₂⟩ : ∃ S, S = (|c| + R) * (W + Q) + α * (2 * Q) := ⟨_, rfl⟩
  obtain ⟨S₃, hS₃⟩ : ∃ S, S = (R + |c|) * (W + Q) + α * (r * S₂) := ⟨_, rfl⟩
  obtain ⟨S₄, hS₄⟩ : ∃ S, S = S₂ + |c| * W := ⟨_, rfl⟩
  have hS₁0 : 0 ≤ S₁ := by rw [hS₁]; positivity
  have hS₂0 : 0 ≤ S₂ := by rw [hS₂]; positivity
  have hS₃0 : 0 ≤ S₃ := by rw [hS₃]; positivity
  have hS₄0 : 0 ≤ S₄ := by rw [hS₄]; positivity
  refine ⟨(r + 1) * S₁ + 2 * r * S₄ + T * S₃ + (r + 1) * (|c| * W), min 1 δ, by positivity, by positivity, ?_⟩
  intro N h w h0 hle hrN hNh hW0 hq hstart hnext
  have hh1 : h ≤ 1 := hle.trans (min_le_left _ _)
  have hpow : ∀ m, 0 ≤ h ^ m := fun m => pow_nonneg h0.le m
  have hmono : ∀ {m l : ℕ}, l ≤ m → h ^ m ≤ h ^ l := fun hl => pow_le_pow_of_le_one h0.le hh1 hl
  obtain ⟨v, hv⟩ : ∃ v : ℕ → ℂ, v = fun k : ℕ => turn (-(k * h)) * w k - w 0 := ⟨_, rfl⟩
  have hcan : ∀ x : ℝ, turn (-x) * turn x = 1 := fun x => by rw [← turn_add, neg_add_cancel, turn_zero]
  have hcan' : ∀ x : ℝ, turn x * turn (-x) = 1 := fun x => by rw [mul_comm]; exact hcan x
  have hvn : ∀ k, k ≤ N → ‖v k‖ ≤ Q * h ^ P := fun k hk => by
    have e : v k = turn (-(k * h)) * (w k - turn (k * h) * w 0) := by
      rw [hv, mul_sub, ← mul_assoc, hcan, one_mul]
    rw [e, norm_mul, norm_turn, one_mul]
    exact hq k hk
  have hvq : ∀ k, k ≤ N → ‖v k‖ ≤ Q * h := fun k hk => (hvn k hk).trans
    (mul_le_mul_of_nonneg_left ((hmono hP).trans_eq (pow_one h)) hQ)
  have hwv : ∀ k : ℕ, w k = turn (k * h) * (w 0 + v k) := fun k => by
    rw [hv]
    simp only [add_sub_cancel]
    rw [← mul_assoc, hcan', one_mul]
  have hv0 : v 0 = 0 := by rw [hv]; simp [turn_zero]
  have hE : ‖turn (-h) - 1‖ ≤ h := (turn_near _).trans_eq (by rw [abs_neg, abs_of_pos h0])
  have hsucc : ∀ k : ℕ, turn (-(((k + 1 : ℕ) : ℝ) * h)) = turn (-h) * turn (-(k * h)) := fun k => by
    rw [← turn_add]; congr 1; push_cast; ring
  -- a multiple of `w 0`, turned back
  have hrot : ∀ (k : ℕ), k ≤ N → ∀ x : ℂ, ‖x * ((turn (-h) - 1) * w 0 + turn (-h) * v k)‖ ≤ ‖x‖ * ((W + Q) * h) := by
    intro k hk x
    rw [norm_mul]
    refine mul_le_mul_of_nonneg_left ((norm_add_le _ _).trans ?_) (norm_nonneg _)
    rw [norm_mul, norm_mul, norm_turn, one_mul]
    have := mul_le_mul hE hW0 (norm_nonneg _) h0.le
    have := hvq k hk
    linarith
  have hsum0 : ∀ k, k ≤ N → ‖w 0 + v k‖ ≤ W + Q := fun k hk => (norm_add_le _ _).trans (add_le_add hW0
    ((hvq k hk).trans (mul_le_of_le_one_right hQ hh1)))
  -- the steps of the starter
  obtain ⟨a, ha⟩ : ∃ a : ℂ, a = k₀ * I ^ (p₀ + 1) * h ^ (p₀ + 1) := ⟨_, rfl⟩
  have han : ‖a‖ = |k₀| * h ^ (p₀ + 1) := by
    rw [ha, norm_mul, norm_mul, norm_pow, norm_pow, norm_I, one_pow, mul_one, norm_real, norm_real, Real.norm_eq_abs, Real.norm_eq_abs,
      abs_of_pos h0]
  have s1 : ∀ k, k ≤ r → ‖v (k + 1) - v k - a * w 0‖ ≤ S₁ * h ^ (P + 1) := by
    intro k hk
    have h1 := hstart k hk
    rw [← ha] at h1
    have e : v (k + 1) - v k - a * w 0 = turn (-h) * turn (-(k * h)) * (w (k + 1) - (turn h + a) * w k) +
        a * ((turn (-h) - 1) * w 0 + turn (-h) * v k) := by
      have e1 : v (k + 1) = turn (-h) * turn (-(k * h)) * w (k + 1) - w 0 := by rw [hv]; simp only [hsucc]
      have e2 := hwv k
      have e3 : turn (-(k * h)) * w k = w 0 + v k := by rw [e2, ← mul_assoc, hcan, one_mul]
      have e4 := hcan h
      rw [e1]
      linear_combination (a * turn (-h) + turn (-h) * turn h) * e3 + (w 0 + v k) * e4
    have t0 : ‖turn (-h) * turn (-(k * h)) * (w (k + 1) - (turn h + a) * w k)‖ ≤ C * h ^ (p₀ + 2) := by
      rw [norm_mul, norm_mul, norm_turn, norm_turn, one_mul, one_mul]
      exact h1
    rw [e]
    refine (norm_add_le _ _).trans ((add_le_add t0 (hrot k (by omega) a)).trans
      (le_trans (b := S₁ * h ^ (p₀ + 2)) ?_ (mul_le_mul_of_nonneg_left (hmono (by omega)) hS₁0)))
    rw [han, hS₁]
    exact le_of_eq (by ring)
  -- the steps of the row
  have hρ : ‖rowDefect r al h - c * (h * I) ^ (r + 1)‖ ≤ R * h ^ (r + 2) := hrow h h0.le (hle.trans (min_le_right _ _))
  have hcn : ‖(c : ℂ) * (h * I) ^ (r + 1)‖ = |c| * h ^ (r + 1) := by
    rw [norm_mul, norm_pow, norm_mul, norm_I, mul_one, norm_real, norm_real, Real.norm_eq_abs, Real.norm_eq_abs, abs_of_pos h0]
  have hρ1 : ‖rowDefect r al h‖ ≤ (|c| + R) * h ^ (r + 1) := by
    have e : rowDefect r al h = (rowDefect r al h - c * (h * I) ^ (r + 1)) + c * (h * I) ^ (r + 1) := by ring
    rw [e]
    refine (norm_add_le _ _).trans ?_
    rw [hcn]
    have := mul_le_mul_of_nonneg_left (hmono (show r + 1 ≤ r + 2 by omega)) hR
    linarith
  have hid : ∀ k, r < k → k < N → v (k + 1) - v k = -(turn (-h) * rowDefect r al h * (w 0 + v k)) +
      turn (-h) * (h * I * ∑ n ∈ range r, al n * turn (-(n * h)) * (v (k - n) - v k)) := by
    intro k hk hkN
    have e1 : v (k + 1) = turn (-h) * turn (-(k * h)) * w (k + 1) - w 0 := by rw [hv]; simp only [hsucc]
    have e3 : turn (-(k * h)) * w k = w 0 + v k := by rw [hwv k, ← mul_assoc, hcan, one_mul]
    have e5 : turn (-(k * h)) * ∑ n ∈ range r, al n * w (k - n) = ∑ n ∈ range r, al n * turn (-(n * h)) * (w 0 + v (k - n)) := by
      rw [mul_sum]
      refine sum_congr rfl fun n hn => ?_
      have hn' := mem_range.1 hn
      rw [hwv (k - n), Nat.cast_sub (by omega)]
      have e6 : turn (-(k * h)) * turn (((k : ℝ) - n) * h) = turn (-(n * h)) := by rw [← turn_add]; congr 1; ring
      rw [← e6]
      ring
    have e7 : ∑ n ∈ range r, al n * turn (-(n * h)) * (v (k - n) - v k) =
        ∑ n ∈ range r, al n * turn (-(n * h)) * (w 0 + v (k - n)) - (∑ n ∈ range r, al n * turn (-(n * h))) * (w 0 + v k) := by
      rw [sum_mul, ← sum_sub_distrib]
      exact sum_congr rfl fun n _ => by ring
    rw [e1, hnext k hk hkN, e7, ← e5, rowDefect]
    have e4 := hcan h
    linear_combination turn (-h) * e3 + (w 0 + v k) * e4
  have htail : ∀ (k : ℕ) (B : ℝ), (∀ n, n < r → ‖v (k - n) - v k‖ ≤ B) →
      ‖turn (-h) * (h * I * ∑ n ∈ range r, al n * turn (-(n * h)) * (v (k - n) - v k))‖ ≤ h * (α * B) := by
    intro k B hB
    rw [norm_mul, norm_turn, one_mul, norm_mul, norm_mul, norm_I, mul_one, norm_real, Real.norm_eq_abs, abs_of_pos h0]
    refine mul_le_mul_of_nonneg_left ((norm_sum_le _ _).trans ?_) h0.le
    rw [hα, sum_mul]
    refine sum_le_sum fun n hn => ?_
    rw [norm_mul, norm_mul, norm_turn, mul_one, norm_real, Real.norm_eq_abs]
    exact mul_le_mul_of_nonneg_left (hB n (mem_range.1 hn)) (abs_nonneg _)
  have s2 : ∀ k, r < k → k < N → ‖v (k + 1) - v k‖ ≤ S₂ * h ^ (P + 1) := by
    intro k hk hkN
    rw [hid k hk hkN]
    have t1 := htail k (2 * Q * h ^ P) (fun n _ => (norm_sub_le _ _).trans (by
      have := hvn (k - n) (by omega)
      have := hvn k hkN.le
      linarith))
    refine (norm_add_le _ _).trans ((add_le_add ?_ t1).trans (le_of_eq (b := (|c| + R) * h ^ (P + 1) * (W + Q) + h * (α * (2 * Q * h ^ P))) rfl |>.trans
      (le_of_eq (by rw [hS₂]; ring))))
    rw [norm_neg, norm_mul, norm_mul, norm_turn, one_mul]
    exact mul_le_mul (hρ1.trans (mul_le_mul_of_nonneg_left (hmono (by omega)) (by positivity))) (hsum0 k hkN.le) (norm_nonneg _)
      (by positivity)
  have hback : ∀ k n, k ≤ N → n ≤ k → r < k - n → ‖v (k - n) - v k‖ ≤ n * (S₂ * h ^ (P + 1)) := by
    intro k n hk
    induction n with
    | zero => intro _ _; simp
    | succ n ih =>
      intro hnk hr
      have h1 := ih (by omega) (by omega)
      have h2 := s2 (k - (n + 1)) hr (by omega)
      rw [show k - (n + 1) + 1 = k - n by omega] at h2
      have e : v (k - (n + 1)) - v k = (v (k - n) - v k) - (v (k - n) - v (k - (n + 1))) := by ring
      rw [e]
      refine (norm_sub_le _ _).trans ?_
      push_cast
      linarith
  have s3 : ∀ k, r < k → 2 * r ≤ k → k < N → ‖v (k + 1) - v k + c * (h * I) ^ (r + 1) * w 0‖ ≤ S₃ * h ^ (P + 2) := by
    intro k hk hk2 hkN
    have e : v (k + 1) - v k + c * (h * I) ^ (r + 1) * w 0 =
        -(turn (-h) * (rowDefect r al h - c * (h * I) ^ (r + 1)) * (w 0 + v k)) -
          c * (h * I) ^ (r + 1) * ((turn (-h) - 1) * w 0 + turn (-h) * v k) +
        turn (-h) * (h * I * ∑ n ∈ range r, al n * turn (-(n * h)) * (v (k - n) - v k)) := by
      rw [hid k hk hkN]
      ring
    have t1 := htail k (r * (S₂ * h ^ (P + 1))) (fun n hn => (hback k n hkN.le (by omega) (by omega)).trans
      (mul_le_mul_of_nonneg_right (by exact_mod_cast hn.le) (mul_nonneg hS₂0 (hpow _))))
    have t2 : ‖-(turn (-h) * (rowDefect r al h - c * (h * I) ^ (r + 1)) * (w 0 + v k))‖ ≤ R * h ^ (P + 2) * (W + Q) := by
      rw [norm_neg, norm_mul, norm_mul, norm_turn, one_mul]
      exact mul_le_mul (hρ.trans (mul_le_mul_of_nonneg_left (hmono (by omega)) hR)) (hsum0 k hkN.le) (norm_nonneg _)
        (mul_nonneg hR (hpow _))
    have t3 := hrot k hkN.le (c * (h * I) ^ (r + 1))
    rw [hcn] at t3
    have t4 : |c| * h ^ (r + 1) * ((W + Q) * h) ≤ |c| * (W + Q) * h ^ (P + 2) := by
      have e1 : |c| * h ^ (r + 1) * ((W + Q) * h) = |c| * (W + Q) * h ^ (r + 2) := by ring
      rw [e1]
      exact mul_le_mul_of_nonneg_left (hmono (by omega)) (by positivity)
    rw [e]
    refine (norm_add_le _ _).trans ((add_le_add ((norm_sub_le _ _).trans (add_le_add t2 (t3.trans t4))) t1).trans (le_of_eq ?_))
    rw [hS₃]
    ring
  have s4 : ∀ k, r < k → k < N → ‖v (k + 1) - v k + c * (h * I) ^ (r + 1) * w 0‖ ≤ S₄ * h ^ (P + 1) := by
    intro k hk hkN
    have t1 : ‖c * (h * I) ^ (r + 1) * w 0‖ ≤ |c| * h ^ (P + 1) * W := by
      rw [norm_mul, hcn]
      exact mul_le_mul (mul_le_mul_of_nonneg_left (hmono (by omega)) (abs_nonneg _)) hW0 (norm_nonneg _) (by positivity)
    refine (norm_add_le _ _).trans ((add_le_add (s2 k hk hkN) t1).trans (le_of_eq ?_))
    rw [hS₄]
    ring
  -- the sum
  have f1 : ∀ k, k ≤ r + 1 → ‖v k - k * (a * w 0)‖ ≤ k * (S₁ * h ^ (P + 1)) := by
    intro k
    induction k with
    | zero => intro _; simp [hv0]
    | succ k ih =>
      intro hk
      have h1 := ih (by omega)
      have h2 := s1 k (by omega)
      have e : v (k + 1) - ((k + 1 : ℕ) : ℂ) * (a * w 0) = (v k - k * (a * w 0)) + (v (k + 1) - v k - a * w 0) := by push_cast; ring
      rw [e]
      refine (norm_add_le _ _).trans ?_
      push_cast
      linarith
  have f2 : ∀ m, r + 1 + m ≤ N → ‖v (r + 1 + m) - ((r + 1 : ℕ) * (a * w 0) - m * (c * (h * I) ^ (r + 1) * w 0))‖ ≤
      (r + 1 : ℕ) * (S₁ * h ^ (P + 1)) + (min (r + 1 + m) (2 * r) : ℕ) * (S₄ * h ^ (P + 1)) + m * (S₃ * h ^ (P + 2)) := by
    intro m
    have b4 : 0 ≤ S₄ * h ^ (P + 1) := mul_nonneg hS₄0 (hpow _)
    have b3 : 0 ≤ S₃ * h ^ (P + 2) := mul_nonneg hS₃0 (hpow _)
    induction m with
    | zero =>
      intro _
      have h1 := f1 (r + 1) le_rfl
      have : (0 : ℝ) ≤ (min (r + 1 + 0) (2 * r) : ℕ) * (S₄ * h ^ (P + 1)) := by positivity
      simp only [add_zero, Nat.cast_zero, zero_mul, sub_zero] at *
      linarith
    | succ m ih =>
      intro hm
      have h1 := ih (by omega)
      have e : v (r + 1 + (m + 1)) - ((r + 1 : ℕ) * (a * w 0) - ((m + 1 : ℕ) : ℂ) * (c * (h * I) ^ (r + 1) * w 0)) =
          (v (r + 1 + m) - ((r + 1 : ℕ) * (a * w 0) - m * (c * (h * I) ^ (r + 1) * w 0))) +
          (v (r + 1 + m + 1) - v (r + 1 + m) + c * (h * I) ^ (r + 1) * w 0) := by push_cast; ring
      rw [e]
      refine (norm_add_le _ _).trans ?_
      by_cases hk : r + 1 + m < 2 * r
      · have h2 := s4 (r + 1 + m) (by omega) (by omega)
        have e1 : ((min (r + 1 + (m + 1)) (2 * r) : ℕ) : ℝ) = (min (r + 1 + m) (2 * r) : ℕ) + 1 := by
          have : min (r + 1 + (m + 1)) (2 * r) = min (r + 1 + m) (2 * r) + 1 := by omega
          rw [this]; push_cast; ring
        rw [e1]
        push_cast
        push_cast at h1
        linarith
      · have h2 := s3 (r + 1 + m) (by omega) (by omega) (by omega)
        have e1 : min (r + 1 + (m + 1)) (2 * r) = min (r + 1 + m) (2 * r) := by omega
        rw [e1]
        push_cast
        push_cast at h1
        linarith
  obtain ⟨m, rfl⟩ : ∃ m, N = r + 1 + m := ⟨N - (r + 1), by omega⟩
  have f3 := f2 m le_rfl
  have hwN : w (r + 1 + m) - turn T * w 0 = turn T * v (r + 1 + m) := by
    have := hwv (r + 1 + m)
    rw [hNh] at this
    rw [this]
    ring
  have hTm : (T : ℂ) * (c * I ^ (r + 1) * h ^ r) = ((r + 1 : ℕ) + m) * (c * (h * I) ^ (r + 1)) := by
    rw [← hNh]
    push_cast
    rw [mul_pow, pow_succ (h : ℂ) r]
    ring
  rw [hwN, hTm, ← ha, ← mul_sub, norm_mul, norm_turn, one_mul]
  have e8 : v (r + 1 + m) - w 0 * ((r + 1 : ℕ) * a - ((r + 1 : ℕ) + m) * (c * (h * I) ^ (r + 1))) =
      (v (r + 1 + m) - ((r + 1 : ℕ) * (a * w 0) - m * (c * (h * I) ^ (r + 1) * w 0))) + (r + 1 : ℕ) * (c * (h * I) ^ (r + 1) * w 0) := by
    ring
  rw [e8]
  have t1 : ‖((r + 1 : ℕ) : ℂ) * (c * (h * I) ^ (r + 1) * w 0)‖ ≤ (r + 1) * (|c| * h ^ (P + 1) * W) := by
    rw [norm_mul, norm_mul, hcn, Complex.norm_natCast]
    push_cast
    refine mul_le_mul_of_nonneg_left ?_ (by positivity)
    exact mul_le_mul (mul_le_mul_of_nonneg_left (hmono (by omega)) (abs_nonneg _)) hW0 (norm_nonneg _) (by positivity)
  refine (norm_add_le _ _).trans ((add_le_add f3 t1).trans ?_)
  have t2 : ((min (r + 1 + m) (2 * r) : ℕ) : ℝ) * (S₄ * h ^ (P + 1)) ≤ 2 * r * (S₄ * h ^ (P + 1)) := by
    refine mul_le_mul_of_nonneg_right ?_ (mul_nonneg hS₄0 (hpow _))
    exact_mod_cast min_le_right _ _
  have t3 : (m : ℝ) * (S₃ * h ^ (P + 2)) ≤ T * S₃ * h ^ (P + 1) := by
    have : (m : ℝ) * h ≤ T := by
      rw [← hNh]
      exact mul_le_mul_of_nonneg_right (by exact_mod_cast (by omega : m ≤ r + 1 + m)) h0.le
    calc (m : ℝ) * (S₃ * h ^ (P + 2)) = m * h * (S₃ * h ^ (P + 1)) := by rw [pow_succ h (P + 1)]; ring
      _ ≤ T * (S₃ * h ^ (P + 1)) := mul_le_mul_of_nonneg_right this (mul_nonneg hS₃0 (hpow _))
      _ = _ := by ring
  have t4 : ((r + 1 : ℕ) : ℝ) = r + 1 := by push_cast; ring
  rw [t4]
  linarith

/-- The two causes do not cancel: they are at a right angle when they are of the same order. -/
lemma causes_add {r p₀ P : ℕ} (hP : P = min r (p₀ + 1)) {T k₀ c : ℝ} (hT : 0 < T) (hk : k₀ ≠ 0) (hc : c ≠ 0) :
    ∃ b E : ℝ, 0 < b ∧ 0 ≤ E ∧ ∀ h : ℝ, 0 < h → h ≤ 1 → b * h ^ P - E * h ^ (P + 1) ≤
      ‖((r + 1 : ℕ) : ℂ) * (k₀ * I ^ (p₀ + 1) * h ^ (p₀ + 1)) - T * (c * I ^ (r + 1) * h ^ r)‖ := by
  have n1 : ∀ h : ℝ, 0 < h → ‖((r + 1 : ℕ) : ℂ) * (k₀ * I ^ (p₀ + 1) * h ^ (p₀ + 1))‖ = (r + 1) * |k₀| * h ^ (p₀ + 1) := fun h h0 => by
    rw [norm_mul, norm_mul, norm_mul, norm_pow, norm_pow, norm_I, one_pow, mul_one, norm_real, norm_real, Real.norm_eq_abs,
      Real.norm_eq_abs, abs_of_pos h0, Complex.norm_natCast]
    push_cast
    ring
  have n2 : ∀ h : ℝ, 0 < h → ‖(T : ℂ) * (c * I ^ (r + 1) * h ^ r)‖ = T * |c| * h ^ r := fun h h0 => by
    rw [norm_mul, norm_mul, norm_mul, norm_pow, norm_pow, norm_I, one_pow, mul_one, norm_real, norm_real, norm_real, Real.norm_eq_abs,
      Real.norm_eq_abs, Real.norm_eq_abs, abs_of_pos h0, abs_of_pos hT]
    ring
  have hk' := abs_pos.2 hk
  have hc' := abs_pos.2 hc
  rcases lt_trichotomy r (p₀ + 1) with hlt | heq | hgt
  · refine ⟨T * |c|, (r + 1) * |k₀|, by positivity, by positivity, fun h h0 h1 => ?_⟩
    obtain rfl : P = r := by omega
    have := norm_sub_norm_le ((T : ℂ) * (c * I ^ (P + 1) * h ^ P)) (((P + 1 : ℕ) : ℂ) * (k₀ * I ^ (p₀ + 1) * h ^ (p₀ + 1)))
    rw [n1 h h0, n2 h h0, norm_sub_rev] at this
    have h2 : (P + 1) * |k₀| * h ^ (p₀ + 1) ≤ (P + 1) * |k₀| * h ^ (P + 1) :=
      mul_le_mul_of_nonneg_left (pow_le_pow_of_le_one h0.le h1 (by omega)) (by positivity)
    linarith
  · refine ⟨T * |c|, 0, by positivity, le_rfl, fun h h0 h1 => ?_⟩
    obtain rfl : P = r := by omega
    have e : ((P + 1 : ℕ) : ℂ) * (k₀ * I ^ (p₀ + 1) * h ^ (p₀ + 1)) - T * (c * I ^ (P + 1) * h ^ P) =
        (h : ℂ) ^ P * (I ^ P * ((((P + 1) * k₀ : ℝ) : ℂ) - ((T * c : ℝ) : ℂ) * I)) := by
      rw [← heq]
      push_cast
      ring
    rw [e, norm_mul, norm_mul, norm_pow, norm_pow, norm_I, one_pow, one_mul, norm_real, Real.norm_eq_abs, abs_of_pos h0]
    have h2 := abs_im_le_norm ((((P + 1) * k₀ : ℝ) : ℂ) - ((T * c : ℝ) : ℂ) * I)
    have h3 : ((((P + 1) * k₀ : ℝ) : ℂ) - ((T * c : ℝ) : ℂ) * I).im = -(T * c) := by
      simp [-ofReal_mul]
    rw [h3, abs_neg, abs_mul, abs_of_pos hT] at h2
    rw [zero_mul, sub_zero, mul_comm]
    exact mul_le_mul_of_nonneg_left h2 (by positivity)
  · refine ⟨(r + 1) * |k₀|, T * |c|, by positivity, by positivity, fun h h0 h1 => ?_⟩
    obtain rfl : P = p₀ + 1 := by omega
    have := norm_sub_norm_le (((r + 1 : ℕ) : ℂ) * (k₀ * I ^ (p₀ + 1) * h ^ (p₀ + 1))) ((T : ℂ) * (c * I ^ (r + 1) * h ^ r))
    rw [n1 h h0, n2 h h0] at this
    have h2 : T * |c| * h ^ r ≤ T * |c| * h ^ (p₀ + 1 + 1) :=
      mul_le_mul_of_nonneg_left (pow_le_pow_of_le_one h0.le h1 (by omega)) (by positivity)
    linarith

/-- **The Adams solver is off by a multiple of `h^P`**, `P` being the rank or one more than the order of the starter if that is
less. -/
lemma adams_relFar {rank : ℕ} {al : List ℝ} (hal : adamsTable (K := ℝ) rank = some al) (correction : Bool) {σ : Type}
    {adv : Rhs → ℝ → σ × Eng (ℕ → ℝ) ℝ → Res (σ × Eng (ℕ → ℝ) ℝ)} {Z : σ → Prop} {p₀ P : ℕ} (hst : SameDrift adv Z p₀)
    (hP : P = min rank (p₀ + 1)) {T : ℝ} (hT : 0 < T) :
    RelFar (fun F dt x => adamsAdvise F (adv F) rank correction dt x.1 x.2) (fun s => s.mstep = 0 ∧ s.corr = 0 ∧ Z s.starter) P P T := by
  obtain ⟨hr1, hr5⟩ : 1 ≤ rank ∧ rank ≤ 5 := by
    unfold adamsTable at hal
    split_ifs at hal <;> omega
  have hlen : al.length = rank ∧ (∀ j, j < rank → ((j + 1 : ℕ) : ℝ) * ∑ n ∈ range rank, al.getD n 0 * (-(n : ℝ)) ^ j = 1) ∧
      rowConst rank (fun n => al.getD n 0) ≠ 0 := by
    obtain ⟨al', hal', hlen, hex, hno⟩ := C15.adams_order (K := ℝ) rank hr1 hr5
    rw [hal] at hal'
    cases hal'
    have mono : ∀ j, j ≤ rank → (∀ t h : ℝ, (t + h) ^ (j + 1) - t ^ (j + 1) =
        h * ∑ n ∈ range al.length, al.getD n 0 * (((j + 1 : ℕ) : ℝ) * (t - n * h) ^ j)) →
        ((j + 1 : ℕ) : ℝ) * ∑ n ∈ range rank, al.getD n 0 * (-(n : ℝ)) ^ j = 1 := by
      intro j _ hj
      have := hj 0 1
      simp only [zero_add, one_pow, one_mul, mul_one, zero_sub, hlen] at this
      rw [mul_sum]
      rw [zero_pow (by omega), sub_zero] at this
      rw [this]
      exact sum_congr rfl fun n _ => by ring
    have first : ∀ j, j < rank → ((j + 1 : ℕ) : ℝ) * ∑ n ∈ range rank, al.getD n 0 * (-(n : ℝ)) ^ j = 1 := fun j hj =>
      mono j hj.le fun t h => by
        have := hex (X ^ (j + 1)) (by rw [natDegree_X_pow]; omega) t h
        simpa using this
    refine ⟨hlen, first, fun h0 => hno ?_⟩
    have last : ((rank + 1 : ℕ) : ℝ) * ∑ n ∈ range rank, al.getD n 0 * (-(n : ℝ)) ^ rank = 1 := by
      unfold rowConst at h0
      rw [div_eq_zero_iff] at h0
      rcases h0 with h0 | h0
      · linarith
      · exact absurd h0 (by exact_mod_cast (rank + 1).factorial_ne_zero)
    exfalso
    unfold adamsTable at hal
    split_ifs at hal <;> (try cases hal) <;> rename_i hrk <;> subst hrk <;>
      norm_num [sum_range_succ] at last
  obtain ⟨hlen, hex, hc⟩ := hlen
  obtain ⟨k₀, hk, C, δ, J, hC, hδ, hJ, hstep⟩ := hst
  obtain ⟨b, E, hb, hE, hcause⟩ := causes_add (r := rank) hP hT hk hc
  refine ⟨2e-5 * b, by positivity, fun Q hQ => ?_⟩
  obtain ⟨D, δ', hD, hδ', hfar⟩ := multistep_drift (r := rank) (p₀ := p₀) (P := P) (by omega) (by omega) (by omega) hex hT.le hC hQ
    (W := 2e-5) (by norm_num) k₀
  refine ⟨2e-5 * E + D, min (min 1 δ) δ', rank + 1, by positivity, by positivity, ?_⟩
  intro h N z h0 hle hN hNh hI hz hin hz0 hq
  have hrun : C14.Run twinRhs (adv twinRhs) rank correction (fun _ => h) N z := ⟨⟨hI.1, hI.2.1⟩, hz⟩
  have hstart : ∀ k, k ≤ rank + 1 → J (z k).1.starter := by
    intro k
    induction k with
    | zero => intro _; exact hJ _ hI.2.2
    | succ k ih =>
      intro hk'
      have := C14.adams_starter_steps (k := k) ⟨hrun.fresh, fun j hj => hrun.next j (by omega)⟩ (by omega)
      exact (hstep h _ _ h0 (hle.trans ((min_le_left _ _).trans (min_le_right _ _))) (hin k (by omega)) this (ih (by omega))).2
  have e2 : ‖(2e-5 : ℂ)‖ = 2e-5 := by
    rw [show (2e-5 : ℂ) = ((2e-5 : ℝ) : ℂ) by push_cast; rfl, norm_real, Real.norm_eq_abs, abs_of_pos (by norm_num)]
  have key := hfar N h (fun k => rel (z k).2.y) h0 (hle.trans (min_le_right _ _)) hN hNh (by
      show ‖rel (z 0).2.y‖ ≤ 2e-5
      rw [hz0, e2]) (fun k hk' => by
      show ‖rel (z k).2.y - turn (k * h) * rel (z 0).2.y‖ ≤ Q * h ^ P
      rw [hz0]; exact hq k hk')
    (fun k hk' => by
      have := C14.adams_starter_steps (k := k) ⟨hrun.fresh, fun j hj => hrun.next j (by omega)⟩ hk'
      exact (hstep h _ _ h0 (hle.trans ((min_le_left _ _).trans (min_le_right _ _))) (hin k (by omega)) this
        (hstart k (by omega))).1)
    (fun k hk1 hk2 => by
      obtain ⟨al', e1, -, e⟩ := C14.adams_step_formula (k := k) ⟨hrun.fresh, fun j hj => hrun.next j (by omega)⟩ hk1
      rw [hal] at e1
      cases e1
      show rel (z (k + 1)).2.y = rel (z k).2.y + _
      rw [e, map_add, map_smul, map_sum]
      simp only [map_smul, real_smul]
      rw [mul_assoc, mul_sum (a := I)]
      congr 2
      refine sum_congr rfl fun n hn => ?_
      have h2 : ∀ j, j < 12 → |(z (k - n)).2.y j| ≤ 2e-5 := fun j hj => (hin (k - n) (by omega) j hj).trans (by norm_num)
      have := (soft_value h2 (z (k - n)).2.cc (z (k - n)).2.time).2
      have h3 : rel (C14.derivAt twinRhs z (k - n)) = I * rel (z (k - n)).2.y := this
      rw [h3]
      ring)
  simp only [hz0] at key
  have h3 := hcause h h0 (hle.trans ((min_le_left _ _).trans (min_le_left _ _)))
  obtain ⟨X, hX⟩ : ∃ X : ℂ, X = ((rank + 1 : ℕ) : ℂ) * (k₀ * I ^ (p₀ + 1) * h ^ (p₀ + 1)) -
    T * (rowConst rank (fun n => al.getD n 0) * I ^ (rank + 1) * h ^ rank) := ⟨_, rfl⟩
  rw [← hX] at key h3
  have h4 : ‖turn T * (2e-5 * X)‖ = 2e-5 * ‖X‖ := by rw [norm_mul, norm_turn, one_mul, norm_mul, e2]
  have h5 := norm_sub_norm_le (turn T * (2e-5 * X)) (rel (z N).2.y - turn T * 2e-5)
  rw [norm_sub_rev (turn T * (2e-5 * X)), h4] at h5
  have h6 : 2e-5 * (b * h ^ P - E * h ^ (P + 1)) ≤ 2e-5 * ‖X‖ := mul_le_mul_of_nonneg_left h3 (by norm_num)
  linarith

end NB
