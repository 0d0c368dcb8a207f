import Verif.Lemmas.Converge
import Verif.Spec.RungeKutta
import Mathlib.Analysis.Normed.Group.Constructions
import Mathlib.Tactic.Module

/-
Steps that are close to Euler's: Runge-Kutta schemes, Stetter's scheme, compositions of such steps.
-/

namespace NB

open Finset

section
variable {V E : Type} [AddCommGroup V] [Module ℝ V] [NormedAddCommGroup E] [NormedSpace ℝ E]

/-- `P` leads from each state to the next, with steps of the sizes in the list. -/
def Walk {V : Type} (P : ℝ → V → V → Prop) : List ℝ → V → V → Prop
  | [], y, y' => y = y'
  | h :: hs, y, y' => ∃ z, P h y z ∧ Walk P hs z y'

lemma Walk.append {V : Type} {P : ℝ → V → V → Prop} {a b : List ℝ} {y z w : V} (h : Walk P a y z) (h' : Walk P b z w) :
    Walk P (a ++ b) y w := by
  induction a generalizing y with
  | nil => obtain rfl : y = z := h; exact h'
  | cons d a ih => obtain ⟨u, h1, h2⟩ := h; exact ⟨u, h1, ih h2⟩

lemma Walk.mono {V : Type} {P Q : ℝ → V → V → Prop} {a : List ℝ} (hPQ : ∀ d, d ∈ a → ∀ y y', P d y y' → Q d y y')
    {y z : V} (h : Walk P a y z) : Walk Q a y z := by
  induction a generalizing y with
  | nil => exact h
  | cons d a ih =>
    obtain ⟨u, h1, h2⟩ := h
    exact ⟨u, hPQ d (by simp) _ _ h1, ih (fun d hd => hPQ d (by simp [hd])) h2⟩

/-- Steps that are themselves walks. -/
lemma Walk.flatten {V : Type} {P : ℝ → V → V → Prop} {a : List ℝ} {y z : V}
    (h : Walk (fun d y y' => ∃ hs : List ℝ, hs.sum = d ∧ (∀ h ∈ hs, 0 < h ∧ h ≤ d) ∧ Walk P hs y y') a y z) :
    ∃ hs : List ℝ, hs.sum = a.sum ∧ (∀ h ∈ hs, 0 < h ∧ ∃ d ∈ a, h ≤ d) ∧ Walk P hs y z := by
  induction a generalizing y with
  | nil => exact ⟨[], rfl, by simp, h⟩
  | cons d a ih =>
    obtain ⟨u, ⟨hs, h1, h2, h3⟩, h4⟩ := h
    obtain ⟨hs', g1, g2, g3⟩ := ih h4
    refine ⟨hs ++ hs', by rw [List.sum_append, h1, g1, List.sum_cons], fun x hx => ?_, h3.append g3⟩
    rcases List.mem_append.1 hx with hx | hx
    · exact ⟨(h2 x hx).1, d, by simp, (h2 x hx).2⟩
    · obtain ⟨a1, d', a2, a3⟩ := g2 x hx
      exact ⟨a1, d', by simp [a2], a3⟩

lemma Walk.states {V : Type} {P : ℝ → V → V → Prop} {a : List ℝ} {y z : V} (h : Walk P a y z) :
    ∃ s : ℕ → V, s 0 = y ∧ s a.length = z ∧ ∀ k, k < a.length → P (a.getD k 0) (s k) (s (k + 1)) := by
  induction a generalizing y with
  | nil => exact ⟨fun _ => y, rfl, h, fun k hk => absurd hk (by simp)⟩
  | cons d a ih =>
    obtain ⟨u, h1, h2⟩ := h
    obtain ⟨s, g1, g2, g3⟩ := ih h2
    refine ⟨fun k => if k = 0 then y else s (k - 1), rfl, ?_, fun k hk => ?_⟩
    · show (if (d :: a).length = 0 then y else s ((d :: a).length - 1)) = z
      rw [if_neg (by simp)]
      simpa using g2
    · match k, hk with
      | 0, _ => simpa [g1] using h1
      | k + 1, hk => simpa using g3 k (by simpa using hk)

lemma sum_getD (a : List ℝ) : ∑ k ∈ range a.length, a.getD k 0 = a.sum := by
  induction a with
  | nil => rfl
  | cons d a ih => rw [List.length_cons, sum_range_succ', List.sum_cons, ← ih, add_comm]; simp

/-- The derivative is computed up to `θ`, at every evaluation. -/
def Within (π : V →ₗ[ℝ] E) (f : E → E) (θ : ℝ) (F : ℕ → ℝ → V → V) : Prop := ∀ k t y, ‖π (F k t y) - f (π y)‖ ≤ θ

/-- Steps of `P`, not longer than `τ`, differ from Euler's by at most `c` times the square of the step times the
derivative; up to a multiple `η` of the step if the weights are rounded, and up to `K θ` if the derivative is computed
up to `θ`. -/
def Close (π : V →ₗ[ℝ] E) (f : E → E) (c η K θ τ : ℝ) (P : ℝ → V → V → Prop) : Prop :=
  ∀ d y y', 0 < d → d ≤ τ → P d y y' →
    ‖π y' - π y - d • f (π y)‖ ≤ ((c * d + η) * (‖f (π y)‖ + θ) + K * θ) * d

variable {π : V →ₗ[ℝ] E} {f : E → E} {L : ℝ}

/-- **One-step methods converge.** -/
lemma walk_converges {P : ℝ → V → V → Prop} {c η K θ τ : ℝ} (hL : 0 ≤ L) (hf : ∀ a b, ‖f a - f b‖ ≤ L * ‖a - b‖)
    (hc : 0 ≤ c) (hη : 0 ≤ η) (hK : 0 ≤ K) (hθ : 0 ≤ θ) (hP : Close π f c η K θ τ P) {T B : ℝ} {x : ℝ → E} (hx : Solves f T x)
    (hB : ∀ t ∈ Set.Icc (0 : ℝ) T, ‖f (x t)‖ ≤ B) {δ : ℝ} (hδ : 0 ≤ δ) (hδτ : δ ≤ τ) {a : List ℝ}
    (ha : ∀ d ∈ a, 0 < d ∧ d ≤ δ) (hT : a.sum ≤ T) {y y' : V} (h : Walk P a y y') :
    ‖π y' - x a.sum‖ ≤ (‖π y - x 0‖ + (((L + c) * δ + η) * B + (c * δ + η + K) * θ) * a.sum) *
      Real.exp (L * (1 + (c * δ + η)) * a.sum) := by
  obtain ⟨s, h0, h1, h2⟩ := h.states
  have hd : ∀ k, k < a.length → 0 < a.getD k 0 ∧ a.getD k 0 ≤ δ := by
    intro k hk
    have e : a.getD k 0 = a[k] := by simp [List.getD_eq_getElem?_getD, hk]
    rw [e]
    exact ha _ (List.getElem_mem hk)
  rcases hδ.eq_or_lt with hδ0 | hδ0
  · -- no steps
    have hlen : a = [] := by
      cases a with
      | nil => rfl
      | cons d a => have := ha d (by simp); linarith [this.1, this.2]
    subst hlen
    obtain rfl : y = y' := h
    simp
  set c' := c + η / δ with hc'
  have hcδ : c' * δ = c * δ + η := by rw [hc']; field_simp
  have := converge hx hL hf hB (c := c') (g := (c * δ + η + K) * θ) (by positivity) (by positivity) hδ (N := a.length)
    (d := fun k => a.getD k 0)
    (fun k hk => ⟨(hd k hk).1.le, (hd k hk).2⟩) (by rw [sum_getD]; exact hT) (y := fun k => π (s k))
    (fun k hk M hM => by
      obtain ⟨e1, e2⟩ := hd k hk
      have hM0 : 0 ≤ M := (norm_nonneg _).trans (hM k le_rfl)
      refine (hP _ _ _ e1 (e2.trans hδτ) (h2 k hk)).trans ?_
      have e3 : ((c * a.getD k 0 + η) * (‖f (π (s k))‖ + θ) + K * θ) * a.getD k 0 ≤
          ((c * δ + η) * (M + θ) + K * θ) * a.getD k 0 := by
        have := hM k le_rfl
        gcongr
      calc _ ≤ ((c * δ + η) * (M + θ) + K * θ) * a.getD k 0 := e3
        _ = (c * δ + η) * a.getD k 0 * M + (c * δ + η + K) * θ * a.getD k 0 := by ring
        _ = _ := by rw [← hcδ]; ring) a.length le_rfl
  rw [sum_getD, h0, h1, hcδ] at this
  have e : (L + c') * B * δ = ((L + c) * δ + η) * B := by
    calc _ = (L * δ + c' * δ) * B := by ring
      _ = _ := by rw [hcδ]; ring
  rwa [e] at this

/-- A number of steps one after another is such a step again. -/
lemma walk_close {c K τ : ℝ} (hL : 0 ≤ L) (hf : ∀ a b, ‖f a - f b‖ ≤ L * ‖a - b‖) (hc : 0 ≤ c) (hK : 0 ≤ K)
    (hτ : 0 ≤ τ) {P : ℝ → V → V → Prop} {θ : ℝ} (hθ : 0 ≤ θ) (hP : Close π f c 0 K θ τ P) :
    Close π f ((c + L * (1 + c * τ + K)) * Real.exp (L * (1 + c * τ + K) * τ)) 0 K θ τ
      (fun d y y' => ∃ hs : List ℝ, hs.sum = d ∧ (∀ h ∈ hs, 0 < h) ∧ Walk P hs y y') := by
  set κ := L * (1 + c * τ + K) with hκ
  have hκ0 : 0 ≤ κ := by positivity
  have key : ∀ hs : List ℝ, (∀ h ∈ hs, 0 < h) → hs.sum ≤ τ → ∀ y y', Walk P hs y y' → 0 ≤ hs.sum ∧
      ‖π y' - π y - hs.sum • f (π y)‖ ≤ (c + κ) * hs.sum * hs.sum * Real.exp (κ * hs.sum) * (‖f (π y)‖ + θ) +
        K * θ * hs.sum := by
    intro hs
    induction hs with
    | nil =>
      intro _ _ y y' h
      obtain rfl : y = y' := h
      simp
    | cons h hs ih =>
      intro hpos hle y y' ⟨z, h1, h2⟩
      have h0 : 0 < h := hpos h (by simp)
      have hs0 : 0 ≤ hs.sum := List.sum_nonneg fun x hx => (hpos x (by simp [hx])).le
      rw [List.sum_cons] at hle ⊢
      obtain ⟨-, g⟩ := ih (fun x hx => hpos x (by simp [hx])) (by linarith) z y' h2
      have k1 := hP h y z h0 (by linarith) h1
      rw [add_zero] at k1
      set F := ‖f (π y)‖ + θ with hF
      have hθF : θ ≤ F := by rw [hF]; linarith [norm_nonneg (f (π y))]
      have hF0 : 0 ≤ F := hθ.trans hθF
      set S := hs.sum with hS
      have k2 : ‖π z - π y‖ ≤ h * ((1 + c * τ + K) * F) := by
        have e : π z - π y = (π z - π y - h • f (π y)) + h • f (π y) := by abel
        rw [e]
        refine (norm_add_le _ _).trans ?_
        rw [norm_smul, Real.norm_eq_abs, abs_of_pos h0]
        have t1 : c * h * F ≤ c * τ * F := by
          have hhτ : h ≤ τ := by linarith
          gcongr
        have t2 : K * θ ≤ K * F := mul_le_mul_of_nonneg_left hθF hK
        calc _ ≤ (c * h * F + K * θ) * h + h * F := add_le_add k1 (mul_le_mul_of_nonneg_left (by linarith) h0.le)
          _ ≤ (c * τ * F + K * F) * h + h * F := by gcongr
          _ = _ := by ring
      have k3 : ‖f (π z) - f (π y)‖ ≤ κ * h * F := by
        refine (hf _ _).trans ((mul_le_mul_of_nonneg_left k2 hL).trans (le_of_eq ?_))
        rw [hκ]; ring
      have k4 : ‖f (π z)‖ + θ ≤ Real.exp (κ * h) * F := by
        have e1 : ‖f (π z)‖ ≤ ‖f (π z) - f (π y)‖ + ‖f (π y)‖ := by
          simpa using norm_add_le (f (π z) - f (π y)) (f (π y))
        have e2 : 1 + κ * h ≤ Real.exp (κ * h) := by linarith [Real.add_one_le_exp (κ * h)]
        calc _ ≤ (1 + κ * h) * F := by linarith
          _ ≤ _ := mul_le_mul_of_nonneg_right e2 hF0
      refine ⟨by linarith, ?_⟩
      have e : π y' - π y - (h + S) • f (π y) = (π y' - π z - S • f (π z)) + (π z - π y - h • f (π y)) +
          S • (f (π z) - f (π y)) := by module
      rw [e]
      have n1 : ‖S • (f (π z) - f (π y))‖ ≤ S * (κ * h * F) := by
        rw [norm_smul, Real.norm_eq_abs, abs_of_nonneg hs0]
        exact mul_le_mul_of_nonneg_left k3 hs0
      have n2 : (c + κ) * S * S * Real.exp (κ * S) * (‖f (π z)‖ + θ) ≤
          (c + κ) * S * S * (Real.exp (κ * S) * Real.exp (κ * h)) * F := by
        calc _ ≤ (c + κ) * S * S * Real.exp (κ * S) * (Real.exp (κ * h) * F) := by gcongr
          _ = _ := by ring
      have hX : 1 ≤ Real.exp (κ * (h + S)) := Real.one_le_exp (by positivity)
      have hexp : Real.exp (κ * S) * Real.exp (κ * h) = Real.exp (κ * (h + S)) := by
        rw [← Real.exp_add]; congr 1; ring
      rw [hexp] at n2
      set X := Real.exp (κ * (h + S)) with hXdef
      have n3 : c * h * h * F + S * (κ * h * F) ≤ (c * h * h + κ * h * S) * X * F := by
        have : (c * h * h + κ * h * S) * F ≤ (c * h * h + κ * h * S) * X * F := by
          have q0 : 0 ≤ c * h * h + κ * h * S := by positivity
          have := le_mul_of_one_le_right q0 hX
          exact mul_le_mul_of_nonneg_right this hF0
        linarith
      have n4 : ((c + κ) * S * S + (c * h * h + κ * h * S)) * X * F ≤ ((c + κ) * (h + S) * (h + S)) * X * F := by
        refine mul_le_mul_of_nonneg_right (mul_le_mul_of_nonneg_right ?_ (by positivity)) hF0
        have q1 : 0 ≤ κ * h * h := by positivity
        have q2 : 0 ≤ c * h * S := by positivity
        have q3 : 0 ≤ κ * h * S := by positivity
        nlinarith
      have n5 := g.trans (add_le_add n2 le_rfl)
      calc _ ≤ ((c + κ) * S * S * X * F + K * θ * S) + (c * h * F + K * θ) * h + S * (κ * h * F) :=
            (norm_add_le _ _).trans (add_le_add ((norm_add_le _ _).trans (add_le_add n5 k1)) n1)
        _ ≤ ((c + κ) * (h + S) * (h + S)) * X * F + K * θ * (h + S) := by linarith
  rintro d y y' hd hdτ ⟨hs, rfl, hpos, hw⟩
  obtain ⟨h0, h1⟩ := key hs hpos hdτ y y' hw
  refine h1.trans ?_
  have hw0 : 0 ≤ ‖f (π y)‖ + θ := by positivity
  have : Real.exp (κ * hs.sum) ≤ Real.exp (κ * τ) := Real.exp_le_exp.2 (mul_le_mul_of_nonneg_left hdτ hκ0)
  have : (c + κ) * hs.sum * hs.sum * Real.exp (κ * hs.sum) * (‖f (π y)‖ + θ)
      ≤ (c + κ) * hs.sum * hs.sum * Real.exp (κ * τ) * (‖f (π y)‖ + θ) := by gcongr
  linarith

/-! ### Explicit Runge-Kutta schemes -/

/-- A step that adds, with weights of sum nearly one, derivatives each within `κ d Φ + θ` of the derivative at the
beginning. -/
lemma weighted_close (s : ℕ) (b : ℕ → ℝ) (k : ℕ → V) (y : V) {d κ θ : ℝ} (hd : 0 < d) (hθ : 0 ≤ θ)
    (hκ : ∀ i, i < s → ‖π (k i) - f (π y)‖ ≤ κ * d * (‖f (π y)‖ + θ) + θ) :
    ‖π (y + d • ∑ i ∈ range s, b i • k i) - π y - d • f (π y)‖ ≤
      (((∑ i ∈ range s, |b i|) * κ * d + |(∑ i ∈ range s, b i) - 1|) * (‖f (π y)‖ + θ) +
        (∑ i ∈ range s, |b i|) * θ) * d := by
  have e : π (y + d • ∑ i ∈ range s, b i • k i) - π y - d • f (π y) =
      d • ∑ i ∈ range s, b i • (π (k i) - f (π y)) + d • (((∑ i ∈ range s, b i) - 1) • f (π y)) := by
    rw [map_add, map_smul, map_sum]
    simp only [map_smul, smul_sub, sum_sub_distrib]
    rw [← sum_smul]
    module
  rw [e]
  refine (norm_add_le _ _).trans ?_
  rw [norm_smul, norm_smul, norm_smul, Real.norm_eq_abs, Real.norm_eq_abs, abs_of_pos hd]
  have h1 : d * ‖∑ i ∈ range s, b i • (π (k i) - f (π y))‖
      ≤ d * ((∑ i ∈ range s, |b i|) * (κ * d * (‖f (π y)‖ + θ) + θ)) := by
    refine mul_le_mul_of_nonneg_left ((norm_sum_le _ _).trans ?_) hd.le
    rw [sum_mul]
    refine sum_le_sum fun i hi => ?_
    rw [norm_smul, Real.norm_eq_abs]
    exact mul_le_mul_of_nonneg_left (hκ i (mem_range.1 hi)) (abs_nonneg _)
  have h2 : d * (|(∑ i ∈ range s, b i) - 1| * ‖f (π y)‖) ≤ d * (|(∑ i ∈ range s, b i) - 1| * (‖f (π y)‖ + θ)) :=
    mul_le_mul_of_nonneg_left (mul_le_mul_of_nonneg_left (by linarith) (abs_nonneg _)) hd.le
  calc _ ≤ d * ((∑ i ∈ range s, |b i|) * (κ * d * (‖f (π y)‖ + θ) + θ)) +
        d * (|(∑ i ∈ range s, b i) - 1| * (‖f (π y)‖ + θ)) := add_le_add h1 h2
    _ = _ := by ring

/-- **A consistent explicit Runge-Kutta scheme** is close to Euler's. -/
lemma erk_close (hL : 0 ≤ L) (hf : ∀ a b, ‖f a - f b‖ ≤ L * ‖a - b‖)
    (s : ℕ) (a : ℕ → ℕ → ℝ) (b c : ℕ → ℝ) {τ : ℝ} (hτ : 0 ≤ τ) :
    ∃ C, 0 ≤ C ∧ ∀ (F : ℕ → ℝ → V → V) (θ : ℝ), 0 ≤ θ → Within π f θ F →
      Close π f C |(∑ i ∈ range s, b i) - 1| (∑ i ∈ range s, |b i|) θ τ
        (fun d y y' => ∃ n₀ t, Spec.ERKStep F n₀ s a b c t d y y') := by
  set A := ∑ i ∈ range s, ∑ j ∈ range i, |a i j| with hA
  have hA0 : 0 ≤ A := sum_nonneg fun i _ => sum_nonneg fun j _ => abs_nonneg _
  have hrow : ∀ i, i < s → ∑ j ∈ range i, |a i j| ≤ A := fun i hi =>
    single_le_sum (f := fun i => ∑ j ∈ range i, |a i j|) (fun i _ => sum_nonneg fun j _ => abs_nonneg _) (mem_range.2 hi)
  set q := 1 + L * τ * A with hq
  have hq1 : 1 ≤ q := by rw [hq]; have : 0 ≤ L * τ * A := by positivity
                         linarith
  have hq0 : 0 ≤ q := by linarith
  set β := ∑ i ∈ range s, |b i| with hβ
  have hβ0 : 0 ≤ β := sum_nonneg fun i _ => abs_nonneg _
  refine ⟨β * (L * A * q ^ s), by positivity, ?_⟩
  rintro F θ hθ hF d y y' hd hdτ ⟨n₀, t, k, hk, rfl⟩
  set Φ := ‖f (π y)‖ + θ with hΦ
  have hΦ0 : 0 ≤ Φ := by positivity
  have arg : ∀ i, π (y + d • ∑ j ∈ range i, a i j • k j) - π y = d • ∑ j ∈ range i, a i j • π (k j) := by
    intro i
    rw [map_add, map_smul, map_sum]
    simp only [map_smul]
    abel
  have diff : ∀ i, i < s → ∀ Q, 0 ≤ Q → (∀ j, j < i → ‖π (k j)‖ ≤ Q) → ‖π (k i) - f (π y)‖ ≤ L * (d * (A * Q)) + θ := by
    intro i hi Q hQ hj
    have e : π (k i) - f (π y) = (π (k i) - f (π (y + d • ∑ j ∈ range i, a i j • k j))) +
        (f (π (y + d • ∑ j ∈ range i, a i j • k j)) - f (π y)) := by abel
    rw [e]
    refine (norm_add_le _ _).trans ?_
    rw [add_comm]
    refine add_le_add ?_ (by rw [hk i hi]; exact hF _ _ _)
    refine (hf _ _).trans (mul_le_mul_of_nonneg_left ?_ hL)
    rw [arg, norm_smul, Real.norm_eq_abs, abs_of_pos hd]
    refine mul_le_mul_of_nonneg_left ?_ hd.le
    refine (norm_sum_le _ _).trans ?_
    calc ∑ j ∈ range i, ‖a i j • π (k j)‖ ≤ ∑ j ∈ range i, |a i j| * Q :=
          sum_le_sum fun j hj' => by
            rw [norm_smul, Real.norm_eq_abs]
            exact mul_le_mul_of_nonneg_left (hj j (mem_range.1 hj')) (abs_nonneg _)
      _ = (∑ j ∈ range i, |a i j|) * Q := by rw [sum_mul]
      _ ≤ A * Q := mul_le_mul_of_nonneg_right (hrow i hi) hQ
  have bound : ∀ i, i < s → ‖π (k i)‖ ≤ q ^ (i + 1) * Φ := by
    intro i
    induction i using Nat.strong_induction_on with
    | _ i ih =>
      intro hi
      have h1 := diff i hi (q ^ i * Φ) (by positivity) fun j hj => (ih j hj (by omega)).trans
        (mul_le_mul_of_nonneg_right (pow_le_pow_right₀ hq1 hj) hΦ0)
      have h2 : ‖π (k i)‖ ≤ ‖π (k i) - f (π y)‖ + ‖f (π y)‖ := by simpa using norm_add_le (π (k i) - f (π y)) (f (π y))
      have h3 : L * (d * (A * (q ^ i * Φ))) ≤ L * τ * A * (q ^ i * Φ) := by
        calc L * (d * (A * (q ^ i * Φ))) ≤ L * (τ * (A * (q ^ i * Φ))) := by gcongr
          _ = _ := by ring
      have h4 : Φ ≤ q ^ i * Φ := le_mul_of_one_le_left hΦ0 (one_le_pow₀ hq1)
      calc ‖π (k i)‖ ≤ L * τ * A * (q ^ i * Φ) + q ^ i * Φ := by linarith
        _ = q ^ (i + 1) * Φ := by rw [pow_succ, hq]; ring
  have bound' : ∀ j, j < s → ‖π (k j)‖ ≤ q ^ s * Φ := fun j hj =>
    (bound j hj).trans (mul_le_mul_of_nonneg_right (pow_le_pow_right₀ hq1 hj) hΦ0)
  have hκ : ∀ i, i < s → ‖π (k i) - f (π y)‖ ≤ (L * A * q ^ s) * d * Φ + θ := fun i hi =>
    (diff i hi _ (by positivity) fun j hj => bound' j (by omega)).trans (le_of_eq (by ring))
  exact weighted_close s b k y hd hθ hκ

/-! ### Stetter's scheme -/

/-- The two states of Stetter's scheme after a step, when the three derivatives are computed up to `θ`. -/
def PairStep (π : V →ₗ[ℝ] E) (f : E → E) (θ h : ℝ) (p p' : V × V) : Prop :=
  ∃ a b c : V, ‖π a - f (π p.1)‖ ≤ θ ∧ ‖π b - f (π (p.2 + (h / 2) • a))‖ ≤ θ ∧ ‖π c - f (π p'.1)‖ ≤ θ ∧
    p'.1 = p.1 + h • b ∧ p'.2 = p.2 + (h / 2) • (a + c)

/-- The equation for the pair. -/
def swapped (f : E → E) (p : E × E) : E × E := (f p.2, f p.1)

omit [NormedSpace ℝ E] in
lemma swapped_lip (hL : 0 ≤ L) (hf : ∀ a b, ‖f a - f b‖ ≤ L * ‖a - b‖) (p p' : E × E) :
    ‖swapped f p - swapped f p'‖ ≤ L * ‖p - p'‖ := by
  refine norm_prod_le_iff.2 ⟨?_, ?_⟩
  · exact (hf _ _).trans (mul_le_mul_of_nonneg_left (norm_snd_le (p - p')) hL)
  · exact (hf _ _).trans (mul_le_mul_of_nonneg_left (norm_fst_le (p - p')) hL)

lemma pair_close (hL : 0 ≤ L) (hf : ∀ a b, ‖f a - f b‖ ≤ L * ‖a - b‖) {τ : ℝ} (hτ : 0 ≤ τ) {θ : ℝ} (hθ : 0 ≤ θ) :
    Close (π.prodMap π) (swapped f) (L * (2 + L * τ)) 0 1 θ τ (PairStep π f θ) := by
  rintro d ⟨u, v⟩ ⟨u', v'⟩ hd hdτ ⟨a, b, c, ha, hb, hc, h1, h2⟩
  simp only at h1 h2 ha hb hc
  set Φ := ‖swapped f ((π.prodMap π) (u, v))‖ + θ with hΦ
  have hu0 : ‖f (π u)‖ ≤ ‖swapped f ((π.prodMap π) (u, v))‖ := norm_snd_le (swapped f ((π.prodMap π) (u, v)))
  have hv0 : ‖f (π v)‖ ≤ ‖swapped f ((π.prodMap π) (u, v))‖ := norm_fst_le (swapped f ((π.prodMap π) (u, v)))
  have hu : ‖f (π u)‖ + θ ≤ Φ := by rw [hΦ]; linarith
  have hv : ‖f (π v)‖ + θ ≤ Φ := by rw [hΦ]; linarith
  have hΦ0 : 0 ≤ Φ := by positivity
  have na : ‖π a‖ ≤ Φ := by
    have : ‖π a‖ ≤ ‖π a - f (π u)‖ + ‖f (π u)‖ := by simpa using norm_add_le (π a - f (π u)) (f (π u))
    linarith
  have a1 : ‖f (π (v + (d / 2) • a)) - f (π v)‖ ≤ L * (d / 2 * Φ) := by
    refine (hf _ _).trans (mul_le_mul_of_nonneg_left ?_ hL)
    rw [map_add, map_smul, add_sub_cancel_left, norm_smul, Real.norm_eq_abs, abs_of_pos (by linarith)]
    exact mul_le_mul_of_nonneg_left na (by linarith)
  have a0 : ‖π b - f (π v)‖ ≤ L * (d / 2 * Φ) + θ := by
    have e : π b - f (π v) = (f (π (v + (d / 2) • a)) - f (π v)) + (π b - f (π (v + (d / 2) • a))) := by abel
    rw [e]
    exact (norm_add_le _ _).trans (add_le_add a1 hb)
  have a2 : ‖π b‖ ≤ (1 + L * τ) * Φ := by
    have : ‖π b‖ ≤ ‖π b - f (π v)‖ + ‖f (π v)‖ := by simpa using norm_add_le (π b - f (π v)) (f (π v))
    have h3 : L * (d / 2 * Φ) ≤ L * (τ * Φ) := by gcongr; linarith
    linarith
  have eu : π u' - π u - d • f (π v) = d • (π b - f (π v)) := by
    rw [h1, map_add, map_smul]; module
  have b1 : ‖π u' - π u - d • f (π v)‖ ≤ ((L * (2 + L * τ) * d + 0) * Φ + 1 * θ) * d := by
    rw [eu, norm_smul, Real.norm_eq_abs, abs_of_pos hd]
    have q : 0 ≤ L * (L * τ) * d * d * Φ := by positivity
    have q' : 0 ≤ L * d * d * Φ := by positivity
    calc _ ≤ d * (L * (d / 2 * Φ) + θ) := mul_le_mul_of_nonneg_left a0 hd.le
      _ ≤ _ := by nlinarith
  have b2 : ‖π v' - π v - d • f (π u)‖ ≤ ((L * (2 + L * τ) * d + 0) * Φ + 1 * θ) * d := by
    have ev : π v' - π v - d • f (π u) = (d / 2) • ((π a - f (π u)) + ((π c - f (π u')) + (f (π u') - f (π u)))) := by
      rw [h2, map_add, map_smul, map_add]; module
    have eu' : π u' - π u = d • π b := by
      rw [h1, map_add, map_smul]; abel
    rw [ev, norm_smul, Real.norm_eq_abs, abs_of_pos (by linarith)]
    have c1 : ‖f (π u') - f (π u)‖ ≤ L * (d * ((1 + L * τ) * Φ)) := by
      refine (hf _ _).trans (mul_le_mul_of_nonneg_left ?_ hL)
      rw [eu', norm_smul, Real.norm_eq_abs, abs_of_pos hd]
      exact mul_le_mul_of_nonneg_left a2 hd.le
    have c2 := (norm_add_le (π a - f (π u)) ((π c - f (π u')) + (f (π u') - f (π u)))).trans
      (add_le_add ha ((norm_add_le _ _).trans (add_le_add hc c1)))
    have q : 0 ≤ L * (1 + L * τ) * d * d * Φ := by positivity
    have q' : 0 ≤ L * d * d * Φ := by positivity
    calc _ ≤ d / 2 * (θ + (θ + L * (d * ((1 + L * τ) * Φ)))) := mul_le_mul_of_nonneg_left c2 (by linarith)
      _ ≤ _ := by nlinarith
  exact norm_prod_le_iff.2 ⟨b1, b2⟩

lemma Solves.pair {T : ℝ} {x : ℝ → E} (hx : Solves f T x) : Solves (swapped f) T (fun t => (x t, x t)) :=
  fun t ht => (hx t ht).prodMk (hx t ht)

end

end NB
