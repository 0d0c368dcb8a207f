import Verif.Lemmas.Leapfrog
import Verif.Lemmas.OrderSchemes

/-
The order of convergence of Stetter's scheme and of Bulirsch-Stoer.
-/

namespace NB

open Finset Asymptotics Filter Topology
open _root_.NB.Spec (RTree)
open C74 (runScheme plain)

section
variable {V E : Type} [AddCommGroup V] [Module ℝ V] [NormedAddCommGroup E] [NormedSpace ℝ E]
variable {π : V →ₗ[ℝ] E} {f : E → E} {L : ℝ}

omit [NormedSpace ℝ E] in
lemma diff_le {a ã z z' : E} {θ θ' r : ℝ} (hL : 0 ≤ L) (hf : ∀ a b, ‖f a - f b‖ ≤ L * ‖a - b‖) (h1 : ‖a - f z‖ ≤ θ)
    (h2 : ‖ã - f z'‖ ≤ θ') (h3 : ‖z - z'‖ ≤ r) : ‖a - ã‖ ≤ (θ + θ') + L * r := by
  have e : a - ã = (a - f z) + ((f z - f z') - (ã - f z')) := by abel
  rw [e]
  have h4 := (hf z z').trans (mul_le_mul_of_nonneg_left h3 hL)
  have := (norm_add_le (a - f z) ((f z - f z') - (ã - f z'))).trans (add_le_add h1 ((norm_sub_le _ _).trans (add_le_add h4 h2)))
  linarith

lemma pair_arith {τ h g e α β γ : ℝ} (hL : 0 ≤ L) (hτ : 0 ≤ τ) (hh : 0 < h) (hhτ : h ≤ τ) (hg : 0 ≤ g) (he : 0 ≤ e)
    (ha : α ≤ g + L * e) (hb : β ≤ g + L * (e + h / 2 * α)) (hc : γ ≤ g + L * (e + h * β)) :
    h * β ≤ (1 + L) * (1 + L * τ) ^ 2 * (e + g) * h ∧ h / 2 * (α + γ) ≤ (1 + L) * (1 + L * τ) ^ 2 * (e + g) * h := by
  have a1 : α ≤ (1 + L) * (e + g) := by
    have : 0 ≤ L * g + e := by positivity
    linarith
  have a2 : h / 2 * α ≤ τ * ((1 + L) * (e + g)) := by
    calc h / 2 * α ≤ h / 2 * ((1 + L) * (e + g)) := mul_le_mul_of_nonneg_left a1 (by linarith)
      _ ≤ τ * ((1 + L) * (e + g)) := mul_le_mul_of_nonneg_right (by linarith) (by positivity)
  have b1 : β ≤ (1 + L) * (1 + L * τ) * (e + g) := by
    have := mul_le_mul_of_nonneg_left a2 hL
    have q : 0 ≤ L * g + e := by positivity
    nlinarith
  have b2 : h * β ≤ τ * ((1 + L) * (1 + L * τ) * (e + g)) := by
    calc h * β ≤ h * ((1 + L) * (1 + L * τ) * (e + g)) := mul_le_mul_of_nonneg_left b1 hh.le
      _ ≤ _ := mul_le_mul_of_nonneg_right hhτ (by positivity)
  have c1 : γ ≤ (1 + L) * (1 + L * τ) ^ 2 * (e + g) := by
    have t1 := mul_le_mul_of_nonneg_left b2 hL
    have q : 0 ≤ L * g + e := by positivity
    have t2 : γ ≤ (1 + L) * (e + g) + L * (τ * ((1 + L) * (1 + L * τ) * (e + g))) := by nlinarith
    have t3 : (1 + L) * (1 + L * τ) ^ 2 * (e + g) - ((1 + L) * (e + g) + L * (τ * ((1 + L) * (1 + L * τ) * (e + g)))) =
        (1 + L) * (L * τ) * (e + g) := by ring
    have t4 : 0 ≤ (1 + L) * (L * τ) * (e + g) := by positivity
    linarith
  have m1 : (1 + L) * (1 + L * τ) * (e + g) ≤ (1 + L) * (1 + L * τ) ^ 2 * (e + g) := by
    have t4 : 0 ≤ (1 + L) * (1 + L * τ) * (L * τ) * (e + g) := by positivity
    nlinarith
  have m2 : (1 + L) * (e + g) ≤ (1 + L) * (1 + L * τ) ^ 2 * (e + g) := by
    refine le_trans ?_ m1
    have t4 : 0 ≤ (1 + L) * (L * τ) * (e + g) := by positivity
    nlinarith
  constructor
  · rw [mul_comm]
    exact mul_le_mul_of_nonneg_right (b1.trans m1) hh.le
  · have : α + γ ≤ 2 * ((1 + L) * (1 + L * τ) ^ 2 * (e + g)) := by linarith
    calc h / 2 * (α + γ) ≤ h / 2 * (2 * ((1 + L) * (1 + L * τ) ^ 2 * (e + g))) :=
          mul_le_mul_of_nonneg_left this (by linarith)
      _ = _ := by ring

/-- Two steps of the scheme side by side. -/
lemma pair_compare (hL : 0 ≤ L) (hf : ∀ a b, ‖f a - f b‖ ≤ L * ‖a - b‖) {τ θ θ' h : ℝ} (hτ : 0 ≤ τ) (hθ : 0 ≤ θ)
    (hθ' : 0 ≤ θ') (hh : 0 < h) (hhτ : h ≤ τ) {p p' : V × V} {r r' : E × E} (hp : PairStep π f θ h p p')
    (hr : PairStep (LinearMap.id : E →ₗ[ℝ] E) f θ' h r r') :
    ‖((π.prodMap π) p' - r') - ((π.prodMap π) p - r)‖ ≤
      (1 + L) * (1 + L * τ) ^ 2 * (‖(π.prodMap π) p - r‖ + (θ + θ')) * h := by
  obtain ⟨u, v⟩ := p
  obtain ⟨u', v'⟩ := p'
  obtain ⟨w, z⟩ := r
  obtain ⟨w', z'⟩ := r'
  obtain ⟨a, b, c, ha, hb, hc, h1, h2⟩ := hp
  obtain ⟨a', b', c', ha', hb', hc', h1', h2'⟩ := hr
  simp only [LinearMap.id_coe, id_eq] at ha hb hc h1 h2 ha' hb' hc' h1' h2'
  obtain ⟨e, he⟩ : ∃ e, e = ‖(π.prodMap π) (u, v) - (w, z)‖ := ⟨_, rfl⟩
  have he0 : 0 ≤ e := he ▸ norm_nonneg _
  have hu : ‖π u - w‖ ≤ e := he ▸ norm_fst_le ((π.prodMap π) (u, v) - (w, z))
  have hv : ‖π v - z‖ ≤ e := he ▸ norm_snd_le ((π.prodMap π) (u, v) - (w, z))
  rw [← he]
  have k1 := diff_le hL hf ha ha' hu
  have k2 := diff_le (r := e + h / 2 * ‖π a - a'‖) hL hf hb hb' (by
    rw [map_add, map_smul, show π v + (h / 2) • π a - (z + (h / 2) • a') = (π v - z) + (h / 2) • (π a - a') by module]
    refine (norm_add_le _ _).trans (add_le_add hv ?_)
    rw [norm_smul, Real.norm_eq_abs, abs_of_pos (by linarith)])
  have eu : π u' - w' = (π u - w) + h • (π b - b') := by rw [h1, h1', map_add, map_smul]; module
  have k3 := diff_le (r := e + h * ‖π b - b'‖) hL hf hc hc' (by
    rw [eu]
    refine (norm_add_le _ _).trans (add_le_add hu ?_)
    rw [norm_smul, Real.norm_eq_abs, abs_of_pos hh])
  obtain ⟨m1, m2⟩ := pair_arith hL hτ hh hhτ (add_nonneg hθ hθ') he0 k1 k2 k3
  refine norm_prod_le_iff.2 ⟨?_, ?_⟩
  · show ‖(π u' - w') - (π u - w)‖ ≤ _
    rw [eu, add_sub_cancel_left, norm_smul, Real.norm_eq_abs, abs_of_pos hh]
    exact m1
  · show ‖(π v' - z') - (π v - z)‖ ≤ _
    have ev : (π v' - z') - (π v - z) = (h / 2) • ((π a - a') + (π c - c')) := by
      rw [h2, h2', map_add, map_smul, map_add]; module
    rw [ev, norm_smul, Real.norm_eq_abs, abs_of_pos (by linarith)]
    exact (mul_le_mul_of_nonneg_left (norm_add_le _ _) (by linarith)).trans m2

/-- Two walks side by side. -/
lemma walks_compare {C g δ : ℝ} (hC : 0 ≤ C) (hg : 0 ≤ g) {P : ℝ → V → V → Prop} {Q : ℝ → E → E → Prop}
    (hPQ : ∀ h y y' z z', 0 < h → h ≤ δ → P h y y' → Q h z z' →
      ‖(π y' - z') - (π y - z)‖ ≤ C * (‖π y - z‖ + g) * h)
    (a : List ℝ) : (∀ h ∈ a, 0 < h ∧ h ≤ δ) → ∀ y y' z z', Walk P a y y' → Walk Q a z z' →
      ‖π y' - z'‖ + g ≤ (‖π y - z‖ + g) * Real.exp (C * a.sum) ∧
      ‖(π y' - z') - (π y - z)‖ ≤ C * ((‖π y - z‖ + g) * Real.exp (C * a.sum)) * a.sum := by
  induction a with
  | nil =>
    intro _ y y' z z' h h'
    obtain rfl : y = y' := h
    obtain rfl : z = z' := h'
    simp
  | cons h a ih =>
    rintro ha y y' z z' ⟨y1, h1, h2⟩ ⟨z1, h1', h2'⟩
    obtain ⟨h0, hδ⟩ := ha h (by simp)
    have hs0 : 0 ≤ a.sum := List.sum_nonneg fun x hx => (ha x (by simp [hx])).1.le
    rw [List.sum_cons]
    obtain ⟨g1, g2⟩ := ih (fun x hx => ha x (by simp [hx])) y1 y' z1 z' h2 h2'
    have k2 := hPQ h y y1 z z1 h0 hδ h1 h1'
    have k1 : ‖π y1 - z1‖ + g ≤ (1 + C * h) * (‖π y - z‖ + g) := by
      have : ‖π y1 - z1‖ ≤ ‖(π y1 - z1) - (π y - z)‖ + ‖π y - z‖ := by
        simpa using norm_add_le ((π y1 - z1) - (π y - z)) (π y - z)
      linarith
    obtain ⟨E0, hE⟩ : ∃ E0, E0 = ‖π y - z‖ + g := ⟨_, rfl⟩
    rw [← hE] at k1 k2 ⊢
    have hE0 : 0 ≤ E0 := by rw [hE]; positivity
    have e1 : 1 + C * h ≤ Real.exp (C * h) := by linarith [Real.add_one_le_exp (C * h)]
    have e2 : Real.exp (C * (h + a.sum)) = Real.exp (C * h) * Real.exp (C * a.sum) := by rw [mul_add, Real.exp_add]
    have k3 : ‖π y1 - z1‖ + g ≤ Real.exp (C * h) * E0 := k1.trans (mul_le_mul_of_nonneg_right e1 hE0)
    have k4 : (‖π y1 - z1‖ + g) * Real.exp (C * a.sum) ≤ E0 * Real.exp (C * (h + a.sum)) := by
      rw [e2]
      calc _ ≤ Real.exp (C * h) * E0 * Real.exp (C * a.sum) := mul_le_mul_of_nonneg_right k3 (Real.exp_nonneg _)
        _ = _ := by ring
    refine ⟨g1.trans k4, ?_⟩
    have e4 : (π y' - z') - (π y - z) = ((π y' - z') - (π y1 - z1)) + ((π y1 - z1) - (π y - z)) := by abel
    rw [e4]
    have k5 : C * E0 * h ≤ C * (E0 * Real.exp (C * (h + a.sum))) * h := by
      have : E0 ≤ E0 * Real.exp (C * (h + a.sum)) := le_mul_of_one_le_right hE0 (Real.one_le_exp (by positivity))
      gcongr
    have k6 : C * ((‖π y1 - z1‖ + g) * Real.exp (C * a.sum)) * a.sum ≤
        C * (E0 * Real.exp (C * (h + a.sum))) * a.sum := by gcongr
    calc _ ≤ C * (E0 * Real.exp (C * (h + a.sum))) * a.sum + C * (E0 * Real.exp (C * (h + a.sum))) * h :=
          (norm_add_le _ _).trans (add_le_add (g2.trans k6) (k2.trans k5))
      _ = _ := by ring

/-! ### The expansion of the scheme -/

/-- A series over the trees, from `y` with the step `k`. -/
noncomputable def series (P : Coeffs E) (p : ℕ) (c : RTree → ℝ) (y : E) (k : ℝ) : E :=
  y + ∑ τ ∈ treesUpTo p, (k ^ τ.order * c τ) • elem P y τ

/-- The derivative along it. -/
noncomputable def seriesDer (P : Coeffs E) (p : ℕ) (c : RTree → ℝ) (y : E) (k : ℝ) : E :=
  ∑ τ ∈ treesUpTo p, (k ^ (τ.order - 1) * childProd c τ) • elem P y τ

variable {P : Coeffs E} {A : Set E}

lemma smul_seriesDer (p : ℕ) (c : RTree → ℝ) (y : E) (k w : ℝ) :
    (k * w) • seriesDer P p c y k = ∑ τ ∈ treesUpTo p, (k ^ τ.order * (w * childProd c τ)) • elem P y τ := by
  rw [seriesDer, smul_sum]
  refine sum_congr rfl fun τ _ => ?_
  rw [smul_smul]
  congr 1
  have : k ^ τ.order = k * k ^ (τ.order - 1) := by
    rw [← pow_succ']; congr 1; have := one_le_order τ; omega
  rw [this]; ring

lemma series_add (p : ℕ) (c c' : RTree → ℝ) (y : E) (k : ℝ) :
    series P p c y k + ∑ τ ∈ treesUpTo p, (k ^ τ.order * c' τ) • elem P y τ = series P p (fun τ => c τ + c' τ) y k := by
  rw [series, series, add_assoc, ← sum_add_distrib]
  congr 1
  refine sum_congr rfl fun τ _ => ?_
  rw [← add_smul, ← mul_add]

lemma series_value (hJ : Jet f A P) {p : ℕ} (hp : 1 ≤ p) (c : RTree → ℝ) :
    ∃ C δ : ℝ, 0 ≤ C ∧ 0 < δ ∧ ∀ y ∈ A, ∀ k, 0 ≤ k → k ≤ δ → ‖seriesDer P p c y k - f (series P p c y k)‖ ≤ C * k ^ p := by
  obtain ⟨q, rfl⟩ : ∃ q, p = q + 1 := ⟨p - 1, by omega⟩
  let S : Set (E × ℝ) := {r | r.1 ∈ A ∧ 0 ≤ r.2}
  have h0 : ∀ r ∈ S, 0 ≤ r.2 := fun r hr => hr.2
  have hy : ∀ᶠ r in 𝓟 S ⊓ comap Prod.snd (𝓝 (0 : ℝ)), r.1 ∈ A :=
    mem_of_superset (mem_inf_of_left (mem_principal_self _) : S ∈ _) fun r hr => hr.1
  have hh : Tendsto Prod.snd (𝓟 S ⊓ comap Prod.snd (𝓝 (0 : ℝ))) (𝓝 0) := tendsto_situations
  have hrest : (fun r : E × ℝ => ∑ τ ∈ treesUpTo (q + 1), (r.2 ^ τ.order * c τ) • elem P r.1 τ -
      ∑ τ ∈ treesUpTo q, (r.2 ^ τ.order * c τ) • elem P r.1 τ) =O[𝓟 S ⊓ comap Prod.snd (𝓝 0)]
      fun r => r.2 ^ (q + 1) := by
    classical
    have hsub : treesUpTo q ⊆ treesUpTo (q + 1) := fun τ h => mem_treesUpTo.2 ((mem_treesUpTo.1 h).trans (Nat.le_succ _))
    simp only [← sum_sdiff hsub, add_sub_cancel_right]
    refine IsBigO.fun_sum fun τ hτ => term_isBigO hJ hy hh _ _ ?_
    have := (mem_sdiff.1 hτ).2
    rw [mem_treesUpTo] at this
    omega
  have := value_of_series hJ hy hh q c _ hrest
  obtain ⟨C, δ, hC, hδ, h⟩ := (isBigO_situations h0).1 this.neg_left
  refine ⟨C, δ, hC, hδ, fun y hy k hk hkδ => ?_⟩
  have := h (y, k) ⟨hy, hk⟩ hkδ
  rw [neg_sub] at this
  exact this

/-- The pair after `i` steps, expanded. -/
noncomputable def refPair (P : Coeffs E) (p : ℕ) (y : E) (k : ℝ) (i : ℕ) : E × E :=
  (series P p (leap i).1 y k, series P p (leap i).2 y k)

lemma refPair_zero (p : ℕ) (y : E) (k : ℝ) : refPair P p y k 0 = (y, y) := by
  simp [refPair, series, leap]

/-- The expanded pairs satisfy the equations of the scheme. -/
lemma refPair_step (hJ : Jet f A P) {p : ℕ} (hp : 1 ≤ p) (n : ℕ) :
    ∃ C δ : ℝ, 0 ≤ C ∧ 0 < δ ∧ ∀ y ∈ A, ∀ k, 0 ≤ k → k ≤ δ → ∀ i, i < n →
      PairStep (LinearMap.id : E →ₗ[ℝ] E) f (C * k ^ p) k (refPair P p y k i) (refPair P p y k (i + 1)) := by
  induction n with
  | zero => exact ⟨0, 1, le_rfl, one_pos, fun y _ k _ _ i hi => absurd hi (Nat.not_lt_zero _)⟩
  | succ n ih =>
    obtain ⟨C, δ, hC, hδ, h⟩ := ih
    obtain ⟨C₁, δ₁, hC₁, hδ₁, h₁⟩ := series_value hJ hp (leap n).1
    obtain ⟨C₂, δ₂, hC₂, hδ₂, h₂⟩ := series_value hJ hp (leapMid n)
    obtain ⟨C₃, δ₃, hC₃, hδ₃, h₃⟩ := series_value hJ hp (leap (n + 1)).1
    refine ⟨C + C₁ + C₂ + C₃, min (min δ δ₁) (min δ₂ δ₃), by positivity, by positivity, fun y hy k hk hkδ i hi => ?_⟩
    have kp : 0 ≤ k ^ p := by positivity
    have d1 : k ≤ δ := hkδ.trans ((min_le_left _ _).trans (min_le_left _ _))
    have d2 : k ≤ δ₁ := hkδ.trans ((min_le_left _ _).trans (min_le_right _ _))
    have d3 : k ≤ δ₂ := hkδ.trans ((min_le_right _ _).trans (min_le_left _ _))
    have d4 : k ≤ δ₃ := hkδ.trans ((min_le_right _ _).trans (min_le_right _ _))
    rcases Nat.lt_succ_iff_lt_or_eq.1 hi with hi' | rfl
    · obtain ⟨a, b, c, ha, hb, hc, e1, e2⟩ := h y hy k hk d1 i hi'
      have : C * k ^ p ≤ (C + C₁ + C₂ + C₃) * k ^ p := mul_le_mul_of_nonneg_right (by linarith) kp
      exact ⟨a, b, c, ha.trans this, hb.trans this, hc.trans this, e1, e2⟩
    · refine ⟨seriesDer P p (leap i).1 y k, seriesDer P p (leapMid i) y k, seriesDer P p (leap (i + 1)).1 y k,
        (h₁ y hy k hk d2).trans (mul_le_mul_of_nonneg_right (by linarith) kp), ?_,
        (h₃ y hy k hk d4).trans (mul_le_mul_of_nonneg_right (by linarith) kp), ?_, ?_⟩
      · have e : (refPair P p y k i).2 + (k / 2) • seriesDer P p (leap i).1 y k = series P p (leapMid i) y k := by
          rw [div_eq_mul_one_div, smul_seriesDer]
          exact series_add p _ _ y k
        simp only [LinearMap.id_coe, id_eq]
        rw [e]
        exact (h₂ y hy k hk d3).trans (mul_le_mul_of_nonneg_right (by linarith) kp)
      · have := smul_seriesDer (P := P) p (leapMid i) y k 1
        rw [mul_one] at this
        show series P p (leap (i + 1)).1 y k = series P p (leap i).1 y k + k • _
        rw [this, series_add]
        simp only [one_mul]
        rfl
      · show series P p (leap (i + 1)).2 y k = series P p (leap i).2 y k + (k / 2) • _
        rw [div_eq_mul_one_div, smul_add, smul_seriesDer, smul_seriesDer, ← sum_add_distrib]
        simp only [← add_smul, ← mul_add]
        rw [series_add]
        rfl

lemma refPair_walk (hJ : Jet f A P) {p : ℕ} (hp : 1 ≤ p) (n : ℕ) :
    ∃ C δ : ℝ, 0 ≤ C ∧ 0 < δ ∧ ∀ y ∈ A, ∀ k, 0 ≤ k → k ≤ δ →
      Walk (PairStep (LinearMap.id : E →ₗ[ℝ] E) f (C * k ^ p)) (List.replicate n k) (y, y) (refPair P p y k n) := by
  obtain ⟨C, δ, hC, hδ, h⟩ := refPair_step hJ hp n
  refine ⟨C, δ, hC, hδ, fun y hy k hk hkδ => ?_⟩
  have key : ∀ i, i ≤ n → Walk (PairStep (LinearMap.id : E →ₗ[ℝ] E) f (C * k ^ p)) (List.replicate i k) (y, y)
      (refPair P p y k i) := by
    intro i
    induction i with
    | zero => intro _; exact (refPair_zero p y k).symm
    | succ i ih =>
      intro hi
      rw [List.replicate_succ']
      exact (ih (by omega)).append ⟨_, h y hy k hk hkδ i (by omega), rfl⟩
  exact key n le_rfl

end

section
variable {E : Type} [NormedAddCommGroup E] [NormedSpace ℝ E]
variable {π : (ℕ → ℝ) →ₗ[ℝ] E} {f : E → E} {L : ℝ} {P : Coeffs E} {T : ℝ} {x : ℝ → E}

/-! ### Stetter's scheme -/

lemma leap_one (τ : RTree) (h : τ.order ≤ 2) : (leap 1).1 τ = 1 / (τ.gamma : ℝ) ∧ (leap 1).2 τ = 1 / (τ.gamma : ℝ) := by
  match τ with
  | .node [] =>
    simp [leap, childProd, RTree.gamma, RTree.gammas, RTree.orders]
    norm_num
  | .node [.node []] =>
    simp [leap, childProd, RTree.gamma, RTree.gammas, RTree.orders, RTree.order]
  | .node [.node (u :: us)] =>
    exfalso
    simp only [RTree.order, RTree.orders] at h
    have := one_le_order u
    omega
  | .node (u :: v :: us) =>
    exfalso
    simp only [RTree.order, RTree.orders] at h
    have := one_le_order u
    have := one_le_order v
    omega

/-- The series of the solution. -/
lemma solution_near_series (hx : Solves f T x) (hJ : Jet f (x '' Set.Icc 0 T) P) (p : ℕ) :
    ∃ C δ : ℝ, 0 ≤ C ∧ 0 < δ ∧ ∀ t h, 0 ≤ t → 0 ≤ h → h ≤ δ → t + h ≤ T → ∀ c : RTree → ℝ,
      (∀ τ, τ.order ≤ p → c τ = 1 / (τ.gamma : ℝ)) → ‖series P p c (x t) h - x (t + h)‖ ≤ C * h ^ (p + 1) := by
  obtain ⟨C, δ, hC, hδ, h⟩ := solution_series hx hJ p
  refine ⟨C, δ, hC, hδ, fun t k ht hk hkδ hT c hc => ?_⟩
  have h1 := h t k ht hk hkδ hT
  rw [← norm_neg] at h1
  refine le_trans (le_of_eq ?_) h1
  congr 1
  rw [series]
  have : ∑ τ ∈ treesUpTo p, (k ^ τ.order * c τ) • elem P (x t) τ =
      ∑ τ ∈ treesUpTo p, (k ^ τ.order * (1 / (τ.gamma : ℝ))) • elem P (x t) τ :=
    sum_congr rfl fun τ hτ => by rw [hc τ (mem_treesUpTo.1 hτ)]
  rw [this]
  abel

lemma stetter_follows {V : Type} [AddCommGroup V] [Module ℝ V] {π : V →ₗ[ℝ] E} (hL : 0 ≤ L) (hf : ∀ a b, ‖f a - f b‖ ≤ L * ‖a - b‖) (hx : Solves f T x)
    (hJ : Jet f (x '' Set.Icc 0 T) P) :
    ∃ C δ₀, 0 ≤ C ∧ 0 < δ₀ ∧ ∀ θ, 0 ≤ θ → ∀ δ, δ ≤ δ₀ →
      Follows (π.prodMap π) (fun t => (x t, x t)) T C (δ ^ 2 + θ) δ (PairStep π f θ) := by
  obtain ⟨C₁, δ₁, hC₁, hδ₁, h₁⟩ := refPair_step hJ (p := 2) (by norm_num) 1
  obtain ⟨C₂, δ₂, hC₂, hδ₂, h₂⟩ := solution_near_series hx hJ 2
  obtain ⟨δ₀, hδ₀⟩ : ∃ δ₀, δ₀ = min δ₁ δ₂ := ⟨_, rfl⟩
  have hδ₀0 : 0 < δ₀ := by rw [hδ₀]; exact lt_min hδ₁ hδ₂
  obtain ⟨B, hB⟩ : ∃ B, B = (1 + L) * (1 + L * δ₀) ^ 2 := ⟨_, rfl⟩
  have hB0 : 0 ≤ B := by rw [hB]; positivity
  refine ⟨B * (1 + C₁) + C₂, δ₀, by positivity, hδ₀0, ?_⟩
  intro θ hθ δ hδ t h p p' ht hh hhδ hT hp
  have hmem : x t ∈ x '' Set.Icc 0 T := Set.mem_image_of_mem x ⟨ht, by linarith⟩
  have hd1 : h ≤ δ₁ := hhδ.trans (hδ.trans (hδ₀ ▸ min_le_left _ _))
  have hd2 : h ≤ δ₂ := hhδ.trans (hδ.trans (hδ₀ ▸ min_le_right _ _))
  have hr := h₁ (x t) hmem h hh.le hd1 0 (by norm_num)
  rw [refPair_zero, zero_add] at hr
  have hcmp := pair_compare hL hf hδ₀0.le hθ (by positivity) hh (hhδ.trans hδ) hp hr
  rw [← hB] at hcmp
  obtain ⟨e, he⟩ : ∃ e, e = ‖(π.prodMap π) p - (x t, x t)‖ := ⟨_, rfl⟩
  have he0 : 0 ≤ e := he ▸ norm_nonneg _
  have hend : ‖refPair P 2 (x t) h 1 - (x (t + h), x (t + h))‖ ≤ C₂ * h ^ (2 + 1) :=
    norm_prod_le_iff.2 ⟨h₂ t h ht hh.le hd2 hT _ fun τ hτ => (leap_one τ hτ).1,
      h₂ t h ht hh.le hd2 hT _ fun τ hτ => (leap_one τ hτ).2⟩
  show ‖((π.prodMap π) p' - (x (t + h), x (t + h))) - ((π.prodMap π) p - (x t, x t))‖ ≤ _
  have e1 : ((π.prodMap π) p' - (x (t + h), x (t + h))) - ((π.prodMap π) p - (x t, x t)) =
      (((π.prodMap π) p' - refPair P 2 (x t) h 1) - ((π.prodMap π) p - (x t, x t))) +
        (refPair P 2 (x t) h 1 - (x (t + h), x (t + h))) := by abel
  rw [e1]
  refine ((norm_add_le _ _).trans (add_le_add hcmp hend)).trans ?_
  show _ ≤ (B * (1 + C₁) + C₂) * (‖(π.prodMap π) p - (x t, x t)‖ + (δ ^ 2 + θ)) * h
  rw [← he]
  have hsq : h ^ 2 ≤ δ ^ 2 := pow_le_pow_left₀ hh.le hhδ 2
  have h20 : 0 ≤ h ^ 2 := by positivity
  have q1 : B * (e + (θ + C₁ * h ^ 2)) ≤ B * ((1 + C₁) * (e + (δ ^ 2 + θ))) := by
    refine mul_le_mul_of_nonneg_left ?_ hB0
    have : 0 ≤ C₁ * (e + θ) + C₁ * (δ ^ 2 - h ^ 2) + δ ^ 2 := by
      have : 0 ≤ δ ^ 2 - h ^ 2 := by linarith
      positivity
    nlinarith
  have q2 : C₂ * h ^ 2 ≤ C₂ * (e + (δ ^ 2 + θ)) := mul_le_mul_of_nonneg_left (by linarith) hC₂
  calc B * (e + (θ + C₁ * h ^ 2)) * h + C₂ * h ^ (2 + 1) = (B * (e + (θ + C₁ * h ^ 2)) + C₂ * h ^ 2) * h := by ring
    _ ≤ (B * ((1 + C₁) * (e + (δ ^ 2 + θ))) + C₂ * (e + (δ ^ 2 + θ))) * h :=
      mul_le_mul_of_nonneg_right (add_le_add q1 q2) hh.le
    _ = _ := by ring

lemma stetter_order (hL : 0 ≤ L) (hf : ∀ a b, ‖f a - f b‖ ≤ L * ‖a - b‖) :
    LooseOrder π f 2 0 (fun F dt x => .ok (stetterAdvise F dt x.1 x.2))
      (fun s => (s.allocated && s.initiated) = false) := by
  intro T x P hT hx hJ
  obtain ⟨C, δ₀, hC, hδ₀, hfol⟩ := stetter_follows (π := π) hL hf hx hJ
  refine ⟨C * Real.exp (C * T), δ₀, by positivity, hδ₀, ?_⟩
  intro F θ hθ hF dts δ hδ hδ' hd hS s e q hI hq
  obtain ⟨hw, hy⟩ := stetter_run_walk hF dts s e q (fun h => by rw [hI] at h; cases h) (Or.inr hI) hq
  have h0 : C24.startPair s e = (e.y, e.y) := by unfold C24.startPair; rw [hI]; rfl
  rw [h0] at hw
  have hS0 : 0 ≤ dts.sum := List.sum_nonneg fun d hd' => (hd d hd').1.le
  have := (walk_follows hC (by positivity) (hfol θ hθ δ hδ') dts hd 0 _ _ le_rfl (by rw [zero_add]; exact hS) hw).2
  have e0 : ‖(π.prodMap π) (e.y, e.y) - (x 0, x 0)‖ = ‖π e.y - x 0‖ := by
    show max ‖π e.y - x 0‖ ‖π e.y - x 0‖ = _
    exact max_self _
  rw [e0, zero_add] at this
  rw [hy]
  have e1 : Real.exp (C * dts.sum) ≤ Real.exp (C * T) := Real.exp_le_exp.2 (mul_le_mul_of_nonneg_left hS hC)
  rw [show ∀ u v w : E, u - v - w = u - (v + w) from fun u v w => sub_sub u v w]
  refine (mean_le (π := π) (x dts.sum + (π e.y - x 0)) _ _
    (r := C * ((‖π e.y - x 0‖ + (δ ^ 2 + θ)) * Real.exp (C * dts.sum)) * dts.sum) ?_).trans ?_
  · refine le_trans (le_of_eq ?_) this
    congr 1
    rw [sub_sub]
    rfl
  · rw [show C * Real.exp (C * T) * (‖π e.y - x 0‖ + (δ ^ 2 + 0 + θ)) * dts.sum =
      C * ((‖π e.y - x 0‖ + (δ ^ 2 + θ)) * Real.exp (C * T)) * dts.sum by ring]
    gcongr

/-! ### Bulirsch-Stoer -/

/-- The mean of the pair after `n` steps, expanded. -/
noncomputable def leapMean (n : ℕ) (τ : RTree) : ℝ := 1 / 2 * ((leap n).1 τ + (leap n).2 τ)

/-- A level, up to the order `p`. -/
lemma level_order (hL : 0 ≤ L) (hf : ∀ a b, ‖f a - f b‖ ≤ L * ‖a - b‖) (hJ : Jet f (x '' Set.Icc 0 T) P) {p : ℕ}
    (hp : 1 ≤ p) (n : ℕ → ℕ) (l : ℕ) (hn : 0 < n l) :
    ∃ C δ₀, 0 ≤ C ∧ 0 < δ₀ ∧ ∀ (F : Rhs) (θ : ℝ), 0 ≤ θ → Within π f θ F →
      ∀ (t d t0 : ℝ) (y : ℕ → ℝ) (c0 : ℕ), 0 ≤ t → t ≤ T → 0 < d → d ≤ δ₀ →
      ‖(π (bsLevel F n d t0 y c0 l) - series P p (leapMean (n l)) (x t) (d / (n l : ℝ))) - (π y - x t)‖ ≤
        C * (‖π y - x t‖ + (d ^ p + θ)) * d := by
  obtain ⟨C₁, δ₁, hC₁, hδ₁, h₁⟩ := refPair_walk hJ hp (n l)
  obtain ⟨B, hB⟩ : ∃ B, B = (1 + L) * (1 + L * δ₁) ^ 2 := ⟨_, rfl⟩
  have hB0 : 0 ≤ B := by rw [hB]; positivity
  have hn' : (1 : ℝ) ≤ n l := by exact_mod_cast hn
  have hn0 : (0 : ℝ) < n l := by linarith
  refine ⟨B * Real.exp (B * δ₁) * (1 + C₁), δ₁, by positivity, hδ₁, ?_⟩
  intro F θ hθ hF t d t0 y c0 ht htT hd hdδ
  have hmem : x t ∈ x '' Set.Icc 0 T := Set.mem_image_of_mem x ⟨ht, htT⟩
  obtain ⟨k, hk⟩ : ∃ k, k = d / (n l : ℝ) := ⟨_, rfl⟩
  have hk0 : 0 < k := by rw [hk]; exact div_pos hd hn0
  have hkd : k ≤ d := by rw [hk]; exact div_le_self hd.le hn'
  obtain ⟨q, hw, hq⟩ := level_walk hF n d t0 y c0 l hn
  rw [← hk] at hw ⊢
  have hwr := h₁ (x t) hmem k hk0.le (hkd.trans hdδ)
  have hcmp := (walks_compare (π := π.prodMap π) hB0 (g := θ + C₁ * k ^ p) (δ := δ₁) (by positivity)
    (fun h y y' z z' hh hhδ hp hr => by
      rw [hB]; exact pair_compare hL hf hδ₁.le hθ (by positivity) hh hhδ hp hr)
    (List.replicate (n l) k) (fun h hh => by
      rw [List.eq_of_mem_replicate hh]; exact ⟨hk0, hkd.trans hdδ⟩) _ _ _ _ hw hwr).2
  have hsum : (List.replicate (n l) k).sum = d := by
    rw [List.sum_replicate, nsmul_eq_mul, hk]
    field_simp
  rw [hsum] at hcmp
  obtain ⟨e, he⟩ : ∃ e, e = ‖π y - x t‖ := ⟨_, rfl⟩
  have he0 : 0 ≤ e := he ▸ norm_nonneg _
  have e0 : ‖(π.prodMap π) (y, y) - (x t, x t)‖ = e := by
    rw [he]
    show max ‖π y - x t‖ ‖π y - x t‖ = _
    exact max_self _
  rw [e0] at hcmp
  have hkp : k ^ p ≤ d ^ p := pow_le_pow_left₀ hk0.le hkd p
  have hkp0 : 0 ≤ k ^ p := by positivity
  have hR : B * ((e + (θ + C₁ * k ^ p)) * Real.exp (B * d)) * d ≤
      B * Real.exp (B * δ₁) * (1 + C₁) * (e + (d ^ p + θ)) * d := by
    refine mul_le_mul_of_nonneg_right ?_ hd.le
    have q1 : e + (θ + C₁ * k ^ p) ≤ (1 + C₁) * (e + (d ^ p + θ)) := by
      have : 0 ≤ C₁ * (e + θ) + C₁ * (d ^ p - k ^ p) + d ^ p := by
        have : 0 ≤ d ^ p - k ^ p := by linarith
        positivity
      nlinarith
    have q2 : Real.exp (B * d) ≤ Real.exp (B * δ₁) := Real.exp_le_exp.2 (mul_le_mul_of_nonneg_left hdδ hB0)
    calc B * ((e + (θ + C₁ * k ^ p)) * Real.exp (B * d)) ≤ B * ((1 + C₁) * (e + (d ^ p + θ)) * Real.exp (B * δ₁)) := by
          gcongr
      _ = _ := by ring
  have hm : ∀ (a b : ℕ → ℝ) (r : E × E) (z : E) {ρ : ℝ}, ‖((π.prodMap π) (a, b) - r) - ((π y, π y) - (z, z))‖ ≤ ρ →
      ‖(π ((1 / 2 : ℝ) • (a + b)) - (1 / 2 : ℝ) • (r.1 + r.2)) - (π y - z)‖ ≤ ρ := by
    intro a b r z ρ h
    have g1 : ‖(π a - r.1) - (π y - z)‖ ≤ ρ := (norm_fst_le (((π.prodMap π) (a, b) - r) - ((π y, π y) - (z, z)))).trans h
    have g2 : ‖(π b - r.2) - (π y - z)‖ ≤ ρ := (norm_snd_le (((π.prodMap π) (a, b) - r) - ((π y, π y) - (z, z)))).trans h
    have e : (π ((1 / 2 : ℝ) • (a + b)) - (1 / 2 : ℝ) • (r.1 + r.2)) - (π y - z) =
        (1 / 2 : ℝ) • ((π a - r.1) - (π y - z)) + (1 / 2 : ℝ) • ((π b - r.2) - (π y - z)) := by
      rw [map_smul, map_add]; module
    rw [e]
    refine (norm_add_le _ _).trans ?_
    rw [norm_smul, norm_smul, Real.norm_eq_abs, abs_of_pos (by norm_num)]
    linarith
  have hfin := hm q.1 q.2 (refPair P p (x t) k (n l)) (x t) (hcmp.trans hR)
  have es : (1 / 2 : ℝ) • ((refPair P p (x t) k (n l)).1 + (refPair P p (x t) k (n l)).2) =
      series P p (leapMean (n l)) (x t) k := by
    unfold refPair series leapMean
    have : ∀ τ, (k ^ τ.order * (1 / 2 * ((leap (n l)).1 τ + (leap (n l)).2 τ))) • elem P (x t) τ =
        (1 / 2 : ℝ) • ((k ^ τ.order * (leap (n l)).1 τ) • elem P (x t) τ) +
        (1 / 2 : ℝ) • ((k ^ τ.order * (leap (n l)).2 τ) • elem P (x t) τ) := fun τ => by module
    simp only [this, sum_add_distrib, ← smul_sum]
    module
  rw [es, ← hq] at hfin
  rw [← he]
  exact hfin

/-- The extrapolation of the expansions of the levels is the expansion of the solution. -/
lemma extrap_series {s : Finset ℕ} {n : ℕ → ℕ} (hn : ∀ i ∈ s, 0 < n i)
    (hinj : Set.InjOn (fun i => 1 / (((n i) ^ 2 : ℕ) : ℝ)) s) (hs : s.Nonempty) {p : ℕ} (hp : p ≤ 2 * s.card) (y : E) (d : ℝ) :
    ∑ i ∈ s, (Lagrange.basis s (fun i => 1 / (((n i) ^ 2 : ℕ) : ℝ)) i).eval 0 •
      series P p (leapMean (n i)) y (d / (n i : ℝ)) = series P p (fun τ => 1 / (τ.gamma : ℝ)) y d := by
  unfold series
  simp only [smul_add, sum_add_distrib, smul_sum]
  rw [← sum_smul, extrap_weights hinj hs, one_smul, sum_comm]
  congr 1
  refine sum_congr rfl fun τ hτ => ?_
  obtain ⟨Q, h1, h2, h3⟩ := leap_mean τ
  have hτ' := mem_treesUpTo.1 hτ
  rw [← h2, ← extrap_poly hinj (Q := Q) (by omega), mul_sum, sum_smul]
  refine sum_congr rfl fun i hi => ?_
  have hi' : (n i : ℝ) ≠ 0 := by exact_mod_cast (hn i hi).ne'
  rw [smul_smul]
  congr 1
  rw [leapMean, h3 _ (hn i hi), div_pow]
  field_simp

lemma level_order_below (hL : 0 ≤ L) (hf : ∀ a b, ‖f a - f b‖ ≤ L * ‖a - b‖) (hJ : Jet f (x '' Set.Icc 0 T) P) {p : ℕ}
    (hp : 1 ≤ p) (n : ℕ → ℕ) (hn : ∀ l, 0 < n l) (N : ℕ) :
    ∃ C δ₀, 0 ≤ C ∧ 0 < δ₀ ∧ ∀ l < N, ∀ (F : Rhs) (θ : ℝ), 0 ≤ θ → Within π f θ F →
      ∀ (t d t0 : ℝ) (y : ℕ → ℝ) (c0 : ℕ), 0 ≤ t → t ≤ T → 0 < d → d ≤ δ₀ →
      ‖(π (bsLevel F n d t0 y c0 l) - series P p (leapMean (n l)) (x t) (d / (n l : ℝ))) - (π y - x t)‖ ≤
        C * (‖π y - x t‖ + (d ^ p + θ)) * d := by
  induction N with
  | zero => exact ⟨0, 1, le_rfl, one_pos, fun l hl => absurd hl (by omega)⟩
  | succ N ih =>
    obtain ⟨C₁, δ₁, hC₁, hδ₁, h₁⟩ := ih
    obtain ⟨C₂, δ₂, hC₂, hδ₂, h₂⟩ := level_order (π := π) hL hf hJ hp n N (hn N)
    refine ⟨max C₁ C₂, min δ₁ δ₂, le_max_of_le_left hC₁, lt_min hδ₁ hδ₂, ?_⟩
    intro l hl F θ hθ hF t d t0 y c0 ht htT hd hdδ
    rcases Nat.lt_succ_iff_lt_or_eq.1 hl with h | rfl
    · refine (h₁ l h F θ hθ hF t d t0 y c0 ht htT hd (hdδ.trans (min_le_left _ _))).trans ?_
      have := le_max_left C₁ C₂
      gcongr
    · refine (h₂ F θ hθ hF t d t0 y c0 ht htT hd (hdδ.trans (min_le_right _ _))).trans ?_
      have := le_max_right C₁ C₂
      gcongr

lemma bsCount_inj (s : Finset ℕ) : Set.InjOn (fun i => 1 / (((C23.bsCount i) ^ 2 : ℕ) : ℝ)) s := by
  intro i _ j _ hij
  have h1 : (((C23.bsCount i) ^ 2 : ℕ) : ℝ) = (((C23.bsCount j) ^ 2 : ℕ) : ℝ) := by
    simp only [one_div] at hij
    exact inv_injective hij
  have h2 : (C23.bsCount i) ^ 2 = (C23.bsCount j) ^ 2 := by exact_mod_cast h1
  have h3 : C23.bsCount i = C23.bsCount j := Nat.pow_left_injective (n := 2) (by norm_num) h2
  rcases Nat.lt_trichotomy i j with h | h | h
  · have := C23.bsCount_increasing.2 i j h; omega
  · exact h
  · have := C23.bsCount_increasing.2 j i h; omega

/-- A step of the extrapolation with one of the sets of levels of the family `S`. -/
def ExtrapStep (F : Rhs) (S : Finset (Finset ℕ)) (d : ℝ) (y y' : ℕ → ℝ) : Prop :=
  ∃ s ∈ S, ∃ t0 c0, y' = bsExtrap (K := ℝ) C23.bsCount s (bsLevel F C23.bsCount d t0 y c0)

lemma extrap_follows (hL : 0 ≤ L) (hf : ∀ a b, ‖f a - f b‖ ≤ L * ‖a - b‖) (hx : Solves f T x)
    (hJ : Jet f (x '' Set.Icc 0 T) P) {p : ℕ} (hp : 1 ≤ p) (S : Finset (Finset ℕ))
    (hS : ∀ s ∈ S, s.Nonempty ∧ p ≤ 2 * s.card) :
    ∃ C δ₀, 0 ≤ C ∧ 0 < δ₀ ∧ ∀ (F : Rhs) (θ : ℝ), 0 ≤ θ → Within π f θ F → ∀ δ, δ ≤ δ₀ →
      Follows π x T C (δ ^ p + 0 + θ) δ (ExtrapStep F S) := by
  obtain ⟨N, hN⟩ : ∃ N, ∀ s ∈ S, ∀ i ∈ s, i < N := by
    refine ⟨(S.biUnion id).sup id + 1, fun s hs i hi => Nat.lt_succ_of_le ?_⟩
    exact le_sup (f := id) (mem_biUnion.2 ⟨s, hs, hi⟩)
  obtain ⟨C₁, δ₁, hC₁, hδ₁, h₁⟩ := level_order_below (π := π) hL hf hJ hp C23.bsCount C23.bsCount_increasing.1 N
  obtain ⟨C₂, δ₂, hC₂, hδ₂, h₂⟩ := solution_near_series hx hJ p
  let w : Finset ℕ → ℕ → ℝ := fun s i => (Lagrange.basis s (fun i => 1 / (((C23.bsCount i) ^ 2 : ℕ) : ℝ)) i).eval 0
  obtain ⟨W, hW⟩ : ∃ W, W = ∑ s ∈ S, ∑ i ∈ s, |w s i| := ⟨_, rfl⟩
  have hW0 : 0 ≤ W := hW ▸ sum_nonneg fun s _ => sum_nonneg fun i _ => abs_nonneg _
  have hWs : ∀ s ∈ S, ∑ i ∈ s, |w s i| ≤ W := fun s hs => hW ▸
    single_le_sum (f := fun s => ∑ i ∈ s, |w s i|) (fun s _ => sum_nonneg fun i _ => abs_nonneg _) hs
  refine ⟨W * C₁ + C₂, min δ₁ δ₂, by positivity, lt_min hδ₁ hδ₂, ?_⟩
  intro F θ hθ hF δ hδ t h y y' ht hh hhδ hT ⟨s, hs, t0, c0, hy⟩
  obtain ⟨hne, hcard⟩ := hS s hs
  have hs1 : ∑ i ∈ s, w s i = 1 := extrap_weights (bsCount_inj s) hne
  have e2 : ∑ i ∈ s, w s i • series P p (leapMean (C23.bsCount i)) (x t) (h / (C23.bsCount i : ℝ)) =
      series P p (fun τ => 1 / (τ.gamma : ℝ)) (x t) h :=
    extrap_series (fun i _ => C23.bsCount_increasing.1 i) (bsCount_inj s) hne hcard (x t) h
  have e1 : (π y' - x (t + h)) - (π y - x t) = (∑ i ∈ s, w s i • ((π (bsLevel F C23.bsCount h t0 y c0 i) -
      series P p (leapMean (C23.bsCount i)) (x t) (h / (C23.bsCount i : ℝ))) - (π y - x t))) +
      (series P p (fun τ => 1 / (τ.gamma : ℝ)) (x t) h - x (t + h)) := by
    simp only [smul_sub, sum_sub_distrib]
    have e3 := e2
    rw [e3, ← sum_smul, ← sum_smul, hs1, one_smul, one_smul, hy]
    have e4 : π (bsExtrap (K := ℝ) C23.bsCount s (bsLevel F C23.bsCount h t0 y c0)) =
        ∑ i ∈ s, w s i • π (bsLevel F C23.bsCount h t0 y c0 i) := by
      unfold bsExtrap extrap
      rw [map_sum]
      exact sum_congr rfl fun i _ => map_smul _ _ _
    rw [e4]
    abel
  have hsol := h₂ t h ht hh.le (hhδ.trans (hδ.trans (min_le_right _ _))) hT (fun τ => 1 / (τ.gamma : ℝ)) fun τ _ => rfl
  obtain ⟨e, he⟩ : ∃ e, e = ‖π y - x t‖ := ⟨_, rfl⟩
  have he0 : 0 ≤ e := he ▸ norm_nonneg _
  have hpow : h ^ p ≤ δ ^ p := pow_le_pow_left₀ hh.le hhδ p
  have hpow0 : 0 ≤ h ^ p := by positivity
  have hlev : ∀ i ∈ s, ‖(π (bsLevel F C23.bsCount h t0 y c0 i) -
      series P p (leapMean (C23.bsCount i)) (x t) (h / (C23.bsCount i : ℝ))) - (π y - x t)‖ ≤
      C₁ * (e + (δ ^ p + 0 + θ)) * h := fun i hi => by
    refine (h₁ i (hN s hs i hi) F θ hθ hF t h t0 y c0 ht (by linarith) hh (hhδ.trans (hδ.trans (min_le_left _ _)))).trans ?_
    rw [← he, add_zero]
    gcongr
  rw [e1, ← he]
  have hR : 0 ≤ C₁ * (e + (δ ^ p + 0 + θ)) * h := by
    have : 0 ≤ δ ^ p := hpow0.trans hpow
    positivity
  refine (norm_add_le _ _).trans ((add_le_add ((norm_sum_le _ _).trans (sum_le_sum (g := fun i => |w s i| *
    (C₁ * (e + (δ ^ p + 0 + θ)) * h)) fun i hi => by
      rw [norm_smul, Real.norm_eq_abs]
      exact mul_le_mul_of_nonneg_left (hlev i hi) (abs_nonneg _))) hsol).trans ?_)
  rw [← sum_mul]
  have q1 := mul_le_mul_of_nonneg_right (hWs s hs) hR
  have q2 : C₂ * h ^ (p + 1) ≤ C₂ * (e + (δ ^ p + 0 + θ)) * h := by
    rw [pow_succ, ← mul_assoc]
    refine mul_le_mul_of_nonneg_right (mul_le_mul_of_nonneg_left (by linarith) hC₂) hh.le
  calc _ ≤ W * (C₁ * (e + (δ ^ p + 0 + θ)) * h) + C₂ * (e + (δ ^ p + 0 + θ)) * h := add_le_add q1 q2
    _ = _ := by ring

lemma bsExtrap_single (y : ℕ → ℕ → ℝ) (l : ℕ) : bsExtrap (K := ℝ) C23.bsCount {l} y = y l := by
  unfold bsExtrap extrap
  simp

/-- The order of the extrapolation: two for one level or two (the last is taken as it is), six otherwise (at least three levels
are extrapolated), and twice the number of the levels if the threshold is never met. -/
structure BSOrder (N : (ℕ → ℝ) → ℝ) (cf : BSConf ℝ) (p : ℕ) : Prop where
  constructed : C23.Constructed cf
  levels : 1 ≤ cf.maxLevel
  positive : 1 ≤ p
  single : cf.maxLevel ≤ 2 → p ≤ 2
  several : 3 ≤ cf.maxLevel → p ≤ 6 ∨ cf.threshold ≤ 0 ∧ (∀ y, 0 ≤ N y) ∧ p ≤ 2 * cf.maxLevel

lemma bs_order (hL : 0 ≤ L) (hf : ∀ a b, ‖f a - f b‖ ≤ L * ‖a - b‖) {N : (ℕ → ℝ) → ℝ} {cf : BSConf ℝ} {p : ℕ}
    (h : BSOrder N cf p) :
    LooseOrder π f p 0 (fun F dt x => bsAdvise F N cf dt x.1 x.2) (C23.TablesOk cf) := by
  let S : Finset (Finset ℕ) := if cf.maxLevel ≤ 2 then {{cf.maxLevel - 1}} else
    ((range (cf.maxLevel + 1)).image fun M => Icc 0 (M - 1)).filter fun s => s.Nonempty ∧ p ≤ 2 * s.card
  have hS : ∀ s ∈ S, s.Nonempty ∧ p ≤ 2 * s.card := by
    intro s hs
    by_cases h2 : cf.maxLevel ≤ 2
    · simp only [S, if_pos h2, mem_singleton] at hs
      subst hs
      exact ⟨singleton_nonempty _, by simpa using h.single h2⟩
    · simp only [S, if_neg h2, mem_filter] at hs
      exact hs.2
  refine order_of_walk le_rfl fun T x P hT hx hJ => ?_
  obtain ⟨C, δ₀, hC, hδ₀, hfol⟩ := extrap_follows (π := π) hL hf hx hJ h.positive S hS
  refine ⟨C, δ₀, hC, hδ₀, fun F θ hθ hF δ hδ hδ' => ⟨ExtrapStep F S, hfol F θ hθ hF δ hδ', ?_⟩⟩
  intro dts hd s e q hI hq
  refine ⟨dts, rfl, fun d hd' => ⟨(hd d hd').1, d, hd', le_rfl⟩, ?_⟩
  clear hd
  obtain ⟨z, hz⟩ : ∃ z, z = (s, e) := ⟨_, rfl⟩
  rw [← hz] at hq
  induction hq generalizing s e with
  | nil z => rw [hz]; rfl
  | @cons dt dts s' e' q1 q2 c step rest ih =>
    cases hz
    obtain ⟨r, M, hr, ht, hM, -, -, -, -, -, h12, hbig⟩ := C23.bs_step F N h.constructed dt hI { e' with cc := c }
    have hr' : bsAdvise F N cf dt s' { e' with cc := c } = .ok q1 := step
    rw [hr'] at hr
    cases hr
    refine ⟨q1.2.y, ?_, ih q1.1 q1.2 ht rfl⟩
    by_cases h2 : cf.maxLevel ≤ 2
    · refine ⟨{cf.maxLevel - 1}, by simp only [S, if_pos h2, mem_singleton], e'.time, c, ?_⟩
      rw [bsExtrap_single]
      exact h12 (by have := h.levels; omega)
    · obtain ⟨hM3, hy, hstop, -⟩ := hbig (by omega)
      refine ⟨Icc 0 (M - 1), ?_, e'.time, c, hy⟩
      simp only [S, if_neg h2, mem_filter, mem_image, mem_range]
      refine ⟨⟨M, by omega, rfl⟩, ⟨0, by simp⟩, ?_⟩
      rw [Nat.card_Icc]
      rcases h.several (by omega) with h6 | ⟨h7, h8, h9⟩
      · omega
      · rcases hstop with h10 | h10
        · exact absurd (h10.trans_le h7) (not_lt.2 (h8 _))
        · omega

end

end NB
