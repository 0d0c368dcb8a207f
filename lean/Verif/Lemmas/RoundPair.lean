import Verif.Lemmas.RoundSteps
import Verif.Lemmas.OrderPair

/-
Steps of Stetter's scheme and of Adams-Bashforth in rounded arithmetic.
-/

namespace NB

open Finset

section
variable {E : Type} [NormedAddCommGroup E] [NormedSpace ℝ E]

/-- A step of Stetter's scheme whose derivatives are computed up to `θ`, and whose sums up to `κ` times the sizes of their terms. -/
def RoundedPair (f : E → E) (κ θ h : ℝ) (p p' : E × E) : Prop :=
  ∃ a b c t : E, ‖a - f p.1‖ ≤ θ ∧ ‖t - (p.2 + (h / 2) • a)‖ ≤ κ * (‖p.2‖ + h / 2 * ‖a‖) ∧ ‖b - f t‖ ≤ θ ∧
    ‖p'.1 - (p.1 + h • b)‖ ≤ κ * (‖p.1‖ + h * ‖b‖) ∧ ‖c - f p'.1‖ ≤ θ ∧
    ‖p'.2 - (p.2 + (h / 2) • (a + c))‖ ≤ κ * (‖p.2‖ + h / 2 * (‖a‖ + ‖c‖))

variable {f : E → E} {L : ℝ} {x : ℝ → E} {T : ℝ}

/-- The error of rounded sums, at most `r` each, and of the derivatives at them, put into the constant. -/
lemma absorb {C₁ L c₂ δ₀ κ θ w ω h e r s s' : ℝ} (hC₁ : 0 ≤ C₁) (hL : 0 ≤ L) (hc₂ : 0 ≤ c₂) (hθ : 0 ≤ θ) (hw : 0 ≤ w)
    (hω0 : 0 ≤ ω) (hω1 : ω ≤ 1) (hh : 0 ≤ h) (hhδ : h ≤ δ₀) (he : 0 ≤ e) (hκ : κ ≤ ω * h) (hr : r = κ * (c₂ * (1 + e)))
    (hs : s ≤ r) (hs' : s' ≤ C₁ * (e + (w + (θ + L * r))) * h) :
    s + s' ≤ (C₁ * (1 + L * c₂ * δ₀) + c₂) * (e + (w + θ + ω)) * h := by
  obtain ⟨W, hW⟩ : ∃ W, W = e + (w + θ + ω) := ⟨_, rfl⟩
  have hW0 : 0 ≤ W := by rw [hW]; positivity
  have g1 : ω * (1 + e) ≤ W := by rw [hW]; nlinarith
  have g2 : r ≤ c₂ * W * h := by
    rw [hr]
    calc κ * (c₂ * (1 + e)) ≤ ω * h * (c₂ * (1 + e)) := by gcongr
      _ = c₂ * (ω * (1 + e)) * h := by ring
      _ ≤ c₂ * W * h := by gcongr
  have g3 : r ≤ c₂ * W * δ₀ := g2.trans (by gcongr)
  have g4 : e + (w + (θ + L * r)) ≤ (1 + L * c₂ * δ₀) * W := by
    have : L * r ≤ L * (c₂ * W * δ₀) := by gcongr
    calc e + (w + (θ + L * r)) ≤ W + L * (c₂ * W * δ₀) := by rw [hW] at this ⊢; linarith
      _ = _ := by ring
  rw [← hW]
  calc s + s' ≤ c₂ * W * h + C₁ * ((1 + L * c₂ * δ₀) * W) * h := by
        have : C₁ * (e + (w + (θ + L * r))) * h ≤ C₁ * ((1 + L * c₂ * δ₀) * W) * h := by gcongr
        linarith
    _ = _ := by ring

omit [NormedSpace ℝ E] in
/-- A derivative at a point that is not too large. -/
lemma deriv_size (hL : 0 ≤ L) (hf : ∀ a b, ‖f a - f b‖ ≤ L * ‖a - b‖) {θ c e : ℝ} (hθ : θ ≤ 1) (he : 0 ≤ e) {k t : E} (hk : ‖k - f t‖ ≤ θ)
    (ht : ‖t‖ ≤ c * (1 + e)) : ‖k‖ ≤ (1 + ‖f 0‖ + L * c) * (1 + e) := by
  have h1 : ‖k‖ ≤ ‖k - f t‖ + (‖f t - f 0‖ + ‖f 0‖) := by
    have e : k = (k - f t) + ((f t - f 0) + f 0) := by abel
    calc ‖k‖ = ‖(k - f t) + ((f t - f 0) + f 0)‖ := by rw [← e]
      _ ≤ _ := (norm_add_le _ _).trans (add_le_add le_rfl (norm_add_le _ _))
  have h2 := hf t 0
  rw [sub_zero] at h2
  have h3 : L * ‖t‖ ≤ L * (c * (1 + e)) := mul_le_mul_of_nonneg_left ht hL
  have h4 : 0 ≤ ‖f 0‖ * e := by positivity
  nlinarith

omit [NormedSpace ℝ E] in
/-- A rounded sum of terms that are not too large. -/
lemma sum_size {κ h δ₀ c d A e : ℝ} (hκ : κ ≤ 1) (hh : 0 ≤ h) (hhδ : h ≤ δ₀) (hA0 : 0 ≤ A) {y v s : E} (hy : ‖y‖ ≤ c * (1 + e))
    (hA : A ≤ d * (1 + e)) (hv : ‖v‖ ≤ h * A) (hs : ‖s - (y + v)‖ ≤ κ * (‖y‖ + h * A)) : ‖s‖ ≤ 2 * (c + δ₀ * d) * (1 + e) := by
  have h1 : ‖s‖ ≤ ‖s - (y + v)‖ + (‖y‖ + ‖v‖) := by
    have e : s = (s - (y + v)) + (y + v) := by abel
    calc ‖s‖ = ‖(s - (y + v)) + (y + v)‖ := by rw [← e]
      _ ≤ _ := (norm_add_le _ _).trans (add_le_add le_rfl (norm_add_le _ _))
  have h2 : κ * (‖y‖ + h * A) ≤ 1 * (‖y‖ + h * A) := mul_le_mul_of_nonneg_right hκ (by positivity)
  have h3 : h * A ≤ δ₀ * (d * (1 + e)) := mul_le_mul hhδ hA hA0 (hh.trans hhδ)
  nlinarith

/-- **Rounded steps of Stetter's scheme follow a solution**. -/
lemma rounded_pair_follows (hL : 0 ≤ L) (hf : ∀ a b, ‖f a - f b‖ ≤ L * ‖a - b‖) {P : Coeffs E} (hx : Solves f T x)
    (hJ : Jet f (x '' Set.Icc 0 T) P) {X : ℝ} (hX0 : 0 ≤ X) (hX : ∀ t ∈ Set.Icc 0 T, ‖x t‖ ≤ X) :
    ∃ C δ₀, 0 ≤ C ∧ 0 < δ₀ ∧ ∀ κ θ dmin : ℝ, 0 ≤ κ → κ ≤ 1 → 0 ≤ θ → θ ≤ 1 → 0 < dmin → κ ≤ dmin → ∀ δ, δ ≤ δ₀ →
      Follows ((LinearMap.id : E →ₗ[ℝ] E).prodMap (LinearMap.id : E →ₗ[ℝ] E)) (fun t => (x t, x t)) T C (δ ^ 2 + θ + κ / dmin) δ
        (fun h p p' => dmin ≤ h ∧ RoundedPair f κ θ h p p') := by
  obtain ⟨C₁, δ₀, hC₁, hδ₀, hfol⟩ := stetter_follows (E := E) (π := (LinearMap.id : E →ₗ[ℝ] E)) hL hf hx hJ
  obtain ⟨cY, hcY⟩ : ∃ c, c = X + 1 := ⟨_, rfl⟩
  have hcY0 : 0 ≤ cY := by rw [hcY]; positivity
  obtain ⟨ca, hca⟩ : ∃ c, c = 1 + ‖f 0‖ + L * cY := ⟨_, rfl⟩
  have hca0 : 0 ≤ ca := by rw [hca]; positivity
  obtain ⟨ct, hct⟩ : ∃ c, c = 2 * (cY + δ₀ * ca) := ⟨_, rfl⟩
  have hct0 : 0 ≤ ct := by rw [hct]; positivity
  obtain ⟨cb, hcb⟩ : ∃ c, c = 1 + ‖f 0‖ + L * ct := ⟨_, rfl⟩
  have hcb0 : 0 ≤ cb := by rw [hcb]; positivity
  obtain ⟨cu, hcu⟩ : ∃ c, c = 2 * (cY + δ₀ * cb) := ⟨_, rfl⟩
  have hcu0 : 0 ≤ cu := by rw [hcu]; positivity
  obtain ⟨cc, hcc⟩ : ∃ c, c = 1 + ‖f 0‖ + L * cu := ⟨_, rfl⟩
  have hcc0 : 0 ≤ cc := by rw [hcc]; positivity
  obtain ⟨c₂, hc₂⟩ : ∃ c, c = cY + δ₀ * (ca + cb + cc) := ⟨_, rfl⟩
  have hc₂0 : 0 ≤ c₂ := by rw [hc₂]; positivity
  refine ⟨C₁ * (1 + L * c₂ * δ₀) + c₂, δ₀, by positivity, hδ₀, ?_⟩
  rintro κ θ dmin hκ0 hκ hθ0 hθ hdm hκd δ hδ t h p p' ht hh hhδ hT ⟨hdh, a, b, c, s, ha, hs, hb, hu, hc, hv⟩
  have hhδ₀ := hhδ.trans hδ
  obtain ⟨e, he⟩ : ∃ e, e = ‖((LinearMap.id : E →ₗ[ℝ] E).prodMap (LinearMap.id : E →ₗ[ℝ] E)) p - (x t, x t)‖ := ⟨_, rfl⟩
  have he0 : 0 ≤ e := by rw [he]; positivity
  have hxt : ‖x t‖ ≤ X := hX t ⟨ht, by linarith⟩
  have hsz : ∀ y : E, ‖y - x t‖ ≤ e → ‖y‖ ≤ cY * (1 + e) := by
    intro y hy
    have h1 : ‖y‖ ≤ ‖y - x t‖ + ‖x t‖ := by simpa using norm_add_le (y - x t) (x t)
    have h2 : 0 ≤ X * e := by positivity
    calc ‖y‖ ≤ e + X := by linarith only [h1, hy, hxt]
      _ ≤ e + X + (X * e + 1) := by linarith only [h2]
      _ = cY * (1 + e) := by rw [hcY]; ring
  have hp1 : ‖p.1‖ ≤ cY * (1 + e) := hsz _ (by rw [he]; exact norm_fst_le (((LinearMap.id : E →ₗ[ℝ] E).prodMap (LinearMap.id : E →ₗ[ℝ] E)) p - (x t, x t)))
  have hp2 : ‖p.2‖ ≤ cY * (1 + e) := hsz _ (by rw [he]; exact norm_snd_le (((LinearMap.id : E →ₗ[ℝ] E).prodMap (LinearMap.id : E →ₗ[ℝ] E)) p - (x t, x t)))
  have hna : ‖a‖ ≤ ca * (1 + e) := by rw [hca]; exact deriv_size hL hf hθ he0 ha hp1
  have hh2 : h / 2 ≤ δ₀ := by linarith
  have hns : ‖s‖ ≤ ct * (1 + e) := by
    rw [hct]
    exact sum_size hκ (by linarith) hh2 (norm_nonneg a) hp2 hna (by
      rw [norm_smul, Real.norm_eq_abs, abs_of_nonneg (by linarith)]) hs
  have hnb : ‖b‖ ≤ cb * (1 + e) := by rw [hcb]; exact deriv_size hL hf hθ he0 hb hns
  have hnu : ‖p'.1‖ ≤ cu * (1 + e) := by
    rw [hcu]
    exact sum_size hκ hh.le hhδ₀ (norm_nonneg b) hp1 hnb (by
      rw [norm_smul, Real.norm_eq_abs, abs_of_nonneg hh.le]) hu
  have hnc : ‖c‖ ≤ cc * (1 + e) := by rw [hcc]; exact deriv_size hL hf hθ he0 hc hnu
  obtain ⟨r, hr⟩ : ∃ r, r = κ * (c₂ * (1 + e)) := ⟨_, rfl⟩
  have hr0 : 0 ≤ r := by rw [hr]; positivity
  have hle : ∀ (y : E) (A d k : ℝ), ‖y‖ ≤ cY * (1 + e) → 0 ≤ k → k ≤ δ₀ → 0 ≤ A → A ≤ d * (1 + e) → d ≤ ca + cb + cc →
      κ * (‖y‖ + k * A) ≤ r := by
    intro y A d k hy hk hk' hA0 hA hd
    rw [hr, hc₂]
    refine mul_le_mul_of_nonneg_left ?_ hκ0
    have h1 : k * A ≤ δ₀ * ((ca + cb + cc) * (1 + e)) :=
      mul_le_mul hk' (hA.trans (mul_le_mul_of_nonneg_right hd (by linarith only [he0]))) hA0 hδ₀.le
    calc ‖y‖ + k * A ≤ cY * (1 + e) + δ₀ * ((ca + cb + cc) * (1 + e)) := add_le_add hy h1
      _ = _ := by ring
  have es := hs.trans (hle p.2 ‖a‖ ca (h / 2) hp2 (by linarith) hh2 (norm_nonneg a) hna (by linarith))
  have eu := hu.trans (hle p.1 ‖b‖ cb h hp1 hh.le hhδ₀ (norm_nonneg b) hnb (by linarith))
  have ev := hv.trans (hle p.2 (‖a‖ + ‖c‖) (ca + cc) (h / 2) hp2 (by linarith) hh2 (by positivity)
    (by rw [add_mul]; exact add_le_add hna hnc) (by linarith))
  obtain ⟨q, hq⟩ : ∃ q : E × E, q = (p.1 + h • b, p.2 + (h / 2) • (a + c)) := ⟨_, rfl⟩
  have hLr : 0 ≤ L * r := by positivity
  have hmove : ∀ k z z' : E, ‖k - f z‖ ≤ θ → ‖z - z'‖ ≤ r → ‖k - f z'‖ ≤ θ + L * r := by
    intro k z z' h1 h2
    have e1 : k - f z' = (k - f z) + (f z - f z') := by abel
    rw [e1]
    exact (norm_add_le _ _).trans (add_le_add h1 ((hf _ _).trans (mul_le_mul_of_nonneg_left h2 hL)))
  have hex := hfol (θ + L * r) (by positivity) δ hδ t h p q ht hh hhδ hT ⟨a, b, c, by simpa using ha.trans (by linarith),
    by simpa using hmove b s _ hb es, by simpa [hq] using hmove c p'.1 _ hc eu, by rw [hq], by rw [hq]⟩
  rw [← he] at hex
  obtain ⟨ω, hω⟩ : ∃ ω, ω = κ / dmin := ⟨_, rfl⟩
  have hω0 : 0 ≤ ω := by rw [hω]; positivity
  have hω1 : ω ≤ 1 := by rw [hω]; exact (div_le_one hdm).2 hκd
  have hκω : κ ≤ ω * h := by
    rw [hω, div_mul_eq_mul_div, le_div_iff₀ hdm]
    exact mul_le_mul_of_nonneg_left hdh hκ0
  have hlast : ‖((LinearMap.id : E →ₗ[ℝ] E).prodMap (LinearMap.id : E →ₗ[ℝ] E)) p' -
      ((LinearMap.id : E →ₗ[ℝ] E).prodMap (LinearMap.id : E →ₗ[ℝ] E)) q‖ ≤ r := by
    rw [hq]
    exact norm_prod_le_iff.2 ⟨eu, ev⟩
  rw [← hω, ← he]
  refine le_trans ?_ (absorb hC₁ hL hc₂0 hθ0 (sq_nonneg δ) hω0 hω1 hh.le hhδ₀ he0 hκω hr hlast hex)
  refine le_trans (le_of_eq ?_) (norm_add_le _ _)
  congr 1
  abel

end

end NB
