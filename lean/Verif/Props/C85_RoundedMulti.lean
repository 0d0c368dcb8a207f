import Verif.Lemmas.RoundMulti
import Verif.Props.C85_Rounded

/-
C85, continued: the solvers that remember earlier steps, Stetter and Adams-Bashforth, in rounded arithmetic.
-/

namespace NB.C85

open Finset
open _root_.Spec (Buffers Motion Near Outcome Performs Allowed put put_ne)
open C82 (OffCutoff)
open C74 (Apart)

section
variable {S : Type} [Add S] [Sub S] [Mul S] [Neg S] [Div S] [Zero S] [One S] [FOps S] {val : S → ℝ} {u : ℝ}

/-- The derivative that an engine computes, and its error. -/
lemma engine_derivative (F : Spec.FloatOps val u) (h0 : 0 ≤ u) {n : ℕ} (hn : 0 < n) (hu : 2 * ((n : ℝ) + 16) * u ≤ 1 / 2) {M : ℕ → S} {Mr : ℕ → ℝ}
    (hM : ∀ i, i < n → Mr i ≠ 0) (hMv : ∀ i, i < n → val (M i) = Mr i) {H : ℕ → Prop} {E : EngineOps S (Mem S)}
    {Rep : Buffers S → Mem S → Prop} (hE : DirectEngine n M H E Rep) :
    ∃ deriv : (ℕ → S) → ℕ → S, Performs E n H deriv Rep ∧
      ∀ Y, ‖vec (6 * n) val (deriv Y) - gravity n Mr (vec (6 * n) val Y)‖ ≤ 2 * (n + 16) * (totalAbs n Mr * 1e8) * u := by
  have hnu : 0 ≤ ((n : ℝ) + 16) * u := by positivity
  obtain ⟨deriv, K', hK', hperf, hacc⟩ := engine_performs F h0 hn (by push_cast; linarith) (fun i hi => by rw [hMv i hi]; exact hM i hi) hE
  exact ⟨deriv, hperf, fun Y => (accurate_norm h0 hK' (by push_cast; linarith) hMv (hacc Y)).trans_eq (by ring)⟩

/-! ### Stetter -/

omit [Zero S] [One S] in
/-- The pair that a step starts from. -/
noncomputable def stetterPair (N : ℕ) (val : S → ℝ) (h : Slot → Handle) (fl : StetterFlags) (V : Buffers S) : (Fin N → ℝ) × (Fin N → ℝ) :=
  if fl.allocated && fl.initiated then (vec N val (V (h (.stack 0))), vec N val (V (h (.stack 1))))
  else (vec N val (V (h .y)), vec N val (V (h .y)))

/-- A run of Stetter's solver is a walk of rounded steps of its pair. -/
lemma stetter_run (F : Spec.FloatOps val u) (h0 : 0 ≤ u) (hu : u < 1) {h : Slot → Handle} (hh : Function.Injective h) {H : ℕ → Prop}
    (hH : ∀ s, Spec.stetterSlots s → H (h s)) {n N : ℕ} {f : (Fin N → ℝ) → Fin N → ℝ} {θ : ℝ} {deriv : (ℕ → S) → ℕ → S}
    (hd : ∀ Y, ‖vec N val (deriv Y) - f (vec N val Y)‖ ≤ θ) {σ : Type} {E : EngineOps S σ} {Rep : Buffers S → σ → Prop}
    (hE : Performs E n H deriv Rep) :
    ∀ (dts : List S), (∀ d ∈ dts, 0 < val d) → ∀ (fl : StetterFlags) (V : Buffers S) (m : σ), Rep V m →
      ((fl.allocated && fl.initiated) = true → V (stetterFu h fl 0) = deriv (V (h (.stack 0)))) →
      ∃ fl' V' m', runSteps E (fun fl dt => stetterCalls h dt fl) dts (fl, m) = .ok (fl', m') ∧ Rep V' m' ∧ (dts = [] → V' = V) ∧
        (dts ≠ [] → Walk (RoundedPair f (kappa u 6) θ) (dts.map val) (stetterPair N val h fl V)
            (vec N val (V' (h (.stack 0))), vec N val (V' (h (.stack 1)))) ∧
          ‖vec N val (V' (h .y)) - (1 / 2 : ℝ) • (vec N val (V' (h (.stack 0))) + vec N val (V' (h (.stack 1))))‖ ≤
            kappa u 6 * (1 / 2 * (‖vec N val (V' (h (.stack 0)))‖ + ‖vec N val (V' (h (.stack 1)))‖))) := by
  intro dts
  induction dts with
  | nil => intro _ fl V m hm _; exact ⟨fl, V, m, rfl, hm, fun _ => rfl, fun e => absurd rfl e⟩
  | cons d dts ih =>
    intro hdt fl V m hm hk
    obtain ⟨r, m1, h1, h2, h3⟩ := _root_.Spec.run_outcome hE (Spec.stetter_allowed hh hH d fl) hm
    obtain ⟨g1, g2, g3, g4⟩ := stetter_outcome F h0 hu hh d fl hd h1 (hdt d (by simp)) hk
    obtain ⟨fl', V', m', k1, k2, k3, k4⟩ := ih (fun x hx => hdt x (by simp [hx])) r.1 r.2 m1 h3 fun _ => g3
    refine ⟨fl', V', m', ?_, k2, fun e => absurd e (by simp), fun _ => ?_⟩
    · unfold runSteps at k1 ⊢
      rw [List.foldlM_cons]
      show ((stetterCalls h d fl).run E m >>= _) = _
      rw [h2, res_ok_bind]
      exact k1
    · by_cases he : dts = []
      · subst he
        rw [k3 rfl]
        exact ⟨⟨_, g1, rfl⟩, g4⟩
      · obtain ⟨w1, w2⟩ := k4 he
        refine ⟨⟨_, g1, ?_⟩, w2⟩
        unfold stetterPair at w1
        rw [if_pos g2] at w1
        exact w1

end

lemma stetter_final {e κ u dmin X A ε w : ℝ} (hκ0 : 0 ≤ κ) (hκ1 : κ ≤ 1) (hκ : κ ≤ 12 * u) (_h0 : 0 ≤ u) (hd0 : 0 < dmin) (hd1 : dmin ≤ 1)
    (hX : 0 ≤ X) (he0 : 0 ≤ e) (hε : 0 ≤ ε) (hw : 0 ≤ w) (he : e ≤ A * (ε + w + 0 + u / dmin)) :
    e + κ * (X + e) ≤ (2 * A + 12 * X) * (ε + w + u / dmin) := by
  have hud : u ≤ u / dmin := by
    rw [le_div_iff₀ hd0]
    nlinarith
  have h1 : κ * e ≤ 1 * e := mul_le_mul_of_nonneg_right hκ1 he0
  have h2 : κ * X ≤ 12 * u * X := mul_le_mul_of_nonneg_right hκ hX
  have h3 : u * X ≤ u / dmin * X := mul_le_mul_of_nonneg_right hud hX
  have h4 : 0 ≤ X * (ε + w) := by positivity
  nlinarith

/-- **Stetter's solver converges in rounded arithmetic**, with steps of any sizes between `dmin` and `δ`, on any of the engines: order two, and the
rounding errors are at most of the order of `u / dmin`.  Not covered: overflow, underflow and NaN. -/
theorem rounded_stetter_partial {n : ℕ} {Mr : ℕ → ℝ} (hn : 0 < n) (hM : ∀ i, i < n → Mr i ≠ 0) {T : ℝ}
    {q v : ℝ → ℕ → Fin 3 → ℝ} (hq : Motion 1e-8 n Mr T q v) (hoff : OffCutoff n T q) :
    ∃ C δ₀ u₀ : ℝ, 0 ≤ C ∧ 0 < δ₀ ∧ 0 < u₀ ∧
      ∀ (S : Type) [Add S] [Sub S] [Mul S] [Neg S] [Div S] [Zero S] [One S] [FOps S] (val : S → ℝ) (u : ℝ),
      Spec.FloatOps val u → 0 ≤ u → ∀ M : ℕ → S, (∀ i, i < n → val (M i) = Mr i) →
      ∀ (h : Slot → Handle) (H : ℕ → Prop), Function.Injective h → (∀ s, Spec.stetterSlots s → H (h s)) →
      ∀ (E : EngineOps S (Mem S)) (Rep : Buffers S → Mem S → Prop), DirectEngine n M H E Rep →
      ∀ (dts : List S) (dmin δ ε : ℝ), 0 < dmin → dmin ≤ δ → δ ≤ δ₀ → u ≤ u₀ * dmin → (∀ d ∈ dts, dmin ≤ val d ∧ val d ≤ δ) →
      (dts.map val).sum ≤ T →
      ∀ (fl₀ : StetterFlags), fl₀.initiated = false →
      ∀ (V : Buffers S) (m : Mem S), Rep V m → Near n (fun j => val (V (h .y) j)) (q 0) (v 0) ε →
      ∃ fl V' m', runSteps E (fun fl dt => stetterCalls h dt fl) dts (fl₀, m) = .ok (fl, m') ∧ Rep V' m' ∧
        Near n (fun j => val (V' (h .y) j)) (q (dts.map val).sum) (v (dts.map val).sum) (C * (ε + δ ^ 2 + u / dmin)) := by
  have hsol := motion_solves hq
  obtain ⟨X, hX0, hX⟩ := solves_state_bounded hsol
  obtain ⟨C', δ₀, hC', hδ₀, hfol⟩ := rounded_pair_follows (gravityLip_nonneg n Mr) (gravity_lip n Mr) hsol (motion_smooth hq hoff) hX0 hX
  have htot := totalAbs_nonneg n Mr
  obtain ⟨Θ, hΘ⟩ : ∃ Θ : ℝ, Θ = 2 * (n + 16) * (totalAbs n Mr * 1e8) := ⟨_, rfl⟩
  have hΘ0 : 0 ≤ Θ := by rw [hΘ]; positivity
  obtain ⟨B, hB⟩ : ∃ B : ℝ, B = 4 * (n + 16) + Θ + 24 := ⟨_, rfl⟩
  have hB0 : 0 < B := by rw [hB]; positivity
  obtain ⟨A, hA⟩ : ∃ A : ℝ, A = Real.exp (C' * T) * (1 + Θ + 2 * 6 * 1) := ⟨_, rfl⟩
  have hA1 : 0 ≤ A := by rw [hA]; positivity
  refine ⟨2 * A + 12 * X + 1, min δ₀ 1, 1 / B, by positivity, lt_min hδ₀ one_pos, by positivity, ?_⟩
  intro S _ _ _ _ _ _ _ _ val u F h0 M hMv h H hh hH E Rep hE dts dmin δ ε hd0 hdδ hδ hu hd hsum fl₀ hfl V m hm hnear
  have hδ1 : δ ≤ 1 := hδ.trans (min_le_right _ _)
  have hδ0 : δ ≤ δ₀ := hδ.trans (min_le_left _ _)
  have hn0 : (0 : ℝ) ≤ n := Nat.cast_nonneg n
  have hBu : B * u ≤ dmin := by
    rw [one_div, inv_mul_eq_div, le_div_iff₀ hB0] at hu
    linarith
  have h24 : 24 * u ≤ dmin := le_trans (mul_le_mul_of_nonneg_right (by rw [hB]; linarith) h0) hBu
  have hnu : 4 * ((n : ℝ) + 16) * u ≤ dmin := le_trans (mul_le_mul_of_nonneg_right (by rw [hB]; linarith) h0) hBu
  have hΘu : Θ * u ≤ dmin := le_trans (mul_le_mul_of_nonneg_right (by rw [hB]; linarith) h0) hBu
  have hu1 : u < 1 := by linarith
  obtain ⟨deriv, hperf, hder⟩ := engine_derivative F h0 hn (by linarith) hM hMv hE
  rw [← hΘ] at hder
  obtain ⟨fl', V', m', r1, r2, r3, r4⟩ := stetter_run F h0 hu1 hh hH hder hperf dts (fun d hd' => hd0.trans_le (hd d hd').1) fl₀ V m hm
    (fun e => by rw [hfl] at e; simp at e)
  refine ⟨fl', V', m', r1, r2, ?_⟩
  rw [C78.near_iff hn] at hnear ⊢
  have hnear' : ‖vec (6 * n) val (V (h .y)) - stateOf n q v 0‖ ≤ ε := hnear
  have hε : 0 ≤ ε := (norm_nonneg _).trans hnear'
  have hud0 : 0 ≤ u / dmin := by positivity
  have hδp : 0 ≤ δ ^ 2 := by positivity
  show ‖vec (6 * n) val (V' (h .y)) - stateOf n q v (dts.map val).sum‖ ≤ _
  by_cases he : dts = []
  · subst he
    rw [r3 rfl, List.map_nil, List.sum_nil]
    refine hnear'.trans ?_
    have : 0 ≤ (2 * A + 12 * X) * (ε + δ ^ 2 + u / dmin) := by positivity
    nlinarith
  obtain ⟨w1, w2⟩ := r4 he
  have hκ0 := kappa_nonneg h0 hu1 6
  have hκ : kappa u 6 ≤ 2 * (6 : ℕ) * u := kappa_le h0 (by push_cast; linarith) hu1
  push_cast at hκ
  have hκd : kappa u 6 ≤ dmin := by linarith
  obtain ⟨g, hg⟩ : ∃ g, g = δ ^ 2 + 0 + Θ * u + kappa u 6 / (dmin / 1) := ⟨_, rfl⟩
  have hg0 : 0 ≤ g := by rw [hg]; positivity
  have hpair : stetterPair (6 * n) val h fl₀ V = (vec (6 * n) val (V (h .y)), vec (6 * n) val (V (h .y))) := by
    unfold stetterPair
    rw [hfl]; simp
  have hw := (walk_follows hC' hg0 (by
      rw [hg, add_zero, div_one]
      exact hfol (kappa u 6) (Θ * u) dmin hκ0 (by linarith) (by positivity) (by linarith) hd0 hκd δ hδ0) (dts.map val)
    (fun x hx => by
      obtain ⟨d, hd', rfl⟩ := List.mem_map.1 hx
      exact ⟨hd0.trans_le (hd d hd').1, (hd d hd').2⟩) 0 _ _ le_rfl (by rw [zero_add]; exact hsum)
    (walk_and w1 fun x hx => by
      obtain ⟨d, hd', rfl⟩ := List.mem_map.1 hx
      exact (hd d hd').1)).1
  rw [zero_add, hpair] at hw
  obtain ⟨t, ht⟩ : ∃ t, t = (dts.map val).sum := ⟨_, rfl⟩
  obtain ⟨y', hy'⟩ : ∃ y, y = vec (6 * n) val (V' (h .y)) := ⟨_, rfl⟩
  obtain ⟨a, ha⟩ : ∃ y, y = vec (6 * n) val (V' (h (.stack 0))) := ⟨_, rfl⟩
  obtain ⟨b, hb⟩ : ∃ y, y = vec (6 * n) val (V' (h (.stack 1))) := ⟨_, rfl⟩
  rw [← ha, ← hb, ← ht] at hw
  rw [← hy', ← ha, ← hb] at w2
  rw [← hy', ← ht]
  have ht0 : t ∈ Set.Icc 0 T := ⟨by
    rw [ht]
    exact List.sum_nonneg fun x hx => by
      obtain ⟨d, hd', rfl⟩ := List.mem_map.1 hx
      exact hd0.le.trans (hd d hd').1, by rw [ht]; exact hsum⟩
  obtain ⟨xt, hxt⟩ : ∃ y, y = stateOf n q v t := ⟨_, rfl⟩
  have hXt : ‖xt‖ ≤ X := by rw [hxt]; exact hX t ht0
  obtain ⟨e, hee⟩ : ∃ e, e = ‖(a, b) - (xt, xt)‖ := ⟨_, rfl⟩
  have hfin : e ≤ A * (ε + δ ^ 2 + 0 + u / dmin) := by
    rw [hA]
    refine final_bound (e := ‖(vec (6 * n) val (V (h .y)), vec (6 * n) val (V (h .y))) - (stateOf n q v 0, stateOf n q v 0)‖)
      (c := C' * t) h0 hd0 (hdδ.trans hδ1) hκ le_rfl hΘ0 hδp le_rfl hε hg hg0 (by norm_num) ?_ ?_
      (mul_le_mul_of_nonneg_left ht0.2 hC')
    · rw [Prod.mk_sub_mk, Prod.norm_def, max_self]; exact hnear'
    · rw [hee, hxt]; exact hw
  have he0 : 0 ≤ e := by rw [hee]; positivity
  have hae : ‖a - xt‖ ≤ e := by rw [hee, Prod.mk_sub_mk, Prod.norm_def]; exact le_max_left _ _
  have hbe : ‖b - xt‖ ≤ e := by rw [hee, Prod.mk_sub_mk, Prod.norm_def]; exact le_max_right _ _
  have hax : ‖a‖ ≤ X + e := by
    have := norm_add_le (a - xt) xt
    rw [sub_add_cancel] at this
    linarith
  have hbx : ‖b‖ ≤ X + e := by
    have := norm_add_le (b - xt) xt
    rw [sub_add_cancel] at this
    linarith
  have hm1 : ‖(1 / 2 : ℝ) • (a + b) - xt‖ ≤ e := by
    have e1 : (1 / 2 : ℝ) • (a + b) - xt = (1 / 2 : ℝ) • ((a - xt) + (b - xt)) := by
      ext i
      simp only [Pi.sub_apply, Pi.smul_apply, Pi.add_apply, smul_eq_mul]
      ring
    rw [e1, norm_smul, Real.norm_of_nonneg (by norm_num)]
    have := norm_add_le (a - xt) (b - xt)
    linarith
  have hm2 : ‖y' - xt‖ ≤ e + kappa u 6 * (X + e) := by
    have e1 : ‖y' - xt‖ ≤ ‖y' - (1 / 2 : ℝ) • (a + b)‖ + ‖(1 / 2 : ℝ) • (a + b) - xt‖ := norm_sub_le_norm_sub_add_norm_sub _ _ _
    have e2 : kappa u 6 * (1 / 2 * (‖a‖ + ‖b‖)) ≤ kappa u 6 * (X + e) := mul_le_mul_of_nonneg_left (by linarith) hκ0
    linarith
  rw [← hxt]
  refine (hm2.trans (stetter_final hκ0 (by linarith) (by linarith) h0 hd0 (hdδ.trans hδ1) hX0 he0 hε hδp hfin)).trans ?_
  refine mul_le_mul_of_nonneg_right (by linarith) (by positivity)

/-! ### Adams-Bashforth -/

section
variable {S : Type} [Add S] [Sub S] [Mul S] [Neg S] [Div S] [Zero S] [One S] [FOps S] {val : S → ℝ} {u : ℝ}

omit [Div S] [One S] in
/-- The states of a run. -/
lemma run_chain {φ σ : Type} {step : φ → S → Act S φ} {H : ℕ → Prop} (hal : ∀ fl d, Allowed H (step fl d)) {n : ℕ}
    {deriv : (ℕ → S) → ℕ → S} {E : EngineOps S σ} {Rep : Buffers S → σ → Prop} (hE : Performs E n H deriv Rep) (d : S) (N : ℕ) :
    ∀ (fl₀ : φ) (V₀ : Buffers S) (m : σ), Rep V₀ m → ∃ (fl : ℕ → φ) (V : ℕ → Buffers S) (m' : σ), fl 0 = fl₀ ∧ V 0 = V₀ ∧
      (∀ k, k < N → Outcome deriv n (step (fl k) d) (V k) (fl (k + 1), V (k + 1))) ∧
      runSteps E step (List.replicate N d) (fl₀, m) = .ok (fl N, m') ∧ Rep (V N) m' := by
  induction N with
  | zero => intro fl₀ V₀ m hm; exact ⟨fun _ => fl₀, fun _ => V₀, m, rfl, rfl, fun k hk => absurd hk (by omega), rfl, hm⟩
  | succ N ih =>
    intro fl₀ V₀ m hm
    obtain ⟨r, m1, h1, h2, h3⟩ := _root_.Spec.run_outcome hE (hal fl₀ d) hm
    obtain ⟨fl, V, m', k1, k2, k3, k4, k5⟩ := ih r.1 r.2 m1 h3
    refine ⟨fun k => if k = 0 then fl₀ else fl (k - 1), fun k => if k = 0 then V₀ else V (k - 1), m', rfl, rfl, fun k hk => ?_, ?_, ?_⟩
    · rcases k with _ | k
      · simpa [k1, k2] using h1
      · simpa using k3 k (by omega)
    · unfold runSteps at k4 ⊢
      rw [List.replicate_succ, List.foldlM_cons]
      show ((step fl₀ d).run E m >>= _) = _
      rw [h2, res_ok_bind]
      simpa using k4
    · simpa using k5

omit [Div S] [One S] in
/-- The steps of the starter make a walk. -/
lemma start_walk {s : ℕ} {a : ℕ → ℕ → ℝ} {b : ℕ → ℝ} {D K N : ℕ} {f : (Fin N → ℝ) → Fin N → ℝ} {θ : ℝ} {h0 : ℝ} {y : ℕ → Fin N → ℝ} {R : ℕ}
    (hstep : ∀ k, k < R → ∃ hs : List ℝ, hs.sum = h0 ∧ (∀ x ∈ hs, h0 / D ≤ x ∧ x ≤ h0) ∧
      Walk (RoundedStep f (kappa u K) θ s a b) hs (y k) (y (k + 1))) :
    ∀ k, k ≤ R → ∃ hs : List ℝ, hs.sum = k * h0 ∧ (∀ x ∈ hs, h0 / D ≤ x ∧ x ≤ h0) ∧
      Walk (RoundedStep f (kappa u K) θ s a b) hs (y 0) (y k) := by
  intro k
  induction k with
  | zero => intro _; exact ⟨[], by simp, by simp, rfl⟩
  | succ k ih =>
    intro hk
    obtain ⟨l1, a1, a2, a3⟩ := ih (by omega)
    obtain ⟨l2, b1, b2, b3⟩ := hstep k (by omega)
    refine ⟨l1 ++ l2, ?_, fun x hx => ?_, a3.append b3⟩
    · rw [List.sum_append, a1, b1]; push_cast; ring
    · rcases List.mem_append.1 hx with hx | hx
      · exact a2 x hx
      · exact b2 x hx

omit [Add S] [Neg S] [One S] in
/-- A program may be restricted to its own buffers. -/
lemma Program.own {h : Slot → Handle} {H : ℕ → Prop} {k : Kind} {φ : Type} {step : φ → S → Act S φ} {fl₀ : φ}
    (hp : Program val u h H k φ step fl₀) : Program val u h (fun x => ∃ s, x = h s) k φ step fl₀ := by
  cases hp with
  | euler _ => exact .euler fun s _ => ⟨s, rfl⟩
  | midpoint _ => exact .midpoint fun s _ => ⟨s, rfl⟩
  | rk4 _ => exact .rk4 fun s _ => ⟨s, rfl⟩
  | trapeze r _ => exact .trapeze r fun s _ => ⟨s, rfl⟩
  | table btS cf ht hc _ => exact .table btS cf ht hc fun s _ => ⟨s, rfl⟩

end

/-- The arithmetic of the start. -/
lemma start_bound {e e' d C' g g₀ T th R : ℝ} (hC : 0 ≤ C') (he : 0 ≤ e) (hg₀ : 0 ≤ g₀) (h0 : 0 ≤ th) (h1 : th ≤ 1) (hR : 0 ≤ R)
    (hd : d ≤ R * th) (hd0 : 0 ≤ d) (hdT : d ≤ T) (hg : g₀ * th ≤ g) (hw : e' ≤ e + C' * ((e + g₀) * Real.exp (C' * d)) * d) :
    e' + g ≤ (1 + C' * Real.exp (C' * T) * R) * (e + g) := by
  have hx : Real.exp (C' * d) ≤ Real.exp (C' * T) := Real.exp_le_exp.2 (mul_le_mul_of_nonneg_left hdT hC)
  have hg0 : 0 ≤ g := (mul_nonneg hg₀ h0).trans hg
  have e1 : C' * ((e + g₀) * Real.exp (C' * d)) * d ≤ C' * ((e + g₀) * Real.exp (C' * T)) * (R * th) := by
    gcongr
  have e2 : (e + g₀) * th ≤ e + g := by nlinarith
  have e3 : C' * ((e + g₀) * Real.exp (C' * T)) * (R * th) ≤ C' * Real.exp (C' * T) * R * (e + g) := by
    calc _ = C' * Real.exp (C' * T) * R * ((e + g₀) * th) := by ring
      _ ≤ _ := mul_le_mul_of_nonneg_left e2 (by positivity)
  linarith

lemma adams_kappa {u : ℝ} (h0 : 0 ≤ u) (hu : 20 * u ≤ 1) {rank : ℕ} (hr : rank ≤ 5) : kappa u (5 + rank) ≤ 20 * u := by
  have hu1 : u < 1 := by linarith
  refine (kappa_mono h0 hu1 (by omega : 5 + rank ≤ 10)).trans ?_
  have := kappa_le (K := 10) h0 (by push_cast; linarith) hu1
  push_cast at this
  linarith

section
variable {S : Type} [Add S] [Sub S] [Mul S] [Neg S] [Div S] [Zero S] [One S] [FOps S] {val : S → ℝ} {u : ℝ}

/-- What a run of the solver computes. -/
lemma adams_run (F : Spec.FloatOps val u) (h0 : 0 ≤ u) (hu1 : u < 1) {h hst : Slot → Handle} (hh : Function.Injective h) (hap : Apart h hst)
    {H : ℕ → Prop} {rank : ℕ} (hH : ∀ s, Spec.adamsSlots rank false s → H (h s)) (hr1 : 1 ≤ rank) {al : List ℝ} (hlen : al.length = rank)
    {alS : List S} (hrow : RowOf val u al alS) {φ : Type} {step : φ → S → Act S φ} {s : ℕ} {a : ℕ → ℕ → ℝ} {b : ℕ → ℝ} {D K : ℕ}
    (hmk : ∀ fl dt, Makes val u s a b D K (hst .y) dt (step fl dt) ∧ Allowed H (step fl dt))
    (hown : ∀ fl dt, Allowed (fun x => ∃ s, x = hst s) (step fl dt)) {n w : ℕ} {f : (Fin w → ℝ) → Fin w → ℝ} {θ : ℝ}
    {deriv : (ℕ → S) → ℕ → S} (hder : ∀ Y, ‖vec w val (deriv Y) - f (vec w val Y)‖ ≤ θ) {σ : Type} {E : EngineOps S σ}
    {Rep : Buffers S → σ → Prop} (hperf : Performs E n H deriv Rep) {d : S} (hd0 : 0 < val d) (N : ℕ) (fl₀ : φ) {V₀ : Buffers S} {m : σ}
    (hm : Rep V₀ m) :
    ∃ (fl : ℕ × φ) (V' : Buffers S) (m' : σ) (y Dv : ℕ → Fin w → ℝ),
      runSteps E (fun x dt => adamsCalls h alS false (step x.2 dt) x.2 dt x.1) (List.replicate N d) ((0, fl₀), m) = .ok (fl, m') ∧ Rep V' m' ∧
      y 0 = vec w val (V₀ (h .y)) ∧ y N = vec w val (V' (h .y)) ∧ (∀ k, k < N → ‖Dv k - f (y k)‖ ≤ θ) ∧
      (∀ k, k ≤ N → k ≤ rank + 1 → ∃ hs : List ℝ, hs.sum = k * val d ∧ (∀ x ∈ hs, val d / D ≤ x ∧ x ≤ val d) ∧
        Walk (RoundedStep f (kappa u K) θ s a b) hs (y 0) (y k)) ∧
      (∀ k, k < N → rank < k → ‖y (k + 1) - (y k + val d • ∑ l ∈ range rank, al.getD l 0 • Dv (k - l))‖ ≤
        kappa u (5 + rank) * (‖y k‖ + val d * ∑ l ∈ range rank, |al.getD l 0| * ‖Dv (k - l)‖)) := by
  have hlS : alS.length = rank := hrow.length.trans hlen
  have hallowed : ∀ (x : ℕ × φ) (dt : S), Allowed H (adamsCalls h alS false (step x.2 dt) x.2 dt x.1) := fun x dt =>
    Spec.adams_allowed hh (by intro e; rw [e] at hlS; simp at hlS; omega) (by rw [hlS]; exact hH) (hmk x.2 dt).2 x.2 dt x.1
  obtain ⟨fl, V, m', k1, k2, k3, k4, k5⟩ := run_chain (step := fun x dt => adamsCalls h alS false (step x.2 dt) x.2 dt x.1)
    hallowed hperf d N (0, fl₀) V₀ m hm
  have hring := adams_ring F h0 hu1 hh hrow hlen hr1 hown
    (fun i => by
      rintro ⟨s', e⟩
      exact hap.apart (.k i) s' (by simp) e.symm) hd0 (by rw [k1]) k3
  have hwv : ∀ k, (put (V k) (h (.k (k % rank))) (deriv (V k (h .y)))) (h .y) = V k (h .y) := fun k =>
    put_ne _ _ (Spec.slot_ne hh (by simp))
  refine ⟨fl N, V N, m', fun k => vec w val (V k (h .y)), fun k => vec w val (deriv (V k (h .y))), k4, k5, by dsimp only; rw [k2], rfl,
    fun k _ => hder _, fun k hkN hkr => ?_, fun k hk hkr => ?_⟩
  · refine start_walk (y := fun k => vec w val (V k (h .y))) (R := min N (rank + 1)) (fun j hj => ?_) k (le_min hkN hkr)
    have hjN : j < N := lt_of_lt_of_le hj (min_le_left _ _)
    have hjr : j < rank + 1 := lt_of_lt_of_le hj (min_le_right _ _)
    have hr := k3 j hjN
    rw [(hring j hjN.le).1] at hr
    obtain ⟨-, o2, -⟩ := adams_outcome F h0 hu1 hh w hrow hlen hr1 hd0 hr rfl
    obtain ⟨hs, g1, g2, g3⟩ := (hmk (fl j).2 d).1 n w f θ deriv hder _ _ (o2 (by omega)) hd0
    rw [hap.state, hwv] at g3
    exact ⟨hs, g1, g2, g3⟩
  · have hr := k3 k hk
    rw [(hring k hk.le).1] at hr
    obtain ⟨-, -, o3⟩ := adams_outcome F h0 hu1 hh w hrow hlen hr1 hd0 hr rfl
    obtain ⟨-, x, e1, e2⟩ := o3 hkr
    have e1 : V (k + 1) = put _ (h .y) x := e1
    have hW : ∀ l, l < rank → (put (V k) (h (.k (k % rank))) (deriv (V k (h .y)))) (h (.k ((rank + k % rank - l) % rank))) =
        deriv (V (k - l) (h .y)) := by
      intro l hl
      rw [C14.mod_slot hl (by omega)]
      have h1 := (hring (k + 1) hk).2 (k - l) (by omega) (by omega)
      rw [e1, put_ne _ _ (Spec.slot_ne hh (by simp))] at h1
      exact h1
    have hx : x = V (k + 1) (h .y) := by rw [e1]; simp [put]
    have s1 : ∑ l ∈ range rank, al.getD l 0 • vec w val ((put (V k) (h (.k (k % rank))) (deriv (V k (h .y))))
        (h (.k ((rank + k % rank - l) % rank)))) = ∑ l ∈ range rank, al.getD l 0 • vec w val (deriv (V (k - l) (h .y))) :=
      sum_congr rfl fun l hl => by rw [hW l (mem_range.1 hl)]
    have s2 : ∑ l ∈ range rank, |al.getD l 0| * ‖vec w val ((put (V k) (h (.k (k % rank))) (deriv (V k (h .y))))
        (h (.k ((rank + k % rank - l) % rank))))‖ = ∑ l ∈ range rank, |al.getD l 0| * ‖vec w val (deriv (V (k - l) (h .y)))‖ :=
      sum_congr rfl fun l hl => by rw [hW l (mem_range.1 hl)]
    rw [s1, s2, hx] at e2
    exact e2

end

/-- **Adams-Bashforth converges in rounded arithmetic**, started by any of the one-step solvers, of order `p₀`, on any of the engines, with `N`
equal steps `d`: the error is at most of the order of `d ^ p` and `u / d`, where `p` is the rank or `p₀ + 1`, whichever is less.  The
coefficients are those that the program computes.  Not covered: overflow, underflow and NaN; correction. -/
theorem rounded_adams_partial {n : ℕ} {Mr : ℕ → ℝ} (hn : 0 < n) (hM : ∀ i, i < n → Mr i ≠ 0) {k : Kind} {p₀ : ℕ} {η : ℝ}
    (hk : k.Order p₀ η) {rank p : ℕ} (hr1 : 1 ≤ rank) (hr5 : rank ≤ 5) (hpr : p ≤ rank) (hp : p ≤ p₀ + 1)
    {T : ℝ} {q v : ℝ → ℕ → Fin 3 → ℝ} (hq : Motion 1e-8 n Mr T q v) (hoff : OffCutoff n T q) :
    ∃ C δ₀ u₀ : ℝ, 0 ≤ C ∧ 0 < δ₀ ∧ 0 < u₀ ∧
      ∀ (S : Type) [Add S] [Sub S] [Mul S] [Neg S] [Div S] [Zero S] [One S] [FOps S] (val : S → ℝ) (u : ℝ),
      Spec.FloatOps val u → 0 ≤ u → ∀ M : ℕ → S, (∀ i, i < n → val (M i) = Mr i) →
      ∀ (h hst : Slot → Handle) (H : ℕ → Prop), Function.Injective h → Apart h hst → (∀ s, Spec.adamsSlots rank false s → H (h s)) →
      ∀ (φ : Type) (step : φ → S → Act S φ) (fl₀ : φ), Program val u hst H k φ step fl₀ →
      ∀ alS, adamsRow rank = some alS →
      ∀ (E : EngineOps S (Mem S)) (Rep : Buffers S → Mem S → Prop), DirectEngine n M H E Rep →
      ∀ (N : ℕ) (d : S) (ε : ℝ), 0 < val d → val d ≤ δ₀ → u ≤ u₀ * val d → N * val d ≤ T →
      ∀ (V : Buffers S) (m : Mem S), Rep V m → Near n (fun j => val (V (h .y) j)) (q 0) (v 0) ε →
      ∃ fl V' m', runSteps E (fun x dt => adamsCalls h alS false (step x.2 dt) x.2 dt x.1) (List.replicate N d) ((0, fl₀), m) =
          .ok (fl, m') ∧ Rep V' m' ∧
        Near n (fun j => val (V' (h .y) j)) (q (N * val d)) (v (N * val d)) (C * (ε + val d ^ p + η + u / val d)) := by
  obtain ⟨s, a, b, D, K, hp1, hη, hD, ho, hlow, hprog⟩ := kind_scheme hk
  obtain ⟨al, hal, hlen, -, -⟩ := C15.adams_order (K := ℝ) rank hr1 hr5
  have hsol := motion_solves hq
  have hL := gravityLip_nonneg n Mr
  have hf := gravity_lip n Mr
  obtain ⟨Ks, C₀, δ₁, hA⟩ := accurate_of_order hsol (motion_smooth hq hoff) s a b hp1 hη ho
  obtain ⟨X, hX0, hX⟩ := solves_state_bounded hsol
  obtain ⟨C', hC', hfol⟩ := rounded_follows hL hf hη hA hlow hX
  obtain ⟨c, δ₂, hc, hδ₂, hadams⟩ := adams_rounded hL hf hsol (motion_smooth hq hoff) hX0 hX hal hpr
  have htot := totalAbs_nonneg n Mr
  have hDr : (1 : ℝ) ≤ D := by exact_mod_cast hD
  obtain ⟨Θ, hΘ⟩ : ∃ Θ : ℝ, Θ = 2 * (n + 16) * (totalAbs n Mr * 1e8) := ⟨_, rfl⟩
  have hΘ0 : 0 ≤ Θ := by rw [hΘ]; positivity
  obtain ⟨G, hG⟩ : ∃ G : ℝ, G = 2 * K * D + Θ + 20 := ⟨_, rfl⟩
  have hKD : 0 ≤ 2 * (K : ℝ) * D := by positivity
  have hG0 : 0 ≤ G := by rw [hG]; positivity
  obtain ⟨B, hB⟩ : ∃ B : ℝ, B = G + 4 * (n + 16) := ⟨_, rfl⟩
  have hn0 : (0 : ℝ) ≤ n := Nat.cast_nonneg n
  have hB0 : 0 < B := by rw [hB]; positivity
  obtain ⟨Ms, hMs⟩ : ∃ M : ℝ, M = 1 + C' * Real.exp (C' * T) * (rank + 1) := ⟨_, rfl⟩
  have hMs1 : 1 ≤ Ms := by
    have : 0 ≤ C' * Real.exp (C' * T) * (rank + 1) := by positivity
    rw [hMs]; linarith
  refine ⟨Ms * Real.exp (c * T) * (1 + G), min δ₁ (min δ₂ 1), 1 / B, by positivity, lt_min hA.pos (lt_min hδ₂ one_pos), by positivity, ?_⟩
  intro S _ _ _ _ _ _ _ _ val u F h0 M hMv h hst H hh hap hH φ step fl₀ hpr' alS halS E Rep hE N d ε hd0 hdδ hu hNT V₀ m hm hnear
  obtain ⟨τ, hτ⟩ : ∃ τ, τ = val d := ⟨_, rfl⟩
  have hd1 : τ ≤ 1 := by rw [hτ]; exact hdδ.trans ((min_le_right _ _).trans (min_le_right _ _))
  have hdδ1 : τ ≤ δ₁ := by rw [hτ]; exact hdδ.trans (min_le_left _ _)
  have hdδ2 : τ ≤ δ₂ := by rw [hτ]; exact hdδ.trans ((min_le_right _ _).trans (min_le_left _ _))
  have hτ0 : 0 < τ := by rw [hτ]; exact hd0
  rw [← hτ] at hu hNT
  have hBu : B * u ≤ τ := by
    rw [one_div, inv_mul_eq_div, le_div_iff₀ hB0] at hu
    linarith
  have hGu : G * u ≤ τ := le_trans (mul_le_mul_of_nonneg_right (by rw [hB]; linarith) h0) hBu
  have hnu : 4 * ((n : ℝ) + 16) * u ≤ τ := le_trans (mul_le_mul_of_nonneg_right (by rw [hB]; linarith) h0) hBu
  have hKDu : 2 * K * D * u ≤ τ := le_trans (mul_le_mul_of_nonneg_right (by rw [hG]; linarith) h0) hGu
  have hΘu : Θ * u ≤ τ := le_trans (mul_le_mul_of_nonneg_right (by rw [hG]; linarith) h0) hGu
  have h20 : 20 * u ≤ τ := le_trans (mul_le_mul_of_nonneg_right (by rw [hG]; linarith) h0) hGu
  have hu1 : u < 1 := by linarith
  have hKu : (K : ℝ) * u ≤ 1 / 2 := by
    have h1 : (K : ℝ) * u * 1 ≤ K * u * D := mul_le_mul_of_nonneg_left hDr (by positivity)
    linarith only [h1, hKDu, hd1]
  obtain ⟨alS', halS', hrow⟩ := adams_row (S := S) F h0 hu1 hal
  obtain rfl : alS = alS' := Option.some.inj (halS.symm.trans halS')
  have hlS : alS.length = rank := hrow.length.trans hlen
  obtain ⟨deriv, hperf, hder⟩ := engine_derivative F h0 hn (by linarith) hM hMv hE
  rw [← hΘ] at hder
  have hmk := hprog S val u F h0 hu1 hst H φ step fl₀ hap.inj hpr'
  have hown := fun fl d => (hprog S val u F h0 hu1 hst _ φ step fl₀ hap.inj hpr'.own fl d).2
  obtain ⟨fl', V', m', y, Dv, k4, k5, hy0, hyN, hDv, hstart, hsteps⟩ := adams_run F h0 hu1 hh hap hH hr1 hlen hrow hmk hown hder hperf hd0 N fl₀ hm
  rw [← hτ] at hstart hsteps
  refine ⟨fl', V', m', k4, k5, ?_⟩
  rw [C78.near_iff hn] at hnear ⊢
  have hnear' : ‖y 0 - stateOf n q v 0‖ ≤ ε := by rw [hy0]; exact hnear
  have hε : 0 ≤ ε := (norm_nonneg _).trans hnear'
  have hκ0 := kappa_nonneg h0 hu1 K
  have hκ := kappa_le h0 hKu hu1
  have hdD : 0 < τ / D := by positivity
  have hκd : kappa u K ≤ τ / D := by
    rw [le_div_iff₀ (by linarith)]
    have := mul_le_mul_of_nonneg_right hκ (by linarith : (0 : ℝ) ≤ D)
    linarith
  have hκD : kappa u K * D ≤ 2 * K * D * u := by
    have := mul_le_mul_of_nonneg_right hκ (by linarith : (0 : ℝ) ≤ D)
    linarith
  -- the bounds
  have huτ : u ≤ u / τ := by
    rw [le_div_iff₀ hτ0]
    exact mul_le_of_le_one_right h0 hd1
  have huτ0 : 0 ≤ u / τ := by positivity
  obtain ⟨g, hg⟩ : ∃ g, g = τ ^ p + η + G * (u / τ) := ⟨_, rfl⟩
  have hτp : 0 ≤ τ ^ p := by positivity
  have hg0 : 0 ≤ g := by rw [hg]; positivity
  have hGu' : G * u ≤ G * (u / τ) := mul_le_mul_of_nonneg_left huτ hG0
  have hgth : Θ * u ≤ g := by
    have : Θ * u ≤ G * u := mul_le_mul_of_nonneg_right (by rw [hG]; linarith) h0
    rw [hg]; linarith
  have hκr := adams_kappa h0 (by linarith) hr5
  have hfin := hadams (kappa u (5 + rank)) (Θ * u) τ g Ms (kappa_nonneg h0 hu1 _) (by linarith) (by positivity) (by linarith) hτ0 hdδ2 hMs1
    (by rw [hg]; have := mul_nonneg hG0 huτ0; linarith) hgth (by
      rw [div_le_iff₀ hτ0]
      have e1 : G * (u / τ) * τ = G * u := by field_simp
      have e2 : 20 * u ≤ G * u := mul_le_mul_of_nonneg_right (by rw [hG]; linarith) h0
      have e3 : 0 ≤ (τ ^ p + η) * τ := by positivity
      rw [hg, add_mul, e1]
      linarith only [e2, e3, hκr]) N y Dv hNT
    hDv
    (fun k hk hkr => by
      obtain ⟨hs, w1, w2, w3⟩ := hstart k hk hkr
      obtain ⟨g₀, hg₀⟩ : ∃ g, g = τ ^ p₀ + η + Θ * u + kappa u K / (τ / D) := ⟨_, rfl⟩
      have hg₀0 : 0 ≤ g₀ := by rw [hg₀]; positivity
      have hkT : (k : ℝ) * τ ≤ T := by
        have : (k : ℝ) ≤ N := by exact_mod_cast hk
        exact (mul_le_mul_of_nonneg_right this hτ0.le).trans hNT
      have hw := (walk_follows hC' hg₀0 (by
          rw [hg₀]
          exact hfol (kappa u K) (Θ * u) (τ / D) hκ0 (by
            have : τ / D ≤ τ := div_le_self hτ0.le hDr
            linarith) (by positivity) (by linarith) hdD hκd τ hdδ1) hs
        (fun x hx => ⟨hdD.trans_le (w2 x hx).1, (w2 x hx).2⟩) 0 _ _ le_rfl (by rw [w1, zero_add]; exact hkT)
        (walk_and w3 fun x hx => (w2 x hx).1)).2
      rw [zero_add, w1] at hw
      rw [hMs]
      refine start_bound (e := ‖y 0 - stateOf n q v 0‖) (g₀ := g₀) (th := τ) (d := k * τ) hC' (norm_nonneg _) hg₀0 hτ0.le hd1 (by positivity)
        (mul_le_mul_of_nonneg_right (by exact_mod_cast hkr) hτ0.le) (by positivity) hkT ?_ ?_
      · have e1 : τ ^ p₀ * τ ≤ τ ^ p := by rw [← pow_succ]; exact pow_le_pow_of_le_one hτ0.le hd1 hp
        have e2 : kappa u K / (τ / D) * τ = kappa u K * D := by field_simp
        have e3 : η * τ ≤ η := mul_le_of_le_one_right hη hd1
        have e4 : Θ * u * τ ≤ Θ * u := mul_le_of_le_one_right (by positivity) hd1
        have e5 : Θ * u + 2 * K * D * u ≤ G * u := by rw [← add_mul]; exact mul_le_mul_of_nonneg_right (by rw [hG]; linarith) h0
        rw [hg₀, hg, add_mul, add_mul, add_mul, e2]
        linarith
      · have := norm_sub_norm_le (y k - stateOf n q v (k * τ)) (y 0 - stateOf n q v 0)
        have hw' : ‖(y k - stateOf n q v (k * τ)) - (y 0 - stateOf n q v 0)‖ ≤
          C' * ((‖y 0 - stateOf n q v 0‖ + g₀) * Real.exp (C' * (k * τ))) * (k * τ) := hw
        linarith)
    hsteps
  show ‖vec (6 * n) val (V' (h .y)) - stateOf n q v (N * val d)‖ ≤ _
  rw [← hτ]
  rw [← hyN]
  have hNτ : Real.exp (c * (N * τ)) ≤ Real.exp (c * T) := Real.exp_le_exp.2 (mul_le_mul_of_nonneg_left hNT hc)
  have hgg : ε + g ≤ (1 + G) * (ε + τ ^ p + η + u / τ) := by
    have h1 : 0 ≤ G * (ε + τ ^ p + η) := by positivity
    calc ε + g ≤ ε + (τ ^ p + η + G * (u / τ)) + (u / τ + G * (ε + τ ^ p + η)) := by rw [hg]; linarith only [h1, huτ0]
      _ = _ := by ring
  calc ‖y N - stateOf n q v (N * τ)‖ ≤ Ms * Real.exp (c * (N * τ)) * (‖y 0 - stateOf n q v 0‖ + g) := by linarith
    _ ≤ Ms * Real.exp (c * T) * ((1 + G) * (ε + τ ^ p + η + u / τ)) := by
        have : ‖y 0 - stateOf n q v 0‖ + g ≤ (1 + G) * (ε + τ ^ p + η + u / τ) := by linarith
        gcongr
    _ = _ := by ring

/-! ### Cases: the orbit of C78 in binary arithmetic -/

/-- Stetter's solver. -/
example : ∃ C δ₀ u₀ : ℝ, 0 ≤ C ∧ 0 < δ₀ ∧ 0 < u₀ ∧ ∀ (p : ℕ) (dts : List (Spec.Bin p)) (dmin δ : ℝ), 0 < dmin → dmin ≤ δ → δ ≤ δ₀ →
    2⁻¹ ^ p ≤ u₀ * dmin → (∀ d ∈ dts, dmin ≤ d.val ∧ d.val ≤ δ) → (dts.map Spec.Bin.val).sum ≤ 2 * Real.pi →
    ∀ V : Buffers (Spec.Bin p), V 0 = (fun _ => ⟨4⟩) → Near 2 (fun j => (V 1 j).val) (C78.orbitPos 0) (C78.orbitVel 0) 0 →
      ∃ fl V' m', runSteps (simpleOps (fcompute seqFor 2 0) seqFor 2) (fun fl dt => stetterCalls C74.layout dt fl) dts
          (⟨false, false, false⟩, fun h => some (buf (if h = 0 then 2 else 12) (V h))) = .ok (fl, m') ∧
        HostHolds 2 0 (fun h => h ≠ 0) (fun _ => ⟨4⟩) V' m' ∧
        Near 2 (fun j => (V' 1 j).val) (C78.orbitPos (dts.map Spec.Bin.val).sum) (C78.orbitVel (dts.map Spec.Bin.val).sum)
          (C * (0 + δ ^ 2 + 2⁻¹ ^ p / dmin)) := by
  have h1 : ∀ s, 1 ≤ C74.layout s := fun s => by
    cases s <;> simp only [C74.layout] <;> (try split_ifs) <;> omega
  obtain ⟨C, δ₀, u₀, hC, hδ, hu, key⟩ := rounded_stetter_partial (n := 2) (Mr := fun _ => 4) (by decide) (fun _ _ => by norm_num)
    (T := 2 * Real.pi) (C78.orbit _) (C82.orbit_off _)
  refine ⟨C, δ₀, u₀, hC, hδ, hu, fun p dts dmin δ h0 hd hδ' hu' hdts hsum V hV hnear => ?_⟩
  exact key (Spec.Bin p) Spec.Bin.val (2⁻¹ ^ p) (Spec.Bin.floatOps p) (by positivity) (fun _ => ⟨4⟩) (fun _ _ => rfl)
    C74.layout (fun h => h ≠ 0) C74.layout_injective (fun s _ => Nat.pos_iff_ne_zero.1 (h1 s)) _ _ (.simple 0) dts dmin δ 0 h0 hd hδ' hu' hdts
    hsum _ rfl V _ ⟨fun h hh => congrArg (fun k => some (buf k (V h))) (if_neg hh), by simp [hV], fun h hh => hh⟩ hnear

/-- Adams-Bashforth of rank 5, started by Dormand-Prince with two levels of subdivision into 4 parts: order 5. -/
example : ∃ C δ₀ u₀ : ℝ, 0 ≤ C ∧ 0 < δ₀ ∧ 0 < u₀ ∧ ∀ (p N : ℕ) (d : Spec.Bin p), 0 < d.val → d.val ≤ δ₀ → 2⁻¹ ^ p ≤ u₀ * d.val →
    N * d.val ≤ 2 * Real.pi →
    ∀ V : Buffers (Spec.Bin p), V 0 = (fun _ => ⟨4⟩) → Near 2 (fun j => (V 2 j).val) (C78.orbitPos 0) (C78.orbitVel 0) 0 →
      ∃ alS, adamsRow 5 = some alS ∧ ∃ fl V' m', runSteps (simpleOps (fcompute seqFor 2 0) seqFor 2)
          (fun (x : ℕ × Bool) dt => adamsCalls C82.even alS false (do
            rkCalls C82.odd (roundTable p (C18.bt ℝ rkdpTab)) ⟨2, 4, ⟨1⟩, 0, false, ⟨0⟩⟩ dt x.2; pure true) x.2 dt x.1)
          (List.replicate N d) ((0, false), fun h => some (buf (if h = 0 then 2 else 12) (V h))) = .ok (fl, m') ∧
        HostHolds 2 0 (fun h => h ≠ 0) (fun _ => ⟨4⟩) V' m' ∧
        Near 2 (fun j => (V' 2 j).val) (C78.orbitPos (N * d.val)) (C78.orbitVel (N * d.val)) (C * (0 + d.val ^ 5 + 0 + 2⁻¹ ^ p / d.val)) := by
  have h1 : ∀ s, 1 ≤ C74.layout s := fun s => by
    cases s <;> simp only [C74.layout] <;> (try split_ifs) <;> omega
  obtain ⟨C, δ₀, u₀, hC, hδ, hu, key⟩ := rounded_adams_partial (n := 2) (Mr := fun _ => 4) (by decide) (fun _ _ => by norm_num)
    (explicit_tables_covered 2 4 (by decide)).2.2.1 (rank := 5) (p := 5) (by decide) le_rfl le_rfl le_rfl (T := 2 * Real.pi) (C78.orbit _)
    (C82.orbit_off _)
  refine ⟨C, δ₀, u₀, hC, hδ, hu, fun p N d h0 hd hu' hN V hV hnear => ⟨_, rfl, ?_⟩⟩
  exact key (Spec.Bin p) Spec.Bin.val (2⁻¹ ^ p) (Spec.Bin.floatOps p) (by positivity) (fun _ => ⟨4⟩) (fun _ _ => rfl)
    C82.even C82.odd (fun h => h ≠ 0) C82.even_injective C82.even_odd (fun s _ => by
      have := h1 s
      show 2 * C74.layout s ≠ 0
      omega) Bool _ false
    (.table (roundTable p (C18.bt ℝ rkdpTab)) ⟨2, 4, ⟨1⟩, 0, false, ⟨0⟩⟩ (roundTable_of p _) rfl fun s _ => by
      show C82.odd s ≠ 0
      unfold C82.odd
      split_ifs <;> omega) _ rfl _ _ (.simple 0) N d 0 h0 hd hu' hN
    V _ ⟨fun h hh => congrArg (fun k => some (buf k (V h))) (if_neg hh), by simp [hV], fun h hh => hh⟩ hnear

end NB.C85
