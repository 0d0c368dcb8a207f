import Verif.Lemmas.RoundCorrSteps
import Verif.Props.C85_Rounded

/-
C87: what the correction of the table-driven solver is for.  With it the rounding errors of the steps do not add up: the run ends within
`C (ε + δ ^ p + η + u + u² / dmin)` of the bodies, where without it (C85) the last terms are `u / dmin`.
-/

namespace NB.C87

open Finset
open _root_.Spec (Buffers Motion Near Outcome Performs Allowed put put_ne put_same)
open C82 (OffCutoff)
open C85 (runSteps)

section
variable {S : Type} [Add S] [Sub S] [Mul S] [Neg S] [Div S] [Zero S] [One S] [FOps S] {val : S → ℝ} {u : ℝ}

/-- The program of the table-driven solver; the flag is `!m_k.empty()`. -/
def tableStep (h : Slot → Handle) (btS : BT S) (cf : RKConf S) (allocated : Bool) (dt : S) : Act S Bool := do
  rkCalls h btS cf dt allocated
  pure true

/-- A run on an engine is a walk of steps of the compensated state. -/
lemma corr_run (F : Spec.FloatOps val u) (h0 : 0 ≤ u) (hu : u ≤ 1 / 100) {h : Slot → Handle} (hh : Function.Injective h) {bt : BT ℝ} {btS : BT S}
    {cf : RKConf S} (ht : TableOf val u bt btS) (hi : bt.implicit = false) (hc : cf.correction = true) (hsub : 0 < cf.subdivisions) {n N K : ℕ}
    (hsu : 12 * (bt.steps : ℝ) * u ≤ 1) (hK : 2 * cf.maxRecursion + 3 ≤ K) (hK1 : kappa u K + 12 * u ≤ 1) {H : ℕ → Prop}
    (hH : ∀ s, Spec.rkSlots btS cf s → H (h s)) {f : (Fin N → ℝ) → Fin N → ℝ} {θ : ℝ} {deriv : (ℕ → S) → ℕ → S}
    (hd : ∀ Y, ‖vec N val (deriv Y) - f (vec N val Y)‖ ≤ θ)
    {σ : Type} {E : EngineOps S σ} {Rep : Buffers S → σ → Prop} (hE : Performs E n H deriv Rep) {dmin δ : ℝ} (hd0 : 0 < dmin) :
    ∀ (dts : List S), (∀ d ∈ dts, dmin ≤ val d ∧ val d ≤ δ) → ∀ (fl : Bool) (V : Buffers S) (m : σ) (p : (Fin N → ℝ) × ℝ), Rep V m →
      ((fl = true → Compensated N val u V (h .y) (h .ycorr) p) ∧ (fl = false → vec N val (V (h .y)) = p.1 ∧ ‖p.1‖ ≤ p.2)) →
      ∃ fl' V' m' hs p', runSteps E (tableStep h btS cf) dts (fl, m) = .ok (fl', m') ∧ Rep V' m' ∧ hs.sum = (dts.map val).sum ∧
        (∀ d ∈ hs, dmin / ((cf.subdivisions ^ cf.maxRecursion : ℕ) : ℝ) ≤ d ∧ d ≤ δ) ∧
        Walk (CorrStep f (kappa u K + 12 * u) (12 * bt.steps * u ^ 2) θ bt.steps bt.a bt.b2) hs p p' ∧
        ((fl' = true → Compensated N val u V' (h .y) (h .ycorr) p') ∧ (fl' = false → vec N val (V' (h .y)) = p'.1 ∧ ‖p'.1‖ ≤ p'.2)) := by
  intro dts
  induction dts with
  | nil => intro _ fl V m p hm hp; exact ⟨fl, V, m, [], p, rfl, hm, rfl, by simp, rfl, hp⟩
  | cons d dts ih =>
    intro hdt fl V m p hm hp
    obtain ⟨l1, l2⟩ := hdt d (by simp)
    have hal : Allowed H (tableStep h btS cf fl d) := Allowed.bind (Spec.rk_allowed hh hH d fl) fun _ => Allowed.pure _
    obtain ⟨r, m1, h1, h2, h3⟩ := _root_.Spec.run_outcome hE hal hm
    unfold tableStep at h1
    rw [_root_.Spec.outcome_bind] at h1
    obtain ⟨r0, h1, h1'⟩ := h1
    rw [_root_.Spec.outcome_pure] at h1'
    obtain ⟨hs, p1, g1, g2, g3, g4⟩ := corr_table F h0 hu hh ht hi hc hsub hsu hK hK1 hd (hd0.trans_le l1) hp h1
    obtain ⟨fl', V', m', hs', p', k1, k2, k3, k4, k5, k6⟩ := ih (fun x hx => hdt x (by simp [hx])) r.1 r.2 m1 p1 h3 (by
      rw [h1']
      exact ⟨fun _ => g4, fun e => by simp at e⟩)
    refine ⟨fl', V', m', hs ++ hs', p', ?_, k2, ?_, fun x hx => ?_, g3.append k5, k6⟩
    · unfold runSteps at k1 ⊢
      rw [List.foldlM_cons]
      show ((tableStep h btS cf fl d).run E m >>= _) = _
      rw [h2, res_ok_bind]
      exact k1
    · rw [List.sum_append, g1, k3]; simp
    · rcases List.mem_append.1 hx with hx | hx
      · obtain ⟨q1, q2⟩ := g2 x hx
        refine ⟨le_trans ?_ q1, q2.trans l2⟩
        push_cast
        gcongr
      · exact k4 x hx

end

/-- The arithmetic of the bound. -/
lemma final_bound {u G κ ν B c L Θ w η ε X W Ex e e' z Zm : ℝ} (h0 : 0 ≤ u) (huG : u ≤ G) (hG1 : G ≤ 2) (hκν : κ + ν ≤ B * G) (hκ0 : 0 ≤ κ) (hν0 : 0 ≤ ν)
    (hB : 0 ≤ B) (hc : 0 ≤ c) (hL : 0 ≤ L) (hΘ : 0 ≤ Θ) (hw : 0 ≤ w) (hη : 0 ≤ η) (hX : 0 ≤ X) (hW : 0 ≤ W) (hEx : 1 ≤ Ex) (hε : 0 ≤ ε)
    (he : e ≤ ε) (hZm : Zm = (X + 1 + ε) * W)
    (hfol : e' + (w + η + (Θ * u + L * (κ * (c * Zm))) + (κ + ν) * (c * Zm)) ≤
      (e + (w + η + (Θ * u + L * (κ * (c * Zm))) + (κ + ν) * (c * Zm))) * Ex) (hz : z ≤ e' + 3 * u * Zm) :
    z ≤ Ex * (1 + Θ + B * c * (L + 1) * W * (X + 3) + 3 * W * (X + 3)) * (ε + w + η + G) := by
  have hG0 : 0 ≤ G := h0.trans huG
  have hZ0 : 0 ≤ Zm := by rw [hZm]; positivity
  have hGZ : G * Zm ≤ W * (X + 3) * (ε + w + η + G) := by
    have e1 : G * (X + 1 + ε) ≤ (X + 3) * (ε + G) := by
      have := mul_le_mul_of_nonneg_right hG1 hε
      have : 0 ≤ X * ε := by positivity
      nlinarith
    have e2 : (X + 3) * (ε + G) ≤ (X + 3) * (ε + w + η + G) := mul_le_mul_of_nonneg_left (by linarith) (by positivity)
    calc G * Zm = W * (G * (X + 1 + ε)) := by rw [hZm]; ring
      _ ≤ W * ((X + 3) * (ε + w + η + G)) := mul_le_mul_of_nonneg_left (e1.trans e2) hW
      _ = _ := by ring
  obtain ⟨R, hR⟩ : ∃ R, R = ε + w + η + G := ⟨_, rfl⟩
  rw [← hR] at hGZ ⊢
  have hR0 : 0 ≤ R := by rw [hR]; positivity
  have a1 : L * (κ * (c * Zm)) + (κ + ν) * (c * Zm) ≤ B * c * (L + 1) * (G * Zm) := by
    have b1 : κ * (c * Zm) ≤ B * G * (c * Zm) := mul_le_mul_of_nonneg_right ((le_add_of_nonneg_right hν0).trans hκν) (by positivity)
    have b2 : (κ + ν) * (c * Zm) ≤ B * G * (c * Zm) := mul_le_mul_of_nonneg_right hκν (by positivity)
    have b3 := mul_le_mul_of_nonneg_left b1 hL
    calc _ ≤ L * (B * G * (c * Zm)) + B * G * (c * Zm) := add_le_add b3 b2
      _ = _ := by ring
  have a2 : B * c * (L + 1) * (G * Zm) ≤ B * c * (L + 1) * (W * (X + 3) * R) := mul_le_mul_of_nonneg_left hGZ (by positivity)
  have a3 : Θ * u ≤ Θ * R := mul_le_mul_of_nonneg_left (by rw [hR]; linarith) hΘ
  have a4 : 3 * u * Zm ≤ 3 * (W * (X + 3) * R) := by
    have := mul_le_mul_of_nonneg_right huG hZ0
    linarith
  obtain ⟨g, hg⟩ : ∃ g, g = w + η + (Θ * u + L * (κ * (c * Zm))) + (κ + ν) * (c * Zm) := ⟨_, rfl⟩
  rw [← hg] at hfol
  have hg0 : g ≤ (w + η) + Θ * R + B * c * (L + 1) * (W * (X + 3) * R) := by rw [hg]; linarith
  have hgn : 0 ≤ g := by rw [hg]; positivity
  have a5 : e' ≤ (ε + ((w + η) + Θ * R + B * c * (L + 1) * (W * (X + 3) * R))) * Ex - g := by
    have := mul_le_mul_of_nonneg_right (add_le_add he hg0) (by linarith : 0 ≤ Ex)
    linarith
  have a6 : 3 * (W * (X + 3) * R) ≤ 3 * (W * (X + 3) * R) * Ex := le_mul_of_one_le_right (by positivity) hEx
  have a7 : ε + (w + η) ≤ R := by rw [hR]; linarith
  have a8 := mul_le_mul_of_nonneg_right a7 (by linarith : 0 ≤ Ex)
  calc z ≤ (ε + ((w + η) + Θ * R + B * c * (L + 1) * (W * (X + 3) * R))) * Ex + 3 * (W * (X + 3) * R) * Ex := by linarith
    _ = (ε + (w + η)) * Ex + (Θ * R + B * c * (L + 1) * (W * (X + 3) * R)) * Ex + 3 * (W * (X + 3) * R) * Ex := by ring
    _ ≤ R * Ex + (Θ * R + B * c * (L + 1) * (W * (X + 3) * R)) * Ex + 3 * (W * (X + 3) * R) * Ex := by linarith
    _ = _ := by ring

/-- The claim, for the table-driven solver with or without correction: in any arithmetic of unit roundoff `u`, on any engine and with steps between
`dmin` and `δ`, it ends without error and within `C (ε + δ ^ p + η + u + u² / dmin)` of where the motion has the bodies at that time.  The
constants depend neither on the arithmetic nor on the engine; the steps may be as short as `u²` up to a constant. -/
def EndsNear (correction : Bool) (n : ℕ) (Mr : ℕ → ℝ) (bt : BT ℝ) (depth parts p : ℕ) (η T : ℝ) (q v : ℝ → ℕ → Fin 3 → ℝ) : Prop :=
  ∃ C δ₀ u₀ : ℝ, 0 ≤ C ∧ 0 < δ₀ ∧ 0 < u₀ ∧
    ∀ (S : Type) [Add S] [Sub S] [Mul S] [Neg S] [Div S] [Zero S] [One S] [FOps S] (val : S → ℝ) (u : ℝ),
    Spec.FloatOps val u → 0 ≤ u → ∀ M : ℕ → S, (∀ i, i < n → val (M i) = Mr i) →
    ∀ (h : Slot → Handle) (H : ℕ → Prop) (btS : BT S) (cf : RKConf S), Function.Injective h → TableOf val u bt btS →
    cf.correction = correction → cf.maxRecursion = depth → cf.subdivisions = parts → (∀ s, Spec.rkSlots btS cf s → H (h s)) →
    ∀ (E : EngineOps S (Mem S)) (Rep : Buffers S → Mem S → Prop), DirectEngine n M H E Rep →
    ∀ (dts : List S) (dmin δ ε : ℝ), 0 < dmin → dmin ≤ δ → δ ≤ δ₀ → u ≤ u₀ → u ^ 2 ≤ u₀ * dmin → (∀ d ∈ dts, dmin ≤ val d ∧ val d ≤ δ) →
    (dts.map val).sum ≤ T →
    ∀ (V : Buffers S) (m : Mem S), Rep V m → Near n (fun j => val (V (h .y) j)) (q 0) (v 0) ε →
    ∃ fl V' m', runSteps E (tableStep h btS cf) dts (false, m) = .ok (fl, m') ∧ Rep V' m' ∧
      Near n (fun j => val (V' (h .y) j)) (q (dts.map val).sum) (v (dts.map val).sum) (C * (ε + δ ^ p + η + (u + u ^ 2 / dmin)))

/-- **Rounding errors do not add up** when the explicit table-driven solver runs with correction, subdividing steps or not.  Without correction
C85 has `u / dmin` for the last two terms.  Not covered (hence partial): overflow, underflow and NaN, which the arithmetic model does not have;
the implicit tables. -/
theorem corrected_convergence_partial {n : ℕ} {Mr : ℕ → ℝ} (hn : 0 < n) (hM : ∀ i, i < n → Mr i ≠ 0) {bt : BT ℝ} {depth parts p : ℕ} {η : ℝ}
    (hi : bt.implicit = false) (hlow : Lower bt.steps bt.a) (hparts : 0 < parts) (hp : 1 ≤ p) (hη : 0 ≤ η)
    (ho : Spec.HasOrderWithin η bt.steps bt.a bt.b2 p) {T : ℝ} {q v : ℝ → ℕ → Fin 3 → ℝ} (hq : Motion 1e-8 n Mr T q v)
    (hoff : OffCutoff n T q) : EndsNear true n Mr bt depth parts p η T q v := by
  have hsol := motion_solves hq
  have hL := gravityLip_nonneg n Mr
  have hf := gravity_lip n Mr
  obtain ⟨Ks, C₀, δ₀, hA⟩ := accurate_of_order hsol (motion_smooth hq hoff) bt.steps bt.a bt.b2 hp hη ho
  obtain ⟨X, hX0, hX⟩ := C85.solves_state_bounded hsol
  obtain ⟨C', hC', hfol⟩ := off_follows hL hf hη hA hlow
  obtain ⟨c, hc, hstep⟩ := corr_off hL hf bt.steps bt.a bt.b2 hA.pos.le
  have htot := totalAbs_nonneg n Mr
  obtain ⟨D, hD⟩ : ∃ D, D = parts ^ depth := ⟨_, rfl⟩
  have hD1 : (1 : ℝ) ≤ (D : ℕ) := by exact_mod_cast (by rw [hD]; exact Nat.pow_pos hparts)
  obtain ⟨K, hK⟩ : ∃ K, K = 2 * depth + 3 := ⟨_, rfl⟩
  obtain ⟨Θ, hΘ⟩ : ∃ Θ : ℝ, Θ = 2 * (n + 16) * (totalAbs n Mr * 1e8) := ⟨_, rfl⟩
  have hΘ0 : 0 ≤ Θ := by rw [hΘ]; positivity
  obtain ⟨B, hB⟩ : ∃ B : ℝ, B = 2 * K + 12 + 12 * bt.steps * D := ⟨_, rfl⟩
  have hB0 : 0 ≤ B := by rw [hB]; positivity
  obtain ⟨Q, hQ⟩ : ∃ Q : ℝ, Q = B + 12 * bt.steps + 4 * (n + 16) + Θ + 100 := ⟨_, rfl⟩
  have hQ0 : 0 < Q := by rw [hQ]; positivity
  have hn0 : (0 : ℝ) ≤ n := Nat.cast_nonneg n
  have hs0 : (0 : ℝ) ≤ bt.steps := Nat.cast_nonneg _
  have hK0 : (0 : ℝ) ≤ K := Nat.cast_nonneg _
  refine ⟨Real.exp (C' * T) * (1 + Θ + B * c * (gravityLip n Mr + 1) * Real.exp (c * T) * (X + 3) + 3 * Real.exp (c * T) * (X + 3)),
    δ₀, 1 / Q, by positivity, hA.pos, by positivity, ?_⟩
  intro S _ _ _ _ _ _ _ _ val u F h0 M hMv h H btS cf hh ht hcorr hdep hpar hH E Rep hE dts dmin δ ε hd0 hdδ hδ hu hu2 hd hsum V m hm hnear
  have hQu : Q * u ≤ 1 := by rwa [le_div_iff₀ hQ0, mul_comm] at hu
  have hQu2 : Q * u ^ 2 ≤ dmin := by
    rw [one_div, inv_mul_eq_div, le_div_iff₀ hQ0] at hu2
    linarith
  have hpart : ∀ y : ℝ, y ≤ Q → y * u ≤ 1 := fun y hy => (mul_le_mul_of_nonneg_right hy h0).trans hQu
  have h12 : (0 : ℝ) ≤ 12 * bt.steps * D := by positivity
  have hu100 : u ≤ 1 / 100 := by
    have := hpart 100 (by rw [hQ]; linarith)
    linarith
  have hu1 : u < 1 := by linarith
  have hsu : 12 * (bt.steps : ℝ) * u ≤ 1 := hpart _ (by rw [hQ]; linarith)
  have hBu : B * u ≤ 1 := hpart _ (by rw [hQ]; linarith)
  have hΘu : Θ * u ≤ 1 := hpart _ (by rw [hQ]; linarith)
  have hnu : 4 * ((n : ℝ) + 16) * u ≤ 1 := hpart _ (by rw [hQ]; linarith)
  have hKu : (K : ℝ) * u ≤ 1 / 2 := by
    have : (2 * K + 12 + 12 * bt.steps * D) * u ≤ 1 := by rw [← hB]; exact hBu
    have : 0 ≤ 12 * (bt.steps : ℝ) * D * u := by positivity
    linarith
  have hκ := kappa_le h0 hKu hu1
  have hκ0 := kappa_nonneg h0 hu1 K
  obtain ⟨κ, hκd⟩ : ∃ κ, κ = kappa u K + 12 * u := ⟨_, rfl⟩
  have hκp : 0 ≤ κ := by rw [hκd]; positivity
  have hκle : κ ≤ (2 * K + 12) * u := by rw [hκd]; linarith
  have hκ1 : κ ≤ 1 := by
    refine hκle.trans (le_trans (mul_le_mul_of_nonneg_right ?_ h0) hBu)
    rw [hB]; linarith
  obtain ⟨deriv, K', hK', hperf, hacc⟩ := engine_performs F h0 hn (by push_cast; linarith) (fun i hi => by rw [hMv i hi]; exact hM i hi) hE
  have hder : ∀ Y, ‖vec (6 * n) val (deriv Y) - gravity n Mr (vec (6 * n) val Y)‖ ≤ Θ * u := fun Y =>
    (accurate_norm h0 hK' (by push_cast; linarith) hMv (hacc Y)).trans_eq (by rw [hΘ]; ring)
  rw [C78.near_iff hn] at hnear
  have hnear' : ‖vec (6 * n) val (V (h .y)) - stateOf n q v 0‖ ≤ ε := hnear
  have hε : 0 ≤ ε := (norm_nonneg _).trans hnear'
  have hT0 : 0 ≤ (dts.map val).sum := List.sum_nonneg fun x hx => by
    obtain ⟨d, hd', rfl⟩ := List.mem_map.1 hx
    exact hd0.le.trans (hd d hd').1
  have hy0 : ‖vec (6 * n) val (V (h .y))‖ ≤ X + 1 + ε := by
    have h1 : ‖vec (6 * n) val (V (h .y))‖ ≤ ‖vec (6 * n) val (V (h .y)) - stateOf n q v 0‖ + ‖stateOf n q v 0‖ := by
      simpa using norm_add_le (vec (6 * n) val (V (h .y)) - stateOf n q v 0) (stateOf n q v 0)
    have h2 := hX 0 ⟨le_rfl, hT0.trans hsum⟩
    linarith
  obtain ⟨fl', V', m', hs, p', r1, r2, r3, r4, r5, r6⟩ := corr_run F h0 hu100 hh ht hi hcorr (by rw [hpar]; exact hparts) hsu
    (K := K) (by rw [hdep, hK]) (by rw [← hκd]; exact hκ1) hH hder hperf hd0 dts hd false V m (vec (6 * n) val (V (h .y)), X + 1 + ε) hm
    ⟨fun e => by simp at e, fun _ => ⟨rfl, hy0⟩⟩
  refine ⟨fl', V', m', r1, r2, ?_⟩
  rw [hdep, hpar, ← hD] at r4
  rw [← hκd] at r5
  obtain ⟨ν, hν⟩ : ∃ ν, ν = 12 * (bt.steps : ℝ) * u ^ 2 := ⟨_, rfl⟩
  have hν0 : 0 ≤ ν := by rw [hν]; positivity
  rw [← hν] at r5
  have hdD : 0 < dmin / D := by positivity
  have hνD : ν ≤ dmin / D := by
    rw [le_div_iff₀ (by linarith)]
    refine le_trans (le_trans (le_of_eq ?_) (mul_le_mul_of_nonneg_right (show 12 * bt.steps * (D : ℝ) ≤ Q by
      rw [hQ, hB]; linarith) (sq_nonneg u))) hQu2
    rw [hν]; ring
  obtain ⟨Zm, hZm⟩ : ∃ Zm, Zm = (X + 1 + ε) * Real.exp (c * T) := ⟨_, rfl⟩
  obtain ⟨w1, w2, w3, w4⟩ := corr_walk (Zm := Zm) hc hdD.le (fun h' p p'' l1 l2 hs' a1 a2 a3 => hstep κ ν (Θ * u) (dmin / D) Zm hκp hκ1 hν0 hΘu hdD hνD
    h' p p'' l1 (l2.trans hδ) hs' a1 a2 a3) hs _ p' (fun x hx => r4 x hx) r5 hy0 (by simp only; linarith) (by
      rw [hZm, r3]
      exact mul_le_mul_of_nonneg_left (Real.exp_le_exp.2 (mul_le_mul_of_nonneg_left hsum hc)) (by linarith))
  have hg0 : 0 ≤ δ ^ p + η + (Θ * u + gravityLip n Mr * (κ * (c * Zm))) + (κ + ν / (dmin / D)) * (c * Zm) := by
    have : 0 ≤ Zm := by rw [hZm]; positivity
    have : 0 ≤ δ := hd0.le.trans hdδ
    positivity
  have hZ0 : 0 ≤ Zm := by rw [hZm]; positivity
  have hw := (walk_follows hC' hg0 (hfol (Θ * u) (κ * (c * Zm)) ((κ + ν / (dmin / D)) * (c * Zm)) (by positivity) (by positivity)
    (by positivity) δ hδ) hs (fun x hx => ⟨hdD.trans_le (r4 x hx).1, (r4 x hx).2⟩) 0 _ _ le_rfl (by rw [r3, zero_add]; exact hsum) w1).1
  rw [zero_add, r3] at hw
  simp only [LinearMap.id_coe, id_eq] at hw
  rw [C78.near_iff hn]
  show ‖vec (6 * n) val (V' (h .y)) - stateOf n q v (dts.map val).sum‖ ≤ _
  have hend : ‖vec (6 * n) val (V' (h .y)) - stateOf n q v (dts.map val).sum‖ ≤
      ‖p'.1 - stateOf n q v (dts.map val).sum‖ + 3 * u * Zm := by
    have hyc : ‖vec (6 * n) val (V' (h .y)) - p'.1‖ ≤ 3 * u * Zm := by
      cases fl' with
      | true =>
        obtain ⟨c1, -, c3⟩ := r6.1 rfl
        rw [← c1, sub_sub_cancel]
        exact c3.trans (mul_le_mul_of_nonneg_left w4 (by positivity))
      | false =>
        rw [(r6.2 rfl).1, sub_self, norm_zero]
        positivity
    have e1 : vec (6 * n) val (V' (h .y)) - stateOf n q v (dts.map val).sum =
      (p'.1 - stateOf n q v (dts.map val).sum) + (vec (6 * n) val (V' (h .y)) - p'.1) := by abel
    rw [e1]
    exact (norm_add_le _ _).trans (add_le_add le_rfl hyc)
  have hdm1 : u ^ 2 / dmin ≤ 1 := by
    rw [div_le_one hd0]
    refine le_trans (le_mul_of_one_le_left (sq_nonneg u) ?_) hQu2
    rw [hQ]; linarith
  have hud : 0 ≤ u ^ 2 / dmin := by positivity
  refine final_bound (κ := κ) (ν := ν / (dmin / D)) h0 (G := u + u ^ 2 / dmin) (by linarith) (by linarith) ?_ hκp (by positivity) hB0 hc hL hΘ0
    (pow_nonneg (hd0.le.trans hdδ) p) hη hX0 (Real.exp_pos _).le (Real.one_le_exp (mul_nonneg hC' (hT0.trans hsum))) hε hnear' hZm
    (hw.trans (mul_le_mul_of_nonneg_left (Real.exp_le_exp.2 (mul_le_mul_of_nonneg_left hsum hC')) (by positivity))) hend
  have e1 : ν / (dmin / D) = 12 * bt.steps * D * (u ^ 2 / dmin) := by rw [hν]; field_simp
  rw [e1, hB]
  have a1 : 0 ≤ 12 * (bt.steps : ℝ) * D * u := by positivity
  have a2 : 0 ≤ (2 * (K : ℝ) + 12) * (u ^ 2 / dmin) := by positivity
  linarith


/-! ### Without correction they do -/

/-- Rounding down within a binade. -/
lemma round_binade {p M : ℕ} (hp : 1 ≤ p) (h1 : 2 ^ (p - 1) ≤ M) (h2 : M < 2 ^ p) {r : ℝ} (hr0 : 0 ≤ r) (hr : r < 1 / 2) :
    Spec.roundBits p ((M + r) * (2 * 2⁻¹ ^ p)) = M * (2 * 2⁻¹ ^ p) := by
  obtain ⟨p, rfl⟩ : ∃ q, p = q + 1 := ⟨p - 1, by omega⟩
  have e0 : (2 : ℝ) * 2⁻¹ ^ (p + 1) = (2 ^ p)⁻¹ := by rw [pow_succ, inv_pow]; ring
  have hP : (0 : ℝ) < 2 ^ p := by positivity
  have h1' : (2 : ℝ) ^ p ≤ M := by exact_mod_cast h1
  have h2' : (M : ℝ) + 1 ≤ 2 * 2 ^ p := by
    have : M + 1 ≤ 2 ^ (p + 1) := h2
    rw [pow_succ] at this
    have := (Nat.cast_le (α := ℝ)).2 this
    push_cast at this
    linarith
  rw [e0]
  obtain ⟨x, hx⟩ : ∃ x, x = ((M : ℝ) + r) * (2 ^ p)⁻¹ := ⟨_, rfl⟩
  have hx1 : 1 ≤ x := by rw [hx, ← div_eq_mul_inv, le_div_iff₀ hP]; linarith
  have hx2 : x < 2 := by rw [hx, ← div_eq_mul_inv, div_lt_iff₀ hP]; linarith
  have hlog : Int.log 2 |x| = 0 := by
    rw [abs_of_pos (by linarith), Int.log_of_one_le_right _ hx1]
    have : ⌊x⌋₊ = 1 := by
      rw [Nat.floor_eq_iff (by linarith)]
      constructor <;> norm_num <;> linarith
    rw [this]; simp
  rw [← hx]
  unfold Spec.roundBits
  rw [hlog]
  have e1 : x * 2 ^ (((p + 1 : ℕ) : ℤ) - 1 - 0) = M + r := by
    rw [show (((p + 1 : ℕ) : ℤ) - 1 - 0) = (p : ℤ) by push_cast; ring, zpow_natCast, hx, mul_assoc, inv_mul_cancel₀ hP.ne', mul_one]
  have e2 : (2 : ℝ) ^ ((0 : ℤ) - (((p + 1 : ℕ) : ℤ) - 1)) = (2 ^ p)⁻¹ := by
    rw [show ((0 : ℤ) - (((p + 1 : ℕ) : ℤ) - 1)) = -(p : ℤ) by push_cast; ring, zpow_neg, zpow_natCast]
  have e3 : round ((M : ℝ) + r) = (M : ℤ) := by
    rw [round_eq, Int.floor_eq_iff]
    push_cast
    constructor <;> linarith
  rw [e1, e2, e3]
  push_cast
  rfl

/-- Numbers with few bits are not rounded. -/
lemma round_exact {p M : ℕ} (hM : M < 2 ^ p) (e : ℤ) : Spec.roundBits p (M * 2 ^ e) = M * 2 ^ e := by
  by_cases h0 : M = 0
  · subst h0; simp [Spec.roundBits]
  obtain ⟨x, hx⟩ : ∃ x, x = (M : ℝ) * 2 ^ e := ⟨_, rfl⟩
  have hM0 : (0 : ℝ) < M := by exact_mod_cast Nat.pos_of_ne_zero h0
  have hx0 : 0 < x := by rw [hx]; positivity
  have hlt : x < 2 ^ ((p : ℤ) + e) := by
    rw [hx, zpow_add₀ (by norm_num), zpow_natCast]
    exact mul_lt_mul_of_pos_right (by exact_mod_cast hM) (by positivity)
  have hl : Int.log 2 x < p + e := by
    have := Int.zpow_log_le_self (R := ℝ) (b := 2) (by norm_num) hx0
    have h2 : ((2 : ℕ) : ℝ) ^ Int.log 2 x < ((2 : ℕ) : ℝ) ^ ((p : ℤ) + e) := lt_of_le_of_lt this (by push_cast; exact hlt)
    exact (zpow_lt_zpow_iff_right₀ (by norm_num)).1 h2
  rw [← hx]
  unfold Spec.roundBits
  rw [abs_of_pos hx0]
  obtain ⟨l, hl'⟩ : ∃ l, l = Int.log 2 x := ⟨_, rfl⟩
  rw [← hl'] at hl ⊢
  obtain ⟨j, hj⟩ : ∃ j : ℕ, (j : ℤ) = e + ((p : ℤ) - 1 - l) := ⟨(e + ((p : ℤ) - 1 - l)).toNat, Int.toNat_of_nonneg (by omega)⟩
  have e1 : x * 2 ^ ((p : ℤ) - 1 - l) = ((M * 2 ^ j : ℕ) : ℝ) := by
    rw [hx, mul_assoc, ← zpow_add₀ (by norm_num), ← hj, zpow_natCast]
    push_cast; rfl
  rw [e1, round_natCast]
  push_cast
  rw [mul_assoc, ← zpow_natCast, ← zpow_add₀ (by norm_num), hj, hx]
  congr 2
  ring

/-- A table with one stage: Euler's method. -/
def oneStage : BT ℝ := ⟨1, fun _ _ => 0, fun _ => 1, fun _ => 1, fun _ => 0, false, false⟩

/-- One body that moves with constant velocity. -/
def freePos (t : ℝ) (_ : ℕ) (k : Fin 3) : ℝ := if k = 0 then 1 + t else 0
/-- Its velocity. -/
def freeVel (_ : ℝ) (_ : ℕ) (k : Fin 3) : ℝ := if k = 0 then 1 else 0

lemma free_accel (eps : ℝ) (q : ℕ → Fin 3 → ℝ) (m : ℕ → ℝ) (k : Fin 3) : _root_.Spec.accel eps 1 q m 0 k = 0 := by
  simp [_root_.Spec.accel]

lemma free_scale (eps : ℝ) (q : ℕ → Fin 3 → ℝ) (m : ℕ → ℝ) (k : Fin 3) : C79.scale eps 1 q m 0 k = 0 := by
  simp [C79.scale]

lemma free_motion (T : ℝ) : Motion 1e-8 1 (fun _ => 1) T freePos freeVel := by
  refine ⟨fun t _ i hi k => ?_, fun t _ i hi k => ?_⟩
  · unfold freePos freeVel
    split_ifs
    · simpa using ((hasDerivAt_id t).const_add 1).hasDerivWithinAt
    · exact (hasDerivAt_const t (0 : ℝ)).hasDerivWithinAt
  · obtain rfl : i = 0 := by omega
    rw [free_accel]
    exact (hasDerivAt_const t _).hasDerivWithinAt

/-- What a step does. -/
lemma one_stage_step {p : ℕ} (hp : 1 ≤ p) {h : Slot → Handle} (hh : Function.Injective h) {n : ℕ} {deriv : (ℕ → Spec.Bin p) → ℕ → Spec.Bin p}
    {d : ℝ} (hd : Spec.roundBits p d = d) (hd0 : d ≠ 0) {fl : Bool} {V : Buffers (Spec.Bin p)} {r : Bool × Buffers (Spec.Bin p)}
    (hr : Outcome deriv n (tableStep h (C85.roundTable p oneStage) ⟨0, 1, ⟨0⟩, 0, false, ⟨0⟩⟩ fl ⟨d⟩) V r) :
    r.2 (h .y) = fun j => V (h .y) j + deriv (V (h .y)) j * ⟨d⟩ := by
  have h1 : Spec.roundBits p 1 = 1 := by
    simpa using round_exact (p := p) (M := 1) (Nat.one_lt_two_pow (by omega)) 0
  have hb : (C85.roundTable p oneStage).b2 0 * (⟨d⟩ : Spec.Bin p) = ⟨d⟩ := by
    apply Spec.Bin.ext
    show Spec.roundBits p (Spec.roundBits p 1 * d) = d
    rw [h1, one_mul, hd]
  have hz : FOps.eqb (⟨d⟩ : Spec.Bin p) 0 = false := by
    show decide (d = 0) = false
    simp [hd0]
  simp only [tableStep, rkCalls, rkLoopCalls, rkExplicitCalls, rkErrorCalls, rkAdvanceCalls, rkStageCalls, Bool.and_false, Bool.false_eq_true,
    if_false, show (C85.roundTable p oneStage).steps = 1 from rfl, show (C85.roundTable p oneStage).implicit = false from rfl,
    show (C85.roundTable p oneStage).embedded = false from rfl, forN_succ, forN_zero, _root_.Spec.outcome_bind, _root_.Spec.outcome_op,
    _root_.Spec.outcome_pure, if_true] at hr
  obtain ⟨q, ⟨q1, rfl, q2, rfl, q3, ⟨q4, rfl, rfl⟩, q5, rfl, rfl⟩, rfl⟩ := hr
  simp only [_root_.Spec.call, _root_.Spec.terms_eq h le_rfl]
  simp only [List.range_one, List.map_cons, List.map_nil, List.foldl_cons, List.foldl_nil, _root_.Spec.addTerm, hb, hz, Bool.false_eq_true,
    if_false, put_same]
  rw [put_slot' hh, if_neg (by simp)]

/-- The run: the position falls behind by half the unit roundoff in every step. -/
lemma one_stage_run {p m : ℕ} (hp : 1 ≤ p) {h : Slot → Handle} (hh : Function.Injective h) {H : ℕ → Prop}
    (hH : ∀ s, H (h s)) {deriv : (ℕ → Spec.Bin p) → ℕ → Spec.Bin p} (hder : ∀ Y, deriv Y 0 = Y 3 ∧ (deriv Y 3).val = 0)
    {E : EngineOps (Spec.Bin p) (Mem (Spec.Bin p))} {Rep : Buffers (Spec.Bin p) → Mem (Spec.Bin p) → Prop} (hE : Performs E 1 H deriv Rep) {d : ℝ}
    (hd : Spec.roundBits p d = d) (hdm : d = (m + 1 / 4) * (2 * 2⁻¹ ^ p)) :
    ∀ (N M : ℕ) (fl : Bool) (V : Buffers (Spec.Bin p)) (mem : Mem (Spec.Bin p)), 2 ^ (p - 1) ≤ M → M + N * m < 2 ^ p → Rep V mem →
      (V (h .y) 0).val = M * (2 * 2⁻¹ ^ p) → (V (h .y) 3).val = 1 →
      ∃ fl' V' mem', runSteps E (tableStep h (C85.roundTable p oneStage) ⟨0, 1, ⟨0⟩, 0, false, ⟨0⟩⟩) (List.replicate N ⟨d⟩) (fl, mem) =
          .ok (fl', mem') ∧ Rep V' mem' ∧ (V' (h .y) 0).val = ((M + N * m : ℕ) : ℝ) * (2 * 2⁻¹ ^ p) := by
  have hd0 : d ≠ 0 := by rw [hdm]; positivity
  have h1 : Spec.roundBits p 1 = 1 := by
    simpa using round_exact (p := p) (M := 1) (Nat.one_lt_two_pow (by omega)) 0
  have hz : Spec.roundBits p 0 = 0 := by simp [Spec.roundBits]
  intro N
  induction N with
  | zero => intro M fl V mem _ _ hR hx _; exact ⟨fl, V, mem, rfl, hR, by simpa using hx⟩
  | succ N ih =>
    intro M fl V mem h2 h3 hR hx hv
    have hal : Allowed H (tableStep h (C85.roundTable p oneStage) ⟨0, 1, ⟨0⟩, 0, false, ⟨0⟩⟩ fl ⟨d⟩) :=
      Allowed.bind (Spec.rk_allowed hh (fun s _ => hH s) _ fl) fun _ => Allowed.pure _
    obtain ⟨r, m1, o1, o2, o3⟩ := _root_.Spec.run_outcome hE hal hR
    have hy := one_stage_step hp hh hd hd0 o1
    obtain ⟨d1, d2⟩ := hder (V (h .y))
    rw [Nat.succ_mul] at h3
    obtain ⟨fl', V', mem', k1, k2, k3⟩ := ih (M + m) r.1 r.2 m1 (by omega) (by omega) o3 (by
      rw [hy]
      show Spec.roundBits p ((V (h .y) 0).val + Spec.roundBits p ((deriv (V (h .y)) 0).val * d)) = _
      rw [d1, hv, one_mul, hd, hx, hdm, ← add_mul, ← add_assoc, ← Nat.cast_add]
      exact round_binade hp (by omega) (by omega) (by norm_num) (by norm_num)) (by
      rw [hy]
      show Spec.roundBits p ((V (h .y) 3).val + Spec.roundBits p ((deriv (V (h .y)) 3).val * d)) = _
      rw [d2, zero_mul, hz, hv, add_zero, h1])
    refine ⟨fl', V', mem', ?_, k2, ?_⟩
    · rw [List.replicate_succ]
      unfold runSteps at k1 ⊢
      rw [List.foldlM_cons]
      show ((tableStep h (C85.roundTable p oneStage) ⟨0, 1, ⟨0⟩, 0, false, ⟨0⟩⟩ fl ⟨d⟩).run E mem >>= _) = _
      rw [o2, res_ok_bind]
      exact k1
    · rw [k3]
      congr 2
      ring

/-- **Without correction rounding errors add up.**  One body with constant velocity, `N` steps of a table of order 1 in binary arithmetic with `p` bits, on
any engine: the last position is off by exactly `N u / 2`. -/
theorem uncorrected_drift {p m N : ℕ} (hp : 1 ≤ p) (hm : 4 * m + 1 < 2 ^ p) (hN : 2 ^ (p - 1) + N * m < 2 ^ p) {h : Slot → Handle}
    (hh : Function.Injective h) {H : ℕ → Prop} (hH : ∀ s, H (h s)) (hu : 34 * (2⁻¹ : ℝ) ^ p ≤ 1 / 2) {E : EngineOps (Spec.Bin p) (Mem (Spec.Bin p))}
    {Rep : Buffers (Spec.Bin p) → Mem (Spec.Bin p) → Prop} (hE : DirectEngine 1 (fun _ => 1) H E Rep) {V : Buffers (Spec.Bin p)}
    {mem : Mem (Spec.Bin p)} (hR : Rep V mem) (hV : V (h .y) = fun j => if j = 0 ∨ j = 3 then 1 else 0) :
    ∃ d : Spec.Bin p, d.val = (m + 1 / 4) * (2 * 2⁻¹ ^ p) ∧ ∃ fl V' mem',
      runSteps E (tableStep h (C85.roundTable p oneStage) ⟨0, 1, ⟨0⟩, 0, false, ⟨0⟩⟩) (List.replicate N d) (false, mem) = .ok (fl, mem') ∧
      Rep V' mem' ∧ |(V' (h .y) 0).val - freePos (N * d.val) 0 0| = N * 2⁻¹ ^ p / 2 := by
  obtain ⟨d, hd⟩ : ∃ d : ℝ, d = (m + 1 / 4) * (2 * 2⁻¹ ^ p) := ⟨_, rfl⟩
  have hrep : Spec.roundBits p d = d := by
    have e : d = ((4 * m + 1 : ℕ) : ℝ) * 2 ^ (-((p : ℤ) + 1)) := by
      rw [hd, neg_add, zpow_add₀ (by norm_num), zpow_neg, zpow_natCast, inv_pow]
      push_cast
      norm_num
      ring
    rw [e]
    exact round_exact hm _
  have hu0 : (0 : ℝ) < 2⁻¹ ^ p := by positivity
  obtain ⟨deriv, K', hK', hperf, hacc⟩ := engine_performs (Spec.Bin.floatOps p) hu0.le (n := 1) one_pos (by push_cast; linarith)
    (fun i _ => show ((1 : Spec.Bin p)).val ≠ 0 by show (1 : ℝ) ≠ 0; norm_num) hE
  have hder : ∀ Y, deriv Y 0 = Y 3 ∧ (deriv Y 3).val = 0 := by
    intro Y
    obtain ⟨a1, a2⟩ := hacc Y
    refine ⟨by simpa using a1 0 (by norm_num), ?_⟩
    have := a2 0 0 one_pos
    rw [free_accel, free_scale, mul_zero, sub_zero] at this
    simpa using this
  have hP : ((2 ^ (p - 1) : ℕ) : ℝ) * (2 * 2⁻¹ ^ p) = 1 := by
    obtain ⟨p, rfl⟩ : ∃ q, p = q + 1 := ⟨p - 1, by omega⟩
    rw [Nat.add_sub_cancel, pow_succ, inv_pow]
    push_cast
    field_simp
  obtain ⟨fl, V', mem', r1, r2, r3⟩ := one_stage_run hp hh hH hder hperf hrep hd N (2 ^ (p - 1)) false V mem le_rfl hN hR (by
    rw [hP, hV]; rfl) (by rw [hV]; rfl)
  refine ⟨⟨d⟩, hd, fl, V', mem', r1, r2, ?_⟩
  rw [r3]
  simp only [freePos, if_true]
  have e : ((2 ^ (p - 1) + N * m : ℕ) : ℝ) * (2 * 2⁻¹ ^ p) - (1 + N * d) = -(N * 2⁻¹ ^ p / 2) := by
    rw [Nat.cast_add, add_mul, hP, hd]
    push_cast
    ring
  rw [e, abs_neg, abs_of_nonneg (by positivity)]

/-- Binary arithmetic with 53 bits, `2 ^ 51` steps: the body ends `1 / 8` behind. -/
example {h : Slot → Handle} (hh : Function.Injective h) {H : ℕ → Prop} (hH : ∀ s, H (h s)) {E : EngineOps (Spec.Bin 53) (Mem (Spec.Bin 53))}
    {Rep : Buffers (Spec.Bin 53) → Mem (Spec.Bin 53) → Prop} (hE : DirectEngine 1 (fun _ => 1) H E Rep) {V : Buffers (Spec.Bin 53)}
    {mem : Mem (Spec.Bin 53)} (hR : Rep V mem) (hV : V (h .y) = fun j => if j = 0 ∨ j = 3 then 1 else 0) :
    ∃ d : Spec.Bin 53, ∃ fl V' mem',
      runSteps E (tableStep h (C85.roundTable 53 oneStage) ⟨0, 1, ⟨0⟩, 0, false, ⟨0⟩⟩) (List.replicate (2 ^ 51) d) (false, mem) = .ok (fl, mem') ∧
      Rep V' mem' ∧ |(V' (h .y) 0).val - freePos ((2 ^ 51 : ℕ) * d.val) 0 0| = 1 / 8 := by
  obtain ⟨d, -, fl, V', mem', r1, r2, r3⟩ := uncorrected_drift (p := 53) (m := 1) (N := 2 ^ 51) (by norm_num) (by norm_num) (by norm_num) hh hH
    (by norm_num) hE hR hV
  refine ⟨d, fl, V', mem', r1, r2, r3.trans ?_⟩
  norm_num

/-- **The claim is false without correction**: for one body that moves with constant velocity, and a table of order 1 without correction, there are no
constants that make `C (ε + δ + u + u² / dmin)` a bound. -/
theorem uncorrected_fails : oneStage.implicit = false ∧ Lower oneStage.steps oneStage.a ∧ Spec.HasOrderWithin 0 oneStage.steps oneStage.a oneStage.b2 1 ∧
    Motion 1e-8 1 (fun _ => 1) 1 freePos freeVel ∧ OffCutoff 1 1 freePos ∧ EndsNear true 1 (fun _ => 1) oneStage 0 1 1 0 1 freePos freeVel ∧
    ¬ EndsNear false 1 (fun _ => 1) oneStage 0 1 1 0 1 freePos freeVel := by
  have hlow : Lower oneStage.steps oneStage.a := fun _ _ _ _ _ => rfl
  have hord : Spec.HasOrderWithin 0 oneStage.steps oneStage.a oneStage.b2 1 := C82.exactly (has_order_one (by simp [oneStage]))
  have hoff : OffCutoff 1 1 freePos := fun t _ i hi j hj hij => absurd hij (by omega)
  refine ⟨rfl, hlow, hord, free_motion 1, hoff, corrected_convergence_partial one_pos (fun _ _ => one_ne_zero) rfl hlow one_pos le_rfl le_rfl hord
    (free_motion 1) hoff, ?_⟩
  rintro ⟨C, δ₀, u₀, hC, hδ₀, hu₀, key⟩
  obtain ⟨w, hw⟩ : ∃ w : ℝ, w = min (1 / 68) (min (δ₀ / 3) (min u₀ (1 / (80 * (C + 1))))) := ⟨_, rfl⟩
  have hw0 : 0 < w := by rw [hw]; positivity
  obtain ⟨k, hk⟩ := exists_pow_lt_of_lt_one hw0 (by norm_num : (2⁻¹ : ℝ) < 1)
  obtain ⟨z, hz⟩ : ∃ z : ℝ, z = 2⁻¹ ^ k := ⟨_, rfl⟩
  have hz0 : 0 < z := by rw [hz]; positivity
  have hzw : z ≤ w := by rw [hz]; exact hk.le
  have z1 : z ≤ 1 / 68 := hzw.trans (by rw [hw]; exact min_le_left _ _)
  have z2 : z ≤ δ₀ / 3 := hzw.trans (by rw [hw]; exact (min_le_right _ _).trans (min_le_left _ _))
  have z3 : z ≤ u₀ := hzw.trans (by rw [hw]; exact (min_le_right _ _).trans ((min_le_right _ _).trans (min_le_left _ _)))
  have z4 : z ≤ 1 / (80 * (C + 1)) := hzw.trans (by rw [hw]; exact (min_le_right _ _).trans ((min_le_right _ _).trans (min_le_right _ _)))
  have hk3 : 3 ≤ k := by
    by_contra hlt
    have : (2⁻¹ : ℝ) ^ 2 ≤ 2⁻¹ ^ k := pow_le_pow_of_le_one (by norm_num) (by norm_num) (by omega)
    rw [← hz] at this
    norm_num at this
    linarith
  have hu : (2⁻¹ : ℝ) ^ (4 * k) = z ^ 4 := by rw [hz, ← pow_mul, mul_comm]
  have hkz : (2 : ℝ) ^ k * z = 1 := by rw [hz, ← mul_pow]; norm_num
  have hNz : ((2 ^ (3 * k - 3) : ℕ) : ℝ) * z ^ 3 = 1 / 8 := by
    have e : ((2 ^ (3 * k - 3) : ℕ) : ℝ) * 8 = (2 ^ k) ^ 3 := by
      push_cast
      rw [show (8 : ℝ) = 2 ^ 3 by norm_num, ← pow_add, ← pow_mul]
      congr 1
      omega
    have e2 : ((2 : ℝ) ^ k) ^ 3 * z ^ 3 = 1 := by rw [← mul_pow, hkz, one_pow]
    rw [← e] at e2
    linarith
  have hz3 : z ^ 3 ≤ z := by
    calc z ^ 3 ≤ z ^ 1 := pow_le_pow_of_le_one hz0.le (by linarith) (by norm_num)
      _ = z := pow_one z
  have hz43 : z ^ 4 ≤ z ^ 3 := pow_le_pow_of_le_one hz0.le (by linarith) (by norm_num)
  have hz4 : z ^ 4 ≤ z := hz43.trans hz3
  have h1 : ∀ s, 1 ≤ C74.layout s := fun s => by
    cases s <;> simp only [C74.layout] <;> (try split_ifs) <;> omega
  obtain ⟨V, hV⟩ : ∃ V : Buffers (Spec.Bin (4 * k)), V = fun h j => if h = 0 then 1 else if j = 0 ∨ j = 3 then 1 else 0 := ⟨_, rfl⟩
  have hR : HostHolds 1 0 (fun h => h ≠ 0) (fun _ => 1) V (fun h => some (buf (if h = 0 then 1 else 6) (V h))) :=
    ⟨fun h hh => congrArg (fun k => some (buf k (V h))) (if_neg hh), by simp [hV], fun h hh => hh⟩
  have hVy : V (C74.layout .y) = fun j => if j = 0 ∨ j = 3 then 1 else 0 := by
    rw [hV]
    funext j
    exact if_neg (Nat.pos_iff_ne_zero.1 (h1 .y))
  have hpow : 2 ^ (4 * k) = 2 ^ (3 * k - 3) * 2 ^ k * 8 := by
    rw [show 8 = 2 ^ 3 by norm_num, ← pow_add, ← pow_add]
    congr 1
    omega
  have hpow2 : 2 ^ (4 * k) = 2 ^ (4 * k - 1) * 2 := by
    rw [← pow_succ]
    congr 1
    omega
  have hm : 4 * 2 ^ k + 1 < 2 ^ (4 * k) := by
    have a : 2 ^ 3 ≤ 2 ^ k := Nat.pow_le_pow_right (by norm_num) hk3
    have b : 2 ^ 3 ≤ 2 ^ (3 * k - 3) := Nat.pow_le_pow_right (by norm_num) (by omega)
    have c := Nat.mul_le_mul_right (2 ^ k) b
    omega
  have hNm : 2 ^ (4 * k - 1) + 2 ^ (3 * k - 3) * 2 ^ k < 2 ^ (4 * k) := by
    have : 0 < 2 ^ (4 * k) := by positivity
    omega
  obtain ⟨d, hd, fl, V', mem', r1, r2, r3⟩ := uncorrected_drift (p := 4 * k) (m := 2 ^ k) (N := 2 ^ (3 * k - 3)) (by omega) hm hNm
    C74.layout_injective (H := fun h => h ≠ 0) (fun s => Nat.pos_iff_ne_zero.1 (h1 s)) (by rw [hu]; linarith) (.simple 0) hR hVy
  rw [hu] at hd r3
  have hdz : d.val = 2 * z ^ 3 + z ^ 4 / 2 := by
    rw [hd]
    push_cast
    calc ((2 : ℝ) ^ k + 1 / 4) * (2 * z ^ 4) = 2 * (2 ^ k * z) * z ^ 3 + z ^ 4 / 2 := by ring
      _ = 2 * z ^ 3 + z ^ 4 / 2 := by rw [hkz]; ring
  have hz3p : 0 < z ^ 3 := by positivity
  have hz4p : 0 < z ^ 4 := by positivity
  have hd0 : 0 < d.val := by rw [hdz]; positivity
  have hdle : d.val ≤ 3 * z ^ 3 := by rw [hdz]; linarith
  have hsum : ((List.replicate (2 ^ (3 * k - 3)) d).map Spec.Bin.val).sum = ((2 ^ (3 * k - 3) : ℕ) : ℝ) * d.val := by
    rw [List.map_replicate, List.sum_replicate, nsmul_eq_mul]
  have hNd : ((2 ^ (3 * k - 3) : ℕ) : ℝ) * d.val ≤ 1 := by
    calc ((2 ^ (3 * k - 3) : ℕ) : ℝ) * d.val ≤ ((2 ^ (3 * k - 3) : ℕ) : ℝ) * (3 * z ^ 3) := by gcongr
      _ = 3 * (((2 ^ (3 * k - 3) : ℕ) : ℝ) * z ^ 3) := by ring
      _ ≤ 1 := by rw [hNz]; norm_num
  have hu2 : ((2⁻¹ : ℝ) ^ (4 * k)) ^ 2 ≤ z ^ 5 * d.val := by
    rw [hu, hdz]
    have : (z ^ 4) ^ 2 = z ^ 5 * z ^ 3 := by ring
    rw [this]
    have : 0 < z ^ 5 := by positivity
    gcongr
    linarith
  have hz5 : z ^ 5 ≤ z ^ 3 := pow_le_pow_of_le_one hz0.le (by linarith) (by norm_num)
  obtain ⟨fl2, V2, mem2, s1, s2, s3⟩ := key (Spec.Bin (4 * k)) Spec.Bin.val (2⁻¹ ^ (4 * k)) (Spec.Bin.floatOps _) (by positivity) (fun _ => 1)
    (fun _ _ => rfl) C74.layout (fun h => h ≠ 0) (C85.roundTable _ oneStage) ⟨0, 1, ⟨0⟩, 0, false, ⟨0⟩⟩ C74.layout_injective
    (C85.roundTable_of _ _) rfl rfl rfl (fun s _ => Nat.pos_iff_ne_zero.1 (h1 s)) _ _ (.simple 0) (List.replicate (2 ^ (3 * k - 3)) d) d.val
    d.val 0 hd0 le_rfl (by linarith) (by rw [hu]; linarith)
    (hu2.trans (by gcongr; linarith)) (fun e he => by rw [List.eq_of_mem_replicate he]; exact ⟨le_rfl, le_rfl⟩) (by rw [hsum]; exact hNd) V _ hR
    (by
      intro i hi c
      obtain rfl : i = 0 := by omega
      rw [hVy]
      have a1 : ((1 : Spec.Bin (4 * k))).val = 1 := rfl
      have a0 : ((0 : Spec.Bin (4 * k))).val = 0 := rfl
      fin_cases c <;> simp [freePos, freeVel, a1, a0])
  rw [r1] at s1
  obtain ⟨-, rfl⟩ : fl = fl2 ∧ mem' = mem2 := by simpa using s1
  have hy : V2 (C74.layout .y) 0 = V' (C74.layout .y) 0 := by
    have a := s2.1 (C74.layout .y) (Nat.pos_iff_ne_zero.1 (h1 .y))
    rw [r2.1 (C74.layout .y) (Nat.pos_iff_ne_zero.1 (h1 .y))] at a
    have b := congrArg (fun l => l[0]?) (Option.some.inj a)
    simpa [buf] using b.symm
  have hb : |(V' (C74.layout .y) 0).val - freePos (((2 ^ (3 * k - 3) : ℕ) : ℝ) * d.val) 0 0| ≤
      C * (0 + d.val ^ 1 + 0 + (z ^ 4 + z ^ 5)) := by
    have a := (s3 0 one_pos 0).1
    rw [hsum] at a
    have b : V2 (C74.layout .y) (((0 : Fin 3) : ℕ) * 1 + 0) = V' (C74.layout .y) 0 := hy
    simp only [b] at a
    refine a.trans ?_
    have c : ((2⁻¹ : ℝ) ^ (4 * k)) ^ 2 / d.val ≤ z ^ 5 := by rw [div_le_iff₀ hd0]; exact hu2
    rw [hu] at c ⊢
    gcongr
  rw [r3, show ((2 ^ (3 * k - 3) : ℕ) : ℝ) * z ^ 4 / 2 = ((2 ^ (3 * k - 3) : ℕ) : ℝ) * z ^ 3 * z / 2 by ring, hNz] at hb
  have h5 : C * (0 + d.val ^ 1 + 0 + (z ^ 4 + z ^ 5)) ≤ C * (5 * z ^ 3) := by
    gcongr
    rw [pow_one]
    linarith
  have h6 : z ^ 3 ≤ z * z := by
    calc z ^ 3 ≤ z ^ 2 := pow_le_pow_of_le_one hz0.le (by linarith) (by norm_num)
      _ = z * z := pow_two z
  have h7 : C * z ≤ C * (1 / (80 * (C + 1))) := by gcongr
  have h8 : C * (1 / (80 * (C + 1))) < 1 / 80 := by
    rw [mul_one_div, div_lt_div_iff₀ (by positivity) (by norm_num)]
    linarith
  have h9 : C * (5 * z ^ 3) ≤ 5 * (C * z) * z := by
    calc C * (5 * z ^ 3) ≤ C * (5 * (z * z)) := by gcongr
      _ = _ := by ring
  have h10 : 5 * (C * z) * z < 5 * (1 / 80) * z := by
    have := h7.trans_lt h8
    gcongr
  linarith

/-- **Up to `1 / u` steps the error does not grow with their number**: a run of at most `N` steps, `N u ≤ 1`, of lengths between `T / (2 N)` and `T / N`
ends within `C (ε + N⁻ᵖ + η + u)` of the bodies.  In double precision `1 / u` is about `10¹⁶`.  Partial as `corrected_convergence_partial` is. -/
theorem corrected_many_steps_partial {n : ℕ} {Mr : ℕ → ℝ} (hn : 0 < n) (hM : ∀ i, i < n → Mr i ≠ 0) {bt : BT ℝ} {depth parts p : ℕ} {η : ℝ}
    (hi : bt.implicit = false) (hlow : Lower bt.steps bt.a) (hparts : 0 < parts) (hp : 1 ≤ p) (hη : 0 ≤ η)
    (ho : Spec.HasOrderWithin η bt.steps bt.a bt.b2 p) {T : ℝ} (hT : 0 < T) {q v : ℝ → ℕ → Fin 3 → ℝ} (hq : Motion 1e-8 n Mr T q v)
    (hoff : OffCutoff n T q) : ∃ (C u₀ : ℝ) (N₀ : ℕ), 0 ≤ C ∧ 0 < u₀ ∧
    ∀ (S : Type) [Add S] [Sub S] [Mul S] [Neg S] [Div S] [Zero S] [One S] [FOps S] (val : S → ℝ) (u : ℝ),
    Spec.FloatOps val u → 0 ≤ u → u ≤ u₀ → ∀ M : ℕ → S, (∀ i, i < n → val (M i) = Mr i) →
    ∀ (h : Slot → Handle) (H : ℕ → Prop) (btS : BT S) (cf : RKConf S), Function.Injective h → TableOf val u bt btS →
    cf.correction = true → cf.maxRecursion = depth → cf.subdivisions = parts → (∀ s, Spec.rkSlots btS cf s → H (h s)) →
    ∀ (E : EngineOps S (Mem S)) (Rep : Buffers S → Mem S → Prop), DirectEngine n M H E Rep →
    ∀ (dts : List S) (N : ℕ) (ε : ℝ), N₀ ≤ N → N * u ≤ 1 → dts.length ≤ N → 0 ≤ ε → (∀ d ∈ dts, T / (2 * N) ≤ val d ∧ val d ≤ T / N) →
    ∀ (V : Buffers S) (m : Mem S), Rep V m → Near n (fun j => val (V (h .y) j)) (q 0) (v 0) ε →
    ∃ fl V' m', runSteps E (tableStep h btS cf) dts (false, m) = .ok (fl, m') ∧ Rep V' m' ∧
      Near n (fun j => val (V' (h .y) j)) (q (dts.map val).sum) (v (dts.map val).sum) (C * (ε + (1 / N) ^ p + η + u)) := by
  obtain ⟨C, δ₀, u₀, hC, hδ₀, hu₀, key⟩ := corrected_convergence_partial (depth := depth) hn hM hi hlow hparts hp hη ho hq hoff
  obtain ⟨N₀, hN₀⟩ := exists_nat_gt (T / δ₀)
  refine ⟨C * (1 + T ^ p + 2 / T), min u₀ (u₀ * T / 2), N₀ + 1, by positivity, by positivity, ?_⟩
  intro S _ _ _ _ _ _ _ _ val u F h0 hu M hMv h H btS cf hh ht hc hdp hpt hH E Rep hE dts N ε hN hNu hlen hε hdts V m hR hnear
  have hu1 := hu.trans (min_le_left _ _)
  have hu2 := hu.trans (min_le_right _ _)
  have hNp : (0 : ℝ) < N := by
    have : 0 < N := by omega
    exact_mod_cast this
  have hNN : (N₀ : ℝ) ≤ N := by
    have : N₀ ≤ N := by omega
    exact_mod_cast this
  have hsq : u ^ 2 / (T / (2 * N)) = N * u * u * (2 / T) := by
    field_simp
  have hsq1 : u ^ 2 / (T / (2 * N)) ≤ u * (2 / T) := by
    rw [hsq]
    gcongr
    calc N * u * u ≤ 1 * u := by gcongr
      _ = u := one_mul u
  obtain ⟨fl, V', m', r1, r2, r3⟩ := key S val u F h0 M hMv h H btS cf hh ht hc hdp hpt hH E Rep hE dts (T / (2 * N)) (T / N) ε
    (by positivity) (by gcongr; linarith) (by
      rw [div_le_iff₀ hNp]
      rw [div_lt_iff₀ hδ₀] at hN₀
      nlinarith) hu1 (by
      rw [← div_le_iff₀ (by positivity)]
      refine hsq1.trans ?_
      rw [mul_div_assoc', div_le_iff₀ hT]
      linarith) hdts (by
      have : (dts.map val).sum ≤ (dts.map val).length • (T / N) := List.sum_le_card_nsmul _ _ (by
        intro x hx
        obtain ⟨d, hd, rfl⟩ := List.mem_map.1 hx
        exact (hdts d hd).2)
      rw [List.length_map, nsmul_eq_mul] at this
      refine this.trans ?_
      calc (dts.length : ℝ) * (T / N) ≤ N * (T / N) := by gcongr
        _ = T := by field_simp) V m hR hnear
  refine ⟨fl, V', m', r1, r2, fun i hi k => ?_⟩
  have hb : C * (ε + (T / N) ^ p + η + (u + u ^ 2 / (T / (2 * N)))) ≤ C * (1 + T ^ p + 2 / T) * (ε + (1 / N) ^ p + η + u) := by
    rw [mul_assoc]
    gcongr
    have e1 : (T / N) ^ p = T ^ p * (1 / N) ^ p := by rw [← mul_pow, mul_one_div]
    have t1 : 0 ≤ T ^ p := by positivity
    have t2 : 0 ≤ 2 / T := by positivity
    have t3 : (0 : ℝ) ≤ (1 / N) ^ p := by positivity
    rw [e1]
    generalize T ^ p = A at *
    generalize 2 / T = B at *
    generalize ((1 : ℝ) / N) ^ p = D at *
    have m1 : 0 ≤ (A + B) * (ε + η + u) := by positivity
    have m2 : 0 ≤ (1 + B) * D := by positivity
    have m3 : 0 ≤ A * u := by positivity
    have m4 : 0 ≤ (A + B) * ε := by positivity
    have m5 : 0 ≤ (A + B) * η := by positivity
    have : (1 + A + B) * (ε + D + η + u) = ε + A * D + η + (u + u * B) + (A + B) * ε + (A + B) * η + A * u + (1 + B) * D := by ring
    linarith
  exact ⟨((r3 i hi k).1).trans hb, ((r3 i hi k).2).trans hb⟩

lemma table_near {n : ℕ} {Mr : ℕ → ℝ} (hn : 0 < n) (hM : ∀ i, i < n → Mr i ≠ 0) {bt : BT ℝ} {depth parts p : ℕ} {η : ℝ}
    (hk : (C85.Kind.table bt depth parts).Order p η) {T : ℝ} {q v : ℝ → ℕ → Fin 3 → ℝ} (hq : Motion 1e-8 n Mr T q v)
    (hoff : OffCutoff n T q) : EndsNear true n Mr bt depth parts p η T q v := by
  cases hk with
  | table hi hlow _ hparts hp hη ho => exact corrected_convergence_partial hn hM hi hlow hparts hp hη ho hq hoff

/-- **Every explicit table of the library is covered**: rk4 4, rkck 4, rkdp 4, rkdverk 5, rkf 8, Feagin 10, 12 and 14.  Partial as
`corrected_convergence_partial` is. -/
theorem tables_corrected_partial {n : ℕ} {Mr : ℕ → ℝ} (hn : 0 < n) (hM : ∀ i, i < n → Mr i ≠ 0) {depth parts : ℕ} (hp : 0 < parts) {T : ℝ}
    {q v : ℝ → ℕ → Fin 3 → ℝ} (hq : Motion 1e-8 n Mr T q v) (hoff : OffCutoff n T q) :
    EndsNear true n Mr (C18.bt ℝ rk4Tab) depth parts 4 0 T q v ∧ EndsNear true n Mr (C18.bt ℝ rkckTab) depth parts 4 0 T q v ∧
    EndsNear true n Mr (C18.bt ℝ rkdpTab) depth parts 4 0 T q v ∧ EndsNear true n Mr (C18.bt ℝ rkdverkTab) depth parts 5 0 T q v ∧
    EndsNear true n Mr (C18.bt ℝ rkfTab) depth parts 8 0 T q v ∧
    EndsNear true n Mr (C18.bt ℝ feagin10Tab) depth parts 10 (1 / 10 ^ 56) T q v ∧
    EndsNear true n Mr (C18.bt ℝ feagin12Tab) depth parts 12 (1 / 10 ^ 56) T q v ∧
    EndsNear true n Mr (C18.bt ℝ feagin14Tab) depth parts 14 (1 / 10 ^ 56) T q v := by
  obtain ⟨h1, h2, h3, h4, h5, h6, h7, h8⟩ := C85.explicit_tables_covered depth parts hp
  exact ⟨table_near hn hM h1 hq hoff, table_near hn hM h2 hq hoff, table_near hn hM h3 hq hoff, table_near hn hM h4 hq hoff,
    table_near hn hM h5 hq hoff, table_near hn hM h6 hq hoff, table_near hn hM h7 hq hoff, table_near hn hM h8 hq hoff⟩

/-- The orbit of two equal masses, Dormand-Prince with correction, in binary arithmetic with `p` bits: as many steps as `2 ^ p`. -/
example : ∃ (C : ℝ) (p₀ N₀ : ℕ), ∀ p, p₀ ≤ p → ∀ (dts : List (Spec.Bin p)) (N : ℕ), N₀ ≤ N → N ≤ 2 ^ p → dts.length ≤ N →
    (∀ d ∈ dts, 2 * Real.pi / (2 * N) ≤ d.val ∧ d.val ≤ 2 * Real.pi / N) →
    ∀ V : Buffers (Spec.Bin p), V 0 = (fun _ => ⟨4⟩) → Near 2 (fun j => (V 1 j).val) (C78.orbitPos 0) (C78.orbitVel 0) 0 →
      ∃ fl V' m', runSteps (simpleOps (fcompute seqFor 2 0) seqFor 2)
          (tableStep C74.layout (C85.roundTable p (C18.bt ℝ rkdpTab)) ⟨2, 4, ⟨1⟩, 0, true, ⟨0⟩⟩)
          dts (false, fun h => some (buf (if h = 0 then 2 else 12) (V h))) = .ok (fl, m') ∧
        HostHolds 2 0 (fun h => h ≠ 0) (fun _ => ⟨4⟩) V' m' ∧
        Near 2 (fun j => (V' 1 j).val) (C78.orbitPos (dts.map Spec.Bin.val).sum) (C78.orbitVel (dts.map Spec.Bin.val).sum)
          (C * (0 + (1 / N) ^ 4 + 0 + 2⁻¹ ^ p)) := by
  have h1 : ∀ s, 1 ≤ C74.layout s := fun s => by
    cases s <;> simp only [C74.layout] <;> (try split_ifs) <;> omega
  have hord := (C82.explicit_tables ⟨2, 4, 0, 0, false, 0⟩ (by decide)).2.2.1
  obtain ⟨C, u₀, N₀, hC, hu, key⟩ := corrected_many_steps_partial (n := 2) (Mr := fun _ => 4) (by decide) (fun _ _ => by norm_num)
    (depth := 2) (parts := 4) rfl (hord.explicit rfl).1 (by decide) hord.positive le_rfl hord.order (T := 2 * Real.pi) (by positivity) (C78.orbit _)
    (C82.orbit_off _)
  obtain ⟨p₀, hp₀⟩ := C85.bits_small hu
  refine ⟨C, p₀, N₀, fun p hp dts N hN hNp hlen hdts V hV hnear => ?_⟩
  refine key (Spec.Bin p) Spec.Bin.val (2⁻¹ ^ p) (Spec.Bin.floatOps p) (by positivity) (hp₀ p hp) (fun _ => ⟨4⟩) (fun _ _ => rfl)
    C74.layout (fun h => h ≠ 0) _ _ C74.layout_injective (C85.roundTable_of p _) rfl rfl rfl (fun s _ => Nat.pos_iff_ne_zero.1 (h1 s)) _ _ (.simple 0)
    dts N 0 hN ?_ hlen le_rfl hdts V _ ⟨fun h hh => congrArg (fun k => some (buf k (V h))) (if_neg hh), by simp [hV], fun h hh => hh⟩ hnear
  have : (N : ℝ) ≤ 2 ^ p := by exact_mod_cast hNp
  calc (N : ℝ) * 2⁻¹ ^ p ≤ 2 ^ p * 2⁻¹ ^ p := by gcongr
    _ = 1 := by rw [← mul_pow]; norm_num

end NB.C87
