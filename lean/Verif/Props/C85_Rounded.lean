import Verif.Lemmas.RoundEngines
import Verif.Props.C82_Order

/-
C85: convergence in rounded arithmetic.  The solvers run on the engines with scalars of any rounded arithmetic
(Spec/FloatModel.lean, Spec/Outcome.lean); the reference is the motion of the bodies in real numbers.
-/

namespace NB.C85

open Finset
open _root_.Spec (Buffers Motion Near Outcome Performs Allowed)
open C82 (OffCutoff)

/-- The explicit one-step solvers. -/
inductive Kind where
  | euler
  | midpoint
  | rk4
  | trapeze (refine : ℕ)
  /-- driven by a table, with so many levels of subdivision into so many parts -/
  | table (bt : BT ℝ) (depth parts : ℕ)

/-- Their orders `p`; `η` is a bound of the errors in the order conditions of a table. -/
inductive Kind.Order : Kind → ℕ → ℝ → Prop
  | euler : Kind.Order .euler 1 0
  | midpoint : Kind.Order .midpoint 2 0
  | rk4 : Kind.Order .rk4 4 0
  | trapeze (refine : ℕ) : Kind.Order (.trapeze refine) 2 0
  | table {bt : BT ℝ} {depth parts p : ℕ} {η : ℝ} (hi : bt.implicit = false) (hlow : Lower bt.steps bt.a) (hrows : C16.RowsNonzero bt)
      (hparts : 0 < parts) (hp : 1 ≤ p) (hη : 0 ≤ η) (ho : Spec.HasOrderWithin η bt.steps bt.a bt.b2 p) :
      Kind.Order (.table bt depth parts) p η

section
variable {S : Type} [Add S] [Sub S] [Mul S] [Neg S] [Div S] [Zero S] [One S] [FOps S]

/-- Their programs with scalars `S`, without correction, when they have just been made.  The coefficients of the table are correct up to
one rounding; the error threshold and the smallest step are arbitrary. -/
inductive Program (val : S → ℝ) (u : ℝ) (h : Slot → Handle) (H : ℕ → Prop) : Kind → (φ : Type) → (φ → S → Act S φ) → φ → Prop
  | euler (hH : ∀ s, Spec.basicSlots 1 false s → H (h s)) : Program val u h H .euler Unit (fun _ dt => eulerCalls h dt) ()
  | midpoint (hH : ∀ s, Spec.basicSlots 2 true s → H (h s)) : Program val u h H .midpoint Unit (fun _ dt => midpointCalls h dt) ()
  | rk4 (hH : ∀ s, Spec.basicSlots 4 true s → H (h s)) : Program val u h H .rk4 Unit (fun _ dt => rk4Calls h dt) ()
  | trapeze (refine : ℕ) (hH : ∀ s, Spec.basicSlots 2 true s → H (h s)) :
      Program val u h H (.trapeze refine) Unit (fun _ dt => trapezeCalls h refine dt) ()
  | table {bt : BT ℝ} (btS : BT S) (cf : RKConf S) (ht : TableOf val u bt btS) (hc : cf.correction = false)
      (hH : ∀ s, Spec.rkSlots btS cf s → H (h s)) :
      Program val u h H (.table bt cf.maxRecursion cf.subdivisions) Bool
        (fun allocated dt => do rkCalls h btS cf dt allocated; pure true) false

/-- Steps made one after another on an engine. -/
def runSteps {φ σ : Type} (E : EngineOps S σ) (step : φ → S → Act S φ) (dts : List S) (x : φ × σ) : Res (φ × σ) :=
  dts.foldlM (fun x dt => (step x.1 dt).run E x.2) x

omit [Div S] [One S] in
lemma makes_pure {val : S → ℝ} {u : ℝ} {s : ℕ} {a : ℕ → ℕ → ℝ} {b : ℕ → ℝ} {D K y : ℕ} {dt : S} {α β : Type} {p : Act S α} {c : β}
    (h : Makes val u s a b D K y dt p) : Makes val u s a b D K y dt (p >>= fun _ => pure c) := by
  intro n N f θ deriv hD V r hr hdt
  rw [_root_.Spec.outcome_bind] at hr
  obtain ⟨q, h1, h2⟩ := hr
  rw [_root_.Spec.outcome_pure] at h2
  rw [h2]
  exact h n N f θ deriv hD V q h1 hdt

end

mutual
lemma phi_congr {s : ℕ} {a a' : ℕ → ℕ → ℝ} (h : ∀ i, i < s → ∀ j, j < s → a i j = a' i j) :
    ∀ (t : Spec.RTree) (i : ℕ), i < s → t.phi s a i = t.phi s a' i
  | .node ts, i, hi => by
    rw [Spec.RTree.phi, Spec.RTree.phi]
    exact phis_congr h ts i hi
lemma phis_congr {s : ℕ} {a a' : ℕ → ℕ → ℝ} (h : ∀ i, i < s → ∀ j, j < s → a i j = a' i j) :
    ∀ (ts : List Spec.RTree) (i : ℕ), i < s → Spec.RTree.phis s a ts i = Spec.RTree.phis s a' ts i
  | [], _, _ => by rw [Spec.RTree.phis, Spec.RTree.phis]
  | t :: ts, i, hi => by
    rw [Spec.RTree.phis, Spec.RTree.phis, phis_congr h ts i hi]
    congr 1
    refine sum_congr rfl fun j hj => ?_
    rw [h i hi j (mem_range.1 hj), phi_congr h t j (mem_range.1 hj)]
end

lemma orderCond_congr {s : ℕ} {a a' : ℕ → ℕ → ℝ} {b b' : ℕ → ℝ} (h : ∀ i, i < s → ∀ j, j < s → a i j = a' i j)
    (hb : ∀ i, i < s → b i = b' i) {t : Spec.RTree} (ht : Spec.OrderCond s a b t) : Spec.OrderCond s a' b' t := by
  unfold Spec.OrderCond at ht ⊢
  rw [← ht]
  refine sum_congr rfl fun i hi => ?_
  rw [hb i (mem_range.1 hi), phi_congr h t i (mem_range.1 hi)]

lemma solves_state_bounded {E : Type} [NormedAddCommGroup E] [NormedSpace ℝ E] {f : E → E} {T : ℝ} {x : ℝ → E} (hx : Solves f T x) :
    ∃ X, 0 ≤ X ∧ ∀ t ∈ Set.Icc (0 : ℝ) T, ‖x t‖ ≤ X := by
  obtain ⟨B, hB⟩ := isCompact_Icc.exists_bound_of_continuousOn (s := Set.Icc (0 : ℝ) T) (f := x) fun t ht => (hx t ht).continuousWithinAt
  exact ⟨max B 0, le_max_right _ _, fun t ht => (hB t ht).trans (le_max_left _ _)⟩

/-- Every kind is a scheme that satisfies the order conditions, and its programs make rounded steps of the scheme. -/
lemma kind_scheme {k : Kind} {p : ℕ} {η : ℝ} (hk : k.Order p η) : ∃ (s : ℕ) (a : ℕ → ℕ → ℝ) (b : ℕ → ℝ) (D K : ℕ), 1 ≤ p ∧ 0 ≤ η ∧ 0 < D ∧
    Spec.HasOrderWithin η s a b p ∧ Lower s a ∧
    ∀ (S : Type) [Add S] [Sub S] [Mul S] [Neg S] [Div S] [Zero S] [One S] [FOps S] (val : S → ℝ) (u : ℝ),
      Spec.FloatOps val u → 0 ≤ u → u < 1 → ∀ (h : Slot → Handle) (H : ℕ → Prop) (φ : Type) (step : φ → S → Act S φ) (fl₀ : φ),
      Function.Injective h → Program val u h H k φ step fl₀ →
      ∀ fl dt, Makes val u s a b D K (h .y) dt (step fl dt) ∧ Allowed H (step fl dt) := by
  cases hk with
  | euler =>
    refine ⟨1, fun _ _ => 0, fun _ => 1, 1, 2, le_rfl, le_rfl, one_pos, C82.exactly (has_order_one (by simp)), fun _ _ _ _ _ => rfl, ?_⟩
    intro S _ _ _ _ _ _ _ _ val u F h0 hu h H φ step fl₀ hh hp fl dt
    cases hp with
    | euler hH => exact ⟨euler_makes F h0 hu hh dt, Spec.euler_allowed hh hH dt⟩
  | midpoint =>
    refine ⟨2, midA, midB, 1, 4, by norm_num, le_rfl, one_pos, C82.exactly (has_order_two (by simp [midB, sum_range_succ])
      (by simp [midA, midB, sum_range_succ])), fun i hi j hij hj => if_neg (by omega), ?_⟩
    intro S _ _ _ _ _ _ _ _ val u F h0 hu h H φ step fl₀ hh hp fl dt
    cases hp with
    | midpoint hH => exact ⟨midpoint_makes F h0 hu hh dt, Spec.midpoint_allowed hh hH dt⟩
  | rk4 =>
    refine ⟨4, C16.classicA, C16.classicB, 1, 7, by norm_num, le_rfl, one_pos, C82.exactly ?_, fun i hi j hij hj => ?_, ?_⟩
    · intro t ht
      have := C18.rk4_order ℝ t ht
      have e1 : ∀ i, i < 4 → ∀ j, j < 4 → (C18.bt ℝ rk4Tab).a i j = C16.classicA i j := by
        intro i hi j hj
        interval_cases i <;> interval_cases j <;> simp [Tab.toBT, Tab.map, rk4Tab, C16.classicA]
      have e2 : ∀ i, i < 4 → (C18.bt ℝ rk4Tab).b2 i = C16.classicB i := by
        intro i hi
        interval_cases i <;> simp [Tab.toBT, Tab.map, rk4Tab, C16.classicB]
      exact orderCond_congr e1 e2 this
    · interval_cases i <;> interval_cases j <;> simp [C16.classicA]
    intro S _ _ _ _ _ _ _ _ val u F h0 hu h H φ step fl₀ hh hp fl dt
    cases hp with
    | rk4 hH => exact ⟨rk4_makes F h0 hu hh dt, Spec.rk4_allowed hh hH dt⟩
  | trapeze m =>
    refine ⟨m + 2, C65.trapA, C65.trapB m, 1, 5, by norm_num, le_rfl, one_pos, C82.exactly (C65.trapeze_order m), fun i hi j hij hj => ?_, ?_⟩
    · unfold C65.trapA
      by_cases h0 : i = 0
      · rw [if_pos h0]
      · rw [if_neg h0]
        by_cases h1 : i = 1
        · rw [if_pos h1, if_neg (by omega)]
        · rw [if_neg h1, if_neg (by omega)]
    intro S _ _ _ _ _ _ _ _ val u F h0 hu h H φ step fl₀ hh hp fl dt
    cases hp with
    | trapeze _ hH => exact ⟨trapeze_makes F h0 hu hh m dt, Spec.trapeze_allowed hh hH m dt⟩
  | @table bt depth parts p η hi hlow hrows hparts hp1 hη ho =>
    refine ⟨bt.steps, bt.a, bt.b2, parts ^ depth, 2 * depth + 3 + bt.steps, hp1, hη, Nat.pow_pos hparts, ho, hlow, ?_⟩
    intro S _ _ _ _ _ _ _ _ val u F h0 hu h H φ step fl₀ hh hp fl dt
    cases hp with
    | table btS cf ht hc hH =>
      exact ⟨makes_pure (table_makes F h0 hu hh ht hi hc hrows hparts dt fl),
        Allowed.bind (Spec.rk_allowed hh hH dt fl) fun _ => Allowed.pure _⟩

lemma walk_and {V : Type} {P : ℝ → V → V → Prop} {c : ℝ} : ∀ {a : List ℝ} {y y' : V}, Walk P a y y' → (∀ h ∈ a, c ≤ h) →
    Walk (fun h y y' => c ≤ h ∧ P h y y') a y y' := by
  intro a
  induction a with
  | nil => intro y y' h _; exact h
  | cons d a ih =>
    rintro y y' ⟨z, h1, h2⟩ hc
    exact ⟨z, ⟨hc d (by simp), h1⟩, ih h2 fun h hh => hc h (by simp [hh])⟩

section
variable {S : Type} [Add S] [Sub S] [Mul S] [Neg S] [Div S] [Zero S] [One S] [FOps S] {val : S → ℝ} {u : ℝ}

omit [Div S] [One S] in
/-- A run on an engine is a walk of rounded steps. -/
lemma run_walk {s : ℕ} {a : ℕ → ℕ → ℝ} {b : ℕ → ℝ} {D K n N : ℕ} (hD : 0 < D) {h : Slot → Handle} {H : ℕ → Prop} {φ : Type}
    {step : φ → S → Act S φ} (hstep : ∀ fl dt, Makes val u s a b D K (h .y) dt (step fl dt) ∧ Allowed H (step fl dt))
    {f : (Fin N → ℝ) → Fin N → ℝ} {θ : ℝ} {deriv : (ℕ → S) → ℕ → S} (hd : ∀ Y, ‖vec N val (deriv Y) - f (vec N val Y)‖ ≤ θ)
    {σ : Type} {E : EngineOps S σ} {Rep : Buffers S → σ → Prop} (hE : Performs E n H deriv Rep) {dmin δ : ℝ} (hd0 : 0 < dmin) :
    ∀ (dts : List S), (∀ d ∈ dts, dmin ≤ val d ∧ val d ≤ δ) → ∀ (fl : φ) (V : Buffers S) (m : σ), Rep V m →
      ∃ fl' V' m' hs, runSteps E step dts (fl, m) = .ok (fl', m') ∧ Rep V' m' ∧ hs.sum = (dts.map val).sum ∧
        (∀ d ∈ hs, dmin / D ≤ d ∧ d ≤ δ) ∧
        Walk (RoundedStep f (kappa u K) θ s a b) hs (vec N val (V (h .y))) (vec N val (V' (h .y))) := by
  intro dts
  induction dts with
  | nil => intro _ fl V m hm; exact ⟨fl, V, m, [], rfl, hm, rfl, by simp, rfl⟩
  | cons d dts ih =>
    intro hdt fl V m hm
    obtain ⟨l1, l2⟩ := hdt d (by simp)
    obtain ⟨hmk, hal⟩ := hstep fl d
    obtain ⟨r, m1, h1, h2, h3⟩ := _root_.Spec.run_outcome hE hal hm
    obtain ⟨hs, g1, g2, g3⟩ := hmk n N f θ deriv hd V r h1 (hd0.trans_le l1)
    obtain ⟨fl', V', m', hs', k1, k2, k3, k4, k5⟩ := ih (fun x hx => hdt x (by simp [hx])) r.1 r.2 m1 h3
    refine ⟨fl', V', m', hs ++ hs', ?_, k2, ?_, fun x hx => ?_, g3.append k5⟩
    · unfold runSteps at k1 ⊢
      rw [List.foldlM_cons]
      show ((step fl d).run E m >>= _) = _
      rw [h2, res_ok_bind]
      exact k1
    · rw [List.sum_append, g1, k3]; simp
    · rcases List.mem_append.1 hx with hx | hx
      · obtain ⟨q1, q2⟩ := g2 x hx
        refine ⟨le_trans ?_ q1, q2.trans l2⟩
        gcongr
      · exact k4 x hx

end

/-- The arithmetic of the bound. -/
lemma final_bound {u dmin κ K D Θ w η ε g e e' c c' : ℝ} (h0 : 0 ≤ u) (hd0 : 0 < dmin) (hd1 : dmin ≤ 1) (hκ : κ ≤ 2 * K * u) (hDr : 1 ≤ D)
    (hΘ0 : 0 ≤ Θ) (hw0 : 0 ≤ w) (hη : 0 ≤ η) (hε : 0 ≤ ε) (hg : g = w + η + Θ * u + κ / (dmin / D)) (hg0 : 0 ≤ g) (hKD : 0 ≤ 2 * K * D)
    (hnear : e ≤ ε) (hw : e' + g ≤ (e + g) * Real.exp c) (hc : c ≤ c') :
    e' ≤ Real.exp c' * (1 + Θ + 2 * K * D) * (ε + w + η + u / dmin) := by
  have hud : 0 ≤ u / dmin := by positivity
  have hgle : g ≤ w + η + (Θ + 2 * K * D) * (u / dmin) := by
    have e1 : u ≤ u / dmin := by
      rw [le_div_iff₀ hd0]
      nlinarith
    have e2 : κ / (dmin / D) ≤ 2 * K * D * (u / dmin) := by
      rw [div_div_eq_mul_div, mul_div_assoc']
      refine div_le_div_of_nonneg_right ?_ hd0.le
      have := mul_le_mul_of_nonneg_right hκ (by linarith : (0 : ℝ) ≤ D)
      linarith
    have e3 : Θ * u ≤ Θ * (u / dmin) := mul_le_mul_of_nonneg_left e1 hΘ0
    rw [hg]
    linarith
  calc e' ≤ (e + g) * Real.exp c := by linarith
    _ ≤ (ε + (w + η + (Θ + 2 * K * D) * (u / dmin))) * Real.exp c' :=
        mul_le_mul (add_le_add hnear hgle) (Real.exp_le_exp.2 hc) (Real.exp_pos _).le (by positivity)
    _ ≤ _ := by
        rw [mul_comm (ε + _), mul_assoc (Real.exp _)]
        refine mul_le_mul_of_nonneg_left ?_ (Real.exp_pos _).le
        have : 0 ≤ (Θ + 2 * K * D) * (ε + w + η) := by positivity
        nlinarith

/-- **Convergence in rounded arithmetic.**  For a motion of the bodies and a solver of order `p` there are constants such that the
program, run in any arithmetic of unit roundoff `u` on any engine with steps between `dmin` and `δ` (the sizes of the steps in the program being
scalars as well), ends without error and within `C (ε + δ ^ p + η + u / dmin)` of where the motion has the bodies at that time.  The
constants depend neither on the arithmetic nor on the engine.  Not covered (hence partial): overflow, underflow and NaN, which the
arithmetic model does not have; Bulirsch-Stoer, the implicit tables and correction.  For Stetter and Adams-Bashforth see C85_RoundedMulti.lean. -/
theorem rounded_convergence_partial {n : ℕ} {Mr : ℕ → ℝ} (hn : 0 < n) (hM : ∀ i, i < n → Mr i ≠ 0) {k : Kind} {p : ℕ} {η : ℝ}
    (hk : k.Order p η) {T : ℝ} {q v : ℝ → ℕ → Fin 3 → ℝ} (hq : Motion 1e-8 n Mr T q v) (hoff : OffCutoff n T q) :
    ∃ C δ₀ u₀ : ℝ, 0 ≤ C ∧ 0 < δ₀ ∧ 0 < u₀ ∧
      ∀ (S : Type) [Add S] [Sub S] [Mul S] [Neg S] [Div S] [Zero S] [One S] [FOps S] (val : S → ℝ) (u : ℝ),
      Spec.FloatOps val u → 0 ≤ u → ∀ M : ℕ → S, (∀ i, i < n → val (M i) = Mr i) →
      ∀ (h : Slot → Handle) (H : ℕ → Prop) (φ : Type) (step : φ → S → Act S φ) (fl₀ : φ),
      Function.Injective h → Program val u h H k φ step fl₀ →
      ∀ (E : EngineOps S (Mem S)) (Rep : Buffers S → Mem S → Prop), DirectEngine n M H E Rep →
      ∀ (dts : List S) (dmin δ ε : ℝ), 0 < dmin → dmin ≤ δ → δ ≤ δ₀ → u ≤ u₀ * dmin → (∀ d ∈ dts, dmin ≤ val d ∧ val d ≤ δ) →
      (dts.map val).sum ≤ T →
      ∀ (V : Buffers S) (m : Mem S), Rep V m → Near n (fun j => val (V (h .y) j)) (q 0) (v 0) ε →
      ∃ fl V' m', runSteps E step dts (fl₀, m) = .ok (fl, m') ∧ Rep V' m' ∧
        Near n (fun j => val (V' (h .y) j)) (q (dts.map val).sum) (v (dts.map val).sum) (C * (ε + δ ^ p + η + u / dmin)) := by
  obtain ⟨s, a, b, D, K, hp, hη, hD, ho, hlow, hprog⟩ := kind_scheme hk
  have hsol := motion_solves hq
  have hL := gravityLip_nonneg n Mr
  have hf := gravity_lip n Mr
  obtain ⟨Ks, C₀, δ₀, hA⟩ := accurate_of_order hsol (motion_smooth hq hoff) s a b hp hη ho
  obtain ⟨X, -, hX⟩ := solves_state_bounded hsol
  obtain ⟨C', hC', hfol⟩ := rounded_follows hL hf hη hA hlow hX
  have htot := totalAbs_nonneg n Mr
  have hDr : (1 : ℝ) ≤ D := by exact_mod_cast hD
  obtain ⟨Θ, hΘ⟩ : ∃ Θ : ℝ, Θ = 2 * (n + 16) * (totalAbs n Mr * 1e8) := ⟨_, rfl⟩
  have hΘ0 : 0 ≤ Θ := by rw [hΘ]; positivity
  obtain ⟨B, hB⟩ : ∃ B : ℝ, B = 2 * K * D + 2 * (n + 16) + Θ + 2 := ⟨_, rfl⟩
  have hB0 : 0 < B := by rw [hB]; positivity
  refine ⟨Real.exp (C' * T) * (1 + Θ + 2 * K * D), min δ₀ 1, 1 / B, by positivity, lt_min hA.pos one_pos, by positivity, ?_⟩
  intro S _ _ _ _ _ _ _ _ val u F h0 M hMv h H φ step fl₀ hh hpr E Rep hE dts dmin δ ε hd0 hdδ hδ hu hd hsum V m hm hnear
  have hδ1 : δ ≤ 1 := hδ.trans (min_le_right _ _)
  have hδ0 : δ ≤ δ₀ := hδ.trans (min_le_left _ _)
  have hBu : B * u ≤ dmin := by
    rw [one_div, inv_mul_eq_div, le_div_iff₀ hB0] at hu
    linarith
  have hKD : 0 ≤ 2 * (K : ℝ) * D := by positivity
  have hKDu : 2 * K * D * u ≤ dmin := by
    refine le_trans (mul_le_mul_of_nonneg_right ?_ h0) hBu
    rw [hB]; nlinarith [show (0 : ℝ) ≤ n from Nat.cast_nonneg n]
  have hnu : 2 * ((n : ℝ) + 16) * u ≤ dmin := by
    refine le_trans (mul_le_mul_of_nonneg_right ?_ h0) hBu
    rw [hB]; linarith
  have hΘu : Θ * u ≤ dmin := by
    refine le_trans (mul_le_mul_of_nonneg_right ?_ h0) hBu
    rw [hB]; nlinarith [show (0 : ℝ) ≤ n from Nat.cast_nonneg n]
  have hu1 : u < 1 := by
    have : 2 * u ≤ dmin := by
      refine le_trans (mul_le_mul_of_nonneg_right ?_ h0) hBu
      rw [hB]; nlinarith [show (0 : ℝ) ≤ n from Nat.cast_nonneg n]
    linarith
  have hKu : (K : ℝ) * u ≤ 1 / 2 := by
    have : 2 * (K : ℝ) * u ≤ 2 * K * D * u := by
      have : 0 ≤ (K : ℝ) * u := by positivity
      nlinarith
    linarith
  obtain ⟨deriv, K', hK', hperf, hacc⟩ := engine_performs F h0 hn (by push_cast; linarith) (fun i hi => by rw [hMv i hi]; exact hM i hi) hE
  have hder : ∀ Y, ‖vec (6 * n) val (deriv Y) - gravity n Mr (vec (6 * n) val Y)‖ ≤ Θ * u := fun Y =>
    (accurate_norm h0 hK' (by push_cast; linarith) hMv (hacc Y)).trans_eq (by rw [hΘ]; ring)
  obtain ⟨fl', V', m', hs, r1, r2, r3, r4, r5⟩ := run_walk hD (hprog S val u F h0 hu1 h H φ step fl₀ hh hpr) hder hperf hd0 dts hd
    fl₀ V m hm
  refine ⟨fl', V', m', r1, r2, ?_⟩
  rw [C78.near_iff hn] at hnear ⊢
  have hκ0 := kappa_nonneg h0 hu1 K
  have hκ := kappa_le h0 hKu hu1
  have hdD : 0 < dmin / D := by positivity
  have hκd : kappa u K ≤ dmin / D := by
    rw [le_div_iff₀ (by linarith)]
    have := mul_le_mul_of_nonneg_right hκ (by linarith : (0 : ℝ) ≤ D)
    linarith
  obtain ⟨g, hg⟩ : ∃ g, g = δ ^ p + η + Θ * u + kappa u K / (dmin / D) := ⟨_, rfl⟩
  have hδp : 0 ≤ δ ^ p := pow_nonneg (hd0.le.trans hdδ) p
  have hg0 : 0 ≤ g := by rw [hg]; positivity
  have hw := (walk_follows hC' hg0 (by
      rw [hg]
      exact hfol (kappa u K) (Θ * u) (dmin / D) hκ0 (by linarith) (by positivity) (by linarith) hdD hκd δ hδ0) hs
    (fun x hx => ⟨hdD.trans_le (r4 x hx).1, (r4 x hx).2⟩) 0 _ _ le_rfl (by rw [r3, zero_add]; exact hsum)
    (walk_and r5 fun x hx => (r4 x hx).1)).1
  rw [zero_add, r3] at hw
  show ‖vec (6 * n) val (V' (h .y)) - stateOf n q v (dts.map val).sum‖ ≤ _
  have hnear' : ‖vec (6 * n) val (V (h .y)) - stateOf n q v 0‖ ≤ ε := hnear
  have hε : 0 ≤ ε := (norm_nonneg _).trans hnear'
  exact final_bound h0 hd0 (hdδ.trans hδ1) hκ hDr hΘ0 hδp hη hε hg hg0 hKD hnear' hw (mul_le_mul_of_nonneg_left hsum hC')

/-- **Many equal steps.**  `N` steps, each a scalar between `T / (2 N)` and `T / N`: the error is of the order of `1 / N ^ p` from the
scheme and `N u` from rounding, as long as `N u` is small. -/
theorem rounded_equal_steps_partial {n : ℕ} {Mr : ℕ → ℝ} (hn : 0 < n) (hM : ∀ i, i < n → Mr i ≠ 0) {k : Kind} {p : ℕ} {η : ℝ}
    (hk : k.Order p η) {T : ℝ} (hT : 0 < T) {q v : ℝ → ℕ → Fin 3 → ℝ} (hq : Motion 1e-8 n Mr T q v) (hoff : OffCutoff n T q) :
    ∃ (C u₀ : ℝ) (N₀ : ℕ), 0 ≤ C ∧ 0 < u₀ ∧
      ∀ (S : Type) [Add S] [Sub S] [Mul S] [Neg S] [Div S] [Zero S] [One S] [FOps S] (val : S → ℝ) (u : ℝ),
      Spec.FloatOps val u → 0 ≤ u → ∀ M : ℕ → S, (∀ i, i < n → val (M i) = Mr i) →
      ∀ (h : Slot → Handle) (H : ℕ → Prop) (φ : Type) (step : φ → S → Act S φ) (fl₀ : φ),
      Function.Injective h → Program val u h H k φ step fl₀ →
      ∀ (E : EngineOps S (Mem S)) (Rep : Buffers S → Mem S → Prop), DirectEngine n M H E Rep →
      ∀ (N : ℕ) (d : S) (ε : ℝ), N₀ ≤ N → N * u ≤ u₀ → T / (2 * N) ≤ val d → val d ≤ T / N →
      ∀ (V : Buffers S) (m : Mem S), Rep V m → Near n (fun j => val (V (h .y) j)) (q 0) (v 0) ε →
      ∃ fl V' m', runSteps E step (List.replicate N d) (fl₀, m) = .ok (fl, m') ∧ Rep V' m' ∧
        Near n (fun j => val (V' (h .y) j)) (q (N * val d)) (v (N * val d)) (C * (ε + 1 / N ^ p + η + N * u)) := by
  obtain ⟨C, δ₀, u₀, hC, hδ₀, hu₀, key⟩ := rounded_convergence_partial hn hM hk hq hoff
  obtain ⟨N₀, hN₀⟩ := exists_nat_gt (T / δ₀)
  have hη : 0 ≤ η := by obtain ⟨_, _, _, _, _, _, h, _⟩ := kind_scheme hk; exact h
  refine ⟨C * (1 + T ^ p + 2 / T), u₀ * T / 2, max N₀ 1, by positivity, by positivity, ?_⟩
  intro S _ _ _ _ _ _ _ _ val u F h0 M hMv h H φ step fl₀ hh hpr E Rep hE N d ε hN hNu hd1 hd2 V m hm hnear
  have hN1 : (1 : ℝ) ≤ N := by exact_mod_cast (le_max_right _ _).trans hN
  have hN0 : (0 : ℝ) < N := by linarith
  have hNN : T / δ₀ < N := hN₀.trans_le (by exact_mod_cast (le_max_left _ _).trans hN)
  have hsum : ((List.replicate N d).map val).sum = N * val d := by simp
  obtain ⟨fl, V', m', r1, r2, r3⟩ := key S val u F h0 M hMv h H φ step fl₀ hh hpr E Rep hE (List.replicate N d) (T / (2 * N)) (T / N) ε
    (by positivity) (hd1.trans hd2) (by rw [div_le_iff₀ hN0]; rw [div_lt_iff₀ hδ₀] at hNN; linarith)
    (by rw [← mul_div_assoc, le_div_iff₀ (by positivity)]; linarith)
    (fun x hx => by rw [List.eq_of_mem_replicate hx]; exact ⟨hd1, hd2⟩)
    (by rw [hsum]; rw [le_div_iff₀ hN0] at hd2; linarith) V m hm hnear
  rw [hsum] at r3
  refine ⟨fl, V', m', r1, r2, ?_⟩
  rw [C78.near_iff hn] at r3 ⊢
  have hε : 0 ≤ ε := by rw [C78.near_iff hn] at hnear; exact (norm_nonneg _).trans hnear
  refine r3.trans ?_
  rw [mul_assoc]
  refine mul_le_mul_of_nonneg_left ?_ hC
  have e1 : (T / N) ^ p = T ^ p * (1 / N ^ p) := by rw [div_pow]; ring
  have e2 : u / (T / (2 * N)) = 2 / T * (N * u) := by field_simp
  rw [e1, e2]
  obtain ⟨w, hw⟩ : ∃ w : ℝ, w = 1 / N ^ p := ⟨_, rfl⟩
  have hw0 : 0 ≤ w := by rw [hw]; positivity
  obtain ⟨z, hz⟩ : ∃ z : ℝ, z = N * u := ⟨_, rfl⟩
  have hz0 : 0 ≤ z := by rw [hz]; positivity
  have hT2 : 0 ≤ 2 / T := by positivity
  have hTp : 0 ≤ T ^ p := by positivity
  rw [← hw, ← hz]
  have := mul_nonneg hTp (by linarith : 0 ≤ ε + η + z)
  have := mul_nonneg hT2 (by linarith : 0 ≤ ε + w + η)
  nlinarith

/-- **As near as one likes.**  With steps short enough, and then an arithmetic precise enough and a start near enough, the run ends as near to the
bodies as one likes. -/
theorem rounded_attains_partial {n : ℕ} {Mr : ℕ → ℝ} (hn : 0 < n) (hM : ∀ i, i < n → Mr i ≠ 0) {k : Kind} {p : ℕ}
    (hk : k.Order p 0) {T : ℝ} {q v : ℝ → ℕ → Fin 3 → ℝ} (hq : Motion 1e-8 n Mr T q v) (hoff : OffCutoff n T q)
    {tol : ℝ} (htol : 0 < tol) :
    ∃ δ : ℝ, 0 < δ ∧ ∀ dmin, 0 < dmin → dmin ≤ δ → ∃ u₁ : ℝ, 0 < u₁ ∧
      ∀ (S : Type) [Add S] [Sub S] [Mul S] [Neg S] [Div S] [Zero S] [One S] [FOps S] (val : S → ℝ) (u : ℝ),
      Spec.FloatOps val u → 0 ≤ u → u ≤ u₁ → ∀ M : ℕ → S, (∀ i, i < n → val (M i) = Mr i) →
      ∀ (h : Slot → Handle) (H : ℕ → Prop) (φ : Type) (step : φ → S → Act S φ) (fl₀ : φ),
      Function.Injective h → Program val u h H k φ step fl₀ →
      ∀ (E : EngineOps S (Mem S)) (Rep : Buffers S → Mem S → Prop), DirectEngine n M H E Rep →
      ∀ (dts : List S), (∀ d ∈ dts, dmin ≤ val d ∧ val d ≤ δ) → (dts.map val).sum ≤ T →
      ∀ (V : Buffers S) (m : Mem S), Rep V m → Near n (fun j => val (V (h .y) j)) (q 0) (v 0) u₁ →
      ∃ fl V' m', runSteps E step dts (fl₀, m) = .ok (fl, m') ∧ Rep V' m' ∧
        Near n (fun j => val (V' (h .y) j)) (q (dts.map val).sum) (v (dts.map val).sum) tol := by
  obtain ⟨C, δ₀, u₀, hC, hδ₀, hu₀, key⟩ := rounded_convergence_partial hn hM hk hq hoff
  have hp : 1 ≤ p := by obtain ⟨_, _, _, _, _, h, _⟩ := kind_scheme hk; exact h
  obtain ⟨w, hw⟩ : ∃ w : ℝ, w = tol / (3 * (C + 1)) := ⟨_, rfl⟩
  have hw0 : 0 < w := by rw [hw]; positivity
  refine ⟨min δ₀ (min 1 w), lt_min hδ₀ (lt_min one_pos hw0), fun dmin hd0 hd => ⟨min (u₀ * dmin) (min w (w * dmin)),
    lt_min (by positivity) (lt_min hw0 (by positivity)), ?_⟩⟩
  intro S _ _ _ _ _ _ _ _ val u F h0 hu M hMv h H φ step fl₀ hh hpr E Rep hE dts hdts hsum V m hm hnear
  obtain ⟨fl, V', m', r1, r2, r3⟩ := key S val u F h0 M hMv h H φ step fl₀ hh hpr E Rep hE dts dmin _ _ hd0 hd (min_le_left _ _)
    (hu.trans (min_le_left _ _)) hdts hsum V m hm hnear
  refine ⟨fl, V', m', r1, r2, ?_⟩
  rw [C78.near_iff hn] at r3 ⊢
  refine r3.trans ?_
  obtain ⟨δ, hδ⟩ : ∃ δ, δ = min δ₀ (min 1 w) := ⟨_, rfl⟩
  rw [← hδ] at hd ⊢
  have e1 : δ ^ p ≤ w := by
    have h1 : δ ≤ 1 := by rw [hδ]; exact (min_le_right _ _).trans (min_le_left _ _)
    have h2 : δ ≤ w := by rw [hδ]; exact (min_le_right _ _).trans (min_le_right _ _)
    exact (pow_le_of_le_one (hd0.le.trans hd) h1 (by omega)).trans h2
  have e2 : min (u₀ * dmin) (min w (w * dmin)) ≤ w := (min_le_right _ _).trans (min_le_left _ _)
  have e3 : u / dmin ≤ w := by
    rw [div_le_iff₀ hd0]
    exact hu.trans ((min_le_right _ _).trans (min_le_right _ _))
  have e4 : 3 * (C + 1) * w = tol := by rw [hw]; field_simp
  have := mul_le_mul_of_nonneg_left (add_le_add (add_le_add e2 e1) e3) hC
  nlinarith

/-! ### The tables of the library -/

/-- A table of the model over `ℝ` rounded to `p` bits. -/
noncomputable def roundTable (p : ℕ) (bt : BT ℝ) : BT (Spec.Bin p) where
  steps := bt.steps
  implicit := bt.implicit
  a i j := ⟨Spec.roundBits p (bt.a i j)⟩
  b1 i := ⟨Spec.roundBits p (bt.b1 i)⟩
  b2 i := ⟨Spec.roundBits p (bt.b2 i)⟩
  c i := ⟨Spec.roundBits p (bt.c i)⟩
  embedded := bt.embedded

lemma roundTable_of (p : ℕ) (bt : BT ℝ) : TableOf Spec.Bin.val (2⁻¹ ^ p) bt (roundTable p bt) :=
  ⟨rfl, rfl, fun _ _ => Spec.roundBits_error p _, fun _ => Spec.roundBits_error p _⟩

lemma table_kind {p : ℕ} {η : ℝ} {bt : BT ℝ} {depth parts : ℕ} (h : OrderTable p η bt ⟨depth, parts, 0, 0, false, 0⟩)
    (hi : bt.implicit = false) : (Kind.table bt depth parts).Order p η :=
  .table hi (h.explicit hi).1 ((h.explicit hi).2.resolve_left (by simp)) h.subdivisions h.positive h.nonneg h.order

/-- **Every explicit table is covered**, with subdivision into any positive number of parts: rk4 4, rkck 4, rkdp 4, rkdverk 5, rkf 8, Feagin 10,
12 and 14. -/
theorem explicit_tables_covered (depth parts : ℕ) (hp : 0 < parts) :
    (Kind.table (C18.bt ℝ rk4Tab) depth parts).Order 4 0 ∧ (Kind.table (C18.bt ℝ rkckTab) depth parts).Order 4 0 ∧
    (Kind.table (C18.bt ℝ rkdpTab) depth parts).Order 4 0 ∧ (Kind.table (C18.bt ℝ rkdverkTab) depth parts).Order 5 0 ∧
    (Kind.table (C18.bt ℝ rkfTab) depth parts).Order 8 0 ∧ (Kind.table (C18.bt ℝ feagin10Tab) depth parts).Order 10 (1 / 10 ^ 56) ∧
    (Kind.table (C18.bt ℝ feagin12Tab) depth parts).Order 12 (1 / 10 ^ 56) ∧
    (Kind.table (C18.bt ℝ feagin14Tab) depth parts).Order 14 (1 / 10 ^ 56) := by
  have h := C82.explicit_tables ⟨depth, parts, 0, 0, false, 0⟩ hp
  have g := C82.feagin_tables ⟨depth, parts, 0, 0, false, 0⟩ hp
  exact ⟨table_kind h.1 rfl, table_kind h.2.1 rfl, table_kind h.2.2.1 rfl, table_kind h.2.2.2.1 rfl, table_kind h.2.2.2.2 rfl,
    table_kind g.1 rfl, table_kind g.2.1 rfl, table_kind g.2.2 rfl⟩

/-! ### A case: the orbit of C78 in binary arithmetic -/

lemma bits_small {u : ℝ} (hu : 0 < u) : ∃ p₀ : ℕ, ∀ p, p₀ ≤ p → (2⁻¹ : ℝ) ^ p ≤ u := by
  obtain ⟨p₀, h⟩ := exists_pow_lt_of_lt_one hu (by norm_num : (2⁻¹ : ℝ) < 1)
  exact ⟨p₀, fun p hp => (pow_le_pow_of_le_one (by norm_num) (by norm_num) hp).trans h.le⟩

/-- Two bodies, Dormand-Prince with its coefficients rounded, two levels of subdivision into 4 parts: the run in binary arithmetic with enough
bits ends within 1/1000 of the orbit. -/
example : ∃ δ : ℝ, 0 < δ ∧ ∀ dmin, 0 < dmin → dmin ≤ δ → ∃ p₀ : ℕ, ∀ p, p₀ ≤ p →
    ∀ (dts : List (Spec.Bin p)), (∀ d ∈ dts, dmin ≤ d.val ∧ d.val ≤ δ) → (dts.map Spec.Bin.val).sum ≤ 2 * Real.pi →
    ∀ V : Buffers (Spec.Bin p), V 0 = (fun _ => ⟨4⟩) →
      Near 2 (fun j => (V 1 j).val) (C78.orbitPos 0) (C78.orbitVel 0) 0 →
      ∃ fl V' m', runSteps (simpleOps (fcompute seqFor 2 0) seqFor 2)
          (fun allocated dt => do
            rkCalls C74.layout (roundTable p (C18.bt ℝ rkdpTab)) ⟨2, 4, ⟨1⟩, 0, false, ⟨0⟩⟩ dt allocated; pure true)
          dts (false, fun h => some (buf (if h = 0 then 2 else 12) (V h))) = .ok (fl, m') ∧
        HostHolds 2 0 (fun h => h ≠ 0) (fun _ => ⟨4⟩) V' m' ∧
        Near 2 (fun j => (V' 1 j).val) (C78.orbitPos (dts.map Spec.Bin.val).sum) (C78.orbitVel (dts.map Spec.Bin.val).sum) (1 / 1000) := by
  have h1 : ∀ s, 1 ≤ C74.layout s := fun s => by
    cases s <;> simp only [C74.layout] <;> (try split_ifs) <;> omega
  obtain ⟨δ, hδ, key⟩ := rounded_attains_partial (n := 2) (Mr := fun _ => 4) (by decide) (fun _ _ => by norm_num)
    (explicit_tables_covered 2 4 (by decide)).2.2.1 (T := 2 * Real.pi) (C78.orbit _) (C82.orbit_off _) (tol := 1 / 1000) (by norm_num)
  refine ⟨δ, hδ, fun dmin h0 hd => ?_⟩
  obtain ⟨u₁, hu₁, key⟩ := key dmin h0 hd
  obtain ⟨p₀, hp₀⟩ := bits_small hu₁
  refine ⟨p₀, fun p hp dts hdts hsum V hV hnear => ?_⟩
  refine key (Spec.Bin p) Spec.Bin.val (2⁻¹ ^ p) (Spec.Bin.floatOps p) (by positivity) (hp₀ p hp) (fun _ => ⟨4⟩) (fun _ _ => rfl)
    C74.layout (fun h => h ≠ 0) Bool _ false C74.layout_injective
    (.table (roundTable p (C18.bt ℝ rkdpTab)) ⟨2, 4, ⟨1⟩, 0, false, ⟨0⟩⟩ (roundTable_of p _) rfl fun s _ => ?_) _ _ (.simple 0) dts hdts hsum V _ ?_ ?_
  · have := h1 s
    exact Nat.pos_iff_ne_zero.1 this
  · exact ⟨fun h hh => congrArg (fun k => some (buf k (V h))) (if_neg hh), by simp [hV], fun h hh => hh⟩
  · rw [C78.near_iff (by decide)] at hnear ⊢
    exact hnear.trans hu₁.le

end NB.C85
