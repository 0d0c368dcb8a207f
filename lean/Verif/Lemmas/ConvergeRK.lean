import Verif.Lemmas.ConvergeSteps
import Verif.Props.C19_Adaptive
import Verif.Props.C65_Implicit

/-
The table-driven Runge-Kutta solver, with and without subdivision, explicit and implicit: a walk of steps close to
Euler's.
-/

namespace NB

open Finset

section
variable {V E : Type} [AddCommGroup V] [Module ℝ V] [NormedAddCommGroup E] [NormedSpace ℝ E]

/-- What the stages of a substep lead to. -/
def endOf (bt : BT ℝ) (h : ℝ) (y : V) (k : ℕ → V) : V := y + h • ∑ i ∈ range bt.steps, bt.b2 i • k i

/-- `sub_step` makes a walk of accepted steps.  `J` is what is known of the stages left in the buffers. -/
lemma subStep_walk {F : ℕ → ℝ → V → V} {nrm : V → ℝ} {bt : BT ℝ} {cf : RKConf ℝ} {P : ℝ → V → V → Prop} {δ : ℝ}
    {J : (ℕ → V) → V → Prop} (hsub : 0 < cf.subdivisions)
    (hst : ∀ first r cc y t h, 0 < h → h ≤ δ → C19.Inv cf r → (first = true ∨ J r.k y) →
      J (rkStages F bt cf first y t h (r, cc)).1.k y ∧
      J (rkStages F bt cf first y t h (r, cc)).1.k (endOf bt h y (rkStages F bt cf first y t h (r, cc)).1.k) ∧
      P h y (endOf bt h y (rkStages F bt cf first y t h (r, cc)).1.k)) :
    ∀ (fuel count : ℕ) (dt : ℝ) (s : SubSt V ℝ), 0 < dt → dt ≤ δ → C19.Inv cf s.r →
      ((!s.r.allocated) = true ∨ J s.r.k s.y) →
      C19.Inv cf (rkSubStep F nrm bt cf fuel count dt s).r ∧
      (0 < count → J (rkSubStep F nrm bt cf fuel count dt s).r.k (rkSubStep F nrm bt cf fuel count dt s).y) ∧
      ∃ hs : List ℝ, hs.sum = count * dt ∧ (∀ h ∈ hs, 0 < h ∧ h ≤ dt) ∧
        Walk P hs s.y (rkSubStep F nrm bt cf fuel count dt s).y := by
  have hs0 : (0 : ℝ) < cf.subdivisions := by exact_mod_cast hsub
  have hs1 : (1 : ℝ) ≤ cf.subdivisions := by exact_mod_cast hsub
  intro fuel
  induction fuel with
  | zero =>
    intro count dt s hdt hdδ hI hJ
    have := foldN_inv (n := count) (s := ({ s with r := { s.r with allocated := true } } : SubSt V ℝ))
      (f := fun _ s' =>
        let st := rkStages F bt cf (!s.r.allocated) s'.y s'.t dt (s'.r, s'.cc)
        let er := rkError nrm bt st.1
        let r := { st.1 with tbuf := er.1 }
        let p := rkAdvance bt cf dt r s'.y
        { r := { r with ycorr := p.2 }, cc := st.2, t := s'.t + dt, y := p.1 })
      (P := fun m (s' : SubSt V ℝ) => C19.Inv cf s'.r ∧ ((!s.r.allocated) = true ∨ J s'.r.k s'.y) ∧
        (0 < m → J s'.r.k s'.y) ∧ ∃ hs : List ℝ, hs.sum = m * dt ∧ (∀ h ∈ hs, 0 < h ∧ h ≤ dt) ∧ Walk P hs s.y s'.y)
      ⟨hI, hJ, fun h => absurd h (by omega), [], by simp, by simp, (show s.y = s.y from rfl)⟩ ?_
    · exact ⟨this.1, this.2.2.1, this.2.2.2⟩
    · rintro i s' hi ⟨hI', hJ', -, hs, e1, e2, e3⟩
      obtain ⟨h1, h2, h3⟩ := hst (!s.r.allocated) s'.r s'.cc s'.y s'.t dt hdt hdδ hI' hJ'
      have hI2 : C19.Inv cf (rkStages F bt cf (!s.r.allocated) s'.y s'.t dt (s'.r, s'.cc)).1 :=
        fun hc => by rw [C19.stages_ycorr]; exact hI' hc
      have hadv := C16.rkAdvance_eq bt cf dt
        { (rkStages F bt cf (!s.r.allocated) s'.y s'.t dt (s'.r, s'.cc)).1 with
          tbuf := (rkError nrm bt (rkStages F bt cf (!s.r.allocated) s'.y s'.t dt (s'.r, s'.cc)).1).1 } s'.y hI2
      dsimp only at hadv ⊢
      rw [hadv]
      refine ⟨fun hcor => C19.rkAdvance_inv _ _ _ _ _ hI2 hcor, Or.inr h2, fun _ => h2, hs ++ [dt], ?_, ?_,
        e3.append ⟨_, h3, rfl⟩⟩
      · rw [List.sum_append, e1]; push_cast; simp; ring
      · intro h hh
        rcases List.mem_append.1 hh with hh | hh
        · exact e2 h hh
        · rw [List.mem_singleton] at hh; subst hh; exact ⟨hdt, le_rfl⟩
  | succ fuel ih =>
    intro count dt s hdt hdδ hI hJ
    have := foldN_inv (n := count) (s := ({ s with r := { s.r with allocated := true } } : SubSt V ℝ))
      (f := fun _ s' =>
        let st := rkStages F bt cf (!s.r.allocated) s'.y s'.t dt (s'.r, s'.cc)
        let er := rkError nrm bt st.1
        let r := { st.1 with tbuf := er.1 }
        if (bt.embedded && decide (cf.minStep < dt)) && decide (cf.threshold < er.2) then
          let q := rkSubStep F nrm bt cf fuel cf.subdivisions (dt / (cf.subdivisions : ℝ))
            { r := r, cc := st.2, t := s'.t, y := s'.y }
          { q with t := s'.t + dt }
        else
          let p := rkAdvance bt cf dt r s'.y
          { r := { r with ycorr := p.2 }, cc := st.2, t := s'.t + dt, y := p.1 })
      (P := fun m (s' : SubSt V ℝ) => C19.Inv cf s'.r ∧ ((!s.r.allocated) = true ∨ J s'.r.k s'.y) ∧
        (0 < m → J s'.r.k s'.y) ∧ ∃ hs : List ℝ, hs.sum = m * dt ∧ (∀ h ∈ hs, 0 < h ∧ h ≤ dt) ∧ Walk P hs s.y s'.y)
      ⟨hI, hJ, fun h => absurd h (by omega), [], by simp, by simp, (show s.y = s.y from rfl)⟩ ?_
    · exact ⟨this.1, this.2.2.1, this.2.2.2⟩
    · rintro i s' hi ⟨hI', hJ', -, hs, e1, e2, e3⟩
      obtain ⟨h1, h2, h3⟩ := hst (!s.r.allocated) s'.r s'.cc s'.y s'.t dt hdt hdδ hI' hJ'
      have hI2 : C19.Inv cf (rkStages F bt cf (!s.r.allocated) s'.y s'.t dt (s'.r, s'.cc)).1 :=
        fun hc => by rw [C19.stages_ycorr]; exact hI' hc
      dsimp only
      split
      · have hd' : dt / (cf.subdivisions : ℝ) ≤ dt := div_le_self hdt.le hs1
        obtain ⟨g1, g2, hs', g3, g4, g5⟩ := ih cf.subdivisions (dt / (cf.subdivisions : ℝ))
          { r := { (rkStages F bt cf (!s.r.allocated) s'.y s'.t dt (s'.r, s'.cc)).1 with
              tbuf := (rkError nrm bt (rkStages F bt cf (!s.r.allocated) s'.y s'.t dt (s'.r, s'.cc)).1).1 },
            cc := (rkStages F bt cf (!s.r.allocated) s'.y s'.t dt (s'.r, s'.cc)).2, t := s'.t, y := s'.y }
          (div_pos hdt hs0) (hd'.trans hdδ) hI2 (Or.inr h1)
        refine ⟨g1, Or.inr (g2 hsub), fun _ => g2 hsub, hs ++ hs', ?_, ?_, e3.append g5⟩
        · rw [List.sum_append, e1, g3]; push_cast; field_simp
        · intro h hh
          rcases List.mem_append.1 hh with hh | hh
          · exact e2 h hh
          · exact ⟨(g4 h hh).1, (g4 h hh).2.trans hd'⟩
      · have hadv := C16.rkAdvance_eq bt cf dt
          { (rkStages F bt cf (!s.r.allocated) s'.y s'.t dt (s'.r, s'.cc)).1 with
            tbuf := (rkError nrm bt (rkStages F bt cf (!s.r.allocated) s'.y s'.t dt (s'.r, s'.cc)).1).1 } s'.y hI2
        dsimp only at hadv ⊢
        rw [hadv]
        refine ⟨fun hcor => C19.rkAdvance_inv _ _ _ _ _ hI2 hcor, Or.inr h2, fun _ => h2, hs ++ [dt], ?_, ?_,
          e3.append ⟨_, h3, rfl⟩⟩
        · rw [List.sum_append, e1]; push_cast; simp; ring
        · intro h hh
          rcases List.mem_append.1 hh with hh | hh
          · exact e2 h hh
          · rw [List.mem_singleton] at hh; subst hh; exact ⟨hdt, le_rfl⟩

variable {π : V →ₗ[ℝ] E} {f : E → E} {L : ℝ}

/-- What is known of the stages kept by the implicit solvers: not much larger than the derivative. -/
def StagesOk (π : V →ₗ[ℝ] E) (f : E → E) (θ : ℝ) (s : ℕ) (k : ℕ → V) (y : V) : Prop :=
  ∀ i, i < s → ‖π (k i)‖ ≤ 4 * (‖f (π y)‖ + θ)

/-- **The implicit schemes**: with at least one refinement, and steps short enough, a substep is close to Euler's,
whatever stages (of reasonable size) it starts from. -/
lemma implicit_stages (hL : 0 ≤ L) (hf : ∀ a b, ‖f a - f b‖ ≤ L * ‖a - b‖) (bt : BT ℝ) (cf : RKConf ℝ)
    (hi : bt.implicit = true) (hr : C65.FullRows bt) (hre : 1 ≤ cf.refine) :
    ∃ C κ δ, 0 ≤ C ∧ 0 ≤ κ ∧ 0 < δ ∧ ∀ (F : ℕ → ℝ → V → V) (θ : ℝ), 0 ≤ θ → Within π f θ F →
      ∀ first r cc y t h, 0 < h → h ≤ δ → (first = true ∨ StagesOk π f θ bt.steps r.k y) →
      StagesOk π f θ bt.steps (rkStages F bt cf first y t h (r, cc)).1.k y ∧
      StagesOk π f θ bt.steps (rkStages F bt cf first y t h (r, cc)).1.k
        (endOf bt h y (rkStages F bt cf first y t h (r, cc)).1.k) ∧
      (∀ i, i < bt.steps → ‖π ((rkStages F bt cf first y t h (r, cc)).1.k i) - f (π y)‖ ≤
        κ * h * (‖f (π y)‖ + θ) + θ) ∧
      (∀ i, i < bt.steps → ‖π ((rkStages F bt cf first y t h (r, cc)).1.k i) -
          f (π (endOf bt h y (rkStages F bt cf first y t h (r, cc)).1.k))‖ ≤
        κ * h * (‖f (π (endOf bt h y (rkStages F bt cf first y t h (r, cc)).1.k))‖ + θ) + θ) ∧
      ‖π (endOf bt h y (rkStages F bt cf first y t h (r, cc)).1.k) - π y - h • f (π y)‖ ≤
        ((C * h + |(∑ i ∈ range bt.steps, bt.b2 i) - 1|) * (‖f (π y)‖ + θ) +
          (∑ i ∈ range bt.steps, |bt.b2 i|) * θ) * h := by
  set A := ∑ i ∈ range bt.steps, ∑ j ∈ range bt.steps, |bt.a i j| with hA
  have hA0 : 0 ≤ A := sum_nonneg fun i _ => sum_nonneg fun j _ => abs_nonneg _
  have hrow : ∀ i, i < bt.steps → ∑ j ∈ range bt.steps, |bt.a i j| ≤ A := fun i hi =>
    single_le_sum (f := fun i => ∑ j ∈ range bt.steps, |bt.a i j|)
      (fun i _ => sum_nonneg fun j _ => abs_nonneg _) (mem_range.2 hi)
  set γ := ∑ i ∈ range bt.steps, |bt.c i| with hγ
  have hγ0 : 0 ≤ γ := sum_nonneg fun i _ => abs_nonneg _
  have hci : ∀ i, i < bt.steps → |bt.c i| ≤ γ := fun i hi =>
    single_le_sum (f := fun i => |bt.c i|) (fun i _ => abs_nonneg _) (mem_range.2 hi)
  set β := ∑ i ∈ range bt.steps, |bt.b2 i| with hβ
  have hβ0 : 0 ≤ β := sum_nonneg fun i _ => abs_nonneg _
  set D := 4 * (L * (A + γ + β)) + 1 with hD
  have hD0 : 0 < D := by rw [hD]; positivity
  refine ⟨β * (4 * L * A), 2 * (4 * L * A + L * (2 * β)), 1 / D, by positivity, by positivity, by positivity, ?_⟩
  intro F θ hθ hF first r cc y t h h0 hle hJ
  set Φ := ‖f (π y)‖ + θ with hΦ
  have hΦ0 : 0 ≤ Φ := by positivity
  have hsmall : h * (4 * (L * (A + γ + β))) ≤ 1 := by
    have h1 : h * D ≤ 1 := by rwa [le_div_iff₀ hD0] at hle
    rw [hD] at h1
    nlinarith
  have sA : 4 * (L * h * A) ≤ 1 := by
    have : 0 ≤ h * L * (γ + β) := by positivity
    nlinarith
  have sγ : 4 * (L * h * γ) ≤ 1 := by
    have : 0 ≤ h * L * (A + β) := by positivity
    nlinarith
  have sβ : 4 * (L * h * β) ≤ 1 := by
    have : 0 ≤ h * L * (A + γ) := by positivity
    nlinarith
  -- one sweep
  have sweep : ∀ (r : RKState V) (n₀ : ℕ), StagesOk π f θ bt.steps r.k y →
      ∀ i, i < bt.steps → ‖π ((rkRefine F bt y t h (r, n₀)).1.k i) - f (π y)‖ ≤ 4 * L * A * h * Φ + θ := by
    intro r n₀ hr0 i
    have hs := (C65.refine_sweep F bt y t h r n₀ hr h0.ne').2.2
    set q := (rkRefine F bt y t h (r, n₀)).1 with hq
    induction i using Nat.strong_induction_on with
    | _ i ih =>
      intro hi
      have hbd : ∀ j, j ∈ range bt.steps → ‖π (if j < i then q.k j else r.k j)‖ ≤ 4 * Φ := by
        intro j hj
        by_cases hji : j < i
        · rw [if_pos hji]
          have h1 := ih j hji (mem_range.1 hj)
          have h2 : ‖π (q.k j)‖ ≤ ‖π (q.k j) - f (π y)‖ + ‖f (π y)‖ := by
            simpa using norm_add_le (π (q.k j) - f (π y)) (f (π y))
          have h3 : 4 * L * A * h * Φ ≤ Φ := by
            have := mul_le_mul_of_nonneg_right sA hΦ0
            linarith
          linarith
        · rw [if_neg hji]; exact hr0 j (mem_range.1 hj)
      have h4 : ‖∑ j ∈ range bt.steps, π (bt.a i j • (if j < i then q.k j else r.k j))‖ ≤ A * (4 * Φ) := by
        refine (norm_sum_le _ _).trans ?_
        calc _ ≤ ∑ j ∈ range bt.steps, |bt.a i j| * (4 * Φ) := sum_le_sum fun j hj => by
              rw [map_smul, norm_smul, Real.norm_eq_abs]
              exact mul_le_mul_of_nonneg_left (hbd j hj) (abs_nonneg _)
          _ = (∑ j ∈ range bt.steps, |bt.a i j|) * (4 * Φ) := by rw [sum_mul]
          _ ≤ _ := mul_le_mul_of_nonneg_right (hrow i hi) (by positivity)
      rw [hs i hi]
      generalize hz : y + h • ∑ j ∈ range bt.steps, bt.a i j • (if j < i then q.k j else r.k j) = z
      have h5 : ‖f (π z) - f (π y)‖ ≤ L * (h * (A * (4 * Φ))) := by
        refine (hf _ _).trans (mul_le_mul_of_nonneg_left ?_ hL)
        rw [← hz, map_add, map_smul, map_sum, add_sub_cancel_left, norm_smul, Real.norm_eq_abs, abs_of_pos h0]
        exact mul_le_mul_of_nonneg_left h4 h0.le
      refine (norm_sub_le_norm_sub_add_norm_sub _ (f (π z)) _).trans ?_
      have h6 := hF (n₀ + i) (t + bt.c i * h) z
      linarith
  -- all sweeps
  have small : ∀ (k : ℕ → V), (∀ i, i < bt.steps → ‖π (k i) - f (π y)‖ ≤ 4 * L * A * h * Φ + θ) →
      ∀ i, i < bt.steps → ‖π (k i)‖ ≤ 2 * Φ := by
    intro k hk i hi
    have h2 : ‖π (k i)‖ ≤ ‖π (k i) - f (π y)‖ + ‖f (π y)‖ := by
      simpa using norm_add_le (π (k i) - f (π y)) (f (π y))
    have h3 := mul_le_mul_of_nonneg_right sA hΦ0
    have h1 := hk i hi
    linarith
  have hstart : StagesOk π f θ bt.steps (if first then rkFirstApproach F bt y t h (r, cc) else (r, cc)).1.k y := by
    cases first with
    | false => simpa using hJ
    | true =>
      intro i hi
      simp only [if_true]
      rw [(C65.first_approach_stages F bt y t h r cc).2 i hi]
      have hd0 : ‖π (F cc t y)‖ ≤ Φ := by
        have h1 : ‖π (F cc t y)‖ ≤ ‖π (F cc t y) - f (π y)‖ + ‖f (π y)‖ := by
          simpa using norm_add_le (π (F cc t y) - f (π y)) (f (π y))
        have := hF cc t y
        linarith
      generalize hz : y + (h * bt.c i) • F cc t y = z
      have h1 : ‖f (π z) - f (π y)‖ ≤ L * (h * γ * Φ) := by
        refine (hf _ _).trans (mul_le_mul_of_nonneg_left ?_ hL)
        rw [← hz, map_add, map_smul, add_sub_cancel_left, norm_smul, Real.norm_eq_abs, abs_mul, abs_of_pos h0]
        exact mul_le_mul (mul_le_mul_of_nonneg_left (hci i hi) h0.le) hd0 (norm_nonneg _) (by positivity)
      have h2 : ‖π (F (cc + 1 + i) (t + bt.c i * h) z)‖ ≤ ‖π (F (cc + 1 + i) (t + bt.c i * h) z) - f (π z)‖ +
          ‖f (π z)‖ := by simpa using norm_add_le (π (F (cc + 1 + i) (t + bt.c i * h) z) - f (π z)) (f (π z))
      have h3 : ‖f (π z)‖ ≤ ‖f (π z) - f (π y)‖ + ‖f (π y)‖ := by
        simpa using norm_add_le (f (π z) - f (π y)) (f (π y))
      have h4 := mul_le_mul_of_nonneg_right sγ hΦ0
      have h5 := hF (cc + 1 + i) (t + bt.c i * h) z
      linarith
  have hall : ∀ i, i < bt.steps →
      ‖π ((rkStages F bt cf first y t h (r, cc)).1.k i) - f (π y)‖ ≤ 4 * L * A * h * Φ + θ := by
    have e : rkStages F bt cf first y t h (r, cc) =
        foldN cf.refine (if first then rkFirstApproach F bt y t h (r, cc) else (r, cc))
          (fun _ s => rkRefine F bt y t h s) := by
      unfold rkStages rkImplicit
      rw [if_pos hi]
    rw [e]
    have := foldN_inv (n := cf.refine) (s := if first then rkFirstApproach F bt y t h (r, cc) else (r, cc))
      (f := fun _ s => rkRefine F bt y t h s)
      (P := fun m (p : RKState V × ℕ) => StagesOk π f θ bt.steps p.1.k y ∧
        (1 ≤ m → ∀ i, i < bt.steps → ‖π (p.1.k i) - f (π y)‖ ≤ 4 * L * A * h * Φ + θ))
      ⟨hstart, fun h => absurd h (by omega)⟩ (fun i p hi hp => by
        have h1 := sweep p.1 p.2 hp.1
        exact ⟨fun j hj => (small _ h1 j hj).trans (by linarith), fun _ => h1⟩)
    exact this.2 hre
  have hsm := small _ hall
  set k := (rkStages F bt cf first y t h (r, cc)).1.k with hk
  have h1 : ‖π (endOf bt h y k) - π y‖ ≤ h * (β * (2 * Φ)) := by
    unfold endOf
    rw [map_add, map_smul, map_sum, add_sub_cancel_left, norm_smul, Real.norm_eq_abs, abs_of_pos h0]
    refine mul_le_mul_of_nonneg_left ((norm_sum_le _ _).trans ?_) h0.le
    rw [hβ, sum_mul]
    refine sum_le_sum fun i hi => ?_
    rw [map_smul, norm_smul, Real.norm_eq_abs]
    exact mul_le_mul_of_nonneg_left (hsm i (mem_range.1 hi)) (abs_nonneg _)
  have h2 : ‖f (π (endOf bt h y k)) - f (π y)‖ ≤ L * (h * (β * (2 * Φ))) :=
    (hf _ _).trans (mul_le_mul_of_nonneg_left h1 hL)
  have h3 : ‖f (π y)‖ ≤ ‖f (π (endOf bt h y k)) - f (π y)‖ + ‖f (π (endOf bt h y k))‖ := by
    have := norm_sub_le (f (π (endOf bt h y k))) (f (π (endOf bt h y k)) - f (π y))
    rw [sub_sub_cancel] at this
    linarith
  have h4 := mul_le_mul_of_nonneg_right sβ hΦ0
  refine ⟨fun i hi => (hsm i hi).trans (by linarith), fun i hi => ?_, fun i hi => (hall i hi).trans ?_, fun i hi => ?_, ?_⟩
  · have h5 := hsm i hi
    linarith
  · have : 0 ≤ (4 * L * A + 4 * (L * β)) * h * Φ := by positivity
    nlinarith
  · have h6 : Φ ≤ 2 * (‖f (π (endOf bt h y k))‖ + θ) := by rw [hΦ] at h4 ⊢; linarith
    have h7 : ‖π (k i) - f (π (endOf bt h y k))‖ ≤ ‖π (k i) - f (π y)‖ + ‖f (π (endOf bt h y k)) - f (π y)‖ := by
      rw [norm_sub_rev (f (π (endOf bt h y k)))]
      exact norm_sub_le_norm_sub_add_norm_sub _ _ _
    have h8 : (4 * L * A + L * (2 * β)) * h * Φ ≤
        (4 * L * A + L * (2 * β)) * h * (2 * (‖f (π (endOf bt h y k))‖ + θ)) := by gcongr
    have h9 := hall i hi
    calc _ ≤ (4 * L * A + L * (2 * β)) * h * Φ + θ := by linarith
      _ ≤ _ := by linarith
  · exact weighted_close (π := π) (f := f) bt.steps bt.b2 k y (d := h) (κ := 4 * L * A) h0 hθ hall

/-- The explicit schemes. -/
lemma explicit_stages {F : ℕ → ℝ → V → V} (bt : BT ℝ) (cf : RKConf ℝ) (hi : bt.implicit = false)
    (hr : cf.correction = true ∨ C16.RowsNonzero bt) (first : Bool) (r : RKState V) (cc : ℕ) (y : V) (t h : ℝ) (h0 : 0 < h)
    (hI : C19.Inv cf r) :
    Spec.ERKStep F cc bt.steps bt.a bt.b2 bt.c t h y
      (endOf bt h y (rkStages F bt cf first y t h (r, cc)).1.k) := by
  have e : rkStages F bt cf first y t h (r, cc) = rkExplicit F bt cf y t h (r, cc) := by
    unfold rkStages; rw [hi]; simp
  rw [e]
  obtain ⟨-, -, h3⟩ := C16.rkExplicit_stages F bt cf y t h r cc hI hr (Or.inr h0.ne')
  exact ⟨_, h3, rfl⟩

end

end NB
