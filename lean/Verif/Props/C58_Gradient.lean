import Verif.Props.C11_Diagnostics
import Mathlib.Analysis.SpecialFunctions.Sqrt
import Mathlib.Analysis.Calculus.Deriv.Inv
import Mathlib.Analysis.Calculus.MeanValue
import Mathlib.Analysis.SpecialFunctions.Trigonometric.Deriv

/-
C58: the force is the gradient of the reported potential energy, so that the reported energy is a constant of
the exact motion.  Exact arithmetic.
-/

namespace NB.C58

open NB.C11 (bodies)

/-- Derivative of a moving point, in coordinates. -/
def Moves (P : ℝ → Vec3 ℝ) (u : Vec3 ℝ) (t : ℝ) : Prop :=
  ∀ k, HasDerivAt (fun s => (P s).coord k) (u.coord k) t

/-- Scalar product of a force and a velocity. -/
def power (f u : Vec3 ℝ) : ℝ := ∑ k, f.coord k * u.coord k

lemma dist2_deriv {P Q : ℝ → Vec3 ℝ} {u v : Vec3 ℝ} {t : ℝ} (hP : Moves P u t) (hQ : Moves Q v t) :
    HasDerivAt (fun s => Spec.dist2 (P s).coord (Q s).coord)
      (2 * ∑ k, ((P t).coord k - (Q t).coord k) * (u.coord k - v.coord k)) t := by
  have h : ∀ k, HasDerivAt (fun s => ((P s).coord k - (Q s).coord k) ^ 2)
      (2 * ((P t).coord k - (Q t).coord k) * (u.coord k - v.coord k)) t := by
    intro k
    have := ((hP k).fun_sub (hQ k)).fun_pow 2
    simpa using this
  have := ((h 0).fun_add (h 1)).fun_add (h 2)
  refine this.congr_deriv ?_
  rw [Fin.sum_univ_three]
  ring

lemma pair_deriv {P Q : ℝ → Vec3 ℝ} {u v : Vec3 ℝ} {t : ℝ} (hP : Moves P u t) (hQ : Moves Q v t) (m1 m2 : ℝ)
    (hd : 1e-8 < Spec.dist2 (P t).coord (Q t).coord) :
    HasDerivAt (fun s => Spec.pairPotential 1e-8 (P s).coord (Q s).coord m1 m2)
      (-(power (force (P t) (Q t) m1 m2) u + power (force (Q t) (P t) m2 m1) v)) t := by
  have h2 := dist2_deriv hP hQ
  have hpos : 0 < Spec.dist2 (P t).coord (Q t).coord := lt_trans (by norm_num) hd
  have hs := h2.sqrt hpos.ne'
  have hinv := (hs.inv (Real.sqrt_pos.2 hpos).ne').const_mul (-(m1 * m2))
  have hev : (fun s => Spec.pairPotential 1e-8 (P s).coord (Q s).coord m1 m2) =ᶠ[nhds t]
      fun s => -(m1 * m2) * (Real.sqrt (Spec.dist2 (P s).coord (Q s).coord))⁻¹ := by
    filter_upwards [h2.continuousAt.eventually (lt_mem_nhds hd)] with s hs
    rw [Spec.pairPotential, if_neg (not_lt.2 hs.le), div_eq_mul_inv]
  refine (hinv.congr_of_eventuallyEq hev).congr_deriv ?_
  have hsym : Spec.dist2 (Q t).coord (P t).coord = Spec.dist2 (P t).coord (Q t).coord := by
    unfold Spec.dist2; ring
  unfold power
  simp only [force_coord, Spec.newton, Fin.sum_univ_three, hsym, max_eq_left hd.le]
  have hr := Real.sqrt_pos.2 hpos
  generalize Real.sqrt (Spec.dist2 (P t).coord (Q t).coord) = r at hr
  field_simp
  ring

/-- Above the cutoff, whatever the motion of the two bodies: the potential energy that the code reports loses
what the two forces do in work. -/
theorem pair_gradient (P Q : ℝ → Vec3 ℝ) (u v : Vec3 ℝ) (t m1 m2 : ℝ) (hP : Moves P u t) (hQ : Moves Q v t)
    (hd : 1e-8 < Spec.dist2 (P t).coord (Q t).coord) :
    ∃ U : ℝ → ℝ, (∀ s, potentialEnergy [m1, m2] [P s, Q s] 0 1 = .ok (U s)) ∧
      HasDerivAt U (-(power (force (P t) (Q t) m1 m2) u + power (force (Q t) (P t) m2 m1) v)) t := by
  refine ⟨_, fun s => ?_, pair_deriv hP hQ m1 m2 hd⟩
  exact C11.potentialEnergy_eq (n := 2) (fun i => if i = 0 then P s else Q s) (fun i => if i = 0 then m1 else m2)
    (i := 0) (j := 1) (by decide) (by decide)

/-- In particular, moving only the first body along axis `k`: minus the partial derivative is the force. -/
theorem force_is_gradient (p q : Vec3 ℝ) (m1 m2 : ℝ) (hd : 1e-8 < Spec.dist2 p.coord q.coord) (k : Fin 3) :
    ∃ U : ℝ → ℝ, (∀ x, ∃ p' : Vec3 ℝ, p'.coord = Function.update p.coord k x ∧
        potentialEnergy [m1, m2] [p', q] 0 1 = .ok (U x)) ∧
      HasDerivAt U (-(force p q m1 m2).coord k) (p.coord k) := by
  let P : ℝ → Vec3 ℝ := fun x =>
    ⟨Function.update p.coord k x 0, Function.update p.coord k x 1, Function.update p.coord k x 2⟩
  have hPc : ∀ x, (P x).coord = Function.update p.coord k x := by
    intro x; funext i; fin_cases i <;> rfl
  have hPp : P (p.coord k) = p := by
    ext <;> simp [P]
  let e : Vec3 ℝ := ⟨if k = 0 then 1 else 0, if k = 1 then 1 else 0, if k = 2 then 1 else 0⟩
  have hec : ∀ i, e.coord i = if k = i then 1 else 0 := by intro i; fin_cases i <;> rfl
  have hP : Moves P e (p.coord k) := by
    intro i
    simp only [hPc, hec]
    by_cases hi : i = k
    · subst hi
      simp only [Function.update_self, if_true]
      exact hasDerivAt_id _
    · simp only [Function.update_of_ne hi, if_neg (Ne.symm hi)]
      exact hasDerivAt_const _ _
  have hQ : Moves (fun _ => q) 0 (p.coord k) := by
    intro i
    have : (0 : Vec3 ℝ).coord i = 0 := by fin_cases i <;> rfl
    rw [this]
    exact hasDerivAt_const _ _
  obtain ⟨U, h1, h2⟩ := pair_gradient P (fun _ => q) e 0 (p.coord k) m1 m2 hP hQ (by rw [hPp]; exact hd)
  refine ⟨U, fun x => ⟨P x, hPc x, h1 x⟩, h2.congr_deriv ?_⟩
  have h0 : power (force q (P (p.coord k)) m2 m1) 0 = 0 := by
    unfold power
    simp [Fin.sum_univ_three]
  rw [h0, add_zero, hPp]
  unfold power
  simp [hec]

/-! ### Constants of the exact motion -/

/-- Bodies that move by the accelerations that the engines compute. -/
structure Motion (n : ℕ) (p v : ℝ → ℕ → Vec3 ℝ) (w : ℕ → ℝ) (t : ℝ) : Prop where
  velocity : ∀ i, i < n → Moves (fun s => p s i) (v t i) t
  acceleration : ∀ i, i < n → ∀ k, HasDerivAt (fun s => (v s i).coord k)
    (Spec.accel 1e-8 n (fun j => (p t j).coord) w i k) t

/-- All pairs are farther apart than the cutoff. -/
def Apart (n : ℕ) (p : ℕ → Vec3 ℝ) : Prop :=
  ∀ i j, i < n → j < i → 1e-8 < Spec.dist2 (p i).coord (p j).coord

lemma potential_deriv {n : ℕ} {p : ℝ → ℕ → Vec3 ℝ} {u : ℕ → Vec3 ℝ} {t : ℝ} (w : ℕ → ℝ)
    (hp : ∀ i, i < n → Moves (fun s => p s i) (u i) t) (ha : Apart n (p t)) :
    HasDerivAt (fun s => Spec.potential 1e-8 n (fun i => (p s i).coord) w)
      (∑ i ∈ Finset.range n, ∑ j ∈ Finset.range i,
        -(power (force (p t i) (p t j) (w i) (w j)) (u i) + power (force (p t j) (p t i) (w j) (w i)) (u j))) t := by
  unfold Spec.potential
  refine HasDerivAt.fun_sum fun i hi => HasDerivAt.fun_sum fun j hj => ?_
  have hi' := Finset.mem_range.1 hi
  have hj' := Finset.mem_range.1 hj
  exact pair_deriv (hp i hi') (hp j (by omega)) (w i) (w j) (ha i j hi' hj')

lemma sum_ordered (n : ℕ) (g : ℕ → ℕ → ℝ) :
    ∑ i ∈ Finset.range n, ∑ j ∈ (Finset.range n).erase i, g i j =
      ∑ i ∈ Finset.range n, ∑ j ∈ Finset.range i, (g i j + g j i) := by
  induction n with
  | zero => simp
  | succ n ih =>
    rw [Finset.sum_range_succ, Finset.sum_range_succ (fun i => ∑ j ∈ Finset.range i, (g i j + g j i)), ← ih]
    have h1 : (Finset.range (n + 1)).erase n = Finset.range n := by
      rw [Finset.range_add_one, Finset.erase_insert Finset.notMem_range_self]
    have h2 : ∀ i ∈ Finset.range n, ∑ j ∈ (Finset.range (n + 1)).erase i, g i j =
        ∑ j ∈ (Finset.range n).erase i, g i j + g i n := by
      intro i hi
      have : i ≠ n := by have := Finset.mem_range.1 hi; omega
      rw [Finset.range_add_one, Finset.erase_insert_of_ne this.symm, Finset.sum_insert (by simp), add_comm]
    rw [h1, Finset.sum_congr rfl h2, Finset.sum_add_distrib, Finset.sum_add_distrib]
    ring

lemma accel_force (n : ℕ) (p : ℕ → Vec3 ℝ) (w : ℕ → ℝ) (i : ℕ) (k : Fin 3) :
    w i * Spec.accel 1e-8 n (fun j => (p j).coord) w i k =
      ∑ j ∈ (Finset.range n).erase i, (force (p i) (p j) (w i) (w j)).coord k := by
  unfold Spec.accel
  rw [Finset.mul_sum]
  refine Finset.sum_congr rfl fun j _ => ?_
  rw [force_coord, Spec.newton]
  ring

lemma energy_value (P L V : Bool) (n : ℕ) (p v : ℕ → Vec3 ℝ) (w : ℕ → ℝ) :
    ∃ d, diagnostics P L true V n (bodies n p v w) = .ok d ∧
      (∑ i ∈ Finset.range n, w i * ((v i).x ^ 2 + (v i).y ^ 2 + (v i).z ^ 2) / 2) +
        Spec.potential 1e-8 n (fun i => (p i).coord) w = d.kinetic + d.potential := by
  obtain ⟨s, hs, hpot⟩ := C11.potential_counts_each_pair_once n p v w
  have hP := C08.summation_exact (fun i => (v i).smul (w i)) (impulceProxy (bodies n p v w)) n
    (fun i hi => by simp [impulceProxy, bodies, rd_buf hi])
  have hL := C08.summation_exact (fun i => (p i).cross ((v i).smul (w i))) (impulceMomentProxy (bodies n p v w)) n
    (fun i hi => by simp [impulceMomentProxy, bodies, rd_buf hi])
  have hK := C08.summation_exact (fun i => (v i).norm * w i) (kineticEnergyProxy (bodies n p v w)) n
    (fun i hi => by simp [kineticEnergyProxy, bodies, rd_buf hi])
  have hM := C08.summation_exact w (rd (bodies n p v w).mass) n (fun i hi => by simp [bodies, rd_buf hi])
  have hC := C08.summation_exact (fun i => (p i).smul (w i)) (massCenterProxy (bodies n p v w)) n
    (fun i hi => by simp [massCenterProxy, bodies, rd_buf hi])
  have key : (∑ i ∈ Finset.range n, w i * ((v i).x ^ 2 + (v i).y ^ 2 + (v i).z ^ 2) / 2) +
      Spec.potential 1e-8 n (fun i => (p i).coord) w =
      (∑ i ∈ Finset.range n, (v i).norm * w i) / FOps.lit 2 + s / FOps.lit 2 := by
    rw [← hpot]
    simp only [real_lit, Vec3.norm]
    rw [Finset.sum_div]
    push_cast
    congr 1
    exact Finset.sum_congr rfl fun i _ => by ring
  cases P <;> cases L <;> cases V <;>
  exact ⟨_, by simp only [diagnostics, if_true, Bool.false_eq_true, if_false, hP, hL, hK, hs, hM, hC, res_ok_bind,
    res_pure]; rfl, key⟩

lemma energy_deriv {n : ℕ} {p v : ℝ → ℕ → Vec3 ℝ} {w : ℕ → ℝ} {t : ℝ}
    (hm : Motion n p v w t) (ha : Apart n (p t)) :
    HasDerivAt (fun s => (∑ i ∈ Finset.range n, w i * ((v s i).x ^ 2 + (v s i).y ^ 2 + (v s i).z ^ 2) / 2) +
      Spec.potential 1e-8 n (fun i => (p s i).coord) w) 0 t := by
  have hk : HasDerivAt (fun s => ∑ i ∈ Finset.range n,
      w i * ((v s i).x ^ 2 + (v s i).y ^ 2 + (v s i).z ^ 2) / 2)
      (∑ i ∈ Finset.range n, ∑ j ∈ (Finset.range n).erase i,
        power (force (p t i) (p t j) (w i) (w j)) (v t i)) t := by
    refine HasDerivAt.fun_sum fun i hi => ?_
    have hi' := Finset.mem_range.1 hi
    have h : ∀ k, HasDerivAt (fun s => ((v s i).coord k) ^ 2)
        (2 * (v t i).coord k * Spec.accel 1e-8 n (fun j => (p t j).coord) w i k) t := by
      intro k
      simpa using (hm.acceleration i hi' k).fun_pow 2
    have := ((((h 0).fun_add (h 1)).fun_add (h 2)).const_mul (w i)).div_const 2
    refine this.congr_deriv ?_
    have e : ∑ j ∈ (Finset.range n).erase i, power (force (p t i) (p t j) (w i) (w j)) (v t i) =
        ∑ k, (∑ j ∈ (Finset.range n).erase i, (force (p t i) (p t j) (w i) (w j)).coord k) *
          (v t i).coord k := by
      unfold power
      rw [Finset.sum_comm]
      exact Finset.sum_congr rfl fun k _ => by rw [Finset.sum_mul]
    rw [e]
    simp only [← accel_force, Fin.sum_univ_three]
    ring
  refine (hk.fun_add (potential_deriv w hm.velocity ha)).congr_deriv ?_
  rw [sum_ordered n fun i j => power (force (p t i) (p t j) (w i) (w j)) (v t i), ← Finset.sum_add_distrib]
  refine Finset.sum_eq_zero fun i _ => ?_
  rw [← Finset.sum_add_distrib]
  exact Finset.sum_eq_zero fun j _ => by ring

/-- The energy that `print_statistics` reports has derivative 0 along the exact motion while all pairs are above
the cutoff; so its drift measures the error of the solver only. -/
theorem energy_constant (P L V : Bool) (n : ℕ) (p v : ℝ → ℕ → Vec3 ℝ) (w : ℕ → ℝ) (t : ℝ)
    (hm : Motion n p v w t) (ha : Apart n (p t)) :
    ∃ E : ℝ → ℝ, (∀ s, ∃ d, diagnostics P L true V n (bodies n (p s) (v s) w) = .ok d ∧
        E s = d.kinetic + d.potential) ∧ HasDerivAt E 0 t :=
  ⟨_, fun s => energy_value P L V n (p s) (v s) w, energy_deriv hm ha⟩

lemma momentum_deriv {n : ℕ} {p v : ℝ → ℕ → Vec3 ℝ} {w : ℕ → ℝ} {t : ℝ} (hm : Motion n p v w t) (k : Fin 3) :
    HasDerivAt (fun s => ∑ i ∈ Finset.range n, w i * (v s i).coord k) 0 t := by
  have h : HasDerivAt (fun s => ∑ i ∈ Finset.range n, w i * (v s i).coord k)
      (∑ i ∈ Finset.range n, ∑ j ∈ (Finset.range n).erase i, (force (p t i) (p t j) (w i) (w j)).coord k) t := by
    refine HasDerivAt.fun_sum fun i hi => ?_
    rw [← accel_force]
    exact (hm.acceleration i (Finset.mem_range.1 hi) k).const_mul _
  refine h.congr_deriv ?_
  rw [sum_ordered]
  refine Finset.sum_eq_zero fun i _ => Finset.sum_eq_zero fun j _ => ?_
  have hsym : Spec.dist2 (p t j).coord (p t i).coord = Spec.dist2 (p t i).coord (p t j).coord := by
    unfold Spec.dist2; ring
  simp only [force_coord, Spec.newton, hsym]
  ring

lemma angular_deriv {n : ℕ} {p v : ℝ → ℕ → Vec3 ℝ} {w : ℕ → ℝ} {t : ℝ} (hm : Motion n p v w t) (k l : Fin 3) :
    HasDerivAt (fun s => ∑ i ∈ Finset.range n,
      w i * ((p s i).coord k * (v s i).coord l - (p s i).coord l * (v s i).coord k)) 0 t := by
  have h : HasDerivAt (fun s => ∑ i ∈ Finset.range n,
      w i * ((p s i).coord k * (v s i).coord l - (p s i).coord l * (v s i).coord k))
      (∑ i ∈ Finset.range n, ∑ j ∈ (Finset.range n).erase i,
        ((p t i).coord k * (force (p t i) (p t j) (w i) (w j)).coord l -
          (p t i).coord l * (force (p t i) (p t j) (w i) (w j)).coord k)) t := by
    refine HasDerivAt.fun_sum fun i hi => ?_
    have hi' := Finset.mem_range.1 hi
    have := (((hm.velocity i hi' k).fun_mul (hm.acceleration i hi' l)).fun_sub
      ((hm.velocity i hi' l).fun_mul (hm.acceleration i hi' k))).const_mul (w i)
    refine this.congr_deriv ?_
    rw [Finset.sum_sub_distrib, ← Finset.mul_sum, ← Finset.mul_sum, ← accel_force, ← accel_force]
    ring
  refine h.congr_deriv ?_
  rw [sum_ordered n fun i j => (p t i).coord k * (force (p t i) (p t j) (w i) (w j)).coord l -
          (p t i).coord l * (force (p t i) (p t j) (w i) (w j)).coord k]
  refine Finset.sum_eq_zero fun i _ => Finset.sum_eq_zero fun j _ => ?_
  have hsym : Spec.dist2 (p t j).coord (p t i).coord = Spec.dist2 (p t i).coord (p t j).coord := by
    unfold Spec.dist2; ring
  simp only [force_coord, Spec.newton, hsym]
  ring

lemma constant {f : ℝ → ℝ} {a b : ℝ} (hab : a ≤ b) (h : ∀ t, a ≤ t → t ≤ b → HasDerivAt f 0 t) : f b = f a :=
  constant_of_has_deriv_right_zero (fun t ht => (h t ht.1 ht.2).continuousAt.continuousWithinAt)
    (fun t ht => (h t ht.1 ht.2.le).hasDerivWithinAt) b ⟨hab, le_refl b⟩

/-- Over any stretch of exact motion the reported impulse and impulse moment do not change, close encounters or
not; nor does the reported energy while all pairs stay above the cutoff. -/
theorem constants_of_motion (n : ℕ) (p v : ℝ → ℕ → Vec3 ℝ) (w : ℕ → ℝ) (a b : ℝ) (hab : a ≤ b)
    (hw : ∑ i ∈ Finset.range n, w i ≠ 0) (hm : ∀ t, a ≤ t → t ≤ b → Motion n p v w t) :
    ∃ da db, diagnostics true true true true n (bodies n (p a) (v a) w) = .ok da ∧
      diagnostics true true true true n (bodies n (p b) (v b) w) = .ok db ∧
      db.impulce = da.impulce ∧ db.impulceMoment = da.impulceMoment ∧
      ((∀ t, a ≤ t → t ≤ b → Apart n (p t)) → db.kinetic + db.potential = da.kinetic + da.potential) := by
  obtain ⟨da, ha, a1, a2, a3, a4, -, a6, a7⟩ := C11.diagnostics_are_textbook_sums n (p a) (v a) w hw
  obtain ⟨db, hb, b1, b2, b3, b4, -, b6, b7⟩ := C11.diagnostics_are_textbook_sums n (p b) (v b) w hw
  have hP : ∀ k, db.impulce.coord k = da.impulce.coord k := by
    intro k
    rw [a1, b1]
    exact constant hab (fun t h1 h2 => momentum_deriv (hm t h1 h2) k)
  have hL : ∀ k l, _ := fun k l => constant hab (fun t h1 h2 => angular_deriv (hm t h1 h2) k l)
  refine ⟨da, db, ha, hb, Vec3.ext (hP 0) (hP 1) (hP 2), Vec3.ext ?_ ?_ ?_, fun hap => ?_⟩
  · exact b2.trans ((hL 1 2).trans a2.symm)
  · exact b3.trans ((hL 2 0).trans a3.symm)
  · exact b4.trans ((hL 0 1).trans a4.symm)
  · rw [a6, a7, b6, b7]
    refine constant (f := fun s => (∑ i ∈ Finset.range n, w i * ((v s i).x ^ 2 + (v s i).y ^ 2 + (v s i).z ^ 2) / 2) +
      Spec.potential 1e-8 n (fun i => (p s i).coord) w) hab (fun t h1 h2 => energy_deriv (hm t h1 h2) (hap t h1 h2))

/-! ### Below the cutoff -/

/-- Below the cutoff the reported potential energy is 0 whatever the motion, but the forces are not: they do work
that no reported energy accounts for. -/
theorem below_cutoff (p q : Vec3 ℝ) (m1 m2 : ℝ) (h1 : m1 ≠ 0) (h2 : m2 ≠ 0) (hpq : p ≠ q)
    (hd : Spec.dist2 p.coord q.coord < 1e-8) :
    potentialEnergy [m1, m2] [p, q] 0 1 = .ok 0 ∧ force p q m1 m2 ≠ 0 := by
  constructor
  · have := C11.potentialEnergy_eq (n := 2) (fun i => if i = 0 then p else q) (fun i => if i = 0 then m1 else m2)
      (i := 0) (j := 1) (by decide) (by decide)
    refine this.trans ?_
    simp [Spec.pairPotential, hd]
  · intro h
    apply hpq
    have hk : ∀ k, p.coord k = q.coord k := by
      intro k
      have e : (force p q m1 m2).coord k = 0 := by rw [h]; fin_cases k <;> rfl
      rw [force_coord, Spec.newton, max_eq_right hd.le] at e
      have hs : (0 : ℝ) < Real.sqrt 1e-8 ^ 3 := by
        have : (0 : ℝ) < Real.sqrt 1e-8 := Real.sqrt_pos.2 (by norm_num)
        positivity
      rcases div_eq_zero_iff.1 e with e | e
      · rcases mul_eq_zero.1 e with e | e
        · exact absurd (neg_eq_zero.1 e) (mul_ne_zero h1 h2)
        · linarith
      · exact absurd e hs.ne'
    exact Vec3.ext (hk 0) (hk 1) (hk 2)

/-- At the cutoff the reported potential energy jumps: for two bodies on a line it is 0 at every distance below
`1e-4` and `-10000 m1 m2` at `1e-4`, so no force is its gradient there. -/
theorem jump_at_cutoff (m1 m2 : ℝ) :
    (∀ r : ℝ, 0 ≤ r → r < 1e-4 → potentialEnergy [m1, m2] [⟨r, 0, 0⟩, ⟨0, 0, 0⟩] 0 1 = .ok 0) ∧
      potentialEnergy [m1, m2] [⟨1e-4, 0, 0⟩, ⟨0, 0, 0⟩] 0 1 = .ok (-(10000 * (m1 * m2))) := by
  have key : ∀ r : ℝ, potentialEnergy [m1, m2] [⟨r, 0, 0⟩, ⟨0, 0, 0⟩] 0 1 =
      .ok (Spec.pairPotential 1e-8 ![r, 0, 0] ![0, 0, 0] m1 m2) := fun r =>
    C11.potentialEnergy_eq (n := 2) (fun i => if i = 0 then ⟨r, 0, 0⟩ else ⟨0, 0, 0⟩)
      (fun i => if i = 0 then m1 else m2) (i := 0) (j := 1) (by decide) (by decide)
  have hd : ∀ r : ℝ, Spec.dist2 ![r, 0, 0] ![0, 0, 0] = r ^ 2 := by
    intro r; simp [Spec.dist2]
  refine ⟨fun r h0 h1 => ?_, ?_⟩
  · rw [key, Spec.pairPotential, hd, if_pos]
    nlinarith
  · rw [key, Spec.pairPotential, hd, if_neg (by norm_num), Real.sqrt_sq (by norm_num)]
    congr 1
    field_simp
    norm_num
    ring

/-! ### Cases -/

/-- Two bodies of mass 4 on a circle of radius 1. -/
noncomputable def circle (t : ℝ) (i : ℕ) : Vec3 ℝ :=
  if i = 0 then ⟨Real.cos t, Real.sin t, 0⟩ else ⟨-Real.cos t, -Real.sin t, 0⟩

noncomputable def circleV (t : ℝ) (i : ℕ) : Vec3 ℝ :=
  if i = 0 then ⟨-Real.sin t, Real.cos t, 0⟩ else ⟨Real.sin t, -Real.cos t, 0⟩

lemma circle_dist (t : ℝ) : Spec.dist2 (circle t 1).coord (circle t 0).coord = 4 ∧
    Spec.dist2 (circle t 0).coord (circle t 1).coord = 4 := by
  have := Real.sin_sq_add_cos_sq t
  constructor <;> simp [Spec.dist2, circle] <;> nlinarith

lemma circle_apart (t : ℝ) : Apart 2 (circle t) := by
  intro i j hi hj
  have h1 : i = 1 := by omega
  have h0 : j = 0 := by omega
  subst h1 h0
  rw [(circle_dist t).1]
  norm_num

lemma sqrt_four : Real.sqrt 4 = 2 := by
  rw [show (4 : ℝ) = 2 ^ 2 by norm_num, Real.sqrt_sq (by norm_num)]

lemma circle_motion (t : ℝ) : Motion 2 circle circleV (fun _ => 4) t where
  velocity i hi k := by
    have hc := Real.hasDerivAt_cos t
    have hs := Real.hasDerivAt_sin t
    have : i = 0 ∨ i = 1 := by omega
    rcases this with rfl | rfl <;> fin_cases k
    · exact hc
    · exact hs
    · exact hasDerivAt_const _ _
    · exact hc.fun_neg.congr_deriv (neg_neg _)
    · exact hs.fun_neg
    · exact hasDerivAt_const _ _
  acceleration i hi k := by
    have hc := Real.hasDerivAt_cos t
    have hs := Real.hasDerivAt_sin t
    have e : ∀ c s : ℝ, ∀ r : ℝ, r = max 4 1e-8 → Real.sqrt r ^ 3 = 8 := by
      rintro _ _ r rfl
      rw [max_eq_left (by norm_num), sqrt_four]
      norm_num
    have h1 : ((Finset.range 2).erase 0) = {1} := by decide
    have h2 : ((Finset.range 2).erase 1) = {0} := by decide
    have : i = 0 ∨ i = 1 := by omega
    rcases this with rfl | rfl <;> fin_cases k
    · refine hs.fun_neg.congr_deriv ?_
      simp only [Spec.accel, h1, Finset.sum_singleton, (circle_dist t).2]
      rw [e 0 0 _ rfl]
      simp [circle]
      ring
    · refine hc.congr_deriv ?_
      simp only [Spec.accel, h1, Finset.sum_singleton, (circle_dist t).2]
      rw [e 0 0 _ rfl]
      simp [circle]
      ring
    · refine (hasDerivAt_const t (0 : ℝ)).congr_deriv ?_
      simp [Spec.accel, h1, circle]
    · refine hs.congr_deriv ?_
      simp only [Spec.accel, h2, Finset.sum_singleton, (circle_dist t).1]
      rw [e 0 0 _ rfl]
      simp [circle]
      ring
    · refine hc.fun_neg.congr_deriv ?_
      simp only [Spec.accel, h2, Finset.sum_singleton, (circle_dist t).1]
      rw [e 0 0 _ rfl]
      simp [circle]
      ring
    · refine (hasDerivAt_const t (0 : ℝ)).congr_deriv ?_
      simp [Spec.accel, h2, circle]

/-- The circular orbit meets the hypotheses over any stretch of time. -/
example : ∃ da db, diagnostics true true true true 2 (bodies 2 (circle 0) (circleV 0) fun _ => 4) = .ok da ∧
    diagnostics true true true true 2 (bodies 2 (circle 7) (circleV 7) fun _ => 4) = .ok db ∧
    db.impulceMoment = da.impulceMoment ∧ db.kinetic + db.potential = da.kinetic + da.potential := by
  obtain ⟨da, db, h1, h2, _, h4, h5⟩ := constants_of_motion 2 circle circleV (fun _ => 4) 0 7 (by norm_num)
    (by norm_num) (fun t _ _ => circle_motion t)
  exact ⟨da, db, h1, h2, h4, h5 fun t _ _ => circle_apart t⟩

/-- Two bodies at half the cutoff distance. -/
example : force (⟨5e-5, 0, 0⟩ : Vec3 ℝ) ⟨0, 0, 0⟩ 1 1 ≠ 0 :=
  (below_cutoff _ _ 1 1 one_ne_zero one_ne_zero (by intro h; have := congrArg Vec3.x h; norm_num at this)
    (by simp [Spec.dist2]; norm_num)).2

/-- Bodies at distance 5: the derivative along x. -/
example : (force (⟨3, 4, 0⟩ : Vec3 ℝ) ⟨0, 0, 0⟩ 1 1).coord 0 = -3 / 125 ∧
    (1e-8 : ℝ) < Spec.dist2 (⟨3, 4, 0⟩ : Vec3 ℝ).coord (⟨0, 0, 0⟩ : Vec3 ℝ).coord := by
  have hd : Spec.dist2 (⟨3, 4, 0⟩ : Vec3 ℝ).coord (⟨0, 0, 0⟩ : Vec3 ℝ).coord = 5 ^ 2 := by
    simp [Spec.dist2]; norm_num
  refine ⟨?_, by rw [hd]; norm_num⟩
  rw [force_coord, Spec.newton, hd, max_eq_left (by norm_num), Real.sqrt_sq (by norm_num)]
  simp
  norm_num

end NB.C58
