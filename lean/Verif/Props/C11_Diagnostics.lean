import Verif.Model.Summation
import Verif.Lemmas.Vec3Group
import Verif.Props.C08_Kahan
import Mathlib.Data.List.Induction

/-
C11: the diagnostics of `print_statistics`.  Exact arithmetic.
`n` bodies with positions `p`, velocities `v`, masses `w`.
-/

namespace NB.C11

open NB.C08 (summation_exact)

/-- The body arrays. -/
def bodies (n : ℕ) (p v : ℕ → Vec3 ℝ) (w : ℕ → ℝ) : BodyData ℝ := ⟨buf n p, buf n v, buf n w⟩

lemma sum_range_mul (a b : ℕ) (f : ℕ → ℝ) :
    ∑ n ∈ Finset.range (a * b), f n = ∑ i ∈ Finset.range a, ∑ j ∈ Finset.range b, f (i * b + j) := by
  induction a with
  | zero => simp
  | succ a ih => rw [Nat.succ_mul, Finset.sum_range_add, ih, Finset.sum_range_succ]

lemma sum_pairs (n : ℕ) (φ : ℕ → ℕ → ℝ) (hs : ∀ i j, φ i j = φ j i) :
    ∑ i ∈ Finset.range n, ∑ j ∈ Finset.range n, (if i = j then 0 else φ i j) =
      2 * ∑ i ∈ Finset.range n, ∑ j ∈ Finset.range i, φ i j := by
  induction n with
  | zero => simp
  | succ n ih =>
    rw [Finset.sum_range_succ, Finset.sum_range_succ (f := fun i => ∑ j ∈ Finset.range i, φ i j), mul_add,
      ← ih]
    have h1 : ∀ i ∈ Finset.range n, ∑ j ∈ Finset.range (n + 1), (if i = j then 0 else φ i j) =
        ∑ j ∈ Finset.range n, (if i = j then 0 else φ i j) + φ i n := by
      intro i hi
      rw [Finset.sum_range_succ, if_neg (by have := Finset.mem_range.1 hi; omega)]
    rw [Finset.sum_congr rfl h1, Finset.sum_add_distrib]
    have h2 : ∑ j ∈ Finset.range (n + 1), (if n = j then 0 else φ n j) = ∑ j ∈ Finset.range n, φ n j := by
      rw [Finset.sum_range_succ, if_pos rfl, add_zero]
      apply Finset.sum_congr rfl
      intro j hj
      rw [if_neg (by have := Finset.mem_range.1 hj; omega)]
    have h3 : ∑ i ∈ Finset.range n, φ i n = ∑ j ∈ Finset.range n, φ n j :=
      Finset.sum_congr rfl fun i _ => hs i n
    rw [h2, h3]
    ring

lemma potentialEnergy_eq {n : ℕ} (p : ℕ → Vec3 ℝ) (w : ℕ → ℝ) {i j : ℕ} (hi : i < n) (hj : j < n) :
    potentialEnergy (buf n w) (buf n p) i j =
      .ok (Spec.pairPotential 1e-8 (p i).coord (p j).coord (w i) (w j)) := by
  simp only [potentialEnergy, rd_buf hi, rd_buf hj, res_ok_bind, norm_eq_dist2, real_lt, real_minDist,
    Spec.pairPotential, decide_eq_true_eq, real_sqrt, one_mul]
  split <;> rfl

lemma pairPotential_comm (eps : ℝ) (p q : Fin 3 → ℝ) (a b : ℝ) :
    Spec.pairPotential eps p q a b = Spec.pairPotential eps q p b a := by
  have : Spec.dist2 p q = Spec.dist2 q p := by unfold Spec.dist2; ring
  unfold Spec.pairPotential
  rw [this, mul_comm a b]

/-- Potential energy: the sum over `n²` index pairs, halved, is the sum over unordered pairs. -/
theorem potential_counts_each_pair_once (n : ℕ) (p v : ℕ → Vec3 ℝ) (w : ℕ → ℝ) :
    ∃ s, summation (potentialEnergyProxy n (bodies n p v w)) (n * n) = .ok s ∧
      s / 2 = Spec.potential 1e-8 n (fun i => (p i).coord) w := by
  have hg : ∀ k, k < n * n → potentialEnergyProxy n (bodies n p v w) k =
      .ok (if k / n = k % n then 0
        else Spec.pairPotential 1e-8 (p (k / n)).coord (p (k % n)).coord (w (k / n)) (w (k % n))) := by
    intro k hk
    have hn : n ≠ 0 := by rintro rfl; simp at hk
    have h1 : k / n < n := Nat.div_lt_of_lt_mul hk
    have h2 : k % n < n := Nat.mod_lt _ (by omega)
    simp only [potentialEnergyProxy, hn, if_false, bodies]
    split
    · rfl
    · exact potentialEnergy_eq p w h1 h2
  refine ⟨_, summation_exact _ _ _ hg, ?_⟩
  rw [sum_range_mul]
  have : ∀ i ∈ Finset.range n, ∀ j ∈ Finset.range n,
      (if (i * n + j) / n = (i * n + j) % n then (0 : ℝ)
        else Spec.pairPotential 1e-8 (p ((i * n + j) / n)).coord (p ((i * n + j) % n)).coord
          (w ((i * n + j) / n)) (w ((i * n + j) % n))) =
      if i = j then 0 else Spec.pairPotential 1e-8 (p i).coord (p j).coord (w i) (w j) := by
    intro i _ j hj
    have hj := Finset.mem_range.1 hj
    have e1 : (i * n + j) / n = i := by
      rw [Nat.mul_comm, Nat.mul_add_div (by omega), Nat.div_eq_of_lt hj, Nat.add_zero]
    have e2 : (i * n + j) % n = j := by rw [Nat.mul_comm, Nat.mul_add_mod, Nat.mod_eq_of_lt hj]
    rw [e1, e2]
  rw [Finset.sum_congr rfl fun i hi => Finset.sum_congr rfl (this i hi),
    sum_pairs n (fun i j => Spec.pairPotential 1e-8 (p i).coord (p j).coord (w i) (w j))
      (fun i j => pairPotential_comm _ _ _ _ _)]
  unfold Spec.potential
  ring

lemma coord_smul (v : Vec3 ℝ) (a : ℝ) (k : Fin 3) : (v.smul a).coord k = v.coord k * a := by
  fin_cases k <;> rfl

/-- All diagnostics of one `print_statistics` call with the check list "PLEV": every one of them is its
textbook sum.  The mass centre needs a non-zero total mass. -/
theorem diagnostics_are_textbook_sums (n : ℕ) (p v : ℕ → Vec3 ℝ) (w : ℕ → ℝ)
    (hw : ∑ i ∈ Finset.range n, w i ≠ 0) :
    ∃ d, diagnostics true true true true n (bodies n p v w) = .ok d ∧
      (∀ k, d.impulce.coord k = ∑ i ∈ Finset.range n, w i * (v i).coord k) ∧
      (d.impulceMoment.coord 0 = ∑ i ∈ Finset.range n, w i * ((p i).y * (v i).z - (p i).z * (v i).y)) ∧
      (d.impulceMoment.coord 1 = ∑ i ∈ Finset.range n, w i * ((p i).z * (v i).x - (p i).x * (v i).z)) ∧
      (d.impulceMoment.coord 2 = ∑ i ∈ Finset.range n, w i * ((p i).x * (v i).y - (p i).y * (v i).x)) ∧
      (∀ k, d.massCenter.coord k * ∑ i ∈ Finset.range n, w i =
        ∑ i ∈ Finset.range n, w i * (p i).coord k) ∧
      d.kinetic = ∑ i ∈ Finset.range n, w i * ((v i).x ^ 2 + (v i).y ^ 2 + (v i).z ^ 2) / 2 ∧
      d.potential = Spec.potential 1e-8 n (fun i => (p i).coord) w := by
  obtain ⟨s, hs, hpot⟩ := potential_counts_each_pair_once n p v w
  have hP := summation_exact (fun i => (v i).smul (w i)) (impulceProxy (bodies n p v w)) n
    (fun i hi => by simp [impulceProxy, bodies, rd_buf hi])
  have hL := summation_exact (fun i => (p i).cross ((v i).smul (w i))) (impulceMomentProxy (bodies n p v w)) n
    (fun i hi => by simp [impulceMomentProxy, bodies, rd_buf hi])
  have hK := summation_exact (fun i => (v i).norm * w i) (kineticEnergyProxy (bodies n p v w)) n
    (fun i hi => by simp [kineticEnergyProxy, bodies, rd_buf hi])
  have hM := summation_exact w (rd (bodies n p v w).mass) n (fun i hi => by simp [bodies, rd_buf hi])
  have hC := summation_exact (fun i => (p i).smul (w i)) (massCenterProxy (bodies n p v w)) n
    (fun i hi => by simp [massCenterProxy, bodies, rd_buf hi])
  refine ⟨_, by simp only [diagnostics, if_true, hP, hL, hK, hs, hM, hC, res_ok_bind, res_pure]; rfl, ?_⟩
  refine ⟨?_, ?_, ?_, ?_, ?_, ?_, ?_⟩
  · intro k
    rw [Vec3.sum_coord]
    exact Finset.sum_congr rfl fun i _ => by rw [coord_smul, mul_comm]
  · rw [Vec3.sum_coord]
    exact Finset.sum_congr rfl fun i _ => by simp only [Vec3.coord_zero, Vec3.cross, Vec3.smul]; ring
  · rw [Vec3.sum_coord]
    exact Finset.sum_congr rfl fun i _ => by simp only [Vec3.coord_one, Vec3.cross, Vec3.smul]; ring
  · rw [Vec3.sum_coord]
    exact Finset.sum_congr rfl fun i _ => by simp only [Vec3.coord_two, Vec3.cross, Vec3.smul]; ring
  · intro k
    have : ∀ (u : Vec3 ℝ) (a : ℝ), (u.sdiv a).coord k = u.coord k / a := by
      intro u a; fin_cases k <;> rfl
    simp only [this]
    rw [div_mul_cancel₀ _ hw, Vec3.sum_coord]
    exact Finset.sum_congr rfl fun i _ => by rw [coord_smul, mul_comm]
  · simp only [real_lit, Vec3.norm]
    rw [Finset.sum_div]
    refine Finset.sum_congr rfl fun i _ => ?_
    push_cast
    ring
  · simp only [real_lit]
    rw [← hpot]
    norm_num

/-- The default check list "PLV" leaves the energies at 0. -/
theorem default_check_list_has_no_energy (n : ℕ) (p v : ℕ → Vec3 ℝ) (w : ℕ → ℝ) :
    ∃ d, diagnostics true true false true n (bodies n p v w) = .ok d ∧ d.kinetic = 0 ∧ d.potential = 0 := by
  have hP := summation_exact (fun i => (v i).smul (w i)) (impulceProxy (bodies n p v w)) n
    (fun i hi => by simp [impulceProxy, bodies, rd_buf hi])
  have hL := summation_exact (fun i => (p i).cross ((v i).smul (w i))) (impulceMomentProxy (bodies n p v w)) n
    (fun i hi => by simp [impulceMomentProxy, bodies, rd_buf hi])
  have hM := summation_exact w (rd (bodies n p v w).mass) n (fun i hi => by simp [bodies, rd_buf hi])
  have hC := summation_exact (fun i => (p i).smul (w i)) (massCenterProxy (bodies n p v w)) n
    (fun i hi => by simp [massCenterProxy, bodies, rd_buf hi])
  exact ⟨_, by simp only [diagnostics, if_true, Bool.false_eq_true, if_false, hP, hL, hM, hC, res_ok_bind,
    res_pure]; rfl, rfl, rfl⟩

/-- The reference values are those of the first call, whatever happens later: after any number of calls
the stored initial values are the ones computed by the first call. -/
theorem initial_values_are_of_first_call {S : Type} (flags : Bool × Bool × Bool × Bool)
    (first : Diagnostics S) (later : List (Diagnostics S)) (st : StatState S)
    (h : st.initialComputed = false) :
    ((first :: later).foldl
      (fun st cur => statUpdate flags.1 flags.2.1 flags.2.2.1 flags.2.2.2 cur st) st).initial = first := by
  have key : ∀ (l : List (Diagnostics S)) (st : StatState S), st.initialComputed = true →
      (l.foldl (fun st cur => statUpdate flags.1 flags.2.1 flags.2.2.1 flags.2.2.2 cur st) st).initial
        = st.initial := by
    intro l
    induction l with
    | nil => intro st _; rfl
    | cons c l ih =>
      intro st hst
      rw [List.foldl_cons, ih _ rfl]
      simp [statUpdate, hst]
  rw [List.foldl_cons, key _ _ rfl]
  simp [statUpdate, h]

/-- One call of `print_statistics` as the user sees it: the check list and the values computed. -/
structure Call (S : Type) where
  P : Bool
  L : Bool
  E : Bool
  V : Bool
  cur : Diagnostics S

/-- A history of calls. -/
def calls {S : Type} (st : StatState S) (l : List (Call S)) : StatState S :=
  l.foldl (fun st c => statUpdate c.P c.L c.E c.V c.cur st) st

lemma getLastD_filter_snoc {α β : Type} (l : List α) (c : α) (want : α → Bool) (val : α → β) (d : β) :
    (((l ++ [c]).filter want).map val).getLastD d =
      if want c then val c else ((l.filter want).map val).getLastD d := by
  by_cases h : want c <;> simp [List.filter_append, h]

/-- **The stored last values are those of the last call that asked for them**: after any sequence of calls
with any check lists, each of the five quantities is the value computed by the most recent call whose check
list contains its letter, and the old value if no call asked for it. -/
theorem last_values_are_of_last_request {S : Type} (st : StatState S) (l : List (Call S)) :
    (calls st l).last.impulce = ((l.filter (·.P)).map (·.cur.impulce)).getLastD st.last.impulce ∧
    (calls st l).last.impulceMoment =
      ((l.filter (·.L)).map (·.cur.impulceMoment)).getLastD st.last.impulceMoment ∧
    (calls st l).last.massCenter = ((l.filter (·.V)).map (·.cur.massCenter)).getLastD st.last.massCenter ∧
    (calls st l).last.kinetic = ((l.filter (·.E)).map (·.cur.kinetic)).getLastD st.last.kinetic ∧
    (calls st l).last.potential = ((l.filter (·.E)).map (·.cur.potential)).getLastD st.last.potential := by
  induction l using List.reverseRecOn with
  | nil => exact ⟨rfl, rfl, rfl, rfl, rfl⟩
  | append_singleton l c ih =>
    obtain ⟨h1, h2, h3, h4, h5⟩ := ih
    have e : calls st (l ++ [c]) = statUpdate c.P c.L c.E c.V c.cur (calls st l) := by
      simp [calls, List.foldl_append]
    rw [e]
    simp only [getLastD_filter_snoc]
    rw [← h1, ← h2, ← h3, ← h4, ← h5]
    exact ⟨rfl, rfl, rfl, rfl, rfl⟩

/-- A call with energies followed by one with the default check list: the energies stay. -/
example : (calls (S := ℕ) ⟨false, ⟨⟨0, 0, 0⟩, ⟨0, 0, 0⟩, ⟨0, 0, 0⟩, 0, 0⟩, ⟨⟨0, 0, 0⟩, ⟨0, 0, 0⟩, ⟨0, 0, 0⟩, 0, 0⟩⟩
    [⟨true, true, true, true, ⟨⟨1, 0, 0⟩, ⟨0, 0, 0⟩, ⟨0, 0, 0⟩, 5, 6⟩⟩,
     ⟨true, true, false, true, ⟨⟨2, 0, 0⟩, ⟨0, 0, 0⟩, ⟨0, 0, 0⟩, 0, 0⟩⟩]).last =
    ⟨⟨2, 0, 0⟩, ⟨0, 0, 0⟩, ⟨0, 0, 0⟩, 5, 6⟩ := rfl

/-- Two unit masses at distance 2: total mass is not zero and the pair is above the cutoff. -/
example : ∑ i ∈ Finset.range 2, (fun _ : ℕ => (1 : ℝ)) i ≠ 0 ∧
    Spec.potential 1e-8 2 (fun i => ![2 * (i : ℝ), 0, 0]) (fun _ => 1) = -1 / 2 := by
  refine ⟨by norm_num, ?_⟩
  have h4 : Real.sqrt 4 = 2 := by
    rw [show (4 : ℝ) = 2 ^ 2 by norm_num]; exact Real.sqrt_sq (by norm_num)
  simp [Spec.potential, Spec.pairPotential, Spec.dist2, Finset.sum_range_succ]
  norm_num [h4]

end NB.C11
