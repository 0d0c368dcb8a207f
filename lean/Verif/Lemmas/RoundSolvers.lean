import Verif.Lemmas.RoundCalls
import Verif.Lemmas.RoundSteps
import Verif.Lemmas.NewtonLipschitz

/-
The programs of the explicit solvers, in rounded arithmetic, make rounded steps of their schemes.
-/

namespace NB

open Finset
open _root_.Spec (Buffers Outcome Terms put put_ne put_same outcome_bind outcome_op outcome_forN outcome_pure outcome_maxabs
  sumFrom_err foldl_err term_err terms_eq slot_ne)

/-- The constant for `K` roundings in a row. -/
noncomputable def kappa (u : ℝ) (K : ℕ) : ℝ := ((1 - u) ^ K)⁻¹ - 1

lemma kappa_nonneg {u : ℝ} (h0 : 0 ≤ u) (hu : u < 1) (K : ℕ) : 0 ≤ kappa u K := by
  have := (one_le_inv₀ (Rel.pow_pos' hu K)).2 (Rel.pow_le' h0 hu K)
  unfold kappa
  linarith

lemma kappa_mono {u : ℝ} (h0 : 0 ≤ u) (hu : u < 1) {K L : ℕ} (h : K ≤ L) : kappa u K ≤ kappa u L := by
  have hp : (1 - u) ^ L ≤ (1 - u) ^ K := pow_le_pow_of_le_one (by linarith) (by linarith) h
  have := inv_anti₀ (Rel.pow_pos' hu L) hp
  unfold kappa
  linarith

lemma kappa_le {u : ℝ} (h0 : 0 ≤ u) {K : ℕ} (hK : K * u ≤ 1 / 2) (hu : u < 1) : kappa u K ≤ 2 * K * u := by
  have e : |((1 - u) ^ K)⁻¹ - 1| = kappa u K := abs_of_nonneg (kappa_nonneg h0 hu K)
  have h : Err u K 1 ((1 - u) ^ K)⁻¹ 1 := by
    refine ⟨by simp, ?_⟩
    rw [e, mul_one, kappa]
  have h1 := h.gamma_le (by linarith)
  rw [e, mul_one] at h1
  refine h1.trans ?_
  unfold Spec.gamma
  rw [div_le_iff₀ (by linarith)]
  nlinarith [mul_nonneg (Nat.cast_nonneg (α := ℝ) K) h0]

section
variable {S : Type} [Add S] [Sub S] [Mul S] [Neg S] [Div S] [Zero S] [One S] [FOps S] {val : S → ℝ} {u : ℝ}

/-- The numbers in a state of `N` numbers. -/
def vec (N : ℕ) (val : S → ℝ) (Y : ℕ → S) : Fin N → ℝ := firstN N fun j => val (Y j)

lemma list_range_sum (f : ℕ → ℝ) (i : ℕ) : ((List.range i).map f).sum = ∑ l ∈ range i, f l := by
  induction i with
  | zero => rfl
  | succ i ih => rw [List.range_succ, List.map_append, List.sum_append, ih, sum_range_succ]; simp

omit [Add S] [Sub S] [Mul S] [Neg S] [Div S] [Zero S] [One S] [FOps S] in
/-- From numbers to states. -/
lemma vec_sum {N K i : ℕ} (h0 : 0 ≤ u) (hu : u < 1) {x y : ℕ → S} {V : Buffers S} {hk : ℕ → ℕ} {c : ℕ → S} {a : ℕ → ℝ} {hR : ℝ} (hR0 : 0 ≤ hR)
    (h : ∀ j, Err u K (val (y j) + Terms.sum val V j ((List.range i).map fun l => (hk l, c l, hR * a l))) (val (x j))
      (|val (y j)| + Terms.size val V j ((List.range i).map fun l => (hk l, c l, hR * a l)))) :
    ‖vec N val x - (vec N val y + hR • ∑ l ∈ range i, a l • vec N val (V (hk l)))‖ ≤
      kappa u K * (‖vec N val y‖ + hR * ∑ l ∈ range i, |a l| * ‖vec N val (V (hk l))‖) := by
  have hκ := kappa_nonneg h0 hu K
  rw [pi_norm_le_iff_of_nonneg (by positivity)]
  intro j
  have hj := (h j).2
  have e1 : Terms.sum val V j ((List.range i).map fun l => (hk l, c l, hR * a l)) =
      hR * ∑ l ∈ range i, a l * val (V (hk l) j) := by
    unfold Terms.sum
    rw [List.map_map, list_range_sum, mul_sum]
    exact sum_congr rfl fun l _ => by simp only [Function.comp]; ring
  have e2 : Terms.size val V j ((List.range i).map fun l => (hk l, c l, hR * a l)) =
      hR * ∑ l ∈ range i, |a l| * |val (V (hk l) j)| := by
    unfold Terms.size
    rw [List.map_map, list_range_sum, mul_sum]
    exact sum_congr rfl fun l _ => by simp only [Function.comp, abs_mul, abs_of_nonneg hR0]; ring
  rw [e1, e2] at hj
  rw [Real.norm_eq_abs]
  have e3 : (vec N val x - (vec N val y + hR • ∑ l ∈ range i, a l • vec N val (V (hk l)))) j =
      val (x j) - (val (y j) + hR * ∑ l ∈ range i, a l * val (V (hk l) j)) := by
    simp [vec]
  rw [e3]
  refine hj.trans (mul_le_mul_of_nonneg_left (add_le_add ?_ (mul_le_mul_of_nonneg_left (sum_le_sum fun l _ =>
    mul_le_mul_of_nonneg_left ?_ (abs_nonneg _)) hR0)) hκ)
  · exact norm_le_pi_norm (vec N val y) j
  · exact norm_le_pi_norm (vec N val (V (hk l))) j

variable {h : Slot → Handle} {deriv : (ℕ → S) → ℕ → S} {n : ℕ}

omit [Add S] [Sub S] [Mul S] [Neg S] [Div S] [Zero S] [One S] [FOps S] in
lemma range_terms (hk : ℕ → ℕ) (c : ℕ → S) (a : ℕ → ℝ) (hR : ℝ) (i : ℕ) :
    ((List.range i).map fun l => (hk l, c l, hR * a l) : Terms S).map (fun t => (t.1, t.2.1)) =
      (List.range i).map fun l => (hk l, c l) := by
  rw [List.map_map]; rfl

/-- `fmaddn` with an addend. -/
lemma stage_call (F : Spec.FloatOps val u) (h0 : 0 ≤ u) (hu : u < 1) (N : ℕ) {L i q : ℕ} (hi : i ≤ L) {c : ℕ → S} {a : ℕ → ℝ} {hR : ℝ}
    (hR0 : 0 < hR) (hc : ∀ l, l < i → Rel u q (hR * a l) (val (c l))) (hne : ∃ l, l < i ∧ a l ≠ 0) {t : ℕ}
    (ht : ∀ l, h (.k l) ≠ t) (b : ℕ) (V : Buffers S) :
    ∃ x, Spec.call deriv n V (.fmaddn t (some b) (kbufs h L) (buf i c) i) = put V t x ∧
      ‖vec N val x - (vec N val (V b) + hR • ∑ l ∈ range i, a l • vec N val (V (h (.k l))))‖ ≤
        kappa u (q + 1 + i) * (‖vec N val (V b)‖ + hR * ∑ l ∈ range i, |a l| * ‖vec N val (V (h (.k l)))‖) := by
  obtain ⟨x, h1, h2⟩ := sumFrom_err F h0 hu (a := t) (b := b) (c := q)
    ((List.range i).map fun l => (h (.k l), c l, hR * a l) : Terms S) (by
      intro t ht'
      obtain ⟨l, -, rfl⟩ := List.mem_map.1 ht'
      exact ht l) (by
      intro t ht'
      obtain ⟨l, hl, rfl⟩ := List.mem_map.1 ht'
      exact hc l (List.mem_range.1 hl)) (by
      obtain ⟨l, hl, hn⟩ := hne
      exact ⟨_, List.mem_map.2 ⟨l, List.mem_range.2 hl, rfl⟩, mul_ne_zero hR0.ne' hn⟩) V
  refine ⟨x, ?_, vec_sum (c := c) h0 hu hR0.le fun j => ?_⟩
  · show Spec.sumFrom t b V (((kbufs h L).zip (buf i c)).take i) = _
    rw [terms_eq h hi, ← h1]
    congr 1
    exact (range_terms _ _ _ _ _).symm
  · have := h2 j
    rwa [List.length_map, List.length_range] at this

/-- `fmaddn_inplace`. -/
lemma inplace_err (F : Spec.FloatOps val u) (h0 : 0 ≤ u) (hu : u < 1) (N : ℕ) {L i q : ℕ} (hi : i ≤ L) {c : ℕ → S} {a : ℕ → ℝ} {hR : ℝ}
    (hR0 : 0 < hR) (hc : ∀ l, l < i → Rel u q (hR * a l) (val (c l))) {t : ℕ} (ht : ∀ l, h (.k l) ≠ t) (V : Buffers S) :
    ∃ x, Spec.call deriv n V (.fmaddnInplace t (kbufs h L) (buf i c) i) = put V t x ∧
      ‖vec N val x - (vec N val (V t) + hR • ∑ l ∈ range i, a l • vec N val (V (h (.k l))))‖ ≤
        kappa u (q + 1 + i) * (‖vec N val (V t)‖ + hR * ∑ l ∈ range i, |a l| * ‖vec N val (V (h (.k l)))‖) := by
  obtain ⟨x, h1, h2⟩ := foldl_err F h0 hu (a := t) (c := q)
    ((List.range i).map fun l => (h (.k l), c l, hR * a l) : Terms S) (by
      intro t ht'
      obtain ⟨l, -, rfl⟩ := List.mem_map.1 ht'
      exact ht l) (by
      intro t ht'
      obtain ⟨l, hl, rfl⟩ := List.mem_map.1 ht'
      exact hc l (List.mem_range.1 hl)) V
  refine ⟨x, ?_, vec_sum (c := c) h0 hu hR0.le fun j => ?_⟩
  · show (((kbufs h L).zip (buf i c)).take i).foldl (Spec.addTerm t) V = _
    rw [terms_eq h hi, ← h1]
    congr 1
    exact (range_terms _ _ _ _ _).symm
  · have := h2 j (val (V t j)) |val (V t j)| (q + 1) le_rfl ((Err.of_rel h0 hu (Rel.refl u _)).mono h0 hu (by omega))
    rwa [List.length_map, List.length_range] at this

/-- One term only. -/
lemma single_err (F : Spec.FloatOps val u) (h0 : 0 ≤ u) (hu : u < 1) (N : ℕ) {q : ℕ} {c : S} {a hR : ℝ} (hR0 : 0 ≤ hR)
    (hc : Rel u q (hR * a) (val c)) (y k : ℕ → S) :
    ‖vec N val (fun j => y j + k j * c) - (vec N val y + hR • a • vec N val k)‖ ≤
      kappa u (q + 2) * (‖vec N val y‖ + hR * (|a| * ‖vec N val k‖)) := by
  have := vec_sum (N := N) (K := q + 2) (i := 1) h0 hu (x := fun j => y j + k j * c) (y := y) (V := fun _ => k) (hk := fun _ => 0)
    (c := fun _ => c) (a := fun _ => a) hR0 (fun j => by
      have h1 := term_err F h0 hu (K := q + 1) (y := k j) hc le_rfl
        ((Err.of_rel h0 hu (Rel.refl u (val (y j)))).mono h0 hu (by omega))
      simpa [Terms.sum, Terms.size] using h1)
  simpa using this

/-! ### The schemes with their own code -/

/-- Every result of the program, from any contents of the buffers, is a walk of rounded steps of the scheme whose lengths add up to
the step. -/
def Makes (val : S → ℝ) (u : ℝ) (s : ℕ) (a : ℕ → ℕ → ℝ) (b : ℕ → ℝ) (D K : ℕ) (y : ℕ) (dt : S) {α : Type} (p : Act S α) : Prop :=
  ∀ (n N : ℕ) (f : (Fin N → ℝ) → Fin N → ℝ) (θ : ℝ) (deriv : (ℕ → S) → ℕ → S),
    (∀ Y, ‖vec N val (deriv Y) - f (vec N val Y)‖ ≤ θ) → ∀ (V : Buffers S) (r : α × Buffers S), Outcome deriv n p V r → 0 < val dt →
    ∃ hs : List ℝ, hs.sum = val dt ∧ (∀ h ∈ hs, val dt / D ≤ h ∧ h ≤ val dt) ∧
      Walk (RoundedStep f (kappa u K) θ s a b) hs (vec N val (V y)) (vec N val (r.2 y))

omit [Add S] [Sub S] [Mul S] [Neg S] [Div S] [Zero S] [One S] [FOps S] in
lemma walk_one {N : ℕ} {P : ℝ → (Fin N → ℝ) → (Fin N → ℝ) → Prop} {dt : S} {y y' : Fin N → ℝ} (h : P (val dt) y y') :
    ∃ hs : List ℝ, hs.sum = val dt ∧ (∀ h ∈ hs, val dt / (1 : ℕ) ≤ h ∧ h ≤ val dt) ∧ Walk P hs y y' :=
  ⟨[val dt], by simp, by simp, _, h, rfl⟩

lemma lit_rel (F : Spec.FloatOps val u) (h0 : 0 ≤ u) (hu : u < 1) (k : ℕ) : Rel u 1 (k : ℝ) (val (FOps.lit k)) := by
  refine (Rel.refl u _).round hu h0 ?_
  rw [abs_of_nonneg (show (0 : ℝ) ≤ k from Nat.cast_nonneg k)]
  exact F.lit k

lemma part_rel (F : Spec.FloatOps val u) (h0 : 0 ≤ u) (hu : u < 1) {q k : ℕ} (hk : 0 < k) {hR : ℝ} {dt : S} (hd : Rel u q hR (val dt)) :
    Rel u (q + 2) (hR * (1 / k)) (val (dt / FOps.lit k)) := by
  have := div_rel F.toFloatModel h0 hu hd (lit_rel F h0 hu k) (by positivity)
  rwa [div_eq_mul_one_div] at this

omit [Add S] [Sub S] [Mul S] [Neg S] [Div S] [Zero S] [One S] [FOps S] in
theorem put_slot' (hh : Function.Injective h) (V : Buffers S) (s w : Slot) (x : ℕ → S) :
    put V (h s) x (h w) = if w = s then x else V (h w) := by
  unfold put
  by_cases e : w = s
  · rw [if_pos e, if_pos (by rw [e])]
  · rw [if_neg e, if_neg fun e' => e (hh e')]

lemma euler_makes (F : Spec.FloatOps val u) (h0 : 0 ≤ u) (hu : u < 1) (hh : Function.Injective h) (dt : S) :
    Makes val u 1 (fun _ _ => 0) (fun _ => 1) 1 2 (h .y) dt (eulerCalls h dt) := by
  intro n N f θ deriv hD V r hr hdt
  simp only [eulerCalls, outcome_bind, outcome_op] at hr
  obtain ⟨q, rfl, rfl⟩ := hr
  refine walk_one ⟨fun _ => vec N val (deriv (V (h .y))), fun _ => vec N val (V (h .y)), fun i _ => hD _, fun i hi => ?_, ?_⟩
  · have : kappa u 2 ≥ 0 := kappa_nonneg h0 hu 2
    simp only [zero_smul, sum_const_zero, smul_zero, add_zero, sub_self, norm_zero]
    positivity
  · have := single_err F h0 hu N (q := 0) (c := dt) (a := 1) hdt.le (by rw [mul_one]; exact Rel.refl u _) (V (h .y)) (deriv (V (h .y)))
    simp only [Spec.call, put_slot' hh]
    simpa using this

/-- The midpoint scheme. -/
noncomputable def midA (i j : ℕ) : ℝ := if i = 1 ∧ j = 0 then 1 / 2 else 0
/-- The midpoint scheme. -/
def midB (i : ℕ) : ℝ := if i = 0 then 0 else 1

lemma midpoint_makes (F : Spec.FloatOps val u) (h0 : 0 ≤ u) (hu : u < 1) (hh : Function.Injective h) (dt : S) :
    Makes val u 2 midA midB 1 4 (h .y) dt (midpointCalls h dt) := by
  intro n N f θ deriv hD V r hr hdt
  simp only [midpointCalls, outcome_bind, outcome_op] at hr
  obtain ⟨q1, rfl, q2, rfl, q3, rfl, hr⟩ := hr
  obtain ⟨Y, hY⟩ : ∃ Y, Y = V (h .y) := ⟨_, rfl⟩
  obtain ⟨t, ht⟩ : ∃ t : ℕ → S, t = fun j => Y j + deriv Y j * (dt / FOps.lit 2) := ⟨_, rfl⟩
  refine walk_one ⟨fun i => vec N val (if i = 0 then deriv Y else deriv t), fun i => vec N val (if i = 0 then Y else t),
    fun i _ => ?_, fun i hi => ?_, ?_⟩
  · by_cases hi : i = 0
    · simp only [if_pos hi]; exact hD _
    · simp only [if_neg hi]; exact hD _
  · have : kappa u 4 ≥ 0 := kappa_nonneg h0 hu 4
    interval_cases i
    · simp [hY]; positivity
    · have := single_err F h0 hu N (q := 2) (c := dt / FOps.lit 2) (a := 1 / 2) hdt.le (part_rel F h0 hu (q := 0) (by norm_num) (Rel.refl u _))
        Y (deriv Y)
      simpa [midA, ← ht, ← hY] using this
  · have h2 := single_err F h0 hu N (q := 0) (c := dt) (a := 1) hdt.le (by rw [mul_one]; exact Rel.refl u _) Y (deriv t)
    have hk := kappa_mono h0 hu (show 2 ≤ 4 by norm_num)
    have e : r.2 (h .y) = fun j => Y j + deriv t j * dt := by
      rw [hr]
      simp only [Spec.call, put_slot' hh]
      simp [ht, hY]
    rw [e, ← hY]
    have h3 := h2.trans (mul_le_mul_of_nonneg_right hk (by positivity))
    simpa [midB, sum_range_succ] using h3

lemma rk4_makes (F : Spec.FloatOps val u) (h0 : 0 ≤ u) (hu : u < 1) (hh : Function.Injective h) (dt : S) :
    Makes val u 4 (C16.classicA (K := ℝ)) (C16.classicB (K := ℝ)) 1 7 (h .y) dt (rk4Calls h dt) := by
  intro n N f θ deriv hD V r hr hdt
  simp only [rk4Calls, outcome_bind, outcome_op] at hr
  obtain ⟨q1, rfl, q2, rfl, q3, rfl, q4, rfl, q5, rfl, q6, rfl, q7, rfl, hr⟩ := hr
  obtain ⟨Y, hY⟩ : ∃ Y, Y = V (h .y) := ⟨_, rfl⟩
  obtain ⟨t1, ht1⟩ : ∃ t : ℕ → S, t = fun j => Y j + deriv Y j * (dt / FOps.lit 2) := ⟨_, rfl⟩
  obtain ⟨t2, ht2⟩ : ∃ t : ℕ → S, t = fun j => Y j + deriv t1 j * (dt / FOps.lit 2) := ⟨_, rfl⟩
  obtain ⟨t3, ht3⟩ : ∃ t : ℕ → S, t = fun j => Y j + deriv t2 j * dt := ⟨_, rfl⟩
  obtain ⟨tt, htt⟩ : ∃ tt : ℕ → ℕ → S, tt = fun i => if i = 0 then Y else if i = 1 then t1 else if i = 2 then t2 else t3 := ⟨_, rfl⟩
  obtain ⟨W, hW⟩ : ∃ W, W = Spec.call deriv n (Spec.call deriv n (Spec.call deriv n (Spec.call deriv n (Spec.call deriv n
    (Spec.call deriv n (Spec.call deriv n V (.fcompute (h .y) (h (.k 0)))) (.fmadd (h .t) (h .y) (h (.k 0)) (dt / FOps.lit 2)))
    (.fcompute (h .t) (h (.k 1)))) (.fmadd (h .t) (h .y) (h (.k 1)) (dt / FOps.lit 2))) (.fcompute (h .t) (h (.k 2))))
    (.fmadd (h .t) (h .y) (h (.k 2)) dt)) (.fcompute (h .t) (h (.k 3))) := ⟨_, rfl⟩
  have hr2 : r.2 = Spec.call deriv n W (.fmaddnInplace (h .y) (kbufs h 4)
      [dt / FOps.lit 6, dt / FOps.lit 3, dt / FOps.lit 3, dt / FOps.lit 6] 4) := by rw [hr, hW]
  clear hr
  have w1 : W (h .y) = Y := by rw [hW, hY]; simp [Spec.call, put_slot' hh]
  have w2 : ∀ i, i < 4 → W (h (.k i)) = deriv (tt i) := by
    intro i hi
    rw [hW]
    interval_cases i <;> simp [Spec.call, put_slot' hh, htt, ht1, ht2, ht3, hY]
  have half : Rel u 2 (val dt * (1 / 2)) (val (dt / FOps.lit 2)) := by
    simpa using part_rel F h0 hu (q := 0) (k := 2) (by norm_num) (Rel.refl u (val dt))
  have hκ : ∀ m, m ≤ 7 → kappa u m ≤ kappa u 7 := fun m hm => kappa_mono h0 hu hm
  have up : ∀ {m : ℕ} {A B : ℝ}, m ≤ 7 → 0 ≤ B → A ≤ kappa u m * B → A ≤ kappa u 7 * B := fun hm hB hA =>
    hA.trans (mul_le_mul_of_nonneg_right (hκ _ hm) hB)
  refine walk_one ⟨fun i => vec N val (deriv (tt i)), fun i => vec N val (tt i), fun i _ => hD _, fun i hi => ?_, ?_⟩
  · rw [← hY]
    have : kappa u 7 ≥ 0 := kappa_nonneg h0 hu 7
    interval_cases i
    · simp [htt]; positivity
    · have := up (by norm_num) (by positivity) (single_err F h0 hu N hdt.le half Y (deriv Y))
      simpa [htt, C16.classicA, ← ht1] using this
    · have := up (by norm_num) (by positivity) (single_err F h0 hu N hdt.le half Y (deriv t1))
      simpa [htt, C16.classicA, ← ht2, sum_range_succ] using this
    · have := up (by norm_num) (by positivity) (single_err F h0 hu N (q := 0) (c := dt) (a := 1) hdt.le
        (by rw [mul_one]; exact Rel.refl u _) Y (deriv t2))
      simpa [htt, C16.classicA, ← ht3, sum_range_succ] using this
  · obtain ⟨x, hx1, hx2⟩ := inplace_err (h := h) (deriv := deriv) (n := n) F h0 hu N (L := 4) (i := 4) (q := 2) le_rfl
      (c := fun i => if i = 1 ∨ i = 2 then dt / FOps.lit 3 else dt / FOps.lit 6) (a := C16.classicB (K := ℝ)) hdt (by
        intro l hl
        unfold C16.classicB
        split_ifs
        · simpa using part_rel F h0 hu (q := 0) (k := 3) (by norm_num) (Rel.refl u (val dt))
        · simpa using part_rel F h0 hu (q := 0) (k := 6) (by norm_num) (Rel.refl u (val dt))) (t := h .y)
      (fun l => slot_ne hh (by simp)) W
    have e : r.2 (h .y) = x := by
      rw [hr2, show Spec.call deriv n W (.fmaddnInplace (h .y) (kbufs h 4)
        [dt / FOps.lit 6, dt / FOps.lit 3, dt / FOps.lit 3, dt / FOps.lit 6] 4) = put W (h .y) x from hx1, put_same]
    rw [e, ← hY]
    rw [w1] at hx2
    have g1 : ∀ i ∈ range 4, W (h (.k i)) = deriv (tt i) := fun i hi => w2 i (mem_range.1 hi)
    rw [sum_congr rfl fun i hi => by rw [g1 i hi], sum_congr (g := fun i => |C16.classicB i| * ‖vec N val (deriv (tt i))‖) rfl
      fun i hi => by rw [g1 i hi]] at hx2
    exact hx2

/-- The trapeze loop. -/
lemma trapeze_makes (F : Spec.FloatOps val u) (h0 : 0 ≤ u) (hu : u < 1) (hh : Function.Injective h) (m : ℕ) (dt : S) :
    Makes val u (m + 2) (C65.trapA (K := ℝ)) (C65.trapB (K := ℝ) m) 1 5 (h .y) dt (trapezeCalls h m dt) := by
  intro n N f θ deriv hD V r hr hdt
  simp only [trapezeCalls, outcome_bind, outcome_op] at hr
  obtain ⟨q1, rfl, q2, rfl, hr⟩ := hr
  obtain ⟨Y, hY⟩ : ∃ Y, Y = V (h .y) := ⟨_, rfl⟩
  obtain ⟨hd, hhd⟩ : ∃ hd, hd = val dt := ⟨_, rfl⟩
  have half : Rel u 2 (val dt * (1 / 2)) (val (dt / FOps.lit 2)) := by
    simpa using part_rel F h0 hu (q := 0) (k := 2) (by norm_num) (Rel.refl u (val dt))
  -- a sum of the derivatives at the start and at `z`
  let Near (w z : ℕ → S) : Prop := ‖vec N val w - (vec N val Y + val dt • ((1 / 2 : ℝ) • vec N val (deriv Y) + (1 / 2 : ℝ) • vec N val (deriv z)))‖ ≤
    kappa u 5 * (‖vec N val Y‖ + val dt * (1 / 2 * ‖vec N val (deriv Y)‖ + 1 / 2 * ‖vec N val (deriv z)‖))
  let Good (s : ℕ) (tt : ℕ → ℕ → S) : Prop :=
    ‖vec N val (tt 0) - (vec N val Y + val dt • vec N val (deriv Y))‖ ≤ kappa u 5 * (‖vec N val Y‖ + val dt * ‖vec N val (deriv Y)‖) ∧
    ∀ i, i < s → Near (tt (i + 1)) (tt i)
  have key := outcome_forN (m + 1) (fun s x =>
    (s ≤ m ∧ x.2 (h .y) = Y ∧ x.2 (h (.k 0)) = deriv Y ∧ ∃ tt : ℕ → ℕ → S, x.2 (h .t) = tt s ∧ Good s tt) ∨
    (s = m + 1 ∧ ∃ tt : ℕ → ℕ → S, Good m tt ∧ Near (x.2 (h .y)) (tt m))) (Or.inl ⟨Nat.zero_le _, by
      simp [Spec.call, put_slot' hh, hY], by simp [Spec.call, put_slot' hh, hY], fun _ => fun j => Y j + deriv Y j * dt,
      by simp [Spec.call, put_slot' hh, hY], by
        have := single_err F h0 hu N (q := 0) (c := dt) (a := 1) hdt.le (by rw [mul_one]; exact Rel.refl u _) Y (deriv Y)
        have := this.trans (mul_le_mul_of_nonneg_right (kappa_mono h0 hu (show 0 + 2 ≤ 5 by norm_num)) (by positivity))
        simpa using this, fun i hi => absurd hi (by omega)⟩) (by
    rintro s hs ⟨_, X⟩ ⟨_, X'⟩ hP ho
    rcases hP with ⟨hsm, p1, p2, tt, p3, p4, p5⟩ | ⟨rfl, -⟩
    swap; · omega
    simp only at p1 p2 p3
    simp only [outcome_bind, outcome_op] at ho
    obtain ⟨q, rfl, ho⟩ := ho
    obtain ⟨W, hW⟩ : ∃ W, W = Spec.call deriv n X (.fcompute (h .t) (h (.k 1))) := ⟨_, rfl⟩
    have w0 : W (h .y) = Y := by rw [hW]; simp [Spec.call, put_slot' hh, p1]
    have w1 : W (h (.k 0)) = deriv Y := by rw [hW]; simp [Spec.call, put_slot' hh, p2]
    have w2 : W (h (.k 1)) = deriv (tt s) := by rw [hW]; simp [Spec.call, put_slot' hh, p3]
    simp only [← hW] at ho
    by_cases hse : s = m
    · right
      rw [if_pos hse] at ho
      obtain ⟨x, hx1, hx2⟩ := inplace_err (h := h) (deriv := deriv) (n := n) F h0 hu N (L := 2) (i := 2) (q := 2) le_rfl
        (c := fun _ => dt / FOps.lit 2) (a := fun _ => 1 / 2) hdt (fun _ _ => half) (t := h .y) (fun l => slot_ne hh (by simp)) W
      refine ⟨by omega, tt, ⟨p4, by rwa [← hse]⟩, ?_⟩
      have e : X' = put W (h .y) x := by
        rw [← hx1]; exact (Prod.mk.inj ho).2
      simp only [e, put_same]
      rw [w0] at hx2
      simp only [sum_range_succ, range_zero, sum_empty, zero_add, w1, w2, hse] at hx2
      simpa [Near] using hx2
    · left
      rw [if_neg hse] at ho
      obtain ⟨x, hx1, hx2⟩ := stage_call (h := h) (deriv := deriv) (n := n) F h0 hu N (L := 2) (i := 2) (q := 2) le_rfl
        (c := fun _ => dt / FOps.lit 2) (a := fun _ => 1 / 2) hdt (fun _ _ => half) ⟨0, by norm_num, by norm_num⟩ (t := h .t)
        (fun l => slot_ne hh (by simp)) (h .y) W
      have e : X' = put W (h .t) x := by
        rw [← hx1]; exact (Prod.mk.inj ho).2
      refine ⟨by omega, by simp [e, put_slot' hh, w0], by simp [e, put_slot' hh, w1], fun i => if i = s + 1 then x else tt i,
        by simp [e, put_slot' hh], by simpa using p4, fun i hi => ?_⟩
      rcases Nat.lt_succ_iff_lt_or_eq.1 hi with hi' | rfl
      · simp only [show ¬ (i + 1 = s + 1) by omega, show ¬ (i = s + 1) by omega, if_false]
        exact p5 i hi'
      · simp only [if_true, show ¬ (i = i + 1) by omega, if_false]
        rw [w0] at hx2
        simp only [sum_range_succ, range_zero, sum_empty, zero_add, w1, w2] at hx2
        simpa [Near] using hx2) hr
  rcases key with ⟨hbad, -⟩ | ⟨-, tt, ⟨g1, g2⟩, g3⟩
  · omega
  have hκ : kappa u 5 ≥ 0 := kappa_nonneg h0 hu 5
  refine walk_one ⟨fun i => vec N val (deriv (if i = 0 then Y else tt (i - 1))), fun i => vec N val (if i = 0 then Y else tt (i - 1)),
    fun i _ => hD _, fun i hi => ?_, ?_⟩
  · rw [← hY]
    match i with
    | 0 => simp; positivity
    | 1 => simpa [C65.trapA] using g1
    | i + 2 =>
      have e1 := C65.sum_trapA (K := ℝ) (i + 2) (by omega) (fun j => vec N val (deriv (if j = 0 then Y else tt (j - 1))))
      have e2 := C65.sum_trapA (K := ℝ) (i + 2) (by omega) (fun j => ‖vec N val (deriv (if j = 0 then Y else tt (j - 1)))‖)
      have e3 : ∀ a b : ℕ, |C65.trapA (K := ℝ) a b| = C65.trapA a b := fun a b => abs_of_nonneg (by
        unfold C65.trapA; split_ifs <;> norm_num)
      simp only [smul_eq_mul] at e2
      rw [sum_congr (g := fun j => C65.trapA (K := ℝ) (i + 2) j * ‖vec N val (deriv (if j = 0 then Y else tt (j - 1)))‖) rfl
        fun j _ => by rw [e3], e1, e2]
      have := g2 i (by omega)
      simpa [Near] using this
  · rw [← hY]
    have e1 := C65.sum_trapB (K := ℝ) m (fun j => vec N val (deriv (if j = 0 then Y else tt (j - 1))))
    have e2 := C65.sum_trapB (K := ℝ) m (fun j => ‖vec N val (deriv (if j = 0 then Y else tt (j - 1)))‖)
    have e3 : ∀ b : ℕ, |C65.trapB (K := ℝ) m b| = C65.trapB m b := fun b => abs_of_nonneg (by
      unfold C65.trapB; split_ifs <;> norm_num)
    simp only [smul_eq_mul] at e2
    rw [sum_congr (g := fun j => C65.trapB (K := ℝ) m j * ‖vec N val (deriv (if j = 0 then Y else tt (j - 1)))‖) rfl
        fun j _ => by rw [e3], e1, e2]
    simpa [Near] using g3

/-! ### The table-driven solver -/

/-- The table in the number type of the program: every coefficient is correct up to one rounding. -/
structure TableOf (val : S → ℝ) (u : ℝ) (bt : BT ℝ) (btS : BT S) : Prop where
  steps : btS.steps = bt.steps
  implicit : btS.implicit = bt.implicit
  a : ∀ i j, |val (btS.a i j) - bt.a i j| ≤ u * |bt.a i j|
  b2 : ∀ i, |val (btS.b2 i) - bt.b2 i| ≤ u * |bt.b2 i|

section
variable {bt : BT ℝ} {btS : BT S} {cf : RKConf S}

lemma coef_rel (F : Spec.FloatOps val u) (h0 : 0 ≤ u) (hu : u < 1) {q : ℕ} {hR a : ℝ} {dt c : S} (hd : Rel u q hR (val dt))
    (hc : |val c - a| ≤ u * |a|) : Rel u (q + 2) (hR * a) (val (dt * c)) ∧ Rel u (q + 2) (hR * a) (val (c * dt)) := by
  have h1 : Rel u 1 a (val c) := (Rel.refl u _).round hu h0 hc
  refine ⟨mul_rel F.toFloatModel h0 hu hd h1, ?_⟩
  have := mul_rel F.toFloatModel h0 hu h1 hd
  rwa [mul_comm a, show 1 + q + 1 = q + 2 by omega] at this

/-- The stages. -/
lemma explicit_stages_outcome (F : Spec.FloatOps val u) (h0 : 0 ≤ u) (hu : u < 1) (hh : Function.Injective h)
    (ht : TableOf val u bt btS) (hc : cf.correction = false) (hrows : C16.RowsNonzero bt) {n N K q : ℕ}
    {deriv : (ℕ → S) → ℕ → S} {s : Slot} (hs : Spec.IsState s) {dt : S} {hR : ℝ} (hR0 : 0 < hR) (hd : Rel u q hR (val dt))
    (hK : q + 3 + bt.steps ≤ K) {V : Buffers S} {r : Unit × Buffers S} (hr : Outcome deriv n (rkExplicitCalls h btS cf (h s) dt) V r) :
    r.2 (h s) = V (h s) ∧ ∃ tt : ℕ → ℕ → S, ∀ i, i < bt.steps → r.2 (h (.k i)) = deriv (tt i) ∧
      ‖vec N val (tt i) - (vec N val (V (h s)) + hR • ∑ j ∈ range i, bt.a i j • vec N val (deriv (tt j)))‖ ≤
        kappa u K * (‖vec N val (V (h s))‖ + hR * ∑ j ∈ range i, |bt.a i j| * ‖vec N val (deriv (tt j))‖) := by
  have hst : s ≠ .t := by rintro rfl; exact hs
  have hsk : ∀ i, s ≠ .k i := by rintro i rfl; exact hs
  have hκ := kappa_nonneg h0 hu K
  unfold rkExplicitCalls at hr
  rw [ht.steps] at hr
  refine outcome_forN bt.steps (fun m x => x.2 (h s) = V (h s) ∧ ∃ tt : ℕ → ℕ → S, ∀ i, i < m → x.2 (h (.k i)) = deriv (tt i) ∧
      ‖vec N val (tt i) - (vec N val (V (h s)) + hR • ∑ j ∈ range i, bt.a i j • vec N val (deriv (tt j)))‖ ≤
        kappa u K * (‖vec N val (V (h s))‖ + hR * ∑ j ∈ range i, |bt.a i j| * ‖vec N val (deriv (tt j))‖))
    ⟨rfl, fun _ => V (h s), fun i hi => absurd hi (by omega)⟩ ?_ hr
  rintro m hm ⟨_, X⟩ ⟨_, X'⟩ ⟨p1, tt, p2⟩ ho
  simp only at p1 p2 ho
  have ext : ∀ z : ℕ → S, (∀ i, i < m → ∀ j ∈ range i, (if j = m then z else tt j) = tt j) := by
    intro z i hi j hj
    rw [if_neg]
    have := mem_range.1 hj
    omega
  by_cases h0m : m = 0
  · subst h0m
    simp only [rkStageCalls, if_true, outcome_op] at ho
    obtain rfl : X' = _ := (Prod.mk.inj ho).2
    refine ⟨by simp [Spec.call, put_slot' hh, hsk, p1], fun _ => V (h s), fun i hi => ?_⟩
    obtain rfl : i = 0 := by omega
    refine ⟨by simp [Spec.call, put_slot' hh, p1], ?_⟩
    simp
    positivity
  · simp only [rkStageCalls, h0m, if_false, hc, outcome_bind, outcome_op, Bool.false_eq_true] at ho
    obtain ⟨q1, rfl, ho⟩ := ho
    obtain ⟨x, hx1, hx2⟩ := stage_call (h := h) (deriv := deriv) (n := n) F h0 hu N (L := btS.steps) (i := m) (q := q + 2)
      (by rw [ht.steps]; omega) (c := fun l => dt * btS.a m l) (a := bt.a m) hR0
      (fun l _ => (coef_rel F h0 hu hd (ht.a m l)).1) (hrows m (by omega) hm) (t := h .t) (fun l => slot_ne hh (by simp)) (h s) X
    simp only [hx1] at ho
    obtain rfl : X' = _ := (Prod.mk.inj ho).2
    refine ⟨by simp [Spec.call, put_slot' hh, hsk, hst, p1], fun i => if i = m then x else tt i, fun i hi => ?_⟩
    rcases Nat.lt_succ_iff_lt_or_eq.1 hi with hi' | rfl
    · obtain ⟨g1, g2⟩ := p2 i hi'
      refine ⟨by simp [Spec.call, put_slot' hh, g1, show i ≠ m by omega], ?_⟩
      dsimp only
      rw [sum_congr rfl fun j hj => by rw [ext x i hi' j hj],
        sum_congr (g := fun j => |bt.a i j| * ‖vec N val (deriv (tt j))‖) rfl fun j hj => by rw [ext x i hi' j hj],
        if_neg (by omega)]
      exact g2
    · refine ⟨by simp [Spec.call, put_slot' hh], ?_⟩
      have e : ∀ j ∈ range i, X (h (.k j)) = deriv (if j = i then x else tt j) := by
        intro j hj
        have := mem_range.1 hj
        rw [if_neg (by omega), (p2 j this).1]
      dsimp only
      rw [if_pos rfl]
      rw [p1, sum_congr rfl fun j hj => by rw [e j hj],
        sum_congr (g := fun j => |bt.a i j| * ‖vec N val (deriv (if j = i then x else tt j))‖) rfl fun j hj => by rw [e j hj]] at hx2
      refine hx2.trans (mul_le_mul_of_nonneg_right (kappa_mono h0 hu (by omega)) (by positivity))

/-- The error estimate changes neither the state nor the stages. -/
lemma error_outcome (hh : Function.Injective h) {n : ℕ} {deriv : (ℕ → S) → ℕ → S} {V : Buffers S} {r : S × Buffers S}
    (hr : Outcome deriv n (rkErrorCalls h btS) V r) {s : Slot} (hst : s ≠ .t) : r.2 (h s) = V (h s) := by
  unfold rkErrorCalls at hr
  split_ifs at hr
  · simp only [outcome_bind, outcome_op, outcome_maxabs] at hr
    obtain ⟨q, rfl, x, rfl⟩ := hr
    simp only [Spec.call]
    rw [_root_.Spec.foldl_addTerm_other (slot_ne hh hst), put_ne _ _ (slot_ne hh hst)]
  · rw [outcome_pure] at hr
    rw [hr]

/-- The whole recursion. -/
lemma loop_outcome (F : Spec.FloatOps val u) (h0 : 0 ≤ u) (hu : u < 1) (hh : Function.Injective h) (ht : TableOf val u bt btS)
    (hi : bt.implicit = false) (hc : cf.correction = false) (hrows : C16.RowsNonzero bt) (hsub : 0 < cf.subdivisions) {n N K : ℕ}
    {f : (Fin N → ℝ) → Fin N → ℝ} {θ : ℝ} {deriv : (ℕ → S) → ℕ → S} (hD : ∀ Y, ‖vec N val (deriv Y) - f (vec N val Y)‖ ≤ θ) :
    ∀ (fuel q : ℕ) (first : Bool) (count : ℕ) (dt : S) (hR : ℝ) (s : Slot) (V : Buffers S) (r : Unit × Buffers S), Spec.IsState s → 0 < hR →
      Rel u q hR (val dt) → q + 2 * fuel + 3 + bt.steps ≤ K → Outcome deriv n (rkLoopCalls h btS cf fuel first count dt (h s)) V r →
      ∃ hs : List ℝ, hs.sum = count * hR ∧ (∀ h' ∈ hs, hR / (cf.subdivisions : ℝ) ^ fuel ≤ h' ∧ h' ≤ hR) ∧
        Walk (RoundedStep f (kappa u K) θ bt.steps bt.a bt.b2) hs (vec N val (V (h s))) (vec N val (r.2 (h s))) := by
  have hsub1 : (1 : ℝ) ≤ cf.subdivisions := by exact_mod_cast hsub
  -- the stages and the sum
  have adv : ∀ (fuel q : ℕ) (dt : S) (hR : ℝ) (s : Slot) (X X1 X2 : Buffers S) (e : S) (X3 : Buffers S), Spec.IsState s → 0 < hR →
      Rel u q hR (val dt) → q + 3 + bt.steps ≤ K → Outcome deriv n (rkExplicitCalls h btS cf (h s) dt) X ((), X1) →
      Outcome deriv n (rkErrorCalls h btS) X1 (e, X2) → Outcome deriv n (rkAdvanceCalls h btS cf (h s) dt) X2 ((), X3) →
      ∃ hs : List ℝ, hs.sum = hR ∧ (∀ h' ∈ hs, hR / (cf.subdivisions : ℝ) ^ fuel ≤ h' ∧ h' ≤ hR) ∧
        Walk (RoundedStep f (kappa u K) θ bt.steps bt.a bt.b2) hs (vec N val (X (h s))) (vec N val (X3 (h s))) := by
    intro fuel q dt hR s X X1 X2 e X3 hs hR0 hd hK o1 o2 o3
    have hst : s ≠ .t := by rintro rfl; exact hs
    have hsk : ∀ i, s ≠ .k i := by rintro i rfl; exact hs
    obtain ⟨y1, tt, hk⟩ := explicit_stages_outcome (N := N) F h0 hu hh ht hc hrows hs hR0 hd hK o1
    have y2 : X2 (h s) = X (h s) := by rw [← y1]; exact error_outcome hh o2 hst
    have k2 : ∀ i, i < bt.steps → X2 (h (.k i)) = deriv (tt i) := fun i hi' => by
      rw [← (hk i hi').1]; exact error_outcome hh o2 (by simp)
    obtain ⟨x, hx1, hx2⟩ := inplace_err (h := h) (deriv := deriv) (n := n) F h0 hu N (L := btS.steps) (i := btS.steps) (q := q + 2)
      le_rfl (c := fun l => btS.b2 l * dt) (a := bt.b2) hR0 (fun l _ => (coef_rel F h0 hu hd (ht.b2 l)).2)
      (t := h s) (fun l => slot_ne hh (hsk l).symm) X2
    simp only [rkAdvanceCalls, hc, Bool.false_eq_true, if_false, outcome_op, hx1] at o3
    obtain rfl : X3 = _ := (Prod.mk.inj o3).2
    refine ⟨[hR], by simp, fun h' h'' => ?_, _, ⟨fun i => vec N val (deriv (tt i)), fun i => vec N val (tt i), fun i _ => hD _,
      fun i hi' => (hk i hi').2, ?_⟩, rfl⟩
    · obtain rfl := List.mem_singleton.1 h''
      exact ⟨div_le_self hR0.le (one_le_pow₀ hsub1), le_rfl⟩
    · rw [put_same]
      rw [y2, ht.steps, sum_congr rfl fun i hi' => by rw [k2 i (mem_range.1 hi')],
        sum_congr (g := fun i => |bt.b2 i| * ‖vec N val (deriv (tt i))‖) rfl fun i hi' => by rw [k2 i (mem_range.1 hi')]] at hx2
      exact hx2.trans (mul_le_mul_of_nonneg_right (kappa_mono h0 hu (by omega)) (by positivity))
  intro fuel
  induction fuel with
  | zero =>
    intro q first count dt hR s V r hs hR0 hd hK hr
    unfold rkLoopCalls at hr
    refine outcome_forN count (fun m x => ∃ hs : List ℝ, hs.sum = m * hR ∧ (∀ h' ∈ hs, hR / (cf.subdivisions : ℝ) ^ 0 ≤ h' ∧ h' ≤ hR) ∧
        Walk (RoundedStep f (kappa u K) θ bt.steps bt.a bt.b2) hs (vec N val (V (h s))) (vec N val (x.2 (h s))))
      ⟨[], by simp, by simp, rfl⟩ ?_ hr
    rintro m hm ⟨_, X⟩ ⟨_, X3⟩ ⟨hs', g1, g2, g3⟩ ho
    simp only [ht.implicit, hi, Bool.false_eq_true, if_false, outcome_bind] at ho
    obtain ⟨⟨_, X1⟩, o1, ⟨e, X2⟩, o2, o3⟩ := ho
    obtain ⟨hs'', f1, f2, f3⟩ := adv 0 q dt hR s X X1 X2 e X3 hs hR0 hd (by omega) o1 o2 o3
    refine ⟨hs' ++ hs'', ?_, fun h' h'' => ?_, g3.append f3⟩
    · rw [List.sum_append, g1, f1]; push_cast; ring
    · rcases List.mem_append.1 h'' with h'' | h''
      · exact g2 h' h''
      · exact f2 h' h''
  | succ fuel ih =>
    intro q first count dt hR s V r hs hR0 hd hK hr
    unfold rkLoopCalls at hr
    refine outcome_forN count (fun m x => ∃ hs : List ℝ, hs.sum = m * hR ∧ (∀ h' ∈ hs, hR / (cf.subdivisions : ℝ) ^ (fuel + 1) ≤ h' ∧ h' ≤ hR) ∧
        Walk (RoundedStep f (kappa u K) θ bt.steps bt.a bt.b2) hs (vec N val (V (h s))) (vec N val (x.2 (h s))))
      ⟨[], by simp, by simp, rfl⟩ ?_ hr
    rintro m hm ⟨_, X⟩ ⟨_, X3⟩ ⟨hs', g1, g2, g3⟩ ho
    simp only [ht.implicit, hi, Bool.false_eq_true, if_false, outcome_bind] at ho
    obtain ⟨⟨_, X1⟩, o1, ⟨e, X2⟩, o2, o3⟩ := ho
    have hst : s ≠ .t := by rintro rfl; exact hs
    suffices hsuff : ∃ hs : List ℝ, hs.sum = hR ∧ (∀ h' ∈ hs, hR / (cf.subdivisions : ℝ) ^ (fuel + 1) ≤ h' ∧ h' ≤ hR) ∧
        Walk (RoundedStep f (kappa u K) θ bt.steps bt.a bt.b2) hs (vec N val (X (h s))) (vec N val (X3 (h s))) by
      obtain ⟨hs'', f1, f2, f3⟩ := hsuff
      refine ⟨hs' ++ hs'', ?_, fun h' h'' => ?_, g3.append f3⟩
      · rw [List.sum_append, g1, f1]; push_cast; ring
      · rcases List.mem_append.1 h'' with h'' | h''
        · exact g2 h' h''
        · exact f2 h' h''
    by_cases hdec : ((btS.embedded && FOps.lt cf.minStep dt) && FOps.lt cf.threshold e) = true
    · simp only [hdec, if_true, outcome_bind, outcome_op] at o3
      obtain ⟨q1, rfl, ⟨_, X4⟩, o4, o5⟩ := o3
      obtain rfl : X3 = _ := (Prod.mk.inj o5).2
      have y1 := (explicit_stages_outcome (N := N) F h0 hu hh ht hc hrows hs hR0 hd (K := K) (by omega) o1).1
      have y2 : X2 (h s) = X (h s) := (error_outcome hh o2 hst).trans y1
      obtain ⟨hs'', f1, f2, f3⟩ := ih (q + 2) false cf.subdivisions (dt / FOps.lit cf.subdivisions) (hR * (1 / cf.subdivisions))
        (.stack _) _ _ trivial (by positivity) (part_rel F h0 hu hsub hd) (by omega) o4
      refine ⟨hs'', ?_, fun h' h'' => ?_, ?_⟩
      · rw [f1]; field_simp
      · obtain ⟨l1, l2⟩ := f2 h' h''
        refine ⟨le_trans (le_of_eq ?_) l1, l2.trans ?_⟩
        · rw [pow_succ]; field_simp
        · rw [mul_one_div]; exact div_le_self hR0.le hsub1
      · simp only [Spec.call, put_same, y2] at f3 ⊢
        exact f3
    · simp only [hdec, if_false, Bool.false_eq_true] at o3
      exact adv (fuel + 1) q dt hR s X X1 X2 e X3 hs hR0 hd (by omega) o1 o2 o3

lemma table_makes (F : Spec.FloatOps val u) (h0 : 0 ≤ u) (hu : u < 1) (hh : Function.Injective h) (ht : TableOf val u bt btS)
    (hi : bt.implicit = false) (hc : cf.correction = false) (hrows : C16.RowsNonzero bt) (hsub : 0 < cf.subdivisions) (dt : S)
    (allocated : Bool) :
    Makes val u bt.steps bt.a bt.b2 (cf.subdivisions ^ cf.maxRecursion) (2 * cf.maxRecursion + 3 + bt.steps) (h .y) dt
      (rkCalls h btS cf dt allocated) := by
  intro n N f θ deriv hD V r hr hdt
  simp only [rkCalls, hc, Bool.and_false, Bool.false_eq_true, if_false, outcome_bind, outcome_pure] at hr
  obtain ⟨q, rfl, hr⟩ := hr
  obtain ⟨hs, h1, h2, h3⟩ := loop_outcome (K := 2 * cf.maxRecursion + 3 + bt.steps) F h0 hu hh ht hi hc hrows hsub hD cf.maxRecursion 0 (!allocated) 1 dt (val dt) .y V r trivial
    hdt (Rel.refl u _) (by omega) hr
  exact ⟨hs, by simpa using h1, fun h' h'' => by simpa using h2 h' h'', h3⟩

end

end

end NB
