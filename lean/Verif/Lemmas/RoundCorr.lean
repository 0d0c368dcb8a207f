import Verif.Lemmas.RoundSolvers
import Verif.Props.C64_KahanError

/-
Compensated sums of buffers in rounded arithmetic, and the programs of the explicit table-driven solver with correction.
-/

namespace NB

open Finset
open _root_.Spec (Buffers Outcome Terms put put_ne put_same put_put put_self outcome_bind outcome_op outcome_forN outcome_pure outcome_maxabs
  addCorrected coef_zero terms_eq slot_ne)

section
variable {S : Type} [Add S] [Sub S] [Mul S] [Neg S] [Div S] [Zero S] [One S] [FOps S] {val : S → ℝ} {u : ℝ}

/-- The product that is added. -/
def prodOf (val : S → ℝ) (V : Buffers S) (b : ℕ → ℕ) (c : ℕ → S) (j l : ℕ) : ℝ :=
  if FOps.eqb (c l) 0 then 0 else val (V (b l) j * c l)

omit [Neg S] [Div S] [One S] in
/-- Compensated addition of the terms to number `j` of a buffer. -/
lemma corr_numbers (hm : Spec.StdModel val u) (h0 : 0 ≤ u) (hu : u ≤ 1 / 100) {a corr : ℕ} (hac : a ≠ corr) {b : ℕ → ℕ} {c : ℕ → S}
    (hb : ∀ l, b l ≠ a) (hb' : ∀ l, b l ≠ corr) (V : Buffers S) (i : ℕ) (hi : 12 * (i : ℝ) * u ≤ 1) :
    ∃ x y, ((List.range i).map fun l => (b l, c l)).foldl (addCorrected a corr) V = put (put V corr y) a x ∧
      ∀ j Z, |val (V a j) - val (V corr j)| ≤ Z → |val (V corr j)| ≤ 3 * u * Z →
        |val (y j)| ≤ 3 * u * (Z + ∑ l ∈ range i, |prodOf val V b c j l|) ∧
        |val (x j) - val (y j) - (val (V a j) - val (V corr j) + ∑ l ∈ range i, prodOf val V b c j l)| ≤
          2 * u * ∑ l ∈ range i, |prodOf val V b c j l| + 12 * i * u ^ 2 * (Z + ∑ l ∈ range i, |prodOf val V b c j l|) := by
  induction i with
  | zero =>
    refine ⟨V a, V corr, by simp [put_self], fun j Z h1 h2 => ?_⟩
    simp [h2]
  | succ i ih =>
    obtain ⟨x, y, g1, g2⟩ := ih (by push_cast at hi; nlinarith)
    rw [List.range_succ, List.map_append, List.foldl_append, g1]
    simp only [List.map_cons, List.map_nil, List.foldl_cons, List.foldl_nil]
    by_cases hz : FOps.eqb (c i) 0 = true
    · refine ⟨x, y, by unfold addCorrected; rw [if_pos hz], fun j Z h1 h2 => ?_⟩
      obtain ⟨k1, k2⟩ := g2 j Z h1 h2
      have e : prodOf val V b c j i = 0 := if_pos hz
      have hZ : 0 ≤ Z := (abs_nonneg _).trans h1
      rw [sum_range_succ, sum_range_succ, e, abs_zero, add_zero, add_zero]
      refine ⟨k1, k2.trans ?_⟩
      have : 0 ≤ u ^ 2 * (Z + ∑ l ∈ range i, |prodOf val V b c j l|) := by positivity
      push_cast
      nlinarith
    · refine ⟨fun j => x j + (V (b i) j * c i - y j), fun j => ((x j + (V (b i) j * c i - y j)) - x j) - (V (b i) j * c i - y j), ?_,
        fun j Z h1 h2 => ?_⟩
      · unfold addCorrected
        rw [if_neg hz]
        simp only [put_same, put_ne _ _ hac.symm, put_ne _ _ (hb i), put_ne _ _ (hb' i)]
        funext w
        unfold put
        by_cases h1 : w = a <;> by_cases h2 : w = corr <;> simp [h1, h2]
      · obtain ⟨k1, k2⟩ := g2 j Z h1 h2
        have hZ : 0 ≤ Z := (abs_nonneg _).trans h1
        have e : prodOf val V b c j i = val (V (b i) j * c i) := if_neg hz
        obtain ⟨P, hP⟩ : ∃ P, P = ∑ l ∈ range i, |prodOf val V b c j l| := ⟨_, rfl⟩
        have hP0 : 0 ≤ P := by rw [hP]; positivity
        obtain ⟨Q, hQ⟩ : ∃ Q, Q = ∑ l ∈ range i, prodOf val V b c j l := ⟨_, rfl⟩
        have hQP : |Q| ≤ P := by rw [hQ, hP]; exact abs_sum_le_sum_abs _ _
        rw [sum_range_succ, sum_range_succ, e, ← hP, ← hQ]
        rw [← hP] at k1
        rw [← hP, ← hQ] at k2
        have hk' : 12 * (i : ℝ) * u ≤ 1 := by push_cast at hi; nlinarith
        have he3 : 2 * u * P + 12 * i * u ^ 2 * (Z + P) ≤ 3 * u * (Z + P) := by
          have h2 : (12 * i * u) * (u * (Z + P)) ≤ 1 * (u * (Z + P)) := mul_le_mul_of_nonneg_right hk' (by positivity)
          have : 0 ≤ u * Z := by positivity
          nlinarith
        obtain ⟨q1, q2⟩ := C64.kahan_step h0 hu (A := val (V a j) - val (V corr j) + Q) (X := Z + P)
          ((abs_add_le _ _).trans (add_le_add h1 hQP)) k1 k2 he3 (hm.sub (V (b i) j * c i) (y j))
          (hm.add (x j) (V (b i) j * c i - y j)) (hm.sub (x j + (V (b i) j * c i - y j)) (x j))
          (hm.sub (x j + (V (b i) j * c i - y j) - x j) (V (b i) j * c i - y j))
        refine ⟨by rw [← add_assoc]; exact q1, ?_⟩
        rw [← add_assoc, ← add_assoc]
        refine q2.trans ?_
        obtain ⟨w, hw⟩ : ∃ w, w = |val (V (b i) j * c i)| := ⟨_, rfl⟩
        have hw0 : 0 ≤ w := by rw [hw]; positivity
        rw [← hw]
        have : 0 ≤ 12 * (i : ℝ) * u ^ 2 * w := by positivity
        push_cast
        nlinarith

/-- The products are nearly exact. -/
lemma prod_near (F : Spec.FloatOps val u) (h0 : 0 ≤ u) (hu : u < 1) {V : Buffers S} {b : ℕ → ℕ} {c : ℕ → S} {j l q : ℕ} {w : ℝ}
    (h : Rel u q w (val (c l))) : |prodOf val V b c j l - w * val (V (b l) j)| ≤ kappa u (q + 1) * |w * val (V (b l) j)| := by
  unfold prodOf
  by_cases hz : FOps.eqb (c l) 0 = true
  · rw [if_pos hz, (coef_zero F hu h).1 hz]; simp
  · rw [if_neg hz]
    have h1 : Rel u (0 + q + 1) (val (V (b l) j) * w) (val (V (b l) j * c l)) := mul_rel F.toFloatModel h0 hu (Rel.refl u _) h
    have := (Err.of_rel h0 hu h1).2
    rw [mul_comm (val (V (b l) j)), zero_add] at this
    exact this

variable {h : Slot → Handle} {deriv : (ℕ → S) → ℕ → S} {n : ℕ}

/-- `fmaddn_corr`.  `Z` bounds the compensated state before the call. -/
lemma corr_err (F : Spec.FloatOps val u) (h0 : 0 ≤ u) (hu : u ≤ 1 / 100) (N : ℕ) {L i q : ℕ} (hi : i ≤ L) (hiu : 12 * (i : ℝ) * u ≤ 1)
    (hκ1 : kappa u (q + 1) ≤ 1) {c : ℕ → S} {a : ℕ → ℝ} {hR : ℝ}
    (hR0 : 0 < hR) (hc : ∀ l, l < i → Rel u q (hR * a l) (val (c l))) {t corr : ℕ} (htc : t ≠ corr) (ht : ∀ l, h (.k l) ≠ t)
    (ht' : ∀ l, h (.k l) ≠ corr) (V : Buffers S) {Z : ℝ} (hZ : ‖vec N val (V t) - vec N val (V corr)‖ ≤ Z)
    (hZc : ‖vec N val (V corr)‖ ≤ 3 * u * Z) :
    ∃ x y, Spec.call deriv n V (.fmaddnCorr t corr (kbufs h L) (buf i c) i) = put (put V corr y) t x ∧
      ‖vec N val x - vec N val y - (vec N val (V t) - vec N val (V corr) + hR • ∑ l ∈ range i, a l • vec N val (V (h (.k l))))‖ ≤
        (kappa u (q + 1) + 4 * u) * (hR * ∑ l ∈ range i, |a l| * ‖vec N val (V (h (.k l)))‖) +
          12 * i * u ^ 2 * (Z + 2 * (hR * ∑ l ∈ range i, |a l| * ‖vec N val (V (h (.k l)))‖)) ∧
      ‖vec N val y‖ ≤ 3 * u * (Z + 2 * (hR * ∑ l ∈ range i, |a l| * ‖vec N val (V (h (.k l)))‖)) := by
  have hu1 : u < 1 := by linarith
  obtain ⟨x, y, g1, g2⟩ := corr_numbers ⟨F.add, F.sub⟩ h0 hu htc (b := fun l => h (.k l)) (c := c) ht ht' V i hiu
  obtain ⟨s, hs⟩ : ∃ s, s = hR * ∑ l ∈ range i, |a l| * ‖vec N val (V (h (.k l)))‖ := ⟨_, rfl⟩
  have hs0 : 0 ≤ s := by rw [hs]; positivity
  have hZ0 : 0 ≤ Z := (norm_nonneg _).trans hZ
  have hκ := kappa_nonneg h0 hu1 (q + 1)
  have num : ∀ j : Fin N, |val (V t j) - val (V corr j)| ≤ Z ∧ |val (V corr j)| ≤ 3 * u * Z := fun j =>
    ⟨(norm_le_pi_norm (vec N val (V t) - vec N val (V corr)) j).trans hZ, (norm_le_pi_norm (vec N val (V corr)) j).trans hZc⟩
  have exact_le : ∀ j : Fin N, ∑ l ∈ range i, |hR * a l * val (V (h (.k l)) j)| ≤ s := by
    intro j
    rw [hs, mul_sum]
    refine sum_le_sum fun l _ => ?_
    rw [abs_mul, abs_mul, abs_of_pos hR0, mul_assoc]
    exact mul_le_mul_of_nonneg_left (mul_le_mul_of_nonneg_left (norm_le_pi_norm (vec N val (V (h (.k l)))) j) (abs_nonneg _)) hR0.le
  have near : ∀ j : Fin N, |∑ l ∈ range i, prodOf val V (fun l => h (.k l)) c j l - ∑ l ∈ range i, hR * a l * val (V (h (.k l)) j)| ≤
      kappa u (q + 1) * s := by
    intro j
    rw [← sum_sub_distrib]
    refine (abs_sum_le_sum_abs _ _).trans ?_
    refine (sum_le_sum fun l hl => prod_near F h0 hu1 (hc l (mem_range.1 hl))).trans ?_
    rw [← mul_sum]
    exact mul_le_mul_of_nonneg_left (exact_le j) hκ
  have size : ∀ j : Fin N, ∑ l ∈ range i, |prodOf val V (fun l => h (.k l)) c j l| ≤ 2 * s := by
    intro j
    have : ∑ l ∈ range i, |prodOf val V (fun l => h (.k l)) c j l| ≤ ∑ l ∈ range i, 2 * |hR * a l * val (V (h (.k l)) j)| := by
      refine sum_le_sum fun l hl => ?_
      have g := prod_near (V := V) (b := fun l => h (.k l)) (j := j) F h0 hu1 (hc l (mem_range.1 hl))
      have g' := mul_le_mul_of_nonneg_right hκ1 (abs_nonneg (hR * a l * val (V (h (.k l)) j)))
      have := abs_sub_abs_le_abs_sub (prodOf val V (fun l => h (.k l)) c j l) (hR * a l * val (V (h (.k l)) j))
      linarith
    rw [← mul_sum] at this
    linarith [exact_le j]
  refine ⟨x, y, ?_, ?_, ?_⟩
  · show (((kbufs h L).zip (buf i c)).take i).foldl (addCorrected t corr) V = _
    rw [terms_eq h hi]
    exact g1
  · rw [← hs, pi_norm_le_iff_of_nonneg (by positivity)]
    intro j
    rw [Real.norm_eq_abs]
    obtain ⟨n1, n2⟩ := num j
    obtain ⟨-, k2⟩ := g2 j Z n1 n2
    have e3 : (vec N val x - vec N val y - (vec N val (V t) - vec N val (V corr) + hR • ∑ l ∈ range i, a l • vec N val (V (h (.k l))))) j =
        (val (x j) - val (y j) - (val (V t j) - val (V corr j) + ∑ l ∈ range i, prodOf val V (fun l => h (.k l)) c j l)) +
        (∑ l ∈ range i, prodOf val V (fun l => h (.k l)) c j l - ∑ l ∈ range i, hR * a l * val (V (h (.k l)) j)) := by
      have : ∑ l ∈ range i, hR * a l * val (V (h (.k l)) j) = hR * ∑ l ∈ range i, a l * val (V (h (.k l)) j) := by
        rw [mul_sum]; exact sum_congr rfl fun l _ => by ring
      rw [this]
      simp [vec]
      ring
    rw [e3]
    refine (abs_add_le _ _).trans ((add_le_add k2 (near j)).trans ?_)
    have h1 : 2 * u * ∑ l ∈ range i, |prodOf val V (fun l => h (.k l)) c j l| ≤ 2 * u * (2 * s) :=
      mul_le_mul_of_nonneg_left (size j) (by positivity)
    have h2 : 12 * (i : ℝ) * u ^ 2 * (Z + ∑ l ∈ range i, |prodOf val V (fun l => h (.k l)) c j l|) ≤ 12 * i * u ^ 2 * (Z + 2 * s) :=
      mul_le_mul_of_nonneg_left (add_le_add le_rfl (size j)) (by positivity)
    linarith
  · rw [← hs, pi_norm_le_iff_of_nonneg (by positivity)]
    intro j
    rw [Real.norm_eq_abs]
    obtain ⟨n1, n2⟩ := num j
    obtain ⟨k1, -⟩ := g2 j Z n1 n2
    refine k1.trans (mul_le_mul_of_nonneg_left (add_le_add le_rfl (size j)) (by positivity))

/-! ### Steps of a compensated state -/

/-- A step of an explicit scheme with compensated sums.  The pair is the compensated state with a bound for its size; the derivatives are computed
up to `θ`, the stages up to `κ` times their size, the new state up to `κ` times the size of what is added and `ν` times its own size. -/
def CorrStep {E : Type} [NormedAddCommGroup E] [NormedSpace ℝ E] (f : E → E) (κ ν θ : ℝ) (s : ℕ) (a : ℕ → ℕ → ℝ) (b : ℕ → ℝ) (h : ℝ)
    (p p' : E × ℝ) : Prop :=
  ∃ k t : ℕ → E, (∀ i, i < s → ‖k i - f (t i)‖ ≤ θ) ∧
    (∀ i, i < s → ‖t i - (p.1 + h • ∑ j ∈ range i, a i j • k j)‖ ≤ κ * (p.2 + h * ∑ j ∈ range i, |a i j| * ‖k j‖)) ∧
    ‖p'.1 - (p.1 + h • ∑ i ∈ range s, b i • k i)‖ ≤ κ * (h * ∑ i ∈ range s, |b i| * ‖k i‖) +
      ν * (p.2 + 2 * (h * ∑ i ∈ range s, |b i| * ‖k i‖)) ∧
    p'.2 = (1 + ν) * (p.2 + 2 * (h * ∑ i ∈ range s, |b i| * ‖k i‖))

/-- The state in buffer `y` with its correction in `c`. -/
def Compensated (N : ℕ) (val : S → ℝ) (u : ℝ) (V : Buffers S) (y c : ℕ) (p : (Fin N → ℝ) × ℝ) : Prop :=
  vec N val (V y) - vec N val (V c) = p.1 ∧ ‖p.1‖ ≤ p.2 ∧ ‖vec N val (V c)‖ ≤ 3 * u * p.2

variable {bt : BT ℝ} {btS : BT S} {cf : RKConf S}

/-- The stages. -/
lemma corr_stages (F : Spec.FloatOps val u) (h0 : 0 ≤ u) (hu : u ≤ 1 / 100) (hh : Function.Injective h)
    (ht : TableOf val u bt btS) (hc : cf.correction = true) {n N K q : ℕ} (hsu : 12 * (bt.steps : ℝ) * u ≤ 1) (hK1 : kappa u K ≤ 1)
    {deriv : (ℕ → S) → ℕ → S} {s : Slot} (hs : Spec.IsState s) {dt : S} {hR : ℝ} (hR0 : 0 < hR) (hd : Rel u q hR (val dt))
    (hK : q + 3 ≤ K) {V : Buffers S} {p : (Fin N → ℝ) × ℝ} (hp : Compensated N val u V (h s) (h .ycorr) p) {r : Unit × Buffers S}
    (hr : Outcome deriv n (rkExplicitCalls h btS cf (h s) dt) V r) :
    r.2 (h s) = V (h s) ∧ r.2 (h .ycorr) = V (h .ycorr) ∧ ∃ tt : ℕ → ℕ → S, ∀ i, i < bt.steps → r.2 (h (.k i)) = deriv (tt i) ∧
      ‖vec N val (tt i) - (p.1 + hR • ∑ j ∈ range i, bt.a i j • vec N val (deriv (tt j)))‖ ≤
        (kappa u K + 12 * u) * (p.2 + hR * ∑ j ∈ range i, |bt.a i j| * ‖vec N val (deriv (tt j))‖) := by
  have hst : s ≠ .t := by rintro rfl; exact hs
  have hsc : s ≠ .ycorr := by rintro rfl; exact hs
  have hsc' : s ≠ .tcorr := by rintro rfl; exact hs
  have hsk : ∀ i, s ≠ .k i := by rintro i rfl; exact hs
  have hu1 : u < 1 := by linarith
  have hκ := kappa_nonneg h0 hu1 K
  obtain ⟨hp1, hp2, hp3⟩ := hp
  have hZ0 : 0 ≤ p.2 := (norm_nonneg _).trans hp2
  unfold rkExplicitCalls at hr
  rw [ht.steps] at hr
  refine outcome_forN bt.steps (fun m x => x.2 (h s) = V (h s) ∧ x.2 (h .ycorr) = V (h .ycorr) ∧
      ∃ tt : ℕ → ℕ → S, ∀ i, i < m → x.2 (h (.k i)) = deriv (tt i) ∧
      ‖vec N val (tt i) - (p.1 + hR • ∑ j ∈ range i, bt.a i j • vec N val (deriv (tt j)))‖ ≤
        (kappa u K + 12 * u) * (p.2 + hR * ∑ j ∈ range i, |bt.a i j| * ‖vec N val (deriv (tt j))‖))
    ⟨rfl, rfl, fun _ => V (h s), fun i hi => absurd hi (by omega)⟩ ?_ hr
  rintro m hm ⟨_, X⟩ ⟨_, X'⟩ ⟨p1, p1', tt, p2⟩ ho
  simp only at p1 p1' p2 ho
  have ext : ∀ z : ℕ → S, (∀ i, i < m → ∀ j ∈ range i, (if j = m then z else tt j) = tt j) := by
    intro z i hi j hj
    rw [if_neg]
    have := mem_range.1 hj
    omega
  by_cases h0m : m = 0
  · subst h0m
    simp only [rkStageCalls, if_true, outcome_op] at ho
    obtain rfl : X' = _ := (Prod.mk.inj ho).2
    refine ⟨by simp [Spec.call, put_slot' hh, hsk, p1], by simp [Spec.call, put_slot' hh, p1'], fun _ => V (h s), fun i hi => ?_⟩
    obtain rfl : i = 0 := by omega
    refine ⟨by simp [Spec.call, put_slot' hh, p1], ?_⟩
    simp only [range_zero, sum_empty, smul_zero, mul_zero, add_zero]
    rw [← hp1, sub_sub_cancel]
    refine hp3.trans (mul_le_mul_of_nonneg_right ?_ hZ0)
    linarith
  · simp only [rkStageCalls, h0m, if_false, hc, if_true, outcome_bind, outcome_op] at ho
    obtain ⟨q1, ⟨q2, rfl, q3, rfl, rfl⟩, ho⟩ := ho
    obtain ⟨W, hW⟩ : ∃ W, W = Spec.call deriv n (Spec.call deriv n X (.copy (h .tcorr) (h .ycorr))) (.copy (h .t) (h s)) := ⟨_, rfl⟩
    have w1 : W (h .t) = V (h s) := by rw [hW]; simp [Spec.call, put_slot' hh, p1, hsc']
    have w2 : W (h .tcorr) = V (h .ycorr) := by rw [hW]; simp [Spec.call, put_slot' hh, p1']
    have w3 : ∀ z : Slot, z ≠ .t → z ≠ .tcorr → W (h z) = X (h z) := fun z e1 e2 => by
      rw [hW]; simp [Spec.call, put_slot' hh, e1, e2]
    have hmu : 12 * (m : ℝ) * u ≤ 1 := by
      have : (m : ℝ) ≤ bt.steps := by exact_mod_cast hm.le
      nlinarith
    obtain ⟨x, y, hx1, hx2, hx3⟩ := corr_err (h := h) (deriv := deriv) (n := n) F h0 hu N (L := btS.steps) (i := m) (q := q + 2)
      (by rw [ht.steps]; omega) hmu ((kappa_mono h0 hu1 (by omega)).trans hK1) (c := fun l => dt * btS.a m l) (a := bt.a m) hR0
      (fun l _ => (coef_rel F h0 hu1 hd (ht.a m l)).1) (t := h .t) (corr := h .tcorr) (slot_ne hh (by simp)) (fun l => slot_ne hh (by simp))
      (fun l => slot_ne hh (by simp)) W (Z := p.2) (by rw [w1, w2, hp1]; exact hp2) (by rw [w2]; exact hp3)
    simp only [← hW, hx1] at ho
    obtain rfl : X' = _ := (Prod.mk.inj ho).2
    refine ⟨by simp [Spec.call, put_slot' hh, hsk, hst, hsc', w3 s hst hsc', p1],
      by simp [Spec.call, put_slot' hh, w3 .ycorr (by simp) (by simp), p1'], fun i => if i = m then x else tt i, fun i hi => ?_⟩
    rcases Nat.lt_succ_iff_lt_or_eq.1 hi with hi' | rfl
    · obtain ⟨g1, g2⟩ := p2 i hi'
      refine ⟨by simp [Spec.call, put_slot' hh, g1, w3 (.k i) (by simp) (by simp), show i ≠ m by omega], ?_⟩
      dsimp only
      rw [sum_congr rfl fun j hj => by rw [ext x i hi' j hj],
        sum_congr (g := fun j => |bt.a i j| * ‖vec N val (deriv (tt j))‖) rfl fun j hj => by rw [ext x i hi' j hj],
        if_neg (by omega)]
      exact g2
    · refine ⟨by simp [Spec.call, put_slot' hh], ?_⟩
      have e : ∀ j ∈ range i, W (h (.k j)) = deriv (if j = i then x else tt j) := by
        intro j hj
        have := mem_range.1 hj
        rw [if_neg (by omega), w3 (.k j) (by simp) (by simp), (p2 j this).1]
      dsimp only
      rw [if_pos rfl]
      obtain ⟨σ, hσ⟩ : ∃ σ, σ = hR * ∑ j ∈ range i, |bt.a i j| * ‖vec N val (deriv (if j = i then x else tt j))‖ := ⟨_, rfl⟩
      have hσ0 : 0 ≤ σ := by rw [hσ]; positivity
      rw [sum_congr (g := fun j => |bt.a i j| * ‖vec N val (deriv (if j = i then x else tt j))‖) rfl fun j hj => by rw [e j hj], ← hσ]
        at hx2 hx3
      rw [w1, w2, hp1, sum_congr rfl fun j hj => by rw [e j hj]] at hx2
      rw [← hσ]
      obtain ⟨ref, href⟩ : ∃ ref, ref = p.1 + hR • ∑ j ∈ range i, bt.a i j • vec N val (deriv (if j = i then x else tt j)) := ⟨_, rfl⟩
      rw [← href] at hx2 ⊢
      have e2 : vec N val x - ref = (vec N val x - vec N val y - ref) + vec N val y := by abel
      rw [e2]
      refine (norm_add_le _ _).trans ((add_le_add hx2 hx3).trans ?_)
      have k1 : kappa u (q + 2 + 1) * σ ≤ kappa u K * σ := mul_le_mul_of_nonneg_right (kappa_mono h0 hu1 (by omega)) hσ0
      have k2 : 12 * (i : ℝ) * u ^ 2 * (p.2 + 2 * σ) ≤ u * (p.2 + 2 * σ) := by
        have := mul_le_mul_of_nonneg_right hmu (show 0 ≤ u * (p.2 + 2 * σ) by positivity)
        nlinarith
      have k3 : 0 ≤ kappa u K * p.2 := by positivity
      have k4 : 0 ≤ u * p.2 := by positivity
      nlinarith

/-- The whole recursion. -/
lemma corr_loop (F : Spec.FloatOps val u) (h0 : 0 ≤ u) (hu : u ≤ 1 / 100) (hh : Function.Injective h) (ht : TableOf val u bt btS)
    (hi : bt.implicit = false) (hc : cf.correction = true) (hsub : 0 < cf.subdivisions) {n N K : ℕ} (hsu : 12 * (bt.steps : ℝ) * u ≤ 1)
    (hK1 : kappa u K + 12 * u ≤ 1)
    {f : (Fin N → ℝ) → Fin N → ℝ} {θ : ℝ} {deriv : (ℕ → S) → ℕ → S} (hD : ∀ Y, ‖vec N val (deriv Y) - f (vec N val Y)‖ ≤ θ) :
    ∀ (fuel q : ℕ) (first : Bool) (count : ℕ) (dt : S) (hR : ℝ) (s : Slot) (V : Buffers S) (p : (Fin N → ℝ) × ℝ) (r : Unit × Buffers S),
      Spec.IsState s → 0 < hR → Rel u q hR (val dt) → q + 2 * fuel + 3 ≤ K → Compensated N val u V (h s) (h .ycorr) p →
      Outcome deriv n (rkLoopCalls h btS cf fuel first count dt (h s)) V r →
      ∃ (hs : List ℝ) (p' : (Fin N → ℝ) × ℝ), hs.sum = count * hR ∧ (∀ h' ∈ hs, hR / (cf.subdivisions : ℝ) ^ fuel ≤ h' ∧ h' ≤ hR) ∧
        Walk (CorrStep f (kappa u K + 12 * u) (12 * bt.steps * u ^ 2) θ bt.steps bt.a bt.b2) hs p p' ∧
        Compensated N val u r.2 (h s) (h .ycorr) p' := by
  have hsub1 : (1 : ℝ) ≤ cf.subdivisions := by exact_mod_cast hsub
  have hu1 : u < 1 := by linarith
  have hκ := kappa_nonneg h0 hu1 K
  have hK1' : kappa u K ≤ 1 := by linarith
  -- the stages and the sum
  have adv : ∀ (fuel q : ℕ) (dt : S) (hR : ℝ) (s : Slot) (X X1 X2 : Buffers S) (e : S) (X3 : Buffers S) (p : (Fin N → ℝ) × ℝ),
      Spec.IsState s → 0 < hR →
      Rel u q hR (val dt) → q + 3 ≤ K → Compensated N val u X (h s) (h .ycorr) p → Outcome deriv n (rkExplicitCalls h btS cf (h s) dt) X ((), X1) →
      Outcome deriv n (rkErrorCalls h btS) X1 (e, X2) → Outcome deriv n (rkAdvanceCalls h btS cf (h s) dt) X2 ((), X3) →
      ∃ (hs : List ℝ) (p' : (Fin N → ℝ) × ℝ), hs.sum = hR ∧ (∀ h' ∈ hs, hR / (cf.subdivisions : ℝ) ^ fuel ≤ h' ∧ h' ≤ hR) ∧
        Walk (CorrStep f (kappa u K + 12 * u) (12 * bt.steps * u ^ 2) θ bt.steps bt.a bt.b2) hs p p' ∧
        Compensated N val u X3 (h s) (h .ycorr) p' := by
    intro fuel q dt hR s X X1 X2 e X3 p hs hR0 hd hK hp o1 o2 o3
    have hst : s ≠ .t := by rintro rfl; exact hs
    have hsc : s ≠ .ycorr := by rintro rfl; exact hs
    have hsk : ∀ i, s ≠ .k i := by rintro i rfl; exact hs
    obtain ⟨y1, y1', tt, hk⟩ := corr_stages (N := N) F h0 hu hh ht hc hsu hK1' hs hR0 hd hK hp o1
    obtain ⟨hp1, hp2, hp3⟩ := hp
    have hZ0 : 0 ≤ p.2 := (norm_nonneg _).trans hp2
    have y2 : X2 (h s) = X (h s) := by rw [← y1]; exact error_outcome hh o2 hst
    have y2' : X2 (h .ycorr) = X (h .ycorr) := by rw [← y1']; exact error_outcome hh o2 (by simp)
    have k2 : ∀ i, i < bt.steps → X2 (h (.k i)) = deriv (tt i) := fun i hi' => by
      rw [← (hk i hi').1]; exact error_outcome hh o2 (by simp)
    obtain ⟨x, y, hx1, hx2, hx3⟩ := corr_err (h := h) (deriv := deriv) (n := n) F h0 hu N (L := btS.steps) (i := btS.steps) (q := q + 2)
      le_rfl (by rw [ht.steps]; exact hsu) ((kappa_mono h0 hu1 (by omega)).trans hK1') (c := fun l => btS.b2 l * dt) (a := bt.b2) hR0
      (fun l _ => (coef_rel F h0 hu1 hd (ht.b2 l)).2) (t := h s) (corr := h .ycorr) (slot_ne hh hsc) (fun l => slot_ne hh (hsk l).symm)
      (fun l => slot_ne hh (by simp)) X2 (Z := p.2) (by rw [y2, y2', hp1]; exact hp2) (by rw [y2']; exact hp3)
    simp only [rkAdvanceCalls, hc, if_true, outcome_op, hx1] at o3
    obtain rfl : X3 = _ := (Prod.mk.inj o3).2
    obtain ⟨σ, hσ⟩ : ∃ σ, σ = hR * ∑ i ∈ range bt.steps, |bt.b2 i| * ‖vec N val (deriv (tt i))‖ := ⟨_, rfl⟩
    have hσ0 : 0 ≤ σ := by rw [hσ]; positivity
    rw [ht.steps, sum_congr (g := fun i => |bt.b2 i| * ‖vec N val (deriv (tt i))‖) rfl fun i hi' => by rw [k2 i (mem_range.1 hi')], ← hσ]
      at hx2 hx3
    rw [y2, y2', hp1, sum_congr rfl fun i hi' => by rw [k2 i (mem_range.1 hi')]] at hx2
    have k1 : kappa u (q + 2 + 1) ≤ kappa u K := kappa_mono h0 hu1 (by omega)
    have hν : 0 ≤ 12 * (bt.steps : ℝ) * u ^ 2 := by positivity
    have hx2' : ‖vec N val x - vec N val y - (p.1 + hR • ∑ i ∈ range bt.steps, bt.b2 i • vec N val (deriv (tt i)))‖ ≤
        (kappa u K + 12 * u) * σ + 12 * bt.steps * u ^ 2 * (p.2 + 2 * σ) :=
      hx2.trans (add_le_add (mul_le_mul_of_nonneg_right (by linarith) hσ0) le_rfl)
    have hsum : ‖hR • ∑ i ∈ range bt.steps, bt.b2 i • vec N val (deriv (tt i))‖ ≤ σ := by
      rw [hσ, norm_smul, Real.norm_eq_abs, abs_of_pos hR0]
      refine mul_le_mul_of_nonneg_left ((norm_sum_le _ _).trans (le_of_eq (sum_congr rfl fun j _ => by rw [norm_smul, Real.norm_eq_abs]))) hR0.le
    refine ⟨[hR], (vec N val x - vec N val y, (1 + 12 * bt.steps * u ^ 2) * (p.2 + 2 * σ)), by simp, fun h' h'' => ?_,
      ⟨_, ⟨fun i => vec N val (deriv (tt i)), fun i => vec N val (tt i), fun i _ => hD _,
      fun i hi' => (hk i hi').2, ?_, ?_⟩, rfl⟩, ?_, ?_, ?_⟩
    · obtain rfl := List.mem_singleton.1 h''
      exact ⟨div_le_self hR0.le (one_le_pow₀ hsub1), le_rfl⟩
    · rw [← hσ]; exact hx2'
    · rw [← hσ]
    · rw [put_same, put_ne _ _ (slot_ne hh hsc.symm), put_same]
    · dsimp only
      have e2 : vec N val x - vec N val y = (vec N val x - vec N val y - (p.1 + hR • ∑ i ∈ range bt.steps, bt.b2 i • vec N val (deriv (tt i)))) +
        (p.1 + hR • ∑ i ∈ range bt.steps, bt.b2 i • vec N val (deriv (tt i))) := by abel
      rw [e2]
      refine (norm_add_le _ _).trans ((add_le_add hx2' ((norm_add_le _ _).trans (add_le_add hp2 hsum))).trans ?_)
      have := mul_le_mul_of_nonneg_right hK1 hσ0
      linarith
    · rw [put_ne _ _ (slot_ne hh hsc.symm), put_same]
      refine hx3.trans ?_
      dsimp only
      have : 0 ≤ u * (12 * bt.steps * u ^ 2 * (p.2 + 2 * σ)) := by positivity
      linarith
  intro fuel
  induction fuel with
  | zero =>
    intro q first count dt hR s V p r hs hR0 hd hK hp hr
    unfold rkLoopCalls at hr
    refine outcome_forN count (fun m x => ∃ (hs : List ℝ) (p' : (Fin N → ℝ) × ℝ), hs.sum = m * hR ∧
        (∀ h' ∈ hs, hR / (cf.subdivisions : ℝ) ^ 0 ≤ h' ∧ h' ≤ hR) ∧
        Walk (CorrStep f (kappa u K + 12 * u) (12 * bt.steps * u ^ 2) θ bt.steps bt.a bt.b2) hs p p' ∧ Compensated N val u x.2 (h s) (h .ycorr) p')
      ⟨[], p, by simp, by simp, rfl, hp⟩ ?_ hr
    rintro m hm ⟨_, X⟩ ⟨_, X3⟩ ⟨hs', p', g1, g2, g3, g4⟩ ho
    simp only [ht.implicit, hi, Bool.false_eq_true, if_false, outcome_bind] at ho
    obtain ⟨⟨_, X1⟩, o1, ⟨e, X2⟩, o2, o3⟩ := ho
    obtain ⟨hs'', p'', f1, f2, f3, f4⟩ := adv 0 q dt hR s X X1 X2 e X3 p' hs hR0 hd (by omega) g4 o1 o2 o3
    refine ⟨hs' ++ hs'', p'', ?_, fun h' h'' => ?_, g3.append f3, f4⟩
    · rw [List.sum_append, g1, f1]; push_cast; ring
    · rcases List.mem_append.1 h'' with h'' | h''
      · exact g2 h' h''
      · exact f2 h' h''
  | succ fuel ih =>
    intro q first count dt hR s V p r hs hR0 hd hK hp hr
    unfold rkLoopCalls at hr
    refine outcome_forN count (fun m x => ∃ (hs : List ℝ) (p' : (Fin N → ℝ) × ℝ), hs.sum = m * hR ∧
        (∀ h' ∈ hs, hR / (cf.subdivisions : ℝ) ^ (fuel + 1) ≤ h' ∧ h' ≤ hR) ∧
        Walk (CorrStep f (kappa u K + 12 * u) (12 * bt.steps * u ^ 2) θ bt.steps bt.a bt.b2) hs p p' ∧ Compensated N val u x.2 (h s) (h .ycorr) p')
      ⟨[], p, by simp, by simp, rfl, hp⟩ ?_ hr
    rintro m hm ⟨_, X⟩ ⟨_, X3⟩ ⟨hs', p', g1, g2, g3, g4⟩ ho
    simp only [ht.implicit, hi, Bool.false_eq_true, if_false, outcome_bind] at ho
    obtain ⟨⟨_, X1⟩, o1, ⟨e, X2⟩, o2, o3⟩ := ho
    have hst : s ≠ .t := by rintro rfl; exact hs
    have hsc : s ≠ .ycorr := by rintro rfl; exact hs
    suffices hsuff : ∃ (hs : List ℝ) (p'' : (Fin N → ℝ) × ℝ), hs.sum = hR ∧
        (∀ h' ∈ hs, hR / (cf.subdivisions : ℝ) ^ (fuel + 1) ≤ h' ∧ h' ≤ hR) ∧
        Walk (CorrStep f (kappa u K + 12 * u) (12 * bt.steps * u ^ 2) θ bt.steps bt.a bt.b2) hs p' p'' ∧
        Compensated N val u X3 (h s) (h .ycorr) p'' by
      obtain ⟨hs'', p'', f1, f2, f3, f4⟩ := hsuff
      refine ⟨hs' ++ hs'', p'', ?_, fun h' h'' => ?_, g3.append f3, f4⟩
      · rw [List.sum_append, g1, f1]; push_cast; ring
      · rcases List.mem_append.1 h'' with h'' | h''
        · exact g2 h' h''
        · exact f2 h' h''
    by_cases hdec : ((btS.embedded && FOps.lt cf.minStep dt) && FOps.lt cf.threshold e) = true
    · simp only [hdec, if_true, outcome_bind, outcome_op] at o3
      obtain ⟨q1, rfl, ⟨_, X4⟩, o4, o5⟩ := o3
      obtain rfl : X3 = _ := (Prod.mk.inj o5).2
      obtain ⟨y1, y1', -⟩ := corr_stages (N := N) F h0 hu hh ht hc hsu hK1' hs hR0 hd (K := K) (by omega) g4 o1
      have y2 : X2 (h s) = X (h s) := (error_outcome hh o2 hst).trans y1
      have y2' : X2 (h .ycorr) = X (h .ycorr) := (error_outcome hh o2 (by simp)).trans y1'
      obtain ⟨hs'', p'', f1, f2, f3, f4⟩ := ih (q + 2) false cf.subdivisions (dt / FOps.lit cf.subdivisions) (hR * (1 / cf.subdivisions))
        (.stack _) _ p' _ trivial (by positivity) (part_rel F h0 hu1 hsub hd) (by omega) (by
          obtain ⟨c1, c2, c3⟩ := g4
          refine ⟨?_, c2, ?_⟩
          · simp only [Spec.call, put_same, put_slot' hh]
            simp [y2, y2', c1]
          · simp only [Spec.call, put_slot' hh]
            simp [y2', c3]) o4
      refine ⟨hs'', p'', ?_, fun h' h'' => ?_, f3, ?_⟩
      · rw [f1]; field_simp
      · obtain ⟨l1, l2⟩ := f2 h' h''
        refine ⟨le_trans (le_of_eq ?_) l1, l2.trans ?_⟩
        · rw [pow_succ]; field_simp
        · rw [mul_one_div]; exact div_le_self hR0.le hsub1
      · obtain ⟨c1, c2, c3⟩ := f4
        refine ⟨?_, c2, ?_⟩
        · simp only [Spec.call, put_slot' hh, if_true, hsc.symm, if_false]
          exact c1
        · simp only [Spec.call, put_slot' hh, hsc.symm, if_false]
          exact c3
    · simp only [hdec, if_false, Bool.false_eq_true] at o3
      exact adv (fuel + 1) q dt hR s X X1 X2 e X3 p' hs hR0 hd (by omega) g4 o1 o2 o3

/-- A step of the solver. -/
lemma corr_table (F : Spec.FloatOps val u) (h0 : 0 ≤ u) (hu : u ≤ 1 / 100) (hh : Function.Injective h) (ht : TableOf val u bt btS)
    (hi : bt.implicit = false) (hc : cf.correction = true) (hsub : 0 < cf.subdivisions) {n N K : ℕ} (hsu : 12 * (bt.steps : ℝ) * u ≤ 1)
    (hK : 2 * cf.maxRecursion + 3 ≤ K) (hK1 : kappa u K + 12 * u ≤ 1) {f : (Fin N → ℝ) → Fin N → ℝ} {θ : ℝ} {deriv : (ℕ → S) → ℕ → S}
    (hD : ∀ Y, ‖vec N val (deriv Y) - f (vec N val Y)‖ ≤ θ) {dt : S} (hdt : 0 < val dt) {allocated : Bool} {V : Buffers S}
    {p : (Fin N → ℝ) × ℝ} (hp : (allocated = true → Compensated N val u V (h .y) (h .ycorr) p) ∧
      (allocated = false → vec N val (V (h .y)) = p.1 ∧ ‖p.1‖ ≤ p.2))
    {r : Unit × Buffers S} (hr : Outcome deriv n (rkCalls h btS cf dt allocated) V r) :
    ∃ (hs : List ℝ) (p' : (Fin N → ℝ) × ℝ), hs.sum = val dt ∧
      (∀ h' ∈ hs, val dt / (cf.subdivisions : ℝ) ^ cf.maxRecursion ≤ h' ∧ h' ≤ val dt) ∧
      Walk (CorrStep f (kappa u K + 12 * u) (12 * bt.steps * u ^ 2) θ bt.steps bt.a bt.b2) hs p p' ∧
      Compensated N val u r.2 (h .y) (h .ycorr) p' := by
  have fin : ∀ (W : Buffers S), Compensated N val u W (h .y) (h .ycorr) p → Outcome deriv n (rkLoopCalls h btS cf cf.maxRecursion (!allocated) 1 dt (h .y)) W r →
      _ := fun W hW ho => corr_loop (K := K) F h0 hu hh ht hi hc hsub hsu hK1 hD cf.maxRecursion 0 (!allocated) 1 dt (val dt) .y W p r trivial
    hdt (Rel.refl u _) (by omega) hW ho
  simp only [Nat.cast_one, one_mul] at fin
  cases allocated with
  | true =>
    simp only [rkCalls, Bool.not_true, Bool.false_and, Bool.false_eq_true, if_false, outcome_bind, outcome_pure] at hr
    obtain ⟨q, rfl, hr⟩ := hr
    exact fin V (hp.1 rfl) hr
  | false =>
    simp only [rkCalls, hc, Bool.not_false, Bool.and_self, if_true, outcome_bind, outcome_op] at hr
    obtain ⟨q, ⟨q1, rfl, rfl⟩, hr⟩ := hr
    refine fin _ ?_ hr
    obtain ⟨c1, c2⟩ := hp.2 rfl
    have hz : vec N val (fun _ => (0 : S)) = 0 := by
      funext j; exact F.zero
    refine ⟨?_, c2, ?_⟩
    · simp only [Spec.call, put_slot' hh]
      simp [hz, c1]
    · simp only [Spec.call, put_slot' hh]
      have : 0 ≤ p.2 := (norm_nonneg _).trans c2
      simp [hz]
      positivity

end

end NB
