import Verif.Lemmas.RoundSolvers
import Verif.Lemmas.RoundPair
import Verif.Lemmas.OrderAdams
import Verif.Model.Sim

/-
Stetter's scheme and Adams-Bashforth in rounded arithmetic, as programs of calls.
-/

namespace NB

open Finset
open _root_.Spec (Buffers Outcome Allowed Terms put outcome_bind outcome_op outcome_pure foldl_err)

section
variable {S : Type} [Add S] [Sub S] [Mul S] [Neg S] [Div S] [Zero S] [One S] [FOps S] {val : S → ℝ} {u : ℝ}
variable {h : Slot → Handle} {deriv : (ℕ → S) → ℕ → S} {n : ℕ}

/-! ### Stetter's scheme -/

/-- Two terms. -/
lemma two_terms (F : Spec.FloatOps val u) (h0 : 0 ≤ u) (hu : u < 1) (N : ℕ) {q : ℕ} {c : S} {a hR : ℝ} (hR0 : 0 ≤ hR)
    (hc : Rel u q (hR * a) (val c)) {t x y : ℕ} (hx : x ≠ t) (hy : y ≠ t) (V : Buffers S) :
    ∃ z, [(x, c), (y, c)].foldl (Spec.addTerm t) V = put V t z ∧
      ‖vec N val z - (vec N val (V t) + hR • (a • (vec N val (V x) + vec N val (V y))))‖ ≤
        kappa u (q + 3) * (‖vec N val (V t)‖ + hR * (|a| * (‖vec N val (V x)‖ + ‖vec N val (V y)‖))) := by
  obtain ⟨z, h1, h2⟩ := foldl_err F h0 hu (a := t) (c := q) ([(x, c, hR * a), (y, c, hR * a)] : Terms S) (by simp [hx, hy])
    (by simp [hc]) V
  refine ⟨z, h1, ?_⟩
  have := vec_sum (N := N) (K := q + 3) (i := 2) h0 hu (x := z) (y := V t) (V := V) (hk := fun l => if l = 0 then x else y)
    (c := fun _ => c) (a := fun _ => a) hR0 (fun j => by
      have := h2 j (val (V t j)) |val (V t j)| (q + 1) le_rfl ((Err.of_rel h0 hu (Rel.refl u _)).mono h0 hu (by omega))
      simpa [List.range_succ] using this)
  simpa [sum_range_succ, smul_add, mul_add] using this

lemma stetter_outcome (F : Spec.FloatOps val u) (h0 : 0 ≤ u) (hu : u < 1) (hh : Function.Injective h) (dt : S) (fl : StetterFlags)
    {N : ℕ} {f : (Fin N → ℝ) → Fin N → ℝ} {θ : ℝ} (hD : ∀ Y, ‖vec N val (deriv Y) - f (vec N val Y)‖ ≤ θ) {V : Buffers S}
    {r : StetterFlags × Buffers S} (hr : Outcome deriv n (stetterCalls h dt fl) V r) (hdt : 0 < val dt)
    (hkept : (fl.allocated && fl.initiated) = true → V (stetterFu h fl 0) = deriv (V (h (.stack 0)))) :
    RoundedPair f (kappa u 6) θ (val dt)
      (if fl.allocated && fl.initiated then (vec N val (V (h (.stack 0))), vec N val (V (h (.stack 1))))
        else (vec N val (V (h .y)), vec N val (V (h .y))))
      (vec N val (r.2 (h (.stack 0))), vec N val (r.2 (h (.stack 1)))) ∧
    (r.1.allocated && r.1.initiated) = true ∧ r.2 (stetterFu h r.1 0) = deriv (r.2 (h (.stack 0))) ∧
    ‖vec N val (r.2 (h .y)) - (1 / 2 : ℝ) • (vec N val (r.2 (h (.stack 0))) + vec N val (r.2 (h (.stack 1))))‖ ≤
      kappa u 6 * (1 / 2 * (‖vec N val (r.2 (h (.stack 0)))‖ + ‖vec N val (r.2 (h (.stack 1)))‖)) := by
  obtain ⟨fa, fi, fs⟩ := fl
  obtain ⟨a, b, hab, hfa, hfb⟩ : ∃ a b : ℕ, a ≠ b ∧ stetterFu h ⟨fa, fi, fs⟩ 0 = h (.k a) ∧
      stetterFu h ⟨fa, fi, fs⟩ 1 = h (.k b) := by
    cases fs
    · exact ⟨0, 1, by decide, rfl, rfl⟩
    · exact ⟨1, 0, by decide, rfl, rfl⟩
  have hn0 : stetterFu h ⟨true, true, !fs⟩ 0 = h (.k b) := by
    rw [← hfb]; cases fs <;> rfl
  unfold stetterCalls at hr
  rw [hfa] at hr hkept
  rw [hfb] at hr
  rw [outcome_bind] at hr
  obtain ⟨W, hW, hr⟩ := hr
  obtain ⟨w1, w2⟩ : W.2 (h (.k a)) = deriv (W.2 (h (.stack 0))) ∧
      (if fa && fi then (vec N val (V (h (.stack 0))), vec N val (V (h (.stack 1))))
        else (vec N val (V (h .y)), vec N val (V (h .y)))) = (vec N val (W.2 (h (.stack 0))), vec N val (W.2 (h (.stack 1)))) := by
    by_cases hb : (fa && fi) = true
    · have hb' : (!fa || !fi) = false := by
        revert hb; cases fa <;> cases fi <;> simp
      rw [if_neg (by simp [hb'])] at hW
      rw [outcome_pure] at hW
      refine ⟨?_, ?_⟩
      · rw [hW]; exact hkept hb
      · rw [hW, if_pos hb]
    · have hb' : (!fa || !fi) = true := by
        revert hb; cases fa <;> cases fi <;> simp
      rw [if_pos (by simpa using hb')] at hW
      simp only [outcome_bind, outcome_op] at hW
      obtain ⟨q1, rfl, q2, rfl, rfl⟩ := hW
      refine ⟨?_, ?_⟩
      · simp [Spec.call, put_slot' hh]
      · rw [if_neg hb]
        simp [Spec.call, put_slot' hh]
  clear hW
  obtain ⟨⟨⟩, W⟩ := W
  dsimp only at hr w1 w2 ⊢
  rw [w2]
  simp only [outcome_bind, outcome_op, outcome_pure] at hr
  obtain ⟨q1, rfl, q2, rfl, q3, rfl, q4, rfl, q5, h5, q6, h6, rfl⟩ := hr
  dsimp only at h5 h6 ⊢
  obtain ⟨Y0, hY0⟩ : ∃ Y, Y = W (h (.stack 0)) := ⟨_, rfl⟩
  obtain ⟨Y1, hY1⟩ : ∃ Y, Y = W (h (.stack 1)) := ⟨_, rfl⟩
  rw [← hY0] at w1
  rw [← hY0, ← hY1]
  obtain ⟨t, ht⟩ : ∃ t : ℕ → S, t = fun j => Y1 j + deriv Y0 j * (dt / FOps.lit 2) := ⟨_, rfl⟩
  obtain ⟨Z, hZ⟩ : ∃ Z : ℕ → S, Z = fun j => Y0 j + deriv t j * dt := ⟨_, rfl⟩
  -- the buffers after the second derivative of `u`
  obtain ⟨W4, hW4⟩ : ∃ W4, W4 = Spec.call deriv n (Spec.call deriv n (Spec.call deriv n (Spec.call deriv n W
    (.fmadd (h .t) (h (.stack 1)) (h (.k a)) (dt / FOps.lit 2))) (.fcompute (h .t) (h .tmpk)))
    (.fmaddInplace (h (.stack 0)) (h .tmpk) dt)) (.fcompute (h (.stack 0)) (h (.k b))) := ⟨_, rfl⟩
  rw [← hW4] at h5
  have v0 : W4 (h (.stack 0)) = Z := by
    rw [hW4]; simp [Spec.call, put_slot' hh, w1, ← hY0, ← hY1, ← ht, hZ]
  have v1 : W4 (h (.stack 1)) = Y1 := by
    rw [hW4]; simp [Spec.call, put_slot' hh, ← hY1]
  have va : W4 (h (.k a)) = deriv Y0 := by
    rw [hW4]; simp [Spec.call, put_slot' hh, w1, hab]
  have vb : W4 (h (.k b)) = deriv Z := by
    rw [hW4]; simp [Spec.call, put_slot' hh, w1, ← hY0, ← hY1, ← ht, hZ]
  have hhalf := part_rel F h0 hu (q := 0) (k := 2) (by norm_num) (Rel.refl u (val dt))
  norm_num at hhalf
  obtain ⟨z, g1, g2⟩ := two_terms F h0 hu N (q := 2) (c := dt / FOps.lit 2) (a := 1 / 2) hdt.le (by simpa using hhalf)
    (t := h (.stack 1)) (x := h (.k a)) (y := h (.k b)) (Spec.slot_ne hh (by simp)) (Spec.slot_ne hh (by simp)) W4
  have e5 : q5.2 = put W4 (h (.stack 1)) z := by rw [h5, ← g1]; rfl
  obtain ⟨y', k1, k2⟩ := two_terms F h0 hu N (q := 3) (c := (FOps.lit 1 / FOps.lit 2 : S)) (a := 1 / 2) (hR := 1) zero_le_one
    (by
      have := part_rel F h0 hu (q := 1) (k := 2) (by norm_num) (lit_rel F h0 hu 1)
      simpa using this)
    (t := h .y) (x := h (.stack 0)) (y := h (.stack 1)) (Spec.slot_ne hh (by simp)) (Spec.slot_ne hh (by simp))
    (put q5.2 (h .y) fun _ => 0)
  have e6 : q6.2 = put (put q5.2 (h .y) fun _ => 0) (h .y) y' := by rw [h6, ← k1]; rfl
  have s0 : q6.2 (h (.stack 0)) = Z := by rw [e6, e5]; simp [put_slot' hh, v0]
  have s1 : q6.2 (h (.stack 1)) = z := by rw [e6, e5]; simp [put_slot' hh]
  have sy : q6.2 (h .y) = y' := by rw [e6]; simp [put_slot' hh]
  have sb : q6.2 (h (.k b)) = deriv Z := by rw [e6, e5]; simp [put_slot' hh, vb]
  have hz0 : vec N val (fun _ : ℕ => (0 : S)) = 0 := by
    funext j; simp [vec, firstN, F.zero]
  refine ⟨⟨vec N val (deriv Y0), vec N val (deriv t), vec N val (deriv Z), vec N val t, hD _, ?_, hD _, ?_, ?_, ?_⟩, rfl, ?_, ?_⟩
  · have := single_err F h0 hu N (q := 2) (c := dt / FOps.lit 2) (a := 1 / 2) hdt.le (by simpa using hhalf) Y1 (deriv Y0)
    rw [← ht] at this
    refine (le_of_eq ?_).trans (this.trans ?_)
    · rw [smul_smul]; congr 4; ring
    · refine (mul_le_mul_of_nonneg_right (kappa_mono h0 hu (show 4 ≤ 6 by norm_num)) (by positivity)).trans (le_of_eq ?_)
      rw [abs_of_pos (by norm_num)]; ring
  · have := single_err F h0 hu N (q := 0) (c := dt) (a := 1) hdt.le (by rw [mul_one]; exact Rel.refl u _) Y0 (deriv t)
    rw [← hZ] at this
    simp only [s0]
    refine (le_of_eq ?_).trans (this.trans ?_)
    · rw [one_smul]
    · refine (mul_le_mul_of_nonneg_right (kappa_mono h0 hu (show 2 ≤ 6 by norm_num)) (by positivity)).trans (le_of_eq ?_)
      rw [abs_one]; ring
  · simp only [s0]; exact hD _
  · simp only [s1]
    rw [v1, va, vb] at g2
    refine (le_of_eq ?_).trans (g2.trans ?_)
    · rw [smul_smul]; congr 4; ring
    · refine (mul_le_mul_of_nonneg_right (kappa_mono h0 hu (show 5 ≤ 6 by norm_num)) (by positivity)).trans (le_of_eq ?_)
      rw [abs_of_pos (by norm_num)]; ring
  · rw [hn0, sb, s0]
  · rw [sy, s0, s1]
    have t0 : (put q5.2 (h .y) fun _ => (0 : S)) (h (.stack 0)) = Z := by rw [e5]; simp [put_slot' hh, v0]
    have t1 : (put q5.2 (h .y) fun _ => (0 : S)) (h (.stack 1)) = z := by rw [e5]; simp [put_slot' hh]
    have ty : (put q5.2 (h .y) fun _ => (0 : S)) (h .y) = fun _ => 0 := by simp [put_slot' hh]
    rw [t0, t1, ty, hz0] at k2
    simpa using k2

/-! ### Adams-Bashforth -/

omit [Div S] [One S] in
/-- Buffers that the program does not mention keep their contents. -/
lemma outcome_other {α : Type} {H : ℕ → Prop} {p : Act S α} (hp : Allowed H p) {a : ℕ} (ha : ¬ H a) : ∀ {V : Buffers S} {r : α × Buffers S},
    Outcome deriv n p V r → r.2 a = V a := by
  induction p with
  | ret x => intro V r hr; obtain rfl : r = (x, V) := hr; rfl
  | call c k ih =>
    intro V r hr
    rw [ih hp.2 hr, Spec.call_other _ _ fun hm => ha (hp.1.2 a hm)]
  | norm x k ih =>
    rintro V r ⟨y, hr⟩
    exact ih y (hp.2 y) hr

omit [Add S] [Sub S] [Mul S] [Neg S] [Div S] [Zero S] [One S] [FOps S] in
lemma upd_slots {m : ℕ} {z : ℕ → S} {p : ℕ → ℕ} {g : ℕ → S} (hp : ∀ i j, i < m → j < m → p i = p j → i = j) {l : ℕ} (hl : l < m) :
    foldN m z (fun l c => upd c (p l) (g l)) (p l) = g l := by
  induction m with
  | zero => omega
  | succ m ih =>
    simp only [foldN]
    by_cases h : l = m
    · subst h; simp
    · have hne : p l ≠ p m := fun e => h (hp l m hl (Nat.lt_succ_self m) e)
      rw [upd_ne _ _ hne]
      exact ih (fun i j hi hj => hp i j (by omega) (by omega)) (by omega)

lemma slot_image {rank fnum : ℕ} (hf : fnum < rank) : (range rank).image (fun l => (rank + fnum - l) % rank) = range rank := by
  apply eq_of_subset_of_card_le
  · intro x hx
    obtain ⟨l, _, rfl⟩ := mem_image.1 hx
    exact mem_range.2 (Nat.mod_lt _ (by omega))
  · rw [card_image_of_injOn]
    intro i hi j hj h
    exact C14.slot_inj hf i j (by simpa using hi) (by simpa using hj) h

lemma slot_sum {M : Type} [AddCommMonoid M] {rank fnum : ℕ} (hf : fnum < rank) (g : ℕ → M) :
    ∑ i ∈ range rank, g i = ∑ l ∈ range rank, g ((rank + fnum - l) % rank) := by
  conv_lhs => rw [← slot_image hf]
  rw [sum_image (fun i hi j hj h => C14.slot_inj hf i j (by simpa using hi) (by simpa using hj) h)]

/-- A row of coefficients, each up to three roundings. -/
structure RowOf (val : S → ℝ) (u : ℝ) (al : List ℝ) (alS : List S) : Prop where
  length : alS.length = al.length
  near : ∀ l, l < al.length → Rel u 3 (al.getD l 0) (val (alS.getD l 0))

lemma quot_rel (F : Spec.FloatOps val u) (h0 : 0 ≤ u) (hu : u < 1) (a b : ℕ) (hb : 0 < b) :
    Rel u 3 ((a : ℝ) / b) (val (FOps.lit a / FOps.lit b : S)) ∧ Rel u 3 (-(a : ℝ) / b) (val (-FOps.lit a / FOps.lit b : S)) := by
  have hb' : (b : ℝ) ≠ 0 := by positivity
  refine ⟨div_rel F.toFloatModel h0 hu (lit_rel F h0 hu a) (lit_rel F h0 hu b) hb',
    div_rel F.toFloatModel h0 hu (k := 1) ?_ (lit_rel F h0 hu b) hb'⟩
  rw [F.neg]
  exact (lit_rel F h0 hu a).neg

/-- **The rows of the code** are the rows of the method, rounded. -/
lemma adams_row (F : Spec.FloatOps val u) (h0 : 0 ≤ u) (hu : u < 1) {rank : ℕ} {al : List ℝ} (hal : adamsTable (K := ℝ) rank = some al) :
    ∃ alS : List S, adamsRow rank = some alS ∧ RowOf val u al alS := by
  have q := fun a b hb => (quot_rel (val := val) F h0 hu a b hb)
  unfold adamsTable at hal
  unfold adamsRow
  split_ifs at hal with h1 h2 h3 h4 h5 <;> cases hal
  · refine ⟨_, if_pos h1, rfl, fun l hl => ?_⟩
    simp only [List.length_cons, List.length_nil] at hl
    interval_cases l
    exact (by simpa using lit_rel F h0 hu 1 : Rel u 1 (1 : ℝ) (val (FOps.lit 1 : S))).mono h0 hu (by norm_num)
  · refine ⟨_, by rw [if_neg h1, if_pos h2], rfl, fun l hl => ?_⟩
    simp only [List.length_cons, List.length_nil] at hl
    interval_cases l
    · simpa using (q 3 2 (by norm_num)).1
    · simpa using (q 1 2 (by norm_num)).2
  · refine ⟨_, by rw [if_neg h1, if_neg h2, if_pos h3], rfl, fun l hl => ?_⟩
    simp only [List.length_cons, List.length_nil] at hl
    interval_cases l
    · simpa using (q 23 12 (by norm_num)).1
    · simpa using (q 4 3 (by norm_num)).2
    · simpa using (q 5 12 (by norm_num)).1
  · refine ⟨_, by rw [if_neg h1, if_neg h2, if_neg h3, if_pos h4], rfl, fun l hl => ?_⟩
    simp only [List.length_cons, List.length_nil] at hl
    interval_cases l
    · simpa using (q 55 24 (by norm_num)).1
    · simpa using (q 59 24 (by norm_num)).2
    · simpa using (q 37 24 (by norm_num)).1
    · simpa using (q 3 8 (by norm_num)).2
  · refine ⟨_, by rw [if_neg h1, if_neg h2, if_neg h3, if_neg h4, if_pos h5], rfl, fun l hl => ?_⟩
    simp only [List.length_cons, List.length_nil] at hl
    interval_cases l
    · simpa using (q 1901 720 (by norm_num)).1
    · simpa using (q 1387 360 (by norm_num)).2
    · simpa using (q 109 30 (by norm_num)).1
    · simpa using (q 637 360 (by norm_num)).2
    · simpa using (q 251 720 (by norm_num)).1

/-- One step of the solver. -/
lemma adams_outcome (F : Spec.FloatOps val u) (h0 : 0 ≤ u) (hu : u < 1) (hh : Function.Injective h) (N : ℕ) {al : List ℝ} {alS : List S}
    (hrow : RowOf val u al alS) {rank : ℕ} (hlen : al.length = rank) (hr0 : 0 < rank) {α : Type} {st : Act S α} {keep : α} {d : S} (hd : 0 < val d) {k : ℕ}
    {V : Buffers S} {r : (ℕ × α) × Buffers S} (hr : Outcome deriv n (adamsCalls h alS false st keep d k) V r)
    {W : Buffers S} (hW : W = put V (h (.k (k % rank))) (deriv (V (h .y)))) :
    r.1.1 = k + 1 ∧ (k ≤ rank → Outcome deriv n st W (r.1.2, r.2)) ∧
    (rank < k → r.1.2 = keep ∧ ∃ x, r.2 = put W (h .y) x ∧
      ‖vec N val x - (vec N val (V (h .y)) + val d • ∑ l ∈ range rank, al.getD l 0 • vec N val (W (h (.k ((rank + k % rank - l) % rank)))))‖ ≤
        kappa u (5 + rank) * (‖vec N val (V (h .y))‖ +
          val d * ∑ l ∈ range rank, |al.getD l 0| * ‖vec N val (W (h (.k ((rank + k % rank - l) % rank))))‖)) := by
  have hlS : alS.length = rank := hrow.length.trans hlen
  unfold adamsCalls at hr
  simp only [hlS] at hr
  rw [outcome_bind] at hr
  obtain ⟨q1, h1, hr⟩ := hr
  rw [outcome_op] at h1
  have e1 : q1.2 = W := by rw [h1, hW]; rfl
  rw [e1] at hr
  rw [outcome_bind] at hr
  obtain ⟨q2, h2, hr⟩ := hr
  rw [outcome_pure] at hr
  subst hr
  refine ⟨rfl, fun hk => ?_, fun hk => ?_⟩
  · rw [if_neg (by omega)] at h2
    exact h2
  · rw [if_pos hk] at h2
    simp only [Bool.false_eq_true, if_false] at h2
    rw [outcome_bind] at h2
    obtain ⟨q3, h3, h4⟩ := h2
    rw [outcome_op] at h3
    rw [outcome_pure] at h4
    subst h4
    have hfn : k % rank < rank := Nat.mod_lt _ hr0
    obtain ⟨c, hc⟩ : ∃ c, c = foldN rank (fun _ => (0 : S)) (fun l coeff => upd coeff ((rank + k % rank - l) % rank) (alS.getD l 0 * d)) :=
      ⟨_, rfl⟩
    obtain ⟨a, ha⟩ : ∃ a, a = foldN rank (fun _ => (0 : ℝ)) (fun l coeff => upd coeff ((rank + k % rank - l) % rank) (al.getD l 0)) :=
      ⟨_, rfl⟩
    have hcs : ∀ l, l < rank → c ((rank + k % rank - l) % rank) = alS.getD l 0 * d := fun l hl => by
      rw [hc]; exact upd_slots (p := fun l => (rank + k % rank - l) % rank) (g := fun l => alS.getD l 0 * d) (C14.slot_inj hfn) hl
    have has : ∀ l, l < rank → a ((rank + k % rank - l) % rank) = al.getD l 0 := fun l hl => by
      rw [ha]; exact upd_slots (p := fun l => (rank + k % rank - l) % rank) (g := fun l => al.getD l 0) (C14.slot_inj hfn) hl
    rw [← hc] at h3
    obtain ⟨x, g1, g2⟩ := inplace_err (deriv := deriv) (n := n) F h0 hu N (L := rank) (i := rank) (q := 4) le_rfl (c := c) (a := a) hd (by
      intro i hi
      rw [← mem_range, ← slot_image hfn] at hi
      obtain ⟨l, hl, rfl⟩ := mem_image.1 hi
      rw [hcs l (mem_range.1 hl), has l (mem_range.1 hl)]
      have := mul_rel F.toFloatModel h0 hu (hrow.near l (by rw [hlen]; exact mem_range.1 hl)) (Rel.refl u (val d))
      rwa [mul_comm] at this) (t := h .y) (fun l => Spec.slot_ne hh (by simp)) W
    have wy : W (h .y) = V (h .y) := by rw [hW]; simp [put_slot' hh]
    refine ⟨rfl, x, by rw [h3, ← g1], ?_⟩
    rw [slot_sum hfn (fun l => a l • vec N val (W (h (.k l)))), slot_sum hfn (fun l => |a l| * ‖vec N val (W (h (.k l)))‖), wy] at g2
    have e3 : ∑ l ∈ range rank, a ((rank + k % rank - l) % rank) • vec N val (W (h (.k ((rank + k % rank - l) % rank)))) =
        ∑ l ∈ range rank, al.getD l 0 • vec N val (W (h (.k ((rank + k % rank - l) % rank)))) :=
      sum_congr rfl fun l hl => by rw [has l (mem_range.1 hl)]
    have e4 : ∑ l ∈ range rank, |a ((rank + k % rank - l) % rank)| * ‖vec N val (W (h (.k ((rank + k % rank - l) % rank))))‖ =
        ∑ l ∈ range rank, |al.getD l 0| * ‖vec N val (W (h (.k ((rank + k % rank - l) % rank))))‖ :=
      sum_congr rfl fun l hl => by rw [has l (mem_range.1 hl)]
    rw [e3, e4] at g2
    exact g2

/-- **The ring of derivatives**, in a run of the solver: before step `k` the last `rank` derivatives are there. -/
lemma adams_ring (F : Spec.FloatOps val u) (h0 : 0 ≤ u) (hu : u < 1) (hh : Function.Injective h) {al : List ℝ} {alS : List S}
    (hrow : RowOf val u al alS) {rank : ℕ} (hlen : al.length = rank) (hr0 : 0 < rank) {φ : Type} {step : φ → S → Act S φ} {Hs : ℕ → Prop}
    (hown : ∀ fl d, Allowed Hs (step fl d)) (hap : ∀ i, ¬ Hs (h (.k i))) {d : S} (hd : 0 < val d) {N : ℕ} {fl : ℕ → ℕ × φ} {V : ℕ → Buffers S}
    (hfl : (fl 0).1 = 0)
    (hrun : ∀ k, k < N → Outcome deriv n (adamsCalls h alS false (step (fl k).2 d) (fl k).2 d (fl k).1) (V k) (fl (k + 1), V (k + 1))) :
    ∀ k, k ≤ N → (fl k).1 = k ∧ ∀ j, j < k → k ≤ j + rank → V k (h (.k (j % rank))) = deriv (V j (h .y)) := by
  intro k
  induction k with
  | zero => intro _; exact ⟨hfl, fun j hj => absurd hj (by omega)⟩
  | succ k ih =>
    intro hk
    obtain ⟨i1, i2⟩ := ih (by omega)
    have hr := hrun k (by omega)
    rw [i1] at hr
    obtain ⟨W, hW⟩ : ∃ W, W = put (V k) (h (.k (k % rank))) (deriv (V k (h .y))) := ⟨_, rfl⟩
    obtain ⟨o1, o2, o3⟩ := adams_outcome F h0 hu hh 0 hrow hlen hr0 hd hr hW
    refine ⟨o1, fun j hj hjr => ?_⟩
    have hkeep : V (k + 1) (h (.k (j % rank))) = W (h (.k (j % rank))) := by
      rcases Nat.lt_or_ge rank k with hlt | hge
      · obtain ⟨-, x, e, -⟩ := o3 hlt
        have e : V (k + 1) = put W (h .y) x := e
        rw [e]
        simp [put_slot' hh]
      · exact outcome_other (hown _ _) (hap _) (o2 hge)
    rw [hkeep, hW, put_slot' hh]
    rcases Nat.lt_or_ge j k with hjk | hjk
    · have hne : j % rank ≠ k % rank := by
        intro e
        have h1 := Nat.sub_mod_eq_zero_of_mod_eq e.symm
        have h2 := Nat.mod_eq_of_lt (show k - j < rank by omega)
        omega
      rw [if_neg (by simpa using hne)]
      exact i2 j hjk (by omega)
    · obtain rfl : j = k := by omega
      rw [if_pos rfl]

end

section
variable {E : Type} [NormedAddCommGroup E] [NormedSpace ℝ E] {f : E → E} {L : ℝ} {x : ℝ → E} {T : ℝ}

/-- **Adams-Bashforth in rounded arithmetic follows a solution**, if it has been started well. -/
lemma adams_rounded (hL : 0 ≤ L) (hf : ∀ a b, ‖f a - f b‖ ≤ L * ‖a - b‖) {P : Coeffs E} (hx : Solves f T x)
    (hJ : Jet f (x '' Set.Icc 0 T) P) {X : ℝ} (hX0 : 0 ≤ X) (hX : ∀ t ∈ Set.Icc 0 T, ‖x t‖ ≤ X) {rank : ℕ} {al : List ℝ}
    (hal : adamsTable (K := ℝ) rank = some al) {p : ℕ} (hpr : p ≤ rank) :
    ∃ c δ₀, 0 ≤ c ∧ 0 < δ₀ ∧ ∀ κ θ h g M : ℝ, 0 ≤ κ → κ ≤ h → 0 ≤ θ → θ ≤ 1 → 0 < h → h ≤ δ₀ → 1 ≤ M → h ^ p ≤ g → θ ≤ g → κ / h ≤ g →
      ∀ (N : ℕ) (y D : ℕ → E), N * h ≤ T → (∀ k, k < N → ‖D k - f (y k)‖ ≤ θ) →
      (∀ k, k ≤ N → k ≤ rank + 1 → ‖y k - x (k * h)‖ + g ≤ M * (‖y 0 - x 0‖ + g)) →
      (∀ k, k < N → rank < k → ‖y (k + 1) - (y k + h • ∑ l ∈ range rank, al.getD l 0 • D (k - l))‖ ≤
        κ * (‖y k‖ + h * ∑ l ∈ range rank, |al.getD l 0| * ‖D (k - l)‖)) →
      ‖y N - x (N * h)‖ + g ≤ M * Real.exp (c * (N * h)) * (‖y 0 - x 0‖ + g) := by
  obtain ⟨hr1, hr5⟩ : 1 ≤ rank ∧ rank ≤ 5 := by
    unfold adamsTable at hal
    split_ifs at hal <;> omega
  obtain ⟨al', hal', hlen, hex, -⟩ := C15.adams_order (K := ℝ) rank hr1 hr5
  rw [hal] at hal'
  cases hal'
  rw [← hlen] at hex
  obtain ⟨C₁, δ₁, hC₁, hδ₁, htr⟩ := adams_truncation hL hf hx hJ (by omega) hex
  rw [hlen] at htr
  obtain ⟨α, hα⟩ : ∃ α, α = ∑ n ∈ range rank, |al.getD n 0| := ⟨_, rfl⟩
  have hα0 : 0 ≤ α := hα ▸ sum_nonneg fun n _ => abs_nonneg _
  obtain ⟨c₁, hc₁⟩ : ∃ c, c = 1 + ‖f 0‖ + L * (X + 1) := ⟨_, rfl⟩
  have hc₁0 : 0 ≤ c₁ := by rw [hc₁]; positivity
  obtain ⟨c₂, hc₂⟩ : ∃ c, c = X + 1 + α * c₁ := ⟨_, rfl⟩
  have hc₂0 : 0 ≤ c₂ := by rw [hc₂]; positivity
  refine ⟨α * (L + 1) + C₁ + 2 * c₂, min 1 δ₁, by positivity, lt_min one_pos hδ₁, ?_⟩
  intro κ θ h g M hκ0 hκ hθ0 hθ hh hhδ hM hg1 hg2 hg3 N y D hN hD hstart hstep
  have hh1 : h ≤ 1 := hhδ.trans (min_le_left _ _)
  have hh2 : h ≤ δ₁ := hhδ.trans (min_le_right _ _)
  have hg0 : 0 ≤ g := hθ0.trans hg2
  obtain ⟨ω, hω⟩ : ∃ ω, ω = κ / h := ⟨_, rfl⟩
  have hω0 : 0 ≤ ω := by rw [hω]; positivity
  have hω1 : ω ≤ 1 := by rw [hω]; exact (div_le_one hh).2 hκ
  have hκω : κ = ω * h := by rw [hω]; field_simp
  rw [← hω] at hg3
  have ht : ∀ k, k < N → (k : ℝ) * h + h ≤ T := by
    intro k hk
    have : (k : ℝ) + 1 ≤ N := by exact_mod_cast hk
    nlinarith
  have fin := growth (e := fun k => ‖y k - x (k * h)‖ + g) (d := fun _ => h) (M := M) (c := α * (L + 1) + C₁ + 2 * c₂) (m := rank)
    (N := N) (fun k => by positivity) hM (by positivity) (fun k _ => hh.le)
    (fun k hk hkr => by simpa using hstart k hk hkr)
    (fun k hk hkr B hB => by
      have hkr' : ((rank : ℝ) - 1) * h ≤ k * h := mul_le_mul_of_nonneg_right (by
        have : (rank : ℝ) ≤ k := by exact_mod_cast hkr.le
        linarith) hh.le
      have t1 := htr (k * h) h hh.le hh2 hkr' (ht k hk)
      have e3 : ((k + 1 : ℕ) : ℝ) * h = k * h + h := by push_cast; ring
      have hBj : ∀ j, j ≤ k → ‖y j - x (j * h)‖ ≤ B - g := fun j hj => by linarith [hB j hj]
      have hBg : g ≤ B := by have := norm_nonneg (y k - x (k * h)); linarith [hBj k le_rfl]
      have hB0 : 0 ≤ B := hg0.trans hBg
      have t2 : C₁ * h ^ (rank + 1) ≤ C₁ * B * h := by
        rw [pow_succ, ← mul_assoc]
        refine mul_le_mul_of_nonneg_right (mul_le_mul_of_nonneg_left ?_ hC₁) hh.le
        exact (pow_le_pow_of_le_one hh.le hh1 hpr).trans (hg1.trans hBg)
      -- the derivatives
      have hDx : ∀ l, l < rank → ‖D (k - l) - f (x (k * h - l * h))‖ ≤ (L + 1) * B := by
        intro l hl
        have e5 : (k : ℝ) * h - l * h = ((k - l : ℕ) : ℝ) * h := by
          rw [Nat.cast_sub (by omega)]; ring
        rw [e5]
        have b1 := hD (k - l) (by omega)
        have b2 := hf (y (k - l)) (x (((k - l : ℕ) : ℝ) * h))
        have b3 := hBj (k - l) (by omega)
        have b5 : L * ‖y (k - l) - x (((k - l : ℕ) : ℝ) * h)‖ ≤ L * B := mul_le_mul_of_nonneg_left (by linarith) hL
        refine (norm_sub_le_norm_sub_add_norm_sub _ (f (y (k - l))) _).trans ?_
        linarith
      have hy : ∀ j, j ≤ k → ‖y j‖ ≤ (X + 1) * (1 + B) := by
        intro j hj
        have a1 : ‖y j‖ ≤ ‖y j - x (j * h)‖ + ‖x (j * h)‖ := by simpa using norm_add_le (y j - x (j * h)) (x (j * h))
        have a2 : ‖x (j * h)‖ ≤ X := hX _ ⟨by positivity, by
          have : (j : ℝ) ≤ k := by exact_mod_cast hj
          have := ht k hk
          nlinarith⟩
        have a3 := hBj j hj
        have a4 : 0 ≤ X * B := by positivity
        nlinarith
      have hDs : ∀ l, l < rank → ‖D (k - l)‖ ≤ c₁ * (1 + B) := fun l hl => by
        rw [hc₁]
        exact deriv_size hL hf hθ hB0 (hD (k - l) (by omega)) (hy (k - l) (by omega))
      have hsum : ∑ l ∈ range rank, |al.getD l 0| * ‖D (k - l)‖ ≤ α * (c₁ * (1 + B)) := by
        rw [hα, sum_mul]
        exact sum_le_sum fun l hl => mul_le_mul_of_nonneg_left (hDs l (mem_range.1 hl)) (abs_nonneg _)
      have hround : ‖y (k + 1) - (y k + h • ∑ l ∈ range rank, al.getD l 0 • D (k - l))‖ ≤ 2 * c₂ * B * h := by
        refine (hstep k hk hkr).trans ?_
        have s0 : 0 ≤ ∑ l ∈ range rank, |al.getD l 0| * ‖D (k - l)‖ := sum_nonneg fun l _ => by positivity
        have a1 : ‖y k‖ + h * ∑ l ∈ range rank, |al.getD l 0| * ‖D (k - l)‖ ≤ c₂ * (1 + B) := by
          have a2 : h * ∑ l ∈ range rank, |al.getD l 0| * ‖D (k - l)‖ ≤ 1 * (α * (c₁ * (1 + B))) := mul_le_mul hh1 hsum s0 zero_le_one
          calc _ ≤ (X + 1) * (1 + B) + 1 * (α * (c₁ * (1 + B))) := add_le_add (hy k le_rfl) a2
            _ = _ := by rw [hc₂]; ring
        have a3 : ω * (1 + B) ≤ 2 * B := by
          have : ω * B ≤ 1 * B := mul_le_mul_of_nonneg_right hω1 hB0
          linarith
        calc _ ≤ κ * (c₂ * (1 + B)) := mul_le_mul_of_nonneg_left a1 hκ0
          _ = c₂ * (ω * (1 + B)) * h := by rw [hκω]; ring
          _ ≤ c₂ * (2 * B) * h := by gcongr
          _ = _ := by ring
      have hlin : ‖h • ∑ l ∈ range rank, al.getD l 0 • (D (k - l) - f (x (k * h - l * h)))‖ ≤ h * (α * ((L + 1) * B)) := by
        rw [norm_smul, Real.norm_of_nonneg hh.le]
        refine mul_le_mul_of_nonneg_left ((norm_sum_le _ _).trans ?_) hh.le
        rw [hα, sum_mul]
        refine sum_le_sum fun l hl => ?_
        rw [norm_smul, Real.norm_eq_abs]
        exact mul_le_mul_of_nonneg_left (hDx l (mem_range.1 hl)) (abs_nonneg _)
      have e4 : y (k + 1) - x (k * h + h) = (y (k + 1) - (y k + h • ∑ l ∈ range rank, al.getD l 0 • D (k - l))) +
          ((y k - x (k * h)) + h • ∑ l ∈ range rank, al.getD l 0 • (D (k - l) - f (x (k * h - l * h)))) -
          (x (k * h + h) - x (k * h) - h • ∑ l ∈ range rank, al.getD l 0 • f (x (k * h - l * h))) := by
        simp only [smul_sub, sum_sub_distrib]
        abel
      show ‖y (k + 1) - x (((k + 1 : ℕ) : ℝ) * h)‖ + g ≤ (1 + (α * (L + 1) + C₁ + 2 * c₂) * h) * B
      rw [e3, e4]
      have a9 := (norm_sub_le _ _).trans (add_le_add ((norm_add_le _ _).trans (add_le_add hround ((norm_add_le _ _).trans
        (add_le_add (hBj k le_rfl) hlin)))) (t1.trans t2))
      have e9 : (1 + (α * (L + 1) + C₁ + 2 * c₂) * h) * B = 2 * c₂ * B * h + (B + h * (α * ((L + 1) * B))) + C₁ * B * h := by ring
      linarith)
  simpa using fin

end

end NB
